import Verif.Proofs.Samples
import Verif.Props.MatrixAccess

/-!
# C04 – C08, C15: matrix algebra

Statements over `Fl ℝ` are in exact arithmetic (`ReadsR`: all entries finite, with the given real values); statements over
`Fl K` hold for every float format, including NaN, infinities, signed zeros and rounding.
-/

set_option linter.unusedSectionVars false
set_option autoImplicit false

namespace Mazth

variable {K : Type} [Field K] [LinearOrder K] [Fmt K]

/-! ## C04 -/

/-- C04: the product of two matrices of equal layout is the mathematical product (and keeps the layout). -/
theorem C04_mul (t : MatTy) (a b : t.Ty (Fl ℝ)) (A B : Matrix (Fin t.dim) (Fin t.dim) ℝ) (ha : t.ReadsR a A)
    (hb : t.ReadsR b B) (hl : t.isRowMajor a = t.isRowMajor b) :
    ∃ m, t.mul a b = .ok (some m) ∧ t.isRowMajor m = t.isRowMajor a ∧ t.ReadsR m (A * B) := by
  obtain ⟨m, hm, hf, hi⟩ := t.mul_idx a b hl
  refine ⟨m, hm, hf, MatTy.readsR_iff.mpr fun i j => ?_⟩
  rw [hi, Matrix.mul_apply]
  exact t.dotL_is _ _ _ _ (MatTy.readsR_iff.mp ha i) fun k => MatTy.readsR_iff.mp hb k j

/-- concrete case: two column-major matrices -/
example : ∃ m, (mat3R smp3 false).mul (mat3R smp3' false) = .ok (some m) ∧ MatTy.ReadsR .mat3 m !![4, 9, 13; 13, 21, 28; 22, 34, 47] := by
  obtain ⟨m, h, -, r⟩ := C04_mul .mat3 _ _ _ _ (mat3R_reads smp3 false) (mat3R_reads smp3' false) (mat3R_flags _ _ _)
  have e : smp3 * smp3' = !![4, 9, 13; 13, 21, 28; 22, 34, 47] := by
    ext i j
    fin_cases i <;> fin_cases j <;> simp [smp3, smp3', Matrix.mul_apply, Fin.sum_univ_three] <;> norm_num
  exact ⟨m, h, e ▸ r⟩

/-- C04: `mul` panics exactly when the layout flags differ (on all floats), and never returns `None`. -/
theorem C04_panic (t : MatTy) (a b : t.Ty (Fl K)) :
    (t.isRowMajor a ≠ t.isRowMajor b ↔ ∃ p, t.mul a b = .error p) ∧
      (t.isRowMajor a ≠ t.isRowMajor b → t.mul a b = .error .assertFailed) ∧ t.mul a b ≠ .ok none := by
  by_cases h : t.isRowMajor a = t.isRowMajor b
  · obtain ⟨m, hm, -, -⟩ := t.mul_idx a b h
    simp [h, hm]
  · simp [h, t.mul_panic a b h]

/-- concrete case: mixed storage orders -/
example : (mat3R smp3 true).mul (mat3R smp3' false) = .error .assertFailed := (C04_panic .mat3 _ _).2.1 (mat3R_flags_ne _ _)

/-- C04: the product is associative. -/
theorem C04_assoc (t : MatTy) (a b c : t.Ty (Fl ℝ)) (A B C : Matrix (Fin t.dim) (Fin t.dim) ℝ) (ha : t.ReadsR a A)
    (hb : t.ReadsR b B) (hc : t.ReadsR c C) (hab : t.isRowMajor a = t.isRowMajor b)
    (hbc : t.isRowMajor b = t.isRowMajor c) :
    ∃ ab ab_c bc a_bc, t.mul a b = .ok (some ab) ∧ t.mul ab c = .ok (some ab_c) ∧ t.mul b c = .ok (some bc) ∧
      t.mul a bc = .ok (some a_bc) ∧ ∃ M, t.ReadsR ab_c M ∧ t.ReadsR a_bc M := by
  obtain ⟨ab, h1, f1, r1⟩ := C04_mul t a b A B ha hb hab
  obtain ⟨abc, h2, f2, r2⟩ := C04_mul t ab c _ C r1 hc (by rw [f1, hab, hbc])
  obtain ⟨bc, h3, f3, r3⟩ := C04_mul t b c B C hb hc hbc
  obtain ⟨a_bc, h4, f4, r4⟩ := C04_mul t a bc A _ ha r3 (by rw [f3, hab])
  exact ⟨ab, abc, bc, a_bc, h1, h2, h3, h4, _, r2, by rw [Matrix.mul_assoc]; exact r4⟩

/-- concrete case -/
example := C04_assoc .mat3 _ _ _ _ _ _ (mat3R_reads smp3 false) (mat3R_reads smp3' false) (mat3R_reads smp3.transpose false)
  (mat3R_flags _ _ _) (mat3R_flags _ _ _)

theorem iden_readsR (t : MatTy) : t.ReadsR (t.iden : t.Ty (Fl ℝ)) (1 : Matrix (Fin t.dim) (Fin t.dim) ℝ) := by
  rw [MatTy.readsR_iff]
  intro i j
  rw [MatTy.reads_iff.mp (C01_iden t).1, Matrix.one_apply]
  split
  · exact Fl.is_one
  · exact Fl.is_zero

/-- C04: `iden()` is neutral on both sides for row-major matrices (`iden()` is row-major; for a column-major operand
`mul` panics by `C04_panic`). -/
theorem C04_iden (t : MatTy) (a : t.Ty (Fl ℝ)) (A : Matrix (Fin t.dim) (Fin t.dim) ℝ) (ha : t.ReadsR a A)
    (hl : t.isRowMajor a = true) :
    (∃ m, t.mul a t.iden = .ok (some m) ∧ t.ReadsR m A) ∧ ∃ m, t.mul t.iden a = .ok (some m) ∧ t.ReadsR m A := by
  have hi := (C01_iden (K := ℝ) t).2
  obtain ⟨m, h1, -, r1⟩ := C04_mul t a t.iden A 1 ha (iden_readsR t) (by rw [hl, hi])
  obtain ⟨m', h2, -, r2⟩ := C04_mul t t.iden a 1 A (iden_readsR t) ha (by rw [hl, hi])
  exact ⟨⟨m, h1, by simpa using r1⟩, m', h2, by simpa using r2⟩

/-- concrete case -/
example := C04_iden .mat4 _ _ (mat4R_reads smp4 true) (mat4R_flag _ _)

/-- C04: transposition reverses products. -/
theorem C04_transpose (t : MatTy) (a b : t.Ty (Fl ℝ)) (A B : Matrix (Fin t.dim) (Fin t.dim) ℝ) (ha : t.ReadsR a A)
    (hb : t.ReadsR b B) (hl : t.isRowMajor a = t.isRowMajor b) :
    ∃ m m', t.mul a b = .ok (some m) ∧ t.mul (t.transpose b) (t.transpose a) = .ok (some m') ∧
      ∃ M, t.ReadsR (t.transpose m) M ∧ t.ReadsR m' M := by
  have tr : ∀ (a : t.Ty (Fl ℝ)) A, t.ReadsR a A → t.ReadsR (t.transpose a) A.transpose := by
    intro a A h
    rw [MatTy.readsR_iff] at *
    intro i j; rw [MatTy.idx_transpose]; exact h j i
  obtain ⟨m, h1, -, r1⟩ := C04_mul t a b A B ha hb hl
  obtain ⟨m', h2, -, r2⟩ := C04_mul t _ _ _ _ (tr b B hb) (tr a A ha) (by rw [MatTy.transpose_flag, MatTy.transpose_flag, hl])
  exact ⟨m, m', h1, h2, _, tr m _ r1, by rw [Matrix.transpose_mul]; exact r2⟩

/-- concrete case -/
example := C04_transpose .mat3 _ _ _ _ (mat3R_reads smp3 false) (mat3R_reads smp3' false) (mat3R_flags _ _ _)

/-- concrete real matrices are readable in both layouts -/
example (f : Bool) : MatTy.ReadsR .mat3
    (Mat3.init #v[.fin 1, .fin 2, .fin 3, .fin 4, .fin 5, .fin 6, .fin 7, .fin 8, .nzero] f)
    !![1, 2, 3; 4, 5, 6; 7, 8, 0] := by
  rw [MatTy.readsR_iff]
  intro i j
  change Fl.Is ((Mat3.init _ f).idx i j) _
  rw [Mat3.idx_init]
  fin_cases i <;> fin_cases j <;> rfl

/-! ## C05 -/

/-- C05: `mul`: the same logical operands in two layouts give bit-identical logical results. -/
theorem C05_mul (t : MatTy) (a a' b b' : t.Ty (Fl K)) (A B : Matrix (Fin t.dim) (Fin t.dim) (Fl K))
    (ha : t.Reads a A) (ha' : t.Reads a' A) (hb : t.Reads b B) (hb' : t.Reads b' B)
    (hl : t.isRowMajor a = t.isRowMajor b) (hl' : t.isRowMajor a' = t.isRowMajor b') :
    ∃ m m' M, t.mul a b = .ok (some m) ∧ t.mul a' b' = .ok (some m') ∧ t.Reads m M ∧ t.Reads m' M := by
  rw [MatTy.reads_iff] at ha ha' hb hb'
  obtain ⟨m, h1, -, r1⟩ := t.mul_idx a b hl
  obtain ⟨m', h2, -, r2⟩ := t.mul_idx a' b' hl'
  refine ⟨m, m', t.idx m, h1, h2, MatTy.reads_self m, MatTy.reads_iff.mpr fun i j => ?_⟩
  rw [r1, r2]
  simp only [hb, hb', funext (ha i), funext (ha' i)]

/-- concrete case: binary64 entries, the two storage orders -/
example := C05_mul .mat3 _ _ _ _ _ _ (mat3Of_reads tameM true) (mat3Of_reads tameM false) (mat3Of_reads wildM true) (mat3Of_reads wildM false) rfl rfl

/-- C05: matrix times column vector. -/
theorem C05_mulCol (t : MatTy) (a a' : t.Ty (Fl K)) (A : Matrix (Fin t.dim) (Fin t.dim) (Fl K)) (ha : t.Reads a A)
    (ha' : t.Reads a' A) (v : t.col.Ty (Fl K)) : t.mulCol a v = t.mulCol a' v := by
  rw [MatTy.reads_iff] at ha ha'
  obtain ⟨c, h1, r1⟩ := t.mulCol_get a v
  obtain ⟨c', h2, r2⟩ := t.mulCol_get a' v
  rw [h1, h2]; congr 1
  refine VecTy.ext_get fun i => ?_
  have := r1 (i.cast t.col_dim)
  rw [show (i.cast t.col_dim).cast t.col_dim.symm = i from rfl] at this
  rw [this, ← show (i.cast t.col_dim).cast t.col_dim.symm = i from rfl, r2]
  simp only [funext (ha _), funext (ha' _)]; rfl

/-- concrete case -/
example : (mat3Of wildM true).mulMat3x1 tame3 = (mat3Of wildM false).mulMat3x1 tame3 :=
  C05_mulCol .mat3 _ _ _ (mat3Of_reads wildM true) (mat3Of_reads wildM false) tame3

/-- C05: row vector times matrix. -/
theorem C05_rowMul (t : MatTy) (a a' : t.Ty (Fl K)) (A : Matrix (Fin t.dim) (Fin t.dim) (Fl K)) (ha : t.Reads a A)
    (ha' : t.Reads a' A) (v : t.row.Ty (Fl K)) : t.rowMul v a = t.rowMul v a' := by
  rw [MatTy.reads_iff] at ha ha'
  obtain ⟨c, h1, r1⟩ := t.rowMul_get a v
  obtain ⟨c', h2, r2⟩ := t.rowMul_get a' v
  rw [h1, h2]; congr 1
  refine VecTy.ext_get fun i => ?_
  have := r1 (i.cast t.row_dim)
  rw [show (i.cast t.row_dim).cast t.row_dim.symm = i from rfl] at this
  rw [this, ← show (i.cast t.row_dim).cast t.row_dim.symm = i from rfl, r2]
  simp only [ha, ha']; rfl

/-- concrete case -/
example : tame3.transpose.mulMat3x3 (mat3Of wildM true) = tame3.transpose.mulMat3x3 (mat3Of wildM false) :=
  C05_rowMul .mat3 _ _ _ (mat3Of_reads wildM true) (mat3Of_reads wildM false) tame3.transpose

/-- C05: transposition, scaling, homogeneous normalisation. -/
theorem C05_unary (t : MatTy) (a a' : t.Ty (Fl K)) (A : Matrix (Fin t.dim) (Fin t.dim) (Fl K)) (ha : t.Reads a A)
    (ha' : t.Reads a' A) (s : Fl K) :
    (∃ M, t.Reads (t.transpose a) M ∧ t.Reads (t.transpose a') M) ∧
    (∃ m m' M, t.scale a s = some m ∧ t.scale a' s = some m' ∧ t.Reads m M ∧ t.Reads m' M) ∧
    (∃ m m' M, t.normalize a = some m ∧ t.normalize a' = some m' ∧ t.Reads m M ∧ t.Reads m' M) ∧
    t.trace a = t.trace a' := by
  refine ⟨⟨_, (C03_transpose t a A ha).1, (C03_transpose t a' A ha').1⟩, ?_⟩
  rw [MatTy.reads_iff] at ha ha'
  refine ⟨?_, ?_, ?_⟩
  · obtain ⟨m, h1, -, r1⟩ := t.scale_idx a s
    obtain ⟨m', h2, -, r2⟩ := t.scale_idx a' s
    refine ⟨m, m', t.idx m, h1, h2, MatTy.reads_self m, MatTy.reads_iff.mpr fun i j => ?_⟩
    rw [r1, r2, ha, ha']
  · obtain ⟨m, h1, -, r1⟩ := t.normalize_idx a
    obtain ⟨m', h2, -, r2⟩ := t.normalize_idx a'
    refine ⟨m, m', t.idx m, h1, h2, MatTy.reads_self m, MatTy.reads_iff.mpr fun i j => ?_⟩
    rw [r1, r2, ha, ha', ha, ha']
  · rw [MatTy.trace_eq, MatTy.trace_eq]; simp only [ha, ha']

/-- concrete case -/
example := C05_unary .mat3 _ _ _ (mat3Of_reads wildM true) (mat3Of_reads wildM false) (.fin (1 / 2 : ℚ))

/-- C05: element-wise operations of equal-layout operands. -/
theorem C05_elementwise (t : MatTy) (a a' b b' : t.Ty (Fl K)) (A B : Matrix (Fin t.dim) (Fin t.dim) (Fl K))
    (ha : t.Reads a A) (ha' : t.Reads a' A) (hb : t.Reads b B) (hb' : t.Reads b' B)
    (hl : t.isRowMajor a = t.isRowMajor b) (hl' : t.isRowMajor a' = t.isRowMajor b') :
    (∃ m m' M, t.plus a b = some m ∧ t.plus a' b' = some m' ∧ t.Reads m M ∧ t.Reads m' M) ∧
    (∃ m m' M, t.minus a b = some m ∧ t.minus a' b' = some m' ∧ t.Reads m M ∧ t.Reads m' M) ∧
    (∃ m m' M, t.mulElem a b = some m ∧ t.mulElem a' b' = some m' ∧ t.Reads m M ∧ t.Reads m' M) ∧
    (∃ m m' M, t.div a b = some m ∧ t.div a' b' = some m' ∧ t.Reads m M ∧ t.Reads m' M) := by
  rw [MatTy.reads_iff] at ha ha' hb hb'
  refine ⟨?_, ?_, ?_, ?_⟩
  · obtain ⟨m, h1, -, r1⟩ := t.plus_idx a b hl
    obtain ⟨m', h2, -, r2⟩ := t.plus_idx a' b' hl'
    exact ⟨m, m', t.idx m, h1, h2, MatTy.reads_self m, MatTy.reads_iff.mpr fun i j => by rw [r1, r2, ha, ha', hb, hb']⟩
  · obtain ⟨m, h1, -, r1⟩ := t.minus_idx a b hl
    obtain ⟨m', h2, -, r2⟩ := t.minus_idx a' b' hl'
    exact ⟨m, m', t.idx m, h1, h2, MatTy.reads_self m, MatTy.reads_iff.mpr fun i j => by rw [r1, r2, ha, ha', hb, hb']⟩
  · obtain ⟨m, h1, -, r1⟩ := t.mulElem_idx a b hl
    obtain ⟨m', h2, -, r2⟩ := t.mulElem_idx a' b' hl'
    exact ⟨m, m', t.idx m, h1, h2, MatTy.reads_self m, MatTy.reads_iff.mpr fun i j => by rw [r1, r2, ha, ha', hb, hb']⟩
  · obtain ⟨m, h1, -, r1⟩ := t.div_idx a b hl
    obtain ⟨m', h2, -, r2⟩ := t.div_idx a' b' hl'
    exact ⟨m, m', t.idx m, h1, h2, MatTy.reads_self m, MatTy.reads_iff.mpr fun i j => by rw [r1, r2, ha, ha', hb, hb']⟩

/-- concrete case -/
example := C05_elementwise .mat3 _ _ _ _ _ _ (mat3Of_reads tameM true) (mat3Of_reads tameM false) (mat3Of_reads wildM true)
  (mat3Of_reads wildM false) rfl rfl

/-- C05: block extraction. -/
theorem C05_submat {α : Type} (a a' : Mat4 α) (A : Matrix (Fin 4) (Fin 4) α) (ha : MatTy.Reads .mat4 a A)
    (ha' : MatTy.Reads .mat4 a' A) :
    ∃ M, MatTy.Reads .mat3 a.submatMat3 M ∧ MatTy.Reads .mat3 a'.submatMat3 M :=
  ⟨_, (C16_submat a A ha).1, (C16_submat a' A ha').1⟩

/-- concrete case -/
example := C05_submat _ _ _ (mat4Of_reads (!![0, 1, 2, 3; 4, 5, 6, 7; 8, 9, 10, 11; 12, 13, 14, 15] : Matrix _ _ ℕ) true)
  (mat4Of_reads (!![0, 1, 2, 3; 4, 5, 6, 7; 8, 9, 10, 11; 12, 13, 14, 15] : Matrix _ _ ℕ) false)

/-- C05: `Mat4::inverse` depends only on the logical matrix. -/
theorem C05_inverse4 (a a' : Mat4 (Fl K)) (A : Matrix (Fin 4) (Fin 4) (Fl K)) (ha : MatTy.Reads .mat4 a A)
    (ha' : MatTy.Reads .mat4 a' A) : a.inverse = a'.inverse := by
  rw [MatTy.reads_iff] at ha ha'
  have h : ∀ i j, a.idx i j = a'.idx i j := fun i j => (ha i j).trans (ha' i j).symm
  have e : a.inverseAdj = a'.inverseAdj := by unfold Mat4.inverseAdj; simp only [h]
  unfold Mat4.inverse
  rw [e]; simp only [h]

/-- concrete case -/
example : (mat4R smp4 true).inverse = (mat4R smp4 false).inverse := 
  C05_inverse4 _ _ (smp4.map Fl.fin) (mat4Of_reads (smp4.map Fl.fin) true) (mat4Of_reads (smp4.map Fl.fin) false)

/-- the two layouts of one logical matrix really are different values, with the same logical content -/
example : (Mat3.init #v[10, 11, 12, 20, 21, 22, 30, 31, 32] true).val ≠
    (Mat3.init #v[10, 11, 12, 20, 21, 22, 30, 31, 32] false).val := by decide

/-! ## C06 -/

/-- C06: matrix times column vector is `Matrix.mulVec`. -/
theorem C06_mulCol (t : MatTy) (a : t.Ty (Fl ℝ)) (v : t.col.Ty (Fl ℝ)) (A : Matrix (Fin t.dim) (Fin t.dim) ℝ)
    (x : Fin t.dim → ℝ) (ha : t.ReadsR a A) (hv : t.ColReadsR v x) :
    ∃ c, t.mulCol a v = some c ∧ t.ColReadsR c (A.mulVec x) := by
  rw [MatTy.readsR_iff] at ha
  rw [MatTy.colReadsR_iff] at hv
  obtain ⟨c, h, r⟩ := t.mulCol_get a v
  refine ⟨c, h, MatTy.colReadsR_iff.mpr fun i => ?_⟩
  rw [r]
  exact t.dotL_is _ _ _ _ (ha i) hv

/-- concrete case: `smp3 · (1, 0, 2) = (7, 16, 27)` -/
example : ∃ c, (mat3R smp3 false).mulMat3x1 (vec3R 1 0 2) = some c ∧ VecTy.ReadsR .mat3x1 c ![7, 16, 27] := by
  obtain ⟨c, h, r⟩ := C06_mulCol .mat3 _ _ _ ![1, 0, 2] (mat3R_reads smp3 false) (vec3R_reads 1 0 2)
  have e : smp3.mulVec ![1, 0, 2] = ![7, 16, 27] := by
    ext i; fin_cases i <;> simp [smp3, Matrix.mulVec, dotProduct, Fin.sum_univ_three] <;> norm_num
  exact ⟨c, h, e ▸ r⟩

/-- C06: row vector times matrix is `Matrix.vecMul`. -/
theorem C06_rowMul (t : MatTy) (a : t.Ty (Fl ℝ)) (v : t.row.Ty (Fl ℝ)) (A : Matrix (Fin t.dim) (Fin t.dim) ℝ)
    (x : Fin t.dim → ℝ) (ha : t.ReadsR a A) (hv : t.RowReadsR v x) :
    ∃ c, t.rowMul v a = some c ∧ t.RowReadsR c (Matrix.vecMul x A) := by
  rw [MatTy.readsR_iff] at ha
  rw [MatTy.rowReadsR_iff] at hv
  obtain ⟨c, h, r⟩ := t.rowMul_get a v
  refine ⟨c, h, MatTy.rowReadsR_iff.mpr fun i => ?_⟩
  rw [r]
  refine (t.dotL_is _ _ (fun k => A k i) x (fun k => ha k i) hv).cast ?_
  simp only [Matrix.vecMul, dotProduct, mul_comm]

/-- concrete case -/
example := C06_rowMul .mat3 _ (⟨#v[.fin 1, .fin 0, .fin 2]⟩ : Mat1x3 (Fl ℝ)) _ ![1, 0, 2] (mat3R_reads smp3 false)
  (MatTy.rowReadsR_iff.mpr fun i => by fin_cases i <;> exact Fl.is_fin _)

/-- C06: `(A*B)v = A(Bv)` and `(vA)B = v(A*B)`. -/
theorem C06_compose (t : MatTy) (a b : t.Ty (Fl ℝ)) (v : t.col.Ty (Fl ℝ)) (u : t.row.Ty (Fl ℝ))
    (A B : Matrix (Fin t.dim) (Fin t.dim) ℝ) (x y : Fin t.dim → ℝ) (ha : t.ReadsR a A) (hb : t.ReadsR b B)
    (hl : t.isRowMajor a = t.isRowMajor b) (hv : t.ColReadsR v x) (hu : t.RowReadsR u y) :
    ∃ ab, t.mul a b = .ok (some ab) ∧
      (∃ abv bv a_bv r, t.mulCol ab v = some abv ∧ t.mulCol b v = some bv ∧ t.mulCol a bv = some a_bv ∧
        t.ColReadsR abv r ∧ t.ColReadsR a_bv r) ∧
      (∃ u_ab ua ua_b r, t.rowMul u ab = some u_ab ∧ t.rowMul u a = some ua ∧ t.rowMul ua b = some ua_b ∧
        t.RowReadsR u_ab r ∧ t.RowReadsR ua_b r) := by
  obtain ⟨ab, h1, -, r1⟩ := C04_mul t a b A B ha hb hl
  obtain ⟨abv, h2, r2⟩ := C06_mulCol t ab v _ x r1 hv
  obtain ⟨bv, h3, r3⟩ := C06_mulCol t b v _ x hb hv
  obtain ⟨a_bv, h4, r4⟩ := C06_mulCol t a bv _ _ ha r3
  obtain ⟨u_ab, h5, r5⟩ := C06_rowMul t ab u _ y r1 hu
  obtain ⟨ua, h6, r6⟩ := C06_rowMul t a u _ y ha hu
  obtain ⟨ua_b, h7, r7⟩ := C06_rowMul t b ua _ _ hb r6
  refine ⟨ab, h1, ⟨abv, bv, a_bv, _, h2, h3, h4, r2, ?_⟩, u_ab, ua, ua_b, _, h5, h6, h7, r5, ?_⟩
  · rw [← Matrix.mulVec_mulVec]; exact r4
  · rw [← Matrix.vecMul_vecMul]; exact r7

/-- concrete case -/
example := C06_compose .mat3 _ _ _ (⟨#v[.fin 1, .fin 0, .fin 2]⟩ : Mat1x3 (Fl ℝ)) _ _ ![1, 0, 2] ![1, 0, 2] (mat3R_reads smp3 false)
  (mat3R_reads smp3' false) (mat3R_flags _ _ _) (vec3R_reads 1 0 2)
  (MatTy.rowReadsR_iff.mpr fun i => by fin_cases i <;> exact Fl.is_fin _)

/-- C06: `v M` and `transpose(M) * transpose(v)` agree bit for bit on all floats. -/
theorem C06_duality (t : MatTy) (m : t.Ty (Fl K)) (v : t.row.Ty (Fl K)) (w : t.col.Ty (Fl K)) (f : Fin t.dim → Fl K)
    (hv : t.RowReads v f) (hw : t.ColReads w f) :
    ∃ c d g, t.rowMul v m = some c ∧ t.mulCol (t.transpose m) w = some d ∧ t.RowReads c g ∧ t.ColReads d g := by
  rw [MatTy.rowReads_iff] at hv
  rw [MatTy.colReads_iff] at hw
  obtain ⟨c, h1, r1⟩ := t.rowMul_get m v
  obtain ⟨d, h2, r2⟩ := t.mulCol_get (t.transpose m) w
  refine ⟨c, d, _, h1, h2, MatTy.rowReads_iff.mpr r1, MatTy.colReads_iff.mpr fun i => ?_⟩
  rw [r2]
  simp only [hv, hw, funext fun j => t.idx_transpose m i j]

/-- concrete case -/
example := C06_duality .mat3 (mat3Of wildM false) tame3.transpose tame3 tameF (MatTy.rowReads_iff.mpr fun i => by fin_cases i <;> rfl)
  (MatTy.colReads_iff.mpr fun i => by fin_cases i <;> rfl)

/-- C06: the same with the library's own vector transposition (3D). -/
theorem C06_duality3 (m : Mat3 (Fl K)) (v : Mat1x3 (Fl K)) :
    (v.mulMat3x3 m).map Mat1x3.transpose = m.transpose.mulMat3x1 v.transpose := by
  have hv : MatTy.RowReads .mat3 v fun i => v.val[i.val] := MatTy.rowReads_iff.mpr fun _ => rfl
  have hw : MatTy.ColReads .mat3 v.transpose fun i => v.val[i.val] := MatTy.colReads_iff.mpr fun _ => rfl
  obtain ⟨c, d, g, h1, h2, r1, r2⟩ := C06_duality .mat3 m v v.transpose _ hv hw
  change v.mulMat3x3 m = _ at h1
  change m.transpose.mulMat3x1 v.transpose = _ at h2
  rw [h1, h2]
  simp only [Option.map_some, Option.some.injEq]
  rw [MatTy.rowReads_iff] at r1
  rw [MatTy.colReads_iff] at r2
  exact VecTy.ext_get (t := .mat3x1) fun i => (r1 i).trans (r2 i).symm

/-- concrete case -/
example := C06_duality3 (mat3Of wildM false) tame3.transpose

/-- C06: the same with the library's own vector transposition (4D). -/
theorem C06_duality4 (m : Mat4 (Fl K)) (v : Mat1x4 (Fl K)) :
    (v.mulMat4x4 m).map Mat1x4.transpose = m.transpose.mulMat4x1 v.transpose := by
  have hv : MatTy.RowReads .mat4 v fun i => v.val[i.val] := MatTy.rowReads_iff.mpr fun _ => rfl
  have hw : MatTy.ColReads .mat4 v.transpose fun i => v.val[i.val] := MatTy.colReads_iff.mpr fun _ => rfl
  obtain ⟨c, d, g, h1, h2, r1, r2⟩ := C06_duality .mat4 m v v.transpose _ hv hw
  change v.mulMat4x4 m = _ at h1
  change m.transpose.mulMat4x1 v.transpose = _ at h2
  rw [h1, h2]
  simp only [Option.map_some, Option.some.injEq]
  rw [MatTy.rowReads_iff] at r1
  rw [MatTy.colReads_iff] at r2
  exact VecTy.ext_get (t := .mat4x1) fun i => (r1 i).trans (r2 i).symm

/-- concrete case -/
example := C06_duality4 (mat4R smp4 false) ⟨#v[.fin 1, .nzero, .fin 3, .fin (-2)]⟩

example : MatTy.ColReadsR .mat3 (⟨#v[.fin 1, .nzero, .fin 3]⟩ : Mat3x1 (Fl ℝ)) ![1, 0, 3] := by
  rw [MatTy.colReadsR_iff]; intro i; fin_cases i <;> rfl
example : MatTy.RowReadsR .mat4 (⟨#v[.fin 1, .nzero, .fin 3, .fin (-2)]⟩ : Mat1x4 (Fl ℝ)) ![1, 0, 3, -2] := by
  rw [MatTy.rowReadsR_iff]; intro i; fin_cases i <;> rfl

/-! ## C07 -/

/-- C07: element-wise operations act on the logical entries when the layouts agree, and keep the layout. -/
theorem C07_elementwise (t : MatTy) (a b : t.Ty (Fl K)) (A B : Matrix (Fin t.dim) (Fin t.dim) (Fl K))
    (ha : t.Reads a A) (hb : t.Reads b B) (hl : t.isRowMajor a = t.isRowMajor b) :
    (∃ m, t.plus a b = some m ∧ t.isRowMajor m = t.isRowMajor a ∧ t.Reads m fun i j => A i j + B i j) ∧
    (∃ m, t.minus a b = some m ∧ t.isRowMajor m = t.isRowMajor a ∧ t.Reads m fun i j => A i j - B i j) ∧
    (∃ m, t.mulElem a b = some m ∧ t.isRowMajor m = t.isRowMajor a ∧ t.Reads m fun i j => A i j * B i j) ∧
    (∃ m, t.div a b = some m ∧ t.isRowMajor m = t.isRowMajor a ∧ t.Reads m fun i j => A i j / B i j) := by
  rw [MatTy.reads_iff] at ha hb
  refine ⟨?_, ?_, ?_, ?_⟩
  · obtain ⟨m, h, f, r⟩ := t.plus_idx a b hl
    exact ⟨m, h, f, MatTy.reads_iff.mpr fun i j => by rw [r, ha, hb]⟩
  · obtain ⟨m, h, f, r⟩ := t.minus_idx a b hl
    exact ⟨m, h, f, MatTy.reads_iff.mpr fun i j => by rw [r, ha, hb]⟩
  · obtain ⟨m, h, f, r⟩ := t.mulElem_idx a b hl
    exact ⟨m, h, f, MatTy.reads_iff.mpr fun i j => by rw [r, ha, hb]⟩
  · obtain ⟨m, h, f, r⟩ := t.div_idx a b hl
    exact ⟨m, h, f, MatTy.reads_iff.mpr fun i j => by rw [r, ha, hb]⟩

/-- concrete case: column-major, binary64 entries including NaN and `-∞` -/
example := C07_elementwise .mat3 _ _ _ _ (mat3Of_reads tameM false) (mat3Of_reads wildM false) rfl

/-- C07: with different layouts `plus` silently adds entry `(i, j)` of one operand to entry `(j, i)` of the other:
a row-major `a` plus a column-major `b` is `A + Bᵀ`. -/
theorem C07_mixed_layouts (t : MatTy) (a b : t.Ty (Fl K)) (A B : Matrix (Fin t.dim) (Fin t.dim) (Fl K))
    (ha : t.Reads a A) (hb : t.Reads b B) (hl : t.isRowMajor a ≠ t.isRowMajor b) :
    (∃ m, t.plus a b = some m ∧ t.isRowMajor m = t.isRowMajor a ∧ t.Reads m fun i j => A i j + B j i) ∧
    (∃ m, t.minus a b = some m ∧ t.isRowMajor m = t.isRowMajor a ∧ t.Reads m fun i j => A i j - B j i) ∧
    (∃ m, t.mulElem a b = some m ∧ t.isRowMajor m = t.isRowMajor a ∧ t.Reads m fun i j => A i j * B j i) ∧
    (∃ m, t.div a b = some m ∧ t.isRowMajor m = t.isRowMajor a ∧ t.Reads m fun i j => A i j / B j i) := by
  -- the operations only look at the flat arrays: flip the flag of `b`
  have key : ∃ b' : t.Ty (Fl K), t.isRowMajor a = t.isRowMajor b' ∧ t.Reads b' B.transpose ∧
      t.plus a b = t.plus a b' ∧ t.minus a b = t.minus a b' ∧ t.mulElem a b = t.mulElem a b' ∧
      t.div a b = t.div a b' := by
    rw [MatTy.reads_iff] at hb
    cases t
    · refine ⟨⟨b.val, !b.isRowMajor⟩, ?_, MatTy.reads_iff.mpr fun i j => ?_, rfl, rfl, rfl, rfl⟩
      · change a.isRowMajor ≠ b.isRowMajor at hl
        change a.isRowMajor = !b.isRowMajor
        revert hl; cases a.isRowMajor <;> cases b.isRowMajor <;> simp
      · refine Eq.trans ?_ (hb j i)
        show (Mat3.mk b.val (!b.isRowMajor)).idx i j = b.idx j i
        unfold Mat3.idx; cases b.isRowMajor <;> simp [Nat.add_comm]
    · refine ⟨⟨b.val, !b.isRowMajor⟩, ?_, MatTy.reads_iff.mpr fun i j => ?_, rfl, rfl, rfl, rfl⟩
      · change a.isRowMajor ≠ b.isRowMajor at hl
        change a.isRowMajor = !b.isRowMajor
        revert hl; cases a.isRowMajor <;> cases b.isRowMajor <;> simp
      · refine Eq.trans ?_ (hb j i)
        show (Mat4.mk b.val (!b.isRowMajor)).idx i j = b.idx j i
        unfold Mat4.idx; cases b.isRowMajor <;> simp [Nat.add_comm]
  obtain ⟨b', hl', hb', e1, e2, e3, e4⟩ := key
  rw [e1, e2, e3, e4]
  exact C07_elementwise t a b' A B.transpose ha hb' hl'

/-- concrete case -/
example := C07_mixed_layouts .mat3 _ _ _ _ (mat3Of_reads tameM true) (mat3Of_reads wildM false) (by decide)

/-- C07, C15: `scale` multiplies every entry and keeps the layout. -/
theorem C07_scale (t : MatTy) (a : t.Ty (Fl K)) (A : Matrix (Fin t.dim) (Fin t.dim) (Fl K)) (ha : t.Reads a A)
    (s : Fl K) : ∃ m, t.scale a s = some m ∧ t.isRowMajor m = t.isRowMajor a ∧ t.Reads m fun i j => A i j * s := by
  obtain ⟨m, h, f, r⟩ := t.scale_idx a s
  exact ⟨m, h, f, MatTy.reads_iff.mpr fun i j => by rw [r, MatTy.reads_iff.mp ha]⟩

/-- concrete case -/
example := C07_scale .mat3 _ _ (mat3Of_reads wildM false) (.fin (1 / 2 : ℚ))

/-! ## C08 -/

/-- C08: `trace()` is the left-to-right sum of the logical diagonal, in either layout. -/
theorem C08_trace_floats (m : Mat3 (Fl K)) (A : Matrix (Fin 3) (Fin 3) (Fl K)) (hm : MatTy.Reads .mat3 m A)
    (m' : Mat4 (Fl K)) (A' : Matrix (Fin 4) (Fin 4) (Fl K)) (hm' : MatTy.Reads .mat4 m' A') :
    m.trace = A 0 0 + A 1 1 + A 2 2 ∧ m'.trace = A' 0 0 + A' 1 1 + A' 2 2 + A' 3 3 := by
  rw [MatTy.reads_iff] at hm hm'
  refine ⟨(Mat3.trace_eq m).trans ?_, (Mat4.trace_eq m').trans ?_⟩
  · rw [← hm 0 0, ← hm 1 1, ← hm 2 2]; rfl
  · rw [← hm' 0 0, ← hm' 1 1, ← hm' 2 2, ← hm' 3 3]; rfl

/-- concrete case -/
example := C08_trace_floats _ _ (mat3Of_reads wildM false) _ _ (mat4Of_reads (fun i j => if i = j then Fl.nzero else .nan : Matrix _ _ (Fl Q64)) true)

/-- C08: in exact arithmetic it is `Matrix.trace`. -/
theorem C08_trace (t : MatTy) (a : t.Ty (Fl ℝ)) (A : Matrix (Fin t.dim) (Fin t.dim) ℝ) (ha : t.ReadsR a A) :
    (t.trace a).Is A.trace := by
  rw [MatTy.trace_eq]
  exact t.sumL_is _ _ fun i => MatTy.readsR_iff.mp ha i i

/-- concrete case: `1 + 5 + 10 = 16` -/
example : (mat3R smp3 false).trace.Is 16 :=
  (C08_trace .mat3 _ _ (mat3R_reads smp3 false)).cast (by simp [smp3, Matrix.trace, Fin.sum_univ_three]; norm_num)

/-- C08: the trace is invariant under transposition, bit for bit. -/
theorem C08_transpose (t : MatTy) (a : t.Ty (Fl K)) : t.trace (t.transpose a) = t.trace a := by
  rw [MatTy.trace_eq, MatTy.trace_eq]; simp only [MatTy.idx_transpose]

/-- concrete case -/
example := C08_transpose .mat3 (mat3Of wildM false)

/-- C08: `trace(AB) = trace(BA)`. -/
theorem C08_cyclic (t : MatTy) (a b : t.Ty (Fl ℝ)) (A B : Matrix (Fin t.dim) (Fin t.dim) ℝ) (ha : t.ReadsR a A)
    (hb : t.ReadsR b B) (hl : t.isRowMajor a = t.isRowMajor b) :
    ∃ ab ba r, t.mul a b = .ok (some ab) ∧ t.mul b a = .ok (some ba) ∧ (t.trace ab).Is r ∧ (t.trace ba).Is r := by
  obtain ⟨ab, h1, -, r1⟩ := C04_mul t a b A B ha hb hl
  obtain ⟨ba, h2, -, r2⟩ := C04_mul t b a B A hb ha hl.symm
  exact ⟨ab, ba, _, h1, h2, C08_trace t ab _ r1, by rw [Matrix.trace_mul_comm]; exact C08_trace t ba _ r2⟩

/-- concrete case -/
example := C08_cyclic .mat3 _ _ _ _ (mat3R_reads smp3 false) (mat3R_reads smp3' false) (mat3R_flags _ _ _)

/-! ## C15 -/

/-- C15: `normalize` divides every entry by the last one and keeps the layout. (`t.lastIx` is `n - 1`.) -/
theorem C15_normalize (t : MatTy) (a : t.Ty (Fl K)) (A : Matrix (Fin t.dim) (Fin t.dim) (Fl K)) (ha : t.Reads a A)
    (l : Fin t.dim) (hlast : l.val + 1 = t.dim) :
    ∃ m, t.normalize a = some m ∧ t.isRowMajor m = t.isRowMajor a ∧ t.Reads m fun i j => A i j / A l l := by
  obtain ⟨m, h, f, r⟩ := t.normalize_idx a
  have el : t.lastIx = l := by
    apply Fin.ext; revert l; cases t
    · intro l hl; change l.val + 1 = 3 at hl; show 2 = l.val; omega
    · intro l hl; change l.val + 1 = 4 at hl; show 3 = l.val; omega
  exact ⟨m, h, f, MatTy.reads_iff.mpr fun i j => by rw [r, el, MatTy.reads_iff.mp ha, MatTy.reads_iff.mp ha]⟩

/-- concrete case -/
example := C15_normalize .mat3 _ _ (mat3Of_reads wildM false) (2 : Fin 3) rfl

/-- C15: in exact arithmetic, with a non-zero last entry, the result is the matrix divided by that entry; in particular
the last entry becomes 1. -/
theorem C15_normalize_real (t : MatTy) (a : t.Ty (Fl ℝ)) (A : Matrix (Fin t.dim) (Fin t.dim) ℝ) (ha : t.ReadsR a A)
    (l : Fin t.dim) (hlast : l.val + 1 = t.dim) (h0 : A l l ≠ 0) :
    ∃ m, t.normalize a = some m ∧ t.ReadsR m ((A l l)⁻¹ • A) ∧ ((A l l)⁻¹ • A) l l = 1 := by
  obtain ⟨m, h, -, r⟩ := C15_normalize t a _ (MatTy.reads_self a) l hlast
  rw [MatTy.readsR_iff] at ha
  refine ⟨m, h, MatTy.readsR_iff.mpr fun i j => ?_, ?_⟩
  · rw [MatTy.reads_iff.mp r]
    refine ((ha i j).div (ha l l) h0).cast ?_
    simp [div_eq_inv_mul]
  · simp [h0]

/-- concrete case: the last entry is `2` -/
example := C15_normalize_real .mat4 _ _ (mat4R_reads smp4 false) (3 : Fin 4) rfl (by simp [smp4])

/-- C15: `scale` is scalar multiplication in exact arithmetic. -/
theorem C15_scale_real (t : MatTy) (a : t.Ty (Fl ℝ)) (A : Matrix (Fin t.dim) (Fin t.dim) ℝ) (ha : t.ReadsR a A)
    (s : Fl ℝ) (r : ℝ) (hs : s.Is r) :
    ∃ m, t.scale a s = some m ∧ t.isRowMajor m = t.isRowMajor a ∧ t.ReadsR m (r • A) := by
  obtain ⟨m, h, f, i⟩ := t.scale_idx a s
  refine ⟨m, h, f, MatTy.readsR_iff.mpr fun k l => ?_⟩
  rw [i]
  exact ((MatTy.readsR_iff.mp ha k l).mul hs).cast (by simp [mul_comm])

/-- concrete case -/
example := C15_scale_real .mat4 _ _ (mat4R_reads smp4 false) (.fin (-3)) (-3) (Fl.is_fin _)

end Mazth
