import Verif.Proofs.MatBasic

/-! The lemmas of `MatBasic` in the uniform vocabulary of `Spec/Linear`. -/

set_option linter.unusedSectionVars false
set_option autoImplicit false

namespace Mazth

variable {K : Type} [Field K] [LinearOrder K] [Fmt K]

namespace MatTy

/-- logical entry -/
def idx {α : Type} : (t : MatTy) → t.Ty α → Fin t.dim → Fin t.dim → α
  | .mat3 => Mat3.idx
  | .mat4 => Mat4.idx

/-- left-to-right sum of the products of corresponding entries -/
def dotL : (t : MatTy) → (Fin t.dim → Fl K) → (Fin t.dim → Fl K) → Fl K
  | .mat3 => fun (f g : Fin 3 → Fl K) => f 0 * g 0 + f 1 * g 1 + f 2 * g 2
  | .mat4 => fun (f g : Fin 4 → Fl K) => f 0 * g 0 + f 1 * g 1 + f 2 * g 2 + f 3 * g 3

/-- left-to-right sum -/
def sumL : (t : MatTy) → (Fin t.dim → Fl K) → Fl K
  | .mat3 => fun (f : Fin 3 → Fl K) => f 0 + f 1 + f 2
  | .mat4 => fun (f : Fin 4 → Fl K) => f 0 + f 1 + f 2 + f 3

theorem index_eq_idx {α : Type} (t : MatTy) (chk : Bool) (a : t.Ty α) (i j : Fin t.dim) :
    t.index chk a (UInt64.ofNat i.val) (UInt64.ofNat j.val) = .ok (t.idx a i j) := by
  cases t
  · exact Mat3.index_eq_idx chk a i j
  · exact Mat4.index_eq_idx chk a i j

theorem reads_iff {α : Type} {t : MatTy} {a : t.Ty α} {A : Matrix (Fin t.dim) (Fin t.dim) α} :
    t.Reads a A ↔ ∀ i j, t.idx a i j = A i j := by
  unfold Reads
  simp only [index_eq_idx, Except.ok.injEq]
  exact ⟨fun h => h true, fun h _ => h⟩

theorem reads_self {α : Type} {t : MatTy} (a : t.Ty α) : t.Reads a (t.idx a) := reads_iff.mpr fun _ _ => rfl

theorem reads_unique {α : Type} {t : MatTy} {a : t.Ty α} {A B : Matrix (Fin t.dim) (Fin t.dim) α}
    (h : t.Reads a A) (h' : t.Reads a B) : A = B := by
  ext i j; rw [← reads_iff.mp h, ← reads_iff.mp h']

theorem readsR_iff {t : MatTy} {a : t.Ty (Fl ℝ)} {A : Matrix (Fin t.dim) (Fin t.dim) ℝ} :
    t.ReadsR a A ↔ ∀ i j, (t.idx a i j).Is (A i j) := by
  unfold ReadsR
  simp only [index_eq_idx, Except.ok.injEq, exists_eq_left']
  exact ⟨fun h => h true, fun h _ => h⟩

theorem readsR_unique {t : MatTy} {a : t.Ty (Fl ℝ)} {A B : Matrix (Fin t.dim) (Fin t.dim) ℝ}
    (h : t.ReadsR a A) (h' : t.ReadsR a B) : A = B := by
  ext i j; exact (readsR_iff.mp h i j).unique (readsR_iff.mp h' i j)

theorem ext_idx {α : Type} {t : MatTy} {a b : t.Ty α} (h : t.isRowMajor a = t.isRowMajor b)
    (h' : ∀ i j, t.idx a i j = t.idx b i j) : a = b := by
  cases t
  · exact Mat3.ext_idx h h'
  · exact Mat4.ext_idx h h'

theorem transpose_flag {α : Type} (t : MatTy) (a : t.Ty α) : t.isRowMajor (t.transpose a) = t.isRowMajor a := by
  cases t
  · exact Mat3.transpose_flag a
  · exact Mat4.transpose_flag a

theorem idx_transpose {α : Type} (t : MatTy) (a : t.Ty α) (i j : Fin t.dim) :
    t.idx (t.transpose a) i j = t.idx a j i := by
  cases t
  · exact Mat3.idx_transpose a i j
  · exact Mat4.idx_transpose a i j

theorem transposeSelf_eq {α : Type} (t : MatTy) (a : t.Ty α) : t.transposeSelf a = t.transpose a := by
  cases t
  · exact Mat3.transposeSelf_eq a
  · exact Mat4.transposeSelf_eq a

theorem trace_eq (t : MatTy) (a : t.Ty (Fl K)) : t.trace a = t.sumL fun i => t.idx a i i := by
  cases t
  · exact Mat3.trace_eq a
  · exact Mat4.trace_eq a

theorem mul_idx (t : MatTy) (a b : t.Ty (Fl K)) (h : t.isRowMajor a = t.isRowMajor b) :
    ∃ m, t.mul a b = .ok (some m) ∧ t.isRowMajor m = t.isRowMajor a ∧
      ∀ i j, t.idx m i j = t.dotL (t.idx a i) fun k => t.idx b k j := by
  cases t
  · exact Mat3.mul_idx a b h
  · exact Mat4.mul_idx a b h

theorem mul_panic (t : MatTy) (a b : t.Ty (Fl K)) (h : t.isRowMajor a ≠ t.isRowMajor b) :
    t.mul a b = .error .assertFailed := by
  cases t
  · exact Mat3.mul_panic a b h
  · exact Mat4.mul_panic a b h

theorem plus_idx (t : MatTy) (a b : t.Ty (Fl K)) (h : t.isRowMajor a = t.isRowMajor b) :
    ∃ m, t.plus a b = some m ∧ t.isRowMajor m = t.isRowMajor a ∧ ∀ i j, t.idx m i j = t.idx a i j + t.idx b i j := by
  cases t
  · exact Mat3.plus_idx a b h
  · exact Mat4.plus_idx a b h

theorem minus_idx (t : MatTy) (a b : t.Ty (Fl K)) (h : t.isRowMajor a = t.isRowMajor b) :
    ∃ m, t.minus a b = some m ∧ t.isRowMajor m = t.isRowMajor a ∧ ∀ i j, t.idx m i j = t.idx a i j - t.idx b i j := by
  cases t
  · exact Mat3.minus_idx a b h
  · exact Mat4.minus_idx a b h

theorem mulElem_idx (t : MatTy) (a b : t.Ty (Fl K)) (h : t.isRowMajor a = t.isRowMajor b) :
    ∃ m, t.mulElem a b = some m ∧ t.isRowMajor m = t.isRowMajor a ∧
      ∀ i j, t.idx m i j = t.idx a i j * t.idx b i j := by
  cases t
  · exact Mat3.mulElem_idx a b h
  · exact Mat4.mulElem_idx a b h

theorem div_idx (t : MatTy) (a b : t.Ty (Fl K)) (h : t.isRowMajor a = t.isRowMajor b) :
    ∃ m, t.div a b = some m ∧ t.isRowMajor m = t.isRowMajor a ∧ ∀ i j, t.idx m i j = t.idx a i j / t.idx b i j := by
  cases t
  · exact Mat3.div_idx a b h
  · exact Mat4.div_idx a b h

theorem scale_idx (t : MatTy) (a : t.Ty (Fl K)) (s : Fl K) :
    ∃ m, t.scale a s = some m ∧ t.isRowMajor m = t.isRowMajor a ∧ ∀ i j, t.idx m i j = t.idx a i j * s := by
  cases t
  · exact Mat3.scale_idx a s
  · exact Mat4.scale_idx a s

/-- index of the last row / column -/
def lastIx : (t : MatTy) → Fin t.dim
  | .mat3 => (2 : Fin 3)
  | .mat4 => (3 : Fin 4)

theorem normalize_idx (t : MatTy) (a : t.Ty (Fl K)) :
    ∃ m, t.normalize a = some m ∧ t.isRowMajor m = t.isRowMajor a ∧
      ∀ i j, t.idx m i j = t.idx a i j / t.idx a t.lastIx t.lastIx := by
  cases t
  · exact Mat3.normalize_idx a
  · exact Mat4.normalize_idx a

theorem isEqual_flag (t : MatTy) (a b : t.Ty (Fl K)) (e : Fl K) (h : t.isRowMajor a ≠ t.isRowMajor b) :
    t.isEqual a b e = some false := by
  cases t
  · exact Mat3.isEqual_flag a b e h
  · exact Mat4.isEqual_flag a b e h

theorem isEqual_iff (t : MatTy) (a b : t.Ty (Fl K)) (e : Fl K) (h : t.isRowMajor a = t.isRowMajor b) :
    ∃ r, t.isEqual a b e = some r ∧ (r = true ↔ ∀ i j,
      Fl.le (t.idx b i j - e) (t.idx a i j) = true ∧ Fl.le (t.idx a i j) (t.idx b i j + e) = true) := by
  cases t
  · exact Mat3.isEqual_iff a b e h
  · exact Mat4.isEqual_iff a b e h

theorem dotL_is (t : MatTy) (f g : Fin t.dim → Fl ℝ) (a b : Fin t.dim → ℝ) (hf : ∀ i, (f i).Is (a i))
    (hg : ∀ i, (g i).Is (b i)) : (t.dotL f g).Is (∑ i, a i * b i) := by
  cases t
  · refine Fl.Is.cast (((hf 0).mul (hg 0)).add ((hf 1).mul (hg 1)) |>.add ((hf 2).mul (hg 2))) ?_
    exact (Fin.sum_univ_three (fun i : Fin 3 => a i * b i)).symm
  · refine Fl.Is.cast ((((hf 0).mul (hg 0)).add ((hf 1).mul (hg 1)) |>.add ((hf 2).mul (hg 2))).add
      ((hf 3).mul (hg 3))) ?_
    exact (Fin.sum_univ_four (fun i : Fin 4 => a i * b i)).symm

theorem sumL_is (t : MatTy) (f : Fin t.dim → Fl ℝ) (a : Fin t.dim → ℝ) (hf : ∀ i, (f i).Is (a i)) :
    (t.sumL f).Is (∑ i, a i) := by
  cases t
  · exact Fl.Is.cast (((hf 0).add (hf 1)).add (hf 2)) (Fin.sum_univ_three _).symm
  · exact Fl.Is.cast ((((hf 0).add (hf 1)).add (hf 2)).add (hf 3)) (Fin.sum_univ_four _).symm

end MatTy

namespace VecTy

/-- component -/
def get {α : Type} : (t : VecTy) → t.Ty α → Fin t.dim → α
  | .mat2x1 => fun a (i : Fin 2) => a.val[i.val]
  | .mat1x2 => fun a (i : Fin 2) => a.val[i.val]
  | .mat3x1 => fun a (i : Fin 3) => a.val[i.val]
  | .mat1x3 => fun a (i : Fin 3) => a.val[i.val]
  | .mat4x1 => fun a (i : Fin 4) => a.val[i.val]
  | .mat1x4 => fun a (i : Fin 4) => a.val[i.val]

theorem index_eq {α : Type} (t : VecTy) (a : t.Ty α) (i : ℕ) :
    t.index a i = if h : i < t.dim then .ok (t.get a ⟨i, h⟩) else .error .indexOutOfBounds := by
  cases t <;> rfl

theorem index_get {α : Type} (t : VecTy) (a : t.Ty α) (i : Fin t.dim) : t.index a i.val = .ok (t.get a i) := by
  rw [index_eq, dif_pos i.isLt]

theorem reads_iff {α : Type} {t : VecTy} {a : t.Ty α} {f : Fin t.dim → α} : t.Reads a f ↔ ∀ i, t.get a i = f i := by
  unfold Reads; simp only [index_get, Except.ok.injEq]

theorem reads_self {α : Type} {t : VecTy} (a : t.Ty α) : t.Reads a (t.get a) := reads_iff.mpr fun _ => rfl

theorem readsR_iff {t : VecTy} {a : t.Ty (Fl ℝ)} {f : Fin t.dim → ℝ} : t.ReadsR a f ↔ ∀ i, (t.get a i).Is (f i) := by
  unfold ReadsR; simp only [index_get, Except.ok.injEq, exists_eq_left']

theorem readsR_unique {t : VecTy} {a : t.Ty (Fl ℝ)} {f g : Fin t.dim → ℝ} (h : t.ReadsR a f) (h' : t.ReadsR a g) :
    f = g := by
  ext i; exact (readsR_iff.mp h i).unique (readsR_iff.mp h' i)

theorem ext_get {α : Type} {t : VecTy} {a b : t.Ty α} (h : ∀ i, t.get a i = t.get b i) : a = b := by
  cases t <;> obtain ⟨a⟩ := a <;> obtain ⟨b⟩ := b <;> congr 1 <;> ext i hi <;> exact h ⟨i, hi⟩

/-- left-to-right sum -/
def sumL : (t : VecTy) → (Fin t.dim → Fl K) → Fl K
  | .mat2x1 => fun (f : Fin 2 → Fl K) => f 0 + f 1
  | .mat1x2 => fun (f : Fin 2 → Fl K) => f 0 + f 1
  | .mat3x1 => fun (f : Fin 3 → Fl K) => f 0 + f 1 + f 2
  | .mat1x3 => fun (f : Fin 3 → Fl K) => f 0 + f 1 + f 2
  | .mat4x1 => fun (f : Fin 4 → Fl K) => f 0 + f 1 + f 2 + f 3
  | .mat1x4 => fun (f : Fin 4 → Fl K) => f 0 + f 1 + f 2 + f 3

theorem sumL_is (t : VecTy) (f : Fin t.dim → Fl ℝ) (a : Fin t.dim → ℝ) (hf : ∀ i, (f i).Is (a i)) :
    (t.sumL f).Is (∑ i, a i) := by
  cases t
  · exact Fl.Is.cast ((hf 0).add (hf 1)) (Fin.sum_univ_two _).symm
  · exact Fl.Is.cast ((hf 0).add (hf 1)) (Fin.sum_univ_two _).symm
  · exact Fl.Is.cast (((hf 0).add (hf 1)).add (hf 2)) (Fin.sum_univ_three _).symm
  · exact Fl.Is.cast (((hf 0).add (hf 1)).add (hf 2)) (Fin.sum_univ_three _).symm
  · exact Fl.Is.cast ((((hf 0).add (hf 1)).add (hf 2)).add (hf 3)) (Fin.sum_univ_four _).symm
  · exact Fl.Is.cast ((((hf 0).add (hf 1)).add (hf 2)).add (hf 3)) (Fin.sum_univ_four _).symm

theorem plus_get (t : VecTy) (a b : t.Ty (Fl K)) :
    ∃ c, t.plus a b = some c ∧ ∀ i, t.get c i = t.get a i + t.get b i := by
  cases t <;> refine ⟨_, rfl, fun i => ?_⟩ <;> fin_cases i <;> rfl
theorem minus_get (t : VecTy) (a b : t.Ty (Fl K)) :
    ∃ c, t.minus a b = some c ∧ ∀ i, t.get c i = t.get a i - t.get b i := by
  cases t <;> refine ⟨_, rfl, fun i => ?_⟩ <;> fin_cases i <;> rfl
theorem mulElem_get (t : VecTy) (a b : t.Ty (Fl K)) :
    ∃ c, t.mulElem a b = some c ∧ ∀ i, t.get c i = t.get a i * t.get b i := by
  cases t <;> refine ⟨_, rfl, fun i => ?_⟩ <;> fin_cases i <;> rfl
theorem div_get (t : VecTy) (a b : t.Ty (Fl K)) :
    ∃ c, t.div a b = some c ∧ ∀ i, t.get c i = t.get a i / t.get b i := by
  cases t <;> refine ⟨_, rfl, fun i => ?_⟩ <;> fin_cases i <;> rfl
theorem scale_get (t : VecTy) (a : t.Ty (Fl K)) (s : Fl K) :
    ∃ c, t.scale a s = some c ∧ ∀ i, t.get c i = t.get a i * s := by
  cases t <;> refine ⟨_, rfl, fun i => ?_⟩ <;> fin_cases i <;> rfl
theorem dot_get (t : VecTy) (a b : t.Ty (Fl K)) : t.dot a b = some (t.sumL fun i => t.get a i * t.get b i) := by
  cases t <;> rfl
theorem magnitude_get (t : VecTy) (a : t.Ty (Fl K)) :
    t.magnitude a = some (Fl.sqrt (t.sumL fun i => t.get a i * t.get a i)) := by
  cases t <;> rfl
theorem normalize_get (t : VecTy) (a : t.Ty (Fl K)) :
    ∃ c, t.normalize a = some c ∧
      ∀ i, t.get c i = t.get a i / Fl.sqrt (t.sumL fun i => t.get a i * t.get a i) := by
  cases t <;> refine ⟨_, rfl, fun i => ?_⟩ <;> fin_cases i <;> rfl
theorem transpose_get {α : Type} (t : VecTy) (a : t.Ty α) (i : Fin t.dim) :
    t.flip.get (t.transpose a) (i.cast (by cases t <;> rfl)) = t.get a i := by
  cases t <;> rfl
theorem default_get (t : VecTy) (i : Fin t.dim) : t.get (t.default : t.Ty (Fl K)) i = 0 := by
  cases t <;> fin_cases i <;> rfl
theorem isEqual_iff (t : VecTy) (a b : t.Ty (Fl K)) (e : Fl K) :
    ∃ r, t.isEqual a b e = some r ∧ (r = true ↔ ∀ i,
      Fl.le (t.get b i - e) (t.get a i) = true ∧ Fl.le (t.get a i) (t.get b i + e) = true) := by
  cases t <;> refine ⟨_, rfl, ?_⟩ <;> simp only [Bool.and_eq_true, and_assoc]
  · exact (Fin.forall_fin_two.trans (by rw [and_assoc]; rfl)).symm
  · exact (Fin.forall_fin_two.trans (by rw [and_assoc]; rfl)).symm
  · exact (Fin.forall_fin_succ.trans (by rw [Fin.forall_fin_two, and_assoc, and_assoc]; rfl)).symm
  · exact (Fin.forall_fin_succ.trans (by rw [Fin.forall_fin_two, and_assoc, and_assoc]; rfl)).symm
  · exact (Fin.forall_fin_succ.trans (by
      rw [Fin.forall_fin_succ, Fin.forall_fin_two, and_assoc, and_assoc, and_assoc]; rfl)).symm
  · exact (Fin.forall_fin_succ.trans (by
      rw [Fin.forall_fin_succ, Fin.forall_fin_two, and_assoc, and_assoc, and_assoc]; rfl)).symm

end VecTy

namespace MatTy

theorem mulCol_get (t : MatTy) (a : t.Ty (Fl K)) (v : t.col.Ty (Fl K)) :
    ∃ c, t.mulCol a v = some c ∧ ∀ i : Fin t.dim, t.col.get c (i.cast t.col_dim.symm) =
      t.dotL (t.idx a i) fun k => t.col.get v (k.cast t.col_dim.symm) := by
  cases t
  · exact Mat3.mulMat3x1_idx a v
  · exact Mat4.mulMat4x1_idx a v

theorem rowMul_get (t : MatTy) (a : t.Ty (Fl K)) (v : t.row.Ty (Fl K)) :
    ∃ c, t.rowMul v a = some c ∧ ∀ i : Fin t.dim, t.row.get c (i.cast t.row_dim.symm) =
      t.dotL (fun k => t.idx a k i) fun k => t.row.get v (k.cast t.row_dim.symm) := by
  cases t
  · exact Mat3.rowMul_idx a v
  · exact Mat4.rowMul_idx a v

theorem colReads_iff {α : Type} {t : MatTy} {v : t.col.Ty α} {f : Fin t.dim → α} :
    t.ColReads v f ↔ ∀ i : Fin t.dim, t.col.get v (i.cast t.col_dim.symm) = f i := by
  unfold ColReads; rw [VecTy.reads_iff]; cases t <;> rfl

theorem rowReads_iff {α : Type} {t : MatTy} {v : t.row.Ty α} {f : Fin t.dim → α} :
    t.RowReads v f ↔ ∀ i : Fin t.dim, t.row.get v (i.cast t.row_dim.symm) = f i := by
  unfold RowReads; rw [VecTy.reads_iff]; cases t <;> rfl

theorem colReadsR_iff {t : MatTy} {v : t.col.Ty (Fl ℝ)} {f : Fin t.dim → ℝ} :
    t.ColReadsR v f ↔ ∀ i : Fin t.dim, (t.col.get v (i.cast t.col_dim.symm)).Is (f i) := by
  unfold ColReadsR; rw [VecTy.readsR_iff]; cases t <;> rfl

theorem rowReadsR_iff {t : MatTy} {v : t.row.Ty (Fl ℝ)} {f : Fin t.dim → ℝ} :
    t.RowReadsR v f ↔ ∀ i : Fin t.dim, (t.row.get v (i.cast t.row_dim.symm)).Is (f i) := by
  unfold RowReadsR; rw [VecTy.readsR_iff]; cases t <;> rfl

end MatTy

end Mazth
