import Verif.Props.FloatMatChain
import Verif.Props.Inverse
import Verif.Props.AxisAngle

/-!
# C100: undoing a rotation
-/

set_option linter.unusedSectionVars false
set_option autoImplicit false

namespace Mazth

open Quaternion Matrix RndErr

namespace Undo

/-- the trace of the matrix of a rotation by a unit quaternion -/
theorem trace {Q : ℍ[ℝ]} (h1 : ‖Q‖ = 1) : (rotM Q).trace = 4 * Q.re ^ 2 := by
  have e := unit_sq h1
  simp [Matrix.trace, Fin.sum_univ_four, rotM]
  linear_combination (-4) * e

/-- the square of a rotation is the identity only for half turns and for the identity -/
theorem square_iff {Q : ℍ[ℝ]} (h1 : ‖Q‖ = 1) : rotM (Q * Q) = 1 ↔ Q.re = 0 ∨ (Q.imI = 0 ∧ Q.imJ = 0 ∧ Q.imK = 0) := by
  have e := unit_sq h1
  have h2 : ‖Q * Q‖ = 1 := by rw [norm_mul, h1, one_mul]
  constructor
  · intro h
    have t := trace h2
    rw [h, Matrix.trace_one] at t
    have r : (Q * Q).re = 2 * Q.re ^ 2 - 1 := by rw [Quaternion.re_mul]; linear_combination -e
    rw [r] at t
    simp only [Fintype.card_fin, Nat.cast_ofNat] at t
    have z : Q.re ^ 2 * (Q.imI ^ 2 + Q.imJ ^ 2 + Q.imK ^ 2) = 0 := by
      have : Q.imI ^ 2 + Q.imJ ^ 2 + Q.imK ^ 2 = 1 - Q.re ^ 2 := by linear_combination e
      rw [this]; linear_combination t / 16
    rcases mul_eq_zero.mp z with h | h
    · exact .inl (pow_eq_zero_iff (two_ne_zero)|>.mp h)
    · exact .inr ⟨by nlinarith, by nlinarith, by nlinarith⟩
  · rintro (h | ⟨ha, hb, hc⟩)
    · have q : Q * Q = -1 := by
        rw [h] at e
        ext
        · simp [h]; linear_combination -e
        · simp [h]; ring
        · simp [h]; ring
        · simp [h]; ring
      rw [q]
      ext i j
      fin_cases i <;> fin_cases j <;> simp [rotM]
    · have q : Q * Q = 1 := by
        rw [ha, hb, hc] at e
        ext
        · simp [ha, hb, hc]; linear_combination e
        · simp [ha, hb, hc]
        · simp [ha, hb, hc]
        · simp [ha, hb, hc]
      rw [q]
      ext i j
      fin_cases i <;> fin_cases j <;> simp [rotM]

/-- a column of `ReadsR` applied twice -/
theorem twice {a b : Mat4 (Fl ℝ)} {A B : Matrix (Fin 4) (Fin 4) ℝ} (ha : MatTy.ReadsR .mat4 a A) (hb : MatTy.ReadsR .mat4 b B)
    {v : Mat4x1 (Fl ℝ)} {x : Fin 4 → ℝ} (hv : VecTy.ReadsR .mat4x1 v x) :
    ∃ c d, a.mulMat4x1 v = some c ∧ b.mulMat4x1 c = some d ∧ VecTy.ReadsR .mat4x1 d ((B * A) *ᵥ x) := by
  obtain ⟨c, h, r⟩ := C06_mulCol .mat4 a v A x ha hv
  obtain ⟨d, h', r'⟩ := C06_mulCol .mat4 b c B _ hb r
  refine ⟨c, d, h, h', ?_⟩
  have e : B *ᵥ A *ᵥ x = (B * A) *ᵥ x := Matrix.mulVec_mulVec x B A
  rw [← e]
  exact r'

theorem transposed {a : Mat4 (Fl ℝ)} {A : Matrix (Fin 4) (Fin 4) ℝ} (ha : MatTy.ReadsR .mat4 a A) :
    MatTy.ReadsR .mat4 a.transpose Aᵀ := by
  have h := MatTy.readsR_iff.mp ha
  refine MatTy.readsR_iff.mpr fun i j => ?_
  have e : MatTy.idx .mat4 a.transpose i j = MatTy.idx .mat4 a j i := MatTy.idx_transpose .mat4 a i j
  rw [e]
  exact h j i

theorem columns {q : Quat (Fl ℝ)} {Q : ℍ[ℝ]} (hq : q.IsR Q) : MatTy.ReadsR .mat4 (q.toRotationMatrix false) (rotM Q)ᵀ := by
  have h := MatTy.readsR_iff.mp (rotM_reads hq)
  rw [MatTy.readsR_iff]
  intro i j
  have e : MatTy.idx .mat4 (q.toRotationMatrix false) i j = MatTy.idx .mat4 (q.toRotationMatrix true) j i := by
    fin_cases i <;> fin_cases j <;> rfl
  rw [e]
  exact h j i

theorem star_eq (Q : ℍ[ℝ]) : rotM (star Q) = (rotM Q)ᵀ := by
  ext i j
  fin_cases i <;> fin_cases j <;> simp [rotM] <;> ring

theorem inverse_eq {q : Quat (Fl ℝ)} {Q : ℍ[ℝ]} (hq : q.IsR Q) (h1 : ‖Q‖ = 1) :
    ∃ m, (q.toRotationMatrix true).inverse = some m ∧ m.isRowMajor = true ∧ MatTy.ReadsR .mat4 m (rotM Q) := by
  obtain ⟨A, hA, o, -, hd⟩ := C21_orthogonal hq h1
  obtain rfl := MatTy.readsR_unique hA (rotM_reads hq)
  obtain ⟨m, h, f, r⟩ := (C13_partial _ _ hA).2 (by
    rw [hd, abs_one]
    unfold Fmt.eps instFmtReal
    norm_num)
  have hi : (rotM Q)⁻¹ = (rotM Q)ᵀ := Matrix.inv_eq_right_inv o
  rw [hi, Matrix.transpose_transpose] at r
  exact ⟨m, h, f, r⟩

end Undo

variable {q : Quat (Fl ℝ)} {Q : ℍ[ℝ]}

/-- C100: the rotation of a unit quaternion is undone by the transposed matrix, by the column-major matrix, and by the matrices of
the conjugate and of the inverse quaternion, for every vector. -/
theorem C100_undo (hq : q.IsR Q) (h1 : ‖Q‖ = 1) (v : Mat4x1 (Fl ℝ)) (x : Fin 4 → ℝ) (hv : VecTy.ReadsR .mat4x1 v x) :
    ∃ i c d1 d2 d3 d4, q.inverse = .ok i ∧ (q.toRotationMatrix true).mulMat4x1 v = some c ∧
      (q.toRotationMatrix true).transpose.mulMat4x1 c = some d1 ∧ VecTy.ReadsR .mat4x1 d1 x ∧
      (q.toRotationMatrix false).mulMat4x1 c = some d2 ∧ VecTy.ReadsR .mat4x1 d2 x ∧
      (q.conjugate.toRotationMatrix true).mulMat4x1 c = some d3 ∧ VecTy.ReadsR .mat4x1 d3 x ∧
      (i.toRotationMatrix true).mulMat4x1 c = some d4 ∧ VecTy.ReadsR .mat4x1 d4 x := by
  have ha := rotM_reads hq
  have o := mul_eq_one_comm.mp (rotM_orth h1)
  have h0 : Q ≠ 0 := by rw [← norm_pos_iff, h1]; exact one_pos
  obtain ⟨i, hi, ri⟩ := hq.inverse h0
  obtain ⟨c, d1, e, e1, r1⟩ := Undo.twice ha (Undo.transposed ha) hv
  obtain ⟨c2, d2, f2, e2, r2⟩ := Undo.twice ha (Undo.columns hq) hv
  obtain ⟨c3, d3, f3, e3, r3⟩ := Undo.twice ha (Undo.star_eq Q ▸ rotM_reads hq.conjugate) hv
  obtain ⟨c4, d4, f4, e4, r4⟩ := Undo.twice ha (rotM_reads ri) hv
  rw [unit_inv h1, Undo.star_eq] at r4
  rw [o, Matrix.one_mulVec] at r1 r2 r3 r4
  have g2 : c2 = c := Option.some.inj (f2.symm.trans e)
  have g3 : c3 = c := Option.some.inj (f3.symm.trans e)
  have g4 : c4 = c := Option.some.inj (f4.symm.trans e)
  rw [g2] at e2
  rw [g3] at e3
  rw [g4] at e4
  exact ⟨i, c, d1, d2, d3, d4, hi, e, e1, r1, e2, r2, e3, r3, e4, r4⟩

/-- concrete case: the vector `(3, -1, 2, 1)` and `turn` -/
example := C100_undo (quatR_isR turn) turn_unit ⟨#v[.fin 3, .fin (-1), .fin 2, .fin 1]⟩ ![3, -1, 2, 1]
  (VecTy.readsR_iff.mpr fun i => by fin_cases i <;> exact Fl.is_fin _)

/-- C100: `Mat4::inverse` of the rotation matrix does not undo the rotation but repeats it: the result is the matrix itself, and
applied to the rotated point it gives the point rotated twice. -/
theorem C100_inverse_repeats (hq : q.IsR Q) (h1 : ‖Q‖ = 1) (v : Mat3x1 (Fl ℝ)) (u : Fin 3 → ℝ) (hv : v.IsR u) (v4 : Mat4x1 (Fl ℝ))
    (h4 : VecTy.ReadsR .mat4x1 v4 ![u 0, u 1, u 2, 1]) :
    ∃ m A c d w, (q.toRotationMatrix true).inverse = some m ∧ MatTy.ReadsR .mat4 m A ∧ MatTy.ReadsR .mat4 (q.toRotationMatrix true) A ∧
      (q.toRotationMatrix true).mulMat4x1 v4 = some c ∧ m.mulMat4x1 c = some d ∧
      (q.rotateVector (q.rotateVector v)).IsR w ∧ VecTy.ReadsR .mat4x1 d ![w 0, w 1, w 2, 1] := by
  obtain ⟨m, e, -, r⟩ := Undo.inverse_eq hq h1
  obtain ⟨c, d, e1, e2, r2⟩ := Undo.twice (rotM_reads hq) r h4
  refine ⟨m, _, c, d, _, e, r, rotM_reads hq, e1, e2, C20_rotate hq h1 _ _ (C20_rotate hq h1 v u hv), ?_⟩
  have := rotM_vec h1 u 1
  have h := rotM_vec h1 (rotR Q u) 1
  rw [← Matrix.mulVec_mulVec, this] at r2
  rw [h] at r2
  exact r2

/-- concrete case -/
example := C100_inverse_repeats (quatR_isR turn) turn_unit _ _ (vec3R_reads 3 (-1) 2) ⟨#v[.fin 3, .fin (-1), .fin 2, .fin 1]⟩
  (VecTy.readsR_iff.mpr fun i => by fin_cases i <;> exact Fl.is_fin _)

/-- C100: `Mat4::inverse` of the rotation matrix undoes the rotation of every vector exactly for the half turns and for the
identity. -/
theorem C100_inverse_iff (hq : q.IsR Q) (h1 : ‖Q‖ = 1) :
    (∀ (v : Mat4x1 (Fl ℝ)) (x : Fin 4 → ℝ), VecTy.ReadsR .mat4x1 v x → ∃ m c d, (q.toRotationMatrix true).inverse = some m ∧
      (q.toRotationMatrix true).mulMat4x1 v = some c ∧ m.mulMat4x1 c = some d ∧ VecTy.ReadsR .mat4x1 d x) ↔
    Q.re = 0 ∨ (Q.imI = 0 ∧ Q.imJ = 0 ∧ Q.imK = 0) := by
  obtain ⟨m, e, -, r⟩ := Undo.inverse_eq hq h1
  rw [← Undo.square_iff h1, rotM_mul h1 h1]
  constructor
  · intro h
    refine Matrix.ext_of_mulVec_single fun i => ?_
    let δ : Fin 4 → ℝ := Pi.single i 1
    have hv : VecTy.ReadsR .mat4x1 (⟨#v[.fin (δ 0), .fin (δ 1), .fin (δ 2),
        .fin (δ 3)]⟩ : Mat4x1 (Fl ℝ)) δ :=
      VecTy.readsR_iff.mpr fun j => by change Fin 4 at j; fin_cases j <;> exact Fl.is_fin _
    obtain ⟨m', c, d, e1, e2, e3, r1⟩ := h _ _ hv
    obtain ⟨c', d', f2, f3, r2⟩ := Undo.twice (rotM_reads hq) r hv
    obtain rfl := Option.some.inj (e1.symm.trans e)
    obtain rfl := Option.some.inj (e2.symm.trans f2)
    obtain rfl := Option.some.inj (e3.symm.trans f3)
    rw [Matrix.one_mulVec]
    exact VecTy.readsR_unique r2 r1
  · intro h v x hv
    obtain ⟨c, d, f2, f3, r2⟩ := Undo.twice (rotM_reads hq) r hv
    rw [h, Matrix.one_mulVec] at r2
    exact ⟨m, c, d, e, f2, f3, r2⟩

/-- concrete cases: the half turn about the first axis, and `turn`, which is neither -/
example : (∀ (v : Mat4x1 (Fl ℝ)) (x : Fin 4 → ℝ), VecTy.ReadsR .mat4x1 v x →
      ∃ m c d, ((quatR ⟨0, 1, 0, 0⟩).toRotationMatrix true).inverse = some m ∧
      ((quatR ⟨0, 1, 0, 0⟩).toRotationMatrix true).mulMat4x1 v = some c ∧ m.mulMat4x1 c = some d ∧ VecTy.ReadsR .mat4x1 d x) ∧
    ¬ ∀ (v : Mat4x1 (Fl ℝ)) (x : Fin 4 → ℝ), VecTy.ReadsR .mat4x1 v x → ∃ m c d, ((quatR turn).toRotationMatrix true).inverse = some m ∧
      ((quatR turn).toRotationMatrix true).mulMat4x1 v = some c ∧ m.mulMat4x1 c = some d ∧ VecTy.ReadsR .mat4x1 d x :=
  ⟨(C100_inverse_iff (quatR_isR _) (norm_eq_one_of (by norm_num))).mpr (.inl rfl), fun h => by
    rcases (C100_inverse_iff (quatR_isR turn) turn_unit).mp h with h | h
    · simp [turn] at h
    · simp [turn] at h⟩

/-- C100 is false of the code for `Mat4::inverse`. -/
theorem C100_inverse_false : ¬ ∀ (q : Quat (Fl ℝ)) (Q : ℍ[ℝ]), q.IsR Q → ‖Q‖ = 1 →
    ∀ (v : Mat4x1 (Fl ℝ)) (x : Fin 4 → ℝ), VecTy.ReadsR .mat4x1 v x → ∃ m c d, (q.toRotationMatrix true).inverse = some m ∧
      (q.toRotationMatrix true).mulMat4x1 v = some c ∧ m.mulMat4x1 c = some d ∧ VecTy.ReadsR .mat4x1 d x := by
  intro h
  rcases (C100_inverse_iff (quatR_isR turn) turn_unit).mp (h _ _ (quatR_isR turn) turn_unit) with h | h
  · simp [turn] at h
  · simp [turn] at h

section floats

variable {K : Type} [Field K] [LinearOrder K] [IsStrictOrderedRing K] [Fmt K] [LawfulFmt K] [RndErr K]
variable (φ : K →+* ℝ) (hφ : StrictMono φ)

include hφ

omit hφ in
/-- the transposed matrix is as near to the transposed orthogonal matrix, up to a factor of two -/
theorem MatTy.NearO.transpose {t : MatTy} {d : ℝ} {m : t.Ty (Fl K)} {U : Matrix (Fin t.dim) (Fin t.dim) ℝ} (h : t.NearO φ d m U) :
    t.NearO φ (2 * d) (t.transpose m) Uᵀ := by
  have hd := h.nonneg
  obtain ⟨hU, M, hM, e⟩ := h
  refine ⟨by rw [Matrix.transpose_transpose]; exact mul_eq_one_comm.mp hU, Mᵀ, ?_, fun i => ?_⟩
  · rw [MatTy.holdsF_iff] at hM ⊢
    intro i j
    rw [MatTy.idx_transpose]
    exact hM j i
  · exact MatChain.euc_two t.dim_le hd fun k => (euc_coord ((fun j => φ (M k j)) - U k) i).trans (e k)

/-- C100 with rounding, for both matrix types and any lawful format: a matrix with rows within `d` of those of an orthogonal one and
its transpose, applied one after the other in either order, give the vector back up to `2 ((8 d + 20 u) |v| + 18 eta)`. -/
theorem C100_transpose_float (t : MatTy) {d : ℝ} (hd : d ≤ 1 / 16) {m : t.Ty (Fl K)} {U : Matrix (Fin t.dim) (Fin t.dim) ℝ} (hm : t.NearO φ d m U)
    {v : t.col.Ty (Fl K)} {V : Fin t.dim → K} (hv : t.col.HoldsF v fun i => V (i.cast t.col_dim))
    {B : K} (hB : ∀ i, |V i| ≤ B) (ho : 16 * (B + 1) ≤ omega) (he : 64 * (eta : K) ≤ u) (hn : 2 * (4 * d + 10 * φ u) ≤ 1 / 2) :
    (∃ (c w : t.col.Ty (Fl K)) (W : Fin t.dim → K), t.mulCol m v = some c ∧ t.mulCol (t.transpose m) c = some w ∧
      t.col.HoldsF w (fun i => W (i.cast t.col_dim)) ∧
      euc (fun i => φ (W i) - φ (V i)) ≤ 2 * ((8 * d + 20 * φ u) * euc (fun i => φ (V i)) + 18 * φ eta)) ∧
    (∃ (c w : t.col.Ty (Fl K)) (W : Fin t.dim → K), t.mulCol (t.transpose m) v = some c ∧ t.mulCol m c = some w ∧
      t.col.HoldsF w (fun i => W (i.cast t.col_dim)) ∧
      euc (fun i => φ (W i) - φ (V i)) ≤ 2 * ((8 * d + 20 * φ u) * euc (fun i => φ (V i)) + 18 * φ eta)) := by
  have hd0 := hm.nonneg
  have hm' := hm.transpose
  have hU := hm.1
  have hm2 : t.NearO φ (2 * d) m U := ⟨hm.1, hm.2.imp fun M h => ⟨h.1, fun i => (h.2 i).trans (by linarith)⟩⟩
  have key (a b : t.Ty (Fl K)) (A B' : Matrix (Fin t.dim) (Fin t.dim) ℝ) (ha : t.NearO φ (2 * d) a A) (hb : t.NearO φ (2 * d) b B')
      (hI : B' * A = 1) : ∃ (c w : t.col.Ty (Fl K)) (W : Fin t.dim → K), t.mulCol a v = some c ∧ t.mulCol b c = some w ∧
      t.col.HoldsF w (fun i => W (i.cast t.col_dim)) ∧
      euc (fun i => φ (W i) - φ (V i)) ≤ 2 * ((8 * d + 20 * φ u) * euc (fun i => φ (V i)) + 18 * φ eta) := by
    obtain ⟨w, W, e, hW, h1, -⟩ := C98_apply φ hφ t (d := 2 * d) (by linarith) (by linarith) (.cons ha (.cons hb .nil)) hv hB ho he (by
      simp only [List.length_cons, List.length_nil]; push_cast; linarith)
    unfold MatTy.applyAll at e
    simp only [List.foldlM_cons, List.foldlM_nil, Option.bind_eq_bind, Option.pure_def] at e
    obtain ⟨c, hc, e⟩ := Option.bind_eq_some_iff.mp e
    refine ⟨c, w, W, hc, by simpa using e, hW, ?_⟩
    simp only [List.foldl_cons, List.foldl_nil, List.length_cons, List.length_nil, Matrix.mulVec_mulVec, hI, Matrix.one_mulVec] at h1
    have e2 : ((fun i => φ (W i)) - fun i => φ (V i)) = fun i => φ (W i) - φ (V i) := rfl
    rw [e2] at h1
    push_cast at h1
    linarith
  exact ⟨key _ _ _ _ hm2 hm' (mul_eq_one_comm.mp hU), key _ _ _ _ hm' hm2 hU⟩

end floats

/-- concrete case: the quarter turn of the smaller type and the vector `(4, 0, 5)` -/
example := C100_transpose_float BinQ.real BinQ.real_strictMono .mat3 (by norm_num) turn90_near (v := b405) (V := B405)
  (VecTy.holdsF_iff.mpr b405_holds) (B := 5) B405_five (by linarith [omega_big]) eta_u64 (by rw [f64_consts.1]; norm_num)

/-- C100 for `f64`: rotating by the matrix of a quaternion normalised by the library and rotating back by its transpose gives every
vector in range back to within `2^-41` of its length (and `2^-1000`). -/
theorem C100_rotation_f64 {n : Quat (Fl Q64)} {N : ℍ[Q64]} (hn : Norm64 n N) {v : Mat4x1 (Fl Q64)} {V : Fin 4 → Q64}
    (hv : VecTy.HoldsF .mat4x1 v V) {M : Q64} (hM : M ≤ ((2 : ℚ) ^ (1000 : ℤ) : ℚ)) (hB : ∀ i, |V i| ≤ M) :
    ∃ (c w : Mat4x1 (Fl Q64)) (W : Fin 4 → Q64), (n.toRotationMatrix true).mulMat4x1 v = some c ∧
      (n.toRotationMatrix true).transpose.mulMat4x1 c = some w ∧ VecTy.HoldsF .mat4x1 w W ∧
      euc (fun i => (W i).real - (V i).real) ≤ 2 ^ (-41 : ℤ) * euc (fun i => (V i).real) + 2 ^ (-1000 : ℤ) := by
  have hu := f64_consts.1
  obtain ⟨c, w, W, e1, e2, hW, h⟩ := (C100_transpose_float BinQ.real BinQ.real_strictMono .mat4 (d := 200 * BinQ.real (u : Q64))
    (by rw [hu]; norm_num) hn.matrix (v := v) (V := V) hv (B := M) hB (by
      have := f64_vec_range hM
      have := (abs_nonneg _).trans (hB 0)
      linarith) eta_u64 (by rw [hu]; norm_num)).1
  refine ⟨c, w, W, e1, e2, hW, ?_⟩
  refine h.trans ?_
  rw [hu, f64_consts.2]
  have e0 := euc_nonneg fun i => (V i).real
  have e3 : (2 : ℝ) * (18 * 2 ^ (-1075 : ℤ)) ≤ 2 ^ (-1000 : ℤ) := by
    rw [show (-1000 : ℤ) = 75 + -1075 by norm_num, zpow_add₀ (by norm_num), ← mul_assoc]
    exact mul_le_mul_of_nonneg_right (by norm_num) (by positivity)
  have e4 : (2 : ℝ) * (8 * (200 * 2 ^ (-53 : ℤ)) + 20 * 2 ^ (-53 : ℤ)) ≤ 2 ^ (-41 : ℤ) := by norm_num
  have e5 := mul_le_mul_of_nonneg_right e4 e0
  linarith

/-- concrete case: the matrix of `(1 + 2i + 3j + 4k)/√30` and the vector `(1, -2, 3, 1)` -/
example := norm_2341.imp fun n h => C100_rotation_f64 h (v := ⟨#v[.fin 1, .fin (-2), .fin 3, .fin 1]⟩) (V := ![1, -2, 3, 1])
  (VecTy.holdsF_iff.mpr fun i => by change Fin 4 at i; fin_cases i <;> exact ⟨rfl, .inr (by decide +kernel)⟩) (M := 3)
  (show (3 : ℚ) ≤ 2 ^ (1000 : ℤ) from le_trans (b := 2 ^ (2 : ℤ)) (by norm_num) (zpow_le_zpow_right₀ (by norm_num) (by norm_num)))
  (fun i => by fin_cases i <;> simp <;> norm_num)

end Mazth
