import Verif.Proofs.Inverse
import Verif.Proofs.Samples
import Verif.Float.Binary

/-!
# C13, C14: matrix inverses

The property as listed ("the product with the result is the identity") is false of both functions: `C13_false`, `C14_false`.
The `_partial` theorems describe exactly what the code returns.
-/

set_option autoImplicit false

namespace Mazth

attribute [local irreducible] Mat4.inverseAdj

/-! ## C13: `Mat4::inverse` -/

theorem smp4_det : ¬ |smp4.det| < Fmt.eps := by
  have h : smp4.det = 2 := by rw [det_fin_four]; simp [adj4, smp4]
  rw [h, not_lt]; unfold Fmt.eps instFmtReal; norm_num

/-- C13, what holds: `inverse` is `None` exactly when `|det| < EPSILON`, otherwise `Some m` where `m` is row-major and
holds the *transpose* of the inverse. Missing for C13: `m` is the inverse itself. -/
theorem C13_partial (a : Mat4 (Fl ℝ)) (A : Matrix (Fin 4) (Fin 4) ℝ) (ha : MatTy.ReadsR .mat4 a A) :
    (a.inverse = none ↔ |A.det| < Fmt.eps) ∧
    (¬ |A.det| < Fmt.eps → ∃ m, a.inverse = some m ∧ m.isRowMajor = true ∧ MatTy.ReadsR .mat4 m (A⁻¹).transpose) := by
  have hi : ∀ i j, (a.idx i j).Is (A i j) := MatTy.readsR_iff.mp ha
  have hadj : ∀ i j, (a.inverseAdj.idx i j).Is (adj4 A i j) := fun i j => by
    rw [Mat4.inverseAdj_idx]; exact adj4_is _ _ hi i j
  have hdet : (a.idx 0 0 * a.inverseAdj.idx 0 0 + a.idx 1 0 * a.inverseAdj.idx 0 1 + a.idx 2 0 * a.inverseAdj.idx 0 2
      + a.idx 3 0 * a.inverseAdj.idx 0 3).Is A.det := by
    rw [det_fin_four A]
    exact ((((hi 0 0).mul (hadj 0 0)).add ((hi 1 0).mul (hadj 0 1))).add ((hi 2 0).mul (hadj 0 2))).add
      ((hi 3 0).mul (hadj 0 3))
  have hlt := hdet.abs.lt (Fl.is_fin (Fmt.eps : ℝ))
  by_cases hc : |A.det| < Fmt.eps
  · have h1 : a.inverse = none := by
      unfold Mat4.inverse
      simp only
      rw [hlt, decide_eq_true hc]; rfl
    simp [h1, hc]
  · have h0 : A.det ≠ 0 := by
      intro h; rw [h, abs_zero] at hc
      exact hc (by unfold Fmt.eps instFmtReal; positivity)
    obtain ⟨s, hs, hf, hsi⟩ := Mat4.scale_idx a.inverseAdj (1 / (a.idx 0 0 * a.inverseAdj.idx 0 0
      + a.idx 1 0 * a.inverseAdj.idx 0 1 + a.idx 2 0 * a.inverseAdj.idx 0 2 + a.idx 3 0 * a.inverseAdj.idx 0 3))
    have h1 : a.inverse = some s.transpose := by
      unfold Mat4.inverse
      simp only
      rw [hlt, decide_eq_false hc, if_neg (by decide)]
      unfold Mat4.scale at hs
      rw [Option.some.inj hs]
    refine ⟨by simp [h1, hc], fun _ => ⟨_, h1, ?_, MatTy.readsR_iff.mpr fun i j => ?_⟩⟩
    · rw [Mat4.transpose_flag, hf, Mat4.inverseAdj_flag]
    · show (s.transpose.idx i j).Is _
      rw [Mat4.idx_transpose, hsi]
      refine ((hadj j i).mul (Fl.is_one.div hdet h0)).cast ?_
      rw [Matrix.transpose_apply, inv_adj4 A h0]
      simp [mul_comm]

/-- concrete case -/
example := C13_partial _ _ (mat4R_reads smp4 false)

/-- C13, what holds: transposing the returned matrix gives the inverse: `a * transpose(inverse(a))` is the identity
(row-major `a`, so that `mul` accepts the operands). -/
theorem C13_transpose_partial (a : Mat4 (Fl ℝ)) (A : Matrix (Fin 4) (Fin 4) ℝ) (ha : MatTy.ReadsR .mat4 a A)
    (hd : ¬ |A.det| < Fmt.eps) (hl : a.isRowMajor = true) :
    ∃ m p q, a.inverse = some m ∧ a.mul m.transpose = .ok (some p) ∧ m.transpose.mul a = .ok (some q) ∧
      MatTy.ReadsR .mat4 p 1 ∧ MatTy.ReadsR .mat4 q 1 := by
  obtain ⟨m, hm, hf, hr⟩ := (C13_partial a A ha).2 hd
  have h0 : IsUnit A.det := by
    refine isUnit_iff_ne_zero.mpr fun h => hd ?_
    rw [h, abs_zero]; unfold Fmt.eps instFmtReal; positivity
  have hmt : MatTy.ReadsR .mat4 m.transpose A⁻¹ := by
    rw [MatTy.readsR_iff] at *
    intro i j
    show (m.transpose.idx i j).Is _
    rw [Mat4.idx_transpose]; exact hr j i
  obtain ⟨p, h1, -, r1⟩ := C04_mul .mat4 a m.transpose A A⁻¹ ha hmt (by
    show a.isRowMajor = m.transpose.isRowMajor
    rw [Mat4.transpose_flag, hl, hf])
  obtain ⟨q, h2, -, r2⟩ := C04_mul .mat4 m.transpose a A⁻¹ A hmt ha (by
    show m.transpose.isRowMajor = a.isRowMajor
    rw [Mat4.transpose_flag, hl, hf])
  rw [Matrix.mul_nonsing_inv _ h0] at r1
  rw [Matrix.nonsing_inv_mul _ h0] at r2
  exact ⟨m, p, q, hm, h1, h2, r1, r2⟩

/-- concrete case: a shear with a translation, of determinant 2 -/
example := C13_transpose_partial _ _ (mat4R_reads smp4 true) smp4_det (mat4Of_flag ..)

/-- C13, exact extent of the failure: the returned matrix is the inverse if and only if the input is symmetric. -/
theorem C13_correct_iff_symmetric_partial (a : Mat4 (Fl ℝ)) (A : Matrix (Fin 4) (Fin 4) ℝ) (ha : MatTy.ReadsR .mat4 a A)
    (hd : ¬ |A.det| < Fmt.eps) :
    ∃ m, a.inverse = some m ∧ (MatTy.ReadsR .mat4 m A⁻¹ ↔ A.transpose = A) := by
  obtain ⟨m, hm, -, hr⟩ := (C13_partial a A ha).2 hd
  have h0 : IsUnit A.det := by
    refine isUnit_iff_ne_zero.mpr fun h => hd ?_
    rw [h, abs_zero]; unfold Fmt.eps instFmtReal; positivity
  refine ⟨m, hm, fun h => ?_, fun h => ?_⟩
  · have e := MatTy.readsR_unique hr h
    have : (A⁻¹.transpose)⁻¹ = (A⁻¹)⁻¹ := by rw [e]
    rwa [Matrix.transpose_nonsing_inv, Matrix.nonsing_inv_nonsing_inv _ (by rwa [Matrix.det_transpose]),
      Matrix.nonsing_inv_nonsing_inv _ h0] at this
  · rwa [Matrix.transpose_nonsing_inv, h] at hr

/-- concrete case -/
example := C13_correct_iff_symmetric_partial _ _ (mat4R_reads smp4 true) smp4_det

/-- C13: a matrix that translates by 5 along x. -/
noncomputable def c13Witness : Mat4 (Fl ℝ) :=
  ⟨#v[.fin 1, .fin 0, .fin 0, .fin 5, .fin 0, .fin 1, .fin 0, .fin 0, .fin 0, .fin 0, .fin 1, .fin 0,
      .fin 0, .fin 0, .fin 0, .fin 1], true⟩

theorem c13Witness_reads : MatTy.ReadsR .mat4 c13Witness !![1, 0, 0, 5; 0, 1, 0, 0; 0, 0, 1, 0; 0, 0, 0, 1] := by
  rw [MatTy.readsR_iff]; intro i j; fin_cases i <;> fin_cases j <;> rfl

theorem c13Witness_det : (!![1, 0, 0, 5; 0, 1, 0, 0; 0, 0, 1, 0; 0, 0, 0, 1] : Matrix (Fin 4) (Fin 4) ℝ).det = 1 := by
  rw [det_fin_four]; simp [adj4]

/-- C13 is false of the code: a matrix of determinant 1 whose computed "inverse" is not its inverse. -/
theorem C13_false : ∃ (a m : Mat4 (Fl ℝ)) (A : Matrix (Fin 4) (Fin 4) ℝ), MatTy.ReadsR .mat4 a A ∧ A.det = 1 ∧
    a.inverse = some m ∧ ¬ MatTy.ReadsR .mat4 m A⁻¹ := by
  have hd := c13Witness_det
  obtain ⟨m, hm, hr⟩ := C13_correct_iff_symmetric_partial c13Witness _ c13Witness_reads (by
    rw [hd, abs_one, not_lt]; unfold Fmt.eps instFmtReal; norm_num)
  refine ⟨_, m, _, c13Witness_reads, hd, hm, fun h => ?_⟩
  have := congrFun (congrFun (hr.mp h) 0) 3
  simp at this

/-- The same in binary64: `inverse` of the translation by 5 has the -5 in the last row instead of the last column. -/
theorem C13_f64_false :
    ((⟨#v[.fin 1, .fin 0, .fin 0, .fin 5, .fin 0, .fin 1, .fin 0, .fin 0, .fin 0, .fin 0, .fin 1, .fin 0,
      .fin 0, .fin 0, .fin 0, .fin 1], true⟩ : Mat4 (Fl Q64)).inverse.map fun m => (m.idx 0 3, m.idx 3 0)) =
      some (.fin 0, .fin (-5)) := by decide +kernel

/-! ## C14: `Mat3::inverse` -/

/-- C14, what holds: `None` exactly when `-1e-11 < det < 1e-10` (so never for a matrix that is not near-singular, and always
for a singular one); otherwise `Some m` in the same layout with the entries shown, in
which only the second product of each cofactor is divided by the determinant. Missing for C14: `m` is the inverse. -/
theorem C14_partial (a : Mat3 (Fl ℝ)) (A : Matrix (Fin 3) (Fin 3) ℝ) (ha : MatTy.ReadsR .mat3 a A) :
    (a.inverse = none ↔ -(1 / 100000000000) < A.det ∧ A.det < 1 / 10000000000) ∧
    (¬ (-(1 / 100000000000) < A.det ∧ A.det < 1 / 10000000000) →
      ∃ m, a.inverse = some m ∧ m.isRowMajor = a.isRowMajor ∧ MatTy.ReadsR .mat3 m
        !![A 1 1 * A 2 2 - A 1 2 * A 2 1 / A.det, A 0 1 * A 2 2 - A 0 2 * A 2 1 / A.det, A 0 1 * A 1 2 - A 0 2 * A 1 1 / A.det;
           -(A 1 0 * A 2 2 - A 1 2 * A 2 0) / A.det, -(A 0 0 * A 2 2 - A 0 2 * A 2 0) / A.det, -(A 0 0 * A 1 2 - A 0 2 * A 1 0) / A.det;
           A 1 0 * A 2 1 - A 1 1 * A 2 0 / A.det, A 0 0 * A 2 1 - A 0 1 * A 2 0 / A.det, A 0 0 * A 1 1 - A 0 1 * A 1 0 / A.det]) := by
  have hi : ∀ i j, (a.idx i j).Is (A i j) := MatTy.readsR_iff.mp ha
  have hd : (det3code a.idx).Is A.det := by rw [← det3code_det]; exact det3code_is _ _ hi
  have h1 := hd.lt (Fl.is_lit (1 / 10000000000))
  have h2 := (Fl.is_lit (1 / 100000000000)).neg.lt hd
  rcases Mat3.inverse_eq a with ⟨hc, hn⟩ | ⟨hc, m, hm, hf, he⟩
  · rw [h1, h2, Bool.and_eq_true, decide_eq_true_eq, decide_eq_true_eq] at hc
    exact ⟨⟨fun _ => hc.symm, fun _ => hn⟩, fun h => absurd hc.symm h⟩
  · have hc' : ¬ (-(1 / 100000000000) < A.det ∧ A.det < 1 / 10000000000) := by
      rintro ⟨h3, h4⟩
      rw [h1, h2, decide_eq_true h3, decide_eq_true h4] at hc
      exact absurd hc (by decide)
    refine ⟨by simp only [hm, reduceCtorEq, hc'], fun _ => ⟨m, hm, hf, MatTy.readsR_iff.mpr fun i j => ?_⟩⟩
    have h0 : A.det ≠ 0 := by intro h; rw [h] at hc'; norm_num at hc'
    show (m.idx i j).Is _
    rw [he]
    refine (inv3code_is _ _ hi _ _ hd h0 i j).cast ?_
    fin_cases i <;> fin_cases j <;> rfl

/-- concrete case -/
example := C14_partial _ _ (mat3R_reads smp3 false)

/-- C14, what holds: entries (1,0) and (1,2) are always those of the inverse, and for determinant 1 the result is the inverse with
its middle column negated. -/
theorem C14_det_one_partial (a m : Mat3 (Fl ℝ)) (A : Matrix (Fin 3) (Fin 3) ℝ) (ha : MatTy.ReadsR .mat3 a A)
    (hm : a.inverse = some m) :
    (m.idx 1 0).Is (A⁻¹ 1 0) ∧ (m.idx 1 2).Is (A⁻¹ 1 2) ∧
      (A.det = 1 → MatTy.ReadsR .mat3 m (A⁻¹ * Matrix.diagonal ![1, -1, 1])) := by
  obtain ⟨p1, p2⟩ := C14_partial a A ha
  have hc : ¬ (-(1 / 100000000000) < A.det ∧ A.det < 1 / 10000000000) := fun h => by
    rw [p1.mpr h] at hm; simp at hm
  obtain ⟨m', hm', -, hr⟩ := p2 hc
  obtain rfl : m = m' := by rw [hm] at hm'; exact Option.some.inj hm'
  have h0 : A.det ≠ 0 := by intro h; rw [h] at hc; norm_num at hc
  rw [MatTy.readsR_iff] at hr
  refine ⟨(hr 1 0).cast ?_, (hr 1 2).cast ?_, fun h1 => MatTy.readsR_iff.mpr fun i j => (hr i j).cast ?_⟩
  · rw [inv3_eq A h0]; simp; ring
  · rw [inv3_eq A h0]; simp; ring
  · rw [inv3_eq A h0, h1]
    fin_cases i <;> fin_cases j <;> simp [Matrix.mul_apply, Matrix.diagonal]

/-- concrete case: the inverse of `mat3R smp3` (determinant -3) exists -/
example : ∃ m, (mat3R smp3 true).inverse = some m ∧ (m.idx 1 0).Is (smp3⁻¹ 1 0) := by
  obtain ⟨m, hm, _⟩ := (C14_partial _ _ (mat3R_reads smp3 true)).2 (by
    rw [Matrix.det_fin_three]; simp [smp3]; norm_num)
  exact ⟨m, hm, (C14_det_one_partial _ m _ (mat3R_reads smp3 true) hm).1⟩

/-- C14, what holds: the (1,1) entry is minus the right one, so the result is wrong whenever that cofactor is not zero. -/
theorem C14_entry11_partial (a m : Mat3 (Fl ℝ)) (A : Matrix (Fin 3) (Fin 3) ℝ) (ha : MatTy.ReadsR .mat3 a A)
    (hm : a.inverse = some m) : (m.idx 1 1).Is (-(A⁻¹ 1 1)) ∧ (A⁻¹ 1 1 ≠ 0 → ¬ MatTy.ReadsR .mat3 m A⁻¹) := by
  obtain ⟨p1, p2⟩ := C14_partial a A ha
  have hc : ¬ (-(1 / 100000000000) < A.det ∧ A.det < 1 / 10000000000) := fun h => by
    rw [p1.mpr h] at hm; simp at hm
  obtain ⟨m', hm', -, hr⟩ := p2 hc
  obtain rfl : m = m' := by rw [hm] at hm'; exact Option.some.inj hm'
  have h0 : A.det ≠ 0 := by intro h; rw [h] at hc; norm_num at hc
  rw [MatTy.readsR_iff] at hr
  have h11 : (m.idx 1 1).Is (-(A⁻¹ 1 1)) := (hr 1 1).cast (by rw [inv3_eq A h0]; simp; ring)
  refine ⟨h11, fun hne h => hne ?_⟩
  have := h11.unique (MatTy.readsR_iff.mp h 1 1)
  linarith

/-- concrete case -/
example : ∃ m, (mat3R smp3 true).inverse = some m ∧ (m.idx 1 1).Is (-(smp3⁻¹ 1 1)) := by
  obtain ⟨m, hm, _⟩ := (C14_partial _ _ (mat3R_reads smp3 true)).2 (by
    rw [Matrix.det_fin_three]; simp [smp3]; norm_num)
  exact ⟨m, hm, (C14_entry11_partial _ m _ (mat3R_reads smp3 true) hm).1⟩

theorem iden3_readsR : MatTy.ReadsR .mat3 (Mat3.iden : Mat3 (Fl ℝ)) 1 := iden_readsR .mat3

/-- C14 is false of the code: the computed inverse of the identity matrix is `diag(1, -1, 1)`. -/
theorem C14_false : ∃ m, (Mat3.iden : Mat3 (Fl ℝ)).inverse = some m ∧
    MatTy.ReadsR .mat3 m (Matrix.diagonal ![1, -1, 1]) ∧ ¬ MatTy.ReadsR .mat3 m (1 : Matrix (Fin 3) (Fin 3) ℝ)⁻¹ := by
  obtain ⟨m, hm, -, -⟩ := (C14_partial _ _ iden3_readsR).2 (by rw [Matrix.det_one]; norm_num)
  have h := (C14_det_one_partial _ m _ iden3_readsR hm).2.2 Matrix.det_one
  rw [inv_one, one_mul] at h
  exact ⟨m, hm, h, (C14_entry11_partial _ m _ iden3_readsR hm).2 (by simp)⟩

/-- The same in binary64. -/
theorem C14_f64_false : (Mat3.iden : Mat3 (Fl Q64)).inverse.map (fun m => (m.idx 0 0, m.idx 1 1, m.idx 2 2)) =
    some (.fin 1, .fin (-1), .fin 1) := by decide +kernel

end Mazth
