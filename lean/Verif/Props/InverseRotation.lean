import Verif.Props.Undo
import Verif.Props.FloatInverse
import Mathlib.LinearAlgebra.Matrix.AbsoluteValue

/-!
# C107: the computed inverse of a rotation matrix, in binary64
-/

set_option linter.unusedSectionVars false
set_option autoImplicit false

namespace Mazth

open Quaternion Matrix RndErr

namespace InvRot

/-- replacing one row of a small matrix by one with entries at most `d` -/
theorem det_row {M : Matrix (Fin 4) (Fin 4) ℝ} (hM : ∀ i j, |M i j| ≤ 2) {d : ℝ} (hd : 0 < d) {e : Fin 4 → ℝ} (he : ∀ j, |e j| ≤ d) (k : Fin 4) :
    |(M.updateRow k e).det| ≤ 384 * d := by
  have h1 : e = d • (d⁻¹ • e) := by rw [smul_smul, mul_inv_cancel₀ hd.ne', one_smul]
  rw [h1, det_updateRow_smul, abs_mul, abs_of_pos hd]
  have h2 : |(M.updateRow k (d⁻¹ • e)).det| ≤ 384 := by
    refine (det_le (abv := AbsoluteValue.abs) (x := 2) fun i j => ?_).trans (by simp [Nat.factorial]; norm_num)
    show |M.updateRow k (d⁻¹ • e) i j| ≤ 2
    rw [updateRow_apply]
    split_ifs
    · rw [Pi.smul_apply, smul_eq_mul, abs_mul, abs_of_pos (inv_pos.mpr hd), inv_mul_le_iff₀ hd]
      linarith [he j]
    · exact hM i j
  nlinarith

/-- the determinant of a matrix near another one -/
theorem det_near {A U : Matrix (Fin 4) (Fin 4) ℝ} (hA : ∀ i j, |A i j| ≤ 2) (hU : ∀ i j, |U i j| ≤ 2) {d : ℝ} (hd : 0 < d)
    (h : ∀ i j, |A i j - U i j| ≤ d) : |A.det - U.det| ≤ 1536 * d := by
  have step (M : Matrix (Fin 4) (Fin 4) ℝ) (hM : ∀ i j, |M i j| ≤ 2) (k : Fin 4) (hk : M k = U k) :
      |(M.updateRow k (A k)).det - M.det| ≤ 384 * d := by
    have e : A k = M k + (A k - U k) := by rw [hk]; abel
    rw [e, det_updateRow_add, updateRow_eq_self, add_sub_cancel_left]
    exact det_row hM hd (h k) k
  have keep (M : Matrix (Fin 4) (Fin 4) ℝ) (hM : ∀ i j, |M i j| ≤ 2) (k : Fin 4) (i j : Fin 4) : |M.updateRow k (A k) i j| ≤ 2 := by
    rw [updateRow_apply]; split_ifs
    · exact hA _ _
    · exact hM _ _
  have s0 := step U hU 0 rfl
  have k0 := keep U hU 0
  have s1 := step _ k0 1 (by rw [updateRow_ne (by decide)])
  have k1 := keep _ k0 1
  have s2 := step _ k1 2 (by rw [updateRow_ne (by decide), updateRow_ne (by decide)])
  have k2 := keep _ k1 2
  have s3 := step _ k2 3 (by rw [updateRow_ne (by decide), updateRow_ne (by decide), updateRow_ne (by decide)])
  have e : (((U.updateRow 0 (A 0)).updateRow 1 (A 1)).updateRow 2 (A 2)).updateRow 3 (A 3) = A := by
    ext i j
    fin_cases i <;> simp [updateRow_apply]
  rw [e] at s3
  rw [abs_le] at *
  constructor <;> linarith [s0.1, s0.2, s1.1, s1.2, s2.1, s2.2, s3.1, s3.2]

/-- a solution of `A c = e` for a matrix near an orthogonal one -/
theorem solve_near {A U : Matrix (Fin 4) (Fin 4) ℝ} (hU : U * Uᵀ = 1) {d : ℝ} (hd0 : 0 ≤ d) (hd : d ≤ 1 / 4) (h : ∀ i, euc (A i - U i) ≤ d)
    {c e : Fin 4 → ℝ} (hc : A *ᵥ c = e) (he : euc e = 1) : euc (c - Uᵀ *ᵥ e) ≤ 4 * d := by
  have hU' : Uᵀ * U = 1 := mul_eq_one_comm.mp hU
  have h1 : euc (fun i => ∑ k, (A i - U i) k * c k) ≤ 2 * (d * euc c) := MatChain.euc_two le_rfl (mul_nonneg hd0 (euc_nonneg _)) fun i =>
    (MatChain.cauchy_dot _ _).trans (mul_le_mul_of_nonneg_right (h i) (euc_nonneg _))
  have h2 : U *ᵥ (c - Uᵀ *ᵥ e) = - fun i => ∑ k, (A i - U i) k * c k := by
    rw [mulVec_sub, mulVec_mulVec, hU, one_mulVec, ← hc]
    funext i
    simp only [Pi.sub_apply, Pi.neg_apply, Matrix.mulVec, dotProduct, sub_mul, Finset.sum_sub_distrib]
    ring
  have h3 : euc (c - Uᵀ *ᵥ e) ≤ 2 * (d * euc c) := by
    rw [← MatChain.euc_mulVec hU, h2, ← zero_sub, euc_sub_comm, sub_zero]
    exact h1
  have h4 : euc (Uᵀ *ᵥ e) = 1 := by
    rw [MatChain.euc_mulVec (by rw [transpose_transpose]; exact hU'), he]
  have h5 := MatChain.euc_tri c (Uᵀ *ᵥ e)
  have h6 := mul_le_mul_of_nonneg_right hd (euc_nonneg c)
  have h7 : euc c ≤ 2 := by linarith
  have h8 := mul_le_mul_of_nonneg_left h7 hd0
  linarith

theorem det_orth {U : Matrix (Fin 4) (Fin 4) ℝ} (hU : U * Uᵀ = 1) : |U.det| = 1 := by
  have := congrArg det hU
  rw [det_mul, det_transpose, det_one] at this
  have h : |U.det| * |U.det| = 1 := by rw [abs_mul_abs_self]; exact this
  nlinarith [abs_nonneg U.det]

end InvRot

/-- C107: the inverse of a matrix close to an orthogonal one.  The code finds an inverse; and because it stores the cofactors untransposed
(C13), the result is the matrix itself again: the rows of the computed inverse are within `4 d + 2^-36` of those of the
same orthogonal matrix. -/
theorem C107_inverse_f64 {a : Mat4 (Fl Q64)} {U : Matrix (Fin 4) (Fin 4) ℝ} {d : ℝ} (hd0 : 0 < d) (hd : d ≤ 2 ^ (-12 : ℤ)) (ha : MatTy.NearO BinQ.real .mat4 d a U) :
    ∃ m, a.inverse = some m ∧ m.isRowMajor = true ∧ MatTy.NearO BinQ.real .mat4 (4 * d + 2 ^ (-36 : ℤ)) m U := by
  obtain ⟨hU, A, hA, hrow⟩ := ha
  change Matrix (Fin 4) (Fin 4) Q64 at A
  replace hrow : ∀ i : Fin 4, euc ((fun j => (A i j).real) - U i) ≤ d := hrow
  have hd' : d ≤ 1 / 4096 := hd.trans (by norm_num)
  have uE (i j : Fin 4) : |U i j| ≤ 1 := by
    have := euc_coord (U i) j
    rwa [MatChain.row_one hU] at this
  have dE (i j : Fin 4) : |(A i j).real - U i j| ≤ d := (euc_coord ((fun j => (A i j).real) - U i) j).trans (hrow i)
  have aE (i j : Fin 4) : |(A i j).real| ≤ 1 + d := by
    have h1 := uE i j
    have h2 := dE i j
    rw [abs_le] at *
    constructor <;> linarith [h1.1, h1.2, h2.1, h2.2]
  have eM : BinQ.real (f64c (1 + 1 / 4096)) = 1 + 1 / 4096 := by
    show (((1 + 1 / 4096 : ℚ) : ℚ) : ℝ) = _
    push_cast; rfl
  have hM (i j : Fin 4) : |A i j| ≤ f64c (1 + 1 / 4096) := by
    rw [← BinQ.real_strictMono.le_iff_le, map_abs_mono BinQ.real BinQ.real_strictMono, eM]
    linarith [aE i j]
  obtain ⟨-, key⟩ := C71_mat4_f64 a A hA (f64c (1 + 1 / 4096)) (show (1 : ℚ) ≤ 1 + 1 / 4096 by norm_num)
    (show (1 + 1 / 4096 : ℚ) ≤ 2 ^ (252 : ℤ) from le_trans (by norm_num : (1 + 1 / 4096 : ℚ) ≤ 2 ^ (1 : ℤ)) (zpow_le_zpow_right₀ (by norm_num) (by norm_num))) hM
  have edet : BinQ.real A.det = (A.map BinQ.real).det := BinQ.real.map_det A
  have hdet : |(A.map BinQ.real).det - U.det| ≤ 1536 * d := InvRot.det_near (fun i j => (aE i j).trans (by linarith))
    (fun i j => (uE i j).trans (by norm_num)) hd0 dE
  have hlow : 1 / 2 ≤ |(A.map BinQ.real).det| := by
    have h1 := InvRot.det_orth hU
    have h2 := abs_sub_abs_le_abs_sub U.det (A.map BinQ.real).det
    rw [abs_sub_comm] at h2
    linarith
  have hlowQ : f64c (1 / 2) ≤ |A.det| := by
    rw [← BinQ.real_strictMono.le_iff_le, map_abs_mono BinQ.real BinQ.real_strictMono, edet]
    have : BinQ.real (f64c (1 / 2)) = 1 / 2 := by
      show (((1 / 2 : ℚ) : ℚ) : ℝ) = _
      push_cast; rfl
    rw [this]; exact hlow
  obtain ⟨m, W, e, hf, hW, err⟩ := key (le_trans (by decide +kernel) hlowQ)
  have hne : A.det ≠ 0 := by
    intro h0
    rw [h0, abs_zero] at hlowQ
    exact absurd hlowQ (by decide +kernel)
  have err' (i j : Fin 4) : |(W i j).real - (A⁻¹ j i).real| ≤ 2 ^ (-37 : ℤ) := by
    have h1 : f64c (2 ^ (-40 : ℤ)) * f64c (1 + 1 / 4096) ^ 7 / A.det ^ 2 ≤ f64c (2 ^ (-37 : ℤ)) := by
      have h2 : f64c (1 / 4) ≤ A.det ^ 2 := by
        rw [← sq_abs]
        refine le_trans ?_ (pow_le_pow_left₀ (by decide +kernel) hlowQ 2)
        decide +kernel
      rw [div_le_iff₀ (lt_of_lt_of_le (by decide +kernel) h2)]
      refine le_trans ?_ (mul_le_mul_of_nonneg_left h2 (by decide +kernel))
      decide +kernel
    have h2 := BinQ.real_strictMono.monotone ((err i j).trans h1)
    rw [map_abs_mono BinQ.real BinQ.real_strictMono, map_sub] at h2
    refine h2.trans (le_of_eq ?_)
    show (((2 ^ (-37 : ℤ) : ℚ) : ℚ) : ℝ) = _
    push_cast; rfl
  have hinv : (A.map BinQ.real) * (A⁻¹.map BinQ.real) = 1 := by
    have h1 : A * A⁻¹ = 1 := mul_nonsing_inv A (isUnit_iff_ne_zero.mpr hne)
    have h2 := congrArg (BinQ.real : Q64 →+* ℝ).mapMatrix h1
    rw [map_mul, map_one] at h2
    exact h2
  refine ⟨m, e, hf, hU, W, hW, fun i => ?_⟩
  change Fin 4 at i
  show euc ((fun j => (W i j).real) - U i) ≤ _
  have hsol := InvRot.solve_near (A := A.map BinQ.real) (c := fun k => (A⁻¹ k i).real) (e := Pi.single i 1) hU hd0.le (by linarith) hrow
    (by
      funext k
      have := congrFun (congrFun hinv k) i
      rw [Matrix.one_apply] at this
      rw [Pi.single_apply]
      exact this) (by
      rw [euc_eq, Real.sqrt_eq_one]
      simp [Pi.single_apply])
  have eU : Uᵀ *ᵥ Pi.single i 1 = U i := by
    rw [mulVec_single_one]; rfl
  rw [eU] at hsol
  have h1 : euc (fun j => (W i j).real - (A⁻¹ j i).real) ≤ 2 * 2 ^ (-37 : ℤ) := MatChain.euc_two le_rfl (by positivity) (err' i)
  have e2 : ((fun j => (W i j).real) - U i) = (fun j => (W i j).real - (A⁻¹ j i).real) + ((fun k => (A⁻¹ k i).real) - U i) := by
    funext j; simp
  rw [e2]
  refine (euc_add_le _ _).trans ?_
  have e3 : (2 : ℝ) ^ (-36 : ℤ) = 2 * 2 ^ (-37 : ℤ) := by norm_num
  rw [e3]; linarith

/-- a vector taken through two matrices -/
theorem InvRot.two {a b : Mat4 (Fl Q64)} {A B : Matrix (Fin 4) (Fin 4) ℝ} (ha : MatTy.NearO BinQ.real .mat4 (2 ^ (-34 : ℤ)) a A)
    (hb : MatTy.NearO BinQ.real .mat4 (2 ^ (-34 : ℤ)) b B) {v : Mat4x1 (Fl Q64)} {V : Fin 4 → Q64}
    (hv : VecTy.HoldsF .mat4x1 v V) {M : Q64} (hM : M ≤ ((2 : ℚ) ^ (1000 : ℤ) : ℚ)) (hB : ∀ i, |V i| ≤ M) :
    ∃ (c w : Mat4x1 (Fl Q64)) (W : Fin 4 → Q64), a.mulMat4x1 v = some c ∧ b.mulMat4x1 c = some w ∧ VecTy.HoldsF .mat4x1 w W ∧
      euc ((fun i => (W i).real) - (B * A) *ᵥ fun i => (V i).real) ≤ 2 ^ (-30 : ℤ) * euc (fun i => (V i).real) + 2 ^ (-1000 : ℤ) := by
  have hu := f64_consts.1
  obtain ⟨w, W, e, hW, h1, -⟩ := C98_apply BinQ.real BinQ.real_strictMono .mat4 (d := 2 ^ (-34 : ℤ)) (by positivity) (by norm_num)
    (.cons ha (.cons hb .nil)) (v := v) (V := V) hv (B := M) hB (by
      have := f64_vec_range hM
      have := (abs_nonneg _).trans (hB 0)
      linarith) eta_u64 (by
      rw [hu]; simp only [List.length_cons, List.length_nil]; norm_num)
  unfold MatTy.applyAll at e
  simp only [List.foldlM_cons, List.foldlM_nil, Option.bind_eq_bind, Option.pure_def] at e
  obtain ⟨c, hc, e⟩ := Option.bind_eq_some_iff.mp e
  have e' : MatTy.mulCol .mat4 b c = some w := by simpa using e
  refine ⟨c, w, W, hc, e', hW, ?_⟩
  simp only [List.foldl_cons, List.foldl_nil, List.length_cons, List.length_nil, Matrix.mulVec_mulVec] at h1
  refine h1.trans ?_
  rw [hu, f64_consts.2]
  have e0 := euc_nonneg fun i => (V i).real
  have e3 : (2 : ℝ) * (18 * 2 ^ (-1075 : ℤ)) ≤ 2 ^ (-1000 : ℤ) := by
    rw [show (-1000 : ℤ) = 75 + -1075 by norm_num, zpow_add₀ (by norm_num), ← mul_assoc]
    exact mul_le_mul_of_nonneg_right (by norm_num) (by positivity)
  have e4 : (2 : ℝ) * (4 * 2 ^ (-34 : ℤ) + 20 * 2 ^ (-53 : ℤ)) ≤ 2 ^ (-30 : ℤ) := by norm_num
  have e5 := mul_le_mul_of_nonneg_right e4 e0
  push_cast
  linarith

theorem InvRot.weaken {a : Mat4 (Fl Q64)} {A : Matrix (Fin 4) (Fin 4) ℝ} {d d' : ℝ} (h : MatTy.NearO BinQ.real .mat4 d a A) (hd : d ≤ d') :
    MatTy.NearO BinQ.real .mat4 d' a A := ⟨h.1, h.2.imp fun _ h => ⟨h.1, fun i => (h.2 i).trans hd⟩⟩

/-- C107 for `f64`: `to_rotation_matrix(true)` of a quaternion normalised by the library, inverted by the library: the inverse exists, its
entries are those of the rotation matrix itself up to `2^-35`; so applying it to the rotated vector rotates a second time, up to `2^-30` of
the length, where its transpose rotates back; and inverting once more gives the rotation matrix up to `2^-33`. -/
theorem C107_rotation_f64 {n : Quat (Fl Q64)} {N : ℍ[Q64]} (hn : Norm64 n N) {v : Mat4x1 (Fl Q64)} {V : Fin 4 → Q64}
    (hv : VecTy.HoldsF .mat4x1 v V) {M : Q64} (hM : M ≤ ((2 : ℚ) ^ (1000 : ℤ) : ℚ)) (hB : ∀ i, |V i| ≤ M) :
    ∃ (m m' : Mat4 (Fl Q64)) (A B B' : Matrix (Fin 4) (Fin 4) Q64), (n.toRotationMatrix true).inverse = some m ∧ m.inverse = some m' ∧
      MatTy.HoldsF .mat4 (n.toRotationMatrix true) A ∧ MatTy.HoldsF .mat4 m B ∧ MatTy.HoldsF .mat4 m' B' ∧
      (∀ i j, |(B i j).real - (A i j).real| ≤ 2 ^ (-35 : ℤ)) ∧ (∀ i j, |(B' i j).real - (A i j).real| ≤ 2 ^ (-33 : ℤ)) ∧
      (∃ (c w : Mat4x1 (Fl Q64)) (W : Fin 4 → Q64), (n.toRotationMatrix true).mulMat4x1 v = some c ∧ m.mulMat4x1 c = some w ∧ VecTy.HoldsF .mat4x1 w W ∧
        ∃ z, rotR (unit64 N) (rotR (unit64 N) fun i => (V i.castSucc).real) = z ∧
        euc ((fun i => (W i).real) - ![z 0, z 1, z 2, (V 3).real]) ≤ 2 ^ (-30 : ℤ) * euc (fun i => (V i).real) + 2 ^ (-1000 : ℤ)) ∧
      (∃ (c w : Mat4x1 (Fl Q64)) (W : Fin 4 → Q64), (n.toRotationMatrix true).mulMat4x1 v = some c ∧ m.transpose.mulMat4x1 c = some w ∧ VecTy.HoldsF .mat4x1 w W ∧
        euc ((fun i => (W i).real) - fun i => (V i).real) ≤ 2 ^ (-30 : ℤ) * euc (fun i => (V i).real) + 2 ^ (-1000 : ℤ)) := by
  have hu := f64_consts.1
  have hU := hn.near.1
  have near := hn.matrix
  rw [hu] at near
  obtain ⟨m, e, -, hm⟩ := C107_inverse_f64 (d := 200 * 2 ^ (-53 : ℤ)) (by positivity) (by norm_num) near
  obtain ⟨m', e', -, hm'⟩ := C107_inverse_f64 (by positivity) (by norm_num) hm
  obtain ⟨o, A, hA, rA⟩ := near
  obtain ⟨-, B, hB', rB⟩ := hm
  obtain ⟨-, B', hB'', rB'⟩ := hm'
  have entry {X : Matrix (Fin 4) (Fin 4) Q64} {r s : ℝ} (hX : ∀ i : Fin 4, euc ((fun j => (X i j).real) - rotM (unit64 N) i) ≤ r)
      (hs : r + 200 * 2 ^ (-53 : ℤ) ≤ s) (i j : Fin 4) : |(X i j).real - (A i j).real| ≤ s := by
    have h1 : |(X i j).real - rotM (unit64 N) i j| ≤ r := (euc_coord ((fun j => (X i j).real) - rotM (unit64 N) i) j).trans (hX i)
    have h2 : |(A i j).real - rotM (unit64 N) i j| ≤ _ := (euc_coord ((fun j => (A i j).real) - rotM (unit64 N) i) j).trans (rA i)
    rw [abs_le] at *
    constructor <;> linarith [h1.1, h1.2, h2.1, h2.2]
  have hm2 : MatTy.NearO BinQ.real .mat4 (2 ^ (-34 : ℤ)) m (rotM (unit64 N)) := InvRot.weaken ⟨o, B, hB', rB⟩ (by norm_num)
  have hmt : MatTy.NearO BinQ.real .mat4 (2 ^ (-34 : ℤ)) m.transpose (rotM (unit64 N))ᵀ :=
    InvRot.weaken (MatTy.NearO.transpose (t := .mat4) BinQ.real ⟨o, B, hB', rB⟩) (by norm_num)
  have hn2 : MatTy.NearO BinQ.real .mat4 (2 ^ (-34 : ℤ)) (n.toRotationMatrix true) (rotM (unit64 N)) := InvRot.weaken ⟨o, A, hA, rA⟩ (by norm_num)
  refine ⟨m, m', A, B, B', e, e', hA, hB', hB'', entry rB (by norm_num), entry rB' (by norm_num), ?_, ?_⟩
  · obtain ⟨c, w, W, h1, h2, h3, h4⟩ := InvRot.two hn2 hm2 hv hM hB
    refine ⟨c, w, W, h1, h2, h3, _, rfl, ?_⟩
    rw [← Matrix.mulVec_mulVec] at h4
    have k1 := rotM_vec hU (fun i => (V i.castSucc).real) (V 3).real
    have ev : (fun i => (V i).real) = ![(V (Fin.castSucc 0)).real, (V (Fin.castSucc 1)).real, (V (Fin.castSucc 2)).real, (V 3).real] := by
      funext i; fin_cases i <;> rfl
    rw [← ev] at k1
    rw [k1, rotM_vec hU] at h4
    exact h4
  · obtain ⟨c, w, W, h1, h2, h3, h4⟩ := InvRot.two hn2 hmt hv hM hB
    rw [mul_eq_one_comm.mp o, Matrix.one_mulVec] at h4
    exact ⟨c, w, W, h1, h2, h3, h4⟩

/-- concrete case: the matrix of `(1 + 2i + 3j + 4k)/√30` and the vector `(1, -2, 3, 1)` -/
example := norm_2341.imp fun n h => C107_rotation_f64 h (v := ⟨#v[.fin 1, .fin (-2), .fin 3, .fin 1]⟩) (V := ![1, -2, 3, 1])
  (VecTy.holdsF_iff.mpr fun i => by change Fin 4 at i; fin_cases i <;> exact ⟨rfl, .inr (by decide +kernel)⟩) (M := 3)
  (show (3 : ℚ) ≤ 2 ^ (1000 : ℤ) from le_trans (b := 2 ^ (2 : ℤ)) (by norm_num) (zpow_le_zpow_right₀ (by norm_num) (by norm_num)))
  (fun i => by fin_cases i <;> simp <;> norm_num)

/-- the general statement, with the same matrix -/
example := norm_2341.imp fun n h => C107_inverse_f64 (d := 200 * BinQ.real (u : Q64)) (by rw [f64_consts.1]; positivity)
  (by rw [f64_consts.1]; norm_num) h.matrix

/-- the row-major rotation matrix of `(1 + i + j + k)/2` -/
def third107 : Mat4 (Fl Q64) := (⟨.fin (1 / 2 : ℚ), .fin (1 / 2 : ℚ), .fin (1 / 2 : ℚ), .fin (1 / 2 : ℚ)⟩ : Quat (Fl Q64)).toRotationMatrix true

/-- C107: the computed inverse of a rotation matrix need not undo the rotation: `(1 + i + j + k)/2` turns `(1, 2, 3)` to `(3, 1, 2)`, and applying the
inverse matrix gives `(2, 3, 1)`; all numbers are exact here. -/
theorem C107_undo_false : (third107.inverse.bind fun m => (third107.mulMat4x1 ⟨#v[.fin 1, .fin 2, .fin 3, .fin 1]⟩).bind fun c =>
      (m.mulMat4x1 c).map fun w => ([c.val[0], c.val[1], c.val[2]], [w.val[0], w.val[1], w.val[2]])) =
    some ([.fin 3, .fin 1, .fin 2], [.fin 2, .fin 3, .fin 1]) := by
  decide +kernel

end Mazth
