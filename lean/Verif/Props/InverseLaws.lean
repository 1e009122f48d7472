import Verif.Props.Inverse
import Verif.Props.Undo

/-!
# C103: laws of `Mat4::inverse`; C14: which matrices `Mat3::inverse` inverts
-/

set_option linter.unusedSectionVars false
set_option autoImplicit false

namespace Mazth

open Matrix

namespace InvLaws

theorem eps_pos : (0 : ℝ) < Fmt.eps := by unfold Fmt.eps instFmtReal; positivity

variable {a b : Mat4 (Fl ℝ)} {A B : Matrix (Fin 4) (Fin 4) ℝ}

theorem det_ne (hA : (Fmt.eps : ℝ) ≤ |A.det|) : A.det ≠ 0 := fun h => by
  rw [h, abs_zero] at hA
  exact absurd eps_pos (not_lt.mpr hA)

theorem dunit (hA : (Fmt.eps : ℝ) ≤ |A.det|) : IsUnit A.det := isUnit_iff_ne_zero.mpr (det_ne hA)

theorem get (ha : MatTy.ReadsR .mat4 a A) (hA : (Fmt.eps : ℝ) ≤ |A.det|) :
    ∃ m, a.inverse = some m ∧ m.isRowMajor = true ∧ MatTy.ReadsR .mat4 m A⁻¹ᵀ := (C13_partial a A ha).2 (not_lt.mpr hA)

theorem of_some {m : Mat4 (Fl ℝ)} (ha : MatTy.ReadsR .mat4 a A) (h : a.inverse = some m) :
    (Fmt.eps : ℝ) ≤ |A.det| ∧ m.isRowMajor = true ∧ MatTy.ReadsR .mat4 m A⁻¹ᵀ := by
  have hA : (Fmt.eps : ℝ) ≤ |A.det| := by
    by_contra hc
    rw [(C13_partial a A ha).1.mpr (not_le.mp hc)] at h
    cases h
  obtain ⟨m', h', f, r⟩ := get ha hA
  rw [h] at h'
  obtain rfl := Option.some.inj h'
  exact ⟨hA, f, r⟩

theorem inj {X Y : Matrix (Fin 4) (Fin 4) ℝ} (hX : IsUnit X.det) (hY : IsUnit Y.det) (h : X⁻¹ᵀ = Y⁻¹ᵀ) : X = Y := by
  have h := congrArg Inv.inv (Matrix.transpose_injective h)
  rwa [nonsing_inv_nonsing_inv _ hX, nonsing_inv_nonsing_inv _ hY] at h

end InvLaws

open InvLaws

section laws

variable {a b : Mat4 (Fl ℝ)} {A B : Matrix (Fin 4) (Fin 4) ℝ}

/-- C103: `inverse` turns products into products *in the same order*: the inverse of `a b` is the inverse of `a` times the inverse of
`b`, provided the three determinants are above the threshold. -/
theorem C103_product (ha : MatTy.ReadsR .mat4 a A) (hb : MatTy.ReadsR .mat4 b B) (hl : a.isRowMajor = b.isRowMajor)
    (hA : (Fmt.eps : ℝ) ≤ |A.det|) (hB : (Fmt.eps : ℝ) ≤ |B.det|) (hAB : (Fmt.eps : ℝ) ≤ |A.det * B.det|) :
    ∃ ab m ma mb p, a.mul b = .ok (some ab) ∧ ab.inverse = some m ∧ a.inverse = some ma ∧ b.inverse = some mb ∧
      ma.mul mb = .ok (some p) ∧ ∃ M, MatTy.ReadsR .mat4 m M ∧ MatTy.ReadsR .mat4 p M := by
  obtain ⟨ab, h, -, r⟩ := C04_mul .mat4 a b A B ha hb hl
  obtain ⟨ma, h1, f1, r1⟩ := get ha hA
  obtain ⟨mb, h2, f2, r2⟩ := get hb hB
  obtain ⟨m, h3, -, r3⟩ := get r (by rw [det_mul]; exact hAB)
  obtain ⟨p, h4, -, r4⟩ := C04_mul .mat4 ma mb _ _ r1 r2 (f1.trans f2.symm)
  refine ⟨ab, m, ma, mb, p, h, h3, h1, h2, h4, _, r3, ?_⟩
  rw [Matrix.mul_inv_rev, Matrix.transpose_mul]
  exact r4

/-- C103: the law of the textbooks, the inverse of `a b` is the inverse of `b` times the inverse of `a`, holds exactly for matrices that
commute. -/
theorem C103_reverse (ha : MatTy.ReadsR .mat4 a A) (hb : MatTy.ReadsR .mat4 b B) (hl : a.isRowMajor = b.isRowMajor)
    (hA : (Fmt.eps : ℝ) ≤ |A.det|) (hB : (Fmt.eps : ℝ) ≤ |B.det|) (hAB : (Fmt.eps : ℝ) ≤ |A.det * B.det|) :
    ∃ ab m ma mb p, a.mul b = .ok (some ab) ∧ ab.inverse = some m ∧ a.inverse = some ma ∧ b.inverse = some mb ∧
      mb.mul ma = .ok (some p) ∧ ((∃ M, MatTy.ReadsR .mat4 m M ∧ MatTy.ReadsR .mat4 p M) ↔ A * B = B * A) := by
  obtain ⟨ab, h, -, r⟩ := C04_mul .mat4 a b A B ha hb hl
  obtain ⟨ma, h1, f1, r1⟩ := get ha hA
  obtain ⟨mb, h2, f2, r2⟩ := get hb hB
  obtain ⟨m, h3, -, r3⟩ := get r (by rw [det_mul]; exact hAB)
  obtain ⟨p, h4, -, r4⟩ := C04_mul .mat4 mb ma _ _ r2 r1 (f2.trans f1.symm)
  have e : (B⁻¹ᵀ * A⁻¹ᵀ : Matrix (Fin 4) (Fin 4) ℝ) = (B * A)⁻¹ᵀ := by rw [Matrix.mul_inv_rev, Matrix.transpose_mul]
  rw [e] at r4
  refine ⟨ab, m, ma, mb, p, h, h3, h1, h2, h4, ?_, fun hc => ⟨_, r3, by rw [hc]; exact r4⟩⟩
  rintro ⟨M, hm, hp⟩
  refine inj ?_ ?_ ((MatTy.readsR_unique r3 hm).trans (MatTy.readsR_unique hp r4))
  · rw [det_mul]; exact (dunit hA).mul (dunit hB)
  · rw [det_mul]; exact (dunit hB).mul (dunit hA)

/-- C103: `inverse` applied twice gives the matrix back, unless the determinant is so large that the inverse is taken for singular. -/
theorem C103_involution (ha : MatTy.ReadsR .mat4 a A) (hA : (Fmt.eps : ℝ) ≤ |A.det|) :
    ∃ m, a.inverse = some m ∧ (m.inverse = none ↔ 1 < Fmt.eps * |A.det|) ∧ (Fmt.eps * |A.det| ≤ 1 →
      ∃ m', m.inverse = some m' ∧ MatTy.ReadsR .mat4 m' A) := by
  obtain ⟨m, h, -, r⟩ := get ha hA
  have h0 : 0 < |A.det| := eps_pos.trans_le hA
  have hd : |A⁻¹ᵀ.det| = 1 / |A.det| := by
    rw [det_transpose, det_nonsing_inv, Ring.inverse_eq_inv, abs_inv, one_div]
  have hi : ∀ x : ℝ, |A⁻¹ᵀ.det| < x ↔ 1 < x * |A.det| := fun x => by rw [hd, div_lt_iff₀ h0]
  refine ⟨m, h, (C13_partial m _ r).1.trans (hi _), fun hle => ?_⟩
  obtain ⟨m', h', -, r'⟩ := get r (not_lt.mp fun hc => absurd ((hi _).mp hc) (not_lt.mpr hle))
  refine ⟨m', h', ?_⟩
  rw [← transpose_nonsing_inv, Matrix.transpose_transpose, nonsing_inv_nonsing_inv _ (dunit hA)] at r'
  exact r'

/-- C103: `inverse` commutes with `transpose`. -/
theorem C103_transpose (ha : MatTy.ReadsR .mat4 a A) :
    (a.transpose.inverse = none ↔ a.inverse = none) ∧ ∀ m, a.inverse = some m → ∃ m', a.transpose.inverse = some m' ∧
      ∃ M, MatTy.ReadsR .mat4 m' M ∧ MatTy.ReadsR .mat4 m.transpose M := by
  have ht := Undo.transposed ha
  refine ⟨?_, fun m hm => ?_⟩
  · rw [(C13_partial _ _ ht).1, (C13_partial _ _ ha).1, det_transpose]
  · obtain ⟨hA, -, r⟩ := of_some ha hm
    obtain ⟨m', h', -, r'⟩ := get ht (by rw [det_transpose]; exact hA)
    refine ⟨m', h', _, r', ?_⟩
    rw [← transpose_nonsing_inv]
    exact Undo.transposed r

/-- C103: how to use it: the transposed result, or the result for the transposed matrix, solves linear systems. For every `v` the vector
`c` it gives is mapped to `v`, and is the only one. -/
theorem C103_solve (ha : MatTy.ReadsR .mat4 a A) (m m' : Mat4 (Fl ℝ)) (hm : a.inverse = some m) (hm' : a.transpose.inverse = some m')
    (v : Mat4x1 (Fl ℝ)) (x : Fin 4 → ℝ) (hv : VecTy.ReadsR .mat4x1 v x) :
    ∃ c c' d y, m.transpose.mulMat4x1 v = some c ∧ m'.mulMat4x1 v = some c' ∧ a.mulMat4x1 c = some d ∧ VecTy.ReadsR .mat4x1 d x ∧
      VecTy.ReadsR .mat4x1 c y ∧ VecTy.ReadsR .mat4x1 c' y ∧ ∀ z, A *ᵥ z = x → z = y := by
  obtain ⟨hA, -, r⟩ := of_some ha hm
  have rt : MatTy.ReadsR .mat4 m.transpose A⁻¹ := by
    have := Undo.transposed r
    rwa [Matrix.transpose_transpose] at this
  obtain ⟨-, -, r'⟩ := of_some (Undo.transposed ha) hm'
  rw [← transpose_nonsing_inv, Matrix.transpose_transpose] at r'
  obtain ⟨c, d, h1, h2, h3⟩ := Undo.twice rt ha hv
  rw [Matrix.mul_nonsing_inv _ (dunit hA), Matrix.one_mulVec] at h3
  obtain ⟨c₁, k1, k2⟩ := C06_mulCol .mat4 m.transpose v _ x rt hv
  obtain ⟨c', k3, k4⟩ := C06_mulCol .mat4 m' v _ x r' hv
  have k1 : m.transpose.mulMat4x1 v = some c₁ := k1
  rw [h1] at k1
  obtain rfl := Option.some.inj k1
  refine ⟨c, c', d, A⁻¹ *ᵥ x, h1, k3, h2, h3, k2, k4, fun z hz => ?_⟩
  rw [← hz, mulVec_mulVec, nonsing_inv_mul _ (dunit hA), one_mulVec]

/-- C103: the inverse of a scaled matrix is the inverse scaled by the reciprocal, as long as both determinants are above the threshold. -/
theorem C103_scale (ha : MatTy.ReadsR .mat4 a A) (x y : Fl ℝ) (s : ℝ) (hx : x.Is s) (hy : y.Is s⁻¹) (hA : (Fmt.eps : ℝ) ≤ |A.det|)
    (hs : (Fmt.eps : ℝ) ≤ s ^ 4 * |A.det|) :
    ∃ sa m ma p, a.scale x = some sa ∧ sa.inverse = some m ∧ a.inverse = some ma ∧ ma.scale y = some p ∧
      ∃ M, MatTy.ReadsR .mat4 m M ∧ MatTy.ReadsR .mat4 p M := by
  obtain ⟨sa, h, -, r⟩ := C15_scale_real .mat4 a A ha x s hx
  obtain ⟨ma, h1, -, r1⟩ := get ha hA
  have hs0 : s ≠ 0 := by
    rintro rfl
    rw [zero_pow four_ne_zero, zero_mul] at hs
    exact absurd eps_pos (not_lt.mpr hs)
  have hd : (s • A).det = s ^ 4 * A.det := det_smul A s
  obtain ⟨m, h2, -, r2⟩ := get (A := s • A) r (by rw [hd, abs_mul, abs_of_nonneg (by positivity)]; exact hs)
  obtain ⟨p, h3, -, r3⟩ := C15_scale_real .mat4 ma _ r1 y s⁻¹ hy
  refine ⟨sa, m, ma, p, h, h2, h1, h3, _, r2, ?_⟩
  have e : (s • A)⁻¹ = s⁻¹ • A⁻¹ := by
    refine inv_eq_right_inv ?_
    rw [Matrix.smul_mul, Matrix.mul_smul, smul_smul, mul_inv_cancel₀ hs0, one_smul, mul_nonsing_inv _ (dunit hA)]
  rw [e, transpose_smul]
  exact r3

end laws

/-- C103 fails for matrices that are small but not singular: every invertible matrix has a multiple for which `inverse` is `None`. -/
theorem C103_singular_false (a : Mat4 (Fl ℝ)) (A : Matrix (Fin 4) (Fin 4) ℝ) (ha : MatTy.ReadsR .mat4 a A) (hA : A.det ≠ 0) :
    ∃ (x : Fl ℝ) (m : Mat4 (Fl ℝ)) (M : Matrix (Fin 4) (Fin 4) ℝ), a.scale x = some m ∧ MatTy.ReadsR .mat4 m M ∧ M.det ≠ 0 ∧ m.inverse = none := by
  have h0 := abs_pos.mpr hA
  obtain ⟨k, hk⟩ := exists_pow_lt_of_lt_one (div_pos eps_pos h0) (by norm_num : (1 / 2 : ℝ) < 1)
  obtain ⟨m, h, -, r⟩ := C15_scale_real .mat4 a A ha (.fin ((1 / 2) ^ k)) _ rfl
  have hd : (((1 / 2 : ℝ) ^ k) • A).det = ((1 / 2) ^ k) ^ 4 * A.det := det_smul A _
  refine ⟨_, m, _, h, r, ?_, (C13_partial m (((1 / 2 : ℝ) ^ k) • A) r).1.mpr ?_⟩
  · show (((1 / 2 : ℝ) ^ k) • A).det ≠ 0
    rw [hd]
    exact mul_ne_zero (by positivity) hA
  · rw [hd, abs_mul, abs_of_pos (by positivity)]
    have h1 : ((1 / 2 : ℝ) ^ k) ^ 4 ≤ (1 / 2) ^ k := pow_le_of_le_one (by positivity) (pow_le_one₀ (by norm_num) (by norm_num)) four_ne_zero
    exact (mul_le_mul_of_nonneg_right h1 h0.le).trans_lt ((lt_div_iff₀ h0).mp hk)

/-! ### concrete cases -/

namespace InvLaws

theorem smp4_two : smp4.det = 2 := by rw [det_fin_four]; simp [adj4, smp4]

theorem smp4_ok : (Fmt.eps : ℝ) ≤ |smp4.det| := not_lt.mp smp4_det

/-- a translation -/
def tr4 : Matrix (Fin 4) (Fin 4) ℝ := !![1, 0, 0, 5; 0, 1, 0, 0; 0, 0, 1, 0; 0, 0, 0, 1]
/-- a quarter turn about the z axis -/
def turn4 : Matrix (Fin 4) (Fin 4) ℝ := !![0, -1, 0, 0; 1, 0, 0, 0; 0, 0, 1, 0; 0, 0, 0, 1]

theorem tr4_one : tr4.det = 1 := c13Witness_det
theorem turn4_one : turn4.det = 1 := by rw [det_fin_four]; simp [adj4, turn4]

theorem eps_le_one : (Fmt.eps : ℝ) ≤ 1 := by unfold Fmt.eps instFmtReal; norm_num

theorem ok {A : Matrix (Fin 4) (Fin 4) ℝ} (h : A.det = 1) : (Fmt.eps : ℝ) ≤ |A.det| := by rw [h, abs_one]; exact eps_le_one

end InvLaws

example := C103_product (mat4R_reads tr4 false) (mat4R_reads turn4 false) ((mat4Of_flag ..).trans (mat4Of_flag ..).symm) (ok tr4_one) (ok turn4_one)
  (by rw [tr4_one, turn4_one, mul_one, abs_one]; exact eps_le_one)
example := C103_involution (mat4R_reads tr4 false) (ok tr4_one)
example := (C103_involution (mat4R_reads smp4 true) smp4_ok).imp fun _ h => h.2.2 (by
  rw [smp4_two, abs_two]; unfold Fmt.eps instFmtReal; norm_num)
example := (C103_transpose (mat4R_reads smp4 true)).2
example : ∃ m m', (mat4R smp4 true).inverse = some m ∧ (mat4R smp4 true).transpose.inverse = some m' ∧ ∀ (v : Mat4x1 (Fl ℝ)) (x : Fin 4 → ℝ),
    VecTy.ReadsR .mat4x1 v x → ∃ c d, m'.mulMat4x1 v = some c ∧ (mat4R smp4 true).mulMat4x1 c = some d := by
  obtain ⟨m, h, -⟩ := get (mat4R_reads smp4 true) smp4_ok
  obtain ⟨m', h', -⟩ := (C103_transpose (mat4R_reads smp4 true)).2 m h
  refine ⟨m, m', h, h', fun v x hv => ?_⟩
  obtain ⟨c, c', d, y, -, h2, -, -, -, h4, -⟩ := C103_solve (mat4R_reads smp4 true) m m' h h' v x hv
  obtain ⟨d', k, -⟩ := C06_mulCol .mat4 (mat4R smp4 true) c' _ y (mat4R_reads smp4 true) h4
  exact ⟨c', d', h2, k⟩
example := C103_scale (mat4R_reads smp4 true) (.fin 3) (.fin 3⁻¹) 3 rfl rfl smp4_ok (by
  rw [smp4_two, abs_two]; unfold Fmt.eps instFmtReal; norm_num)
example := C103_singular_false _ _ (mat4R_reads smp4 true) (det_ne smp4_ok)

/-- C103: for a translation and a rotation the law of the textbooks fails. -/
theorem C103_reverse_false : ∃ (a b ab m ma mb p : Mat4 (Fl ℝ)), a.mul b = .ok (some ab) ∧ ab.inverse = some m ∧ a.inverse = some ma ∧
    b.inverse = some mb ∧ mb.mul ma = .ok (some p) ∧ ¬ ∃ M, MatTy.ReadsR .mat4 m M ∧ MatTy.ReadsR .mat4 p M := by
  obtain ⟨ab, m, ma, mb, p, h1, h2, h3, h4, h5, h6⟩ := C103_reverse (mat4R_reads tr4 true) (mat4R_reads turn4 true)
    ((mat4Of_flag ..).trans (mat4Of_flag ..).symm) (ok tr4_one) (ok turn4_one) (by rw [tr4_one, turn4_one, mul_one, abs_one]; exact eps_le_one)
  refine ⟨_, _, ab, m, ma, mb, p, h1, h2, h3, h4, h5, fun h => ?_⟩
  have := congrFun (congrFun (h6.mp h) 0) 3
  simp [tr4, turn4, Matrix.mul_apply, Fin.sum_univ_four] at this

/-- C103 in binary64: twice `inverse` gives the translation back, and `inverse` of half the unit matrix thirteen times is `None`. -/
theorem C103_f64 : ((⟨#v[.fin 1, .fin 0, .fin 0, .fin 5, .fin 0, .fin 1, .fin 0, .fin 0, .fin 0, .fin 0, .fin 1, .fin 0,
      .fin 0, .fin 0, .fin 0, .fin 1], true⟩ : Mat4 (Fl Q64)).inverse.bind fun m => m.inverse.map fun m => (m.idx 0 3, m.idx 3 0)) =
      some (.fin 5, .fin 0) ∧
    ((Mat4.iden : Mat4 (Fl Q64)).scale (.fin (1 / 16384 : ℚ))).bind Mat4.inverse = none := by
  constructor <;> decide +kernel

/-! ## C14 -/

namespace InvLaws

/-- the conditions for the nine entries of `Mat3::inverse` to be those of the inverse, solved -/
theorem solve3 (a b c d e f g h i D : ℝ) (hD : D = a * e * i - a * f * h - b * d * i + b * f * g + c * d * h - c * e * g) (h0 : D ≠ 0) :
    (e * i - f * h / D = D⁻¹ * (e * i - f * h) ∧ b * i - c * h / D = D⁻¹ * -(b * i - c * h) ∧ b * f - c * e / D = D⁻¹ * (b * f - c * e) ∧
      -(a * i - c * g) / D = D⁻¹ * (a * i - c * g) ∧
      d * h - e * g / D = D⁻¹ * (d * h - e * g) ∧ a * h - b * g / D = D⁻¹ * -(a * h - b * g) ∧ a * e - b * d / D = D⁻¹ * (a * e - b * d)) ↔
    D = -1 ∧ e = 0 ∧ ((b = 0 ∧ c = 0 ∧ d = 0 ∧ i = 0) ∨ (a = 0 ∧ f = 0 ∧ g = 0 ∧ h = 0)) := by
  have k (x y : ℝ) : x - y / D = D⁻¹ * (x - y) ↔ x * (D - 1) = 0 := by
    rw [← sub_eq_zero]
    have : x - y / D - D⁻¹ * (x - y) = x * (D - 1) * D⁻¹ := by field_simp; ring
    rw [this, mul_eq_zero, or_iff_left (inv_ne_zero h0)]
  have k' (x y : ℝ) : x - y / D = D⁻¹ * -(x - y) ↔ x * (D + 1) = 2 * y := by
    rw [← sub_eq_zero, ← sub_eq_zero (a := x * (D + 1))]
    have : x - y / D - D⁻¹ * -(x - y) = (x * (D + 1) - 2 * y) * D⁻¹ := by field_simp; ring
    rw [this, mul_eq_zero, or_iff_left (inv_ne_zero h0)]
  have k'' (x : ℝ) : -x / D = D⁻¹ * x ↔ x = 0 := by
    rw [← sub_eq_zero]
    have : -x / D - D⁻¹ * x = -2 * x * D⁻¹ := by field_simp; ring
    rw [this, mul_eq_zero, or_iff_left (inv_ne_zero h0)]
    constructor <;> intro h <;> linarith
  rw [k, k, k, k, k', k', k'']
  constructor
  · rintro ⟨e1, e2, e3, e4, e5, e6, e7⟩
    have hD1 : D - 1 ≠ 0 := by
      intro hD1
      have e8 : D + 1 = 2 := by linarith
      rw [e8] at e2 e6
      -- the middle column of the adjugate vanishes
      apply h0
      rw [hD]
      have q2 : b * i = c * h := by linarith
      have q6 : a * h = b * g := by linarith
      linear_combination (-d) * q2 + e * e4 - f * q6
    rw [mul_eq_zero, or_iff_left hD1] at e1 e3 e5 e7
    have he : e = 0 := by
      by_contra he
      have hi : i = 0 := (mul_eq_zero.mp e1).resolve_left he
      have ha : a = 0 := (mul_eq_zero.mp e7).resolve_right he
      subst hi ha
      have : c * g = 0 := by linarith
      apply h0
      rw [hD]
      linear_combination g * e3 + c * e5 - e * this
    subst he
    have hD2 : D = -(a * f * h) - b * d * i := by rw [hD]; linear_combination g * e3 + c * e5
    by_cases hafh : a * f * h = 0
    · have hb : b ≠ 0 := by rintro rfl; exact h0 (by rw [hD2, hafh]; ring)
      have hd : d ≠ 0 := by rintro rfl; exact h0 (by rw [hD2, hafh]; ring)
      have hi : i ≠ 0 := by rintro rfl; exact h0 (by rw [hD2, hafh]; ring)
      have hf : f = 0 := (mul_eq_zero.mp e3).resolve_left hb
      have hh : h = 0 := (mul_eq_zero.mp e5).resolve_left hd
      subst hf hh
      have hD3 : D + 1 = 0 := by
        rw [mul_zero, mul_zero] at e2
        exact (mul_eq_zero.mp e2).resolve_left (mul_ne_zero hb hi)
      have hg : g = 0 := by
        rw [mul_zero, zero_mul] at e6
        have := (mul_eq_zero.mp e6.symm).resolve_left two_ne_zero
        exact (mul_eq_zero.mp this).resolve_left hb
      subst hg
      have ha : a = 0 := by
        have : a * i = 0 := by linarith
        exact (mul_eq_zero.mp this).resolve_right hi
      exact ⟨by linarith, rfl, .inr ⟨ha, rfl, rfl, rfl⟩⟩
    · have ha : a ≠ 0 := by rintro rfl; exact hafh (by ring)
      have hf : f ≠ 0 := by rintro rfl; exact hafh (by ring)
      have hh : h ≠ 0 := by rintro rfl; exact hafh (by ring)
      have hb : b = 0 := (mul_eq_zero.mp e3).resolve_right hf
      have hd : d = 0 := (mul_eq_zero.mp e5).resolve_right hh
      subst hb hd
      have hD3 : D + 1 = 0 := by
        rw [zero_mul, mul_zero] at e6
        exact (mul_eq_zero.mp e6).resolve_left (mul_ne_zero ha hh)
      have hc : c = 0 := by
        rw [zero_mul, zero_mul] at e2
        have := (mul_eq_zero.mp e2.symm).resolve_left two_ne_zero
        exact (mul_eq_zero.mp this).resolve_right hh
      subst hc
      have hi : i = 0 := by
        have : a * i = 0 := by linarith
        exact (mul_eq_zero.mp this).resolve_left ha
      exact ⟨by linarith, rfl, .inl ⟨rfl, rfl, rfl, hi⟩⟩
  · rintro ⟨rfl, rfl, ⟨rfl, rfl, rfl, rfl⟩ | ⟨rfl, rfl, rfl, rfl⟩⟩ <;> norm_num

end InvLaws

/-- C14, exact extent of the failure: `Mat3::inverse` returns the inverse exactly for the matrices of determinant -1 of one of the forms
`[a 0 0; 0 0 f; g h 0]` and `[0 b c; d 0 0; 0 0 i]`. -/
theorem C14_correct_iff_partial (a m : Mat3 (Fl ℝ)) (A : Matrix (Fin 3) (Fin 3) ℝ) (ha : MatTy.ReadsR .mat3 a A) (hm : a.inverse = some m) :
    MatTy.ReadsR .mat3 m A⁻¹ ↔ A.det = -1 ∧ A 1 1 = 0 ∧ ((A 0 1 = 0 ∧ A 0 2 = 0 ∧ A 1 0 = 0 ∧ A 2 2 = 0) ∨
      (A 0 0 = 0 ∧ A 1 2 = 0 ∧ A 2 0 = 0 ∧ A 2 1 = 0)) := by
  obtain ⟨p1, p2⟩ := C14_partial a A ha
  have hc : ¬ (-(1 / 100000000000) < A.det ∧ A.det < 1 / 10000000000) := fun h => by
    rw [p1.mpr h] at hm; simp at hm
  obtain ⟨m', hm', -, hr⟩ := p2 hc
  obtain rfl : m = m' := by rw [hm] at hm'; exact Option.some.inj hm'
  have h0 : A.det ≠ 0 := by intro h; rw [h] at hc; norm_num at hc
  rw [← solve3 (A 0 0) (A 0 1) (A 0 2) (A 1 0) (A 1 1) (A 1 2) (A 2 0) (A 2 1) (A 2 2) A.det (det_fin_three A) h0]
  constructor
  · intro h
    have e := MatTy.readsR_unique hr h
    rw [inv3_eq A h0] at e
    exact ⟨congrFun (congrFun e 0) 0, congrFun (congrFun e 0) 1, congrFun (congrFun e 0) 2, congrFun (congrFun e 1) 1,
      congrFun (congrFun e 2) 0, congrFun (congrFun e 2) 1, congrFun (congrFun e 2) 2⟩
  · rintro ⟨e00, e01, e02, e11, e20, e21, e22⟩
    have e : A⁻¹ = _ := inv3_eq A h0
    rw [e]
    refine MatTy.readsR_iff.mpr fun i j => (MatTy.readsR_iff.mp hr i j).cast ?_
    fin_cases i <;> fin_cases j
    · exact e00
    · exact e01
    · exact e02
    · show -(A 1 0 * A 2 2 - A 1 2 * A 2 0) / A.det = A.det⁻¹ * -(A 1 0 * A 2 2 - A 1 2 * A 2 0)
      rw [div_eq_inv_mul]
    · exact e11
    · show -(A 0 0 * A 1 2 - A 0 2 * A 1 0) / A.det = A.det⁻¹ * -(A 0 0 * A 1 2 - A 0 2 * A 1 0)
      rw [div_eq_inv_mul]
    · exact e20
    · exact e21
    · exact e22

/-- concrete case: the swap of the last two axes is inverted -/
example : ∃ m, (mat3R !![1, 0, 0; 0, 0, 1; 0, 1, 0] true).inverse = some m ∧ MatTy.ReadsR .mat3 m (!![1, 0, 0; 0, 0, 1; 0, 1, 0])⁻¹ := by
  have hd : (!![1, 0, 0; 0, 0, 1; 0, 1, 0] : Matrix (Fin 3) (Fin 3) ℝ).det = -1 := by rw [det_fin_three]; simp
  obtain ⟨m, hm, -⟩ := (C14_partial _ _ (mat3R_reads !![1, 0, 0; 0, 0, 1; 0, 1, 0] true)).2 (by rw [hd]; norm_num)
  exact ⟨m, hm, (C14_correct_iff_partial _ m _ (mat3R_reads _ true) hm).mpr ⟨hd, by simp, .inl (by simp)⟩⟩

end Mazth
