import Verif.Props.QuatFun

/-!
# C99: laws of the spherical interpolation in exact arithmetic
-/

set_option linter.unusedSectionVars false
set_option autoImplicit false

namespace Mazth

open Quaternion

namespace SlerpLaw

variable {p q : Quat (Fl ℝ)} {P Q : ℍ[ℝ]}

/-- the value of the interpolation at the clamped parameter `τ` -/
noncomputable def val (P Q : ℍ[ℝ]) (τ : ℝ) : ℍ[ℝ] :=
  if 9999 / 10000 < |qdot P Q| then (1 - τ) • P + τ • nearEnd P Q
  else (Real.sin ((1 - τ) * Real.arccos (qdot P Q)) / Real.sin (Real.arccos (qdot P Q))) • P +
    (Real.sin (τ * Real.arccos (qdot P Q)) / Real.sin (Real.arccos (qdot P Q))) • nearEnd P Q

theorem isR (hp : p.IsR P) (hq : q.IsR Q) {t : Fl ℝ} {s : ℝ} (ht : t.Is s) :
    (Quat.interpolateSlerp p q t).IsR (val P Q (clamp01 s)) := by
  unfold val
  by_cases h : 9999 / 10000 < |qdot P Q|
  · rw [if_pos h]; exact slerp_linear hp hq ht h
  · rw [if_neg h]; exact slerp_arc hp hq ht (not_lt.mp h)

theorem clamp_flip (s : ℝ) : clamp01 (1 - s) = 1 - clamp01 s := by
  rcases le_total s 0 with h | h
  · rw [clamp01_of_nonpos h, clamp01_of_one_le (by linarith)]; ring
  · rcases le_total s 1 with h' | h'
    · rw [clamp01_of_mem h h', clamp01_of_mem (by linarith) (by linarith)]
    · rw [clamp01_of_one_le h', clamp01_of_nonpos (by linarith)]; ring

theorem flip (P Q : ℍ[ℝ]) (τ : ℝ) : val Q P (1 - τ) = if qdot P Q < 0 then -val P Q τ else val P Q τ := by
  unfold val nearEnd
  rw [qdot_comm Q P, sub_sub_cancel]
  by_cases h : qdot P Q < 0
  · simp only [h, if_true]
    by_cases h' : 9999 / 10000 < |qdot P Q|
    · simp only [h', if_true]; module
    · simp only [h', if_false]; module
  · simp only [h, if_false]
    by_cases h' : 9999 / 10000 < |qdot P Q|
    · simp only [h', if_true]; module
    · simp only [h', if_false]; module

theorem qdot_left {U : ℍ[ℝ]} (hu : ‖U‖ = 1) (P Q : ℍ[ℝ]) : qdot (U * P) (U * Q) = qdot P Q := by
  have h := Quat.normSq_eq U
  rw [hu] at h
  have e : qdot (U * P) (U * Q) = (U.re * U.re + U.imI * U.imI + U.imJ * U.imJ + U.imK * U.imK) * qdot P Q := by
    unfold qdot; simp; ring
  rw [e]
  linear_combination (qdot P Q) * h

theorem qdot_right {U : ℍ[ℝ]} (hu : ‖U‖ = 1) (P Q : ℍ[ℝ]) : qdot (P * U) (Q * U) = qdot P Q := by
  have h := Quat.normSq_eq U
  rw [hu] at h
  have e : qdot (P * U) (Q * U) = (U.re * U.re + U.imI * U.imI + U.imJ * U.imJ + U.imK * U.imK) * qdot P Q := by
    unfold qdot; simp; ring
  rw [e]
  linear_combination (qdot P Q) * h

theorem val_left {U : ℍ[ℝ]} (hu : ‖U‖ = 1) (P Q : ℍ[ℝ]) (τ : ℝ) : val (U * P) (U * Q) τ = U * val P Q τ := by
  unfold val nearEnd
  rw [qdot_left hu]
  by_cases h : qdot P Q < 0 <;> by_cases h' : 9999 / 10000 < |qdot P Q| <;>
    simp only [h, h', if_true, if_false, mul_add, mul_smul_comm, mul_neg]

theorem val_right {U : ℍ[ℝ]} (hu : ‖U‖ = 1) (P Q : ℍ[ℝ]) (τ : ℝ) : val (P * U) (Q * U) τ = val P Q τ * U := by
  unfold val nearEnd
  rw [qdot_right hu]
  by_cases h : qdot P Q < 0 <;> by_cases h' : 9999 / 10000 < |qdot P Q| <;>
    simp only [h, h', if_true, if_false, add_mul, smul_mul_assoc, neg_mul]

/-- at most 90° apart and not nearly parallel: the point of the great circle at the angle `τ ω` -/
theorem circle (P Q : ℍ[ℝ]) (τ : ℝ) (h0 : 0 ≤ qdot P Q) (h1 : qdot P Q ≤ 9999 / 10000) :
    Real.sin (Real.arccos (qdot P Q)) ≠ 0 ∧ Real.cos (Real.arccos (qdot P Q)) = qdot P Q ∧
    val P Q τ = Real.cos (τ * Real.arccos (qdot P Q)) • P +
      Real.sin (τ * Real.arccos (qdot P Q)) • ((Real.sin (Real.arccos (qdot P Q)))⁻¹ • (Q - qdot P Q • P)) := by
  have hcos : Real.cos (Real.arccos (qdot P Q)) = qdot P Q := Real.cos_arccos (by linarith) (by linarith)
  have hpos : 0 < 1 - qdot P Q ^ 2 := by nlinarith
  have hs0 : Real.sin (Real.arccos (qdot P Q)) ≠ 0 := by
    rw [Real.sin_arccos]; exact (Real.sqrt_pos.mpr hpos).ne'
  refine ⟨hs0, hcos, ?_⟩
  unfold val nearEnd
  rw [if_neg (not_lt.mpr (by rwa [abs_of_nonneg h0])), if_neg (not_lt.mpr h0), sub_mul, one_mul, Real.sin_sub, hcos]
  match_scalars <;> (field_simp; try ring)

/-- the points of the circle at the angles `α` and `β` have the inner product `cos (β - α)` -/
theorem circle_dot {P N : ℍ[ℝ]} (h1 : qdot P P = 1) (h2 : qdot N N = 1) (h3 : qdot P N = 0) (α β : ℝ) :
    qdot (Real.cos α • P + Real.sin α • N) (Real.cos β • P + Real.sin β • N) = Real.cos (β - α) := by
  rw [qdot_lin, qdot_comm _ P, qdot_comm _ N, qdot_lin, qdot_lin, h1, h2, h3, qdot_comm N P, h3, Real.cos_sub]
  ring

theorem normal_self {P Q : ℍ[ℝ]} {S : ℝ} (h1 : ‖P‖ = 1) (h2 : ‖Q‖ = 1) (hS : S ≠ 0) (e : S ^ 2 + qdot P Q ^ 2 = 1) :
    qdot P (S⁻¹ • (Q - qdot P Q • P)) = 0 ∧ qdot (S⁻¹ • (Q - qdot P Q • P)) (S⁻¹ • (Q - qdot P Q • P)) = 1 := by
  have e0 : S⁻¹ • (Q - qdot P Q • P) = S⁻¹ • Q + (-(S⁻¹ * qdot P Q)) • P := by module
  have a : qdot P (S⁻¹ • (Q - qdot P Q • P)) = 0 := by
    rw [e0, qdot_lin, qdot_self, h1]; ring
  refine ⟨a, ?_⟩
  have b : qdot Q (S⁻¹ • (Q - qdot P Q • P)) = S := by
    rw [e0, qdot_lin, qdot_self, h2, qdot_comm Q P]
    field_simp
    linear_combination -e
  have c : qdot (S⁻¹ • (Q - qdot P Q • P)) (S⁻¹ • (Q - qdot P Q • P)) =
      S⁻¹ * qdot Q (S⁻¹ • (Q - qdot P Q • P)) + (-(S⁻¹ * qdot P Q)) * qdot P (S⁻¹ • (Q - qdot P Q • P)) := by
    conv_lhs => rw [qdot_comm]; arg 2; rw [e0]
    rw [qdot_lin, qdot_comm _ Q, qdot_comm _ P]
  rw [c, a, b]
  field_simp
  ring

/-- the interpolation of two points of a circle, wherever on it they lie -/
theorem circle_val {A B P N : ℍ[ℝ]} {α δ τ : ℝ} (hA : A = Real.cos α • P + Real.sin α • N)
    (hB : B = Real.cos (α + δ) • P + Real.sin (α + δ) • N) (hd : qdot A B = Real.cos δ) (h0 : 0 ≤ qdot A B)
    (h1 : qdot A B ≤ 9999 / 10000) (hδ : |δ| ≤ Real.pi) :
    val A B τ = Real.cos (α + τ * δ) • P + Real.sin (α + τ * δ) • N := by
  obtain ⟨hs, hc, -⟩ := circle A B τ h0 h1
  have hω : Real.arccos (qdot A B) = |δ| := by
    rw [hd, ← Real.cos_abs, Real.arccos_cos (abs_nonneg _) hδ]
  unfold val nearEnd
  rw [if_neg (not_lt.mpr (by rwa [abs_of_nonneg h0])), if_neg (not_lt.mpr h0)]
  rw [hω] at hs ⊢
  have hk : ∀ x : ℝ, Real.sin (x * |δ|) / Real.sin |δ| = Real.sin (x * δ) / Real.sin δ := by
    intro x
    rcases abs_choice δ with h | h
    · rw [h]
    · rw [h, mul_neg, Real.sin_neg, Real.sin_neg, neg_div_neg_eq]
  have hs' : Real.sin δ ≠ 0 := by
    rcases abs_choice δ with h | h
    · rwa [h] at hs
    · rw [h, Real.sin_neg] at hs; exact fun e => hs (by rw [e, neg_zero])
  rw [hk, hk, hA, hB, sub_mul, one_mul, Real.sin_sub]
  simp only [Real.cos_add, Real.sin_add]
  match_scalars <;> field_simp <;> ring

end SlerpLaw

variable {p q r : Quat (Fl ℝ)} {P Q U : ℍ[ℝ]}

/-- C99: run backwards.  Interpolating from `end` to `start` with the parameter `1 - t` gives the same quaternion, negated if
the two ends are more than 90° apart.  No hypothesis on the lengths, the angle or the parameter. -/
theorem C99_reverse (hp : p.IsR P) (hq : q.IsR Q) (t t' : Fl ℝ) (s : ℝ) (ht : t.Is s) (ht' : t'.Is (1 - s)) :
    ∃ R, (Quat.interpolateSlerp p q t).IsR R ∧
      (0 ≤ qdot P Q → (Quat.interpolateSlerp q p t').IsR R) ∧ (qdot P Q < 0 → (Quat.interpolateSlerp q p t').IsR (-R)) := by
  have h := SlerpLaw.isR hq hp ht'
  rw [SlerpLaw.clamp_flip, SlerpLaw.flip] at h
  exact ⟨_, SlerpLaw.isR hp hq ht, fun h0 => by rwa [if_neg (not_lt.mpr h0)] at h, fun h0 => by rwa [if_pos h0] at h⟩

/-- concrete case: a third of the way from `1` to `turn`, and from ends 127° apart -/
example : (∃ R, (Quat.interpolateSlerp (quatR 1) (quatR turn) (.fin (1 / 3))).IsR R ∧
      (Quat.interpolateSlerp (quatR turn) (quatR 1) (.fin (2 / 3))).IsR R) ∧
    ∃ R, (Quat.interpolateSlerp (quatR 1) (quatR farQ) (.fin (1 / 3))).IsR R ∧
      (Quat.interpolateSlerp (quatR farQ) (quatR 1) (.fin (2 / 3))).IsR (-R) := by
  obtain ⟨R, a, b, -⟩ := C99_reverse (quatR_isR 1) (quatR_isR turn) (.fin (1 / 3)) (.fin (2 / 3)) _ (Fl.is_fin _)
    ((Fl.is_fin _).cast (by norm_num))
  obtain ⟨R', a', -, b'⟩ := C99_reverse (quatR_isR 1) (quatR_isR farQ) (.fin (1 / 3)) (.fin (2 / 3)) _ (Fl.is_fin _)
    ((Fl.is_fin _).cast (by norm_num))
  exact ⟨⟨R, a, b (by simp [qdot, turn])⟩, R', a', b' (by rw [farQ_dot]; norm_num)⟩

/-- C99: turning both ends by a unit quaternion, from the left or from the right, turns the interpolation. -/
theorem C99_turn (hp : p.IsR P) (hq : q.IsR Q) (hr : r.IsR U) (hu : ‖U‖ = 1) (t : Fl ℝ) (s : ℝ) (ht : t.Is s) :
    ∃ R, (Quat.interpolateSlerp p q t).IsR R ∧ (Quat.interpolateSlerp (r.mul p) (r.mul q) t).IsR (U * R) ∧
      (Quat.interpolateSlerp (p.mul r) (q.mul r) t).IsR (R * U) := by
  have h1 := SlerpLaw.isR (hr.mul hp) (hr.mul hq) ht
  have h2 := SlerpLaw.isR (hp.mul hr) (hq.mul hr) ht
  rw [SlerpLaw.val_left hu] at h1
  rw [SlerpLaw.val_right hu] at h2
  exact ⟨_, SlerpLaw.isR hp hq ht, h1, h2⟩

/-- concrete case -/
example := C99_turn (quatR_isR 1) (quatR_isR farQ) (quatR_isR turn) turn_unit (.fin (1 / 3)) _ (Fl.is_fin _)

/-- C99: for unit ends at most 90° apart and not nearly parallel the interpolation is `start (start⁻¹ end)^t`, computed with the
crate's own `inverse`, `mul` and `pow`. -/
theorem C99_power (hp : p.IsR P) (hq : q.IsR Q) (h1 : ‖P‖ = 1) (h2 : ‖Q‖ = 1) (hc0 : 0 ≤ qdot P Q)
    (hc : qdot P Q ≤ 9999 / 10000) (t : Fl ℝ) (s : ℝ) (ht : t.Is s) (hs0 : 0 ≤ s) (hs1 : s ≤ 1) :
    ∃ i d R, p.inverse = .ok i ∧ (i.mul q).pow t = .ok d ∧ (Quat.interpolateSlerp p q t).IsR R ∧ (p.mul d).IsR R := by
  have hP0 : P ≠ 0 := by rw [← norm_pos_iff, h1]; exact one_pos
  obtain ⟨i, ei, hi⟩ := hp.inverse hP0
  have hn : ‖P⁻¹‖ = 1 := by rw [norm_inv, h1, inv_one]
  have hd : qdot 1 (P⁻¹ * Q) = qdot P Q := by
    have := SlerpLaw.qdot_left hn P Q
    rwa [inv_mul_cancel₀ hP0] at this
  have hre : (P⁻¹ * Q).re = qdot P Q := by rw [← hd]; simp [qdot]
  have hl : ‖P⁻¹ * Q‖ = 1 := by rw [norm_mul, hn, h2, one_mul]
  have hsq := vecQ_sq (P⁻¹ * Q)
  have hnq := Quat.normSq_eq (P⁻¹ * Q)
  rw [hl, hre] at hnq
  have hv : vecQ (P⁻¹ * Q) ≠ 0 := by
    intro h
    rw [h, show euc (0 : Fin 3 → ℝ) = 0 from (euc_eq_zero _).mpr rfl] at hsq
    nlinarith
  obtain ⟨d, ed, hd'⟩ := pow_isR (hi.mul hq) hv ht
  refine ⟨i, d, _, ei, ed, SlerpLaw.isR hp hq ht, (hp.mul hd').cast ?_⟩
  rw [clamp01_of_mem hs0 hs1]
  have e : SlerpLaw.val P Q s = P * SlerpLaw.val 1 (P⁻¹ * Q) s := by
    rw [← SlerpLaw.val_left h1, mul_one, mul_inv_cancel_left₀ hP0]
  rw [e]
  congr 1
  obtain ⟨hS, hC, hval⟩ := SlerpLaw.circle 1 (P⁻¹ * Q) s (by rwa [hd]) (by rwa [hd])
  rw [hval, hd]
  rw [hd] at hS
  have hvl : euc (vecQ (P⁻¹ * Q)) = Real.sin (Real.arccos (qdot P Q)) := by
    rw [Real.sin_arccos, ← Real.sqrt_mul_self (euc_nonneg (vecQ (P⁻¹ * Q)))]
    congr 1
    linear_combination -hsq + hnq
  ext
  · rw [powQ_re, hl, hre]; simp [hre]
  · rw [powQ_imI, hl, hre, hvl]; simp; ring
  · rw [powQ_imJ, hl, hre, hvl]; simp; ring
  · rw [powQ_imK, hl, hre, hvl]; simp; ring

/-- concrete case: a third of the 60° from `1` to `turn` -/
example := C99_power (quatR_isR 1) (quatR_isR turn) norm_one turn_unit (by simp [qdot, turn]) (by simp [qdot, turn]; norm_num)
  (.fin (1 / 3)) _ (Fl.is_fin _) (by norm_num) (by norm_num)

/-- C99: interpolating between two points of an arc gives the point of the arc in between: from the parameter `a` to the
parameter `b` by `c` is the parameter `(1-c) a + c b`, whichever of `a` and `b` is larger.  Both arcs must be clear of the nearly
parallel branch. -/
theorem C99_subdivide (hp : p.IsR P) (hq : q.IsR Q) (h1 : ‖P‖ = 1) (h2 : ‖Q‖ = 1) (hc0 : 0 ≤ qdot P Q)
    (hc : qdot P Q ≤ 9999 / 10000) (ta tb tc tm : Fl ℝ) (a b c : ℝ) (ha : ta.Is a) (hb : tb.Is b) (hc' : tc.Is c)
    (hm : tm.Is ((1 - c) * a + c * b)) (a01 : 0 ≤ a ∧ a ≤ 1) (b01 : 0 ≤ b ∧ b ≤ 1) (c01 : 0 ≤ c ∧ c ≤ 1) :
    ∃ A B R, (Quat.interpolateSlerp p q ta).IsR A ∧ (Quat.interpolateSlerp p q tb).IsR B ∧
      (Quat.interpolateSlerp p q tm).IsR R ∧
      (qdot A B ≤ 9999 / 10000 →
        (Quat.interpolateSlerp (Quat.interpolateSlerp p q ta) (Quat.interpolateSlerp p q tb) tc).IsR R) := by
  have hA := SlerpLaw.isR hp hq ha
  have hB := SlerpLaw.isR hp hq hb
  have hR := SlerpLaw.isR hp hq hm
  refine ⟨_, _, _, hA, hB, hR, fun hn => (SlerpLaw.isR hA hB hc').cast ?_⟩
  have m0 : 0 ≤ (1 - c) * a + c * b := by
    have := mul_nonneg (sub_nonneg.mpr c01.2) a01.1
    have := mul_nonneg c01.1 b01.1
    linarith
  have m1 : (1 - c) * a + c * b ≤ 1 := by
    have := mul_nonneg (sub_nonneg.mpr c01.2) (sub_nonneg.mpr a01.2)
    have := mul_nonneg c01.1 (sub_nonneg.mpr b01.2)
    linarith
  rw [clamp01_of_mem c01.1 c01.2, clamp01_of_mem m0 m1]
  rw [clamp01_of_mem a01.1 a01.2, clamp01_of_mem b01.1 b01.2] at hn ⊢
  obtain ⟨hS, hC, e⟩ := SlerpLaw.circle P Q a hc0 hc
  obtain ⟨-, -, e'⟩ := SlerpLaw.circle P Q b hc0 hc
  obtain ⟨-, -, e''⟩ := SlerpLaw.circle P Q ((1 - c) * a + c * b) hc0 hc
  have hω0 := Real.arccos_nonneg (qdot P Q)
  have hω1 : Real.arccos (qdot P Q) ≤ Real.pi / 2 := Real.arccos_le_pi_div_two.mpr hc0
  obtain ⟨n1, n2⟩ := SlerpLaw.normal_self h1 h2 hS (by rw [← Real.sin_sq_add_cos_sq (Real.arccos (qdot P Q)), hC])
  have hPP : qdot P P = 1 := by rw [qdot_self, h1, one_mul]
  have hdot := SlerpLaw.circle_dot hPP n2 n1 (a * Real.arccos (qdot P Q)) (b * Real.arccos (qdot P Q))
  rw [← e, ← e', ← sub_mul] at hdot
  have hab : |(b - a) * Real.arccos (qdot P Q)| ≤ Real.pi / 2 := by
    rw [abs_mul, abs_of_nonneg hω0]
    have : |b - a| ≤ 1 := abs_le.mpr ⟨by linarith [a01.2, b01.1], by linarith [a01.1, b01.2]⟩
    nlinarith [abs_nonneg (b - a)]
  have hdot0 : 0 ≤ qdot (SlerpLaw.val P Q a) (SlerpLaw.val P Q b) := by
    rw [hdot]
    exact Real.cos_nonneg_of_mem_Icc ⟨by linarith [(abs_le.mp hab).1], (abs_le.mp hab).2⟩
  rw [SlerpLaw.circle_val (τ := c) e (e'.trans (by rw [show b * Real.arccos (qdot P Q) = a * Real.arccos (qdot P Q) +
    (b - a) * Real.arccos (qdot P Q) by ring])) hdot hdot0 hn (hab.trans (by linarith [Real.pi_pos])), e'']
  rw [show a * Real.arccos (qdot P Q) + c * ((b - a) * Real.arccos (qdot P Q)) =
    ((1 - c) * a + c * b) * Real.arccos (qdot P Q) by ring]

/-- concrete case: the second half of the arc from `1` to `turn`, walked backwards by a third; the inner ends are 30° apart -/
example : ∃ R, (Quat.interpolateSlerp (quatR 1) (quatR turn) (.fin (5 / 6))).IsR R ∧
    (Quat.interpolateSlerp (Quat.interpolateSlerp (quatR 1) (quatR turn) (.fin 1))
      (Quat.interpolateSlerp (quatR 1) (quatR turn) (.fin (1 / 2))) (.fin (1 / 3))).IsR R := by
  obtain ⟨A, B, R, hA, hB, hR, h⟩ := C99_subdivide (quatR_isR 1) (quatR_isR turn) norm_one turn_unit (by simp [qdot, turn])
    (by simp [qdot, turn]; norm_num) (.fin 1) (.fin (1 / 2)) (.fin (1 / 3)) (.fin (5 / 6)) 1 (1 / 2) (1 / 3) (Fl.is_fin _)
    (Fl.is_fin _) (Fl.is_fin _) ((Fl.is_fin _).cast (by norm_num))
    ⟨by norm_num, by norm_num⟩ ⟨by norm_num, by norm_num⟩ ⟨by norm_num, by norm_num⟩
  refine ⟨R, hR, h ?_⟩
  have eA := ((C26_endpoints (quatR_isR 1) (quatR_isR turn) (.fin 1) _ (Fl.is_fin _)).2 le_rfl).1 (by simp [qdot, turn])
  obtain ⟨B', hB', -, -, e⟩ := C26_unit_partial (quatR_isR 1) (quatR_isR turn) norm_one turn_unit (.fin (1 / 2)) _ (Fl.is_fin _)
    (by simp [qdot, turn]) (by simp [qdot, turn]; norm_num)
  rw [hA.unique eA, qdot_comm, hB.unique hB', e, clamp01_of_mem (by norm_num) (by norm_num),
    show qdot 1 turn = Real.cos (Real.pi / 3) by rw [Real.cos_pi_div_three]; simp [qdot, turn],
    Real.arccos_cos (by positivity) (by linarith [Real.pi_pos]),
    show (1 - 1 / 2) * (Real.pi / 3) = Real.pi / 6 by ring, Real.cos_pi_div_six]
  nlinarith [Real.sq_sqrt (show (0 : ℝ) ≤ 3 by norm_num), Real.sqrt_nonneg 3]

/-- C99: nearly parallel ends: replacing `end` by its negative, the same rotation, gives the same interpolation. -/
theorem C99_double_cover_near (hp : p.IsR P) (hq : q.IsR Q) (hc : 9999 / 10000 < |qdot P Q|) (t : Fl ℝ) (s : ℝ) (ht : t.Is s) :
    ∃ R, (Quat.interpolateSlerp p q t).IsR R ∧ (Quat.interpolateSlerp p q.negate t).IsR R := by
  refine ⟨_, slerp_linear hp hq ht hc, (slerp_linear hp hq.negate ht (by rwa [qdot_neg, abs_neg])).cast ?_⟩
  have h0 : qdot P Q ≠ 0 := fun h => by rw [h, abs_zero] at hc; norm_num at hc
  unfold nearEnd
  rw [qdot_neg]
  rcases lt_or_gt_of_ne h0 with h | h
  · rw [if_neg (by linarith), if_pos h]
  · rw [if_pos (by linarith), if_neg (by linarith), neg_neg]

/-- concrete case -/
example := C99_double_cover_near (quatR_isR turn) (quatR_isR turn) (by rw [qdot_self, turn_unit]; norm_num) (.fin (1 / 3)) _
  (Fl.is_fin _)

/-- C99 is false of the code elsewhere: `end` and its negative are the same rotation, but half way to the one the result has
length 1 and half way to the other the length 2. -/
theorem C99_double_cover_false :
    ¬ ∀ (p q : Quat (Fl ℝ)) (P Q R R' : ℍ[ℝ]) (t : Fl ℝ) (s : ℝ), p.IsR P → q.IsR Q → ‖P‖ = 1 → ‖Q‖ = 1 → t.Is s →
        (Quat.interpolateSlerp p q t).IsR R → (Quat.interpolateSlerp p q.negate t).IsR R' → ‖R'‖ = ‖R‖ := by
  intro h
  obtain ⟨R, r, -, hR⟩ := C26_obtuse_false (quatR_isR 1) (quatR_isR farQ) norm_one farQ_unit (.fin (1 / 2)) (Fl.is_fin _)
    (by rw [farQ_dot]; norm_num) (by rw [farQ_dot]; norm_num)
  obtain ⟨R', r', h1, -⟩ := C26_unit_partial (quatR_isR 1) (quatR_isR farQ).negate norm_one ((norm_neg _).trans farQ_unit)
    (.fin (1 / 2)) _ (Fl.is_fin _) (by rw [qdot_neg, farQ_dot]; norm_num) (by rw [qdot_neg, farQ_dot]; norm_num)
  exact absurd (h _ _ _ _ R R' _ _ (quatR_isR 1) (quatR_isR farQ) norm_one farQ_unit (Fl.is_fin _) r r') (by rw [h1]; exact hR.ne)

end Mazth
