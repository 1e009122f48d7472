import Verif.Props.AxisAngle

/-!
# C25 – C29: interpolation, power, logarithm, implicit w
-/

set_option linter.unusedSectionVars false
set_option autoImplicit false

namespace Mazth

open Quaternion Matrix

variable {p q : Quat (Fl ℝ)} {P Q : ℍ[ℝ]}

/-- the parameter clamped to [0, 1] -/
noncomputable def clamp01 (t : ℝ) : ℝ := max 0 (min 1 t)

theorem clamp01_nonneg (t : ℝ) : 0 ≤ clamp01 t := le_max_left _ _
theorem clamp01_le_one (t : ℝ) : clamp01 t ≤ 1 := max_le zero_le_one (min_le_left _ _)
theorem clamp01_of_nonpos {t : ℝ} (h : t ≤ 0) : clamp01 t = 0 := by
  unfold clamp01; exact max_eq_left ((min_le_right _ _).trans h)
theorem clamp01_of_one_le {t : ℝ} (h : 1 ≤ t) : clamp01 t = 1 := by
  unfold clamp01; rw [min_eq_left h]; simp
theorem clamp01_of_mem {t : ℝ} (h0 : 0 ≤ t) (h1 : t ≤ 1) : clamp01 t = t := by
  unfold clamp01; rw [min_eq_right h1, max_eq_right h0]

theorem clamp_is {t : Fl ℝ} {s : ℝ} (ht : t.Is s) :
    Fl.Is (if Fl.lt (if Fl.lt 1 t then 1 else t) 0 then 0 else (if Fl.lt 1 t then 1 else t)) (clamp01 s) := by
  have h1 : Fl.Is (if Fl.lt 1 t then 1 else t) (min 1 s) := by
    rw [Fl.is_one.lt ht]
    by_cases h : 1 < s
    · simp only [h, decide_true, if_true]; rw [min_eq_left h.le]; exact Fl.is_one
    · simp only [h, decide_false, Bool.false_eq_true, if_false]; rw [min_eq_right (not_lt.mp h)]; exact ht
  rw [h1.lt Fl.is_zero]
  unfold clamp01
  by_cases h : min 1 s < 0
  · simp only [h, decide_true, if_true]; rw [max_eq_left h.le]; exact Fl.is_zero
  · simp only [h, decide_false, Bool.false_eq_true, if_false]; rw [max_eq_right (not_lt.mp h)]; exact h1

/-! ## C25 -/

/-- C25: `interpolate_linear(start, end, t)` is `start + c (end - start)` with `c` the parameter clamped to [0,1]. -/
theorem C25_affine (hp : p.IsR P) (hq : q.IsR Q) (t : Fl ℝ) (s : ℝ) (ht : t.Is s) :
    (Quat.interpolateLinear p q t).IsR (P + clamp01 s • (Q - P)) := by
  have hc := clamp_is ht
  obtain ⟨a, b, c, d⟩ := hp
  obtain ⟨a', b', c', d'⟩ := hq
  have h1 := Fl.is_one.sub hc
  refine ⟨((a.mul h1).add (a'.mul hc)).cast ?_, ((b.mul h1).add (b'.mul hc)).cast ?_,
    ((c.mul h1).add (c'.mul hc)).cast ?_, ((d.mul h1).add (d'.mul hc)).cast ?_⟩ <;> simp <;> ring

/-- C25: start for t ≤ 0, end for t ≥ 1. -/
theorem C25_endpoints (hp : p.IsR P) (hq : q.IsR Q) (t : Fl ℝ) (s : ℝ) (ht : t.Is s) :
    (s ≤ 0 → (Quat.interpolateLinear p q t).IsR P) ∧ (1 ≤ s → (Quat.interpolateLinear p q t).IsR Q) := by
  have h := C25_affine hp hq t s ht
  refine ⟨fun h0 => h.cast ?_, fun h1 => h.cast ?_⟩
  · rw [clamp01_of_nonpos h0]; simp
  · rw [clamp01_of_one_le h1]; simp

/-- concrete case -/
example : (Quat.interpolateLinear (quatR turn) (quatR 1) (.fin (-3))).IsR turn ∧ (Quat.interpolateLinear (quatR turn) (quatR 1) (.fin 7)).IsR 1 :=
  ⟨(C25_endpoints (quatR_isR turn) (quatR_isR 1) _ _ (Fl.is_fin _)).1 (by norm_num), (C25_endpoints (quatR_isR turn) (quatR_isR 1) _ _ (Fl.is_fin _)).2 (by norm_num)⟩

/-- C25: every component of the result lies between the components of the endpoints. -/
theorem C25_between (hp : p.IsR P) (hq : q.IsR Q) (t : Fl ℝ) (s : ℝ) (ht : t.Is s) :
    ∃ R, (Quat.interpolateLinear p q t).IsR R ∧
      R.imI ∈ Set.uIcc P.imI Q.imI ∧ R.imJ ∈ Set.uIcc P.imJ Q.imJ ∧ R.imK ∈ Set.uIcc P.imK Q.imK ∧
      R.re ∈ Set.uIcc P.re Q.re := by
  have key : ∀ a b : ℝ, a + clamp01 s * (b - a) ∈ Set.uIcc a b := by
    intro a b
    have h0 := clamp01_nonneg s
    have h1 := clamp01_le_one s
    rw [Set.mem_uIcc]
    rcases le_total a b with h | h
    · left; constructor <;> nlinarith
    · right; constructor <;> nlinarith
  exact ⟨_, C25_affine hp hq t s ht, by simpa using key _ _, by simpa using key _ _, by simpa using key _ _,
    by simpa using key _ _⟩

/-- concrete case -/
example := C25_between (quatR_isR turn) (quatR_isR ⟨2, -1, 0, 3⟩) (.fin (1 / 3)) _ (Fl.is_fin _)

/-- non-vacuity: halfway between 1 and i -/
example : (Quat.interpolateLinear (quatR 1) (quatR (pureQ ![1, 0, 0])) (.fin (1 / 2))).IsR
    (1 + clamp01 (1 / 2) • (pureQ ![1, 0, 0] - 1)) :=
  C25_affine (quatR_isR _) (quatR_isR _) _ _ (Fl.is_fin _)

/-! ## C26 -/

/-- the Euclidean inner product of quaternions -/
noncomputable def qdot (P Q : ℍ[ℝ]) : ℝ := P.re * Q.re + P.imI * Q.imI + P.imJ * Q.imJ + P.imK * Q.imK

theorem qdot_self (P : ℍ[ℝ]) : qdot P P = ‖P‖ * ‖P‖ := by rw [← Quat.normSq_eq]; unfold qdot; ring
theorem qdot_comm (P Q : ℍ[ℝ]) : qdot P Q = qdot Q P := by unfold qdot; ring
theorem qdot_lin (a b : ℝ) (P Q R : ℍ[ℝ]) : qdot R (a • P + b • Q) = a * qdot R P + b * qdot R Q := by
  unfold qdot; simp; ring

theorem qdot_norm (a b : ℝ) (P Q : ℍ[ℝ]) (h1 : ‖P‖ = 1) (h2 : ‖Q‖ = 1) :
    ‖a • P + b • Q‖ * ‖a • P + b • Q‖ = a * a + b * b + 2 * a * b * qdot P Q := by
  rw [← qdot_self, qdot_lin, qdot_comm _ P, qdot_comm _ Q, qdot_lin, qdot_lin, qdot_self, qdot_self, h1, h2,
    qdot_comm Q P]
  ring

theorem qdot_le (h1 : ‖P‖ = 1) (h2 : ‖Q‖ = 1) : |qdot P Q| ≤ 1 := by
  have a := qdot_norm 1 1 P Q h1 h2
  have b := qdot_norm 1 (-1) P Q h1 h2
  rw [abs_le]
  constructor
  · nlinarith [mul_self_nonneg ‖(1 : ℝ) • P + (1 : ℝ) • Q‖]
  · nlinarith [mul_self_nonneg ‖(1 : ℝ) • P + (-1 : ℝ) • Q‖]

theorem qdot_neg (P Q : ℍ[ℝ]) : qdot P (-Q) = -qdot P Q := by unfold qdot; simp; ring

theorem qdot_is (hp : p.IsR P) (hq : q.IsR Q) :
    (p.w * q.w + p.x * q.x + p.y * q.y + p.z * q.z).Is (qdot P Q) := by
  obtain ⟨a, b, c, d⟩ := hp
  obtain ⟨a', b', c', d'⟩ := hq
  exact (((d.mul d').add (a.mul a')).add (b.mul b')).add (c.mul c')

/-- the end point used by the code: the one of ±end in the hemisphere of start -/
noncomputable def nearEnd (P Q : ℍ[ℝ]) : ℍ[ℝ] := if qdot P Q < 0 then -Q else Q

theorem arg_eq_arccos {c : ℝ} (hc : |c| < 1) :
    Complex.arg ⟨c, Real.sqrt (1 - c * c)⟩ = Real.arccos c := by
  have hlt := abs_lt.mp hc
  have h : 0 < 1 - c * c := by nlinarith
  have hs : 0 < Real.sqrt (1 - c * c) := Real.sqrt_pos.mpr h
  rw [Complex.arg_of_im_pos hs]
  have hn : ‖(⟨c, Real.sqrt (1 - c * c)⟩ : ℂ)‖ = 1 := by
    rw [Complex.norm_def, Complex.normSq_mk, Real.mul_self_sqrt h.le]
    simp
  rw [hn, div_one]

theorem comb_isR (hp : p.IsR P) (hq : q.IsR Q) {k l : Fl ℝ} {a b : ℝ} (hk : k.Is a) (hl : l.Is b) :
    (⟨p.x * k + q.x * l, p.y * k + q.y * l, p.z * k + q.z * l, p.w * k + q.w * l⟩ : Quat (Fl ℝ)).IsR (a • P + b • Q) := by
  obtain ⟨x, y, z, w⟩ := hp
  obtain ⟨x', y', z', w'⟩ := hq
  refine ⟨((x.mul hk).add (x'.mul hl)).cast ?_, ((y.mul hk).add (y'.mul hl)).cast ?_,
    ((z.mul hk).add (z'.mul hl)).cast ?_, ((w.mul hk).add (w'.mul hl)).cast ?_⟩ <;> simp <;> ring

theorem nearEnd_isR (hp : p.IsR P) (hq : q.IsR Q) :
    (if Fl.lt (p.w * q.w + p.x * q.x + p.y * q.y + p.z * q.z) 0 then (⟨-q.x, -q.y, -q.z, -q.w⟩ : Quat (Fl ℝ))
      else ⟨q.x, q.y, q.z, q.w⟩).IsR (nearEnd P Q) := by
  rw [(qdot_is hp hq).lt Fl.is_zero]
  unfold nearEnd
  by_cases h : qdot P Q < 0
  · simp only [h, decide_true, if_true]; exact hq.negate
  · simp only [h, decide_false, Bool.false_eq_true, if_false]; exact hq

theorem absdot_is (hp : p.IsR P) (hq : q.IsR Q) :
    Fl.Is (if Fl.lt (p.w * q.w + p.x * q.x + p.y * q.y + p.z * q.z) 0 then
      -(p.w * q.w + p.x * q.x + p.y * q.y + p.z * q.z) else p.w * q.w + p.x * q.x + p.y * q.y + p.z * q.z) |qdot P Q| := by
  have hd := qdot_is hp hq
  rw [hd.lt Fl.is_zero]
  by_cases h : qdot P Q < 0
  · simp only [h, decide_true, if_true]; rw [abs_of_neg h]; exact hd.neg
  · simp only [h, decide_false, Bool.false_eq_true, if_false]; rw [abs_of_nonneg (not_lt.mp h)]; exact hd

theorem slerp_linear (hp : p.IsR P) (hq : q.IsR Q) {t : Fl ℝ} {s : ℝ} (ht : t.Is s) (hc : 9999 / 10000 < |qdot P Q|) :
    (Quat.interpolateSlerp p q t).IsR ((1 - clamp01 s) • P + clamp01 s • nearEnd P Q) := by
  have hcl := clamp_is ht
  have ha := absdot_is hp hq
  unfold Quat.interpolateSlerp
  dsimp only
  rw [(Fl.is_lit (9999 / 10000)).lt ha, if_pos (by simpa using hc)]
  exact comb_isR hp (nearEnd_isR hp hq) (Fl.is_one.sub hcl) hcl

theorem slerp_arc (hp : p.IsR P) (hq : q.IsR Q) {t : Fl ℝ} {s : ℝ} (ht : t.Is s) (hc : |qdot P Q| ≤ 9999 / 10000) :
    (Quat.interpolateSlerp p q t).IsR
      ((Real.sin ((1 - clamp01 s) * Real.arccos (qdot P Q)) / Real.sin (Real.arccos (qdot P Q))) • P +
        (Real.sin (clamp01 s * Real.arccos (qdot P Q)) / Real.sin (Real.arccos (qdot P Q))) • nearEnd P Q) := by
  have hcl := clamp_is ht
  have ha := absdot_is hp hq
  have hd := qdot_is hp hq
  have hlt : |qdot P Q| < 1 := lt_of_le_of_lt hc (by norm_num)
  have hb := abs_lt.mp hlt
  have hpos : 0 < 1 - qdot P Q * qdot P Q := by nlinarith
  have hs := (Fl.is_one.sub (hd.mul hd)).sqrt hpos.le
  have hs0 : Real.sqrt (1 - qdot P Q * qdot P Q) ≠ 0 := (Real.sqrt_pos.mpr hpos).ne'
  have hω := hs.atan2 hd hs0
  rw [arg_eq_arccos hlt] at hω
  have hinv := Fl.is_one.div hs hs0
  have hsin : Real.sin (Real.arccos (qdot P Q)) = Real.sqrt (1 - qdot P Q * qdot P Q) := by rw [Real.sin_arccos, sq]
  unfold Quat.interpolateSlerp
  dsimp only
  rw [(Fl.is_lit (9999 / 10000)).lt ha, if_neg (by simpa using hc)]
  rw [hsin]
  exact comb_isR hp (nearEnd_isR hp hq) (((((Fl.is_one.sub hcl).mul hω).sin).mul hinv).cast (by ring))
    ((((hcl.mul hω).sin).mul hinv).cast (by ring))

/-- C26: `start` for t ≤ 0, and `end` or `-end` for t ≥ 1, whichever is in the hemisphere of `start`. -/
theorem C26_endpoints (hp : p.IsR P) (hq : q.IsR Q) (t : Fl ℝ) (s : ℝ) (ht : t.Is s) :
    (s ≤ 0 → (Quat.interpolateSlerp p q t).IsR P) ∧
    (1 ≤ s → (0 ≤ qdot P Q → (Quat.interpolateSlerp p q t).IsR Q) ∧
      (qdot P Q < 0 → (Quat.interpolateSlerp p q t).IsR (-Q))) := by
  have key : (s ≤ 0 → (Quat.interpolateSlerp p q t).IsR P) ∧ (1 ≤ s → (Quat.interpolateSlerp p q t).IsR (nearEnd P Q)) := by
    rcases lt_or_ge (9999 / 10000) |qdot P Q| with h | h
    · have := slerp_linear hp hq ht h
      refine ⟨fun h0 => this.cast ?_, fun h1 => this.cast ?_⟩
      · rw [clamp01_of_nonpos h0]; simp
      · rw [clamp01_of_one_le h1]; simp
    · have := slerp_arc hp hq ht h
      have hlt : |qdot P Q| < 1 := lt_of_le_of_lt h (by norm_num)
      have hb := abs_lt.mp hlt
      have hpos : 0 < 1 - qdot P Q ^ 2 := by nlinarith
      have hs0 : Real.sin (Real.arccos (qdot P Q)) ≠ 0 := by
        rw [Real.sin_arccos]; exact (Real.sqrt_pos.mpr hpos).ne'
      refine ⟨fun h0 => this.cast ?_, fun h1 => this.cast ?_⟩
      · rw [clamp01_of_nonpos h0]; simp [hs0]
      · rw [clamp01_of_one_le h1]; simp [hs0]
  refine ⟨key.1, fun h => ⟨fun hc => ?_, fun hc => ?_⟩⟩
  · have := key.2 h; unfold nearEnd at this; rwa [if_neg (not_lt.mpr hc)] at this
  · have := key.2 h; unfold nearEnd at this; rwa [if_pos hc] at this

/-- concrete case: `1` and `turn` -/
example : (Quat.interpolateSlerp (quatR 1) (quatR turn) (.fin 2)).IsR turn :=
  ((C26_endpoints (quatR_isR 1) (quatR_isR turn) _ _ (Fl.is_fin _)).2 (by norm_num)).1 (by simp [qdot, turn])

/-- C26: the parameter is clamped to [0, 1]. -/
theorem C26_clamp (p q : Quat (Fl ℝ)) (t t' : Fl ℝ) (s : ℝ) (ht : t.Is s) (ht' : t'.Is (clamp01 s)) (hp : p.IsR P)
    (hq : q.IsR Q) :
    ∃ R, (Quat.interpolateSlerp p q t).IsR R ∧ (Quat.interpolateSlerp p q t').IsR R := by
  have e : clamp01 (clamp01 s) = clamp01 s := clamp01_of_mem (clamp01_nonneg s) (clamp01_le_one s)
  rcases lt_or_ge (9999 / 10000) |qdot P Q| with h | h
  · exact ⟨_, slerp_linear hp hq ht h, by simpa [e] using slerp_linear hp hq ht' h⟩
  · exact ⟨_, slerp_arc hp hq ht h, by simpa [e] using slerp_arc hp hq ht' h⟩

/-- concrete case: parameter `3` gives the same as parameter `1` -/
example := C26_clamp _ _ (.fin 3) (.fin 1) 3 (Fl.is_fin _) ((Fl.is_fin _).cast (by simp [clamp01])) (quatR_isR 1) (quatR_isR turn)

/-- C26, the cases that hold: for unit inputs at most 90° apart (and at least about 0.81°), the result is a unit quaternion
on the great circle at the angle `t·ω` from `start` and `(1-t)·ω` from `end`.  Missing: inputs more than 90° apart, where
it fails (`C26_unit_false`); the nearly parallel ones are `C26_near_partial`. -/
theorem C26_unit_partial (hp : p.IsR P) (hq : q.IsR Q) (h1 : ‖P‖ = 1) (h2 : ‖Q‖ = 1) (t : Fl ℝ) (s : ℝ) (ht : t.Is s)
    (hc0 : 0 ≤ qdot P Q) (hc : qdot P Q ≤ 9999 / 10000) :
    ∃ R, (Quat.interpolateSlerp p q t).IsR R ∧ ‖R‖ = 1 ∧
      qdot P R = Real.cos (clamp01 s * Real.arccos (qdot P Q)) ∧
      qdot R Q = Real.cos ((1 - clamp01 s) * Real.arccos (qdot P Q)) := by
  have r := slerp_arc hp hq ht (by rwa [abs_of_nonneg hc0])
  have hn : nearEnd P Q = Q := if_neg (not_lt.mpr hc0)
  rw [hn] at r
  have hcos : Real.cos (Real.arccos (qdot P Q)) = qdot P Q := Real.cos_arccos (by linarith) (by linarith)
  have hpos : 0 < 1 - qdot P Q ^ 2 := by nlinarith
  have hs0 : Real.sin (Real.arccos (qdot P Q)) ≠ 0 := by
    rw [Real.sin_arccos]; exact (Real.sqrt_pos.mpr hpos).ne'
  generalize Real.arccos (qdot P Q) = ω at *
  generalize hτ : clamp01 s = τ at *
  have e1 : (1 - τ) * ω = ω - τ * ω := by ring
  have hS := Real.sin_sq_add_cos_sq ω
  have hT := Real.sin_sq_add_cos_sq (τ * ω)
  refine ⟨_, r, ?_, ?_, ?_⟩
  · have := qdot_norm (Real.sin ((1 - τ) * ω) / Real.sin ω) (Real.sin (τ * ω) / Real.sin ω) P Q h1 h2
    have h : ∀ x : ℝ, 0 ≤ x → x * x = 1 → x = 1 := fun x hx h => by nlinarith
    refine h _ (norm_nonneg _) (this.trans ?_)
    rw [e1, Real.sin_sub, ← hcos]
    field_simp
    generalize Real.sin ω = S at *
    generalize Real.cos ω = C at *
    generalize Real.sin (τ * ω) = A at *
    generalize Real.cos (τ * ω) = B at *
    linear_combination S ^ 2 * hT - A ^ 2 * hS
  · rw [qdot_lin, qdot_self, h1, e1, Real.sin_sub, ← hcos]
    field_simp
    ring
  · rw [qdot_comm, qdot_lin, qdot_self, h2, e1, Real.sin_sub, Real.cos_sub, qdot_comm Q P, ← hcos]
    field_simp
    linear_combination (-Real.sin (τ * ω)) * hS

/-- concrete case: `1` and `turn` are 60° apart -/
example := C26_unit_partial (quatR_isR 1) (quatR_isR turn) norm_one turn_unit (.fin (1 / 3)) (1 / 3) (Fl.is_fin _)
  (by simp [qdot, turn]) (by simp [qdot, turn]; norm_num)

/-- C26: in the nearly parallel branch the norm deviates from 1 by at most 5e-5 and never exceeds 1. -/
theorem C26_near_partial (hp : p.IsR P) (hq : q.IsR Q) (h1 : ‖P‖ = 1) (h2 : ‖Q‖ = 1) (t : Fl ℝ) (s : ℝ) (ht : t.Is s)
    (hc : 9999 / 10000 < |qdot P Q|) :
    ∃ R, (Quat.interpolateSlerp p q t).IsR R ∧ 1 - 5 / 100000 ≤ ‖R‖ ∧ ‖R‖ ≤ 1 := by
  refine ⟨_, slerp_linear hp hq ht hc, ?_⟩
  have hle := qdot_le h1 h2
  have hn : qdot P (nearEnd P Q) = |qdot P Q| := by
    unfold nearEnd; split
    · rename_i h; rw [qdot_neg, abs_of_neg h]
    · rename_i h; rw [abs_of_nonneg (not_lt.mp h)]
  have hnn : ‖nearEnd P Q‖ = 1 := by unfold nearEnd; split <;> simp [h2]
  have := qdot_norm (1 - clamp01 s) (clamp01 s) P _ h1 hnn
  rw [hn] at this
  generalize hNN : ‖(1 - clamp01 s) • P + clamp01 s • nearEnd P Q‖ = N at *
  have t0 := clamp01_nonneg s
  have t1 := clamp01_le_one s
  have hN : 0 ≤ N := by rw [← hNN]; exact norm_nonneg _
  generalize clamp01 s = τ at *
  generalize |qdot P Q| = c at *
  have e : N * N = 1 - 2 * (τ * (1 - τ)) * (1 - c) := by rw [this]; ring
  have q0 : 0 ≤ τ * (1 - τ) := mul_nonneg t0 (by linarith)
  have q1 : τ * (1 - τ) ≤ 1 / 4 := by nlinarith [sq_nonneg (τ - 1 / 2)]
  have b0 : 0 ≤ 2 * (τ * (1 - τ)) * (1 - c) := mul_nonneg (by linarith) (by linarith)
  have b1 : 2 * (τ * (1 - τ)) * (1 - c) ≤ 1 / 2 * (1 / 10000) := by
    apply mul_le_mul <;> linarith
  have hN1 : N ≤ 1 := by nlinarith
  exact ⟨by nlinarith, hN1⟩

/-- concrete case: opposite quaternions -/
example := C26_near_partial (quatR_isR turn) (quatR_isR (-turn)) turn_unit ((norm_neg turn).trans turn_unit) (.fin (1 / 3)) (1 / 3)
  (Fl.is_fin _) (by simp only [qdot, Quaternion.re_neg, Quaternion.imI_neg, Quaternion.imJ_neg, Quaternion.imK_neg]; norm_num [turn])

/-- C26: for unit inputs more than 90° apart (and not nearly opposite) the midpoint is never a unit quaternion: its squared
norm is `(1-c)/(1+c) > 1`, `c < 0` the inner product of the inputs. -/
theorem C26_obtuse_false (hp : p.IsR P) (hq : q.IsR Q) (h1 : ‖P‖ = 1) (h2 : ‖Q‖ = 1) (t : Fl ℝ) (ht : t.Is (1 / 2))
    (hc0 : qdot P Q < 0) (hc : -(9999 / 10000) ≤ qdot P Q) :
    ∃ R, (Quat.interpolateSlerp p q t).IsR R ∧ ‖R‖ ^ 2 = (1 - qdot P Q) / (1 + qdot P Q) ∧ 1 < ‖R‖ := by
  have r := slerp_arc hp hq ht (by rw [abs_of_neg hc0]; linarith)
  have hn : nearEnd P Q = -Q := if_pos hc0
  rw [hn, clamp01_of_mem (by norm_num) (by norm_num)] at r
  refine ⟨_, r, ?_⟩
  have hcos : Real.cos (Real.arccos (qdot P Q)) = qdot P Q := Real.cos_arccos (by linarith) (by linarith)
  have hpos : 0 < 1 - qdot P Q ^ 2 := by nlinarith
  have hs0 : Real.sin (Real.arccos (qdot P Q)) ≠ 0 := by
    rw [Real.sin_arccos]; exact (Real.sqrt_pos.mpr hpos).ne'
  have hS := Real.sin_sq_add_cos_sq (Real.arccos (qdot P Q))
  have hhalf : Real.sin (1 / 2 * Real.arccos (qdot P Q)) ^ 2 = (1 - qdot P Q) / 2 := by
    have := Real.sin_sq_eq_half_sub (1 / 2 * Real.arccos (qdot P Q))
    rw [this, show 2 * (1 / 2 * Real.arccos (qdot P Q)) = Real.arccos (qdot P Q) by ring, hcos]; ring
  rw [hcos] at hS
  have hq' : ‖-Q‖ = 1 := by rw [norm_neg, h2]
  have hd := qdot_neg P Q
  have e12 : (1 - 1 / 2 : ℝ) = 1 / 2 := by norm_num
  rw [e12] at *
  have N2 := qdot_norm (Real.sin (1 / 2 * Real.arccos (qdot P Q)) / Real.sin (Real.arccos (qdot P Q)))
    (Real.sin (1 / 2 * Real.arccos (qdot P Q)) / Real.sin (Real.arccos (qdot P Q))) P (-Q) h1 hq'
  rw [hd] at N2
  set A := Real.sin (1 / 2 * Real.arccos (qdot P Q))
  set S := Real.sin (Real.arccos (qdot P Q))
  set N := ‖(A / S) • P + (A / S) • -Q‖ with hN
  have hp1 : 0 < 1 + qdot P Q := by linarith
  have e : N ^ 2 = (1 - qdot P Q) / (1 + qdot P Q) := by
    rw [sq, N2]
    have hS2 : S ^ 2 = (1 - qdot P Q) * (1 + qdot P Q) := by linear_combination hS
    have : A / S * (A / S) + A / S * (A / S) + 2 * (A / S) * (A / S) * -qdot P Q = 2 * (1 - qdot P Q) * (A ^ 2 / S ^ 2) := by
      field_simp; ring
    rw [this, hhalf, hS2]
    have h1' : (1 - qdot P Q) ≠ 0 := by linarith
    field_simp
  refine ⟨e, ?_⟩
  have : 1 < N ^ 2 := by rw [e, lt_div_iff₀ hp1]; linarith
  have hN0 : 0 ≤ N := norm_nonneg _
  nlinarith

/-- a unit quaternion about 127° away from 1 -/
noncomputable def farQ : ℍ[ℝ] := ⟨-3 / 5, 4 / 5, 0, 0⟩

theorem farQ_unit : ‖farQ‖ = 1 := norm_eq_one_of (by norm_num [farQ])
theorem farQ_dot : qdot 1 farQ = -3 / 5 := by simp [qdot, farQ]

/-- C26 is false of the code: unit inputs do not always give unit outputs (here the result has length 2). -/
theorem C26_unit_false :
    ¬ ∀ (p q : Quat (Fl ℝ)) (P Q R : ℍ[ℝ]) (t : Fl ℝ) (s : ℝ), p.IsR P → q.IsR Q → ‖P‖ = 1 → ‖Q‖ = 1 → t.Is s →
        (Quat.interpolateSlerp p q t).IsR R → ‖R‖ = 1 := by
  intro h
  obtain ⟨R, r, -, hR⟩ := C26_obtuse_false (quatR_isR 1) (quatR_isR farQ) norm_one farQ_unit (.fin (1 / 2)) (Fl.is_fin _)
    (by rw [farQ_dot]; norm_num) (by rw [farQ_dot]; norm_num)
  exact absurd (h _ _ _ _ R _ _ (quatR_isR 1) (quatR_isR farQ) norm_one farQ_unit (Fl.is_fin (1 / 2)) r) hR.ne'

/-- non-vacuity of the other cases: 1 and `turn` are 60° apart as quaternions; 1 and 1 are parallel -/
example : qdot 1 turn = 1 / 2 ∧ qdot 1 1 = 1 := by simp [qdot, turn]

/-! ## C27 -/

/-- polar form: `|Q|^t (cos tα + n sin tα)`, `n` the direction of the vector part, `α` the angle of `Q` -/
noncomputable def powQ (Q : ℍ[ℝ]) (t : ℝ) : ℍ[ℝ] :=
  ⟨‖Q‖ ^ t * Real.cos (t * Real.arccos (Q.re / ‖Q‖)),
   ‖Q‖ ^ t * (Q.imI / euc (vecQ Q)) * Real.sin (t * Real.arccos (Q.re / ‖Q‖)),
   ‖Q‖ ^ t * (Q.imJ / euc (vecQ Q)) * Real.sin (t * Real.arccos (Q.re / ‖Q‖)),
   ‖Q‖ ^ t * (Q.imK / euc (vecQ Q)) * Real.sin (t * Real.arccos (Q.re / ‖Q‖))⟩

theorem powQ_re (Q : ℍ[ℝ]) (t : ℝ) : (powQ Q t).re = ‖Q‖ ^ t * Real.cos (t * Real.arccos (Q.re / ‖Q‖)) := rfl
theorem powQ_imI (Q : ℍ[ℝ]) (t : ℝ) :
    (powQ Q t).imI = ‖Q‖ ^ t * (Q.imI / euc (vecQ Q)) * Real.sin (t * Real.arccos (Q.re / ‖Q‖)) := rfl
theorem powQ_imJ (Q : ℍ[ℝ]) (t : ℝ) :
    (powQ Q t).imJ = ‖Q‖ ^ t * (Q.imJ / euc (vecQ Q)) * Real.sin (t * Real.arccos (Q.re / ‖Q‖)) := rfl
theorem powQ_imK (Q : ℍ[ℝ]) (t : ℝ) :
    (powQ Q t).imK = ‖Q‖ ^ t * (Q.imK / euc (vecQ Q)) * Real.sin (t * Real.arccos (Q.re / ‖Q‖)) := rfl

theorem vecQ_sq (Q : ℍ[ℝ]) :
    Q.imI * Q.imI + Q.imJ * Q.imJ + Q.imK * Q.imK = euc (vecQ Q) * euc (vecQ Q) := by
  rw [euc_sq, dot3]; simp [vecQ]

theorem norm_pos_of_vec (h : vecQ Q ≠ 0) : 0 < ‖Q‖ := by
  have := euc_pos h
  have h1 := vecQ_sq Q
  have h2 := Quat.normSq_eq Q
  have : 0 < ‖Q‖ * ‖Q‖ := by rw [← h2, h1]; nlinarith [mul_self_nonneg Q.re]
  rcases lt_or_eq_of_le (norm_nonneg Q) with h | h
  · exact h
  · rw [← h] at this; simp at this

theorem re_div_bounds (h : vecQ Q ≠ 0) : -1 ≤ Q.re / ‖Q‖ ∧ Q.re / ‖Q‖ ≤ 1 := by
  have hl := norm_pos_of_vec h
  have h2 := Quat.normSq_eq Q
  have h1 := vecQ_sq Q
  have hv := mul_self_nonneg (euc (vecQ Q))
  rw [le_div_iff₀ hl, div_le_iff₀ hl]
  constructor <;> nlinarith

theorem vecLength_is (hq : q.IsR Q) : (Fl.sqrt (q.x * q.x + q.y * q.y + q.z * q.z)).Is (euc (vecQ Q)) := by
  obtain ⟨x, y, z, w⟩ := hq
  have e := vecQ_sq Q
  have := (((x.mul x).add (y.mul y)).add (z.mul z)).sqrt (by rw [e]; exact mul_self_nonneg _)
  rw [e, Real.sqrt_mul_self (euc_nonneg _)] at this
  exact this

theorem pow_isR (hq : q.IsR Q) (h : vecQ Q ≠ 0) {t : Fl ℝ} {s : ℝ} (ht : t.Is s) :
    ∃ r, q.pow t = .ok r ∧ r.IsR (powQ Q s) := by
  have hv := vecLength_is hq
  have hl := hq.length
  have lp := norm_pos_of_vec h
  have vp := euc_pos h
  obtain ⟨x, y, z, w⟩ := hq
  have hb := re_div_bounds h
  have hα := (w.div hl lp.ne').acos hb.1 hb.2
  have hβ := ht.mul hα
  have hc := hl.powf ht lp
  generalize hV : Fl.sqrt (q.x * q.x + q.y * q.y + q.z * q.z) = v at *
  refine ⟨⟨Libm.powf q.length t * (q.x / v) * Libm.sin (t * Libm.acos (q.w / q.length)),
    Libm.powf q.length t * (q.y / v) * Libm.sin (t * Libm.acos (q.w / q.length)),
    Libm.powf q.length t * (q.z / v) * Libm.sin (t * Libm.acos (q.w / q.length)),
    Libm.powf q.length t * Libm.cos (t * Libm.acos (q.w / q.length))⟩, ?_,
    (hc.mul (x.div hv vp.ne')).mul hβ.sin, (hc.mul (y.div hv vp.ne')).mul hβ.sin, (hc.mul (z.div hv vp.ne')).mul hβ.sin,
    hc.mul hβ.cos⟩
  unfold Quat.pow
  dsimp only
  rw [hV, hv.feq Fl.is_zero]
  simp [assert, vp.ne']

theorem powQ_one (h : vecQ Q ≠ 0) : powQ Q 1 = Q := by
  have lp := norm_pos_of_vec h
  have vp := euc_pos h
  have hb := re_div_bounds h
  have hcos : Real.cos (Real.arccos (Q.re / ‖Q‖)) = Q.re / ‖Q‖ := Real.cos_arccos hb.1 hb.2
  have hsin : Real.sin (Real.arccos (Q.re / ‖Q‖)) = euc (vecQ Q) / ‖Q‖ := by
    rw [Real.sin_arccos, ← Real.sqrt_sq (div_nonneg vp.le lp.le)]
    congr 1
    have h1 := vecQ_sq Q
    have h2 := Quat.normSq_eq Q
    field_simp
    linear_combination h1 - h2
  ext
  · rw [powQ_re, one_mul, hcos, Real.rpow_one]; field_simp
  · rw [powQ_imI, one_mul, hsin, Real.rpow_one]; field_simp
  · rw [powQ_imJ, one_mul, hsin, Real.rpow_one]; field_simp
  · rw [powQ_imK, one_mul, hsin, Real.rpow_one]; field_simp

theorem powQ_zero (Q : ℍ[ℝ]) : powQ Q 0 = 1 := by
  ext
  · rw [powQ_re]; simp
  · rw [powQ_imI]; simp
  · rw [powQ_imJ]; simp
  · rw [powQ_imK]; simp

theorem dir_sq (h : vecQ Q ≠ 0) : (Q.imI / euc (vecQ Q)) * (Q.imI / euc (vecQ Q)) +
    (Q.imJ / euc (vecQ Q)) * (Q.imJ / euc (vecQ Q)) + (Q.imK / euc (vecQ Q)) * (Q.imK / euc (vecQ Q)) = 1 := by
  have vp := euc_pos h
  have h1 := vecQ_sq Q
  field_simp; linear_combination h1

theorem powQ_add (h : vecQ Q ≠ 0) (s t : ℝ) : powQ Q (s + t) = powQ Q s * powQ Q t := by
  have lp := norm_pos_of_vec h
  have d := dir_sq h
  ext
  · rw [Quaternion.re_mul, powQ_re, powQ_re, powQ_imI, powQ_imJ, powQ_imK, powQ_re, powQ_imI, powQ_imJ, powQ_imK,
      Real.rpow_add lp, add_mul, Real.cos_add]
    linear_combination (‖Q‖ ^ s * ‖Q‖ ^ t * Real.sin (s * Real.arccos (Q.re / ‖Q‖)) *
      Real.sin (t * Real.arccos (Q.re / ‖Q‖))) * d
  · rw [Quaternion.imI_mul, powQ_imI, powQ_re, powQ_imI, powQ_imJ, powQ_imK, powQ_re, powQ_imI, powQ_imJ, powQ_imK,
      Real.rpow_add lp, add_mul, Real.sin_add]
    ring
  · rw [Quaternion.imJ_mul, powQ_imJ, powQ_re, powQ_imI, powQ_imJ, powQ_imK, powQ_re, powQ_imI, powQ_imJ, powQ_imK,
      Real.rpow_add lp, add_mul, Real.sin_add]
    ring
  · rw [Quaternion.imK_mul, powQ_imK, powQ_re, powQ_imI, powQ_imJ, powQ_imK, powQ_re, powQ_imI, powQ_imJ, powQ_imK,
      Real.rpow_add lp, add_mul, Real.sin_add]
    ring

theorem powQ_norm (h : vecQ Q ≠ 0) (t : ℝ) : ‖powQ Q t‖ = ‖Q‖ ^ t := by
  have lp := norm_pos_of_vec h
  have d := dir_sq h
  have hS := Real.sin_sq_add_cos_sq (t * Real.arccos (Q.re / ‖Q‖))
  have hp : 0 < ‖Q‖ ^ t := Real.rpow_pos_of_pos lp t
  rw [← Quat.norm_eq, powQ_re, powQ_imI, powQ_imJ, powQ_imK]
  rw [← Real.sqrt_mul_self hp.le]
  congr 1
  rw [Real.sqrt_mul_self hp.le]
  linear_combination (‖Q‖ ^ t) ^ 2 * Real.sin (t * Real.arccos (Q.re / ‖Q‖)) ^ 2 * d + (‖Q‖ ^ t) ^ 2 * hS

theorem powQ_nat (h : vecQ Q ≠ 0) (n : ℕ) : powQ Q n = Q ^ n := by
  induction n with
  | zero => simp [powQ_zero]
  | succ n ih => rw [Nat.cast_succ, powQ_add h, ih, powQ_one h, pow_succ]

/-- C27: `pow` panics exactly when the vector part is zero, whatever the exponent. -/
theorem C27_panic (hq : q.IsR Q) (t : Fl ℝ) : vecQ Q = 0 ↔ ∃ e, q.pow t = .error e := by
  have hv := vecLength_is hq
  unfold Quat.pow
  dsimp only
  rw [hv.feq Fl.is_zero]
  by_cases h : vecQ Q = 0
  · rw [(euc_eq_zero _).mpr h]; simp [assert, h, Bind.bind, Except.bind]
  · have := (euc_pos h).ne'
    simp [assert, h, this, Bind.bind, Except.bind]

/-- concrete case: real quaternions have no power, `turn` has -/
example : (∃ e, (quatR 1).pow (.fin 2) = .error e) ∧ ¬ ∃ e, (quatR turn).pow (.fin 2) = .error e :=
  ⟨(C27_panic (quatR_isR 1) _).mp (by ext i; fin_cases i <;> simp [vecQ]),
    fun h => by simpa [vecQ, turn] using congrFun ((C27_panic (quatR_isR turn) _).mpr h) 0⟩

/-- C27: the laws of powers; `pow(n)` for a natural number `n` is the n-fold product. -/
theorem C27_laws (hq : q.IsR Q) (h : vecQ Q ≠ 0) (t : Fl ℝ) (x : ℝ) (ht : t.Is x) :
    (∃ r, q.pow t = .ok r ∧ r.length.Is (‖Q‖ ^ x)) ∧
    (∀ n : ℕ, x = n → ∃ r, q.pow t = .ok r ∧ r.IsR (Q ^ n)) ∧
    (x = -1 → ∃ r, q.pow t = .ok r ∧ r.IsR Q⁻¹) ∧
    (∀ (t' : Fl ℝ) (y : ℝ), t'.Is y → ∀ (u : Fl ℝ), u.Is (x + y) →
      ∃ a b c R, q.pow t = .ok a ∧ q.pow t' = .ok b ∧ q.pow u = .ok c ∧ c.IsR R ∧ (a.mul b).IsR R) := by
  obtain ⟨r, e, hr⟩ := pow_isR hq h ht
  refine ⟨⟨r, e, hr.length.cast (powQ_norm h x)⟩, fun n hn => ⟨r, e, hr.cast ?_⟩, fun hn => ⟨r, e, hr.cast ?_⟩, ?_⟩
  · rw [hn, powQ_nat h]
  · have h0 : Q ≠ 0 := norm_pos_iff.mp (norm_pos_of_vec h)
    have := powQ_add h (-1) 1
    rw [powQ_one h, neg_add_cancel, powQ_zero] at this
    rw [hn]; exact eq_inv_of_mul_eq_one_left this.symm
  · intro t' y ht' u hu
    obtain ⟨b, eb, hb⟩ := pow_isR hq h ht'
    obtain ⟨c, ec, hc⟩ := pow_isR hq h hu
    exact ⟨r, b, c, _, e, eb, ec, hc, by rw [powQ_add h]; exact hr.mul hb⟩

/-- concrete case: the cube of `turn` -/
example := (C27_laws (quatR_isR turn) (fun h => by simpa [vecQ, turn] using congrFun h 0) (.fin 3) 3 (Fl.is_fin _)).2.1 3 (by norm_num)

/-- non-vacuity: 1 + i has a non-zero vector part; 2 has a zero one -/
example : vecQ (1 + pureQ ![1, 0, 0]) ≠ 0 ∧ vecQ (2 : ℝ) = 0 := by
  refine ⟨fun h => by simpa [vecQ] using congrFun h 0, ?_⟩
  ext i; fin_cases i <;> simp [vecQ]

/-! ## C28 -/

/-- C28: `ln` panics exactly when the vector part has zero length. -/
theorem C28_panic (hq : q.IsR Q) : vecQ Q = 0 ↔ ∃ e, q.ln = .error e := by
  have hv := vecLength_is hq
  unfold Quat.ln
  dsimp only
  rw [hv.feq Fl.is_zero]
  by_cases h : vecQ Q = 0
  · rw [(euc_eq_zero _).mpr h]; simp [assert, h, Bind.bind, Except.bind]
  · have := (euc_pos h).ne'
    simp [assert, h, this, Bind.bind, Except.bind]

/-- concrete case -/
example : ∃ e, (quatR 1).ln = .error e := (C28_panic (quatR_isR 1)).mp (by ext i; fin_cases i <;> simp [vecQ])

/-- C28 is false of the code, for every quaternion with a non-zero vector part: the returned real part is never `ln |Q|`. -/
theorem C28_never_false (hq : q.IsR Q) (h : vecQ Q ≠ 0) (r : Quat (Fl ℝ)) (hr : q.ln = .ok r) :
    ¬ r.w.Is (Real.log ‖Q‖) := by
  have hv := vecLength_is hq
  have lp := norm_pos_of_vec h
  have vp := euc_pos h
  have w := hq.2.2.2
  have e : r.w = Libm.ln q.w := by
    unfold Quat.ln at hr
    dsimp only at hr
    rw [hv.feq Fl.is_zero] at hr
    simp [assert, vp.ne'] at hr
    rw [← hr]
  rw [e]
  intro hw
  have h1 := vecQ_sq Q
  have h2 := Quat.normSq_eq Q
  rcases lt_trichotomy Q.re 0 with hn | hn | hn
  · have : Libm.ln q.w = .nan := by
      show Fl.lnR q.w = .nan
      rcases w.cases with e | ⟨_, e⟩
      · rw [e]; simp [Fl.lnR, hn]
      · rw [e] at hn; exact absurd hn (lt_irrefl _)
    rw [this] at hw; exact hw.ne_nan rfl
  · have : ∃ s, Libm.ln q.w = .inf s := by
      show ∃ s, Fl.lnR q.w = .inf s
      rcases w.cases with e | ⟨e, _⟩
      · rw [e]; simp [Fl.lnR, hn]
      · rw [e]; simp [Fl.lnR]
    obtain ⟨s, hs⟩ := this
    rw [hs] at hw; rcases hw.cases with h | h <;> simp at h
  · have := (w.ln hn).unique hw
    have := Real.log_injOn_pos (Set.mem_Ioi.mpr hn) (Set.mem_Ioi.mpr lp) this
    rw [← this] at h2
    nlinarith

/-- C28 is false of the code: `ln` is not the quaternion logarithm `(ln |Q|, arccos(w/|Q|) v/|v|)`. -/
theorem C28_false :
    ¬ ∀ (q r : Quat (Fl ℝ)) (Q : ℍ[ℝ]), q.IsR Q → vecQ Q ≠ 0 → q.ln = .ok r →
        r.IsR (Real.log ‖Q‖ + pureQ ((Real.arccos (Q.re / ‖Q‖) / euc (vecQ Q)) • vecQ Q)) := by
  intro H
  have hv : vecQ turn ≠ 0 := fun h => by simpa [vecQ, turn] using congrFun h 0
  have hne : ¬ ∃ e, (quatR turn).ln = .error e := fun h => hv ((C28_panic (quatR_isR turn)).mpr h)
  cases hr : (quatR turn).ln with
  | error e => exact hne ⟨e, hr⟩
  | ok r =>
    have := (H _ r turn (quatR_isR turn) hv hr).2.2.2
    refine C28_never_false (quatR_isR turn) hv r hr ?_
    simpa using this

/-- C28, what does hold: for a positive scalar part with `|ln w| ≤ |Q|`, the result has scalar part `ln w` and its vector
part points along that of `Q` with length in [0, π].  Missing: the scalar part should be `ln |Q|` and the length the angle
`arccos(w/|Q|)`. -/
theorem C28_partial (hq : q.IsR Q) (h : vecQ Q ≠ 0) (hw : 0 < Q.re) (hb : |Real.log Q.re| ≤ ‖Q‖) :
    ∃ r s, q.ln = .ok r ∧ 0 ≤ s ∧ s ≤ Real.pi ∧ r.IsR (Real.log Q.re + pureQ ((s / euc (vecQ Q)) • vecQ Q)) := by
  have hv := vecLength_is hq
  have hl := hq.length
  have lp := norm_pos_of_vec h
  have vp := euc_pos h
  obtain ⟨x, y, z, w⟩ := hq
  have hln := w.ln hw
  have hbb := abs_le.mp hb
  have hs := (hln.div hl lp.ne').acos (by rw [le_div_iff₀ lp]; linarith) (by rw [div_le_iff₀ lp]; linarith)
  generalize hV : Fl.sqrt (q.x * q.x + q.y * q.y + q.z * q.z) = v at *
  refine ⟨⟨q.x / v * Libm.acos (Libm.ln q.w / q.length), q.y / v * Libm.acos (Libm.ln q.w / q.length),
    q.z / v * Libm.acos (Libm.ln q.w / q.length), Libm.ln q.w⟩, Real.arccos (Real.log Q.re / ‖Q‖), ?_,
    Real.arccos_nonneg _, Real.arccos_le_pi _, ?_⟩
  · unfold Quat.ln
    dsimp only
    rw [hV, hv.feq Fl.is_zero]
    simp [assert, vp.ne']
  · refine ⟨((x.div hv vp.ne').mul hs).cast ?_, ((y.div hv vp.ne').mul hs).cast ?_, ((z.div hv vp.ne').mul hs).cast ?_,
      hln.cast ?_⟩ <;> simp [vecQ] <;> ring

/-- non-vacuity: 1 + i satisfies the hypotheses of the partial theorem (ln 1 = 0) -/
example : vecQ (1 + pureQ ![1, 0, 0]) ≠ 0 ∧ 0 < (1 + pureQ ![1, 0, 0]).re ∧
    |Real.log (1 + pureQ ![1, 0, 0]).re| ≤ ‖1 + pureQ ![1, 0, 0]‖ :=
  ⟨fun h => by simpa [vecQ] using congrFun h 0, by simp, by simp⟩

/-! ## C29 -/

theorem one_lt_norm_of {Q : ℍ[ℝ]} (h : 1 < Q.imI * Q.imI + Q.imJ * Q.imJ + Q.imK * Q.imK + Q.re * Q.re) : 1 < ‖Q‖ := by
  rw [Quat.normSq_eq] at h
  nlinarith [norm_nonneg Q]

/-- C29: inside the closed unit ball the result is the unit quaternion with the given vector part and w ≤ 0. -/
theorem C29_inside (x y z : Fl ℝ) (a b c : ℝ) (hx : x.Is a) (hy : y.Is b) (hz : z.Is c)
    (h : a ^ 2 + b ^ 2 + c ^ 2 ≤ 1) :
    ∃ Q, (Quat.initFromValsAutoW x y z).IsR Q ∧ vecQ Q = ![a, b, c] ∧ ‖Q‖ = 1 ∧ Q.re ≤ 0 := by
  have hw : (1 - x * x - y * y - z * z).Is (1 - a * a - b * b - c * c) :=
    ((Fl.is_one.sub (hx.mul hx)).sub (hy.mul hy)).sub (hz.mul hz)
  have h0 : 0 ≤ 1 - a * a - b * b - c * c := by nlinarith
  refine ⟨(⟨-Real.sqrt (1 - a * a - b * b - c * c), a, b, c⟩ : ℍ[ℝ]), ?_, rfl, ?_, ?_⟩
  · unfold Quat.initFromValsAutoW
    dsimp only
    rw [hw.lt Fl.is_zero, if_neg (by simpa using h0)]
    exact ⟨hx, hy, hz, ((Fl.is_lit (-1)).mul (hw.sqrt h0)).cast (by simp)⟩
  · apply norm_eq_one_of
    show a * a + b * b + c * c + -Real.sqrt (1 - a * a - b * b - c * c) * -Real.sqrt (1 - a * a - b * b - c * c) = 1
    rw [neg_mul_neg, Real.mul_self_sqrt h0]; ring
  · show -Real.sqrt (1 - a * a - b * b - c * c) ≤ 0
    simp [Real.sqrt_nonneg]

/-- concrete case -/
example := C29_inside (.fin (3 / 5)) (.fin 0) (.fin (-4 / 5)) _ _ _ (Fl.is_fin _) (Fl.is_fin _) (Fl.is_fin _) (by norm_num)

/-- C29: outside it the result silently has norm greater than 1. -/
theorem C29_outside (x y z : Fl ℝ) (a b c : ℝ) (hx : x.Is a) (hy : y.Is b) (hz : z.Is c)
    (h : 1 < a ^ 2 + b ^ 2 + c ^ 2) :
    ∃ Q, (Quat.initFromValsAutoW x y z).IsR Q ∧ vecQ Q = ![a, b, c] ∧ 1 < ‖Q‖ ∧ Q.re = 1 - (a ^ 2 + b ^ 2 + c ^ 2) := by
  have hw : (1 - x * x - y * y - z * z).Is (1 - a * a - b * b - c * c) :=
    ((Fl.is_one.sub (hx.mul hx)).sub (hy.mul hy)).sub (hz.mul hz)
  have h0 : 1 - a * a - b * b - c * c < 0 := by nlinarith
  refine ⟨(⟨1 - a * a - b * b - c * c, a, b, c⟩ : ℍ[ℝ]), ?_, rfl, ?_, ?_⟩
  · unfold Quat.initFromValsAutoW
    dsimp only
    rw [hw.lt Fl.is_zero, if_pos (by simpa using h0)]
    exact ⟨hx, hy, hz, hw⟩
  · apply one_lt_norm_of
    show 1 < a * a + b * b + c * c + (1 - a * a - b * b - c * c) * (1 - a * a - b * b - c * c)
    nlinarith
  · show 1 - a * a - b * b - c * c = _
    ring

/-- concrete case -/
example := C29_outside (.fin 1) (.fin 2) (.fin 3) _ _ _ (Fl.is_fin _) (Fl.is_fin _) (Fl.is_fin _) (by norm_num)

/-- non-vacuity: (0.6, 0, 0) is inside, (2, 0, 0) outside -/
example : ((3 / 5 : ℝ)) ^ 2 + 0 ^ 2 + 0 ^ 2 ≤ 1 ∧ (1 : ℝ) < 2 ^ 2 + 0 ^ 2 + 0 ^ 2 := by norm_num

end Mazth
