import Verif.Props.FloatAxis
import Verif.Props.QuatFun
import Mathlib.Analysis.Calculus.MeanValue
import Mathlib.Analysis.SpecialFunctions.Trigonometric.InverseDeriv

/-!
# C88: spherical interpolation in floating point

`interpolate_slerp` (/repo/lib/quat.rs:454-508) in any format with the standard error model, given a library of accuracy `δ`
(`AccLibm`, Props/FloatAxis.lean): between near-unit quaternions at an acute angle it is the exact spherical combination up to
rounding.  The weights `sin(aω)/sin ω` are ill-conditioned in `ω` near `0`, but as functions of `cos ω` they have bounded slope
(`arcW_lip`), which is what makes the bound independent of the angle.
-/

set_option linter.unusedSectionVars false
set_option autoImplicit false

namespace Mazth

open RndErr Quaternion Matrix

/-! ### the weight as a function of the cosine -/

/-- the weight of an end point: `sin(a ω) / sin ω` with `cos ω = c` -/
noncomputable def arcW (a c : ℝ) : ℝ := Real.sin (a * Real.arccos c) / Real.sin (Real.arccos c)

theorem arc_num {a w : ℝ} (ha : 0 ≤ a) (ha1 : a ≤ 1) (hw : 0 ≤ w) :
    |a * Real.cos (a * w) * Real.sin w - Real.sin (a * w) * Real.cos w| ≤ w ^ 3 := by
  let f : ℝ → ℝ := fun x => a * Real.cos (a * x) * Real.sin x - Real.sin (a * x) * Real.cos x
  have hd : ∀ x, HasDerivAt f ((1 - a ^ 2) * Real.sin (a * x) * Real.sin x) x := fun x => by
    have h1 : HasDerivAt (fun x => a * x) a x := by simpa using (hasDerivAt_id x).const_mul a
    have h2 := ((h1.cos.const_mul a).mul (Real.hasDerivAt_sin x)).sub (h1.sin.mul (Real.hasDerivAt_cos x))
    refine h2.congr_deriv ?_
    ring
  have hb : ∀ x ∈ Set.Icc 0 w, ‖(1 - a ^ 2) * Real.sin (a * x) * Real.sin x‖ ≤ w * w := fun x hx => by
    rw [norm_mul, norm_mul, Real.norm_eq_abs, Real.norm_eq_abs, Real.norm_eq_abs]
    have h1 : |1 - a ^ 2| ≤ 1 := abs_le.mpr ⟨by nlinarith, by nlinarith⟩
    have h2 : |Real.sin (a * x)| ≤ w := by
      refine (Real.abs_sin_le_abs).trans ?_
      rw [abs_of_nonneg (mul_nonneg ha hx.1)]
      nlinarith [hx.1, hx.2]
    have h3 : |Real.sin x| ≤ w := (Real.abs_sin_le_abs).trans (by rw [abs_of_nonneg hx.1]; exact hx.2)
    calc |1 - a ^ 2| * |Real.sin (a * x)| * |Real.sin x| ≤ 1 * w * w :=
          mul_le_mul (mul_le_mul h1 h2 (abs_nonneg _) zero_le_one) h3 (abs_nonneg _) (by linarith)
      _ = w * w := by ring
  have := Convex.norm_image_sub_le_of_norm_hasDerivWithin_le (fun x _ => (hd x).hasDerivWithinAt) hb (convex_Icc 0 w)
    (Set.left_mem_Icc.mpr hw) (Set.right_mem_Icc.mpr hw)
  simp only [f, mul_zero, Real.sin_zero, zero_mul, sub_zero, Real.norm_eq_abs, abs_of_nonneg hw] at this
  calc _ ≤ w * w * w := this
    _ = w ^ 3 := by ring

theorem arccos_sin {c : ℝ} (h0 : 0 ≤ c) (h1 : c < 1) : 0 < Real.sin (Real.arccos c) ∧ Real.arccos c ≤ 8 / 5 * Real.sin (Real.arccos c) := by
  have hp : 0 < Real.arccos c := Real.arccos_pos.mpr h1
  have hh : Real.arccos c ≤ Real.pi / 2 := Real.arccos_le_pi_div_two.mpr h0
  refine ⟨Real.sin_pos_of_pos_of_lt_pi hp (by linarith [Real.pi_pos]), ?_⟩
  have := Real.mul_le_sin hp.le hh
  have hpi := Real.pi_pos
  rw [div_mul_eq_mul_div, div_le_iff₀ hpi] at this
  nlinarith [Real.pi_lt_d2, Real.sin_nonneg_of_nonneg_of_le_pi hp.le (by linarith)]

theorem arcW_deriv (a : ℝ) {c : ℝ} (h0 : 0 ≤ c) (h1 : c < 1) : HasDerivAt (arcW a)
    (-((a * Real.cos (a * Real.arccos c) * Real.sin (Real.arccos c) - Real.sin (a * Real.arccos c) * Real.cos (Real.arccos c)) /
      Real.sin (Real.arccos c) ^ 3)) c := by
  have hs := (arccos_sin h0 h1).1
  have hd := Real.hasDerivAt_arccos (x := c) (by linarith) h1.ne
  have e : √(1 - c ^ 2) = Real.sin (Real.arccos c) := (Real.sin_arccos c).symm
  rw [e] at hd
  have h2 := ((hd.const_mul a).sin).div hd.sin hs.ne'
  refine h2.congr_deriv ?_
  field_simp
  ring

/-- the weights change at most five times as much as the cosine -/
theorem arcW_lip {a c d : ℝ} (ha : 0 ≤ a) (ha1 : a ≤ 1) (hc : 0 ≤ c) (hc1 : c < 1) (hd : 0 ≤ d) (hd1 : d < 1) :
    |arcW a c - arcW a d| ≤ 5 * |c - d| := by
  have hb : ∀ x ∈ Set.Ico (0 : ℝ) 1, ‖-((a * Real.cos (a * Real.arccos x) * Real.sin (Real.arccos x) -
      Real.sin (a * Real.arccos x) * Real.cos (Real.arccos x)) / Real.sin (Real.arccos x) ^ 3)‖ ≤ 5 := fun x hx => by
    obtain ⟨hs, hw⟩ := arccos_sin hx.1 hx.2
    rw [norm_neg, norm_div, Real.norm_eq_abs, Real.norm_eq_abs, abs_of_pos (pow_pos hs 3), div_le_iff₀ (pow_pos hs 3)]
    have hp : 0 ≤ Real.arccos x := Real.arccos_nonneg x
    refine (arc_num ha ha1 hp).trans ((pow_le_pow_left₀ hp hw 3).trans ?_)
    rw [mul_pow]
    have := pow_pos hs 3
    nlinarith
  exact Convex.norm_image_sub_le_of_norm_hasDerivWithin_le (fun x hx => (arcW_deriv a hx.1 hx.2).hasDerivWithinAt) hb (convex_Ico 0 1)
    ⟨hd, hd1⟩ ⟨hc, hc1⟩

theorem arcW_mem {a c : ℝ} (ha : 0 ≤ a) (ha1 : a ≤ 1) (h0 : 0 ≤ c) (h1 : c < 1) : 0 ≤ arcW a c ∧ arcW a c ≤ 1 := by
  obtain ⟨hs, -⟩ := arccos_sin h0 h1
  have hp : 0 ≤ Real.arccos c := Real.arccos_nonneg c
  have hh : Real.arccos c ≤ Real.pi / 2 := Real.arccos_le_pi_div_two.mpr h0
  have hm : a * Real.arccos c ≤ Real.arccos c := mul_le_of_le_one_left hp ha1
  have hpi := Real.pi_pos
  unfold arcW
  constructor
  · exact div_nonneg (Real.sin_nonneg_of_nonneg_of_le_pi (mul_nonneg ha hp) (by linarith)) hs.le
  · rw [div_le_one hs]
    exact Real.sin_le_sin_of_le_of_le_pi_div_two (by linarith [mul_nonneg ha hp]) hh hm

/-- the weights of two unit quaternions with dot product `c` are those of a unit quaternion -/
theorem arcW_unit {t c : ℝ} (h0 : 0 ≤ c) (h1 : c < 1) : arcW (1 - t) c ^ 2 + arcW t c ^ 2 + 2 * (arcW (1 - t) c * arcW t c) * c = 1 := by
  obtain ⟨hs, -⟩ := arccos_sin h0 h1
  have hc : Real.cos (Real.arccos c) = c := Real.cos_arccos (by linarith) h1.le
  unfold arcW
  rw [show (1 - t) * Real.arccos c = Real.arccos c - t * Real.arccos c by ring, Real.sin_sub]
  have hS := Real.sin_sq_add_cos_sq (Real.arccos c)
  have hT := Real.sin_sq_add_cos_sq (t * Real.arccos c)
  generalize hw : Real.arccos c = w at *
  rw [← hc]
  field_simp
  generalize Real.sin w = S at *
  generalize Real.cos w = C at *
  generalize Real.sin (t * w) = A at *
  generalize Real.cos (t * w) = B at *
  linear_combination S ^ 2 * hT - A ^ 2 * hS

/-! ### the weight in floating point -/

/-- the sine of a product of approximate factors -/
theorem sine_close {t e δ a α W w m σ : ℝ} (ht : 0 < t) (htl : t ≤ 1 / 64) (hδ : 0 ≤ δ) (hα : 0 ≤ α) (hα1 : α ≤ 1)
    (ha : |a - α| ≤ t * α) (hw : 0 ≤ w) (hW : |W - w| ≤ δ) (hm : |m - a * W| ≤ t * |a * W| + e) (hσ : |σ - Real.sin m| ≤ δ) :
    |σ - Real.sin (α * w)| ≤ 21 / 10 * (t * w) + 21 / 10 * δ + e := by
  have tα : t * α ≤ t * 1 := by gcongr
  have a1 : |a| ≤ 1 + t := by
    have := abs_add_le (a - α) α
    rw [sub_add_cancel, abs_of_nonneg hα] at this; linarith
  have W1 : |W| ≤ w + δ := by
    have := abs_add_le (W - w) w
    rw [sub_add_cancel, abs_of_nonneg hw] at this; linarith
  have h1 : |a * W| ≤ (1 + t) * (w + δ) := by
    rw [abs_mul]; exact mul_le_mul a1 W1 (abs_nonneg _) (by linarith)
  have h2 : |a * W - α * w| ≤ (1 + t) * δ + t * w := by
    have := abs_add_le (a * (W - w)) ((a - α) * w)
    rw [abs_mul, abs_mul, abs_of_nonneg hw, show a * (W - w) + (a - α) * w = a * W - α * w by ring] at this
    have k1 : |a| * |W - w| ≤ (1 + t) * δ := mul_le_mul a1 hW (abs_nonneg _) (by linarith)
    have k2 : |a - α| * w ≤ t * w := mul_le_mul_of_nonneg_right (ha.trans (by linarith)) hw
    linarith
  have h3 := abs_sub_le m (a * W) (α * w)
  have h4 := Real.abs_sin_sub_sin_le m (α * w)
  have h5 := abs_sub_le σ (Real.sin m) (Real.sin (α * w))
  have h6 : t * |a * W| ≤ t * ((1 + t) * (w + δ)) := mul_le_mul_of_nonneg_left h1 ht.le
  have h7 : t * (t * w) ≤ 1 / 64 * (t * w) := mul_le_mul_of_nonneg_right htl (by positivity)
  have h8 : t * δ ≤ 1 / 64 * δ := mul_le_mul_of_nonneg_right htl hδ
  have h9 : t * (t * δ) ≤ 1 / 64 * (t * δ) := mul_le_mul_of_nonneg_right htl (by positivity)
  have : 0 ≤ t * w := by positivity
  linarith

/-- dividing it by an approximate sine -/
theorem quot_close {t e δ σ g w s r v k : ℝ} (ht : 0 < t) (htl : t ≤ 1 / 64) (he : 0 ≤ e) (het : 1024 * e ≤ t) (hδ : 0 ≤ δ)
    (hσ : |σ - g| ≤ 21 / 10 * (t * w) + 21 / 10 * δ + e) (hs : 1 / 53 ≤ s) (hr : 15 / 16 ≤ r) (hw : w ≤ 8 / 5 * (s / r)) (hg0 : 0 ≤ g)
    (hg : g ≤ s / r) (hv : |v - 1 / s| ≤ t * (1 / s)) (hk : |k - σ * v| ≤ t * |σ * v| + e) : |k - g / s| ≤ 13 / 2 * t + 117 * δ := by
  have s0 : 0 < s := lt_of_lt_of_le (by norm_num) hs
  have r0 : 0 < r := lt_of_lt_of_le (by norm_num) hr
  have is : 1 / s ≤ 53 := by rw [div_le_iff₀ s0]; linarith
  have is0 : 0 < 1 / s := by positivity
  have ir : 1 / r ≤ 16 / 15 := by rw [div_le_iff₀ r0]; linarith
  have z1 : g / s ≤ 16 / 15 := by
    rw [div_le_iff₀ s0]
    calc g ≤ s / r := hg
      _ = 1 / r * s := by ring
      _ ≤ 16 / 15 * s := by gcongr
  have z0 : 0 ≤ g / s := by positivity
  have ws : w * (1 / s) ≤ 12 / 7 := by
    calc w * (1 / s) ≤ 8 / 5 * (s / r) * (1 / s) := by gcongr
      _ = 8 / 5 * (1 / r) := by field_simp
      _ ≤ 8 / 5 * (16 / 15) := by gcongr
      _ ≤ 12 / 7 := by norm_num
  have v1 : |v| ≤ (1 + t) * (1 / s) := by
    have := abs_add_le (v - 1 / s) (1 / s)
    rw [sub_add_cancel, abs_of_pos is0] at this; linarith
  have d1 : |σ * v - g / s| ≤ |σ - g| * |v| + g * |v - 1 / s| := by
    have := abs_add_le ((σ - g) * v) (g * (v - 1 / s))
    rwa [abs_mul, abs_mul, abs_of_nonneg hg0, show (σ - g) * v + g * (v - 1 / s) = σ * v - g / s by ring] at this
  have d2 : |σ - g| * |v| ≤ (21 / 10 * (t * w) + 21 / 10 * δ + e) * ((1 + t) * (1 / s)) :=
    mul_le_mul hσ v1 (abs_nonneg _) ((abs_nonneg _).trans hσ)
  have d3 : g * |v - 1 / s| ≤ t * (g / s) := by
    calc g * |v - 1 / s| ≤ g * (t * (1 / s)) := mul_le_mul_of_nonneg_left hv hg0
      _ = t * (g / s) := by ring
  have d4 : (21 / 10 * (t * w) + 21 / 10 * δ + e) * ((1 + t) * (1 / s)) =
      (1 + t) * (21 / 10 * t * (w * (1 / s)) + (21 / 10 * δ + e) * (1 / s)) := by ring
  have d5 : 21 / 10 * t * (w * (1 / s)) ≤ 21 / 10 * t * (12 / 7) := by gcongr
  have d6 : (21 / 10 * δ + e) * (1 / s) ≤ (21 / 10 * δ + e) * 53 := by gcongr
  have d7 : (1 + t) * (21 / 10 * t * (w * (1 / s)) + (21 / 10 * δ + e) * (1 / s)) ≤
      (1 + 1 / 64) * (21 / 10 * t * (12 / 7) + (21 / 10 * δ + e) * 53) := by
    calc _ ≤ (1 + t) * (21 / 10 * t * (12 / 7) + (21 / 10 * δ + e) * 53) := mul_le_mul_of_nonneg_left (by linarith) (by linarith)
      _ ≤ _ := mul_le_mul_of_nonneg_right (by linarith) (by positivity)
  have d8 : t * (g / s) ≤ t * (16 / 15) := by gcongr
  set D := (1 + 1 / 64) * (21 / 10 * t * (12 / 7) + (21 / 10 * δ + e) * 53) + t * (16 / 15) with hD
  have d9 : |σ * v - g / s| ≤ D := by rw [hD]; linarith
  have d10 : |σ * v| ≤ D + g / s := by
    have := abs_add_le (σ * v - g / s) (g / s)
    rw [sub_add_cancel, abs_of_nonneg z0] at this; linarith
  have d11 : t * |σ * v| ≤ t * (D + g / s) := mul_le_mul_of_nonneg_left d10 ht.le
  have D0 : 0 ≤ D := (abs_nonneg _).trans d9
  have d12 : t * D ≤ 1 / 64 * D := mul_le_mul_of_nonneg_right htl D0
  have d13 := abs_sub_le k (σ * v) (g / s)
  have : |k - g / s| ≤ (1 + 1 / 64) * D + t * (16 / 15) + e := by linarith
  rw [hD] at this
  linarith

/-- the weight against the exact one -/
theorem weight_close {t δ α c C s r k : ℝ} (ht : 0 < t) (htl : t ≤ 1 / 64) (hα : 0 ≤ α) (hα1 : α ≤ 1) (hc0 : 0 ≤ c) (hc1 : c < 1)
    (hC : 0 ≤ C) (hs : 0 < s) (hr : |r - 1| ≤ 4 * t) (hrr : r ^ 2 = C ^ 2 + s ^ 2) (hCc : |C - c| ≤ 9 / 2 * t)
    (hk : |k - Real.sin (α * Real.arccos (C / r)) / s| ≤ 13 / 2 * t + 117 * δ) (hsr : Real.sin (Real.arccos (C / r)) = s / r) :
    |k - arcW α c| ≤ 55 * t + 117 * δ := by
  obtain ⟨r1, r2⟩ := abs_le.mp hr
  have r0 : 0 < r := by linarith
  have d0 : 0 ≤ C / r := by positivity
  have Cr : C < r := by
    by_contra h
    have : r ^ 2 ≤ C ^ 2 := pow_le_pow_left₀ r0.le (not_lt.mp h) 2
    have := pow_pos hs 2
    linarith
  have d1 : C / r < 1 := by rw [div_lt_one r0]; exact Cr
  obtain ⟨w0, w1⟩ := arcW_mem hα hα1 d0 d1
  have e1 : Real.sin (α * Real.arccos (C / r)) / s = arcW α (C / r) / r := by
    unfold arcW; rw [hsr]; field_simp
  rw [e1] at hk
  have h1 : |1 / r - 1| ≤ 64 / 15 * t := by
    rw [div_sub_one r0.ne', abs_div, abs_of_pos r0, div_le_iff₀ r0, abs_sub_comm]
    nlinarith
  have h2 : |arcW α (C / r) / r - arcW α (C / r)| ≤ 64 / 15 * t := by
    rw [show arcW α (C / r) / r - arcW α (C / r) = arcW α (C / r) * (1 / r - 1) by ring, abs_mul, abs_of_nonneg w0]
    calc _ ≤ 1 * |1 / r - 1| := mul_le_mul_of_nonneg_right w1 (abs_nonneg _)
      _ ≤ _ := by linarith
  have C1 : C ≤ 15 / 14 := by linarith
  have h3 : |C / r - c| ≤ 9 / 2 * t + 64 / 15 * t := by
    have hx : |C / r - C| ≤ 64 / 15 * t := by
      rw [show C / r - C = (C / r) * (1 - r) by field_simp, abs_mul, abs_of_nonneg d0, abs_sub_comm]
      calc _ ≤ 1 * |r - 1| := mul_le_mul_of_nonneg_right d1.le (abs_nonneg _)
        _ ≤ _ := by linarith
    have := abs_sub_le (C / r) C c
    linarith
  have h4 := arcW_lip hα hα1 d0 d1 hc0 hc1
  have h5 := abs_sub_le k (arcW α (C / r) / r) (arcW α c)
  have h6 := abs_sub_le (arcW α (C / r) / r) (arcW α (C / r)) (arcW α c)
  linarith

section slerp

variable {K : Type} [Field K] [LinearOrder K] [IsStrictOrderedRing K] [Fmt K] [LawfulFmt K] [RndErr K] [Libm K]
variable (φ : K →+* ℝ) (hφ : StrictMono φ)

/-- the floating-point dot product of two quaternions, as the code computes it -/
def qdotF (p q : Quat (Fl K)) : Fl K := p.w * q.w + p.x * q.x + p.y * q.y + p.z * q.z

theorem sq_sum {P Q : ℍ[ℝ]} (h1 : ‖P‖ ≤ 65 / 64) (h2 : ‖Q‖ ≤ 65 / 64) :
    |P.re * Q.re| + |P.imI * Q.imI| + |P.imJ * Q.imJ| + |P.imK * Q.imK| ≤ 33 / 32 + 1 / 1000 := by
  have n1 := Quat.normSq_eq P
  have n2 := Quat.normSq_eq Q
  have k1 : ‖P‖ * ‖P‖ ≤ 65 / 64 * (65 / 64) := mul_le_mul h1 h1 (norm_nonneg _) (by norm_num)
  have k2 : ‖Q‖ * ‖Q‖ ≤ 65 / 64 * (65 / 64) := mul_le_mul h2 h2 (norm_nonneg _) (by norm_num)
  have key : ∀ a b : ℝ, |a * b| ≤ (a * a + b * b) / 2 := fun a b => by
    rw [abs_le]; constructor <;> nlinarith [sq_nonneg (a - b), sq_nonneg (a + b)]
  have := key P.re Q.re
  have := key P.imI Q.imI
  have := key P.imJ Q.imJ
  have := key P.imK Q.imK
  linarith

theorem comp_le (φ : K →+* ℝ) (hφ : StrictMono φ) {P : ℍ[K]} (h : ‖toH φ P‖ ≤ 65 / 64) : |P.imI| ≤ 65 / 64 ∧ |P.imJ| ≤ 65 / 64 ∧ |P.imK| ≤ 65 / 64 ∧ |P.re| ≤ 65 / 64 := by
  rw [norm_quat] at h
  have key : ∀ (a : K) (i : Fin 4), φ a = ![(toH φ P).imI, (toH φ P).imJ, (toH φ P).imK, (toH φ P).re] i → |a| ≤ 65 / 64 := fun a i hi => by
    by_contra hlt
    have h1 := hφ (not_le.mp hlt)
    rw [map_abs_mono φ hφ, map_div₀, map_ofNat, map_ofNat, hi] at h1
    have := euc_coord ![(toH φ P).imI, (toH φ P).imJ, (toH φ P).imK, (toH φ P).re] i
    linarith
  exact ⟨key _ 0 rfl, key _ 1 rfl, key _ 2 rfl, key _ 3 rfl⟩

include hφ in
theorem qdotF_close {p q : Quat (Fl K)} {P Q : ℍ[K]} (hp : p.Holds P) (hq : q.Holds Q) (h1 : ‖toH φ P‖ ≤ 65 / 64) (h2 : ‖toH φ Q‖ ≤ 65 / 64)
    (he : 1024 * (eta : K) ≤ u) (hO : (128 : K) ≤ omega) :
    ∃ C, (qdotF p q).Holds C ∧ |φ C - qdot (toH φ P) (toH φ Q)| ≤ 9 / 2 * φ u := by
  have hu := u_pos (K := K)
  have hl := u_le (K := K)
  have he0 := eta_pos (K := K)
  obtain ⟨a1, a2, a3, a4⟩ := comp_le φ hφ h1
  obtain ⟨b1, b2, b3, b4⟩ := comp_le φ hφ h2
  obtain ⟨px, py, pz, pw⟩ := hp
  obtain ⟨qx, qy, qz, qw⟩ := hq
  have m1 := (Lim.leaf pw a4).mul (Lim.leaf qw b4) (by linarith)
  have m2 := (Lim.leaf px a1).mul (Lim.leaf qx b1) (by linarith)
  have m3 := (Lim.leaf py a2).mul (Lim.leaf qy b2) (by linarith)
  have m4 := (Lim.leaf pz a3).mul (Lim.leaf qz b3) (by linarith)
  obtain ⟨C, hC⟩ := (((m1.add m2 (by linarith)).add m3 (by linarith)).add m4 (by linarith)).fin
  refine ⟨C, ⟨hC, Fl.wf_add _ _⟩, ?_⟩
  have ap := ((((Appr.prod pw qw).add (Appr.prod px qx)).add ((Appr.prod py qy).mono (l := 2) (by norm_num) le_rfl)).add
    ((Appr.prod pz qz).mono (l := 3) (by norm_num) le_rfl)).err C hC
  have ap' := hφ.monotone ap
  obtain ⟨ru, rul, reta⟩ := phi_u φ hφ
  have re : 1024 * φ eta ≤ φ u := by have := hφ.monotone he; rwa [map_mul, map_ofNat] at this
  simp only [map_abs_mono φ hφ, map_sub, map_add, map_mul, map_pow, map_one] at ap'
  have hs := sq_sum h1 h2
  simp only [toH_re, toH_imI, toH_imJ, toH_imK] at hs
  have e : qdot (toH φ P) (toH φ Q) = φ P.re * φ Q.re + φ P.imI * φ Q.imI + φ P.imJ * φ Q.imJ + φ P.imK * φ Q.imK := rfl
  rw [e]
  generalize φ u = t at *
  generalize φ eta = η at *
  set S := |φ P.re * φ Q.re| + |φ P.imI * φ Q.imI| + |φ P.imJ * φ Q.imJ| + |φ P.imK * φ Q.imK|
  have u2 := mul_le_mul_of_nonneg_left rul ru.le
  have u3 := mul_le_mul_of_nonneg_left u2 ru.le
  have u4 := mul_le_mul_of_nonneg_left u3 ru.le
  have g4 : (1 + t) ^ (1 + 1 + 1 + 1) - 1 ≤ 41 / 10 * t := by nlinarith
  have g0 : 0 ≤ (1 + t) ^ (1 + 1 + 1 + 1) - 1 := sub_nonneg.mpr (one_le_pow₀ (by linarith))
  have k1 : ((1 + t) ^ (1 + 1 + 1 + 1) - 1) * S ≤ 41 / 10 * t * (33 / 32 + 1 / 1000) :=
    mul_le_mul g4 hs (by positivity) (by positivity)
  have v1 : t * η ≤ 1 / 64 * η := mul_le_mul_of_nonneg_right rul reta.le
  have v2 : t * (t * η) ≤ 1 / 64 * (t * η) := mul_le_mul_of_nonneg_right rul (by positivity)
  have v3 : t * (t * (t * η)) ≤ 1 / 64 * (t * (t * η)) := mul_le_mul_of_nonneg_right rul (by positivity)
  have v4 : (1 + t) * ((1 + t) * ((1 + t) * (η + η) + η) + η) ≤ 5 * η := by linarith
  refine ap'.trans ?_
  linarith

/-- the hypothenuse of the approximate cosine and sine -/
theorem radius_close {t C S s r : ℝ} (ht : 0 < t) (htl : t ≤ 1 / 64) (hS : |S - (1 - C * C)| ≤ 4 * t) (hS0 : 0 ≤ S) (h1 : (1 - t) ^ 2 * S ≤ s ^ 2)
    (h2 : s ^ 2 ≤ (1 + t) ^ 2 * S) (hr : r ^ 2 = C ^ 2 + s ^ 2) (hr0 : 0 ≤ r) : |r - 1| ≤ 4 * t := by
  obtain ⟨s1, s2⟩ := abs_le.mp hS
  have S1 : S ≤ 17 / 16 := by nlinarith
  have tS : t * S ≤ t * (17 / 16) := by gcongr
  have ttS : t * (t * S) ≤ 1 / 64 * (t * S) := mul_le_mul_of_nonneg_right htl (by positivity)
  have ttS0 : 0 ≤ t * (t * S) := by positivity
  have r1 : r ^ 2 ≤ 1 + 13 / 2 * t := by nlinarith
  have r2 : 1 - 13 / 2 * t ≤ r ^ 2 := by nlinarith
  rw [abs_le]
  constructor
  · by_contra h
    push Not at h
    have : r < 1 - 4 * t := by linarith
    have : r ^ 2 < (1 - 4 * t) ^ 2 := pow_lt_pow_left₀ this hr0 (by norm_num)
    nlinarith
  · by_contra h
    push Not at h
    have : 1 + 4 * t < r := by linarith
    have : (1 + 4 * t) ^ 2 < r ^ 2 := pow_lt_pow_left₀ this (by linarith) (by norm_num)
    nlinarith

include hφ in
/-- a weight as the code computes it -/
theorem weightF_close {δ : ℝ} (L : AccLibm K φ δ) {x cF : Fl K} {a C : K} {α c : ℝ} (hx : x.Holds a) (hcF : cF.Holds C) (hα : 0 ≤ α) (hα1 : α ≤ 1)
    (ha : |φ a - α| ≤ φ u * α) (hc0 : 0 ≤ c) (hc1 : c ≤ 9998 / 10000) (hC0 : 0 ≤ C) (hCc : |φ C - c| ≤ 9 / 2 * φ u)
    (he : 1024 * (eta : K) ≤ u) (hu6 : (u : K) ≤ 1 / 10 ^ 6) (hO : (128 : K) ≤ omega) (hν : (nu : K) ≤ 1 / 2) (hδ1 : δ ≤ 1 / 1000) :
    ∃ k, (Libm.sin (x * Libm.atan2 (Fl.sqrt (1 - cF * cF)) cF) * (1 / Fl.sqrt (1 - cF * cF))).Holds k ∧
      |φ k - arcW α c| ≤ 55 * φ u + 117 * δ := by
  have hu := u_pos (K := K)
  have hl := u_le (K := K)
  have he0 := eta_pos (K := K)
  obtain ⟨ru, rul, reta⟩ := phi_u φ hφ
  have ru6 : φ u ≤ 1 / 10 ^ 6 := by have := hφ.monotone hu6; rwa [map_div₀, map_one, map_pow, map_ofNat] at this
  have re : 1024 * φ eta ≤ φ u := by have := hφ.monotone he; rwa [map_mul, map_ofNat] at this
  have hCR0 : 0 ≤ φ C := by have := hφ.monotone hC0; rwa [map_zero] at this
  have hCR1 : φ C ≤ 99981 / 100000 := by
    have := (abs_le.mp hCc).2
    have : 9 / 2 * (1 / 10 ^ 6 : ℝ) ≤ 1 / 100000 := by norm_num
    linarith
  have hC1 : |C| ≤ 1 := by
    rw [abs_of_nonneg hC0]
    by_contra h
    have := hφ (not_le.mp h)
    rw [map_one] at this; linarith
  obtain ⟨S, hS, S0, hSe⟩ := one_sub_sq hcF hC1 (by linarith)
  have hSe' := hφ.monotone hSe
  simp only [map_abs_mono φ hφ, map_sub, map_mul, map_one, map_ofNat] at hSe'
  have hC2 := mul_self_nonneg C
  have S5 : S ≤ omega := by have := (abs_le.mp hSe).2; linarith
  obtain ⟨s, hs⟩ := Fl.sqrt_fin hS.1 S0 S5
  obtain ⟨s0, s1, s2⟩ := Fl.sqrt_err hS.1 hS.2 hs
  have s0' : 0 ≤ φ s := by have := hφ.monotone s0; rwa [map_zero] at this
  have s1' := hφ.monotone s1
  have s2' := hφ.monotone s2
  have S0' : 0 ≤ φ S := by have := hφ.monotone S0; rwa [map_zero] at this
  simp only [map_sub, map_add, map_mul, map_pow, map_one] at s1' s2'
  -- the sine is not small
  have SR : 37 / 100000 ≤ φ S := by
    have h1 := (abs_le.mp hSe').1
    have h2 : φ C * φ C ≤ 99981 / 100000 * (99981 / 100000) := mul_le_mul hCR1 hCR1 hCR0 (by norm_num)
    have : (37 / 100000 : ℝ) ≤ 1 - 99981 / 100000 * (99981 / 100000) - 4 * (1 / 10 ^ 6) := by norm_num
    linarith
  have sR : 1 / 53 ≤ φ s := by
    apply le_of_sq_le_sq _ s0'
    refine le_trans ?_ s1'
    have : (1 - 1 / 10 ^ 6 : ℝ) ^ 2 * (37 / 100000) ≤ (1 - φ u) ^ 2 * φ S :=
      mul_le_mul (pow_le_pow_left₀ (by norm_num) (by linarith) 2) SR (by norm_num) (by positivity)
    refine le_trans (by norm_num) this
  have sK : 1 / 53 ≤ s := by
    by_contra h
    have := hφ (not_le.mp h)
    rw [map_div₀, map_one, map_ofNat] at this; linarith
  have sp : 0 < s := lt_of_lt_of_le (by norm_num) sK
  have spR : 0 < φ s := lt_of_lt_of_le (by norm_num) sR
  have sK2 : s ≤ 2 := by
    apply le_of_sq_le_sq _ (by norm_num)
    have := (abs_le.mp hSe).2
    have : (1 + u : K) ^ 2 * S ≤ (65 / 64) ^ 2 * (17 / 16) :=
      mul_le_mul (pow_le_pow_left₀ (by linarith) (by linarith) 2) (by linarith) S0 (by norm_num)
    have : ((65 / 64) ^ 2 * (17 / 16) : K) ≤ 2 ^ 2 := by norm_num
    linarith
  -- the angle
  set Z : ℂ := ⟨φ C, φ s⟩ with hZ
  have hr2 : ‖Z‖ ^ 2 = φ C ^ 2 + φ s ^ 2 := by
    rw [Complex.sq_norm, Complex.normSq_mk]; ring
  have hr := radius_close ru rul hSe' S0' s1' s2' hr2 (norm_nonneg _)
  obtain ⟨r1, r2⟩ := abs_le.mp hr
  have rp : 0 < ‖Z‖ := by linarith
  have rp16 : 15 / 16 ≤ ‖Z‖ := by linarith
  have harg : Complex.arg Z = Real.arccos (φ C / ‖Z‖) := Complex.arg_of_im_pos (z := Z) spR
  have hsin : Real.sin (Real.arccos (φ C / ‖Z‖)) = φ s / ‖Z‖ := by rw [← harg, Complex.sin_arg]
  have d0 : 0 ≤ φ C / ‖Z‖ := by positivity
  have Cr : φ C < ‖Z‖ := by
    by_contra h
    have := pow_le_pow_left₀ rp.le (not_lt.mp h) 2
    have := pow_pos spR 2
    linarith
  have d1 : φ C / ‖Z‖ < 1 := by rw [div_lt_one rp]; exact Cr
  obtain ⟨-, w85⟩ := arccos_sin d0 d1
  obtain ⟨W, hW, hWe⟩ := L.atan2 _ _ s C ⟨hs, Fl.wf_sqrt _⟩ hcF spR
  rw [← hZ, harg] at hWe
  set w := Real.arccos (φ C / ‖Z‖) with hw
  have w0 : 0 ≤ w := Real.arccos_nonneg _
  have w2 : w ≤ 2 := by
    have : w ≤ Real.pi / 2 := Real.arccos_le_pi_div_two.mpr d0
    linarith [Real.pi_lt_d2]
  have hδ : 0 ≤ δ := (abs_nonneg _).trans hWe
  -- the product
  have aR : |φ a| ≤ 2 := by
    have h1 := abs_add_le (φ a - α) α
    rw [sub_add_cancel, abs_of_nonneg hα] at h1
    have : φ u * α ≤ 1 / 64 * 1 := mul_le_mul rul hα1 hα (by norm_num)
    linarith
  have WR : |φ W| ≤ 3 := by
    have h1 := abs_add_le (φ W - w) w
    rw [sub_add_cancel, abs_of_nonneg w0] at h1
    linarith
  have aK : |a| ≤ 2 := by
    by_contra h
    have := hφ (not_le.mp h)
    rw [map_abs_mono φ hφ, map_ofNat] at this; linarith
  have WK : |W| ≤ 3 := by
    by_contra h
    have := hφ (not_le.mp h)
    rw [map_abs_mono φ hφ, map_ofNat] at this; linarith
  obtain ⟨m, hm⟩ := Fl.mul_fin hx.1 hW.1 (by
    rw [abs_mul]
    have : |a| * |W| ≤ 2 * 3 := mul_le_mul aK WK (abs_nonneg _) (by norm_num)
    linarith)
  have hme := hφ.monotone (Fl.mul_err hx.1 hW.1 hm)
  simp only [map_abs_mono φ hφ, map_sub, map_add, map_mul] at hme
  obtain ⟨σ, hσ, hσe⟩ := L.sin _ _ ⟨hm, Fl.wf_mul _ _⟩
  have hsc := sine_close ru rul hδ hα hα1 ha w0 hWe hme hσe
  -- the reciprocal
  have o : (1 : Fl K).Holds 1 := ⟨Fl.kis_one, by rw [Fl.one_def]; exact .inr LawfulFmt.rnd_one⟩
  have ai : |1 / s| = 1 / s := abs_of_pos (by positivity)
  have i53 : 1 / s ≤ 53 := by rw [div_le_iff₀ sp]; linarith
  obtain ⟨v, hv⟩ := Fl.div_fin o.1 hs sp.ne' (by rw [ai]; linarith)
  have hve := div_err_normal o.1 hs sp.ne' one_ne_zero hv (by
    rw [ai, le_div_iff₀ sp]
    have := mul_le_mul hν sK2 s0 (by norm_num)
    linarith)
  rw [ai] at hve
  have hve' := hφ.monotone hve
  simp only [map_abs_mono φ hφ, map_sub, map_mul, map_div₀, map_one] at hve'
  have vK : |v| ≤ 54 := by
    have h1 := abs_add_le (v - 1 / s) (1 / s)
    rw [sub_add_cancel, ai] at h1
    have : u * (1 / s) ≤ 1 / 64 * 53 := mul_le_mul hl i53 (by positivity) (by norm_num)
    linarith
  have σR : |φ σ| ≤ 2 := by
    have h1 := abs_sub_le (φ σ) (Real.sin (φ m)) 0
    rw [sub_zero, sub_zero] at h1
    linarith [Real.abs_sin_le_one (φ m)]
  have σK : |σ| ≤ 2 := by
    by_contra h
    have := hφ (not_le.mp h)
    rw [map_abs_mono φ hφ, map_ofNat] at this; linarith
  obtain ⟨k, hk⟩ := Fl.mul_fin hσ.1 hv (by
    rw [abs_mul]
    have : |σ| * |v| ≤ 2 * 54 := mul_le_mul σK vK (abs_nonneg _) (by norm_num)
    linarith)
  have hke := hφ.monotone (Fl.mul_err hσ.1 hv hk)
  simp only [map_abs_mono φ hφ, map_sub, map_add, map_mul] at hke
  refine ⟨k, ⟨hk, Fl.wf_mul _ _⟩, ?_⟩
  obtain ⟨g0, g1⟩ := arcW_mem hα hα1 d0 d1
  unfold arcW at g0 g1
  rw [← hw, hsin] at g0 g1
  have sr0 : 0 < φ s / ‖Z‖ := by positivity
  rw [div_le_one sr0] at g1
  have g0' : 0 ≤ Real.sin (α * w) := by
    by_contra h
    exact absurd g0 (not_le.mpr (div_neg_of_neg_of_pos (not_le.mp h) sr0))
  rw [hsin] at w85
  have hq := quot_close ru rul reta.le re hδ hsc sR rp16 w85 g0' g1 hve' hke
  exact weight_close ru rul hα hα1 hc0 (by linarith) hCR0 spR hr hr2 hCc hq hsin

/-- one component of the combination -/
theorem comb_close {t e a b k l A B : ℝ} (ht : 0 < t) (htl : t ≤ 1 / 64) {R D : ℝ} (hD : D ≤ 1 / 8) (hA : 0 ≤ A) (hA1 : A ≤ 1) (hB : 0 ≤ B) (hB1 : B ≤ 1)
    (hk : |k - A| ≤ D) (hl : |l - B| ≤ D) (hR : |R - (a * k + b * l)| ≤ ((1 + t) ^ 2 - 1) * (|a * k| + |b * l|) + 2 * (1 + t) * e) :
    |R - (A * a + B * b)| ≤ (D + 12 / 5 * t) * (|a| + |b|) + 2 * (1 + t) * e := by
  have k1 : |k| ≤ 9 / 8 := by
    have := abs_add_le (k - A) A
    rw [sub_add_cancel, abs_of_nonneg hA] at this; linarith
  have l1 : |l| ≤ 9 / 8 := by
    have := abs_add_le (l - B) B
    rw [sub_add_cancel, abs_of_nonneg hB] at this; linarith
  have h1 : |a * k| ≤ |a| * (9 / 8) := by rw [abs_mul]; exact mul_le_mul_of_nonneg_left k1 (abs_nonneg _)
  have h2 : |b * l| ≤ |b| * (9 / 8) := by rw [abs_mul]; exact mul_le_mul_of_nonneg_left l1 (abs_nonneg _)
  have h3 : (1 + t) ^ 2 - 1 ≤ 32 / 15 * t := by nlinarith
  have h4 : ((1 + t) ^ 2 - 1) * (|a * k| + |b * l|) ≤ 32 / 15 * t * ((|a| + |b|) * (9 / 8)) :=
    mul_le_mul h3 (by linarith) (by positivity) (by positivity)
  have h5 : |a * k + b * l - (A * a + B * b)| ≤ D * (|a| + |b|) := by
    have := abs_add_le (a * (k - A)) (b * (l - B))
    rw [abs_mul, abs_mul, show a * (k - A) + b * (l - B) = a * k + b * l - (A * a + B * b) by ring] at this
    have := mul_le_mul_of_nonneg_left hk (abs_nonneg a)
    have := mul_le_mul_of_nonneg_left hl (abs_nonneg b)
    linarith
  have := abs_sub_le R (a * k + b * l) (A * a + B * b)
  linarith

include hφ in
/-- C88: for quaternions of norm at most `65/64` whose dot product is in `[5u, 0.9998]` and a parameter `T` in [0,1],
`interpolate_slerp` is finite and within `120u + 240δ` of the exact spherical combination
`sin((1-T)ω)/sin ω · P + sin(Tω)/sin ω · Q`, `cos ω` the exact dot product. -/
theorem C88_slerp {δ : ℝ} (L : AccLibm K φ δ) (p q : Quat (Fl K)) (P Q : ℍ[K]) (hp : p.Holds P) (hq : q.Holds Q) (h1 : ‖toH φ P‖ ≤ 65 / 64)
    (h2 : ‖toH φ Q‖ ≤ 65 / 64) (hc0 : 5 * φ u ≤ qdot (toH φ P) (toH φ Q)) (hc1 : qdot (toH φ P) (toH φ Q) ≤ 9998 / 10000) (t : Fl K) (T : K)
    (ht : t.Holds T) (hT0 : 0 ≤ T) (hT1 : T ≤ 1) (he : 1024 * (eta : K) ≤ u) (hu6 : (u : K) ≤ 1 / 10 ^ 6) (hO : (128 : K) ≤ omega)
    (hν : (nu : K) ≤ 1 / 2) (hδ1 : δ ≤ 1 / 2000) :
    ∃ R, (Quat.interpolateSlerp p q t).Holds R ∧
      ‖toH φ R - (arcW (1 - φ T) (qdot (toH φ P) (toH φ Q)) • toH φ P + arcW (φ T) (qdot (toH φ P) (toH φ Q)) • toH φ Q)‖ ≤
        120 * φ u + 240 * δ := by
  have hu := u_pos (K := K)
  have hl := u_le (K := K)
  have he0 := eta_pos (K := K)
  obtain ⟨ru, rul, reta⟩ := phi_u φ hφ
  have ru6 : φ u ≤ 1 / 10 ^ 6 := by have := hφ.monotone hu6; rwa [map_div₀, map_one, map_pow, map_ofNat] at this
  have re : 1024 * φ eta ≤ φ u := by have := hφ.monotone he; rwa [map_mul, map_ofNat] at this
  obtain ⟨P', -, hPe⟩ := L.pi
  have hδ : 0 ≤ δ := (abs_nonneg _).trans hPe
  obtain ⟨C, hC, hCe⟩ := qdotF_close φ hφ hp hq h1 h2 he hO
  set c := qdot (toH φ P) (toH φ Q) with hc
  obtain ⟨C1, C2⟩ := abs_le.mp hCe
  have hC0 : 0 ≤ C := by
    by_contra h
    have := hφ (not_le.mp h)
    rw [map_zero] at this; linarith
  have t1 : Fl.lt 1 t = false := by
    rcases ht.1.kcases with rfl | ⟨rfl, rfl⟩
    · rw [Fl.one_def]; simp [Fl.lt, hT1]
    · rw [Fl.one_def]; simp [Fl.lt]
  have t0 : Fl.lt t 0 = false := by
    rcases ht.1.kcases with rfl | ⟨rfl, rfl⟩
    · rw [Fl.zero_def]; simp [Fl.lt, hT0]
    · rw [Fl.zero_def]; simp [Fl.lt]
  have z : (0 : Fl K).Is 0 := by rw [Fl.zero_def]; rfl
  have o : (1 : Fl K).Holds 1 := ⟨Fl.kis_one, by rw [Fl.one_def]; exact .inr LawfulFmt.rnd_one⟩
  have hC0F : Fl.lt (qdotF p q) 0 = false := by
    rw [← Bool.not_eq_true, hC.1.klt z]; exact not_lt.mpr hC0
  have hlit : Fl.lt (Fl.lit (9999 / 10000)) (qdotF p q) = false := by
    have ab : |(9999 / 10000 : K)| = 9999 / 10000 := abs_of_pos (by norm_num)
    obtain ⟨d, hd⟩ := rnd_fin (K := K) (9999 / 10000) (by rw [ab]; linarith)
    have de := rnd_err _ _ hd
    rw [ab] at de
    have hd' : (Fl.lit (9999 / 10000) : Fl K).Is d := by rw [Fl.lit_of_ne (by norm_num)]; exact hd
    rw [← Bool.not_eq_true, hd'.klt hC.1]
    intro h
    have h := hφ h
    have de' := hφ.monotone de
    simp only [map_abs_mono φ hφ, map_sub, map_add, map_mul, map_div₀, map_ofNat] at de'
    have := (abs_le.mp de').1
    have : (1 / 10 ^ 6 : ℝ) = 1 / 1000000 := by norm_num
    linarith
  -- the weights
  have TR0 : 0 ≤ φ T := by have := hφ.monotone hT0; rwa [map_zero] at this
  have TR1 : φ T ≤ 1 := by have := hφ.monotone hT1; rwa [map_one] at this
  have c0 : 0 ≤ c := by linarith
  have a1 : |1 - T| = 1 - T := abs_of_nonneg (by linarith)
  obtain ⟨a, ha⟩ := Fl.sub_fin o.1 ht.1 (by rw [a1]; linarith)
  have hae := hφ.monotone (Fl.sub_err o.1 ht.1 o.2 ht.2 ha)
  rw [a1] at hae
  simp only [map_abs_mono φ hφ, map_sub, map_mul, map_one] at hae
  obtain ⟨k, hk, hke⟩ := weightF_close φ hφ L ⟨ha, Fl.wf_sub _ _⟩ hC (by linarith) (by linarith) hae c0 hc1 hC0 hCe he hu6 hO hν (by linarith)
  obtain ⟨l, hl', hle⟩ := weightF_close φ hφ L ht hC TR0 TR1 (by rw [sub_self, abs_zero]; positivity) c0 hc1 hC0 hCe he hu6 hO hν (by linarith)
  have hD : 55 * φ u + 117 * δ ≤ 1 / 8 := by
    have : (1 / 10 ^ 6 : ℝ) = 1 / 1000000 := by norm_num
    linarith
  obtain ⟨A0, A1⟩ := arcW_mem (a := 1 - φ T) (by linarith) (by linarith) c0 (by linarith : c < 1)
  obtain ⟨B0, B1⟩ := arcW_mem TR0 TR1 c0 (by linarith : c < 1)
  set A := arcW (1 - φ T) c
  set B := arcW (φ T) c
  have kl : ∀ {j : K} {J : ℝ}, 0 ≤ J → J ≤ 1 → |φ j - J| ≤ 55 * φ u + 117 * δ → |j| ≤ 9 / 8 := fun {j J} J0 J1 hj => by
    by_contra h
    have := hφ (not_le.mp h)
    rw [map_abs_mono φ hφ, map_div₀, map_ofNat, map_ofNat] at this
    have h1 := abs_add_le (φ j - J) J
    rw [sub_add_cancel, abs_of_nonneg J0] at h1
    linarith
  have kK := kl A0 A1 hke
  have lK := kl B0 B1 hle
  set kF := Libm.sin ((1 - t) * Libm.atan2 (Fl.sqrt (1 - qdotF p q * qdotF p q)) (qdotF p q)) * (1 / Fl.sqrt (1 - qdotF p q * qdotF p q)) with hkF
  set lF := Libm.sin (t * Libm.atan2 (Fl.sqrt (1 - qdotF p q * qdotF p q)) (qdotF p q)) * (1 / Fl.sqrt (1 - qdotF p q * qdotF p q)) with hlF
  have key : ∀ {x y : Fl K} {f g : K}, x.Holds f → y.Holds g → |f| ≤ 65 / 64 → |g| ≤ 65 / 64 →
      ∃ r, (x * kF + y * lF).Holds r ∧ |φ r - (A * φ f + B * φ g)| ≤ (55 * φ u + 117 * δ + 12 / 5 * φ u) * (|φ f| + |φ g|) + 2 * (1 + φ u) * φ eta := by
    intro x y f g hx hy hf hg
    have m1 := (Lim.leaf hx hf).mul (Lim.leaf hk kK) (by linarith)
    have m2 := (Lim.leaf hy hg).mul (Lim.leaf hl' lK) (by linarith)
    obtain ⟨r, hr⟩ := (m1.add m2 (by linarith)).fin
    refine ⟨r, ⟨hr, Fl.wf_add _ _⟩, ?_⟩
    have ap := hφ.monotone (((Appr.prod hx hk).add (Appr.prod hy hl')).err r hr)
    simp only [map_abs_mono φ hφ, map_sub, map_add, map_mul, map_pow, map_one] at ap
    refine comb_close ru rul hD A0 A1 B0 B1 hke hle (ap.trans (le_of_eq ?_))
    ring
  obtain ⟨px, py, pz, pw⟩ := hp
  obtain ⟨qx, qy, qz, qw⟩ := hq
  obtain ⟨f1, f2, f3, f4⟩ := comp_le φ hφ h1
  obtain ⟨g1, g2, g3, g4⟩ := comp_le φ hφ h2
  obtain ⟨rx, kx, ex⟩ := key px qx f1 g1
  obtain ⟨ry, ky, ey⟩ := key py qy f2 g2
  obtain ⟨rz, kz, ez⟩ := key pz qz f3 g3
  obtain ⟨rw, kw, ew⟩ := key pw qw f4 g4
  refine ⟨⟨rw, rx, ry, rz⟩, ?_, ?_⟩
  · have e : Quat.interpolateSlerp p q t = ⟨p.x * kF + q.x * lF, p.y * kF + q.y * lF, p.z * kF + q.z * lF, p.w * kF + q.w * lF⟩ := by
      unfold Quat.interpolateSlerp
      have eq : p.w * q.w + p.x * q.x + p.y * q.y + p.z * q.z = qdotF p q := rfl
      simp only [t1, t0, eq, hC0F, hlit, Bool.false_eq_true, if_false]
      rfl
    rw [e]
    exact ⟨kx, ky, kz, kw⟩
  · set X := toH φ (⟨rw, rx, ry, rz⟩ : ℍ[K]) - (A • toH φ P + B • toH φ Q) with hX
    rw [norm_quat]
    have n1 : euc ![(toH φ P).imI, (toH φ P).imJ, (toH φ P).imK, (toH φ P).re] ≤ 65 / 64 := by rwa [← norm_quat]
    have n2 : euc ![(toH φ Q).imI, (toH φ Q).imJ, (toH φ Q).imK, (toH φ Q).re] ≤ 65 / 64 := by rwa [← norm_quat]
    set VP : Fin 4 → ℝ := ![(toH φ P).imI, (toH φ P).imJ, (toH φ P).imK, (toH φ P).re]
    set VQ : Fin 4 → ℝ := ![(toH φ Q).imI, (toH φ Q).imJ, (toH φ Q).imK, (toH φ Q).re]
    set E := 55 * φ u + 117 * δ + 12 / 5 * φ u with hE
    have E0 : 0 ≤ E := by positivity
    have hb : euc ![X.imI, X.imJ, X.imK, X.re] ≤ euc (E • (fun i => |VP i|) + (E • (fun i => |VQ i|) + (2 * (1 + φ u) * φ eta) • fun _ => (1 : ℝ))) := by
      apply euc_mono
      intro i
      have ex' : |X.imI| ≤ E * (|φ P.imI| + |φ Q.imI|) + 2 * (1 + φ u) * φ eta := ex
      have ey' : |X.imJ| ≤ E * (|φ P.imJ| + |φ Q.imJ|) + 2 * (1 + φ u) * φ eta := ey
      have ez' : |X.imK| ≤ E * (|φ P.imK| + |φ Q.imK|) + 2 * (1 + φ u) * φ eta := ez
      have ew' : |X.re| ≤ E * (|φ P.re| + |φ Q.re|) + 2 * (1 + φ u) * φ eta := ew
      fin_cases i
      · refine ex'.trans (le_of_eq ?_)
        show _ = E * |φ P.imI| + (E * |φ Q.imI| + 2 * (1 + φ u) * φ eta * 1); ring
      · refine ey'.trans (le_of_eq ?_)
        show _ = E * |φ P.imJ| + (E * |φ Q.imJ| + 2 * (1 + φ u) * φ eta * 1); ring
      · refine ez'.trans (le_of_eq ?_)
        show _ = E * |φ P.imK| + (E * |φ Q.imK| + 2 * (1 + φ u) * φ eta * 1); ring
      · refine ew'.trans (le_of_eq ?_)
        show _ = E * |φ P.re| + (E * |φ Q.re| + 2 * (1 + φ u) * φ eta * 1); ring
    have b1 := euc_add_le (E • (fun i => |VP i|)) (E • (fun i => |VQ i|) + (2 * (1 + φ u) * φ eta) • fun _ => (1 : ℝ))
    have b2 := euc_add_le (E • (fun i => |VQ i|)) ((2 * (1 + φ u) * φ eta) • fun _ => (1 : ℝ))
    rw [euc_smul, euc_abs, abs_of_nonneg E0] at b1
    rw [euc_smul, euc_smul, euc_abs, abs_of_nonneg E0, abs_of_nonneg (show 0 ≤ 2 * (1 + φ u) * φ eta by positivity)] at b2
    have hone : euc (fun _ : Fin 4 => (1 : ℝ)) ≤ 2 := by
      rw [euc_eq, Fin.sum_univ_four]; apply Real.sqrt_le_iff.mpr; norm_num
    have q1 : E * euc VP ≤ E * (65 / 64) := mul_le_mul_of_nonneg_left n1 E0
    have q2 : E * euc VQ ≤ E * (65 / 64) := mul_le_mul_of_nonneg_left n2 E0
    have q3 : 2 * (1 + φ u) * φ eta * euc (fun _ : Fin 4 => (1 : ℝ)) ≤ 2 * (1 + φ u) * φ eta * 2 := mul_le_mul_of_nonneg_left hone (by positivity)
    have q4 : φ u * φ eta ≤ 1 / 64 * φ eta := mul_le_mul_of_nonneg_right rul reta.le
    have fin := hb.trans (b1.trans (add_le_add q1 (b2.trans (add_le_add q2 q3))))
    refine fin.trans ?_
    rw [hE]
    linarith

/-- C88: for near-unit inputs the exact spherical combination has norm `1` up to the deviations of the inputs, so the result has
norm `1` up to these and `120u + 240δ`. -/
theorem C88_exact_norm (P Q : ℍ[ℝ]) (t : ℝ) (h0 : 0 ≤ t) (h1 : t ≤ 1) (hc0 : 0 ≤ qdot P Q) (hc1 : qdot P Q < 1) :
    |‖arcW (1 - t) (qdot P Q) • P + arcW t (qdot P Q) • Q‖ ^ 2 - 1| ≤ |‖P‖ ^ 2 - 1| + |‖Q‖ ^ 2 - 1| := by
  obtain ⟨A0, A1⟩ := arcW_mem (a := 1 - t) (by linarith) (by linarith) hc0 hc1
  obtain ⟨B0, B1⟩ := arcW_mem h0 h1 hc0 hc1
  have hU := arcW_unit (t := t) hc0 hc1
  set A := arcW (1 - t) (qdot P Q)
  set B := arcW t (qdot P Q)
  have e : ‖A • P + B • Q‖ ^ 2 = A ^ 2 * ‖P‖ ^ 2 + B ^ 2 * ‖Q‖ ^ 2 + 2 * (A * B) * qdot P Q := by
    have n0 := Quat.normSq_eq (A • P + B • Q)
    have n1 := Quat.normSq_eq P
    have n2 := Quat.normSq_eq Q
    simp only [Quaternion.imI_add, Quaternion.imJ_add, Quaternion.imK_add, Quaternion.re_add, Quaternion.imI_smul, Quaternion.imJ_smul,
      Quaternion.imK_smul, Quaternion.re_smul, smul_eq_mul] at n0
    rw [sq, sq ‖P‖, sq ‖Q‖, ← n0, ← n1, ← n2]
    unfold qdot; ring
  have e2 : ‖A • P + B • Q‖ ^ 2 - 1 = A ^ 2 * (‖P‖ ^ 2 - 1) + B ^ 2 * (‖Q‖ ^ 2 - 1) := by rw [e]; linear_combination hU
  rw [e2]
  refine (abs_add_le _ _).trans ?_
  rw [abs_mul, abs_mul, abs_of_nonneg (sq_nonneg A), abs_of_nonneg (sq_nonneg B)]
  have : A ^ 2 ≤ 1 := pow_le_one₀ A0 A1
  have : B ^ 2 ≤ 1 := pow_le_one₀ B0 B1
  exact add_le_add (mul_le_of_le_one_left (abs_nonneg _) (by assumption)) (mul_le_of_le_one_left (abs_nonneg _) (by assumption))

/-- C88: on all floats, when the computed dot product exceeds the constant `0.9999` the result is that of `interpolate_linear`, bit for
bit, and when its negation does, that of `interpolate_linear` towards the negated end point. -/
theorem C88_linear {K : Type} [Field K] [LinearOrder K] [Fmt K] [Libm K] (p q : Quat (Fl K)) (t : Fl K) :
    (Fl.lt (qdotF p q) 0 = false → Fl.lt (Fl.lit (9999 / 10000)) (qdotF p q) = true → Quat.interpolateSlerp p q t = Quat.interpolateLinear p q t) ∧
    (Fl.lt (qdotF p q) 0 = true → Fl.lt (Fl.lit (9999 / 10000)) (-qdotF p q) = true →
      Quat.interpolateSlerp p q t = Quat.interpolateLinear p q.negate t) := by
  have eq : p.w * q.w + p.x * q.x + p.y * q.y + p.z * q.z = qdotF p q := rfl
  constructor <;> intro h1 h2
  · unfold Quat.interpolateSlerp Quat.interpolateLinear
    simp only [eq, h1, h2, Bool.false_eq_true, if_false, if_true]
  · unfold Quat.interpolateSlerp Quat.interpolateLinear
    simp only [eq, h1, h2, if_true]
    rfl

end slerp

/-! ### concrete cases in binary64 -/

section cases

attribute [local instance] accLibm64

/-- the identity quaternion -/
def qOne : Quat (Fl Q64) := ⟨.fin 0, .fin 0, .fin 0, .fin 1⟩
theorem qOne_holds : qOne.Holds (⟨1, 0, 0, 0⟩ : ℍ[Q64]) := ⟨⟨rfl, .inl rfl⟩, ⟨rfl, .inl rfl⟩, ⟨rfl, .inl rfl⟩, one64⟩
def HOne : ℍ[Q64] := ⟨1, 0, 0, 0⟩

theorem norm_le_of_sq {X : ℍ[ℝ]} (h : X.imI * X.imI + X.imJ * X.imJ + X.imK * X.imK + X.re * X.re = 1) : ‖X‖ = 1 := by
  have n := Quat.normSq_eq X
  have : ‖X‖ * ‖X‖ = 1 := by linarith
  nlinarith [norm_nonneg X]

theorem normOne : ‖toH BinQ.real HOne‖ = 1 := norm_le_of_sq (by
  simp only [toH, HOne, map_zero, map_one]; norm_num)
theorem norm1111 : ‖toH BinQ.real H1111‖ = 1 := norm_le_of_sq (by
  simp only [toH, H1111, map_div₀, map_one, map_ofNat, map_neg]; norm_num)
theorem dot1111 : qdot (toH BinQ.real HOne) (toH BinQ.real H1111) = 1 / 2 := by
  simp only [qdot, toH, HOne, H1111, map_div₀, map_one, map_zero, map_ofNat, map_neg]; norm_num

theorem eta_1024 : 1024 * (2 : ℚ) ^ (-1075 : ℤ) ≤ 2 ^ (-53 : ℤ) :=
  (mul_le_mul_of_nonneg_left (zpow_le_zpow_right₀ (by norm_num) (show (-1075 : ℤ) ≤ -64 by norm_num)) (by norm_num)).trans (by norm_num)

/-- concrete case: a quarter of the way from the identity to `(1 + i - j + k)/2` -/
example := C88_slerp BinQ.real BinQ.real_strictMono accLibm64_acc qOne q1111 HOne H1111 qOne_holds q1111_holds
  (by rw [normOne]; norm_num) (by rw [norm1111]; norm_num) (by rw [dot1111]; have := real_u15; norm_num; linarith) (by rw [dot1111]; norm_num)
  (.fin (1 / 4)) (1 / 4) ⟨rfl, .inr (by decide +kernel)⟩ (by norm_num) (by norm_num)
  (by rw [C55_constants.1, C55_constants.2.1]; exact eta_1024)
  (by have := u64; exact this.trans (by norm_num)) (by have := omega64; exact le_trans (by norm_num) this)
  (by have := nu64; exact this.trans (by norm_num)) (by norm_num)

/-- concrete case -/
example := C88_exact_norm (toH BinQ.real HOne) (toH BinQ.real H1111) (1 / 4) (by norm_num) (by norm_num) (by rw [dot1111]; norm_num) (by rw [dot1111]; norm_num)

/-- concrete cases: equal and opposite end points -/
example := (C88_linear qOne qOne (.fin (1 / 4))).1 (by decide +kernel) (by decide +kernel)
example := (C88_linear qOne qOne.negate (.fin (1 / 4))).2 (by decide +kernel) (by decide +kernel)

end cases

end Mazth
