import Verif.Props.FloatSlerp
import Mathlib.Analysis.SpecialFunctions.Pow.Real

/-!
# C89: powers of quaternions in floating point

`pow` (/repo/lib/quat.rs:382-400) in any format with the standard error model, given a library of accuracy `δ` (`AccLibm`,
Props/FloatAxis.lean, and `AccPow` below for `powf`).  The angle is computed as `acos(w/l)`, which is ill-conditioned for quaternions
that are nearly real: the bound grows like `1/sin α`, and `C89_small_angle_false` shows that this is not an artefact.
-/

set_option linter.unusedSectionVars false
set_option autoImplicit false

namespace Mazth

open RndErr Quaternion Matrix

/-! ### real estimates -/

/-- the cosine moves at least `sin b / π` times as much as the angle -/
theorem cos_gap {a b : ℝ} (a0 : 0 ≤ a) (a1 : a ≤ Real.pi) (b0 : 0 ≤ b) (b1 : b ≤ Real.pi) :
    |a - b| * Real.sin b ≤ Real.pi * |Real.cos a - Real.cos b| := by
  have hp := Real.pi_pos
  rw [Real.cos_sub_cos, abs_mul, abs_mul, abs_neg, abs_two]
  have hs : 0 ≤ Real.sin ((a + b) / 2) := Real.sin_nonneg_of_nonneg_of_le_pi (by linarith) (by linarith)
  rw [abs_of_nonneg hs]
  have h1 : 2 / Real.pi * |(a - b) / 2| ≤ |Real.sin ((a - b) / 2)| := by
    apply Real.mul_abs_le_abs_sin
    rw [abs_div, abs_two]
    have : |a - b| ≤ Real.pi := abs_le.mpr ⟨by linarith, by linarith⟩
    linarith
  have h2 : |a - b| ≤ Real.pi * |Real.sin ((a - b) / 2)| := by
    have := mul_le_mul_of_nonneg_left h1 hp.le
    rw [abs_div, abs_two] at this
    have e : Real.pi * (2 / Real.pi * (|a - b| / 2)) = |a - b| := by field_simp
    linarith
  have h3 : Real.sin b ≤ 2 * Real.sin ((a + b) / 2) := by
    have e := Real.sin_add_sin a b
    have k := mul_le_mul_of_nonneg_left (Real.cos_le_one ((a - b) / 2)) hs
    have := Real.sin_nonneg_of_nonneg_of_le_pi a0 a1
    linarith
  have h4 := Real.sin_nonneg_of_nonneg_of_le_pi b0 b1
  have := mul_le_mul h2 h3 h4 (by positivity)
  linarith

/-- the arc cosine away from the ends -/
theorem arccos_close {x y s e : ℝ} (hx : |x| ≤ 1) (hy : |y| ≤ 1) (hs : 0 < s) (hsy : s = Real.sin (Real.arccos y)) (he : |x - y| ≤ e) :
    |Real.arccos x - Real.arccos y| ≤ 22 / 7 * e / s := by
  obtain ⟨x0, x1⟩ := abs_le.mp hx
  obtain ⟨y0, y1⟩ := abs_le.mp hy
  have h := cos_gap (Real.arccos_nonneg x) (Real.arccos_le_pi x) (Real.arccos_nonneg y) (Real.arccos_le_pi y)
  rw [Real.cos_arccos x0 x1, Real.cos_arccos y0 y1, ← hsy] at h
  rw [le_div_iff₀ hs]
  have : Real.pi * |x - y| ≤ 22 / 7 * e := mul_le_mul (by linarith [Real.pi_lt_d4]) he (abs_nonneg _) (by norm_num)
  linarith

/-- real powers of a length known up to `4t` -/
theorem rpow_close {l L x t : ℝ} (hL : 0 < L) (ht : 0 < t) (htl : t ≤ 1 / 64) (h : |l - L| ≤ 4 * t * L) (hx : 9 / 2 * (|x| * t) ≤ 1) :
    0 < l ∧ |l ^ x - L ^ x| ≤ 9 * (|x| * t) * L ^ x := by
  obtain ⟨h1, h2⟩ := abs_le.mp h
  have l1 : 15 / 16 * L ≤ l := by
    have : 4 * t * L ≤ 4 * (1 / 64) * L := by gcongr
    linarith
  have l0 : 0 < l := by linarith
  refine ⟨l0, ?_⟩
  have hr : 0 < l / L := by positivity
  have e : l = L * (l / L) := by field_simp
  have r1 : Real.log (l / L) ≤ 4 * t := by
    refine (Real.log_le_sub_one_of_pos hr).trans ?_
    rw [sub_le_iff_le_add, div_le_iff₀ hL]; linarith
  have r2 : -Real.log (l / L) ≤ 9 / 2 * t := by
    rw [← Real.log_inv, inv_div]
    refine (Real.log_le_sub_one_of_pos (by positivity)).trans ?_
    rw [sub_le_iff_le_add, div_le_iff₀ l0]
    have : 9 / 2 * t * (15 / 16 * L) ≤ 9 / 2 * t * l := mul_le_mul_of_nonneg_left l1 (by positivity)
    have : 0 ≤ t * L := by positivity
    linarith
  have hlog : |Real.log (l / L)| ≤ 9 / 2 * t := abs_le.mpr ⟨by linarith, by linarith⟩
  have hxl : |Real.log (l / L) * x| ≤ 9 / 2 * (|x| * t) := by
    rw [abs_mul]
    have := mul_le_mul_of_nonneg_right hlog (abs_nonneg x)
    linarith
  have hexp := Real.abs_exp_sub_one_le (hxl.trans hx)
  rw [← Real.rpow_def_of_pos hr] at hexp
  have hc : 0 < L ^ x := Real.rpow_pos_of_pos hL x
  have : l ^ x - L ^ x = L ^ x * ((l / L) ^ x - 1) := by
    conv_lhs => rw [e, Real.mul_rpow hL.le hr.le]
    ring
  rw [this, abs_mul, abs_of_pos hc, mul_comm]
  exact mul_le_mul_of_nonneg_right (hexp.trans (by linarith)) hc.le

/-- one component of the vector part: three factors, two roundings -/
theorem pow_comp {t e c κ D P N n S σ A R : ℝ} (ht : 0 < t) (htl : t ≤ 1 / 64) (he : 0 ≤ e) (het : e ≤ t) (hc : 0 < c) (hec : 2 * e ≤ t * c)
    (hκ : κ ≤ 1 / 16) (hD : D ≤ 1 / 16) (hσ : |σ| ≤ 1) (hP : |P - c| ≤ κ * c) (hN : |N - n| ≤ 5 * t * |n| + e) (hS : |S - σ| ≤ D)
    (hA : |A - P * N| ≤ t * |P * N| + e) (hR : |R - A * S| ≤ t * |A * S| + e) :
    |R - c * n * σ| ≤ c * ((6 / 5 * κ + D + 9 * t) * |n| + 3 * t) := by
  have hn := abs_nonneg n
  have κ0 : 0 ≤ κ := by
    have := (abs_nonneg _).trans hP
    by_contra h; push Not at h
    have := mul_neg_of_neg_of_pos h hc
    linarith
  have N1 : |N| ≤ (1 + 5 * t) * |n| + e := by
    have := abs_add_le (N - n) n; rw [sub_add_cancel] at this; linarith
  have P1 : |P| ≤ 17 / 16 * c := by
    have := abs_add_le (P - c) c; rw [sub_add_cancel, abs_of_pos hc] at this
    have : κ * c ≤ 1 / 16 * c := by gcongr
    linarith
  have S1 : |S| ≤ 17 / 16 := by
    have := abs_add_le (S - σ) σ; rw [sub_add_cancel] at this; linarith
  have tn : t * |n| ≤ 1 / 64 * |n| := by gcongr
  have te : t * e ≤ 1 / 64 * e := by gcongr
  have ttn : t * (t * |n|) ≤ 1 / 64 * (t * |n|) := by gcongr
  have tn0 : 0 ≤ t * |n| := by positivity
  -- the first product
  have PN : |P * N| ≤ c * (17 / 16 * ((1 + 5 * t) * |n| + e)) := by
    rw [abs_mul]
    refine (mul_le_mul P1 N1 (abs_nonneg _) (by positivity)).trans (le_of_eq (by ring))
  have PN' : |P * N - c * n| ≤ c * (κ * ((1 + 5 * t) * |n| + e) + (5 * t * |n| + e)) := by
    have h := abs_add_le ((P - c) * N) (c * (N - n))
    rw [abs_mul, abs_mul, abs_of_pos hc, show (P - c) * N + c * (N - n) = P * N - c * n by ring] at h
    have h1 : |P - c| * |N| ≤ κ * c * ((1 + 5 * t) * |n| + e) := mul_le_mul hP N1 (abs_nonneg _) (by positivity)
    have h2 : c * |N - n| ≤ c * (5 * t * |n| + e) := mul_le_mul_of_nonneg_left hN hc.le
    linarith
  have kn : κ * (t * |n|) ≤ 1 / 64 * (κ * |n|) := by
    have := mul_le_mul_of_nonneg_left tn κ0
    linarith
  have ke : κ * e ≤ 1 / 16 * e := by gcongr
  have kn0 : 0 ≤ κ * |n| := by positivity
  have A1 : |A - c * n| ≤ c * ((11 / 10 * κ + 25 / 4 * t) * |n| + 8 / 5 * t) := by
    have h := abs_add_le (A - P * N) (P * N - c * n)
    rw [sub_add_sub_cancel] at h
    have h1 : t * |P * N| ≤ t * (c * (17 / 16 * ((1 + 5 * t) * |n| + e))) := mul_le_mul_of_nonneg_left PN ht.le
    have h2 : c * (t * (17 / 16 * ((1 + 5 * t) * |n| + e)) + 1 / 2 * t + (κ * ((1 + 5 * t) * |n| + e) + (5 * t * |n| + e))) ≤
        c * ((11 / 10 * κ + 25 / 4 * t) * |n| + 8 / 5 * t) := by
      apply mul_le_mul_of_nonneg_left _ hc.le
      linarith
    linarith
  have A2 : |A| ≤ c * (5 / 4 * |n| + 8 / 5 * t) := by
    have h := abs_add_le (A - c * n) (c * n)
    rw [sub_add_cancel, abs_mul, abs_of_pos hc] at h
    have h2 : c * ((11 / 10 * κ + 25 / 4 * t) * |n| + 8 / 5 * t + |n|) ≤ c * (5 / 4 * |n| + 8 / 5 * t) := by
      apply mul_le_mul_of_nonneg_left _ hc.le
      have : κ * |n| ≤ 1 / 16 * |n| := by gcongr
      linarith
    linarith
  have AS : |A * S| ≤ c * (17 / 16 * (5 / 4 * |n| + 8 / 5 * t)) := by
    rw [abs_mul]
    exact (mul_le_mul A2 S1 (abs_nonneg _) (by positivity)).trans (le_of_eq (by ring))
  have AS' : |A * S - c * n * σ| ≤ c * (17 / 16 * ((11 / 10 * κ + 25 / 4 * t) * |n| + 8 / 5 * t) + |n| * D) := by
    have h := abs_add_le ((A - c * n) * S) (c * n * (S - σ))
    rw [abs_mul, abs_mul, abs_mul, abs_of_pos hc, show (A - c * n) * S + c * n * (S - σ) = A * S - c * n * σ by ring] at h
    have h1 : |A - c * n| * |S| ≤ c * ((11 / 10 * κ + 25 / 4 * t) * |n| + 8 / 5 * t) * (17 / 16) := mul_le_mul A1 S1 (abs_nonneg _) (by positivity)
    have h2 : c * |n| * |S - σ| ≤ c * |n| * D := mul_le_mul_of_nonneg_left hS (by positivity)
    linarith
  have h := abs_add_le (R - A * S) (A * S - c * n * σ)
  rw [sub_add_sub_cancel] at h
  have h1 : t * |A * S| ≤ t * (c * (17 / 16 * (5 / 4 * |n| + 8 / 5 * t))) := mul_le_mul_of_nonneg_left AS ht.le
  have h2 : c * (t * (17 / 16 * (5 / 4 * |n| + 8 / 5 * t)) + 1 / 2 * t + (17 / 16 * ((11 / 10 * κ + 25 / 4 * t) * |n| + 8 / 5 * t) + |n| * D)) ≤
      c * ((6 / 5 * κ + D + 9 * t) * |n| + 3 * t) := by
    apply mul_le_mul_of_nonneg_left _ hc.le
    have : t * t ≤ 1 / 64 * t := by gcongr
    linarith
  linarith

/-- the real part: two factors, one rounding -/
theorem pow_re {t e c κ D P C γ R : ℝ} (ht : 0 < t) (hc : 0 < c) (hec : 2 * e ≤ t * c)
    (hκ : κ ≤ 1 / 16) (hD : D ≤ 1 / 16) (hγ : |γ| ≤ 1) (hP : |P - c| ≤ κ * c) (hC : |C - γ| ≤ D)
    (hR : |R - P * C| ≤ t * |P * C| + e) : |R - c * γ| ≤ c * (17 / 16 * κ + D + 2 * t) := by
  have P1 : |P| ≤ 17 / 16 * c := by
    have := abs_add_le (P - c) c; rw [sub_add_cancel, abs_of_pos hc] at this
    have : κ * c ≤ 1 / 16 * c := by gcongr
    linarith
  have C1 : |C| ≤ 17 / 16 := by
    have := abs_add_le (C - γ) γ; rw [sub_add_cancel] at this; linarith
  have PC : |P * C| ≤ 17 / 16 * c * (17 / 16) := by rw [abs_mul]; exact mul_le_mul P1 C1 (abs_nonneg _) (by positivity)
  have h := abs_add_le ((P - c) * C) (c * (C - γ))
  rw [abs_mul, abs_mul, abs_of_pos hc, show (P - c) * C + c * (C - γ) = P * C - c * γ by ring] at h
  have h1 : |P - c| * |C| ≤ κ * c * (17 / 16) := mul_le_mul hP C1 (abs_nonneg _) (by
    have := (abs_nonneg _).trans hP; exact this)
  have h2 : c * |C - γ| ≤ c * D := mul_le_mul_of_nonneg_left hC hc.le
  have h3 : t * |P * C| ≤ t * (17 / 16 * c * (17 / 16)) := mul_le_mul_of_nonneg_left PC ht.le
  have h4 := abs_add_le (R - P * C) (P * C - c * γ)
  rw [sub_add_sub_cancel] at h4
  have : 0 ≤ t * c := by positivity
  linarith


section main

variable {K : Type} [Field K] [LinearOrder K] [IsStrictOrderedRing K] [Fmt K] [LawfulFmt K] [RndErr K] [Libm K]

/-- `powf` of a positive base: when the exact power is in the normal range, the result is finite and within `δ` of it, relatively. -/
structure AccPow (K : Type) [Field K] [LinearOrder K] [IsStrictOrderedRing K] [Fmt K] [RndErr K] [Libm K] (φ : K →+* ℝ) (δ : ℝ) : Prop where
  powf : ∀ (x y : Fl K) (a b : K), x.Holds a → y.Holds b → 0 < φ a → φ eta ≤ φ u * φ a ^ φ b → φ a ^ φ b ≤ φ omega →
    ∃ s, (Libm.powf x y : Fl K).Holds s ∧ |φ s - φ a ^ φ b| ≤ δ * φ a ^ φ b

variable (φ : K →+* ℝ) (hφ : StrictMono φ)

theorem quatVec_norm (Q : ℍ[K]) : euc (fun i => φ (quatVec Q i)) = ‖toH φ Q‖ := by
  rw [norm_quat]; congr 1; funext i; fin_cases i <;> rfl

theorem quatIm_norm (Q : ℍ[K]) : euc (fun i => φ (quatIm Q i)) = euc (vecQ (toH φ Q)) := by
  congr 1; funext i; fin_cases i <;> rfl

/-- the sine of the angle of a quaternion is the share of its vector part -/
theorem sin_angle {Q : ℍ[ℝ]} (h : vecQ Q ≠ 0) : Real.sin (Real.arccos (Q.re / ‖Q‖)) = euc (vecQ Q) / ‖Q‖ := by
  have lp := norm_pos_of_vec h
  have vp := euc_pos h
  have e1 := vecQ_sq Q
  have e2 := Quat.normSq_eq Q
  rw [Real.sin_arccos, show 1 - (Q.re / ‖Q‖) ^ 2 = (euc (vecQ Q) / ‖Q‖) ^ 2 by field_simp; nlinarith, Real.sqrt_sq (by positivity)]

include hφ in
/-- the direction of the vector part -/
theorem vec_dir (q : Quat (Fl K)) (Q : ℍ[K]) (hq : q.Holds Q) (hn : ∀ i, quatVec Q i = 0 ∨ nu ≤ quatVec Q i * quatVec Q i)
    (hO : 8 * normSq Q ≤ omega) (hv : vecQ (toH φ Q) ≠ 0) :
    Fl.feq (Fl.sqrt (q.x * q.x + q.y * q.y + q.z * q.z)) 0 = false ∧ ∃ (N : Fin 3 → K) (n : Fin 3 → ℝ),
      (∀ i, ((![q.x, q.y, q.z] : Fin 3 → Fl K) i / Fl.sqrt (q.x * q.x + q.y * q.y + q.z * q.z)).Is (N i)) ∧
      n = (fun i => φ (quatIm Q i) / euc (vecQ (toH φ Q))) ∧ euc n = 1 ∧ (∀ i, |n i| ≤ 1) ∧ ∀ i, |φ (N i) - n i| ≤ 5 * φ u * |n i| + φ eta := by
  set H := toH φ Q with hH
  have vp := euc_pos hv
  -- the vector part
  set vF : Mat3x1 (Fl K) := ⟨#v[q.x, q.y, q.z]⟩ with hvF
  have hvH : vF.Holds (quatIm Q) := fun i => by
    fin_cases i
    · exact hq.1
    · exact hq.2.1
    · exact hq.2.2.1
  have hnv : ∀ i, quatIm Q i = 0 ∨ nu ≤ quatIm Q i * quatIm Q i := fun i => by
    fin_cases i
    · exact hn 0
    · exact hn 1
    · exact hn 2
  have hOv : ∀ i, 8 * (quatIm Q i * quatIm Q i) ≤ omega := fun i => by
    have h0 := quatVec_sq_le Q 0
    have h1 := quatVec_sq_le Q 1
    have h2 := quatVec_sq_le Q 2
    fin_cases i
    · exact (mul_le_mul_of_nonneg_left h0 (by norm_num)).trans hO
    · exact (mul_le_mul_of_nonneg_left h1 (by norm_num)).trans hO
    · exact (mul_le_mul_of_nonneg_left h2 (by norm_num)).trans hO
  have hv0 : quatIm Q ≠ 0 := fun h => hv (by
    rw [← euc_eq_zero, ← quatIm_norm, h, euc_eq_zero]; funext i; simp)
  obtain ⟨y, hy, hyf⟩ := C55_finite vF (quatIm Q) hvH hnv hOv
  obtain ⟨y', hy', hacc⟩ := C55_magnitude φ hφ vF (quatIm Q) hvH hnv
  obtain rfl : y' = y := Option.some.inj (hy'.symm.trans hy)
  obtain ⟨m, hm⟩ := hyf
  obtain ⟨-, hmr⟩ := hacc m hm
  obtain ⟨mp, N, hN, hNc, -⟩ := unit_close φ hφ (c := 3) (by norm_num) (by norm_num) (fun i : Fin 3 => vF.val[i]) (quatIm Q)
    (fun i => (hvH i).1) hv0 hm (by exact_mod_cast hmr)
  rw [quatIm_norm] at hNc
  have e5 : ((3 : ℕ) : ℝ) + 2 = 5 := by norm_num
  rw [e5] at hNc
  set n : Fin 3 → ℝ := fun i => φ (quatIm Q i) / euc (vecQ H) with hnn
  have hn1 : euc n = 1 := by
    have : n = (euc (vecQ H))⁻¹ • vecQ H := by
      funext i; rw [Pi.smul_apply, smul_eq_mul, ← div_eq_inv_mul]; fin_cases i <;> rfl
    rw [this, euc_smul, abs_of_pos (inv_pos.mpr vp), inv_mul_cancel₀ vp.ne']
  have hni : ∀ i, |n i| ≤ 1 := fun i => (euc_coord n i).trans hn1.le
  have hye : Fl.sqrt (q.x * q.x + q.y * q.y + q.z * q.z) = y' := Option.some.inj hy
  rw [hye]
  refine ⟨?_, N, n, fun i => ?_, rfl, hn1, hni, hNc⟩
  · rcases hm.kcases with e | ⟨-, e⟩
    · rw [e, Fl.zero_def]; simp only [Fl.feq, Fl.le, Bool.and_eq_false_iff, decide_eq_false_iff_not]
      by_contra h; push Not at h
      exact mp.ne' (le_antisymm h.1 h.2)
    · exact absurd e mp.ne'
  · have := hN i
    fin_cases i <;> exact this

include hφ in
/-- the length and the angle -/
theorem pow_angle {δ : ℝ} (L : AccLibm K φ δ) (hδ : δ ≤ 1 / 16) (q : Quat (Fl K)) (Q : ℍ[K]) (hq : q.Holds Q)
    (hn : ∀ i, quatVec Q i = 0 ∨ nu ≤ quatVec Q i * quatVec Q i) (hO : 8 * normSq Q ≤ omega) (he : (eta : K) ≤ u) (hv : vecQ (toH φ Q) ≠ 0)
    (s : ℝ) (sp : 0 < s) (hs : s = euc (vecQ (toH φ Q)) / ‖toH φ Q‖) (s0 : 16 * φ u ≤ s ^ 2) :
    ∃ l a, q.length.Is l ∧ 0 < φ l ∧ |φ l - ‖toH φ Q‖| ≤ 4 * φ u * ‖toH φ Q‖ ∧ (Libm.acos (q.w / q.length)).Holds a ∧ |φ a| ≤ 4 ∧
      |φ a - Real.arccos ((toH φ Q).re / ‖toH φ Q‖)| ≤ δ + 22 * (φ u / s) := by
  obtain ⟨hu, hul, heta⟩ := phi_u φ hφ
  have he' : φ eta ≤ φ u := hφ.monotone he
  have toK : ∀ {a b : K}, φ a ≤ φ b → a ≤ b := fun h => hφ.le_iff_le.mp h
  set H := toH φ Q with hH
  have lp := norm_pos_of_vec hv
  have vp := euc_pos hv
  -- the length
  have hl2 := quatVec_norm φ Q
  obtain ⟨w, hw, hwn⟩ := norm_near q Q hq hn (by
    have := hO; have h0 : 0 ≤ normSq Q := by rw [Quaternion.normSq_def']; positivity
    linarith)
  obtain ⟨l, hl⟩ : ∃ l, q.length.Is l := Fl.sqrt_fin hw hwn.pos (by
    have h1 := hwn.upper
    have h0 : 0 ≤ normSq Q := by rw [Quaternion.normSq_def']; positivity
    have h4 : (1 + u : K) ^ 4 ≤ (65 / 64) ^ 4 := pow_le_pow_left₀ (by linarith [u_pos (K := K)]) (by linarith [u_le (K := K)]) 4
    have h5 := mul_le_mul_of_nonneg_right h4 h0
    have : ((65 / 64) ^ 4 : K) * normSq Q ≤ 8 * normSq Q := mul_le_mul_of_nonneg_right (by norm_num) h0
    linarith)
  obtain ⟨-, hlr⟩ := C59_length φ hφ q Q hq hn l hl
  rw [hl2, ← hH] at hlr
  have lpos : 0 < φ l := by
    have := (abs_le.mp hlr).1
    have : 4 * φ u * ‖H‖ ≤ 4 * (1 / 64) * ‖H‖ := by gcongr
    linarith
  have lK : 0 < l := by rw [← hφ.lt_iff_lt, map_zero]; exact lpos
  -- the cosine of the angle
  have hre1 := re_div_bounds hv
  have hre : |H.re / ‖H‖| ≤ 1 := abs_le.mpr hre1
  have hlL : 15 / 16 * ‖H‖ ≤ φ l := by
    have := (abs_le.mp hlr).1
    have : 4 * φ u * ‖H‖ ≤ 4 * (1 / 64) * ‖H‖ := by gcongr
    linarith
  have hreL : |H.re| ≤ ‖H‖ := by rwa [abs_div, abs_of_pos lp, div_le_one lp] at hre
  obtain ⟨d, hd⟩ := Fl.div_fin hq.2.2.2.1 hl lK.ne' (toK (by
    rw [map_abs_mono φ hφ, map_div₀]
    have h4 := hφ.monotone (four_le (K := K))
    rw [map_ofNat] at h4
    refine le_trans ?_ h4
    rw [abs_div, abs_of_pos lpos, div_le_iff₀ lpos]
    show |H.re| ≤ _
    linarith))
  have de := hφ.monotone (Fl.div_err hq.2.2.2.1 hl lK.ne' hd)
  rw [map_abs_mono φ hφ, map_sub, map_add, map_mul, map_abs_mono φ hφ, map_div₀] at de
  have de' : |φ d - H.re / ‖H‖| ≤ 6 * φ u * |H.re / ‖H‖| + φ eta := by
    have := quot_err (a := H.re) (c := 4) lp hu (by push_cast; linarith) (by exact_mod_cast hlr) de
    have e6 : ((4 : ℕ) : ℝ) + 2 = 6 := by norm_num
    rwa [e6] at this
  have hcos : |H.re / ‖H‖| ≤ 1 - 8 * φ u := by
    apply abs_le_of_sq_le_sq _ (by linarith)
    have e1 := vecQ_sq H
    have e2 := Quat.normSq_eq H
    have e3 : (H.re / ‖H‖) ^ 2 = 1 - s ^ 2 := by rw [hs]; field_simp; linarith
    rw [e3]
    nlinarith
  have d1 : |φ d| ≤ 1 := by
    have h := abs_add_le (φ d - H.re / ‖H‖) (H.re / ‖H‖)
    rw [sub_add_cancel] at h
    have : 6 * φ u * |H.re / ‖H‖| ≤ 6 * φ u * 1 := mul_le_mul_of_nonneg_left hre (by positivity)
    linarith
  have d7 : |φ d - H.re / ‖H‖| ≤ 7 * φ u := by
    have : 6 * φ u * |H.re / ‖H‖| ≤ 6 * φ u * 1 := mul_le_mul_of_nonneg_left hre (by positivity)
    linarith
  -- the angle
  obtain ⟨a, ha, hae⟩ := L.acos _ _ ⟨hd, Fl.wf_div _ _⟩ d1
  set α := Real.arccos (H.re / ‖H‖) with hα
  have hac := arccos_close d1 hre sp (by rw [← hα, hα, sin_angle hv, hs]) d7
  have aE : |φ a - α| ≤ δ + 22 * (φ u / s) := by
    have := abs_sub_le (φ a) (Real.arccos (φ d)) α
    have e : 22 / 7 * (7 * φ u) / s = 22 * (φ u / s) := by ring
    linarith
  have us : φ u / s ≤ 1 / 32 := by
    rw [div_le_iff₀ sp]
    have : (4 * φ u) ^ 2 ≤ (1 / 8 * s) ^ 2 := by nlinarith
    have := le_of_sq_le_sq this (by positivity)
    linarith
  have a4 : |φ a| ≤ 4 := by
    have h := abs_add_le (φ a - α) α
    rw [sub_add_cancel, abs_of_nonneg (Real.arccos_nonneg _)] at h
    have := Real.arccos_le_pi (H.re / ‖H‖)
    have := Real.pi_lt_d4
    linarith
  exact ⟨l, a, hl, lpos, hlr, ha, a4, aE⟩

include hφ in
/-- C89: `pow` of a quaternion in range succeeds, and the result is within `(5 + 2|x|) δ + (75 |x| / s + 20) u` (relative) of the exact
power `|Q|^x (cos xα + n sin xα)`, where `α` is the angle of `Q` and `s = sin α`, the length of the vector part relative to `|Q|`, is at
least `4√u`. -/
theorem C89_pow {δ : ℝ} (L : AccLibm K φ δ) (LP : AccPow K φ δ) (q : Quat (Fl K)) (Q : ℍ[K]) (hq : q.Holds Q)
    (hn : ∀ i, quatVec Q i = 0 ∨ nu ≤ quatVec Q i * quatVec Q i) (hO : 8 * normSq Q ≤ omega) (t : Fl K) (T : K) (ht : t.Holds T)
    (hT : 4 * |T| ≤ omega) (he : (eta : K) ≤ u) (s : ℝ) (hs : s = euc (vecQ (toH φ Q)) / ‖toH φ Q‖) (s0 : 16 * φ u ≤ s ^ 2)
    (hlo : 2 * φ eta ≤ φ u * ‖toH φ Q‖ ^ φ T) (hhi : 2 * ‖toH φ Q‖ ^ φ T ≤ φ omega)
    (hE : (5 + 2 * |φ T|) * δ + (75 * |φ T| / s + 20) * φ u ≤ 1 / 16) :
    ∃ r R, q.pow t = .ok r ∧ r.Holds R ∧
      ‖toH φ R - powQ (toH φ Q) (φ T)‖ ≤ ‖toH φ Q‖ ^ φ T * ((5 + 2 * |φ T|) * δ + (75 * |φ T| / s + 20) * φ u) := by
  obtain ⟨hu, hul, heta⟩ := phi_u φ hφ
  have he' : φ eta ≤ φ u := hφ.monotone he
  have toK : ∀ {a b : K}, φ a ≤ φ b → a ≤ b := fun h => hφ.le_iff_le.mp h
  set H := toH φ Q with hH
  have sp : 0 < s := by
    have s00 : 0 ≤ s := by rw [hs]; exact div_nonneg (euc_nonneg _) (norm_nonneg _)
    rcases s00.lt_or_eq with h | h
    · exact h
    · rw [← h] at s0; norm_num at s0; linarith
  have hv : vecQ H ≠ 0 := fun h => by
    rw [(euc_eq_zero _).mpr h, zero_div] at hs; linarith
  have lp := norm_pos_of_vec hv
  have vp := euc_pos hv
  set x := φ T with hx
  set c := ‖H‖ ^ x with hc
  have cp : 0 < c := Real.rpow_pos_of_pos lp x
  -- smallness
  have s1 : s ≤ 1 := by
    rw [hs, div_le_one lp]
    have e1 := vecQ_sq H
    have e2 := Quat.normSq_eq H
    apply le_of_sq_le_sq _ lp.le
    nlinarith [mul_self_nonneg H.re]
  obtain ⟨p0, hp0, hpe0⟩ := L.pi
  have hδ : 0 ≤ δ := (abs_nonneg _).trans hpe0
  have xs : |x| * φ u ≤ |x| * φ u / s := by rw [le_div_iff₀ sp]; exact mul_le_of_le_one_right (by positivity) s1
  have xs' : 75 * |x| / s * φ u = 75 * (|x| * φ u / s) := by ring
  have hxu0 : 0 ≤ |x| * φ u := by positivity
  have hxδ : 0 ≤ |x| * δ := by positivity
  have hxs0 : 0 ≤ |x| * φ u / s := by positivity
  have hκ : δ + 10 * (|x| * φ u) ≤ 1 / 16 := by linarith
  have hD : δ + |x| * δ + 26 * (|x| * φ u / s) + φ u ≤ 1 / 16 := by linarith
  have hδ1 : δ ≤ 1 / 16 := by linarith
  obtain ⟨hf, N, n, hN, hnn, hn1, hni, hNc⟩ := vec_dir φ hφ q Q hq hn hO hv
  obtain ⟨l, a, hl, lpos, hlr, ha, a4, aE⟩ := pow_angle φ hφ L hδ1 q Q hq hn hO he hv s sp hs s0
  rw [← hH] at hlr aE
  set α := Real.arccos (H.re / ‖H‖) with hα
  obtain ⟨-, hpow⟩ := rpow_close (x := x) lp hu hul hlr (by linarith only [hκ, hδ, hxu0])
  have a4K : |a| ≤ 4 := toK (by rw [map_abs_mono φ hφ, map_ofNat]; exact a4)
  obtain ⟨b, hb⟩ := Fl.mul_fin ht.1 ha.1 (by
    rw [abs_mul]
    have := mul_le_mul_of_nonneg_left a4K (abs_nonneg T)
    linarith)
  have hbe := hφ.monotone (Fl.mul_err ht.1 ha.1 hb)
  rw [map_abs_mono φ hφ, map_sub, map_add, map_mul, map_mul, map_abs_mono φ hφ, map_mul, abs_mul, ← hx] at hbe
  have bE : |φ b - x * α| ≤ |x| * δ + 26 * (|x| * φ u / s) + φ u := by
    have h := abs_sub_le (φ b) (x * φ a) (x * α)
    rw [← mul_sub, abs_mul] at h
    have h1 := mul_le_mul_of_nonneg_left aE (abs_nonneg x)
    have h2 : φ u * (|x| * |φ a|) ≤ φ u * (|x| * 4) := by gcongr
    have e : |x| * (22 * (φ u / s)) = 22 * (|x| * φ u / s) := by ring
    linarith
  have hbH : (t * Libm.acos (q.w / q.length)).Holds b := ⟨hb, Fl.wf_mul _ _⟩
  obtain ⟨S, hS, hSe⟩ := L.sin _ _ hbH
  obtain ⟨C, hC, hCe⟩ := L.cos _ _ hbH
  have sE : |φ S - Real.sin (x * α)| ≤ δ + |x| * δ + 26 * (|x| * φ u / s) + φ u := by
    have := abs_sub_le (φ S) (Real.sin (φ b)) (Real.sin (x * α))
    linarith [Real.abs_sin_sub_sin_le (φ b) (x * α)]
  have cE : |φ C - Real.cos (x * α)| ≤ δ + |x| * δ + 26 * (|x| * φ u / s) + φ u := by
    have := abs_sub_le (φ C) (Real.cos (φ b)) (Real.cos (x * α))
    linarith [Real.abs_cos_sub_cos_le (φ b) (x * α)]
  -- the coefficient
  have h9 : 9 * (|x| * φ u) * c ≤ 1 / 16 * c := mul_le_mul_of_nonneg_right (by linarith) cp.le
  obtain ⟨w1, w2⟩ := abs_le.mp hpow
  obtain ⟨P, hP, hPe⟩ := LP.powf q.length t l T ⟨hl, Fl.wf_sqrt _⟩ ht lpos (by
    have : φ u * (15 / 16 * c) ≤ φ u * φ l ^ x := mul_le_mul_of_nonneg_left (by linarith) hu.le
    have : 0 ≤ φ u * c := by positivity
    linarith) (by linarith)
  have PE : |φ P - c| ≤ (δ + 10 * (|x| * φ u)) * c := by
    have h := abs_sub_le (φ P) (φ l ^ x) c
    have h1 : δ * φ l ^ x ≤ δ * (c + 9 * (|x| * φ u) * c) := mul_le_mul_of_nonneg_left (by linarith) hδ
    have h2 : δ * (9 * (|x| * φ u) * c) ≤ 1 / 16 * (9 * (|x| * φ u) * c) := mul_le_mul_of_nonneg_right (by linarith) (by positivity)
    have : 0 ≤ |x| * φ u * c := by positivity
    linarith
  -- bounds against overflow
  have P1 : |φ P| ≤ 17 / 16 * c := by
    have h := abs_add_le (φ P - c) c
    rw [sub_add_cancel, abs_of_pos cp] at h
    have := mul_le_mul_of_nonneg_right hκ cp.le
    linarith
  have S1 : |φ S| ≤ 17 / 16 := by
    have h := abs_add_le (φ S - Real.sin (x * α)) (Real.sin (x * α))
    rw [sub_add_cancel] at h
    linarith [Real.abs_sin_le_one (x * α)]
  have C1 : |φ C| ≤ 17 / 16 := by
    have h := abs_add_le (φ C - Real.cos (x * α)) (Real.cos (x * α))
    rw [sub_add_cancel] at h
    linarith [Real.abs_cos_le_one (x * α)]
  have N1 : ∀ i, |φ (N i)| ≤ 9 / 8 := fun i => by
    have h := abs_add_le (φ (N i) - n i) (n i)
    rw [sub_add_cancel] at h
    have : 5 * φ u * |n i| ≤ 5 * φ u * 1 := mul_le_mul_of_nonneg_left (hni i) (by positivity)
    linarith [hNc i, hni i]
  have comp : ∀ i : Fin 3, ∃ R, (Libm.powf q.length t * ((![q.x, q.y, q.z] : Fin 3 → Fl K) i / Fl.sqrt (q.x * q.x + q.y * q.y + q.z * q.z)) * Libm.sin (t * Libm.acos (q.w / q.length))).Holds R ∧
      |φ R - c * n i * Real.sin (x * α)| ≤ c * ((6 / 5 * (δ + 10 * (|x| * φ u)) + (δ + |x| * δ + 26 * (|x| * φ u / s) + φ u) + 9 * φ u) * |n i| + 3 * φ u) := fun i => by
    have pn : |φ P * φ (N i)| ≤ 17 / 16 * c * (9 / 8) := by
      rw [abs_mul]; exact mul_le_mul P1 (N1 i) (abs_nonneg _) (by positivity)
    obtain ⟨A, hA⟩ := Fl.mul_fin hP.1 (hN i) (toK (by rw [map_abs_mono φ hφ, map_mul]; linarith))
    have hAe := hφ.monotone (Fl.mul_err hP.1 (hN i) hA)
    rw [map_abs_mono φ hφ, map_sub, map_add, map_mul, map_mul, map_abs_mono φ hφ, map_mul] at hAe
    have hA1 : |φ A| ≤ 5 / 4 * c := by
      have h := abs_add_le (φ A - φ P * φ (N i)) (φ P * φ (N i))
      rw [sub_add_cancel] at h
      have h1 : φ u * |φ P * φ (N i)| ≤ 1 / 64 * (17 / 16 * c * (9 / 8)) := mul_le_mul hul pn (abs_nonneg _) (by norm_num)
      have h2 : φ u * c ≤ 1 / 64 * c := by gcongr
      linarith
    obtain ⟨R, hR⟩ := Fl.mul_fin hA hS.1 (toK (by
      rw [map_abs_mono φ hφ, map_mul, abs_mul]
      have : |φ A| * |φ S| ≤ 5 / 4 * c * (17 / 16) := mul_le_mul hA1 S1 (abs_nonneg _) (by positivity)
      linarith))
    have hRe := hφ.monotone (Fl.mul_err hA hS.1 hR)
    rw [map_abs_mono φ hφ, map_sub, map_add, map_mul, map_mul, map_abs_mono φ hφ, map_mul] at hRe
    exact ⟨R, ⟨hR, Fl.wf_mul _ _⟩, pow_comp hu hul heta.le he' cp hlo hκ hD (Real.abs_sin_le_one _) PE (hNc i) sE hAe hRe⟩
  obtain ⟨R0, k0, r0⟩ := comp 0
  obtain ⟨R1, k1, r1⟩ := comp 1
  obtain ⟨R2, k2, r2⟩ := comp 2
  obtain ⟨W, hW⟩ := Fl.mul_fin hP.1 hC.1 (toK (by
    rw [map_abs_mono φ hφ, map_mul, abs_mul]
    have : |φ P| * |φ C| ≤ 17 / 16 * c * (17 / 16) := mul_le_mul P1 C1 (abs_nonneg _) (by positivity)
    linarith))
  have hWe := hφ.monotone (Fl.mul_err hP.1 hC.1 hW)
  rw [map_abs_mono φ hφ, map_sub, map_add, map_mul, map_mul, map_abs_mono φ hφ, map_mul] at hWe
  have rw' := pow_re hu cp hlo hκ hD (Real.abs_cos_le_one (x * α)) PE cE hWe
  refine ⟨⟨Libm.powf q.length t * (q.x / Fl.sqrt (q.x * q.x + q.y * q.y + q.z * q.z)) * Libm.sin (t * Libm.acos (q.w / q.length)),
    Libm.powf q.length t * (q.y / Fl.sqrt (q.x * q.x + q.y * q.y + q.z * q.z)) * Libm.sin (t * Libm.acos (q.w / q.length)),
    Libm.powf q.length t * (q.z / Fl.sqrt (q.x * q.x + q.y * q.y + q.z * q.z)) * Libm.sin (t * Libm.acos (q.w / q.length)),
    Libm.powf q.length t * Libm.cos (t * Libm.acos (q.w / q.length))⟩, ⟨W, R0, R1, R2⟩, ?_, ⟨k0, k1, k2, hW, Fl.wf_mul _ _⟩, ?_⟩
  · unfold Quat.pow
    dsimp only
    rw [hf]; rfl
  · subst hnn
    have dist : ∀ a n e : ℝ, c * (a * n + e) = c * a * n + c * e := fun a n e => by ring
    have key := quat_split (X := toH φ (⟨W, R0, R1, R2⟩ : ℍ[K]) - powQ H x) hn1
      (a := c * (6 / 5 * (δ + 10 * (|x| * φ u)) + (δ + |x| * δ + 26 * (|x| * φ u / s) + φ u) + 9 * φ u)) (e := c * (3 * φ u))
      (by positivity) (by positivity) (r0.trans_eq (dist _ _ _)) (r1.trans_eq (dist _ _ _)) (r2.trans_eq (dist _ _ _)) rw'
    refine key.trans ?_
    have : c * (6 / 5 * (δ + 10 * (|x| * φ u)) + (δ + |x| * δ + 26 * (|x| * φ u / s) + φ u) + 9 * φ u) + 2 * (c * (3 * φ u)) +
        c * (17 / 16 * (δ + 10 * (|x| * φ u)) + (δ + |x| * δ + 26 * (|x| * φ u / s) + φ u) + 2 * φ u) =
        c * (6 / 5 * (δ + 10 * (|x| * φ u)) + (δ + |x| * δ + 26 * (|x| * φ u / s) + φ u) + 9 * φ u + 6 * φ u +
          (17 / 16 * (δ + 10 * (|x| * φ u)) + (δ + |x| * δ + 26 * (|x| * φ u / s) + φ u) + 2 * φ u)) := by ring
    rw [this]
    apply mul_le_mul_of_nonneg_left _ cp.le
    have e : (5 + 2 * |x|) * δ + (75 * |x| / s + 20) * φ u = 5 * δ + 2 * (|x| * δ) + 75 * (|x| * φ u / s) + 20 * φ u := by ring
    rw [e]
    linarith

include hφ in
/-- C89: under the same hypotheses the norm of the result is `|Q|^x`, the power with a natural exponent `n` is the `n`-fold product and
the power with exponent `-1` is the inverse, up to the same relative error. -/
theorem C89_laws {δ : ℝ} (L : AccLibm K φ δ) (LP : AccPow K φ δ) (q : Quat (Fl K)) (Q : ℍ[K]) (hq : q.Holds Q)
    (hn : ∀ i, quatVec Q i = 0 ∨ nu ≤ quatVec Q i * quatVec Q i) (hO : 8 * normSq Q ≤ omega) (t : Fl K) (T : K) (ht : t.Holds T)
    (hT : 4 * |T| ≤ omega) (he : (eta : K) ≤ u) (s : ℝ) (hs : s = euc (vecQ (toH φ Q)) / ‖toH φ Q‖) (s0 : 16 * φ u ≤ s ^ 2)
    (hlo : 2 * φ eta ≤ φ u * ‖toH φ Q‖ ^ φ T) (hhi : 2 * ‖toH φ Q‖ ^ φ T ≤ φ omega) (E : ℝ)
    (hEE : E = (5 + 2 * |φ T|) * δ + (75 * |φ T| / s + 20) * φ u) (hE : E ≤ 1 / 16) :
    ∃ r R, q.pow t = .ok r ∧ r.Holds R ∧ |‖toH φ R‖ - ‖toH φ Q‖ ^ φ T| ≤ ‖toH φ Q‖ ^ φ T * E ∧
      (∀ n : ℕ, T = n → ‖toH φ R - toH φ Q ^ n‖ ≤ ‖toH φ Q‖ ^ n * E) ∧
      (T = -1 → ‖toH φ R - (toH φ Q)⁻¹‖ ≤ ‖toH φ Q‖⁻¹ * E) := by
  subst hEE
  obtain ⟨r, R, e, hr, h⟩ := C89_pow φ hφ L LP q Q hq hn hO t T ht hT he s hs s0 hlo hhi hE
  have hv : vecQ (toH φ Q) ≠ 0 := fun h => by
    rw [(euc_eq_zero _).mpr h, zero_div] at hs
    rw [hs] at s0
    have := (phi_u φ hφ).1
    norm_num at s0; linarith
  refine ⟨r, R, e, hr, ?_, fun n hT => ?_, fun hT => ?_⟩
  · have := abs_norm_sub_norm_le (toH φ R) (powQ (toH φ Q) (φ T))
    rw [powQ_norm hv] at this
    exact this.trans h
  · have e : φ T = n := by rw [hT, map_natCast]
    rw [e] at h ⊢
    rw [powQ_nat hv] at h
    rwa [Real.rpow_natCast] at h
  · have e : φ T = -1 := by rw [hT, map_neg, map_one]
    rw [e] at h ⊢
    have h1 := powQ_add hv (-1) 1
    rw [powQ_one hv, neg_add_cancel, powQ_zero] at h1
    rw [eq_inv_of_mul_eq_one_left h1.symm, Real.rpow_neg_one] at h
    exact h

end main

section cases

/-- every positive real in the normal range has a datum nearby, relatively -/
theorem near_rel64 (r : ℝ) (h0 : 0 < r) (hlo : BinQ.real (eta : Q64) ≤ BinQ.real (u : Q64) * r) (hhi : r ≤ BinQ.real (omega : Q64)) :
    ∃ x : Fl Q64, ∃ c : Q64, x.Holds c ∧ |BinQ.real c - r| ≤ 2 ^ (-49 : ℤ) * r := by
  have eu : BinQ.real (u : Q64) = 2 ^ (-53 : ℤ) := by rw [C55_constants.1]; exact Rat.cast_zpow _ _ |>.trans (by norm_num)
  have hp : (0 : ℝ) < 2 ^ (-53 : ℤ) := by positivity
  have hs : (2 : ℝ) ^ (-53 : ℤ) ≤ 1 / 2 := (zpow_le_zpow_right₀ (by norm_num) (show (-53 : ℤ) ≤ -1 by norm_num)).trans (by norm_num)
  have hpr : 0 < (2 : ℝ) ^ (-53 : ℤ) * r := by positivity
  obtain ⟨q, h1, h2⟩ := exists_rat_btwn (show r - 2 ^ (-53 : ℤ) * r < r by linarith)
  have hr2 : (2 : ℝ) ^ (-53 : ℤ) * r ≤ 1 / 2 * r := mul_le_mul_of_nonneg_right hs h0.le
  have hq0 : (0 : ℝ) < q := by
    have : 0 ≤ r - 2 ^ (-53 : ℤ) * r := sub_nonneg.mpr (hr2.trans (by linarith only [h0]))
    exact lt_of_le_of_lt this h1
  let v : Q64 := (q : ℚ)
  have hv0 : (0 : Q64) < v := by show (0 : ℚ) < q; exact_mod_cast hq0
  have ev : BinQ.real v = (q : ℝ) := rfl
  have hvo : |v| ≤ omega := by
    rw [abs_of_pos hv0, ← BinQ.real_strictMono.le_iff_le, ev]; exact h2.le.trans hhi
  obtain ⟨c, hc⟩ := rnd_fin (K := Q64) v hvo
  refine ⟨_, c, ⟨(by rw [Fl.lit_of_ne hv0.ne']; exact hc : (Fl.lit v : Fl Q64).Is c), Fl.wf_lit _⟩, ?_⟩
  have h3 := BinQ.real_strictMono.monotone (rnd_err v c hc)
  rw [map_abs_mono BinQ.real BinQ.real_strictMono, map_sub, map_add, map_mul, map_abs_mono BinQ.real BinQ.real_strictMono, eu, ev,
    abs_of_pos hq0] at h3
  rw [eu] at hlo
  have h4 : (2 : ℝ) ^ (-53 : ℤ) * q ≤ 2 ^ (-53 : ℤ) * r := mul_le_mul_of_nonneg_left h2.le hp.le
  have h5 := abs_sub_le (BinQ.real c) (q : ℝ) r
  rw [abs_of_neg (show (q : ℝ) - r < 0 by linarith)] at h5
  have e : (2 : ℝ) ^ (-49 : ℤ) * r = 16 * (2 ^ (-53 : ℤ) * r) := by rw [show (2 : ℝ) ^ (-49 : ℤ) = 16 * 2 ^ (-53 : ℤ) by norm_num]; ring
  rw [e]; linarith

open Classical in
/-- a choice of such a datum -/
noncomputable def pickRel64 (r : ℝ) : Fl Q64 :=
  if h : 0 < r ∧ BinQ.real (eta : Q64) ≤ BinQ.real (u : Q64) * r ∧ r ≤ BinQ.real (omega : Q64) then (near_rel64 r h.1 h.2.1 h.2.2).choose else .nan

/-- a library with accurate powers -/
@[reducible] noncomputable def powLibm64 : Libm Q64 :=
  { accLibm64 with powf := fun x y => match x.val, y.val with | some a, some b => pickRel64 (BinQ.real a ^ BinQ.real b) | _, _ => .nan }

attribute [local instance] powLibm64

theorem powLibm64_acc : AccLibm Q64 BinQ.real (2 ^ (-49 : ℤ)) :=
  have h := @accLibm64_acc
  ⟨@AccLibm.sin _ _ _ _ accLibm64 _ _ h, @AccLibm.cos _ _ _ _ accLibm64 _ _ h, @AccLibm.acos _ _ _ _ accLibm64 _ _ h,
    @AccLibm.atan2 _ _ _ _ accLibm64 _ _ h, @AccLibm.pi _ _ _ _ accLibm64 _ _ h⟩

theorem powLibm64_pow : AccPow Q64 BinQ.real (2 ^ (-49 : ℤ)) where
  powf x y a b hx hy ha hlo hhi := by
    have e : Libm.powf x y = pickRel64 (BinQ.real a ^ BinQ.real b) := by
      show (match x.val, y.val with | some a, some b => pickRel64 (BinQ.real a ^ BinQ.real b) | _, _ => .nan) = _
      rw [show x.val = some a from hx.1, show y.val = some b from hy.1]
    have h : 0 < BinQ.real a ^ BinQ.real b ∧ BinQ.real (eta : Q64) ≤ BinQ.real (u : Q64) * BinQ.real a ^ BinQ.real b ∧
        BinQ.real a ^ BinQ.real b ≤ BinQ.real (omega : Q64) := ⟨Real.rpow_pos_of_pos ha _, hlo, hhi⟩
    rw [e]
    unfold pickRel64
    rw [dif_pos h]
    exact (near_rel64 _ h.1 h.2.1 h.2.2).choose_spec


theorem H1111_lo (i : Fin 4) : quatVec H1111 i = 0 ∨ nu ≤ quatVec H1111 i * quatVec H1111 i := .inr (by
  have h : quatVec H1111 i * quatVec H1111 i = 1 / 4 := by fin_cases i <;> simp [quatVec, H1111] <;> norm_num
  rw [h]; exact nu64.trans (by norm_num))

theorem H1111_vec : euc (vecQ (toH BinQ.real H1111)) / ‖toH BinQ.real H1111‖ = √3 / 2 := by
  rw [norm1111, div_one, euc_eq, Fin.sum_univ_three]
  simp only [vecQ, toH, H1111, map_div₀, map_one, map_ofNat, map_neg]
  rw [show (√3 / 2 : ℝ) = √(3 / 4) by rw [Real.sqrt_div (by norm_num), show (4 : ℝ) = 2 ^ 2 by norm_num, Real.sqrt_sq (by norm_num)]]
  congr 1
  simp only [Matrix.cons_val]
  norm_num

theorem H1111_big : 8 * normSq H1111 ≤ (omega : Q64) := by
  rw [Quaternion.normSq_def']
  have h : (8 * (H1111.re ^ 2 + H1111.imI ^ 2 + H1111.imJ ^ 2 + H1111.imK ^ 2) : Q64) = 8 := by simp only [H1111]; norm_num
  rw [h]; exact le_trans (by norm_num) omega64

theorem H1111_sin : 16 * BinQ.real (u : Q64) ≤ (√3 / 2) ^ 2 := by
  have := real_u15
  rw [div_pow, Real.sq_sqrt (by norm_num)]; linarith

theorem H1111_pow_lo (x : ℝ) : 2 * BinQ.real (eta : Q64) ≤ BinQ.real (u : Q64) * ‖toH BinQ.real H1111‖ ^ x := by
  rw [norm1111, Real.one_rpow, mul_one]
  have h : 2 * (eta : Q64) ≤ u := by
    rw [C55_constants.1, C55_constants.2.1]
    have := eta_1024
    have h0 : (0 : ℚ) < 2 ^ (-1075 : ℤ) := by positivity
    show 2 * (2 : ℚ) ^ (-1075 : ℤ) ≤ 2 ^ (-53 : ℤ)
    linarith
  have := BinQ.real_strictMono.monotone h
  rwa [map_mul, map_ofNat] at this

theorem H1111_pow_hi (x : ℝ) : 2 * ‖toH BinQ.real H1111‖ ^ x ≤ BinQ.real (omega : Q64) := by
  rw [norm1111, Real.one_rpow, mul_one]
  have := BinQ.real_strictMono.monotone omega64
  rw [map_pow, map_ofNat] at this
  linarith

theorem H1111_err {x : ℝ} (hx : |x| ≤ 1) : (5 + 2 * |x|) * 2 ^ (-49 : ℤ) + (75 * |x| / (√3 / 2) + 20) * BinQ.real (u : Q64) ≤ 1 / 16 := by
  have h1 := real_u15
  have h0 := (phi_u (K := Q64) BinQ.real BinQ.real_strictMono).1
  have h3 : (1 : ℝ) ≤ √3 := Real.one_le_sqrt.mpr (by norm_num)
  have h4 : 75 * |x| / (√3 / 2) ≤ 150 := by
    rw [div_le_iff₀ (by positivity)]; linarith
  have h5 : (75 * |x| / (√3 / 2) + 20) * BinQ.real (u : Q64) ≤ 170 * (1 / 10 ^ 15) := mul_le_mul (by linarith) h1 h0.le (by norm_num)
  have h6 : (5 + 2 * |x|) * (2 : ℝ) ^ (-49 : ℤ) ≤ 7 * 2 ^ (-49 : ℤ) := mul_le_mul_of_nonneg_right (by linarith) (by positivity)
  have h7 : (7 : ℝ) * 2 ^ (-49 : ℤ) + 170 * (1 / 10 ^ 15) ≤ 1 / 16 := by norm_num
  exact (add_le_add h6 h5).trans h7

/-- concrete case: the fourth root of `(1 + i - j + k)/2` -/
example := C89_pow BinQ.real BinQ.real_strictMono powLibm64_acc powLibm64_pow q1111 H1111 q1111_holds H1111_lo H1111_big
  (.fin (1 / 4)) (1 / 4) ⟨rfl, .inr (by decide +kernel)⟩ (le_trans (by norm_num) omega64) eta_u (√3 / 2) H1111_vec.symm H1111_sin
  (H1111_pow_lo _) (H1111_pow_hi _) (H1111_err (by rw [map_div₀, map_one, map_ofNat]; norm_num))

/-- concrete case: the power with exponent -1 -/
example := C89_laws BinQ.real BinQ.real_strictMono powLibm64_acc powLibm64_pow q1111 H1111 q1111_holds H1111_lo H1111_big
  (.fin (-1)) (-1) ⟨rfl, .inr (by decide +kernel)⟩ (le_trans (by norm_num) omega64) eta_u (√3 / 2) H1111_vec.symm H1111_sin
  (H1111_pow_lo _) (H1111_pow_hi _) _ rfl (H1111_err (by rw [map_neg, map_one, abs_neg, abs_one]))

end cases

section tiny

/-- a quaternion that turns by `2^-29` -/
def qTiny : Quat (Fl Q64) := ⟨.fin (1 / 2 ^ 30), .fin 0, .fin 0, .fin 1⟩
def HTiny : ℍ[Q64] := ⟨1, 1 / 2 ^ 30, 0, 0⟩
theorem qTiny_holds : qTiny.Holds HTiny :=
  ⟨⟨rfl, .inr (by decide +kernel)⟩, ⟨rfl, .inl rfl⟩, ⟨rfl, .inl rfl⟩, one64⟩
theorem qTiny_len : qTiny.length = .fin 1 := by decide +kernel
theorem qTiny_vec : Fl.sqrt (qTiny.x * qTiny.x + qTiny.y * qTiny.y + qTiny.z * qTiny.z) = .fin (1 / 2 ^ 30) := by decide +kernel
theorem qTiny_ne : Fl.feq (.fin (1 / 2 ^ 30) : Fl Q64) 0 = false := by decide +kernel
theorem qTiny_x : qTiny.x / .fin (1 / 2 ^ 30) = .fin 1 := by decide +kernel
theorem qTiny_y : qTiny.y / .fin (1 / 2 ^ 30) = .fin 0 := by decide +kernel
theorem qTiny_z : qTiny.z / .fin (1 / 2 ^ 30) = .fin 0 := by decide +kernel
theorem qTiny_w : qTiny.w / .fin 1 = .fin 1 := by decide +kernel


theorem HTiny_lo (i : Fin 4) : quatVec HTiny i = 0 ∨ nu ≤ quatVec HTiny i * quatVec HTiny i := by
  have h : (nu : Q64) ≤ 1 / 2 ^ 30 * (1 / 2 ^ 30) := by
    rw [C55_constants.2.2.1]
    have k : (2 : ℚ) ^ (-1022 : ℤ) ≤ 1 / 2 ^ 30 * (1 / 2 ^ 30) :=
      (zpow_le_zpow_right₀ (by norm_num) (show (-1022 : ℤ) ≤ -60 by norm_num)).trans (by norm_num)
    exact k
  fin_cases i
  · exact .inr h
  · exact .inl rfl
  · exact .inl rfl
  · exact .inr (by show nu ≤ (1 : Q64) * 1; rw [mul_one]; exact nu64.trans (by norm_num))

/-- the computed power keeps nothing of the vector part -/
theorem tiny_pow [Libm Q64] {δ : ℝ} (hδ : δ ≤ 1 / 10 ^ 14) (L : AccLibm Q64 BinQ.real δ) (LP : AccPow Q64 BinQ.real δ) :
    ∃ r R, qTiny.pow (.fin 1) = .ok r ∧ r.Holds R ∧ |BinQ.real R.imI| ≤ 1 / 2 ^ 40 := by
  obtain ⟨hu, hul, heta⟩ := phi_u (K := Q64) BinQ.real BinQ.real_strictMono
  have toK : ∀ {a b : Q64}, BinQ.real a ≤ BinQ.real b → a ≤ b := fun h => BinQ.real_strictMono.le_iff_le.mp h
  have hu15 := real_u15
  have he15 : BinQ.real (eta : Q64) ≤ 1 / 10 ^ 15 := (BinQ.real_strictMono.monotone eta_u).trans hu15
  have hO : (10 ^ 16 : ℝ) ≤ BinQ.real (omega : Q64) := by
    have := BinQ.real_strictMono.monotone omega64; rwa [map_pow, map_ofNat] at this
  obtain ⟨a, ha, hae⟩ := L.acos (.fin 1) 1 one64 (by rw [map_one, abs_one])
  rw [map_one, Real.arccos_one, sub_zero] at hae
  have a1 : |a| ≤ 1 := toK (by rw [map_abs_mono BinQ.real BinQ.real_strictMono, map_one]; linarith)
  have h4 : (4 : Q64) ≤ omega := four_le
  obtain ⟨b, hb⟩ := Fl.mul_fin one64.1 ha.1 (by rw [one_mul]; linarith)
  have hbe := BinQ.real_strictMono.monotone (Fl.mul_err one64.1 ha.1 hb)
  rw [map_abs_mono BinQ.real BinQ.real_strictMono, map_sub, map_add, map_mul, map_mul, map_abs_mono BinQ.real BinQ.real_strictMono, map_mul, map_one,
    one_mul] at hbe
  obtain ⟨S, hS, hSe⟩ := L.sin _ _ ⟨hb, Fl.wf_mul _ _⟩
  obtain ⟨C, hC, hCe⟩ := L.cos _ _ ⟨hb, Fl.wf_mul _ _⟩
  obtain ⟨P, hP, hPe⟩ := LP.powf (.fin 1) (.fin 1) 1 1 one64 one64 (by rw [map_one]; exact one_pos)
    (by rw [map_one, Real.one_rpow, mul_one]; exact BinQ.real_strictMono.monotone eta_u)
    (by rw [map_one, Real.one_rpow]; linarith)
  rw [map_one, Real.one_rpow, mul_one] at hPe
  have b1 : |BinQ.real b| ≤ 2 / 10 ^ 14 := by
    have h := abs_add_le (BinQ.real b - BinQ.real a) (BinQ.real a)
    rw [sub_add_cancel] at h
    have : BinQ.real (u : Q64) * |BinQ.real a| ≤ 1 / 10 ^ 15 * 1 := mul_le_mul hu15 (by linarith) (abs_nonneg _) (by norm_num)
    norm_num at hδ hu15 he15 this ⊢
    linarith
  have S1 : |BinQ.real S| ≤ 3 / 10 ^ 14 := by
    have h := abs_add_le (BinQ.real S - Real.sin (BinQ.real b)) (Real.sin (BinQ.real b))
    rw [sub_add_cancel] at h
    have := Real.abs_sin_le_abs (x := BinQ.real b)
    norm_num at hδ b1 ⊢
    linarith
  have P2 : |BinQ.real P| ≤ 2 := by
    have h := abs_add_le (BinQ.real P - 1) 1
    rw [sub_add_cancel, abs_one] at h
    linarith
  have C2 : |BinQ.real C| ≤ 2 := by
    have h := abs_add_le (BinQ.real C - Real.cos (BinQ.real b)) (Real.cos (BinQ.real b))
    rw [sub_add_cancel] at h
    linarith [Real.abs_cos_le_one (BinQ.real b)]
  have P2K : |P| ≤ 2 := toK (by rw [map_abs_mono BinQ.real BinQ.real_strictMono, map_ofNat]; exact P2)
  have C2K : |C| ≤ 2 := toK (by rw [map_abs_mono BinQ.real BinQ.real_strictMono, map_ofNat]; exact C2)
  have S1K : |S| ≤ 1 := toK (by rw [map_abs_mono BinQ.real BinQ.real_strictMono, map_one]; norm_num at S1 ⊢; linarith)
  have z64 : (.fin 0 : Fl Q64).Holds 0 := ⟨rfl, .inl rfl⟩
  -- the products
  have mulb : ∀ {x y : Fl Q64} {a b : Q64}, x.Is a → y.Is b → |a| ≤ 8 → |b| ≤ 8 → ∃ c, (x * y).Is c ∧ |BinQ.real c| ≤ 2 * |BinQ.real a * BinQ.real b| + 1 / 10 ^ 15 := by
    intro x y a b hx hy h1 h2
    have hab : |a * b| ≤ omega := by
      rw [abs_mul]
      have : |a| * |b| ≤ 8 * 8 := mul_le_mul h1 h2 (abs_nonneg _) (by norm_num)
      have := omega64
      linarith
    obtain ⟨c, hc⟩ := Fl.mul_fin hx hy hab
    refine ⟨c, hc, ?_⟩
    have he := BinQ.real_strictMono.monotone (Fl.mul_err hx hy hc)
    rw [map_abs_mono BinQ.real BinQ.real_strictMono, map_sub, map_add, map_mul, map_mul, map_abs_mono BinQ.real BinQ.real_strictMono, map_mul] at he
    have h := abs_add_le (BinQ.real c - BinQ.real a * BinQ.real b) (BinQ.real a * BinQ.real b)
    rw [sub_add_cancel] at h
    have : BinQ.real (u : Q64) * |BinQ.real a * BinQ.real b| ≤ 1 * |BinQ.real a * BinQ.real b| := mul_le_mul_of_nonneg_right (by linarith) (abs_nonneg _)
    linarith
  have eight : ∀ {c : Q64}, |BinQ.real c| ≤ 8 → |c| ≤ 8 := fun h => toK (by rw [map_abs_mono BinQ.real BinQ.real_strictMono, map_ofNat]; exact h)
  obtain ⟨A0, hA0, A0e⟩ := mulb hP.1 one64.1 (by linarith) (by norm_num)
  rw [map_one, mul_one] at A0e
  obtain ⟨A1, hA1, A1e⟩ := mulb hP.1 z64.1 (by linarith) (by norm_num)
  rw [map_zero, mul_zero, abs_zero, mul_zero, zero_add] at A1e
  obtain ⟨R0, hR0, R0e⟩ := mulb hA0 hS.1 (eight (by linarith)) (by linarith)
  obtain ⟨R1, hR1, -⟩ := mulb hA1 hS.1 (eight (by linarith)) (by linarith)
  obtain ⟨W, hW, -⟩ := mulb hP.1 hC.1 (by linarith) (by linarith)
  refine ⟨⟨_, _, _, _⟩, ⟨W, R0, R1, R1⟩, ?_, ⟨⟨hR0, Fl.wf_mul _ _⟩, ⟨hR1, Fl.wf_mul _ _⟩, ⟨hR1, Fl.wf_mul _ _⟩, ⟨hW, Fl.wf_mul _ _⟩⟩, ?_⟩
  · unfold Quat.pow
    dsimp only
    rw [qTiny_vec, qTiny_len, qTiny_x, qTiny_y, qTiny_z, qTiny_w, qTiny_ne]
    rfl
  · show |BinQ.real R0| ≤ _
    have : |BinQ.real A0 * BinQ.real S| ≤ 5 * (3 / 10 ^ 14) := by
      rw [abs_mul]; exact mul_le_mul (by linarith) S1 (abs_nonneg _) (by norm_num)
    norm_num at this R0e ⊢
    linarith

/-- C89: the dependence on `1/s` is real.  The quaternion `1 + 2^-30 i` is in range and far from every limit of the format, yet with any
library of accuracy `1e-14` its first power in binary64 is off by at least `2^-31`: the vector part is lost, since `w/l` rounds to 1. -/
theorem C89_small_angle_false : ∃ (q : Quat (Fl Q64)) (Q : ℍ[Q64]), q.Holds Q ∧ (∀ i, quatVec Q i = 0 ∨ nu ≤ quatVec Q i * quatVec Q i) ∧
    vecQ (toH BinQ.real Q) ≠ 0 ∧ 1 ≤ ‖toH BinQ.real Q‖ ∧ ‖toH BinQ.real Q‖ ≤ 2 ∧
    ∀ [Libm Q64] (δ : ℝ), δ ≤ 1 / 10 ^ 14 → AccLibm Q64 BinQ.real δ → AccPow Q64 BinQ.real δ →
      ∃ r R, q.pow (.fin 1) = .ok r ∧ r.Holds R ∧ 1 / 2 ^ 31 ≤ ‖toH BinQ.real R - toH BinQ.real Q‖ := by
  have hI : (toH BinQ.real HTiny).imI = 1 / 2 ^ 30 := by
    simp only [toH, HTiny, map_div₀, map_one, map_pow, map_ofNat]
  have hN := Quat.normSq_eq (toH BinQ.real HTiny)
  have hN' : ‖toH BinQ.real HTiny‖ * ‖toH BinQ.real HTiny‖ = 1 + 1 / 2 ^ 60 := by
    rw [← hN, hI]; simp only [toH, HTiny, map_zero, map_one]; norm_num
  refine ⟨qTiny, HTiny, qTiny_holds, HTiny_lo, fun h => ?_, ?_, ?_, ?_⟩
  · have := congrFun h 0
    have e : vecQ (toH BinQ.real HTiny) 0 = 1 / 2 ^ 30 := hI
    rw [e] at this; norm_num at this
  · nlinarith [norm_nonneg (toH BinQ.real HTiny)]
  · nlinarith [norm_nonneg (toH BinQ.real HTiny)]
  · intro inst δ hδ L LP
    obtain ⟨r, R, h1, h2, h3⟩ := tiny_pow hδ L LP
    refine ⟨r, R, h1, h2, ?_⟩
    have hc : |(toH BinQ.real R - toH BinQ.real HTiny).imI| ≤ ‖toH BinQ.real R - toH BinQ.real HTiny‖ := by
      rw [norm_quat]
      exact euc_coord ![(toH BinQ.real R - toH BinQ.real HTiny).imI, _, _, _] 0
    refine le_trans ?_ hc
    rw [Quaternion.imI_sub, hI, toH_imI]
    obtain ⟨k1, k2⟩ := abs_le.mp h3
    rw [abs_of_neg (by norm_num at k2 ⊢; linarith)]
    norm_num at k2 ⊢
    linarith

end tiny

end Mazth
