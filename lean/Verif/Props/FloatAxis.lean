import Verif.Props.FloatRotate
import Verif.Props.AxisAngle
import Verif.Props.FloatQuat
import Mathlib.Analysis.SpecialFunctions.Trigonometric.Bounds
import Mathlib.Analysis.Real.Pi.Bounds

/-!
# C87: axis and angle in floating point

`sin`, `cos`, `acos` and π come from the C library and the standard library; their accuracy is a hypothesis (`AccLibm`), which
`accLibm64_acc` shows to be satisfiable in binary64 with `δ = 2^-49`.
-/

set_option linter.unusedSectionVars false
set_option autoImplicit false

namespace Mazth

open RndErr Quaternion Matrix

section defs

variable {K : Type} [Field K] [LinearOrder K] [IsStrictOrderedRing K] [Fmt K] [LawfulFmt K] [RndErr K] [Libm K]

/-- At finite arguments (for `acos` in [-1,1], for `atan2` with positive first argument) the library functions return finite data
of the format within `δ` of the real function, and the constant π is within `δ` of π. -/
structure AccLibm (K : Type) [Field K] [LinearOrder K] [Fmt K] [Libm K] (φ : K →+* ℝ) (δ : ℝ) : Prop where
  sin : ∀ (x : Fl K) (v : K), x.Holds v → ∃ s, (Libm.sin x : Fl K).Holds s ∧ |φ s - Real.sin (φ v)| ≤ δ
  cos : ∀ (x : Fl K) (v : K), x.Holds v → ∃ s, (Libm.cos x : Fl K).Holds s ∧ |φ s - Real.cos (φ v)| ≤ δ
  acos : ∀ (x : Fl K) (v : K), x.Holds v → |φ v| ≤ 1 → ∃ s, (Libm.acos x : Fl K).Holds s ∧ |φ s - Real.arccos (φ v)| ≤ δ
  atan2 : ∀ (y x : Fl K) (b a : K), y.Holds b → x.Holds a → 0 < φ b →
    ∃ s, (Libm.atan2 y x : Fl K).Holds s ∧ |φ s - Complex.arg ⟨φ a, φ b⟩| ≤ δ
  pi : ∃ p, (Libm.pi : Fl K).Holds p ∧ |φ p - Real.pi| ≤ δ

end defs

/-! ### an accurate library for binary64 -/

/-- every real of moderate size has a datum nearby -/
theorem near64 (r : ℝ) (hr : |r| ≤ 4) : ∃ x : Fl Q64, ∃ c : Q64, x.Holds c ∧ |BinQ.real c - r| ≤ 2 ^ (-49 : ℤ) := by
  have hp : (0 : ℝ) < 2 ^ (-53 : ℤ) := by positivity
  obtain ⟨q, h1, h2⟩ := exists_rat_btwn (show r < r + 2 ^ (-53 : ℤ) by linarith)
  obtain ⟨r1, r2⟩ := abs_le.mp hr
  have hs : (2 : ℝ) ^ (-53 : ℤ) ≤ 1 := zpow_le_one_of_nonpos₀ (by norm_num) (by norm_num)
  have hq : |(q : ℝ)| ≤ 5 := abs_le.mpr ⟨by linarith, by linarith⟩
  let v : Q64 := (q : ℚ)
  have hv : |v| ≤ 5 := by
    show |q| ≤ (5 : ℚ)
    exact_mod_cast hq
  have hc : ∃ c, (Fl.lit v : Fl Q64).Is c ∧ |c - v| ≤ u * |v| + eta := by
    by_cases h0 : v = 0
    · exact ⟨0, by rw [h0, Fl.lit_zero]; rfl, by rw [h0]; simpa using (eta_pos (K := Q64)).le⟩
    · obtain ⟨c, hc⟩ := rnd_fin (K := Q64) v (by have := omega_big; linarith)
      exact ⟨c, by rw [Fl.lit_of_ne h0]; exact hc, rnd_err v c hc⟩
  obtain ⟨c, hc, hce⟩ := hc
  refine ⟨_, c, ⟨hc, Fl.wf_lit _⟩, ?_⟩
  have h3 := BinQ.real_strictMono.monotone hce
  rw [map_abs_mono BinQ.real BinQ.real_strictMono, map_sub, map_add, map_mul, map_abs_mono BinQ.real BinQ.real_strictMono] at h3
  have eu : BinQ.real (u : Q64) = 2 ^ (-53 : ℤ) := by rw [C55_constants.1]; exact Rat.cast_zpow _ _ |>.trans (by norm_num)
  have ee : BinQ.real (eta : Q64) ≤ 2 ^ (-53 : ℤ) := by rw [← eu]; exact BinQ.real_strictMono.monotone eta_u
  have ev : BinQ.real v = (q : ℝ) := rfl
  rw [eu, ev] at h3
  have h4 : (2 : ℝ) ^ (-53 : ℤ) * |(q : ℝ)| ≤ 2 ^ (-53 : ℤ) * 5 := mul_le_mul_of_nonneg_left hq hp.le
  have h5 := abs_sub_le (BinQ.real c) (q : ℝ) r
  rw [abs_of_pos (show (0 : ℝ) < q - r by linarith)] at h5
  have e : (2 : ℝ) ^ (-49 : ℤ) = 16 * 2 ^ (-53 : ℤ) := by norm_num
  rw [e]; linarith

/-- a choice of such a datum -/
noncomputable def pick64 (r : ℝ) : Fl Q64 := if h : |r| ≤ 4 then (near64 r h).choose else .nan

theorem pick64_spec (r : ℝ) (hr : |r| ≤ 4) : ∃ c : Q64, (pick64 r).Holds c ∧ |BinQ.real c - r| ≤ 2 ^ (-49 : ℤ) := by
  unfold pick64; rw [dif_pos hr]; exact (near64 r hr).choose_spec

/-- a library with that accuracy -/
@[reducible] noncomputable def accLibm64 : Libm Q64 where
  sin x := match x.val with | some v => pick64 (Real.sin (BinQ.real v)) | none => .nan
  cos x := match x.val with | some v => pick64 (Real.cos (BinQ.real v)) | none => .nan
  acos x := match x.val with | some v => pick64 (Real.arccos (BinQ.real v)) | none => .nan
  atan2 y x := match y.val, x.val with | some b, some a => pick64 (Complex.arg ⟨BinQ.real a, BinQ.real b⟩) | _, _ => .nan
  ln _ := .nan
  powf _ _ := .nan
  pi := pick64 Real.pi

attribute [local instance] accLibm64

theorem accLibm64_acc : AccLibm Q64 BinQ.real (2 ^ (-49 : ℤ)) where
  sin x v h := by
    have e : Libm.sin x = pick64 (Real.sin (BinQ.real v)) := by
      show (match x.val with | some v => pick64 (Real.sin (BinQ.real v)) | none => .nan) = _
      rw [show x.val = some v from h.1]
    rw [e]; exact pick64_spec _ ((Real.abs_sin_le_one _).trans (by norm_num))
  cos x v h := by
    have e : Libm.cos x = pick64 (Real.cos (BinQ.real v)) := by
      show (match x.val with | some v => pick64 (Real.cos (BinQ.real v)) | none => .nan) = _
      rw [show x.val = some v from h.1]
    rw [e]; exact pick64_spec _ ((Real.abs_cos_le_one _).trans (by norm_num))
  acos x v h _ := by
    have e : Libm.acos x = pick64 (Real.arccos (BinQ.real v)) := by
      show (match x.val with | some v => pick64 (Real.arccos (BinQ.real v)) | none => .nan) = _
      rw [show x.val = some v from h.1]
    rw [e]
    refine pick64_spec _ ?_
    rw [abs_of_nonneg (Real.arccos_nonneg _)]
    exact (Real.arccos_le_pi _).trans Real.pi_le_four
  atan2 y x b a hy hx _ := by
    have e : Libm.atan2 y x = pick64 (Complex.arg ⟨BinQ.real a, BinQ.real b⟩) := by
      show (match y.val, x.val with | some b, some a => pick64 (Complex.arg ⟨BinQ.real a, BinQ.real b⟩) | _, _ => .nan) = _
      rw [show y.val = some b from hy.1, show x.val = some a from hx.1]
    rw [e]
    exact pick64_spec _ ((Complex.abs_arg_le_pi _).trans Real.pi_le_four)
  pi := pick64_spec _ (by rw [abs_of_pos Real.pi_pos]; exact Real.pi_le_four)

section real

variable {K : Type} [Field K] [LinearOrder K] [IsStrictOrderedRing K] [Fmt K] [LawfulFmt K] [RndErr K] [Libm K]
variable (φ : K →+* ℝ) (hφ : StrictMono φ)

/-- the exact unit quaternions of two angles about one axis are at most half the difference of the angles apart -/
theorem axisQ_lipschitz {n : Fin 3 → ℝ} (n1 : n ⬝ᵥ n = 1) (s t : ℝ) : ‖axisQ n s - axisQ n t‖ ≤ |s - t| / 2 := by
  rw [dot3] at n1
  rw [← Quat.norm_eq]
  apply Real.sqrt_le_iff.mpr
  refine ⟨by positivity, ?_⟩
  have h := Real.one_sub_sq_div_two_le_cos (x := s / 2 - t / 2)
  rw [Real.cos_sub] at h
  have e1 := Real.sin_sq_add_cos_sq (s / 2)
  have e2 := Real.sin_sq_add_cos_sq (t / 2)
  have e3 : (|s - t| / 2) ^ 2 = (s / 2 - t / 2) ^ 2 := by rw [div_pow, sq_abs]; ring
  rw [e3]
  simp only [Quaternion.imI_sub, Quaternion.imJ_sub, Quaternion.imK_sub, Quaternion.re_sub, axisQ_re, axisQ_imI, axisQ_imJ, axisQ_imK]
  have e : (n 0 * Real.sin (s / 2) - n 0 * Real.sin (t / 2)) * (n 0 * Real.sin (s / 2) - n 0 * Real.sin (t / 2)) +
      (n 1 * Real.sin (s / 2) - n 1 * Real.sin (t / 2)) * (n 1 * Real.sin (s / 2) - n 1 * Real.sin (t / 2)) +
      (n 2 * Real.sin (s / 2) - n 2 * Real.sin (t / 2)) * (n 2 * Real.sin (s / 2) - n 2 * Real.sin (t / 2)) +
      (Real.cos (s / 2) - Real.cos (t / 2)) * (Real.cos (s / 2) - Real.cos (t / 2)) =
      2 - 2 * (Real.cos (s / 2) * Real.cos (t / 2) + Real.sin (s / 2) * Real.sin (t / 2)) := by
    linear_combination (Real.sin (s / 2) - Real.sin (t / 2)) ^ 2 * n1 + e1 + e2
  rw [e]; linarith

/-- one component: unit vector times sine -/
theorem axis_comp {t e D N n S σ c : ℝ} (ht : 0 < t) (htl : t ≤ 1 / 64) (he : 0 ≤ e) (hD : D ≤ 1 / 16)
    (hN : |N - n| ≤ 5 * t * |n| + e) (hS : |S - σ| ≤ D) (hσ : |σ| ≤ 1) (hc : |c - N * S| ≤ t * |N * S| + e) :
    |c - n * σ| ≤ (D + 7 * t) * |n| + 9 / 4 * e := by
  have hn := abs_nonneg n
  have h1 : |N| ≤ (1 + 5 * t) * |n| + e := by
    have := abs_add_le (N - n) n; rw [sub_add_cancel] at this; linarith
  have h2 : |S| ≤ 17 / 16 := by
    have := abs_add_le (S - σ) σ; rw [sub_add_cancel] at this; linarith
  have h3 : |N * S - n * σ| ≤ |N - n| * |S| + |n| * |S - σ| := by
    have := abs_add_le ((N - n) * S) (n * (S - σ))
    rwa [abs_mul, abs_mul, show (N - n) * S + n * (S - σ) = N * S - n * σ by ring] at this
  have h4 : |N - n| * |S| ≤ (5 * t * |n| + e) * (17 / 16) := mul_le_mul hN h2 (abs_nonneg _) (by positivity)
  have h5 : |n| * |S - σ| ≤ |n| * D := mul_le_mul_of_nonneg_left hS hn
  have h6 : |N * S| ≤ ((1 + 5 * t) * |n| + e) * (17 / 16) := by
    rw [abs_mul]; exact mul_le_mul h1 h2 (abs_nonneg _) (by positivity)
  have h7 : t * |N * S| ≤ t * (((1 + 5 * t) * |n| + e) * (17 / 16)) := mul_le_mul_of_nonneg_left h6 ht.le
  have h8 : t * t * |n| ≤ 1 / 64 * t * |n| := by gcongr
  have h9 : t * e ≤ 1 / 64 * e := by gcongr
  have h10 := abs_add_le (c - N * S) (N * S - n * σ)
  rw [sub_add_sub_cancel] at h10
  have h11 : 0 ≤ t * |n| := by positivity
  linarith

/-- four errors against a unit vector and a cosine -/
theorem quat_split {X : ℍ[ℝ]} {w : Fin 3 → ℝ} {a e b : ℝ} (hw : euc w = 1) (ha : 0 ≤ a) (he : 0 ≤ e) (h0 : |X.imI| ≤ a * |w 0| + e)
    (h1 : |X.imJ| ≤ a * |w 1| + e) (h2 : |X.imK| ≤ a * |w 2| + e) (hr : |X.re| ≤ b) : ‖X‖ ≤ a + 2 * e + b := by
  have hw4 : euc ![w 0, w 1, w 2, 0] = 1 := by
    rw [← hw, euc_eq, euc_eq, Fin.sum_univ_four, Fin.sum_univ_three]; simp
  have hE := near_unit (E := ![X.imI, X.imJ, X.imK, 0]) hw4 ha he (fun i => by
    fin_cases i
    · exact h0
    · exact h1
    · exact h2
    · simpa using he)
  have n1 : ‖X - (X.re : ℍ[ℝ])‖ ≤ a + 2 * e := by
    rw [norm_quat]
    refine le_trans (le_of_eq ?_) hE
    congr 1
    funext i; fin_cases i <;> simp
  have n2 : ‖(X.re : ℍ[ℝ])‖ ≤ b := by rw [Quaternion.norm_coe]; exact hr
  have := norm_add_le (X - (X.re : ℍ[ℝ])) (X.re : ℍ[ℝ])
  rw [sub_add_cancel] at this
  linarith

include hφ in
/-- C87: `init_from_axis_angle_radian` of an axis in range and an angle `t` is within `2δ + (14 + |t|) u` of the exact unit
quaternion `cos(t/2) + sin(t/2) n`, `n` the normalised axis; so its norm is `1` up to that. -/
theorem C87_axis_angle {δ : ℝ} (L : AccLibm K φ δ) (axis : Mat3x1 (Fl K)) (A : Fin 3 → K) (ha : axis.Holds A) (h0 : A ≠ 0)
    (hn : ∀ i, A i = 0 ∨ nu ≤ A i * A i) (ho : ∀ i, 8 * (A i * A i) ≤ omega) (θ : Fl K) (t : K) (hθ : θ.Holds t) (hto : |t| ≤ omega)
    (he : (eta : K) ≤ u) (hD : 2 * δ + (14 + |φ t|) * φ u ≤ 1 / 8) :
    ∃ q Q, Quat.initFromAxisAngleRadian axis θ = .ok q ∧ q.Holds Q ∧
      ‖toH φ Q - axisQ ((euc (toR φ A))⁻¹ • toR φ A) (φ t)‖ ≤ 2 * δ + (14 + |φ t|) * φ u ∧
      |‖toH φ Q‖ - 1| ≤ 2 * δ + (14 + |φ t|) * φ u := by
  have he64 : (eta : K) ≤ 1 / 64 := he.trans u_le
  obtain ⟨hu, hul, heta⟩ := phi_u φ hφ
  have he' : φ eta ≤ φ u := hφ.monotone he
  obtain ⟨x, hx, hf⟩ := C55_finite axis A ha hn ho
  obtain ⟨n, N, hnorm, hN, hNc, -⟩ := C55_normalize φ hφ axis A ha hn h0 x hx hf
  have two := two_holds (K := K)
  -- half the angle
  have h4 := four_le (K := K)
  have a2 : |t / 2| ≤ omega := by rw [abs_div, abs_two]; linarith [abs_nonneg t]
  obtain ⟨g, hg⟩ := Fl.div_fin hθ.1 two.1 two_ne_zero a2
  have hge := hφ.monotone (Fl.div_err hθ.1 two.1 two_ne_zero hg)
  rw [map_abs_mono φ hφ, map_sub, map_add, map_mul, map_abs_mono φ hφ, map_div₀, map_ofNat, abs_div, abs_two] at hge
  have hgH : (θ / Fl.lit 2).Holds g := ⟨hg, Fl.wf_div _ _⟩
  obtain ⟨S, hS, hSe⟩ := L.sin _ _ hgH
  obtain ⟨C, hC, hCe⟩ := L.cos _ _ hgH
  have hδ : 0 ≤ δ := (abs_nonneg _).trans hSe
  have ht0 : 0 ≤ |φ t| * φ u := by positivity
  have sE : |φ S - Real.sin (φ t / 2)| ≤ δ + (φ u * (|φ t| / 2) + φ eta) := by
    have := abs_sub_le (φ S) (Real.sin (φ g)) (Real.sin (φ t / 2))
    linarith [Real.abs_sin_sub_sin_le (φ g) (φ t / 2)]
  have cE : |φ C - Real.cos (φ t / 2)| ≤ δ + (φ u * (|φ t| / 2) + φ eta) := by
    have := abs_sub_le (φ C) (Real.cos (φ g)) (Real.cos (φ t / 2))
    linarith [Real.abs_cos_sub_cos_le (φ g) (φ t / 2)]
  have hΔ : δ + (φ u * (|φ t| / 2) + φ eta) ≤ 1 / 16 := by linarith
  -- the unit axis
  have hA : toR φ A ≠ 0 := fun h => h0 (by
    funext i
    have := congrFun h i
    exact hφ.injective (by simpa [toR] using this))
  have hE : euc (toR φ A) ≠ 0 := fun h => hA ((euc_eq_zero _).mp h)
  set ν : Fin 3 → ℝ := (euc (toR φ A))⁻¹ • toR φ A with hν
  have hν1 : euc ν = 1 := by
    rw [hν, euc_smul, abs_inv, abs_of_nonneg (euc_nonneg _), inv_mul_cancel₀ hE]
  have hνi : ∀ i, φ (A i) / euc (fun i => φ (A i)) = ν i := fun i => by
    rw [hν, Pi.smul_apply, smul_eq_mul, div_eq_inv_mul]; rfl
  have hNc' : ∀ i, |φ (N i) - ν i| ≤ 5 * φ u * |ν i| + φ eta := fun i => by
    have := hNc i; rwa [hνi] at this
  have hν2 : ∀ i, |ν i| ≤ 1 := fun i => (euc_coord ν i).trans hν1.le
  -- the products
  have hSle : |S| ≤ 17 / 16 := by
    by_contra h
    have := hφ (not_le.mp h)
    rw [map_abs_mono φ hφ, map_div₀, map_ofNat, map_ofNat] at this
    have h1 := abs_add_le (φ S - Real.sin (φ t / 2)) (Real.sin (φ t / 2))
    rw [sub_add_cancel] at h1
    linarith [Real.abs_sin_le_one (φ t / 2)]
  have hNle : ∀ i, |N i| ≤ 2 := fun i => by
    by_contra h
    have := hφ (not_le.mp h)
    rw [map_abs_mono φ hφ, map_ofNat] at this
    have h1 := abs_add_le (φ (N i) - ν i) (ν i)
    rw [sub_add_cancel] at h1
    have h2 : 5 * φ u * |ν i| ≤ 5 * φ u * 1 := mul_le_mul_of_nonneg_left (hν2 i) (by positivity)
    linarith [hNc' i, hν2 i]
  have prod : ∀ i : Fin 3, ∃ c, (n.val[i] * Libm.sin (θ / Fl.lit 2)).Holds c ∧
      |φ c - ν i * Real.sin (φ t / 2)| ≤ (δ + (φ u * (|φ t| / 2) + φ eta) + 7 * φ u) * |ν i| + 9 / 4 * φ eta := fun i => by
    obtain ⟨c, hc⟩ := Fl.mul_fin (hN i).1 hS.1 (by
      rw [abs_mul]
      have : |N i| * |S| ≤ 2 * (17 / 16) := mul_le_mul (hNle i) hSle (abs_nonneg _) (by norm_num)
      linarith)
    refine ⟨c, ⟨hc, Fl.wf_mul _ _⟩, ?_⟩
    have hce := hφ.monotone (Fl.mul_err (hN i).1 hS.1 hc)
    rw [map_abs_mono φ hφ, map_sub, map_add, map_mul, map_mul, map_abs_mono φ hφ, map_mul] at hce
    exact axis_comp hu hul heta.le hΔ (hNc' i) sE (Real.abs_sin_le_one _) hce
  obtain ⟨c0, k0, e0⟩ := prod 0
  obtain ⟨c1, k1, e1⟩ := prod 1
  obtain ⟨c2, k2, e2⟩ := prod 2
  have hclose : ‖toH φ (⟨C, c0, c1, c2⟩ : ℍ[K]) - axisQ ν (φ t)‖ ≤ 2 * δ + (14 + |φ t|) * φ u := by
    have := quat_split (X := toH φ (⟨C, c0, c1, c2⟩ : ℍ[K]) - axisQ ν (φ t)) hν1 (a := δ + (φ u * (|φ t| / 2) + φ eta) + 7 * φ u)
      (e := 9 / 4 * φ eta) (by positivity) (by positivity) e0 e1 e2 cE
    linarith
  refine ⟨⟨n.val[0] * Libm.sin (θ / Fl.lit 2), n.val[1] * Libm.sin (θ / Fl.lit 2), n.val[2] * Libm.sin (θ / Fl.lit 2),
    Libm.cos (θ / Fl.lit 2)⟩, ⟨C, c0, c1, c2⟩, ?_, ⟨k0, k1, k2, hC⟩, hclose, ?_⟩
  · unfold Quat.initFromAxisAngleRadian
    rw [hnorm]; rfl
  · have hU : ‖axisQ ν (φ t)‖ = 1 := axisQ_unit (by rw [← euc_sq, hν1, mul_one]) _
    have := abs_norm_sub_norm_le (toH φ (⟨C, c0, c1, c2⟩ : ℍ[K])) (axisQ ν (φ t))
    rw [hU] at this
    exact this.trans hclose

include hφ in
/-- C87: rotating a vector `v` in range by that quaternion gives every component of Rodrigues' formula up to
`(9/4 (2δ + (14 + |t|) u) + 76u) |v| + 16 eta`. -/
theorem C87_rotate {δ : ℝ} (L : AccLibm K φ δ) (axis : Mat3x1 (Fl K)) (A : Fin 3 → K) (ha : axis.Holds A) (h0 : A ≠ 0)
    (hn : ∀ i, A i = 0 ∨ nu ≤ A i * A i) (ho : ∀ i, 8 * (A i * A i) ≤ omega) (θ : Fl K) (t : K) (hθ : θ.Holds t) (hto : |t| ≤ omega)
    (he : (eta : K) ≤ u) (hD : 2 * δ + (14 + |φ t|) * φ u ≤ 1 / 8) (n : Fin 3 → ℝ) (hnn : n = (euc (toR φ A))⁻¹ • toR φ A) :
    ∃ q, Quat.initFromAxisAngleRadian axis θ = .ok q ∧ ∀ (p : Mat3x1 (Fl K)) (V : Fin 3 → K) (M : K), p.Holds V → (∀ i, |V i| ≤ M) →
      256 * (M + 1) ≤ omega → ∃ W, (q.rotateVector p).Holds W ∧ ∀ i,
        |φ (W i) - (Real.cos (φ t) • toR φ V + Real.sin (φ t) • crossProduct n (toR φ V) + ((1 - Real.cos (φ t)) * (n ⬝ᵥ toR φ V)) • n) i| ≤
          (9 / 4 * (2 * δ + (14 + |φ t|) * φ u) + 76 * φ u) * euc (toR φ V) + 16 * φ eta := by
  obtain ⟨q, Q, e, hq, hc, -⟩ := C87_axis_angle φ hφ L axis A ha h0 hn ho θ t hθ hto he hD
  rw [← hnn] at hc
  have hA : toR φ A ≠ 0 := fun h => h0 (by
    funext i
    have := congrFun h i
    exact hφ.injective (by simpa [toR] using this))
  have hE : euc (toR φ A) ≠ 0 := fun h => hA ((euc_eq_zero _).mp h)
  have n1 : n ⬝ᵥ n = 1 := by
    rw [← euc_sq, hnn, euc_smul, abs_inv, abs_of_nonneg (euc_nonneg _), inv_mul_cancel₀ hE, mul_one]
  refine ⟨q, e, fun p V M hp hM hMo => ?_⟩
  obtain ⟨W, hW, h⟩ := rotate_near φ hφ hq (axisQ_unit n1 (φ t)) hD hc hp hM he hMo
  refine ⟨W, hW, fun i => ?_⟩
  have := h i
  rwa [axisQ_rodrigues n1] at this

/-- the rounding errors of `d / 180 * π` -/
theorem degree_close {t e a δ d P c1 c2 : ℝ} (ht : 0 < t) (htl : t ≤ 1 / 64) (he : 0 ≤ e) (het : e ≤ t) (ha : 0 ≤ a)
    (had : a = |d| / 180) (hP : |P| ≤ 4) (hPe : |P - Real.pi| ≤ δ) (h1 : |c1 - d / 180| ≤ t * a + e) (h2 : |c2 - c1 * P| ≤ t * |c1 * P| + e) :
    |c2| ≤ 17 / 4 * a + 1 ∧ |c2 - d * Real.pi / 180| ≤ 33 / 4 * (t * a) + a * δ + 21 / 4 * t := by
  have hda : |d / 180| = a := by rw [had, abs_div, abs_of_pos (show (0 : ℝ) < 180 by norm_num)]
  have hc1 : |c1| ≤ a + (t * a + e) := by
    have := abs_add_le (c1 - d / 180) (d / 180)
    rw [sub_add_cancel] at this; linarith
  have hcP : |c1 * P| ≤ (a + (t * a + e)) * 4 := by
    rw [abs_mul]; exact mul_le_mul hc1 hP (abs_nonneg _) (by positivity)
  have hta : t * a ≤ 1 / 64 * a := by gcongr
  have htt : t * (t * a) ≤ 1 / 64 * (t * a) := by gcongr
  have hte : t * e ≤ 1 / 64 * e := by gcongr
  have htP : t * |c1 * P| ≤ t * ((a + (t * a + e)) * 4) := mul_le_mul_of_nonneg_left hcP ht.le
  have h0 : 0 ≤ t * a := by positivity
  constructor
  · have := abs_add_le (c2 - c1 * P) (c1 * P)
    rw [sub_add_cancel] at this; linarith
  · have k1 : |c1 * P - d * Real.pi / 180| ≤ |c1 - d / 180| * |P| + |d / 180| * |P - Real.pi| := by
      have := abs_add_le ((c1 - d / 180) * P) (d / 180 * (P - Real.pi))
      rwa [abs_mul, abs_mul, show (c1 - d / 180) * P + d / 180 * (P - Real.pi) = c1 * P - d * Real.pi / 180 by ring] at this
    have k2 : |c1 - d / 180| * |P| ≤ (t * a + e) * 4 := mul_le_mul h1 hP (abs_nonneg _) (by positivity)
    have k3 : |d / 180| * |P - Real.pi| ≤ a * δ := by rw [hda]; exact mul_le_mul_of_nonneg_left hPe ha
    have := abs_add_le (c2 - c1 * P) (c1 * P - d * Real.pi / 180)
    rw [sub_add_sub_cancel] at this
    linarith

include hφ in
/-- C87: `init_from_axis_angle_degree` of an angle of `d` degrees is within `(2 + a/2) δ + (18 + 9a) u`, `a = |d|/180`, of the exact
unit quaternion of the angle `dπ/180`. -/
theorem C87_degree {δ : ℝ} (L : AccLibm K φ δ) (h180 : Fl.Rep (180 : K)) (axis : Mat3x1 (Fl K)) (A : Fin 3 → K) (ha : axis.Holds A) (h0 : A ≠ 0)
    (hn : ∀ i, A i = 0 ∨ nu ≤ A i * A i) (ho : ∀ i, 8 * (A i * A i) ≤ omega) (θ : Fl K) (d : K) (hθ : θ.Holds d) (hto : 8 * (|d| + 1) ≤ omega)
    (he : (eta : K) ≤ u) (a : ℝ) (had : a = |φ d| / 180) (hD : (2 + a / 2) * δ + (18 + 9 * a) * φ u ≤ 1 / 8) :
    ∃ q Q, Quat.initFromAxisAngleDegree axis θ = .ok q ∧ q.Holds Q ∧
      ‖toH φ Q - axisQ ((euc (toR φ A))⁻¹ • toR φ A) (φ d * Real.pi / 180)‖ ≤ (2 + a / 2) * δ + (18 + 9 * a) * φ u := by
  obtain ⟨hu, hul, heta⟩ := phi_u φ hφ
  have he' : φ eta ≤ φ u := hφ.monotone he
  have a0 : 0 ≤ a := by rw [had]; positivity
  obtain ⟨P, hP, hPe⟩ := L.pi
  have hδ : 0 ≤ δ := (abs_nonneg _).trans hPe
  have hδ1 : δ ≤ 1 / 16 := by
    have : 0 ≤ a / 2 * δ := by positivity
    have : 0 ≤ (18 + 9 * a) * φ u := by positivity
    linarith
  have hPabs : |φ P| ≤ 4 := by
    have h1 := abs_add_le (φ P - Real.pi) Real.pi
    rw [sub_add_cancel, abs_of_pos Real.pi_pos] at h1
    linarith [Real.pi_lt_d4]
  have hPK : |P| ≤ 4 := by
    by_contra h
    have := hφ (not_le.mp h)
    rw [map_abs_mono φ hφ, map_ofNat] at this; linarith
  have k180 : (Fl.lit 180 : Fl K).Holds 180 := by rw [Fl.lit_rep h180]; exact ⟨rfl, h180⟩
  have n180 : (180 : K) ≠ 0 := by norm_num
  have a180 : |(180 : K)| = 180 := abs_of_pos (by norm_num)
  have hd0 := abs_nonneg d
  obtain ⟨c1, hc1⟩ := Fl.div_fin hθ.1 k180.1 n180 (by rw [abs_div, a180]; linarith)
  have e1 := Fl.div_err hθ.1 k180.1 n180 hc1
  have hul' := u_le (K := K)
  have hup := u_pos (K := K)
  have he64 : (eta : K) ≤ 1 / 64 := he.trans u_le
  have hc1K : |c1| ≤ |d| / 90 + 1 / 64 := by
    have h1 := abs_add_le (c1 - d / 180) (d / 180)
    rw [sub_add_cancel] at h1
    rw [abs_div, a180] at e1 h1
    have : u * (|d| / 180) ≤ 1 / 64 * (|d| / 180) := mul_le_mul_of_nonneg_right hul' (by positivity)
    linarith
  have hc1P : |c1 * P| ≤ (|d| / 90 + 1 / 64) * 4 := by
    rw [abs_mul]; exact mul_le_mul hc1K hPK (abs_nonneg _) (by positivity)
  obtain ⟨c2, hc2⟩ := Fl.mul_fin hc1 hP.1 (by linarith)
  have e2 := Fl.mul_err hc1 hP.1 hc2
  have hc2K : |c2| ≤ omega := by
    have h1 := abs_add_le (c2 - c1 * P) (c1 * P)
    rw [sub_add_cancel] at h1
    have : u * |c1 * P| ≤ 1 / 64 * |c1 * P| := mul_le_mul_of_nonneg_right hul' (abs_nonneg _)
    linarith
  -- over the reals
  have r1 := hφ.monotone e1
  rw [map_abs_mono φ hφ, map_sub, map_add, map_mul, map_abs_mono φ hφ, map_div₀, map_ofNat, abs_div, abs_of_pos (show (0 : ℝ) < 180 by norm_num),
    ← had] at r1
  have r2 := hφ.monotone e2
  rw [map_abs_mono φ hφ, map_sub, map_add, map_mul, map_mul, map_abs_mono φ hφ, map_mul] at r2
  obtain ⟨b1, b2⟩ := degree_close hu hul heta.le he' a0 had hPabs hPe r1 r2
  have hta : (14 + |φ c2|) * φ u ≤ (14 + (17 / 4 * a + 1)) * φ u := by gcongr
  obtain ⟨q, Q, e, hq, hc, -⟩ := C87_axis_angle φ hφ L axis A ha h0 hn ho (θ / Fl.lit 180 * Libm.pi) c2 ⟨hc2, Fl.wf_mul _ _⟩ hc2K he (by
    have : 0 ≤ a / 2 * δ := by positivity
    have : 0 ≤ a * φ u := by positivity
    linarith)
  refine ⟨q, Q, e, hq, ?_⟩
  have hA : toR φ A ≠ 0 := fun h => h0 (by
    funext i
    have := congrFun h i
    exact hφ.injective (by simpa [toR] using this))
  have hl := axisQ_lipschitz (unit_of hA) (φ c2) (φ d * Real.pi / 180)
  have h3 := norm_sub_le_norm_sub_add_norm_sub (toH φ Q) (axisQ ((euc (toR φ A))⁻¹ • toR φ A) (φ c2))
    (axisQ ((euc (toR φ A))⁻¹ • toR φ A) (φ d * Real.pi / 180))
  have : 0 ≤ a * φ u := by positivity
  linarith

end real

section half

variable {K : Type} [Field K] [LinearOrder K] [IsStrictOrderedRing K] [Fmt K] [LawfulFmt K] [RndErr K] [Libm K]

/-- `1 - w²` in floating point -/
theorem one_sub_sq {x : Fl K} {w : K} (hx : x.Holds w) (hw : |w| ≤ 1) (he : (eta : K) ≤ u) :
    ∃ s, (1 - x * x).Holds s ∧ 0 ≤ s ∧ |s - (1 - w * w)| ≤ 4 * u := by
  have hu := u_pos (K := K)
  have hl := u_le (K := K)
  have h4 := four_le (K := K)
  have o : (1 : Fl K).Holds 1 := ⟨Fl.kis_one, by rw [Fl.one_def]; exact .inr LawfulFmt.rnd_one⟩
  have hw0 := mul_self_nonneg w
  have hw1 : w * w ≤ 1 := abs_le_one_iff_mul_self_le_one.mp hw
  obtain ⟨p, hp⟩ := Fl.mul_fin hx.1 hx.1 (by rw [abs_of_nonneg hw0]; linarith)
  have pe := Fl.mul_err hx.1 hx.1 hp
  rw [abs_of_nonneg hw0] at pe
  have hp1 : p ≤ 1 := by
    rcases Fl.mul_core hx.1 hx.1 hp with ⟨-, rfl⟩ | h
    · exact zero_le_one
    · rcases hw0.eq_or_lt with h0 | h0
      · rw [← h0] at pe
        have := (abs_le.mp pe).2
        linarith
      · have h2 := LawfulFmt.rnd_mono _ _ h0 hw1
        rw [LawfulFmt.rnd_one] at h2
        generalize (Fmt.rnd (w * w) : Fl K) = r at h h2
        rcases h.kcases with rfl | ⟨rfl, rfl⟩
        · simpa [Fl.le] using h2
        · exact zero_le_one
  have pe' : |p - w * w| ≤ 2 * u := by
    have : u * (w * w) ≤ u * 1 := mul_le_mul_of_nonneg_left hw1 hu.le
    linarith
  obtain ⟨p1, p2⟩ := abs_le.mp pe'
  have a1 : |1 - p| = 1 - p := abs_of_nonneg (by linarith)
  obtain ⟨s, hs⟩ := Fl.sub_fin o.1 hp (by rw [a1]; linarith)
  have se := Fl.sub_err o.1 hp o.2 (Fl.wf_mul _ _) hs
  rw [a1] at se
  obtain ⟨s1, s2⟩ := abs_le.mp se
  have k1 : u * (1 - p) ≤ u * (1 + 2 * u) := mul_le_mul_of_nonneg_left (by linarith) hu.le
  have k2 : (u : K) * u ≤ u * (1 / 64) := mul_le_mul_of_nonneg_left hl hu.le
  have k3 : u * (1 - p) ≤ 1 / 64 * (1 - p) := mul_le_mul_of_nonneg_right hl (by linarith)
  exact ⟨s, ⟨hs, Fl.wf_sub _ _⟩, by linarith, abs_le.mpr ⟨by linarith, by linarith⟩⟩

/-- the cut-off `1e-6` in floating point -/
theorem cut_lit (he : (eta : K) ≤ 1 / 100000000) : ∃ c : K, (Fl.lit (1 / 1000000) : Fl K).Is c ∧ 97 / 100000000 ≤ c ∧ c ≤ 103 / 100000000 := by
  have h4 := four_le (K := K)
  have hl := u_le (K := K)
  have a : |(1 / 1000000 : K)| = 1 / 1000000 := abs_of_pos (by norm_num)
  obtain ⟨c, hc⟩ := rnd_fin (K := K) (1 / 1000000) (by rw [a]; linarith)
  have := rnd_err _ _ hc
  rw [a] at this
  obtain ⟨h1, h2⟩ := abs_le.mp this
  exact ⟨c, by rw [Fl.lit_of_ne (by norm_num)]; exact hc, by linarith, by linarith⟩

/-- C87: below the cut-off (`1 - w² + 4u ≤ 9e-13`) the answer is the x axis and the angle zero. -/
theorem C87_cutoff (q : Quat (Fl K)) (Q : ℍ[K]) (hq : q.Holds Q) (hw : |Q.re| ≤ 1) (he : (eta : K) ≤ u) (he8 : (eta : K) ≤ 1 / 100000000)
    (hk : 1 - Q.re * Q.re + 4 * u ≤ 9 / 10 ^ 13) : q.toAxisAngle = .ok (⟨#v[1, 0, 0]⟩, 0) := by
  have hu := u_pos (K := K)
  have hl := u_le (K := K)
  have h4 := four_le (K := K)
  obtain ⟨s, hs, s0, hse⟩ := one_sub_sq hq.2.2.2 hw he
  have s1 : s ≤ 9 / 10 ^ 13 := by have := (abs_le.mp hse).2; linarith
  obtain ⟨k, hk⟩ := Fl.sqrt_fin hs.1 s0 (by linarith [show (9 / 10 ^ 13 : K) ≤ 1 by norm_num])
  obtain ⟨k0, -, k2⟩ := Fl.sqrt_err hs.1 hs.2 hk
  obtain ⟨c, hc, c1, -⟩ := cut_lit he8
  unfold Quat.toAxisAngle
  dsimp only
  rw [if_pos ((hk.klt hc).mpr ?_)]
  apply lt_of_pow_lt_pow_left₀ 2 (by linarith)
  have e1 : (1 + u : K) ^ 2 * s ≤ (65 / 64) ^ 2 * (9 / 10 ^ 13) := by
    apply mul_le_mul _ s1 s0 (by norm_num)
    apply pow_le_pow_left₀ (by linarith); linarith
  have e2 : (97 / 100000000 : K) ^ 2 ≤ c ^ 2 := pow_le_pow_left₀ (by norm_num) c1 2
  have : ((65 / 64 : K) ^ 2 * (9 / 10 ^ 13)) < (97 / 100000000) ^ 2 := by norm_num
  linarith

end half

section whole

variable {K : Type} [Field K] [LinearOrder K] [IsStrictOrderedRing K] [Fmt K] [LawfulFmt K] [RndErr K] [Libm K]
variable (φ : K →+* ℝ) (hφ : StrictMono φ)

/-- a small relative change of the components changes the direction little -/
theorem dir_close {V Y : Fin 3 → ℝ} {t : ℝ} (ht : 0 < t) (htl : t ≤ 1 / 64) (h : ∀ i, |V i - Y i| ≤ t * |Y i|) (hY : 0 < euc Y) :
    0 < euc V ∧ ∀ i, |V i / euc V - Y i / euc Y| ≤ 5 / 2 * t * |Y i / euc Y| := by
  have hD : euc (V - Y) ≤ t * euc Y := by
    have h1 : euc (V - Y) ≤ euc (t • fun i => |Y i|) := euc_mono (fun i => by simpa using h i)
    rwa [euc_smul, abs_of_pos ht, euc_abs] at h1
  have hD' : euc (Y - V) = euc (V - Y) := by
    rw [show Y - V = (-1 : ℝ) • (V - Y) by funext i; simp, euc_smul]; simp
  have h1 := euc_add_le (V - Y) Y
  have h2 := euc_add_le (Y - V) V
  rw [sub_add_cancel] at h1 h2
  rw [hD'] at h2
  set v := euc V
  set y := euc Y
  have hty : t * y ≤ 1 / 64 * y := by gcongr
  have hv : 63 / 64 * y ≤ v := by linarith
  have hv0 : 0 < v := by linarith
  refine ⟨hv0, fun i => ?_⟩
  have e : V i / v - Y i / y = ((V i - Y i) * y + Y i * (y - v)) / (v * y) := by field_simp; ring
  rw [e, abs_div, abs_div, abs_of_pos hY, abs_of_pos (mul_pos hv0 hY), div_le_iff₀ (mul_pos hv0 hY)]
  have k1 : |y - v| ≤ t * y := abs_le.mpr ⟨by linarith, by linarith⟩
  have k2 := abs_add_le ((V i - Y i) * y) (Y i * (y - v))
  rw [abs_mul, abs_mul, abs_of_pos hY] at k2
  have k3 : |V i - Y i| * y ≤ t * |Y i| * y := mul_le_mul_of_nonneg_right (h i) hY.le
  have k4 : |Y i| * |y - v| ≤ |Y i| * (t * y) := mul_le_mul_of_nonneg_left k1 (abs_nonneg _)
  have e2 : 5 / 2 * t * (|Y i| / y) * (v * y) = 5 / 2 * (t * |Y i|) * v := by field_simp
  rw [e2]
  have k5 : 5 / 2 * (t * |Y i|) * (63 / 64 * y) ≤ 5 / 2 * (t * |Y i|) * v := mul_le_mul_of_nonneg_left hv (by positivity)
  have : 0 ≤ t * |Y i| * y := by positivity
  linarith

include hφ in
/-- C87: above the cut-off (`4e-12 + 4u ≤ 1 - w²`), for components that are zero or large enough to be squared, `to_axis_angle`
returns an axis within `8u |xᵢ|/|x| + eta` of the unit vector along the vector part, componentwise, and an angle within
`2δ + 8u` of `2 arccos w`. -/
theorem C87_to_axis_angle {δ : ℝ} (L : AccLibm K φ δ) (hδ : δ ≤ 1 / 16) (q : Quat (Fl K)) (Q : ℍ[K]) (hq : q.Holds Q) (hw : |Q.re| ≤ 1) (he : (eta : K) ≤ u)
    (he8 : (eta : K) ≤ 1 / 100000000) (hO : (10 ^ 16 : K) ≤ omega) (hν : (nu : K) ≤ 1) (X : Fin 3 → K) (hX : X = ![Q.imI, Q.imJ, Q.imK])
    (h0 : X ≠ 0) (hn : ∀ i, X i = 0 ∨ 16 * nu ≤ X i * X i) (h2 : ∀ i, |X i| ≤ 2) (hk : 4 / 10 ^ 12 + 4 * u ≤ 1 - Q.re * Q.re) :
    ∃ v α N a, q.toAxisAngle = .ok (v, α) ∧ v.Holds N ∧ α.Holds a ∧
      (∀ i, |φ (N i) - φ (X i) / euc (toR φ X)| ≤ 8 * φ u * |φ (X i) / euc (toR φ X)| + φ eta) ∧ (∀ i, X i = 0 → N i = 0) ∧
      |euc (toR φ N) - 1| ≤ 5 * φ u + 2 * φ eta ∧ |φ a - 2 * Real.arccos (φ Q.re)| ≤ 2 * δ + 8 * φ u := by
  have hu := u_pos (K := K)
  have hl := u_le (K := K)
  have h4 := four_le (K := K)
  obtain ⟨s, hs, s0, hse⟩ := one_sub_sq hq.2.2.2 hw he
  obtain ⟨s1, s2⟩ := abs_le.mp hse
  have hw0 := mul_self_nonneg Q.re
  obtain ⟨k, hkI⟩ := Fl.sqrt_fin hs.1 s0 (by linarith)
  obtain ⟨k0, k1, k2⟩ := Fl.sqrt_err hs.1 hs.2 hkI
  obtain ⟨c, hc, -, c2⟩ := cut_lit he8
  have kl : 19 / 10 ^ 7 ≤ k := by
    apply le_of_sq_le_sq _ k0
    have : (63 / 64 : K) ^ 2 * (4 / 10 ^ 12) ≤ (1 - u) ^ 2 * s :=
      mul_le_mul (pow_le_pow_left₀ (by norm_num) (by linarith) 2) (by linarith) (by norm_num) (by positivity)
    have : ((19 / 10 ^ 7) ^ 2 : K) ≤ (63 / 64) ^ 2 * (4 / 10 ^ 12) := by norm_num
    linarith
  have kh : k ≤ 2 := by
    apply le_of_sq_le_sq _ (by norm_num)
    have : (1 + u : K) ^ 2 * s ≤ (65 / 64) ^ 2 * 2 :=
      mul_le_mul (pow_le_pow_left₀ (by linarith) (by linarith) 2) (by linarith) s0 (by norm_num)
    have : ((65 / 64) ^ 2 * 2 : K) ≤ 2 ^ 2 := by norm_num
    linarith
  have kp : 0 < k := lt_of_lt_of_le (by norm_num) kl
  have kn := kp.ne'
  have hxs : ∀ i : Fin 3, (#v[q.x, q.y, q.z][i]).Holds (X i) := fun i => by
    rw [hX]; fin_cases i
    · exact hq.1
    · exact hq.2.1
    · exact hq.2.2.1
  -- the quotients
  have quo : ∀ i : Fin 3, ∃ V, (#v[q.x, q.y, q.z][i] / Fl.sqrt (1 - q.w * q.w)).Is V ∧ |V - X i / k| ≤ u * |X i / k| ∧
      (V = 0 ∨ nu ≤ V * V) ∧ 8 * (V * V) ≤ omega := fun i => by
    have bq : |X i / k| ≤ 11 / 10 * 10 ^ 6 := by
      rw [abs_div, abs_of_pos kp, div_le_iff₀ kp]
      have := h2 i
      have : (11 / 10 * 10 ^ 6 : K) * (19 / 10 ^ 7) ≤ 11 / 10 * 10 ^ 6 * k := mul_le_mul_of_nonneg_left kl (by norm_num)
      have : (2 : K) ≤ 11 / 10 * 10 ^ 6 * (19 / 10 ^ 7) := by norm_num
      linarith
    obtain ⟨V, hV⟩ := Fl.div_fin (hxs i).1 hkI kn (bq.trans ((by norm_num : (11 / 10 * 10 ^ 6 : K) ≤ 10 ^ 16).trans hO))
    refine ⟨V, hV, ?_⟩
    rcases hn i with hz | hz
    · have hx := (hxs i).1
      rw [hz] at hx
      have := (hx.divExact hkI kn (by rw [zero_div]; exact .inl rfl)).kunique hV
      rw [zero_div] at this
      rw [hz, ← this]
      refine ⟨by simp, .inl rfl, by linarith⟩
    · have nup := nu_pos (K := K)
      have hne : X i ≠ 0 := fun h => by rw [h] at hz; linarith
      have hxx : |X i| * |X i| = X i * X i := abs_mul_abs_self _
      have lx : 4 * nu ≤ |X i| := by
        by_contra h
        push Not at h
        have h1 : |X i| * |X i| < 4 * nu * (4 * nu) := mul_lt_mul'' h h (abs_nonneg _) (abs_nonneg _)
        have h2 : (nu : K) * nu ≤ nu * 1 := mul_le_mul_of_nonneg_left hν nup.le
        linarith
      have lq : |X i| / 2 ≤ |X i / k| := by
        rw [abs_div, abs_of_pos kp]; exact div_le_div_of_nonneg_left (abs_nonneg _) kp kh
      have e := div_err_normal (hxs i).1 hkI kn hne hV (by linarith)
      have e' := mul_le_mul_of_nonneg_right hl (abs_nonneg (X i / k))
      have a1 := abs_add_le (V - X i / k) (X i / k)
      rw [sub_add_cancel] at a1
      have a2 := abs_add_le (X i / k - V) V
      rw [sub_add_cancel, abs_sub_comm] at a2
      have vl : 1 / 4 * |X i| ≤ |V| := by linarith [abs_nonneg (X i)]
      have vh : |V| ≤ 12 / 10 * 10 ^ 6 := by linarith
      have hvv : |V| * |V| = V * V := abs_mul_abs_self _
      have m1 : 1 / 4 * |X i| * (1 / 4 * |X i|) ≤ |V| * |V| := mul_le_mul vl vl (by positivity) (abs_nonneg _)
      have m2 : |V| * |V| ≤ 12 / 10 * 10 ^ 6 * (12 / 10 * 10 ^ 6) := mul_le_mul vh vh (abs_nonneg _) (by norm_num)
      refine ⟨e, .inr (by linarith), ?_⟩
      have : (8 * (12 / 10 * 10 ^ 6 * (12 / 10 * 10 ^ 6)) : K) ≤ 10 ^ 16 := by norm_num
      linarith
  choose V hV hVe hVn hVo using quo
  set kF := Fl.sqrt (1 - q.w * q.w) with hkF
  set vv : Mat3x1 (Fl K) := ⟨#v[q.x / kF, q.y / kF, q.z / kF]⟩ with hvv
  have hvvH : vv.Holds V := fun i => by
    fin_cases i
    · exact ⟨hV 0, Fl.wf_div _ _⟩
    · exact ⟨hV 1, Fl.wf_div _ _⟩
    · exact ⟨hV 2, Fl.wf_div _ _⟩
  -- over the reals
  obtain ⟨ru, rul, reta⟩ := phi_u φ hφ
  have hφk : 0 < φ k := by have := hφ kp; rwa [map_zero] at this
  have hXR : toR φ X ≠ 0 := fun h => h0 (by
    funext i
    have := congrFun h i
    exact hφ.injective (by simpa [toR] using this))
  have hXp := euc_pos hXR
  have hYe : euc ((φ k)⁻¹ • toR φ X) = (φ k)⁻¹ * euc (toR φ X) := by rw [euc_smul, abs_of_pos (inv_pos.mpr hφk)]
  have hYd : ∀ i, ((φ k)⁻¹ • toR φ X) i / euc ((φ k)⁻¹ • toR φ X) = φ (X i) / euc (toR φ X) := fun i => by
    rw [hYe, Pi.smul_apply, smul_eq_mul]; show (φ k)⁻¹ * φ (X i) / _ = _
    field_simp
  obtain ⟨hVp, hdir⟩ := dir_close (V := toR φ V) (Y := (φ k)⁻¹ • toR φ X) ru rul (fun i => by
    have := hφ.monotone (hVe i)
    rw [map_abs_mono φ hφ, map_sub, map_mul, map_abs_mono φ hφ, map_div₀, div_eq_inv_mul] at this
    exact this) (by rw [hYe]; exact mul_pos (inv_pos.mpr hφk) hXp)
  have hV0 : V ≠ 0 := fun h => by
    rw [h] at hVp
    have : toR φ (0 : Fin 3 → K) = 0 := by funext i; simp [toR]
    rw [this, (euc_eq_zero _).mpr rfl] at hVp
    exact lt_irrefl _ hVp
  obtain ⟨l, hl1, hlf⟩ := C55_finite vv V hvvH hVn hVo
  obtain ⟨N, R, hN, hR, hRc, hR1⟩ := C55_normalize φ hφ vv V hvvH hVn hV0 l hl1 hlf
  obtain ⟨l', hl', hm⟩ := C55_magnitude φ hφ vv V hvvH hVn
  obtain rfl : l = l' := Option.some.inj (hl1.symm.trans hl')
  obtain ⟨m, hlm⟩ := hlf
  obtain ⟨m0, hm⟩ := hm m hlm
  have hmn : m ≠ 0 := fun h => by
    rw [h, map_zero, zero_sub, abs_neg] at hm
    have e1 : euc (fun i => φ (V i)) = euc (toR φ V) := rfl
    rw [e1, abs_of_pos hVp] at hm
    have : 3 * φ u * euc (toR φ V) ≤ 3 * (1 / 64) * euc (toR φ V) := by gcongr
    linarith
  -- the angle
  have two := two_holds (K := K)
  have hwR : |φ Q.re| ≤ 1 := by have := hφ.monotone hw; rwa [map_abs_mono φ hφ, map_one] at this
  obtain ⟨b, hb, hbe⟩ := L.acos _ _ hq.2.2.2 hwR
  have b4 : |φ b| ≤ 4 := by
    have := abs_add_le (φ b - Real.arccos (φ Q.re)) (Real.arccos (φ Q.re))
    rw [sub_add_cancel, abs_of_nonneg (Real.arccos_nonneg _)] at this
    linarith [Real.arccos_le_pi (φ Q.re), Real.pi_lt_d2]
  have b16 : |φ b| ≤ 16 / 5 + 1 / 16 := by
    have := abs_add_le (φ b - Real.arccos (φ Q.re)) (Real.arccos (φ Q.re))
    rw [sub_add_cancel, abs_of_nonneg (Real.arccos_nonneg _)] at this
    linarith [Real.arccos_le_pi (φ Q.re), Real.pi_lt_d2]
  have b4K : |b| ≤ 4 := by
    by_contra h
    have := hφ (not_le.mp h)
    rw [map_abs_mono φ hφ, map_ofNat] at this; linarith
  obtain ⟨a, ha⟩ := Fl.mul_fin two.1 hb.1 (by
    rw [abs_mul, abs_two]; linarith [show (8 : K) ≤ 10 ^ 16 by norm_num])
  have ae := hφ.monotone (Fl.mul_err two.1 hb.1 ha)
  rw [map_abs_mono φ hφ, map_sub, map_add, map_mul, map_mul, map_abs_mono φ hφ, map_mul, map_ofNat, abs_mul, abs_two] at ae
  have he' : φ eta ≤ φ u := hφ.monotone he
  have hNe : N = ⟨#v[q.x / kF / l, q.y / kF / l, q.z / kF / l]⟩ := by
    unfold Mat3x1.normalize at hN
    rw [hl1] at hN
    exact (Option.some.inj hN).symm
  refine ⟨N, Fl.lit 2 * Libm.acos q.w, R, a, ?_, hR, ⟨ha, Fl.wf_mul _ _⟩, fun i => ?_, fun i hi => ?_, hR1, ?_⟩
  · unfold Quat.toAxisAngle
    dsimp only
    rw [← hkF, if_neg (by rw [hkI.klt hc]; linarith [show (103 / 100000000 : K) < 19 / 10 ^ 7 by norm_num])]
    have hle : l = Fl.sqrt (q.x / kF * (q.x / kF) + q.y / kF * (q.y / kF) + q.z / kF * (q.z / kF)) :=
      (Option.some.inj hl1).symm
    rw [← hle, hNe]
    have hf : Fl.feq l 0 = false := by
      rcases hlm.kcases with e | ⟨-, e⟩
      · rw [e, Fl.zero_def]; simp only [Fl.feq, Fl.le, Bool.and_eq_false_iff, decide_eq_false_iff_not]
        by_contra h; push Not at h
        exact hmn (le_antisymm h.1 h.2)
      · exact absurd e hmn
    rw [hf]; rfl
  · have h1 := hRc i
    have h2 := hdir i
    rw [hYd i] at h2
    have e1 : φ (V i) / euc (fun i => φ (V i)) = toR φ V i / euc (toR φ V) := rfl
    rw [e1] at h1
    set y := φ (X i) / euc (toR φ X)
    set z := toR φ V i / euc (toR φ V)
    have h3 := abs_add_le (z - y) y
    rw [sub_add_cancel] at h3
    have h4 : 5 * φ u * |z| ≤ 5 * φ u * (5 / 2 * φ u * |y| + |y|) := mul_le_mul_of_nonneg_left (by linarith) (by positivity)
    have h5 : φ u * (φ u * |y|) ≤ 1 / 64 * (φ u * |y|) := mul_le_mul_of_nonneg_right rul (by positivity)
    have h6 := abs_sub_le (φ (R i)) z y
    have : 0 ≤ φ u * |y| := by positivity
    linarith
  · have v0 : V i = 0 := by
      have := hVe i
      rw [hi, zero_div, sub_zero, abs_zero, mul_zero] at this
      exact abs_nonpos_iff.mp this
    have h1 : (#v[q.x, q.y, q.z][i] / kF / l).Is (R i) := by
      have := (hR i).1
      rw [hNe] at this
      fin_cases i <;> exact this
    have h2 := hV i
    rw [v0] at h2
    have h3 := h2.divExact hlm hmn (by rw [zero_div]; exact .inl rfl)
    rw [zero_div] at h3
    exact (h3.kunique h1).symm
  · have h1 := abs_sub_le (φ a) (2 * φ b) (2 * Real.arccos (φ Q.re))
    rw [← mul_sub, abs_mul, abs_two] at h1
    have h2 : φ u * (2 * |φ b|) ≤ φ u * (2 * (16 / 5 + 1 / 16)) := by gcongr
    linarith

/-- two axes, one angle -/
theorem axisQ_axis (m n : Fin 3 → ℝ) (t : ℝ) : ‖axisQ m t - axisQ n t‖ ≤ euc (m - n) := by
  rw [norm_quat]
  have : euc (m - n) = euc ![(m - n) 0, (m - n) 1, (m - n) 2, 0] := by
    rw [euc_eq, euc_eq, Fin.sum_univ_four, Fin.sum_univ_three]; simp
  rw [this, ← euc_abs ![(m - n) 0, (m - n) 1, (m - n) 2, 0]]
  apply euc_mono
  have hs := Real.abs_sin_le_one (t / 2)
  intro i
  fin_cases i
  · show |m 0 * Real.sin (t / 2) - n 0 * Real.sin (t / 2)| ≤ |m 0 - n 0|
    rw [← sub_mul, abs_mul]; exact mul_le_of_le_one_right (abs_nonneg _) hs
  · show |m 1 * Real.sin (t / 2) - n 1 * Real.sin (t / 2)| ≤ |m 1 - n 1|
    rw [← sub_mul, abs_mul]; exact mul_le_of_le_one_right (abs_nonneg _) hs
  · show |m 2 * Real.sin (t / 2) - n 2 * Real.sin (t / 2)| ≤ |m 2 - n 2|
    rw [← sub_mul, abs_mul]; exact mul_le_of_le_one_right (abs_nonneg _) hs
  · show |Real.cos (t / 2) - Real.cos (t / 2)| ≤ |(0 : ℝ)|
    simp

/-- the quaternion whose axis and angle are those of `P` -/
theorem axisQ_of {P : ℍ[ℝ]} (hP : vecQ P ≠ 0) (hw : |P.re| ≤ 1) :
    ‖axisQ ((euc (vecQ P))⁻¹ • vecQ P) (2 * Real.arccos P.re) - P‖ = |√(1 - P.re ^ 2) - euc (vecQ P)| := by
  have hp := euc_pos hP
  have h2 : 2 * Real.arccos P.re / 2 = Real.arccos P.re := by ring
  have hc : Real.cos (Real.arccos P.re) = P.re := Real.cos_arccos (abs_le.mp hw).1 (abs_le.mp hw).2
  have e : (![(axisQ ((euc (vecQ P))⁻¹ • vecQ P) (2 * Real.arccos P.re) - P).imI, (axisQ ((euc (vecQ P))⁻¹ • vecQ P) (2 * Real.arccos P.re) - P).imJ,
      (axisQ ((euc (vecQ P))⁻¹ • vecQ P) (2 * Real.arccos P.re) - P).imK, (axisQ ((euc (vecQ P))⁻¹ • vecQ P) (2 * Real.arccos P.re) - P).re] : Fin 4 → ℝ) =
      ((√(1 - P.re ^ 2) - euc (vecQ P)) * (euc (vecQ P))⁻¹) • ![P.imI, P.imJ, P.imK, 0] := by
    have hp' : euc ![P.imI, P.imJ, P.imK] ≠ 0 := hp.ne'
    funext i
    fin_cases i <;> simp [h2, hc, Real.sin_arccos, vecQ] <;> field_simp
  have e4 : euc ![P.imI, P.imJ, P.imK, 0] = euc (vecQ P) := by
    rw [euc_eq, euc_eq, Fin.sum_univ_four, Fin.sum_univ_three]; simp [vecQ]
  rw [norm_quat, e, euc_smul, e4, abs_mul, abs_of_pos (inv_pos.mpr hp), mul_assoc, inv_mul_cancel₀ hp.ne', mul_one]

include hφ in
/-- C87: rebuilding the quaternion from its axis and angle gives it back up to `3δ + 42u` and its own distance from the
unit quaternion with the same scalar part and axis. -/
theorem C87_rebuild {δ : ℝ} (L : AccLibm K φ δ) (q : Quat (Fl K)) (Q : ℍ[K]) (hq : q.Holds Q) (hw : |Q.re| ≤ 1) (he : (eta : K) ≤ u)
    (he8 : (eta : K) ≤ 1 / 100000000) (hO : (10 ^ 16 : K) ≤ omega) (hν : (nu : K) ≤ 1 / 4) (hen : (eta : K) ≤ nu) (X : Fin 3 → K)
    (hX : X = ![Q.imI, Q.imJ, Q.imK]) (h0 : X ≠ 0) (hn : ∀ i, X i = 0 ∨ 64 * nu ≤ X i * X i) (h2 : ∀ i, |X i| ≤ 2)
    (hk : 4 / 10 ^ 12 + 4 * u ≤ 1 - Q.re * Q.re) (hD : 2 * δ + 21 * φ u ≤ 1 / 8) :
    ∃ v α q' Q', q.toAxisAngle = .ok (v, α) ∧ Quat.initFromAxisAngleRadian v α = .ok q' ∧ q'.Holds Q' ∧
      ‖toH φ Q' - toH φ Q‖ ≤ 3 * δ + 42 * φ u + |√(1 - φ Q.re ^ 2) - euc (toR φ X)| := by
  obtain ⟨ru, rul, reta⟩ := phi_u φ hφ
  obtain ⟨P, -, hPe⟩ := L.pi
  have hδ0 : 0 ≤ δ := (abs_nonneg _).trans hPe
  have nup := nu_pos (K := K)
  obtain ⟨v, α, N, a, ev, hv, ha, hN, hN0, hN1, hae⟩ := C87_to_axis_angle φ hφ L (by linarith) q Q hq hw he he8 hO (by linarith) X hX h0
    (fun i => (hn i).imp_right fun h => by linarith) h2 hk
  have he' : φ eta ≤ φ u := hφ.monotone he
  -- the vector part
  have hvec : toR φ X = vecQ (toH φ Q) := by
    rw [hX]; funext i; fin_cases i <;> rfl
  have hXR : toR φ X ≠ 0 := fun h => h0 (by
    funext i
    have := congrFun h i
    exact hφ.injective (by simpa [toR] using this))
  have hXp := euc_pos hXR
  set n : Fin 3 → ℝ := (euc (toR φ X))⁻¹ • toR φ X with hnd
  have hni : ∀ i, φ (X i) / euc (toR φ X) = n i := fun i => by
    rw [hnd, Pi.smul_apply, smul_eq_mul, div_eq_inv_mul]; rfl
  have hn1 : euc n = 1 := by rw [hnd, euc_smul, abs_inv, abs_of_pos hXp, inv_mul_cancel₀ hXp.ne']
  have hn2 : ∀ i, |n i| ≤ 1 := fun i => (euc_coord n i).trans hn1.le
  simp only [hni] at hN
  have hNn : euc (toR φ N - n) ≤ 8 * φ u + 2 * φ eta := by
    have hw4 : euc ![n 0, n 1, n 2, 0] = 1 := by
      rw [← hn1, euc_eq, euc_eq, Fin.sum_univ_four, Fin.sum_univ_three]; simp
    have hE := near_unit (E := ![φ (N 0) - n 0, φ (N 1) - n 1, φ (N 2) - n 2, 0]) hw4 (a := 8 * φ u) (e := φ eta) (by positivity) reta.le (fun i => by
      fin_cases i
      · exact hN 0
      · exact hN 1
      · exact hN 2
      · simpa using reta.le)
    refine le_trans (le_of_eq ?_) hE
    rw [euc_eq, euc_eq, Fin.sum_univ_four, Fin.sum_univ_three]; simp [toR]
  -- the axis is in range
  have hNne : N ≠ 0 := fun h => by
    have e0 : toR φ N = 0 := by rw [h]; funext i; simp [toR]
    rw [e0, (euc_eq_zero _).mpr rfl] at hN1
    norm_num at hN1
    linarith
  have hNl : ∀ i, N i = 0 ∨ nu ≤ N i * N i := fun i => by
    rcases hn i with h | h
    · exact .inl (hN0 i h)
    · right
      by_contra hlt
      have hlt := hφ (not_le.mp hlt)
      rw [map_mul] at hlt
      have h' := hφ.monotone h
      rw [map_mul, map_mul, map_ofNat] at h'
      have nuR : 0 < φ nu := by have := hφ nup; rwa [map_zero] at this
      have nuR1 : φ nu ≤ 1 / 4 := by have := hφ.monotone hν; rwa [map_div₀, map_one, map_ofNat] at this
      have enR : φ eta ≤ φ nu := hφ.monotone hen
      have hr := Real.sq_sqrt nuR.le
      set r := √(φ nu) with hrd
      have r0 : 0 < r := Real.sqrt_pos.mpr nuR
      have r1 : r ≤ 1 / 2 := by
        rw [hrd]; apply Real.sqrt_le_iff.mpr; exact ⟨by norm_num, by linarith⟩
      have hr2 : r ^ 2 ≤ r * (1 / 2) := by rw [sq]; exact mul_le_mul_of_nonneg_left r1 r0.le
      have xl : 8 * r ≤ |φ (X i)| := by
        apply le_of_sq_le_sq _ (abs_nonneg _)
        rw [sq_abs, mul_pow, hr]; linarith
      have xX : euc (toR φ X) ≤ 4 := by
        have : euc (toR φ X) ≤ euc (fun _ : Fin 3 => (2 : ℝ)) := euc_mono fun j => by
          have := hφ.monotone (h2 j)
          rwa [map_abs_mono φ hφ, map_ofNat] at this
        refine this.trans ?_
        rw [euc_eq, Fin.sum_univ_three]
        apply Real.sqrt_le_iff.mpr; norm_num
      have nl : 2 * r ≤ |n i| := by
        rw [← hni i, abs_div, abs_of_pos hXp, le_div_iff₀ hXp]
        have : 2 * r * euc (toR φ X) ≤ 2 * r * 4 := mul_le_mul_of_nonneg_left xX (by positivity)
        linarith
      have b1 := abs_add_le (n i - φ (N i)) (φ (N i))
      rw [sub_add_cancel, abs_sub_comm] at b1
      have b2 : 8 * φ u * |n i| ≤ 8 * (1 / 64) * |n i| := by gcongr
      have b3 : r < |φ (N i)| := by linarith [hN i]
      have b4 : r * r < |φ (N i)| * |φ (N i)| := mul_lt_mul'' b3 b3 r0.le r0.le
      rw [abs_mul_abs_self] at b4
      nlinarith
  have hNo : ∀ i, 8 * (N i * N i) ≤ omega := fun i => by
    have hN2 : |N i| ≤ 2 := by
      by_contra h
      have := hφ (not_le.mp h)
      rw [map_abs_mono φ hφ, map_ofNat] at this
      have h1 := abs_add_le (φ (N i) - n i) (n i)
      rw [sub_add_cancel] at h1
      have h2 : 8 * φ u * |n i| ≤ 8 * φ u * 1 := mul_le_mul_of_nonneg_left (hn2 i) (by positivity)
      linarith [hN i, hn2 i]
    have : |N i| * |N i| ≤ 2 * 2 := mul_le_mul hN2 hN2 (abs_nonneg _) (by norm_num)
    rw [abs_mul_abs_self] at this
    linarith [show (32 : K) ≤ 10 ^ 16 by norm_num]
  -- the angle
  have a7 : |φ a| ≤ 7 := by
    have := abs_add_le (φ a - 2 * Real.arccos (φ Q.re)) (2 * Real.arccos (φ Q.re))
    rw [sub_add_cancel, abs_of_nonneg (show 0 ≤ 2 * Real.arccos (φ Q.re) by linarith [Real.arccos_nonneg (φ Q.re)])] at this
    linarith [Real.arccos_le_pi (φ Q.re), Real.pi_lt_d2]
  have a7K : |a| ≤ 7 := by
    by_contra h
    have := hφ (not_le.mp h)
    rw [map_abs_mono φ hφ, map_ofNat] at this; linarith
  have hau : (14 + |φ a|) * φ u ≤ 21 * φ u := by gcongr; linarith
  obtain ⟨q', Q', eq', hq', hc, -⟩ := C87_axis_angle φ hφ L v N hv hNne hNl hNo α a ha (by linarith [show (7 : K) ≤ 10 ^ 16 by norm_num]) he (by linarith)
  refine ⟨v, α, q', Q', ev, eq', hq', ?_⟩
  have hNR : euc (toR φ N) ≠ 0 := fun h => by
    rw [h] at hN1; norm_num at hN1; linarith
  have hNp := lt_of_le_of_ne (euc_nonneg _) hNR.symm
  have hm : euc ((euc (toR φ N))⁻¹ • toR φ N - n) ≤ 13 * φ u + 4 * φ eta := by
    have e1 : (euc (toR φ N))⁻¹ • toR φ N - n = ((euc (toR φ N))⁻¹ - 1) • toR φ N + (toR φ N - n) := by
      rw [sub_smul, one_smul]; abel
    have e2 : euc (((euc (toR φ N))⁻¹ - 1) • toR φ N) = |euc (toR φ N) - 1| := by
      rw [euc_smul, ← abs_of_pos hNp, ← abs_mul, abs_of_pos hNp, sub_mul, inv_mul_cancel₀ hNR, one_mul, abs_sub_comm]
    have := euc_add_le (((euc (toR φ N))⁻¹ - 1) • toR φ N) (toR φ N - n)
    rw [← e1, e2] at this
    linarith
  have t1 := axisQ_axis ((euc (toR φ N))⁻¹ • toR φ N) n (φ a)
  have t2 := axisQ_lipschitz (n := n) (by rw [← euc_sq, hn1, mul_one]) (φ a) (2 * Real.arccos (φ Q.re))
  have t3 : ‖axisQ n (2 * Real.arccos (φ Q.re)) - toH φ Q‖ = |√(1 - φ Q.re ^ 2) - euc (toR φ X)| := by
    rw [hnd, hvec]
    exact axisQ_of (hvec ▸ hXR) (by
      have := hφ.monotone hw
      rwa [map_abs_mono φ hφ, map_one] at this)
  have s1 := norm_sub_le_norm_sub_add_norm_sub (toH φ Q') (axisQ ((euc (toR φ N))⁻¹ • toR φ N) (φ a)) (toH φ Q)
  have s2 := norm_sub_le_norm_sub_add_norm_sub (axisQ ((euc (toR φ N))⁻¹ • toR φ N) (φ a)) (axisQ n (φ a)) (toH φ Q)
  have s3 := norm_sub_le_norm_sub_add_norm_sub (axisQ n (φ a)) (axisQ n (2 * Real.arccos (φ Q.re))) (toH φ Q)
  linarith

end whole

/-! ### concrete cases in binary64 -/

section cases

attribute [local instance] accLibm64

theorem u64 : (u : Q64) ≤ 1 / 10 ^ 15 := by
  rw [C55_constants.1]; exact (by norm_num : (2 : ℚ) ^ (-53 : ℤ) ≤ 1 / 10 ^ 15)

theorem real_u15 : BinQ.real (u : Q64) ≤ 1 / 10 ^ 15 := by
  have := BinQ.real_strictMono.monotone u64
  rwa [map_div₀, map_one, map_pow, map_ofNat] at this

theorem one64 : (.fin 1 : Fl Q64).Holds 1 := ⟨rfl, .inr (by decide +kernel)⟩

theorem rad64 : 2 * (2 : ℝ) ^ (-49 : ℤ) + (14 + |BinQ.real (1 : Q64)|) * BinQ.real (u : Q64) ≤ 1 / 8 := by
  rw [map_one, abs_one]
  have := real_u15
  norm_num; linarith

/-- concrete case: one radian about `b405` -/
example := C87_axis_angle BinQ.real BinQ.real_strictMono accLibm64_acc b405 B405 b405_holds B405_ne B405_lo B405_hi (.fin 1) 1 one64
  (by rw [abs_one]; have := omega_big; linarith) eta_u rad64

/-- concrete case -/
example := C87_rotate BinQ.real BinQ.real_strictMono accLibm64_acc b405 B405 b405_holds B405_ne B405_lo B405_hi (.fin 1) 1 one64
  (by rw [abs_one]; have := omega_big; linarith) eta_u rad64 _ rfl

/-- concrete case: 90 degrees -/
example := C87_degree BinQ.real BinQ.real_strictMono accLibm64_acc (.inr (by decide +kernel)) b405 B405 b405_holds B405_ne B405_lo B405_hi
  (.fin 90) 90 ⟨rfl, .inr (by decide +kernel)⟩ (by rw [abs_of_pos (by norm_num)]; have := omega_big; linarith) eta_u (1 / 2)
  (by rw [map_ofNat]; norm_num) (by have := real_u15; norm_num; linarith)

/-- a unit quaternion: a third of a turn -/
def q1111 : Quat (Fl Q64) := ⟨.fin (1 / 2), .fin (-1 / 2), .fin (1 / 2), .fin (1 / 2)⟩
def H1111 : ℍ[Q64] := ⟨1 / 2, 1 / 2, -1 / 2, 1 / 2⟩
theorem q1111_holds : q1111.Holds H1111 := by
  refine ⟨⟨rfl, half64⟩, ⟨rfl, ?_⟩, ⟨rfl, half64⟩, ⟨rfl, half64⟩⟩
  exact .inr (by decide +kernel)
def X1111 : Fin 3 → Q64 := ![1 / 2, -1 / 2, 1 / 2]

theorem x1111_ne : X1111 ≠ 0 := fun h => absurd (congrFun h 0) (by show ¬ (1 / 2 : ℚ) = 0; norm_num)
theorem nu64 : (nu : Q64) ≤ 1 / 1000 := by
  rw [C55_constants.2.2.1]; show ((2 : ℚ) ^ (-1022 : ℤ) : ℚ) ≤ 1 / 1000
  exact (zpow_le_zpow_right₀ (by norm_num) (show (-1022 : ℤ) ≤ -10 by norm_num)).trans (by norm_num)
theorem x1111_lo (i : Fin 3) : X1111 i = 0 ∨ 64 * nu ≤ X1111 i * X1111 i := .inr (by
  have := nu64
  have e : X1111 i * X1111 i = 1 / 4 := by
    fin_cases i <;> simp [X1111] <;> norm_num
  rw [e]; linarith)
theorem x1111_hi (i : Fin 3) : |X1111 i| ≤ 2 := by
  have e : |X1111 i| = 1 / 2 := by
    fin_cases i <;> simp [X1111, abs_div]
  rw [e]; norm_num
theorem eta64 : (eta : Q64) ≤ 1 / 100000000 := by
  rw [C55_constants.2.1]; show ((2 : ℚ) ^ (-1075 : ℤ) : ℚ) ≤ 1 / 100000000
  exact (zpow_le_zpow_right₀ (by norm_num) (show (-1075 : ℤ) ≤ -40 by norm_num)).trans (by norm_num)
theorem omega64 : (10 ^ 16 : Q64) ≤ omega := by
  rw [C55_constants.2.2.2.1]; show (10 ^ 16 : ℚ) ≤ (2 : ℚ) ^ (1023 : ℤ)
  exact le_trans (by norm_num) (zpow_le_zpow_right₀ (by norm_num) (show (60 : ℤ) ≤ 1023 by norm_num))
theorem eta_nu64 : (eta : Q64) ≤ nu := by
  rw [C55_constants.2.1, C55_constants.2.2.1]; show ((2 : ℚ) ^ (-1075 : ℤ) : ℚ) ≤ (2 : ℚ) ^ (-1022 : ℤ)
  exact zpow_le_zpow_right₀ (by norm_num) (by norm_num)
theorem re1111 : H1111.re * H1111.re = 1 / 4 := by show (1 / 2 * (1 / 2) : ℚ) = 1 / 4; norm_num
theorem cut1111 : 4 / 10 ^ 12 + 4 * u ≤ 1 - H1111.re * H1111.re := by
  rw [re1111]; have := u64; linarith [show (4 / 10 ^ 12 + 4 * (1 / 10 ^ 15) : Q64) ≤ 1 - 1 / 4 by norm_num]
theorem abs1111 : |H1111.re| ≤ 1 := abs_le_one_iff_mul_self_le_one.mpr (by rw [re1111]; norm_num)

/-- concrete case -/
example := C87_to_axis_angle BinQ.real BinQ.real_strictMono accLibm64_acc (by norm_num) q1111 H1111 q1111_holds abs1111 eta_u eta64 omega64
  (by have := nu64; linarith) X1111 rfl x1111_ne (fun i => (x1111_lo i).imp_right fun h => by have := nu_pos (K := Q64); linarith) x1111_hi cut1111

/-- concrete case; here the last term is zero -/
example := C87_rebuild BinQ.real BinQ.real_strictMono accLibm64_acc q1111 H1111 q1111_holds abs1111 eta_u eta64 omega64
  (by have := nu64; linarith) eta_nu64 X1111 rfl x1111_ne x1111_lo x1111_hi cut1111 (by have := real_u15; norm_num; linarith)

/-- concrete case: the identity -/
example := C87_cutoff (K := Q64) ⟨.fin 0, .fin 0, .fin 0, .fin 1⟩ ⟨1, 0, 0, 0⟩
  ⟨⟨rfl, .inl rfl⟩, ⟨rfl, .inl rfl⟩, ⟨rfl, .inl rfl⟩, one64⟩ (le_of_eq abs_one) eta_u eta64
  (by show 1 - 1 * 1 + 4 * u ≤ (9 / 10 ^ 13 : Q64)
      have := u64; linarith [show 1 - 1 * 1 + 4 * (1 / 10 ^ 15) ≤ (9 / 10 ^ 13 : Q64) by norm_num])

end cases

/-- a square root of a negative number spoils every component -/
theorem toAxisAngle_nan {K : Type} [Field K] [LinearOrder K] [Fmt K] [Libm K] (x y z w : Fl K) (h : Fl.sqrt (1 - w * w) = .nan) :
    (⟨x, y, z, w⟩ : Quat (Fl K)).toAxisAngle = .ok (⟨#v[.nan, .nan, .nan]⟩, Fl.lit 2 * Libm.acos w) := by
  have hd : ∀ a : Fl K, a / .nan = .nan := fun a => by cases a <;> rfl
  unfold Quat.toAxisAngle
  dsimp only
  rw [h]
  simp only [hd]
  rfl

/-- C87: the bound `|w| ≤ 1` is needed: a quaternion whose scalar part is one unit in the last place above `1` (its norm is
within `2^-51` of `1`) has no axis in binary64: `to_axis_angle` returns NaN in every component, whatever the library. -/
theorem C87_overshoot_false : ∃ q : Quat (Fl Q64), q.Holds ⟨1 + 1 / 2 ^ 52, 0, 0, 0⟩ ∧
    ∀ _ : Libm Q64, ∃ a, q.toAxisAngle = .ok (⟨#v[.nan, .nan, .nan]⟩, a) := by
  refine ⟨⟨.fin 0, .fin 0, .fin 0, .fin (1 + 1 / 2 ^ 52)⟩, ⟨⟨rfl, .inl rfl⟩, ⟨rfl, .inl rfl⟩, ⟨rfl, .inl rfl⟩, ⟨rfl, .inr (by decide +kernel)⟩⟩,
    fun L => ⟨Fl.lit 2 * L.acos (.fin (1 + 1 / 2 ^ 52)), ?_⟩⟩
  have hs : Fl.sqrt (1 - .fin (1 + 1 / 2 ^ 52) * .fin (1 + 1 / 2 ^ 52) : Fl Q64) = .nan := by decide +kernel
  exact toAxisAngle_nan _ _ _ _ hs

end Mazth
