import Verif.Props.Trace
import Verif.Props.Recheck
import Verif.Props.FloatRotate

/-!
# C110: following a ray through a scene, in binary64
-/

set_option linter.unusedSectionVars false
set_option autoImplicit false

namespace Mazth

open Matrix RndErr

/-- a shape of binary64 data with coordinates up to `M` that the ray from `o` along `d` clearly meets or clearly misses: a sphere that
lies beside, behind, around or ahead of the origin, and a plane that faces the origin and from which the ray rises, or to which it descends
at a cosine of at least 1/8.  The locations of the spheres are exact up to `ε` (`τ` of C66). -/
inductive Clear64 (o d : Fin 3 → Q64) (M : Q64) (ε : ℝ) : Shape Q64 → Set R3 → Prop
  | sphere {t : Sphere Q64} {k : List (Fl Q64)} {x : Fl Q64} {c : Fin 3 → Q64} {r b D : ℝ} {r' : Q64} (hk : ListIn k c) (hx : x.Holds r')
      (ht : Sphere.init k x = .ok t) (hc : ∀ i, |c i| ≤ M) (hr0 : 0 ≤ r') (hr : r' ≤ M) (er : r'.real = r)
      (hb : (toR BinQ.real o - toR BinQ.real c) ⬝ᵥ unit (toR BinQ.real d) = b)
      (hD : b * b - ((toR BinQ.real o - toR BinQ.real c) ⬝ᵥ (toR BinQ.real o - toR BinQ.real c) - r * r) = D)
      (clear : D < -(2 ^ (-44 : ℤ) * (M.real * M.real)) ∨
        2 ^ (-44 : ℤ) * (M.real * M.real) ≤ D ∧ 5 / 2 * (2 ^ (-44 : ℤ) * (M.real * M.real) / √D) ≤ ε ∧
          (-b + √D < -ε ∨ (-b - √D < -ε ∧ ε < -b + √D) ∨ ε < -b - √D)) :
      Clear64 o d M ε (.sphere t) {p | euc (p - toR BinQ.real c) = r}
  | plane {t : Plane Q64} {k k' : List (Fl Q64)} {a n : Fin 3 → Q64} (hk : ListIn k a) (hk' : ListIn k' n) (ht : Plane.init k k' = .ok t)
      (ha : ∀ i, |a i| ≤ M) (hn0 : n ≠ 0) (hn : ∀ i, n i = 0 ∨ ((2 : ℚ) ^ (-511 : ℤ) : ℚ) ≤ |n i|)
      (hn' : ∀ i, |n i| ≤ ((2 : ℚ) ^ (510 : ℤ) : ℚ))
      (front : 2 * (2 ^ (-47 : ℤ) * M.real + 2 ^ (-1072 : ℤ)) < signedDist (toR BinQ.real a) (toR BinQ.real n) (toR BinQ.real o))
      (clear : 2 ^ (-48 : ℤ) < unit (toR BinQ.real d) ⬝ᵥ unit (toR BinQ.real n) ∨ unit (toR BinQ.real d) ⬝ᵥ unit (toR BinQ.real n) ≤ -(1 / 8)) :
      Clear64 o d M ε (.plane t) (planePts (toR BinQ.real a) (toR BinQ.real n))

/-- the ray and the range of the data: a direction with components zero or between `2^-511` and `2^510`, an origin with coordinates up to
`M`, where `2^-480 ≤ M ≤ 2^500`, and a tolerance `ε` between `2^-38 M` and `M` -/
structure Ray64 (q : Ray3 Q64) (o d : Fin 3 → Q64) (M : Q64) (ε : ℝ) : Prop where
  made : ∃ l l', ListIn l o ∧ ListIn l' d ∧ Ray3.init l l' = .ok q
  d0 : d ≠ 0
  dlo : ∀ i, d i = 0 ∨ ((2 : ℚ) ^ (-511 : ℤ) : ℚ) ≤ |d i|
  dhi : ∀ i, |d i| ≤ ((2 : ℚ) ^ (510 : ℤ) : ℚ)
  ohi : ∀ i, |o i| ≤ M
  Mlo : ((2 : ℚ) ^ (-480 : ℤ) : ℚ) ≤ M
  Mhi : M ≤ ((2 : ℚ) ^ (500 : ℤ) : ℚ)
  εlo : 2 ^ (-38 : ℤ) * M.real ≤ ε
  εhi : ε ≤ M.real

namespace Tracing

/-- what one query tells: a location near the first point, or that there is none -/
def Told (q : Ray3 Q64) (o d : R3) (M ε : ℝ) (s : Shape Q64) (S : Set R3) : Prop :=
  (∃ loc P p, Shape.getIntersect 2 (.ray q) s = .ok (true, some loc) ∧ loc.Holds P ∧ p ∈ rayPts o d ∩ S ∧ euc (p - o) ≤ 28 * M ∧
      (∀ i, |(P i).real - p i| ≤ ε) ∧ ∀ y ∈ rayPts o d ∩ S, euc (p - o) ≤ euc (y - o)) ∨
    (Shape.getIntersect 2 (.ray q) s = .ok (false, none) ∧ rayPts o d ∩ S = ∅)

theorem Mpos {q : Ray3 Q64} {o d : Fin 3 → Q64} {M : Q64} {ε : ℝ} (R : Ray64 q o d M ε) : (2 : ℝ) ^ (-480 : ℤ) ≤ M.real := by
  have := BinQ.real_strictMono.monotone R.Mlo
  refine le_trans (le_of_eq ?_) this
  show _ = ((((2 : ℚ) ^ (-480 : ℤ) : ℚ)) : ℝ)
  rw [Rat.cast_zpow, Rat.cast_ofNat]

theorem Mle {q : Ray3 Q64} {o d : Fin 3 → Q64} {M : Q64} {ε : ℝ} (R : Ray64 q o d M ε) : M.real ≤ (2 : ℝ) ^ (500 : ℤ) := by
  have := BinQ.real_strictMono.monotone R.Mhi
  refine le_trans this (le_of_eq ?_)
  show ((((2 : ℚ) ^ (500 : ℤ) : ℚ)) : ℝ) = _
  rw [Rat.cast_zpow, Rat.cast_ofNat]

theorem on_sphere {o u c : R3} (hu : u ⬝ᵥ u = 1) {r : ℝ} (hr : 0 ≤ r) (t : ℝ) :
    euc (o + t • u - c) = r ↔ (t + (o - c) ⬝ᵥ u) * (t + (o - c) ⬝ᵥ u) =
      (o - c) ⬝ᵥ u * ((o - c) ⬝ᵥ u) - ((o - c) ⬝ᵥ (o - c) - r * r) := by
  have e1 : o + t • u - c = (o - c) + t • u := by abel
  rw [← mul_self_inj (euc_nonneg _) hr, euc_sq, e1, dot_expand, hu]
  constructor <;> intro h <;> linarith

theorem told_sphere {q : Ray3 Q64} {o d : Fin 3 → Q64} {M : Q64} {ε : ℝ} (R : Ray64 q o d M ε)
    {t : Sphere Q64} {k : List (Fl Q64)} {x : Fl Q64} {c : Fin 3 → Q64} {r b D : ℝ} {r' : Q64} (hk : ListIn k c) (hx : x.Holds r')
    (ht : Sphere.init k x = .ok t) (hc : ∀ i, |c i| ≤ M) (hr0 : 0 ≤ r') (hr : r' ≤ M) (er : r'.real = r)
    (hb : (toR BinQ.real o - toR BinQ.real c) ⬝ᵥ unit (toR BinQ.real d) = b)
    (hD : b * b - ((toR BinQ.real o - toR BinQ.real c) ⬝ᵥ (toR BinQ.real o - toR BinQ.real c) - r * r) = D)
    (clear : D < -(2 ^ (-44 : ℤ) * (M.real * M.real)) ∨
      2 ^ (-44 : ℤ) * (M.real * M.real) ≤ D ∧ 5 / 2 * (2 ^ (-44 : ℤ) * (M.real * M.real) / √D) ≤ ε ∧
        (-b + √D < -ε ∨ (-b - √D < -ε ∧ ε < -b + √D) ∨ ε < -b - √D)) :
    Told q (toR BinQ.real o) (toR BinQ.real d) M.real ε (.sphere t) {p | euc (p - toR BinQ.real c) = r} := by
  obtain ⟨l, l', hl, hl', hq⟩ := R.made
  have hM' : ((2 : ℚ) ^ (-500 : ℤ) : ℚ) ≤ M := le_trans (show ((2 : ℚ) ^ (-500 : ℤ) : ℚ) ≤ ((2 : ℚ) ^ (-480 : ℤ) : ℚ) from zpow_le_zpow_right₀ (by norm_num) (by norm_num)) R.Mlo
  have key := C66_raySphere_f64 hl hl' hq hk hx ht R.d0 R.dlo R.dhi R.ohi hc hr0 hr hM' R.Mhi
  simp only [hb, er, hD] at key
  have hd := Recheck.toR_ne R.d0
  have hu := unit_of hd
  have hM0 := Mpos R
  have hM00 : (0 : ℝ) < 2 ^ (-480 : ℤ) := by positivity
  have hMp : 0 < M.real := hM00.trans_le hM0
  have hr0' : 0 ≤ r := by rw [← er]; have := BinQ.real_strictMono.monotone hr0; rwa [map_zero] at this
  have hrM : r ≤ M.real := by rw [← er]; exact BinQ.real_strictMono.monotone hr
  have hε0 : 0 ≤ ε := le_trans (by positivity) R.εlo
  have hon (t : ℝ) : euc (toR BinQ.real o + t • unit (toR BinQ.real d) - toR BinQ.real c) = r ↔ (t + b) * (t + b) = D := by
    rw [on_sphere hu hr0', hb, hD]
  have hoc : euc (toR BinQ.real c - toR BinQ.real o) ≤ 7 / 2 * M.real := by
    refine (euc_le_of (ε := 2 * M.real) fun i => ?_).trans (by linarith)
    have h1 := Recheck.abs_le64 (hc i)
    have h2 := Recheck.abs_le64 (R.ohi i)
    have h3 := abs_sub ((c i).real) ((o i).real)
    show |(c i).real - (o i).real| ≤ _
    linarith
  have hfar (p : R3) (h : euc (p - toR BinQ.real c) = r) : euc (p - toR BinQ.real o) ≤ 28 * M.real := by
    have := euc_add_le (p - toR BinQ.real c) (toR BinQ.real c - toR BinQ.real o)
    rw [sub_add_sub_cancel] at this
    linarith
  -- the two parameters where the line meets the sphere
  have roots (t : ℝ) (h : (t + b) * (t + b) = D) : 0 ≤ D ∧ (t = -b - √D ∨ t = -b + √D) := by
    have h0 : 0 ≤ D := h ▸ mul_self_nonneg _
    refine ⟨h0, ?_⟩
    have : (t + b - √D) * (t + b + √D) = 0 := by linarith [Real.mul_self_sqrt h0]
    rcases mul_eq_zero.mp this with h | h
    · right; linarith
    · left; linarith
  have nomeet (h : ∀ t : ℝ, 0 ≤ t → (t + b) * (t + b) ≠ D) :
      rayPts (toR BinQ.real o) (toR BinQ.real d) ∩ {p | euc (p - toR BinQ.real c) = r} = ∅ := by
    rw [Set.eq_empty_iff_forall_notMem]
    rintro y ⟨h1, h2⟩
    obtain ⟨t, h0, rfl⟩ := (rayPts_unit hd).mp h1
    exact h t h0 ((hon t).mp h2)
  have meet (T : ℝ) (h0 : 0 ≤ T) (h : (T + b) * (T + b) = D) (hmin : ∀ t : ℝ, 0 ≤ t → (t + b) * (t + b) = D → T ≤ t)
      (hh : ∃ loc P, Shape.getIntersect 2 (.ray q) (.sphere t) = .ok (true, some loc) ∧ loc.Holds P ∧
        ∀ i, |(P i).real - (toR BinQ.real o + T • unit (toR BinQ.real d)) i| ≤ 5 / 2 * (2 ^ (-44 : ℤ) * (M.real * M.real) / √D))
      (hτ : 5 / 2 * (2 ^ (-44 : ℤ) * (M.real * M.real) / √D) ≤ ε) :
      Told q (toR BinQ.real o) (toR BinQ.real d) M.real ε (.sphere t) {p | euc (p - toR BinQ.real c) = r} := by
    obtain ⟨loc, P, h1, h2, h3⟩ := hh
    refine .inl ⟨loc, P, toR BinQ.real o + T • unit (toR BinQ.real d), h1, h2, ⟨(rayPts_unit hd).mpr ⟨T, h0, rfl⟩, (hon T).mpr h⟩, hfar _ ((hon T).mpr h), fun i => (h3 i).trans hτ, ?_⟩
    rintro y ⟨hy1, hy2⟩
    obtain ⟨t, ht0, rfl⟩ := (rayPts_unit hd).mp hy1
    rw [dist_ray hd h0, dist_ray hd ht0]
    exact hmin t ht0 ((hon t).mp hy2)
  have hΔ : 0 ≤ 2 ^ (-44 : ℤ) * (M.real * M.real) := by positivity
  obtain ⟨k1, k2, k3, k4⟩ := key
  rcases clear with h | ⟨hD1, hτ, h | ⟨h, h'⟩ | h⟩
  · refine .inr ⟨k1 h, nomeet fun t _ e => ?_⟩
    have := (roots t e).1
    linarith
  · refine .inr ⟨k2 hD1 (by linarith), nomeet fun t h0 e => ?_⟩
    have hs := Real.sqrt_nonneg D
    rcases (roots t e).2 with e | e <;> linarith
  · have hD0 := hΔ.trans hD1
    refine meet (-b + √D) (by linarith) ?_ ?_ (k3 hD1 (by linarith) (by linarith)) hτ
    · linarith [Real.mul_self_sqrt hD0]
    · intro t h0 e
      rcases (roots t e).2 with e | e <;> linarith
  · have hD0 := hΔ.trans hD1
    refine meet (-b - √D) (by linarith) ?_ ?_ (k4 hD1 (by linarith)) hτ
    · linarith [Real.mul_self_sqrt hD0]
    · intro t h0 e
      have hs := Real.sqrt_nonneg D
      rcases (roots t e).2 with e | e <;> linarith

theorem told_plane {q : Ray3 Q64} {o d : Fin 3 → Q64} {M : Q64} {ε : ℝ} (R : Ray64 q o d M ε)
    {t : Plane Q64} {k k' : List (Fl Q64)} {a n : Fin 3 → Q64} (hk : ListIn k a) (hk' : ListIn k' n) (ht : Plane.init k k' = .ok t)
    (ha : ∀ i, |a i| ≤ M) (hn0 : n ≠ 0) (hn : ∀ i, n i = 0 ∨ ((2 : ℚ) ^ (-511 : ℤ) : ℚ) ≤ |n i|)
    (hn' : ∀ i, |n i| ≤ ((2 : ℚ) ^ (510 : ℤ) : ℚ))
    (front : 2 * (2 ^ (-47 : ℤ) * M.real + 2 ^ (-1072 : ℤ)) < signedDist (toR BinQ.real a) (toR BinQ.real n) (toR BinQ.real o))
    (clear : 2 ^ (-48 : ℤ) < unit (toR BinQ.real d) ⬝ᵥ unit (toR BinQ.real n) ∨ unit (toR BinQ.real d) ⬝ᵥ unit (toR BinQ.real n) ≤ -(1 / 8)) :
    Told q (toR BinQ.real o) (toR BinQ.real d) M.real ε (.plane t) (planePts (toR BinQ.real a) (toR BinQ.real n)) := by
  obtain ⟨l, l', hl, hl', hq⟩ := R.made
  have hM' : M ≤ ((2 : ℚ) ^ (960 : ℤ) : ℚ) := le_trans R.Mhi (show ((2 : ℚ) ^ (500 : ℤ) : ℚ) ≤ ((2 : ℚ) ^ (960 : ℤ) : ℚ) from zpow_le_zpow_right₀ (by norm_num) (by norm_num))
  obtain ⟨k1, -, k3⟩ := C65_rayPlane_f64 hl hl' hq hk hk' ht R.d0 R.dlo R.dhi hn0 hn hn' R.ohi ha hM'
  have hd := Recheck.toR_ne R.d0
  have hn1 := Recheck.toR_ne hn0
  have hM0 := Mpos R
  have hM00 : (0 : ℝ) < 2 ^ (-480 : ℤ) := by positivity
  have hMp : 0 < M.real := hM00.trans_le hM0
  have hz : (2 : ℝ) ^ (-1072 : ℤ) ≤ 2 ^ (-60 : ℤ) * M.real := by
    calc (2 : ℝ) ^ (-1072 : ℤ) ≤ 2 ^ (-60 : ℤ) * 2 ^ (-480 : ℤ) := by
          rw [← zpow_add₀ (by norm_num)]; exact zpow_le_zpow_right₀ (by norm_num) (by norm_num)
      _ ≤ _ := by gcongr
  have hz0 : (0 : ℝ) < 2 ^ (-1072 : ℤ) := by positivity
  have hsd : |signedDist (toR BinQ.real a) (toR BinQ.real n) (toR BinQ.real o)| ≤ 7 / 2 * M.real := Recheck.signedDist_le hn1 (fun i => Recheck.abs_le64 (ha i)) (fun i => Recheck.abs_le64 (R.ohi i))
  -- points of the ray on the plane
  have on (T : ℝ) : toR BinQ.real o + T • unit (toR BinQ.real d) ∈ planePts (toR BinQ.real a) (toR BinQ.real n) ↔
      signedDist (toR BinQ.real a) (toR BinQ.real n) (toR BinQ.real o) + T * (unit (toR BinQ.real d) ⬝ᵥ unit (toR BinQ.real n)) = 0 := by
    show (_ - toR BinQ.real a) ⬝ᵥ toR BinQ.real n = 0 ↔ _
    have e : signedDist (toR BinQ.real a) (toR BinQ.real n) (toR BinQ.real o) + T * (unit (toR BinQ.real d) ⬝ᵥ unit (toR BinQ.real n)) =
        (euc (toR BinQ.real n))⁻¹ * ((toR BinQ.real o + T • unit (toR BinQ.real d) - toR BinQ.real a) ⬝ᵥ toR BinQ.real n) := by
      rw [show toR BinQ.real o + T • unit (toR BinQ.real d) - toR BinQ.real a = (toR BinQ.real o - toR BinQ.real a) + T • unit (toR BinQ.real d) by abel,
        add_dotProduct, smul_dotProduct]
      simp only [signedDist, unit, dotProduct_smul, smul_dotProduct, smul_eq_mul]
      ring
    rw [e]
    have := (inv_pos.mpr (euc_pos hn1)).ne'
    constructor
    · intro h; rw [h, mul_zero]
    · intro h; exact (mul_eq_zero.mp h).resolve_left this
  set γ := unit (toR BinQ.real d) ⬝ᵥ unit (toR BinQ.real n)
  set σ := signedDist (toR BinQ.real a) (toR BinQ.real n) (toR BinQ.real o)
  have hσ : 0 < σ := lt_trans (by positivity) front
  rcases clear with h | h
  · refine .inr ⟨k1 h, ?_⟩
    rw [Set.eq_empty_iff_forall_notMem]
    rintro y ⟨h1, h2⟩
    obtain ⟨T, h0, rfl⟩ := (rayPts_unit hd).mp h1
    have := (on T).mp h2
    have : 0 ≤ T * γ := mul_nonneg h0 (le_trans (by positivity) h.le)
    linarith
  · have h48 : (2 : ℝ) ^ (-48 : ℤ) = 1 / 281474976710656 := by norm_num
    obtain ⟨loc, P, e, hP, y, ⟨hy1, hy2⟩, hB⟩ := k3 (by rw [h48]; linarith) front
    obtain ⟨T, h0, rfl⟩ := (rayPts_unit hd).mp hy1
    have hT := (on T).mp hy2
    have hT28 : T ≤ 28 * M.real := by
      have h1 := (abs_le.mp hsd).2
      have h2 := mul_le_mul_of_nonneg_left h h0
      linarith
    rw [dist_ray hd h0] at hB
    refine .inl ⟨loc, P, _, e, hP, ⟨hy1, hy2⟩, by rw [dist_ray hd h0]; exact hT28, fun i => (hB i).trans ?_, ?_⟩
    · refine le_trans ?_ R.εlo
      rw [abs_of_neg (by linarith)]
      have hg : 1 / 8 ≤ -γ := by linarith
      have h47 : (2 : ℝ) ^ (-47 : ℤ) = 1 / 140737488355328 := by norm_num
      have h38 : (2 : ℝ) ^ (-38 : ℤ) = 1 / 274877906944 := by norm_num
      have h60 : (2 : ℝ) ^ (-60 : ℤ) = 1 / 1152921504606846976 := by norm_num
      rw [h47, h48, h38]
      rw [h60] at hz
      generalize (2 : ℝ) ^ (-1072 : ℤ) = z at *
      have : (1 / 140737488355328 * M.real + z + 1 / 281474976710656 * T) / -γ ≤ 1 / 274877906944 * M.real / 4 := by
        rw [div_le_iff₀ (by linarith)]
        have : 1 / 274877906944 * M.real / 4 * (1 / 8) ≤ 1 / 274877906944 * M.real / 4 * -γ := by gcongr
        linarith
      linarith
    · rintro y ⟨hy1', hy2'⟩
      obtain ⟨T', h0', rfl⟩ := (rayPts_unit hd).mp hy1'
      have hT' := (on T').mp hy2'
      have : T = T' := mul_right_cancel₀ (show γ ≠ 0 by linarith) (by linarith)
      rw [this]

theorem told {q : Ray3 Q64} {o d : Fin 3 → Q64} {M : Q64} {ε : ℝ} (R : Ray64 q o d M ε) {s : Shape Q64} {S : Set R3} (h : Clear64 o d M ε s S) :
    Told q (toR BinQ.real o) (toR BinQ.real d) M.real ε s S := by
  cases h with
  | sphere hk hx ht hc hr0 hr er hb hD clear => exact told_sphere R hk hx ht hc hr0 hr er hb hD clear
  | plane hk hk' ht ha hn0 hn hn' front clear => exact told_plane R hk hk' ht ha hn0 hn hn' front clear

/-- a power of two as a number of the format -/
def p2 (k : ℤ) : Q64 := ((2 : ℚ) ^ k : ℚ)

theorem sqrt_eta : √(BinQ.real (eta : Q64)) ≤ 2 ^ (-537 : ℤ) := by
  rw [f64_consts.2, Real.sqrt_le_left (by positivity), ← zpow_natCast, ← zpow_mul]
  exact zpow_le_zpow_right₀ (by norm_num) (by norm_num)

/-- the distance the program computes for a reported location -/
theorem dist64 {q : Ray3 Q64} {o d : Fin 3 → Q64} {M : Q64} {ε : ℝ} (R : Ray64 q o d M ε) {loc : V3 Q64} {P : Fin 3 → Q64} (hP : loc.Holds P)
    {p : R3} (hp : euc (p - toR BinQ.real o) ≤ 28 * M.real) (hB : ∀ i, |(P i).real - p i| ≤ ε) :
    ∃ m : Q64, (V3.mag (V3.sub loc q.ori)).Is m ∧ |m.real - euc (p - toR BinQ.real o)| ≤ 9 / 4 * ε := by
  obtain ⟨l, l', hl, hl', hq⟩ := R.made
  obtain ⟨s1, s2, -⟩ := f64_range R.dlo R.dhi
  obtain ⟨hO, -⟩ := Ray3.init_facts BinQ.real BinQ.real_strictMono hl hl' hq R.d0 s1 s2
  have hM0 := Mpos R
  have hM00 : (0 : ℝ) < 2 ^ (-480 : ℤ) := by positivity
  have hMp : 0 < M.real := hM00.trans_le hM0
  obtain ⟨cu, ce, -, co, -⟩ := C55_constants
  have h1 : euc (toR BinQ.real P - p) ≤ 7 / 4 * ε := euc_le_of fun i => hB i
  have h2 := euc_add_le (toR BinQ.real P - p) (p - toR BinQ.real o)
  rw [sub_add_sub_cancel] at h2
  have h3 := euc_add_le (p - toR BinQ.real P) (toR BinQ.real P - toR BinQ.real o)
  rw [sub_add_sub_cancel, euc_sub_comm p (toR BinQ.real P)] at h3
  have hεM := R.εhi
  have hL : euc (toR BinQ.real P - toR BinQ.real o) ≤ 30 * M.real := by linarith
  -- the magnitude is finite
  have hc505 (i : Fin 3) : |P i - o i| ≤ p2 505 := by
    refine BinQ.real_strictMono.le_iff_le.mp ?_
    rw [map_abs_mono BinQ.real BinQ.real_strictMono, map_sub]
    have f := (euc_coord_le (toR BinQ.real P - toR BinQ.real o) i).trans hL
    refine le_trans f ?_
    have := Mle R
    have e : BinQ.real (p2 505) = 32 * (2 : ℝ) ^ (500 : ℤ) := by
      show ((((2 : ℚ) ^ (505 : ℤ) : ℚ)) : ℝ) = _
      rw [Rat.cast_zpow, Rat.cast_ofNat, show (505 : ℤ) = 5 + 500 by norm_num, zpow_add₀ (by norm_num)]; norm_num
    rw [e]
    generalize (2 : ℝ) ^ (500 : ℤ) = w at *
    linarith
  have hom : p2 505 ≤ (omega : Q64) := by
    rw [co]; show (2 : ℚ) ^ (505 : ℤ) ≤ 2 ^ (1023 : ℤ); exact zpow_le_zpow_right₀ (by norm_num) (by norm_num)
  have hC : ∃ C : Fin 3 → Q64, (V3.sub loc q.ori).Holds C ∧ ∀ i, |C i| ≤ p2 506 := by
    have hi (x y : Fl Q64) (i : Fin 3) (hx : x.Holds (P i)) (hy : y.Holds (o i)) : ∃ c : Q64, (x - y).Holds c ∧ |c| ≤ p2 506 := by
      obtain ⟨c, hc⟩ := Fl.sub_fin hx.1 hy.1 ((hc505 i).trans hom)
      refine ⟨c, ⟨hc, Fl.wf_sub _ _⟩, ?_⟩
      have he := Fl.sub_err hx.1 hy.1 hx.2 hy.2 hc
      have h2 := abs_add_le (c - (P i - o i)) (P i - o i)
      rw [sub_add_cancel] at h2
      have h3 : u * |P i - o i| ≤ (1 / 64 : Q64) * |P i - o i| := by gcongr; exact u_le
      have h4 := hc505 i
      have h5 : p2 506 = (2 : Q64) * p2 505 := by
        show (2 : ℚ) ^ (506 : ℤ) = 2 * 2 ^ (505 : ℤ)
        rw [show (506 : ℤ) = 1 + 505 by norm_num, zpow_add₀ (by norm_num)]; norm_num
      rw [h5]
      have h6 := abs_nonneg (P i - o i)
      generalize p2 505 = w at *
      generalize |P i - o i| = v at *
      linarith
    obtain ⟨c0, a0, b0⟩ := hi _ _ 0 (hP 0) (hO 0)
    obtain ⟨c1, a1, b1⟩ := hi _ _ 1 (hP 1) (hO 1)
    obtain ⟨c2, a2, b2⟩ := hi _ _ 2 (hP 2) (hO 2)
    refine ⟨![c0, c1, c2], fun i => ?_, fun i => ?_⟩
    · fin_cases i
      · exact a0
      · exact a1
      · exact a2
    · fin_cases i
      · exact b0
      · exact b1
      · exact b2
  obtain ⟨C, hC, hCN⟩ := hC
  obtain ⟨m, hm⟩ := mag_fin _ C hC (N := p2 506)
    (by show (1 : ℚ) ≤ 2 ^ (506 : ℤ); exact one_le_zpow₀ (by norm_num) (by norm_num))
    (by
      rw [co]
      show (8 : ℚ) * (2 ^ (506 : ℤ) * 2 ^ (506 : ℤ)) ≤ 2 ^ (1023 : ℤ)
      rw [← zpow_add₀ (by norm_num), show (8 : ℚ) = 2 ^ (3 : ℤ) by norm_num, ← zpow_add₀ (by norm_num)]
      exact zpow_le_zpow_right₀ (by norm_num) (by norm_num))
    (by rw [ce]; show (2 : ℚ) ^ (-1075 : ℤ) ≤ 1; exact zpow_le_one_of_nonpos₀ (by norm_num) (by norm_num)) hCN
  refine ⟨m, hm, ?_⟩
  have hdc := dist_close BinQ.real BinQ.real_strictMono q.ori loc o P hO hP m hm
  have hs := sqrt_eta
  rw [f64_consts.1] at hdc
  have hs' : (2 : ℝ) ^ (-537 : ℤ) ≤ 2 ^ (-57 : ℤ) * M.real := by
    calc (2 : ℝ) ^ (-537 : ℤ) = 2 ^ (-57 : ℤ) * 2 ^ (-480 : ℤ) := by rw [← zpow_add₀ (by norm_num)]; norm_num
      _ ≤ _ := by gcongr
  have h53 : (2 : ℝ) ^ (-53 : ℤ) = 1 / 9007199254740992 := by norm_num
  have h57 : (2 : ℝ) ^ (-57 : ℤ) = 1 / 144115188075855872 := by norm_num
  have h38 : (2 : ℝ) ^ (-38 : ℤ) = 1 / 274877906944 := by norm_num
  have hlo := R.εlo
  rw [h38] at hlo
  rw [h57] at hs'
  rw [h53] at hdc
  generalize (2 : ℝ) ^ (-537 : ℤ) = z at *
  obtain ⟨g1, g2⟩ := abs_le.mp hdc
  rw [abs_le]
  constructor <;> linarith

theorem main64 {q : Ray3 Q64} {o d : Fin 3 → Q64} {M : Q64} {ε : ℝ} (R : Ray64 q o d M ε) (ss : List (Shape Q64 × Set R3))
    (hss : ∀ x ∈ ss, Clear64 o d M ε x.1 x.2) :
    ∃ l, scan (.ray q) (ss.map Prod.fst) = .ok l ∧ ∀ best : Option (Shape Q64 × V3 Q64),
      (∀ b, best = some b → ∃ m : Q64, (V3.mag (V3.sub b.2 q.ori)).Is m) →
      (nearest q.ori l best = none ∧ best = none ∧ ∀ x ∈ ss, rayPts (toR BinQ.real o) (toR BinQ.real d) ∩ x.2 = ∅) ∨
      ∃ (b : Shape Q64 × V3 Q64) (m : Q64), nearest q.ori l best = some b ∧ (V3.mag (V3.sub b.2 q.ori)).Is m ∧
        (best = some b ∨ ∃ S P p, (b.1, S) ∈ ss ∧ b.2.Holds P ∧ p ∈ rayPts (toR BinQ.real o) (toR BinQ.real d) ∩ S ∧
          (∀ i, |(P i).real - p i| ≤ ε) ∧ euc (p - toR BinQ.real o) ≤ m.real + 9 / 4 * ε) ∧
        (∀ b0 (m0 : Q64), best = some b0 → (V3.mag (V3.sub b0.2 q.ori)).Is m0 → m ≤ m0) ∧
        ∀ x ∈ ss, ∀ y ∈ rayPts (toR BinQ.real o) (toR BinQ.real d) ∩ x.2, m.real ≤ euc (y - toR BinQ.real o) + 9 / 4 * ε := by
  have isU {x : Fl Q64} {a b : Q64} (h : x.Is a) (h' : x.Is b) : a = b := Option.some.inj (h.symm.trans h')
  induction ss with
  | nil =>
    refine ⟨[], rfl, fun best hb => ?_⟩
    cases best with
    | none => exact .inl ⟨rfl, rfl, by simp⟩
    | some b =>
      obtain ⟨m, hm⟩ := hb b rfl
      refine .inr ⟨b, m, rfl, hm, .inl rfl, ?_, by simp⟩
      rintro b' m0 e h0
      injection e with e
      subst e
      exact (isU hm h0).le
  | cons x ss ih =>
    obtain ⟨l, hl, ih⟩ := ih fun y hy => hss y (List.mem_cons_of_mem _ hy)
    rcases told R (hss x (by simp)) with ⟨loc, P, p, hf, hP, hp, hfar, hB, hmin⟩ | ⟨hm, hemp⟩
    · obtain ⟨m, hm, hmd⟩ := dist64 R hP hfar hB
      obtain ⟨d1, d2⟩ := abs_le.mp hmd
      refine ⟨(x.1, (true, some loc)) :: l, ?_, fun best hb => ?_⟩
      · simp only [List.map_cons, scan, hf, hl]
        rfl
      · have step : ∃ (b1 : Shape Q64 × V3 Q64) (m1 : Q64), nearest q.ori ((x.1, (true, some loc)) :: l) best = nearest q.ori l (some b1) ∧ (V3.mag (V3.sub b1.2 q.ori)).Is m1 ∧
            (best = some b1 ∨ (b1 = (x.1, loc) ∧ m1 = m)) ∧
            (∀ b0 (m0 : Q64), best = some b0 → (V3.mag (V3.sub b0.2 q.ori)).Is m0 → m1 ≤ m0) ∧ m1 ≤ m := by
          cases best with
          | none => exact ⟨(x.1, loc), m, rfl, hm, .inr ⟨rfl, rfl⟩, by simp, le_rfl⟩
          | some b =>
            obtain ⟨m0, hm0⟩ := hb b rfl
            by_cases hlt : m < m0
            · refine ⟨(x.1, loc), m, ?_, hm, .inr ⟨rfl, rfl⟩, ?_, le_rfl⟩
              · simp only [nearest]
                rw [if_pos ((Fl.Is.klt hm hm0).mpr hlt)]
              · rintro b' m0' e' h0
                injection e' with e'
                subst e'
                rw [isU h0 hm0]
                exact hlt.le
            · refine ⟨b, m0, ?_, hm0, .inl rfl, ?_, not_lt.mp hlt⟩
              · simp only [nearest]
                rw [if_neg fun h => hlt ((Fl.Is.klt hm hm0).mp h)]
              · rintro b' m0' e' h0
                injection e' with e'
                subst e'
                rw [isU h0 hm0]
        obtain ⟨b1, m1, e1, h1, hor, hle, hle'⟩ := step
        rcases ih (some b1) (by rintro b e; injection e with e; subst e; exact ⟨m1, h1⟩) with ⟨-, h, -⟩ | ⟨b, m2, r1, r2, r3, r4, r5⟩
        · cases h
        · have hm2 := r4 b1 m1 rfl h1
          refine .inr ⟨b, m2, by rw [e1, r1], r2, ?_, ?_, ?_⟩
          · rcases r3 with r3 | ⟨S, P', p', hS, h⟩
            · injection r3 with r3
              subst r3
              rcases hor with h | ⟨h, h'⟩
              · exact .inl h
              · subst h
                have : m2 = m := isU r2 hm
                subst this
                exact .inr ⟨x.2, P, p, by simp, hP, hp, hB, by linarith⟩
            · exact .inr ⟨S, P', p', List.mem_cons_of_mem _ hS, h⟩
          · exact fun b0 m0 e h0 => hm2.trans (hle b0 m0 e h0)
          · intro y hy z hz
            rcases List.mem_cons.mp hy with rfl | hy
            · have h3 := BinQ.real_strictMono.monotone (hm2.trans hle')
              have := hmin z hz
              linarith
            · exact r5 y hy z hz
    · refine ⟨l, ?_, fun best hb => ?_⟩
      · simp only [List.map_cons, scan, hm, hl]
        rfl
      · rcases ih best hb with ⟨a, b, c⟩ | ⟨b, m, r1, r2, r3, r4, r5⟩
        · refine .inl ⟨a, b, fun y hy => ?_⟩
          rcases List.mem_cons.mp hy with rfl | hy
          · exact hemp
          · exact c y hy
        · refine .inr ⟨b, m, r1, r2, ?_, r4, ?_⟩
          · exact r3.imp_right fun ⟨S, P, p, hS, h⟩ => ⟨S, P, p, List.mem_cons_of_mem _ hS, h⟩
          · intro y hy z hz
            rcases List.mem_cons.mp hy with rfl | hy
            · rw [hemp] at hz; exact hz.elim
            · exact r5 y hy z hz

end Tracing

/-- C110: the program of C109 in binary64, on scenes whose shapes the ray clearly meets or clearly misses.  It does not panic; it answers
with nothing exactly when the ray meets none of the surfaces; otherwise with a location that is within `ε` (in every coordinate) of a
point of the ray on the surface of the shape it names, and no surface of the scene is met more than `9/2 ε` before that point. -/
theorem C110_trace_f64 (q : Ray3 Q64) (o d : Fin 3 → Q64) (M : Q64) (ε : ℝ) (R : Ray64 q o d M ε) (ss : List (Shape Q64 × Set R3))
    (hss : ∀ x ∈ ss, Clear64 o d M ε x.1 x.2) :
    ((∀ x ∈ ss, rayPts (toR BinQ.real o) (toR BinQ.real d) ∩ x.2 = ∅) → trace q (ss.map Prod.fst) = .ok none) ∧
    ((∃ x ∈ ss, (rayPts (toR BinQ.real o) (toR BinQ.real d) ∩ x.2).Nonempty) →
      ∃ s S loc P p, trace q (ss.map Prod.fst) = .ok (some (s, loc)) ∧ loc.Holds P ∧ (s, S) ∈ ss ∧
        p ∈ rayPts (toR BinQ.real o) (toR BinQ.real d) ∩ S ∧ (∀ i, |(P i).real - p i| ≤ ε) ∧
        ∀ x ∈ ss, ∀ y ∈ rayPts (toR BinQ.real o) (toR BinQ.real d) ∩ x.2, euc (p - toR BinQ.real o) ≤ euc (y - toR BinQ.real o) + 9 / 2 * ε) := by
  obtain ⟨l, hl, h⟩ := Tracing.main64 R ss hss
  have ht : trace q (ss.map Prod.fst) = .ok (nearest q.ori l none) := by simp only [trace, hl]; rfl
  rw [ht]
  rcases h none (by simp) with ⟨e, -, hemp⟩ | ⟨b, m, e, hm, hor, -, hmin⟩
  · rw [e]
    refine ⟨fun _ => rfl, ?_⟩
    rintro ⟨x, hx, hne⟩
    rw [hemp x hx] at hne
    exact absurd hne (by simp)
  · rw [e]
    rcases hor with hor | ⟨S, P, p, hS, hP, hpS, hB, hd⟩
    · cases hor
    · refine ⟨fun hemp => ?_, fun _ => ⟨b.1, S, b.2, P, p, rfl, hP, hS, hpS, hB, fun x hx y hy => ?_⟩⟩
      · have := hemp _ hS
        rw [this] at hpS
        exact hpS.elim
      · have := hmin x hx y hy
        linarith

namespace Tracing

/-- the bounds of the shapes of the scene are free of NaN -/
theorem bound64 {q : Ray3 Q64} {o d : Fin 3 → Q64} {M : Q64} {ε : ℝ} (R : Ray64 q o d M ε) {s : Shape Q64} {S : Set R3} (h : Clear64 o d M ε s S)
    {b : AABB (Fl Q64)} (hb : s.getBound = .aabb b) : b.NoNan := by
  cases h with
  | @sphere t k x c r b' D r' hk hx ht hc hr0 hr er _ _ _ =>
    obtain ⟨x0, x1, x2, rfl, h0, h1, h2⟩ := hk
    cases ht
    cases hb
    have hom : M + M ≤ omega := by
      obtain ⟨-, -, -, co, -⟩ := C55_constants
      have h1 : p2 500 + p2 500 ≤ omega := by
        rw [co]; show (2 : ℚ) ^ (500 : ℤ) + 2 ^ (500 : ℤ) ≤ 2 ^ (1023 : ℤ)
        rw [← two_mul, show (2 : ℚ) * 2 ^ (500 : ℤ) = 2 ^ (501 : ℤ) by rw [show (501 : ℤ) = 1 + 500 by norm_num, zpow_add₀ (by norm_num)]; norm_num]
        exact zpow_le_zpow_right₀ (by norm_num) (by norm_num)
      have h2 : M ≤ p2 500 := R.Mhi
      exact (add_le_add h2 h2).trans h1
    have hr' : |r'| ≤ M := by rw [abs_of_nonneg hr0]; exact hr
    have key (y : Fl Q64) (i : Fin 3) (hy : y.Holds (c i)) : y - x ≠ .nan ∧ y + x ≠ .nan := by
      obtain ⟨v, hv⟩ := Fl.sub_fin hy.1 hx.1 ((abs_sub _ _).trans ((add_le_add (hc i) hr').trans hom))
      obtain ⟨w, hw⟩ := Fl.add_fin hy.1 hx.1 ((abs_add_le _ _).trans ((add_le_add (hc i) hr').trans hom))
      exact ⟨Fl.Finite.ne_nan ⟨v, hv⟩, Fl.Finite.ne_nan ⟨w, hw⟩⟩
    intro i
    fin_cases i
    · exact key x0 0 h0
    · exact key x1 1 h1
    · exact key x2 2 h2
  | @plane t k k' a n hk hk' ht =>
    obtain ⟨x0, x1, x2, rfl, h0, h1, h2⟩ := hk
    obtain ⟨y0, y1, y2, rfl, g0, g1, g2⟩ := hk'
    cases ht
    cases hb
    intro i
    fin_cases i <;> exact ⟨by simp [Fl.ninf], by simp [Fl.pinf]⟩

end Tracing

/-- C110: the same through a hierarchy of bounds. -/
theorem C110_tree_f64 (q : Ray3 Q64) (o d : Fin 3 → Q64) (M : Q64) (ε : ℝ) (R : Ray64 q o d M ε) (ss : List (Shape Q64 × Set R3))
    (hss : ∀ x ∈ ss, Clear64 o d M ε x.1 x.2) (t : Hier Q64) (ht : t.Built) (hl : t.leaves = ss.map Prod.fst) :
    t.trace q = trace q (ss.map Prod.fst) := by
  unfold Hier.trace trace
  rw [C108_search (.ray q) t ht ?_, hl]
  intro s hs b hb
  rw [hl] at hs
  obtain ⟨x, hx, rfl⟩ := List.mem_map.mp hs
  exact Tracing.bound64 R (hss x hx) hb

/-! ### a concrete scene -/

namespace Tracing

theorem rep (a : ℚ) (h : a = 0 ∨ a = 1 ∨ a = -1 ∨ a = 5 ∨ a = 20) : Fl.Rep (K := Q64) a := by
  rcases h with rfl | rfl | rfl | rfl | rfl
  · exact .inl rfl
  all_goals exact .inr (by decide +kernel)

theorem toR_vec (a b c : ℚ) : toR BinQ.real (![a, b, c] : Fin 3 → Q64) = ![(a : ℝ), (b : ℝ), (c : ℝ)] := by
  funext i; fin_cases i <;> rfl

theorem euc_x (a : ℝ) (h : a * a = 1) : euc (![a, 0, 0] : R3) = 1 := by rw [euc_eq, Fin.sum_univ_three]; simp [h]

theorem real32 : BinQ.real (32 : Q64) = 32 := map_ofNat _ 32

theorem ray64 : ∃ q : Ray3 Q64, Ray3.init [.fin 0, .fin 0, .fin 0] [.fin 1, .fin 0, .fin 0] = .ok q ∧
    Ray64 q ![(0 : ℚ), (0 : ℚ), (0 : ℚ)] ![(1 : ℚ), (0 : ℚ), (0 : ℚ)] 32 (2 ^ (-32 : ℤ)) := by
  refine ⟨_, rfl, ⟨⟨_, _, ListIn.of_rep (rep _ (by simp)) (rep _ (by simp)) (rep _ (by simp)), ListIn.of_rep (rep _ (by simp)) (rep _ (by simp)) (rep _ (by simp)), rfl⟩, ?_, ?_, ?_, ?_, ?_, ?_, ?_, ?_⟩⟩
  · intro h; have := congrFun h 0; revert this; decide +kernel
  · intro i
    fin_cases i
    · right
      show (2 : ℚ) ^ (-511 : ℤ) ≤ |(1 : ℚ)|
      rw [abs_one]; exact zpow_le_one_of_nonpos₀ (by norm_num) (by norm_num)
    · exact .inl rfl
    · exact .inl rfl
  · have h1 : (1 : ℚ) ≤ 2 ^ (510 : ℤ) := one_le_zpow₀ (by norm_num) (by norm_num)
    intro i
    fin_cases i
    · show |(1 : ℚ)| ≤ _; rw [abs_one]; exact h1
    · show |(0 : ℚ)| ≤ _; rw [abs_zero]; exact zero_le_one.trans h1
    · show |(0 : ℚ)| ≤ _; rw [abs_zero]; exact zero_le_one.trans h1
  · intro i; fin_cases i <;> decide +kernel
  · show (2 : ℚ) ^ (-480 : ℤ) ≤ 32
    exact (zpow_le_one_of_nonpos₀ (by norm_num) (by norm_num)).trans (by norm_num)
  · show (32 : ℚ) ≤ 2 ^ (500 : ℤ)
    exact (by norm_num : (32 : ℚ) ≤ 2 ^ (5 : ℤ)).trans (zpow_le_zpow_right₀ (by norm_num) (by norm_num))
  · rw [real32]; norm_num
  · rw [real32]; norm_num

theorem clear_sphere : ∃ t : Sphere Q64, Sphere.init [.fin 5, .fin 0, .fin 0] 1 = .ok t ∧
    Clear64 ![(0 : ℚ), (0 : ℚ), (0 : ℚ)] ![(1 : ℚ), (0 : ℚ), (0 : ℚ)] 32 (2 ^ (-32 : ℤ)) (.sphere t) {p | euc (p - ![5, 0, 0]) = 1} := by
  refine ⟨_, rfl, ?_⟩
  have e : (![5, 0, 0] : R3) = toR BinQ.real (![(5 : ℚ), (0 : ℚ), (0 : ℚ)] : Fin 3 → Q64) := by rw [toR_vec]; norm_num
  rw [e]
  refine .sphere (b := -5) (D := 1) (r' := 1) (ListIn.of_rep (rep _ (by simp)) (rep _ (by simp)) (rep _ (by simp))) one64_holds rfl ?_ ?_ ?_ ?_ ?_ ?_ ?_
  · intro i; fin_cases i <;> decide +kernel
  · exact zero_le_one
  · show (1 : ℚ) ≤ 32; norm_num
  · exact map_one BinQ.real
  · rw [toR_vec, toR_vec, toR_vec]; push_cast; rw [unit, euc_x 1 (by norm_num)]; simp [dotProduct, Fin.sum_univ_three]
  · rw [toR_vec, toR_vec]; push_cast; simp [dotProduct, Fin.sum_univ_three]
  · right
    rw [real32, Real.sqrt_one]
    refine ⟨by norm_num, by norm_num, .inr (.inr (by norm_num))⟩

theorem clear_plane : ∃ t : Plane Q64, Plane.init [.fin 20, .fin 0, .fin 0] [.fin (-1), .fin 0, .fin 0] = .ok t ∧
    Clear64 ![(0 : ℚ), (0 : ℚ), (0 : ℚ)] ![(1 : ℚ), (0 : ℚ), (0 : ℚ)] 32 (2 ^ (-32 : ℤ)) (.plane t) (planePts ![20, 0, 0] ![-1, 0, 0]) := by
  refine ⟨_, rfl, ?_⟩
  have e : (![20, 0, 0] : R3) = toR BinQ.real (![(20 : ℚ), (0 : ℚ), (0 : ℚ)] : Fin 3 → Q64) := by rw [toR_vec]; norm_num
  have e' : (![-1, 0, 0] : R3) = toR BinQ.real (![(-1 : ℚ), (0 : ℚ), (0 : ℚ)] : Fin 3 → Q64) := by rw [toR_vec]; norm_num
  rw [e, e']
  refine .plane (ListIn.of_rep (rep _ (by simp)) (rep _ (by simp)) (rep _ (by simp))) (ListIn.of_rep (rep _ (by simp)) (rep _ (by simp)) (rep _ (by simp))) rfl ?_ ?_ ?_ ?_ ?_ ?_
  · intro i; fin_cases i <;> decide +kernel
  · intro h; have := congrFun h 0; revert this; decide +kernel
  · intro i
    fin_cases i
    · right
      show (2 : ℚ) ^ (-511 : ℤ) ≤ |(-1 : ℚ)|
      rw [abs_neg, abs_one]; exact zpow_le_one_of_nonpos₀ (by norm_num) (by norm_num)
    · exact .inl rfl
    · exact .inl rfl
  · have h1 : (1 : ℚ) ≤ 2 ^ (510 : ℤ) := one_le_zpow₀ (by norm_num) (by norm_num)
    intro i
    fin_cases i
    · show |(-1 : ℚ)| ≤ _; rw [abs_neg, abs_one]; exact h1
    · show |(0 : ℚ)| ≤ _; rw [abs_zero]; exact zero_le_one.trans h1
    · show |(0 : ℚ)| ≤ _; rw [abs_zero]; exact zero_le_one.trans h1
  · obtain ⟨-, -, -, p4⟩ := Recheck.pows
    rw [real32, toR_vec, toR_vec, toR_vec, signedDist]
    push_cast
    rw [euc_x (-1) (by norm_num)]
    have : (2 : ℝ) ^ (-47 : ℤ) * 32 ≤ 1 := by norm_num
    generalize (2 : ℝ) ^ (-1072 : ℤ) = z at *
    simp only [dotProduct, Fin.sum_univ_three]
    simp
    norm_num at this p4 ⊢
    linarith
  · right
    rw [toR_vec, toR_vec]; push_cast
    rw [unit, unit, euc_x 1 (by norm_num), euc_x (-1) (by norm_num)]
    simp [dotProduct, Fin.sum_univ_three]; norm_num

end Tracing

/-- the sphere and the plane in the way of the ray -/
theorem Tracing.scene64 : ∃ (q : Ray3 Q64) (t : Sphere Q64) (v : Plane Q64),
    Ray64 q ![(0 : ℚ), (0 : ℚ), (0 : ℚ)] ![(1 : ℚ), (0 : ℚ), (0 : ℚ)] 32 (2 ^ (-32 : ℤ)) ∧
    (∀ x ∈ [(Shape.plane v, planePts ![20, 0, 0] ![-1, 0, 0]), (.sphere t, {p | euc (p - ![5, 0, 0]) = 1})],
      Clear64 ![(0 : ℚ), (0 : ℚ), (0 : ℚ)] ![(1 : ℚ), (0 : ℚ), (0 : ℚ)] 32 (2 ^ (-32 : ℤ)) x.1 x.2) := by
  obtain ⟨q, -, R⟩ := Tracing.ray64
  obtain ⟨t, -, ht⟩ := Tracing.clear_sphere
  obtain ⟨v, -, hv⟩ := Tracing.clear_plane
  refine ⟨q, t, v, R, fun x hx => ?_⟩
  simp only [List.mem_cons, List.not_mem_nil, or_false] at hx
  rcases hx with rfl | rfl
  · exact hv
  · exact ht

/-- a location is reported -/
example : ∃ (q : Ray3 Q64) (t : Sphere Q64) (v : Plane Q64), ∃ s loc, trace q [.plane v, .sphere t] = .ok (some (s, loc)) := by
  obtain ⟨q, t, v, R, h⟩ := Tracing.scene64
  obtain ⟨s, S, loc, P, p, h, -⟩ := (C110_trace_f64 q _ _ _ _ R _ h).2 ⟨(.plane v, planePts ![20, 0, 0] ![-1, 0, 0]), List.mem_cons_self .., ![20, 0, 0],
    ⟨20, by norm_num, by rw [Tracing.toR_vec, Tracing.toR_vec]; ext i; fin_cases i <;> simp⟩, by simp [planePts]⟩
  exact ⟨q, t, v, s, loc, h⟩

/-- and through a hierarchy -/
example : ∃ (q : Ray3 Q64) (t : Sphere Q64) (v : Plane Q64) (b : AABB (Fl Q64)),
    (Hier.node b (.leaf (.plane v)) (.leaf (.sphere t))).trace q = trace q [.plane v, .sphere t] := by
  obtain ⟨q, t, v, R, h⟩ := Tracing.scene64
  obtain ⟨b, hb⟩ := Hier.two (.plane v) (.sphere t)
  exact ⟨q, t, v, b, C110_tree_f64 q _ _ _ _ R _ h _ hb rfl⟩

/-- C110: the tolerance is needed.  Along the first axis, the sphere of radius one about `(5, 0, 0)` is met at 4 and the sphere of radius
`1 + 2^-52` about the same point at `4 - 2^-52`, but binary64 reports the same distance for both, and the program keeps the first listed. -/
theorem C110_first_false : ∃ (q : Ray3 Q64) (s t : Sphere Q64), Ray3.init [0, 0, 0] [1, 0, 0] = .ok q ∧ Sphere.init [.fin 5, 0, 0] 1 = .ok s ∧
    Sphere.init (K := Q64) [.fin 5, 0, 0] (.fin (4503599627370497 / 4503599627370496 : ℚ)) = .ok t ∧
    trace q [.sphere s, .sphere t] = .ok (some (.sphere s, ⟨#v[.fin 4, 0, 0]⟩)) ∧
    (∀ p ∈ rayPts 0 ![1, 0, 0], euc (p - ![5, 0, 0]) = 1 → 4 ≤ euc p) ∧
    ∃ p ∈ rayPts 0 ![1, 0, 0], euc (p - ![5, 0, 0]) = 4503599627370497 / 4503599627370496 ∧ euc p < 4 := by
  have ex (a : ℝ) : euc (![a, 0, 0] : R3) = |a| := by rw [euc_eq, Fin.sum_univ_three]; simp [Real.sqrt_mul_self_eq_abs]
  refine ⟨_, _, _, rfl, rfl, rfl, by decide +kernel, ?_, ?_⟩
  · rintro p ⟨t, ht, rfl⟩ h
    have e : (0 : R3) + t • ![1, 0, 0] = ![t, 0, 0] := by ext i; fin_cases i <;> simp
    have e' : (![t, 0, 0] : R3) - ![5, 0, 0] = ![t - 5, 0, 0] := by ext i; fin_cases i <;> simp
    rw [e] at h ⊢
    rw [e', ex] at h
    rw [ex, abs_of_nonneg ht]
    rcases (abs_eq (by norm_num)).mp h with h | h <;> linarith
  · refine ⟨![4 - 1 / 4503599627370496, 0, 0], ⟨4 - 1 / 4503599627370496, by norm_num, ?_⟩, ?_, ?_⟩
    · ext i; fin_cases i <;> simp
    · have e' : (![4 - 1 / 4503599627370496, 0, 0] : R3) - ![5, 0, 0] = ![4 - 1 / 4503599627370496 - 5, 0, 0] := by ext i; fin_cases i <;> simp
      rw [e', ex, abs_of_neg (by norm_num)]; norm_num
    · rw [ex, abs_of_pos (by norm_num)]; norm_num

end Mazth
