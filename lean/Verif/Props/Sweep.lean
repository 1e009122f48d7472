import Verif.Props.RayQueries
import Verif.Props.SphereQueries

/-!
# A moving ball (C113)

To find where a ball of radius `r`, moving from `o` along `d`, first touches a resting ball or a plane, a client queries the
ray `(o, d)` against the resting ball grown by `r`, or against the plane moved by `r` along its normal. The queries of the
moved ball itself (C40, C44) then have to agree with that answer at every position of the path.
-/

set_option linter.unusedSectionVars false
set_option autoImplicit false

namespace Mazth

open Matrix

/-- two balls at the distance of the sum of their radii have at most one common point -/
theorem touch_unique {p c x y : R3} {r R : ℝ} (hr : 0 ≤ r) (hR : 0 ≤ R) (h0 : 0 < R + r) (hd : euc (p - c) = R + r)
    (hx : x ∈ ballPts p r ∩ ballPts c R) (hy : y ∈ ballPts p r ∩ ballPts c R) : x = y := by
  have key (z : R3) (hz : z ∈ ballPts p r ∩ ballPts c R) : (R + r) • z = R • p + r • c := by
    have e1 : (z - p) ⬝ᵥ (z - p) ≤ r * r := by
      rw [← euc_sq]; exact mul_self_le_mul_self (euc_nonneg _) hz.1
    have e2 : (z - c) ⬝ᵥ (z - c) ≤ R * R := by
      rw [← euc_sq]; exact mul_self_le_mul_self (euc_nonneg _) hz.2
    have e3 : (p - c) ⬝ᵥ (p - c) = (R + r) * (R + r) := by rw [← euc_sq, hd]
    have e4 : ((R + r) • z - (R • p + r • c)) ⬝ᵥ ((R + r) • z - (R • p + r • c)) ≤ 0 := by
      have : ((R + r) • z - (R • p + r • c)) ⬝ᵥ ((R + r) • z - (R • p + r • c)) =
          (R + r) * (R * ((z - p) ⬝ᵥ (z - p)) + r * ((z - c) ⬝ᵥ (z - c))) - R * r * ((p - c) ⬝ᵥ (p - c)) := by
        simp only [dotProduct, Fin.sum_univ_three, Pi.sub_apply, Pi.add_apply, Pi.smul_apply, smul_eq_mul]; ring
      rw [this, e3]
      nlinarith [mul_le_mul_of_nonneg_left e1 hR, mul_le_mul_of_nonneg_left e2 hr,
        mul_le_mul_of_nonneg_left (add_le_add (mul_le_mul_of_nonneg_left e1 hR) (mul_le_mul_of_nonneg_left e2 hr)) h0.le]
    rw [← euc_sq] at e4
    exact sub_eq_zero.mp ((euc_eq_zero _).mp (mul_self_eq_zero.mp (le_antisymm e4 (mul_self_nonneg _))))
  have := (key x hx).trans (key y hy).symm
  exact smul_right_injective _ h0.ne' this

/-- C113, against a resting ball `(c, R)`. If the ball of radius `r` at `o` is reported apart from it, then
(1) a hit `p` of the ray with the grown ball is the position of first contact: there the two balls are reported to intersect in
their only common point, and at every earlier position they are reported apart; (2) if the ray misses the grown ball, they are
reported apart at every position of the path. -/
theorem C113_sphere (s : Ray3 ℝ) (t g b : Sphere ℝ) (o d c : R3) (r R : ℝ) (hs : s.Made o d) (ht : t.Made c R)
    (hg : g.Made c (R + r)) (hb : b.Made o r) (hr : 0 ≤ r) (hR : 0 ≤ R) (h0 : 0 < R + r)
    (ha : Shape.Misses (.sphere b) (.sphere t)) :
    (∀ p, Shape.Finds (.ray s) (.sphere g) p → p ∈ rayPts o d ∧
      (∀ m : Sphere ℝ, m.Made p r → ∃ x, ballPts p r ∩ ballPts c R = {x} ∧ Shape.Finds (.sphere m) (.sphere t) x) ∧
      ∀ q ∈ rayPts o d, euc (q - o) < euc (p - o) → ∀ m : Sphere ℝ, m.Made q r → Shape.Misses (.sphere m) (.sphere t)) ∧
    (Shape.Misses (.ray s) (.sphere g) →
      ∀ q ∈ rayPts o d, ∀ m : Sphere ℝ, m.Made q r → Shape.Misses (.sphere m) (.sphere t)) := by
  obtain ⟨yes, no⟩ := C42_raySphere s g o d c (R + r) hs hg h0.le
  have ss (q : R3) (m : Sphere ℝ) (hm : m.Made q r) := C40_sphereSphere m t q c r R hm ht hr hR (by linarith)
  have meet (q : R3) : (ballPts q r ∩ ballPts c R).Nonempty ↔ q ∈ ballPts c (R + r) := by
    rw [balls_meet hr hR, euc_sub_comm, add_comm]; rfl
  have hso : R + r ≤ euc (o - c) := by
    by_contra hc
    obtain ⟨x, -, -, hx⟩ := (ss o b hb).1 ((meet o).mpr (not_le.mp hc).le)
    exact hx.not_misses ha
  constructor
  · intro p hp
    have hne : (rayPts o d ∩ ballPts c (R + r)).Nonempty := by
      by_contra hc; exact hp.not_misses (no hc)
    obtain ⟨p', hp', h1, h2, h3⟩ := yes hne
    obtain rfl := hp.unique hp'
    refine ⟨h1, fun m hm => ?_, fun q hq hlt m hm => (ss q m hm).2 fun hc => ?_⟩
    · obtain ⟨x, hx, -, hf⟩ := (ss p m hm).1 ((meet p).mpr h2.le)
      exact ⟨x, Set.eq_singleton_iff_unique_mem.mpr ⟨hx, fun y hy => touch_unique hr hR h0 h2 hy hx⟩, hf⟩
    · exact absurd (h3 hso q ⟨hq, (meet q).mp hc⟩) (not_le.mpr hlt)
  · intro hmiss q hq m hm
    refine (ss q m hm).2 fun hc => ?_
    obtain ⟨p, hp, -⟩ := yes ⟨q, hq, (meet q).mp hc⟩
    exact hp.not_misses hmiss

/-- C113: the premises hold, with a hit: the unit ball from `(0,0,5)` downwards against the unit ball at the origin. -/
example : ∃ p ∈ rayPts ![0, 0, 5] ![0, 0, -1], ∃ x, ballPts p 1 ∩ ballPts 0 1 = {x} := by
  have hd : (![0, 0, -1] : R3) ≠ 0 := fun h => by simpa using congrFun h 2
  have e5 : euc ((0 : R3) - ![0, 0, 5]) = 5 := by
    rw [euc_eq, show (5 : ℝ) = √(5 * 5) by rw [Real.sqrt_mul_self (by norm_num)]]
    congr 1; simp [Fin.sum_univ_three]
  obtain ⟨p, hp, -⟩ := (C42_raySphere _ _ _ _ _ _ (mkRay_made ![0, 0, 5] hd (.fin 1)) (mkSphere_made 0 (1 + 1) 0) (by norm_num)).1
    ⟨0, ⟨5, by norm_num, by ext i; fin_cases i <;> norm_num⟩, by simp [ballPts, euc_eq]⟩
  have ha := (C40_sphereSphere _ _ _ _ _ _ (mkSphere_made ![0, 0, 5] 1 0) (mkSphere_made 0 1 0) zero_le_one zero_le_one
    (by norm_num)).2 (by rw [balls_meet zero_le_one zero_le_one, e5]; norm_num)
  obtain ⟨h1, h2, -⟩ := (C113_sphere _ _ _ _ _ _ _ 1 1 (mkRay_made ![0, 0, 5] hd (.fin 1)) (mkSphere_made 0 1 0)
    (mkSphere_made 0 (1 + 1) 0) (mkSphere_made ![0, 0, 5] 1 0) zero_le_one zero_le_one (by norm_num) ha).1 p hp
  obtain ⟨x, hx, -⟩ := h2 _ (mkSphere_made p 1 0)
  exact ⟨p, h1, x, hx⟩

/-- C113, two moving balls: `(o, r)` with velocity `v` and `(c, R)` with velocity `w`, reported apart at time 0. A hit `p` of the ray
from `o` along the relative velocity with the grown ball `(c, R + r)` gives the time `τ` of first contact, `p = o + τ (v - w)`: at that
time the balls are reported to intersect in their only common point, and at every earlier time they are reported apart; if there is
no hit, they are reported apart at all times. -/
theorem C113_two (s : Ray3 ℝ) (t g b : Sphere ℝ) (o v c w : R3) (r R : ℝ) (hs : s.Made o (v - w)) (ht : t.Made c R)
    (hg : g.Made c (R + r)) (hb : b.Made o r) (hr : 0 ≤ r) (hR : 0 ≤ R) (h0 : 0 < R + r)
    (ha : Shape.Misses (.sphere b) (.sphere t)) :
    (∀ p, Shape.Finds (.ray s) (.sphere g) p → ∃ τ : ℝ, 0 < τ ∧ p = o + τ • (v - w) ∧
      (∀ b' t' : Sphere ℝ, b'.Made (o + τ • v) r → t'.Made (c + τ • w) R →
        ∃ x, ballPts (o + τ • v) r ∩ ballPts (c + τ • w) R = {x} ∧ Shape.Finds (.sphere b') (.sphere t') x) ∧
      ∀ σ : ℝ, 0 ≤ σ → σ < τ → ∀ b' t' : Sphere ℝ, b'.Made (o + σ • v) r → t'.Made (c + σ • w) R →
        Shape.Misses (.sphere b') (.sphere t')) ∧
    (Shape.Misses (.ray s) (.sphere g) → ∀ σ : ℝ, 0 ≤ σ → ∀ b' t' : Sphere ℝ, b'.Made (o + σ • v) r → t'.Made (c + σ • w) R →
        Shape.Misses (.sphere b') (.sphere t')) := by
  obtain ⟨yes, no⟩ := C42_raySphere s g o (v - w) c (R + r) hs hg h0.le
  have ss (q q' : R3) (m m' : Sphere ℝ) (hm : m.Made q r) (hm' : m'.Made q' R) :=
    C40_sphereSphere m m' q q' r R hm hm' hr hR (by linarith)
  have rel (σ : ℝ) : o + σ • v - (c + σ • w) = o + σ • (v - w) - c := by module
  have meet (σ : ℝ) : (ballPts (o + σ • v) r ∩ ballPts (c + σ • w) R).Nonempty ↔ o + σ • (v - w) ∈ ballPts c (R + r) := by
    rw [balls_meet hr hR, euc_sub_comm, rel, add_comm r R]; rfl
  have hso : R + r < euc (o - c) := by
    by_contra hc
    obtain ⟨x, -, -, hx⟩ := (ss o c b t hb ht).1 (by
      rw [balls_meet hr hR, euc_sub_comm, add_comm]; exact not_lt.mp hc)
    exact hx.not_misses ha
  have hv : 0 < euc (v - w) := euc_pos hs.1
  have len {σ : ℝ} (h : 0 ≤ σ) : euc (o + σ • (v - w) - o) = σ * euc (v - w) := by
    rw [add_sub_cancel_left, euc_smul, abs_of_nonneg h]
  constructor
  · intro p hp
    have hne : (rayPts o (v - w) ∩ ballPts c (R + r)).Nonempty := by
      by_contra hc; exact hp.not_misses (no hc)
    obtain ⟨p', hp', ⟨τ, hτ, rfl⟩, h2, h3⟩ := yes hne
    obtain rfl := hp.unique hp'
    have hτ0 : τ ≠ 0 := by
      rintro rfl
      rw [zero_smul, add_zero] at h2
      exact hso.ne' h2
    refine ⟨τ, lt_of_le_of_ne hτ hτ0.symm, rfl, fun b' t' hb' ht' => ?_, fun σ hσ hlt b' t' hb' ht' => (ss _ _ b' t' hb' ht').2 fun hc => ?_⟩
    · obtain ⟨x, hx, -, hf⟩ := (ss _ _ b' t' hb' ht').1 ((meet τ).mpr h2.le)
      exact ⟨x, Set.eq_singleton_iff_unique_mem.mpr ⟨hx, fun y hy => touch_unique hr hR h0 (by rw [rel]; exact h2) hy hx⟩, hf⟩
    · have := h3 hso.le _ ⟨⟨σ, hσ, rfl⟩, (meet σ).mp hc⟩
      rw [len hσ, len hτ] at this
      exact absurd (le_of_mul_le_mul_right this hv) (not_le.mpr hlt)
  · intro hmiss σ hσ b' t' hb' ht'
    refine (ss _ _ b' t' hb' ht').2 fun hc => ?_
    obtain ⟨p, hp, -⟩ := yes ⟨_, ⟨σ, hσ, rfl⟩, (meet σ).mp hc⟩
    exact hp.not_misses hmiss

/-- C113: the premises hold, with a hit: unit balls at `(0,0,5)` and the origin with velocities `(1,0,-1)` and `(1,0,1)`. -/
example : ∃ τ : ℝ, 0 < τ ∧ ∃ x, ballPts (![0, 0, 5] + τ • ![1, 0, -1]) 1 ∩ ballPts (0 + τ • ![1, 0, 1]) 1 = {x} := by
  have hd : (![1, 0, -1] - ![1, 0, 1] : R3) ≠ 0 := fun h => by
    have := congrFun h 2
    simp at this; norm_num at this
  have e5 : euc ((0 : R3) - ![0, 0, 5]) = 5 := by
    rw [euc_eq, show (5 : ℝ) = √(5 * 5) by rw [Real.sqrt_mul_self (by norm_num)]]
    congr 1; simp [Fin.sum_univ_three]
  obtain ⟨p, hp, -⟩ := (C42_raySphere _ _ _ _ _ _ (mkRay_made ![0, 0, 5] hd (.fin 1)) (mkSphere_made 0 (1 + 1) 0) (by norm_num)).1
    ⟨0, ⟨5 / 2, by norm_num, by ext i; fin_cases i <;> norm_num⟩, by simp [ballPts, euc_eq]⟩
  have ha := (C40_sphereSphere _ _ _ _ _ _ (mkSphere_made ![0, 0, 5] 1 0) (mkSphere_made 0 1 0) zero_le_one zero_le_one
    (by norm_num)).2 (by rw [balls_meet zero_le_one zero_le_one, e5]; norm_num)
  obtain ⟨τ, h1, -, h2, -⟩ := (C113_two _ _ _ _ _ _ _ _ 1 1 (mkRay_made ![0, 0, 5] hd (.fin 1)) (mkSphere_made 0 1 0)
    (mkSphere_made 0 (1 + 1) 0) (mkSphere_made ![0, 0, 5] 1 0) zero_le_one zero_le_one (by norm_num) ha).1 p hp
  obtain ⟨x, hx, -⟩ := h2 _ _ (mkSphere_made _ 1 0) (mkSphere_made _ 1 0)
  exact ⟨τ, h1, x, hx⟩

/-- C113, against a plane: the ball of radius `r` at `o` is reported apart from the plane `(a, n)`. A hit `p` of the ray with
the plane moved by `r` along its unit normal is the position of first contact (the common point is the foot of the
perpendicular), and if there is no hit, the ball stays apart on its whole path. -/
theorem C113_plane (s : Ray3 ℝ) (t g : Plane ℝ) (b : Sphere ℝ) (o d a n : R3) (r : ℝ) (hs : s.Made o d) (ht : t.Made a n)
    (hg : g.Made (a + r • unit n) n) (hb : b.Made o r) (hr : 0 ≤ r) (ha : Shape.Misses (.sphere b) (.plane t)) :
    (∀ p, Shape.Finds (.ray s) (.plane g) p → p ∈ rayPts o d ∧
      (∀ m : Sphere ℝ, m.Made p r → ∃ x, ballPts p r ∩ planePts a n = {x} ∧ Shape.Finds (.sphere m) (.plane t) x) ∧
      ∀ q ∈ rayPts o d, euc (q - o) < euc (p - o) → ∀ m : Sphere ℝ, m.Made q r → Shape.Misses (.sphere m) (.plane t)) ∧
    (Shape.Misses (.ray s) (.plane g) →
      ∀ q ∈ rayPts o d, ∀ m : Sphere ℝ, m.Made q r → Shape.Misses (.sphere m) (.plane t)) := by
  have hn := ht.1
  have hd := hs.1
  have hu : unit n ⬝ᵥ unit n = 1 := unit_of hn
  have hud := euc_unit hd
  have hso : r < signedDist a n o := by
    by_contra hc
    exact ((C44_spherePlane b t o a n r hb ht).1 (not_lt.mp hc)).not_misses ha
  have sd (τ : ℝ) : signedDist a n (o + τ • unit d) = signedDist a n o + τ * (unit d ⬝ᵥ unit n) := by
    show (o + τ • unit d - a) ⬝ᵥ unit n = (o - a) ⬝ᵥ unit n + _
    rw [show o + τ • unit d - a = (o - a) + τ • unit d by abel, add_dotProduct, smul_dotProduct, smul_eq_mul]
  have hnum : (a + r • unit n - o) ⬝ᵥ unit n = r - signedDist a n o := by
    show _ = r - (o - a) ⬝ᵥ unit n
    rw [show a + r • unit n - o = r • unit n - (o - a) by abel, sub_dotProduct, smul_dotProduct, hu, smul_eq_mul, mul_one]
  obtain ⟨h1, h2, h3⟩ := rayPlane_core s g o d _ n hs hg
  rw [hnum] at h1 h2 h3
  have len {τ : ℝ} (h : 0 ≤ τ) : euc (o + τ • unit d - o) = τ := by
    rw [add_sub_cancel_left, euc_smul, hud, mul_one, abs_of_nonneg h]
  constructor
  · intro p hp
    rcases lt_or_ge (unit d ⬝ᵥ unit n) 0 with hc | hc
    · have hq : 0 ≤ (r - signedDist a n o) / (unit d ⬝ᵥ unit n) := (div_pos_of_neg_of_neg (by linarith) hc).le
      obtain rfl := hp.unique (h2 ⟨hc, hq⟩)
      set τ := (r - signedDist a n o) / (unit d ⬝ᵥ unit n) with hτ
      have hsp : signedDist a n (o + τ • unit d) = r := by rw [sd, hτ, div_mul_cancel₀ _ hc.ne]; ring
      refine ⟨(rayPts_unit hd).mpr ⟨_, hq, rfl⟩, fun m hm => ⟨foot a n (o + τ • unit d), ?_,
        (C44_spherePlane m t _ a n r hm ht).1 hsp.le⟩, fun q hq' hlt m hm => (C44_spherePlane m t q a n r hm ht).2 ?_⟩
      · refine Set.eq_singleton_iff_unique_mem.mpr ⟨⟨?_, foot_mem hn⟩, ?_⟩
        · show euc _ ≤ r
          rw [foot_dist hn, hsp, abs_of_nonneg hr]
        · rintro y ⟨hy, hy'⟩
          generalize o + τ • unit d = p at *
          have e1 : (y - p) ⬝ᵥ (y - p) ≤ r * r := by
            rw [← euc_sq]; exact mul_self_le_mul_self (euc_nonneg _) hy
          have e2 : (y - a) ⬝ᵥ unit n = 0 := by
            show (y - a) ⬝ᵥ ((euc n)⁻¹ • n) = 0
            rw [dotProduct_smul, show (y - a) ⬝ᵥ n = 0 from hy', smul_zero]
          have e3 : (y - p) ⬝ᵥ unit n = -r := by
            rw [← hsp, show y - p = (y - a) - (p - a) by abel, sub_dotProduct, e2, zero_sub]; rfl
          have e4 : (y - foot a n p) ⬝ᵥ (y - foot a n p) ≤ 0 := by
            have : y - foot a n p = (y - p) + r • unit n := by
              show y - (p - signedDist a n p • unit n) = _
              rw [hsp]; abel
            have exp (v w : R3) : (v + r • w) ⬝ᵥ (v + r • w) = v ⬝ᵥ v + 2 * r * (v ⬝ᵥ w) + r * r * (w ⬝ᵥ w) := by
              simp only [dotProduct, Fin.sum_univ_three, Pi.add_apply, Pi.smul_apply, smul_eq_mul]; ring
            rw [this, exp, hu, e3]; linarith
          rw [← euc_sq] at e4
          exact sub_eq_zero.mp ((euc_eq_zero _).mp (mul_self_eq_zero.mp (le_antisymm e4 (mul_self_nonneg _))))
      · obtain ⟨σ, hσ, rfl⟩ := (rayPts_unit hd).mp hq'
        rw [len hσ, len hq] at hlt
        rw [← hsp, sd, sd]
        nlinarith
    · refine absurd (h3 ?_) hp.not_misses
      rcases hc.lt_or_eq with hc | hc
      · exact .inr (.inl hc)
      · exact .inl ⟨hc.symm, by linarith⟩
  · intro hmiss q hq m hm
    refine (C44_spherePlane m t q a n r hm ht).2 ?_
    obtain ⟨σ, hσ, rfl⟩ := (rayPts_unit hd).mp hq
    rw [sd]
    have hc : 0 ≤ unit d ⬝ᵥ unit n := by
      by_contra hc
      have hc := not_le.mp hc
      exact (h2 ⟨hc, (div_pos_of_neg_of_neg (by linarith) hc).le⟩).not_misses hmiss
    have := mul_nonneg hσ hc
    linarith

/-- C113: the premises hold, with a hit: the ball of radius 1 from `(0,0,3)` along `(1,0,-1)` against the plane `z = 0`. -/
example : ∃ p ∈ rayPts ![0, 0, 3] ![1, 0, -1], ∃ x, ballPts p 1 ∩ planePts 0 ![0, 0, 1] = {x} := by
  have hd : (![1, 0, -1] : R3) ≠ 0 := fun h => by simpa using congrFun h 0
  have hz : (![0, 0, 1] : R3) ≠ 0 := fun h => by simpa using congrFun h 2
  have e1 : euc (![0, 0, 1] : R3) = 1 := by rw [euc_eq]; simp [Fin.sum_univ_three]
  have eu : unit (![0, 0, 1] : R3) = ![0, 0, 1] := by show (euc _)⁻¹ • _ = _; rw [e1]; simp
  obtain ⟨p, -, hp⟩ := (C43_rayPlane _ _ _ _ _ _ (mkRay_made ![0, 0, 3] hd 0) (mkPlane_made (0 + (1 : ℝ) • unit ![0, 0, 1]) hz 0)).1
    ⟨by simp [dotProduct, Fin.sum_univ_three], ![2, 0, 1], ⟨2, by norm_num, by ext i; fin_cases i <;> norm_num⟩,
      by rw [eu]; simp [planePts, dotProduct, Fin.sum_univ_three]⟩
  have ha := (C44_spherePlane _ _ _ _ _ _ (mkSphere_made ![0, 0, 3] 1 0) (mkPlane_made 0 hz 0)).2
    (by rw [signedDist, e1]; simp [dotProduct, Fin.sum_univ_three])
  obtain ⟨h1, h2, -⟩ := (C113_plane _ _ _ _ _ _ _ _ 1 (mkRay_made ![0, 0, 3] hd 0) (mkPlane_made 0 hz 0)
    (mkPlane_made (0 + (1 : ℝ) • unit ![0, 0, 1]) hz 0) (mkSphere_made ![0, 0, 3] 1 0) zero_le_one ha).1 p hp
  obtain ⟨x, hx, -⟩ := h2 _ (mkSphere_made p 1 0)
  exact ⟨p, h1, x, hx⟩

/-- C113 in binary64 fails: the ball of radius 3 moving from `(2,0,-8)` upwards is reported to reach the ball of radius 3 at the
origin, but the ball at the reported position is reported apart from it. -/
theorem C113_f64_false : ∃ (s : Ray3 Q64) (t g b m : Sphere Q64) (p : V3 Q64),
    Ray3.init [.fin 2, 0, .fin (-8)] [0, 0, 1] = .ok s ∧ Sphere.init [0, 0, 0] (.fin 3) = .ok t ∧
    Sphere.init [0, 0, 0] (.fin 3 + .fin 3) = .ok g ∧ Sphere.init [.fin 2, 0, .fin (-8)] (.fin 3) = .ok b ∧
    Shape.getIntersect 2 (.sphere b) (.sphere t) = .ok (false, none) ∧
    Shape.getIntersect 2 (.ray s) (.sphere g) = .ok (true, some p) ∧
    Sphere.init [p.val[0], p.val[1], p.val[2]] (.fin 3) = .ok m ∧
    Shape.getIntersect 2 (.sphere m) (.sphere t) = .ok (false, none) := by
  refine ⟨_, _, _, _, _, ⟨#v[.fin 2, 0, .fin (-6369051672525773 / 1125899906842624 : ℚ)]⟩, rfl, rfl, rfl, rfl, ?_, ?_, rfl, ?_⟩
  · decide +kernel
  · decide +kernel
  · decide +kernel

end Mazth
