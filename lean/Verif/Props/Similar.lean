import Verif.Props.SphereQueries
import Verif.Props.RayQueries
import Verif.Props.RayQueries2
import Verif.Props.PrismQueries
import Verif.Props.QuatAlg
import Verif.Props.Gjk

/-!
# C85: turning and rescaling everything

A similarity is a rotation or reflection, followed by a change of unit and a translation.  In exact arithmetic most queries
commute with similarities; those that work coordinate by coordinate do not.
-/

set_option linter.unusedSectionVars false
set_option autoImplicit false

namespace Mazth

open Matrix

/-- a similarity `x ↦ k • U x + t` of space, `U` preserving inner products and `k > 0` -/
structure Simil where
  U : R3 →ₗ[ℝ] R3
  k : ℝ
  t : R3
  dot : ∀ x y, U x ⬝ᵥ U y = x ⬝ᵥ y
  pos : 0 < k

namespace Simil

variable (S : Simil)

/-- what it does to positions -/
def pt (x : R3) : R3 := S.k • S.U x + S.t

/-- it preserves orientation -/
def Proper : Prop := ∀ x y, S.U (x ⨯₃ y) = S.U x ⨯₃ S.U y

/-- the two queries give corresponding answers: both hit, at corresponding locations, or both miss -/
def Same (A B A' B' : Shape ℝ) : Prop := (∃ p, A.Finds B p ∧ A'.Finds B' (S.pt p)) ∨ (A.Misses B ∧ A'.Misses B')

theorem euc_U (x : R3) : euc (S.U x) = euc x := by
  have h := S.dot x x
  rw [← euc_sq, ← euc_sq] at h
  exact abs_eq_abs_of_nonneg h (euc_nonneg _) (euc_nonneg _)
where
  abs_eq_abs_of_nonneg {a b : ℝ} (h : a * a = b * b) (ha : 0 ≤ a) (hb : 0 ≤ b) : a = b := by nlinarith

theorem unit_U (x : R3) : unit (S.U x) = S.U (unit x) := by
  unfold unit
  rw [euc_U, map_smul]

theorem pt_sub (x y : R3) : S.pt x - S.pt y = S.k • S.U (x - y) := by
  unfold pt
  rw [map_sub]; module

theorem euc_pt (x y : R3) : euc (S.pt x - S.pt y) = S.k * euc (x - y) := by
  rw [pt_sub, euc_smul, euc_U, abs_of_pos S.pos]

theorem U_inj : Function.Injective S.U := by
  intro x y h
  have h1 : euc (S.U (x - y)) = 0 := by rw [map_sub, h, sub_self]; exact (euc_eq_zero _).mpr rfl
  rw [euc_U, euc_eq_zero, sub_eq_zero] at h1
  exact h1

theorem U_surj : Function.Surjective S.U := LinearMap.injective_iff_surjective.mp S.U_inj

theorem pt_inj : Function.Injective S.pt := by
  intro x y h
  have h1 := S.euc_pt x y
  rw [h, sub_self, (euc_eq_zero _).mpr rfl] at h1
  rcases mul_eq_zero.mp h1.symm with h2 | h2
  · exact absurd h2 S.pos.ne'
  · exact sub_eq_zero.mp ((euc_eq_zero _).mp h2)

theorem pt_surj (y : R3) : ∃ x, S.pt x = y := by
  obtain ⟨x, hx⟩ := S.U_surj (S.k⁻¹ • (y - S.t))
  refine ⟨x, ?_⟩
  unfold pt
  rw [hx, smul_smul, mul_inv_cancel₀ S.pos.ne', one_smul, sub_add_cancel]

theorem U_ne {x : R3} (h : x ≠ 0) : S.U x ≠ 0 := fun e => h (S.U_inj (e.trans (map_zero _).symm))

theorem mem_ball {x c : R3} {r : ℝ} : S.pt x ∈ ballPts (S.pt c) (S.k * r) ↔ x ∈ ballPts c r := by
  show euc _ ≤ _ ↔ euc _ ≤ _
  rw [euc_pt, mul_le_mul_iff_right₀ S.pos]

theorem mem_plane {x a n : R3} : S.pt x ∈ planePts (S.pt a) (S.U n) ↔ x ∈ planePts a n := by
  show _ ⬝ᵥ _ = (0 : ℝ) ↔ _ ⬝ᵥ _ = (0 : ℝ)
  rw [pt_sub, smul_dotProduct, S.dot, smul_eq_mul, mul_eq_zero, or_iff_right S.pos.ne']

theorem pt_line (o d : R3) (τ : ℝ) : S.pt (o + τ • d) = S.pt o + (S.k * τ) • S.U d := by
  unfold pt
  rw [map_add, map_smul]; module

theorem mem_ray {x o d : R3} : S.pt x ∈ rayPts (S.pt o) (S.U d) ↔ x ∈ rayPts o d := by
  constructor
  · rintro ⟨τ, hτ, e⟩
    refine ⟨τ / S.k, div_nonneg hτ S.pos.le, S.pt_inj ?_⟩
    rw [pt_line, e, mul_div_cancel₀ _ S.pos.ne']
  · rintro ⟨τ, hτ, rfl⟩
    exact ⟨S.k * τ, mul_nonneg S.pos.le hτ, S.pt_line o d τ⟩

theorem pt_comb (x y : R3) (a b : ℝ) (h : a + b = 1) : S.pt (a • x + b • y) = a • S.pt x + b • S.pt y := by
  unfold pt
  rw [map_add, map_smul, map_smul, show b = 1 - a by linarith]; module

theorem mem_segment {x a b : R3} : S.pt x ∈ segment ℝ (S.pt a) (S.pt b) ↔ x ∈ segment ℝ a b := by
  constructor
  · rintro ⟨u, v, hu, hv, h1, e⟩
    refine ⟨u, v, hu, hv, h1, S.pt_inj ?_⟩
    rw [S.pt_comb _ _ _ _ h1, e]
  · rintro ⟨u, v, hu, hv, h1, rfl⟩
    exact ⟨u, v, hu, hv, h1, (S.pt_comb _ _ _ _ h1).symm⟩

/-- the affine map -/
def aff : R3 →ᵃ[ℝ] R3 where
  toFun := S.pt
  linear := S.k • S.U
  map_vadd' p v := by
    show S.pt (v + p) = S.k • S.U v + S.pt p
    unfold pt
    rw [map_add]; module

theorem tri_cross (hp : S.Proper) (a b c : R3) :
    (S.pt b - S.pt a) ⨯₃ (S.pt c - S.pt a) = (S.k * S.k) • S.U ((b - a) ⨯₃ (c - a)) := by
  rw [pt_sub, pt_sub, hp, map_smul, LinearMap.map_smul₂, smul_smul]

theorem triNormal_pt (hp : S.Proper) (a b c : R3) :
    triNormal (S.pt a) (S.pt b) (S.pt c) = S.U (triNormal a b c) := by
  unfold triNormal
  have h := S.pos
  rw [S.tri_cross hp, euc_smul, euc_U, map_smul, smul_smul, abs_of_pos (by positivity)]
  congr 1
  by_cases h0 : euc ((b - a) ⨯₃ (c - a)) = 0
  · rw [h0]; simp
  · field_simp

theorem mem_prism (hp : S.Proper) {x v0 v1 v2 : R3} {h : ℝ} :
    S.pt x ∈ prismPts (S.pt v0) (S.pt v1) (S.pt v2) (S.k * h) ↔ x ∈ prismPts v0 v1 v2 h := by
  have e : prismVerts (S.pt v0) (S.pt v1) (S.pt v2) (S.k * h) = S.aff '' prismVerts v0 v1 v2 h := by
    unfold prismVerts
    rw [S.triNormal_pt hp]
    simp only [Set.image_insert_eq, Set.image_singleton]
    show _ = {S.pt _, S.pt _, S.pt _, S.pt _, S.pt _, S.pt _}
    simp only [pt_line]
  unfold prismPts
  rw [e, ← AffineMap.image_convexHull]
  constructor
  · rintro ⟨y, hy, e⟩
    rwa [← S.pt_inj e]
  · exact fun h => ⟨x, h, rfl⟩

theorem signedDist_pt (o n p : R3) : signedDist (S.pt o) (S.U n) (S.pt p) = S.k * signedDist o n p := by
  unfold signedDist
  rw [pt_sub, smul_dotProduct, euc_U, ← map_smul S.U, S.dot, smul_eq_mul]

theorem foot_pt (o n p : R3) : foot (S.pt o) (S.U n) (S.pt p) = S.pt (foot o n p) := by
  unfold foot
  rw [signedDist_pt, euc_U, ← map_smul, sub_eq_add_neg, ← neg_smul, ← mul_neg, ← pt_line, neg_smul, ← sub_eq_add_neg]

end Simil

open Simil

variable (S : Simil)

/-- C85, points: both queries see the same points. -/
theorem C85_point_point (s t s' t' : Point3 ℝ) (p q : R3) (hs : s.Made p) (ht : t.Made q) (hs' : s'.Made (S.pt p))
    (ht' : t'.Made (S.pt q)) (ε ε' : ℝ) (h0 : 0 ≤ ε) (h0' : 0 ≤ ε') (hv : s.vicinity.Is ε) (hv' : s'.vicinity.Is ε') :
    S.Same (.point s) (.point t) (.point s') (.point t') := by
  have h1 := C39_exact s t p q hs ht ε h0 hv
  have h2 := C39_exact s' t' _ _ hs' ht' ε' h0' hv'
  by_cases e : p = q
  · exact .inl ⟨p, h1.1 e, h2.1 (by rw [e])⟩
  · exact .inr ⟨h1.2 e, h2.2 fun h => e (S.pt_inj h)⟩

/-- C85, spheres. -/
theorem C85_sphere_sphere (s t s' t' : Sphere ℝ) (c d : R3) (r q : ℝ) (hs : s.Made c r) (ht : t.Made d q)
    (hs' : s'.Made (S.pt c) (S.k * r)) (ht' : t'.Made (S.pt d) (S.k * q)) (hr : 0 ≤ r) (hq : 0 ≤ q) (h0 : 0 < r + q) :
    S.Same (.sphere s) (.sphere t) (.sphere s') (.sphere t') := by
  have hk := S.pos
  have find : ∀ (s t : Sphere ℝ) (c d : R3) (r q : ℝ), s.Made c r → t.Made d q → 0 ≤ r → 0 ≤ q → 0 < r + q →
      euc (d - c) ≤ r + q → Shape.Finds (.sphere s) (.sphere t) (c + (r / (r + q)) • (d - c)) := by
    intro s t c d r q hs ht hr hq h0 hd
    unfold Shape.Finds
    obtain ⟨ho, hri, _⟩ := hs.facts
    obtain ⟨ho', hri', _⟩ := ht.facts
    rw [query_meet (.sphere hs) (.sphere ht) ((balls_meet hr hq).mpr hd), sphereSphere_core s t c d r q hs ht, if_neg (by linarith)]
    exact ⟨_, rfl, V3.isR_add ho (V3.isR_scl (V3.isR_sub ho' ho) (hri.div (hri.add hri') h0.ne'))⟩
  have h1 := C40_sphereSphere s t c d r q hs ht hr hq h0
  have h2 := C40_sphereSphere s' t' _ _ _ _ hs' ht' (mul_nonneg hk.le hr) (mul_nonneg hk.le hq) (by nlinarith)
  by_cases h : euc (d - c) ≤ r + q
  · refine .inl ⟨_, find s t c d r q hs ht hr hq h0 h, ?_⟩
    have := find s' t' _ _ _ _ hs' ht' (mul_nonneg hk.le hr) (mul_nonneg hk.le hq) (by nlinarith) (by
      rw [S.euc_pt, ← mul_add]; exact mul_le_mul_of_nonneg_left h hk.le)
    rw [S.pt_sub, ← mul_add, mul_div_mul_left _ _ hk.ne', smul_smul, mul_comm, ← S.pt_line] at this
    exact this
  · refine .inr ⟨h1.2 fun hn => h ((balls_meet hr hq).mp hn), h2.2 fun hn => h ?_⟩
    have := (balls_meet (mul_nonneg hk.le hr) (mul_nonneg hk.le hq)).mp hn
    rw [S.euc_pt, ← mul_add] at this
    exact le_of_mul_le_mul_left this hk

/-- two points of a ray at the same distance from its origin are equal -/
theorem ray_eq {o d p q : R3} (hp : p ∈ rayPts o d) (hq : q ∈ rayPts o d) (hd : d ≠ 0) (h : euc (p - o) = euc (q - o)) : p = q := by
  obtain ⟨τ, hτ, rfl⟩ := hp
  obtain ⟨σ, hσ, rfl⟩ := hq
  rw [add_sub_cancel_left, add_sub_cancel_left, euc_smul, euc_smul, abs_of_nonneg hτ, abs_of_nonneg hσ] at h
  rw [mul_right_cancel₀ (euc_pos hd).ne' h]

/-- a ray from inside a ball leaves it at one point -/
theorem exit_eq {o d c p q : R3} {r : ℝ} (hd : d ≠ 0) (ho : euc (o - c) < r) (hp : p ∈ rayPts o d) (hq : q ∈ rayPts o d)
    (hpr : euc (p - c) = r) (hqr : euc (q - c) = r) : p = q := by
  obtain ⟨τ, hτ, rfl⟩ := hp
  obtain ⟨σ, hσ, rfl⟩ := hq
  have hsq (x : ℝ) : euc (o + x • d - c) * euc (o + x • d - c) = euc (o - c) * euc (o - c) + 2 * x * ((o - c) ⬝ᵥ d) + x * x * (d ⬝ᵥ d) := by
    rw [euc_sq, euc_sq, show o + x • d - c = (o - c) + x • d by abel, add_dotProduct, dotProduct_add, dotProduct_add, smul_dotProduct,
      smul_dotProduct, dotProduct_smul, dotProduct_smul, dotProduct_comm d (o - c)]
    simp only [smul_eq_mul]; ring
  have h1 := hsq τ
  have h2 := hsq σ
  rw [hpr] at h1
  rw [hqr] at h2
  have h3 : euc (o - c) * euc (o - c) < r * r := by nlinarith [euc_nonneg (o - c)]
  have hdd : 0 < d ⬝ᵥ d := by rw [← euc_sq]; exact mul_pos (euc_pos hd) (euc_pos hd)
  have hτ0 : 0 < τ := lt_of_le_of_ne hτ fun e => by rw [← e] at h1; nlinarith
  have hσ0 : 0 < σ := lt_of_le_of_ne hσ fun e => by rw [← e] at h2; nlinarith
  have key : (τ - σ) * (r * r - euc (o - c) * euc (o - c) + τ * σ * (d ⬝ᵥ d)) = 0 := by
    linear_combination τ * h2 - σ * h1
  have hpos : 0 < r * r - euc (o - c) * euc (o - c) + τ * σ * (d ⬝ᵥ d) := by
    have := mul_pos (mul_pos hτ0 hσ0) hdd
    linarith
  rw [sub_eq_zero.mp ((mul_eq_zero.mp key).resolve_right hpos.ne')]

/-- C85, ray and sphere. -/
theorem C85_ray_sphere (s s' : Ray3 ℝ) (t t' : Sphere ℝ) (o d c : R3) (r : ℝ) (hs : s.Made o d) (ht : t.Made c r)
    (hs' : s'.Made (S.pt o) (S.U d)) (ht' : t'.Made (S.pt c) (S.k * r)) (hr : 0 ≤ r) :
    S.Same (.ray s) (.sphere t) (.ray s') (.sphere t') := by
  have hk := S.pos
  obtain ⟨h1, h2⟩ := C42_raySphere s t o d c r hs ht hr
  obtain ⟨h1', h2'⟩ := C42_raySphere s' t' _ _ _ _ hs' ht' (mul_nonneg hk.le hr)
  by_cases hn : (rayPts o d ∩ ballPts c r).Nonempty
  · obtain ⟨p, hf, hp, hpr, hmin⟩ := h1 hn
    obtain ⟨q0, hq1, hq2⟩ := hn
    obtain ⟨p', hf', hp', hpr', hmin'⟩ := h1' ⟨S.pt q0, S.mem_ray.mpr hq1, S.mem_ball.mpr hq2⟩
    obtain ⟨q, rfl⟩ := S.pt_surj p'
    have hq := S.mem_ray.mp hp'
    rw [S.euc_pt] at hpr'
    have hqr : euc (q - c) = r := mul_left_cancel₀ hk.ne' hpr'
    refine .inl ⟨p, hf, ?_⟩
    suffices p = q by rw [this]; exact hf'
    rcases le_or_gt r (euc (o - c)) with ho | ho
    · refine ray_eq hp hq hs.1 (le_antisymm (hmin ho q ⟨hq, hqr.le⟩) ?_)
      have := hmin' (by rw [S.euc_pt]; exact mul_le_mul_of_nonneg_left ho hk.le) (S.pt p) ⟨S.mem_ray.mpr hp, S.mem_ball.mpr hpr.le⟩
      rw [S.euc_pt, S.euc_pt] at this
      exact le_of_mul_le_mul_left this hk
    · exact exit_eq hs.1 ho hp hq hpr hqr
  · refine .inr ⟨h2 hn, h2' fun ⟨y, hy1, hy2⟩ => hn ?_⟩
    obtain ⟨x, rfl⟩ := S.pt_surj y
    exact ⟨x, S.mem_ray.mp hy1, S.mem_ball.mp hy2⟩

/-- C85, ray and plane. -/
theorem C85_ray_plane (s s' : Ray3 ℝ) (t t' : Plane ℝ) (o d a n : R3) (hs : s.Made o d) (ht : t.Made a n)
    (hs' : s'.Made (S.pt o) (S.U d)) (ht' : t'.Made (S.pt a) (S.U n)) :
    S.Same (.ray s) (.plane t) (.ray s') (.plane t') := by
  have hk := S.pos
  obtain ⟨h1, h2, h3⟩ := rayPlane_core s t o d a n hs ht
  obtain ⟨h1', h2', h3'⟩ := rayPlane_core s' t' _ _ _ _ hs' ht'
  have en : (S.pt a - S.pt o) ⬝ᵥ unit (S.U n) = S.k * ((a - o) ⬝ᵥ unit n) := by
    rw [S.unit_U, S.pt_sub, smul_dotProduct, S.dot, smul_eq_mul]
  have ed : unit (S.U d) ⬝ᵥ unit (S.U n) = unit d ⬝ᵥ unit n := by rw [S.unit_U, S.unit_U, S.dot]
  simp only [en, ed, mul_div_assoc, mul_eq_zero, hk.ne', false_or, ne_eq, mul_nonneg_iff_of_pos_left hk, mul_neg_iff, hk, hk.not_gt,
    true_and, false_and, or_false] at h1' h2' h3'
  rw [S.unit_U] at h2'
  generalize (a - o) ⬝ᵥ unit n = num at *
  generalize hden : unit d ⬝ᵥ unit n = den at *
  rcases lt_trichotomy den 0 with c | c | c
  · by_cases hq : 0 ≤ num / den
    · refine .inl ⟨_, h2 ⟨c, hq⟩, ?_⟩
      rw [S.pt_line]
      exact h2' ⟨c, hq⟩
    · exact .inr ⟨h3 (.inr (.inr ⟨c, not_le.mp hq⟩)), h3' (.inr (.inr ⟨c, not_le.mp hq⟩))⟩
  · by_cases hq : num = 0
    · exact .inl ⟨_, h1 ⟨c, hq⟩, h1' ⟨c, hq⟩⟩
    · exact .inr ⟨h3 (.inl ⟨c, hq⟩), h3' (.inl ⟨c, hq⟩)⟩
  · exact .inr ⟨h3 (.inr (.inl c)), h3' (.inr (.inl c))⟩

/-- C85, sphere and plane. -/
theorem C85_sphere_plane (s s' : Sphere ℝ) (t t' : Plane ℝ) (c o n : R3) (r : ℝ) (hs : s.Made c r) (ht : t.Made o n)
    (hs' : s'.Made (S.pt c) (S.k * r)) (ht' : t'.Made (S.pt o) (S.U n)) :
    S.Same (.sphere s) (.plane t) (.sphere s') (.plane t') := by
  have hk := S.pos
  obtain ⟨h1, h2⟩ := C44_spherePlane s t c o n r hs ht
  obtain ⟨h1', h2'⟩ := C44_spherePlane s' t' _ _ _ _ hs' ht'
  rw [S.signedDist_pt, S.foot_pt] at h1'
  rw [S.signedDist_pt] at h2'
  rcases le_or_gt (signedDist o n c) r with h | h
  · exact .inl ⟨_, h1 h, h1' (mul_le_mul_of_nonneg_left h hk.le)⟩
  · exact .inr ⟨h2 h, h2' (mul_lt_mul_of_pos_left h hk)⟩

/-- C85, plane and point: the tolerance of the plane is rescaled too. -/
theorem C85_plane_point (s s' : Plane ℝ) (t t' : Point3 ℝ) (o n p : R3) (ε : ℝ) (hs : s.Made o n) (ht : t.Made p)
    (hv : s.vicinity.Is ε) (hs' : s'.Made (S.pt o) (S.U n)) (ht' : t'.Made (S.pt p)) (hv' : s'.vicinity.Is (S.k * ε)) :
    S.Same (.plane s) (.point t) (.plane s') (.point t') := by
  have hk := S.pos
  obtain ⟨h1, h2⟩ := C45_planePoint s t o n p ε hs ht hv
  obtain ⟨h1', h2'⟩ := C45_planePoint s' t' _ _ _ _ hs' ht' hv'
  by_cases h : ∃ q ∈ planePts o n, euc (p - q) ≤ ε
  · refine .inl ⟨p, h1 h, h1' ?_⟩
    obtain ⟨q, hq, hle⟩ := h
    exact ⟨S.pt q, S.mem_plane.mpr hq, by rw [S.euc_pt]; exact mul_le_mul_of_nonneg_left hle hk.le⟩
  · refine .inr ⟨h2 h, h2' ?_⟩
    rintro ⟨y, hy, hle⟩
    obtain ⟨q, rfl⟩ := S.pt_surj y
    rw [S.euc_pt] at hle
    exact h ⟨q, S.mem_plane.mp hy, le_of_mul_le_mul_left hle hk⟩

/-- C85, prism and point, for similarities that preserve orientation. -/
theorem C85_prism_point (hp : S.Proper) (s s' : TriPrism ℝ) (t t' : Point3 ℝ) (v0 v1 v2 p : R3) (h : ℝ) (hs : s.Made v0 v1 v2 h)
    (ht : t.Made p) (hs' : s'.Made (S.pt v0) (S.pt v1) (S.pt v2) (S.k * h)) (ht' : t'.Made (S.pt p)) (hh : 0 < h) :
    S.Same (.triPrism s) (.point t) (.triPrism s') (.point t') := by
  have hk := S.pos
  obtain ⟨h1, h2⟩ := C49_prismPoint s t v0 v1 v2 p h hs ht hh
  obtain ⟨h1', h2'⟩ := C49_prismPoint s' t' _ _ _ _ _ hs' ht' (mul_pos hk hh)
  rw [S.mem_prism hp] at h1' h2'
  by_cases hm : p ∈ prismPts v0 v1 v2 h
  · exact .inl ⟨p, h1 hm, h1' hm⟩
  · exact .inr ⟨h2 hm, h2' hm⟩

/-- two points of a segment at the same distance from one end are equal -/
theorem segment_eq {a b p q : R3} (hab : a ≠ b) (hp : p ∈ segment ℝ a b) (hq : q ∈ segment ℝ a b) (h : euc (p - a) = euc (q - a)) : p = q := by
  have ray {x : R3} (hx : x ∈ segment ℝ a b) : x ∈ rayPts a (b - a) := by
    obtain ⟨u, v, hu, hv, h1, rfl⟩ := hx
    exact ⟨v, hv, by rw [show u = 1 - v by linarith]; module⟩
  exact ray_eq (ray hp) (ray hq) (sub_ne_zero.mpr hab.symm) h

/-- C85, prism and segment, for similarities that preserve orientation. -/
theorem C85_prism_line (hp : S.Proper) (s s' : TriPrism ℝ) (t t' : Line3 ℝ) (v0 v1 v2 a b : R3) (h : ℝ) (hs : s.Made v0 v1 v2 h)
    (ht : t.Made a b) (hs' : s'.Made (S.pt v0) (S.pt v1) (S.pt v2) (S.k * h)) (ht' : t'.Made (S.pt a) (S.pt b)) (hh : 0 < h)
    (hab : a ≠ b) : S.Same (.triPrism s) (.line t) (.triPrism s') (.line t') := by
  have hk := S.pos
  have hab' : S.pt a ≠ S.pt b := fun e => hab (S.pt_inj e)
  obtain ⟨h1, h2⟩ := C50_prismLine s t v0 v1 v2 a b h hs ht hh hab
  obtain ⟨h1', h2'⟩ := C50_prismLine s' t' _ _ _ _ _ _ hs' ht' (mul_pos hk hh) hab'
  by_cases hn : (prismPts v0 v1 v2 h ∩ segment ℝ a b).Nonempty
  · obtain ⟨p, ⟨hp1, hp2⟩, hf⟩ := h1 hn
    obtain ⟨p', ⟨hp1', hp2'⟩, hf'⟩ := h1' ⟨S.pt p, (S.mem_prism hp).mpr hp1, S.mem_segment.mpr hp2⟩
    obtain ⟨q, rfl⟩ := S.pt_surj p'
    rw [S.mem_prism hp] at hp1'
    rw [S.mem_segment] at hp2'
    refine .inl ⟨p, hf, ?_⟩
    suffices p = q by rw [this]; exact hf'
    obtain ⟨l1, l2⟩ := C50_location s t v0 v1 v2 a b h hs ht hh hab p hf
    obtain ⟨l1', l2'⟩ := C50_location s' t' _ _ _ _ _ _ hs' ht' (mul_pos hk hh) hab' _ hf'
    rw [S.mem_prism hp, S.mem_prism hp] at l1' l2'
    by_cases hc : a ∈ prismPts v0 v1 v2 h ∨ b ∉ prismPts v0 v1 v2 h
    · refine segment_eq hab hp2 hp2' (le_antisymm (l1 hc q ⟨hp1', hp2'⟩) ?_)
      have := l1' hc (S.pt p) ⟨(S.mem_prism hp).mpr hp1, S.mem_segment.mpr hp2⟩
      rw [S.euc_pt, S.euc_pt] at this
      exact le_of_mul_le_mul_left this hk
    · push Not at hc
      rw [l2 hc.1 hc.2]
      exact (S.pt_inj (l2' hc.1 hc.2)).symm
  · rw [Set.not_nonempty_iff_eq_empty] at hn
    refine .inr ⟨h2 hn, h2' ?_⟩
    rw [Set.eq_empty_iff_forall_notMem] at hn ⊢
    rintro y ⟨hy1, hy2⟩
    obtain ⟨x, rfl⟩ := S.pt_surj y
    exact hn x ⟨(S.mem_prism hp).mp hy1, S.mem_segment.mp hy2⟩

/-- C85, GJK: if neither pair has its centres on a line parallel to the first axis and the spheres do not touch, both loops end,
with the same answer. -/
theorem C85_gjk (s t s' t' : Sphere ℝ) (c d : R3) (r q : ℝ) (hs : s.Made c r) (ht : t.Made d q)
    (hs' : s'.Made (S.pt c) (S.k * r)) (ht' : t'.Made (S.pt d) (S.k * q)) (h0 : 0 < r + q) (hne : euc (c - d) ≠ r + q)
    (h : ¬(c 1 = d 1 ∧ c 2 = d 2)) (h' : ¬(S.pt c 1 = S.pt d 1 ∧ S.pt c 2 = S.pt d 2)) :
    ∃ b n, ∀ m, n ≤ m → Gjk.queryIntersect m (.sphere s) (.sphere t) = .ok (some b) ∧
      Gjk.queryIntersect m (.sphere s') (.sphere t') = .ok (some b) := by
  have hk := S.pos
  obtain ⟨h1, h2⟩ := C52_terminates s t c d r q hs ht h0 h
  obtain ⟨h1', h2'⟩ := C52_terminates s' t' _ _ _ _ hs' ht' (by rw [← mul_add]; exact mul_pos hk h0) h'
  rw [S.euc_pt, ← mul_add] at h1' h2'
  rcases lt_or_gt_of_ne hne with hlt | hlt
  · obtain ⟨n, hn⟩ := h1 hlt
    obtain ⟨n', hn'⟩ := h1' (mul_lt_mul_of_pos_left hlt hk)
    exact ⟨true, max n n', fun m hm => ⟨hn m ((le_max_left _ _).trans hm), hn' m ((le_max_right _ _).trans hm)⟩⟩
  · obtain ⟨n, hn⟩ := h2 hlt
    obtain ⟨n', hn'⟩ := h2' (mul_lt_mul_of_pos_left hlt hk)
    exact ⟨false, max n n', fun m hm => ⟨hn m ((le_max_left _ _).trans hm), hn' m ((le_max_right _ _).trans hm)⟩⟩

/-- C85, link to the quaternions of the crate: for every unit quaternion, factor and translation there is a similarity that
preserves orientation and whose linear part is what `rotate_vector` computes; positions are mapped as `scale` and `plus` compute
them from there. -/
theorem C85_quat {q : Quat (Fl ℝ)} {Q : Quaternion ℝ} (hq : q.IsR Q) (h1 : ‖Q‖ = 1) (x : Fl ℝ) (k : ℝ) (hx : x.Is k) (hk : 0 < k)
    (w : V3 ℝ) (t : R3) (hw : w.IsR t) :
    ∃ S : Simil, S.Proper ∧ S.k = k ∧ S.t = t ∧ ∀ (v : V3 ℝ) (u : R3), v.IsR u →
      (q.rotateVector v).IsR (S.U u) ∧
      ∃ y z, (q.rotateVector v).scale x = some y ∧ y.plus w = some z ∧ z.IsR (S.pt u) := by
  refine ⟨⟨⟨⟨rotR Q, rotR_add h1⟩, rotR_smul h1⟩, k, t, rotR_dot h1, hk⟩, fun a b => (rotR_cross h1 a b).symm, rfl, rfl, ?_⟩
  intro v u hv
  have hr := C20_rotate hq h1 v u hv
  exact ⟨hr, _, _, V3.scale_eq _ _, V3.plus_eq _ _, V3.isR_add (V3.isR_scl hr hx) hw⟩

/-- concrete case: a third of a turn about `(1, 1, 1)`, unit changed by the factor 2 -/
example := C85_quat (quatR_isR turn) turn_unit (.fin 2) 2 (Fl.is_fin _) (by norm_num) _ _ (vec3R_reads 1 2 3)

/-! ### the queries that do not commute with rotations -/

/-- the rotation with columns `(1, 2, 2) / 3`, `(-2, -1, 2) / 3` and `(2, -2, 1) / 3`, with a factor and a translation -/
noncomputable def rot122 (k : ℝ) (hk : 0 < k) (t : R3) : Simil where
  U :=
    { toFun x := ![(x 0 - 2 * x 1 + 2 * x 2) / 3, (2 * x 0 - x 1 - 2 * x 2) / 3, (2 * x 0 + 2 * x 1 + x 2) / 3]
      map_add' x y := by ext i; fin_cases i <;> simp <;> ring
      map_smul' c x := by ext i; fin_cases i <;> simp <;> ring }
  k := k
  t := t
  dot x y := by
    show ![_, _, _] ⬝ᵥ ![_, _, _] = _
    rw [dot3, dot3]; simp; ring
  pos := hk

theorem rot122_proper (k : ℝ) (hk : 0 < k) (t : R3) : (rot122 k hk t).Proper := by
  intro x y
  show ![_, _, _] = (![_, _, _] : R3) ⨯₃ ![_, _, _]
  rw [cross_apply, cross_apply]
  ext i; fin_cases i <;> simp <;> ring

/-- the pure rotation -/
noncomputable abbrev rotS : Simil := rot122 1 one_pos 0

theorem rotS_pt (x : R3) : rotS.pt x = ![(x 0 - 2 * x 1 + 2 * x 2) / 3, (2 * x 0 - x 1 - 2 * x 2) / 3, (2 * x 0 + 2 * x 1 + x 2) / 3] := by
  show (1 : ℝ) • ![_, _, _] + (0 : R3) = _
  rw [one_smul, add_zero]

theorem rotS_U (x : R3) : rotS.U x = ![(x 0 - 2 * x 1 + 2 * x 2) / 3, (2 * x 0 - x 1 - 2 * x 2) / 3, (2 * x 0 + 2 * x 1 + x 2) / 3] := rfl

/-- C85 fails for a sphere and a point: the query tests the cube around the sphere. -/
theorem C85_sphere_point_false : ∃ (s s' : Sphere ℝ) (t t' : Point3 ℝ) (c p : R3) (r : ℝ), s.Made c r ∧ t.Made p ∧
    s'.Made (rotS.pt c) (rotS.k * r) ∧ t'.Made (rotS.pt p) ∧ Shape.Finds (.sphere s) (.point t) p ∧ Shape.Misses (.sphere s') (.point t') := by
  refine ⟨mkSphere 0 1 0, mkSphere (rotS.pt 0) (rotS.k * 1) 0, mkPoint ![1, 1, 1] 0, mkPoint (rotS.pt ![1, 1, 1]) 0, 0, ![1, 1, 1], 1,
    mkSphere_made .., mkPoint_made .., mkSphere_made .., mkPoint_made .., ?_, ?_⟩
  · refine (C41_cube _ _ _ _ _ (mkSphere_made ..) (mkPoint_made ..)).1 fun i => ?_
    fin_cases i <;> simp
  · refine (C41_cube _ _ _ _ _ (mkSphere_made ..) (mkPoint_made ..)).2 fun h => ?_
    have h2 := h 2
    rw [rotS_pt, rotS_pt] at h2
    simp [rot122] at h2
    norm_num [abs_le] at h2

/-- C85 fails for a box and a point: boxes stay parallel to the axes. -/
theorem C85_box_point_false : ∃ (s s' : RecBox ℝ) (t t' : Point3 ℝ) (c p : R3) (r : ℝ), s.Made c r ∧ t.Made p ∧
    s'.Made (rotS.pt c) (rotS.k * r) ∧ t'.Made (rotS.pt p) ∧ Shape.Finds (.box s) (.point t) p ∧ Shape.Misses (.box s') (.point t') := by
  refine ⟨mkBox 0 1 0, mkBox (rotS.pt 0) (rotS.k * 1) 0, mkPoint ![1, 1, 1] 0, mkPoint (rotS.pt ![1, 1, 1]) 0, 0, ![1, 1, 1], 1,
    mkBox_made .., mkPoint_made .., mkBox_made .., mkPoint_made .., ?_, ?_⟩
  · refine (C46_exact _ _ _ _ _ (mkBox_made ..) (mkPoint_made ..)).1 fun i => ?_
    fin_cases i <;> simp
  · refine (C46_exact _ _ _ _ _ (mkBox_made ..) (mkPoint_made ..)).2 fun h => ?_
    have h2 := h 2
    rw [rotS_pt, rotS_pt] at h2
    simp [rot122] at h2
    norm_num [abs_le] at h2

/-- C85 fails for a ray and a point: a ray along an axis never hits, once turned it does. -/
theorem C85_ray_point_false : ∃ (s s' : Ray3 ℝ) (t t' : Point3 ℝ) (o d p : R3), s.Made o d ∧ t.Made p ∧
    s'.Made (rotS.pt o) (rotS.U d) ∧ t'.Made (rotS.pt p) ∧ s.vicinity.Is 1 ∧ s'.vicinity.Is 1 ∧
    Shape.Misses (.ray s) (.point t) ∧ Shape.Finds (.ray s') (.point t') (rotS.pt p) := by
  refine ⟨mkRay 0 axX_ne (.fin 1), mkRay (rotS.pt 0) (rotS.U_ne axX_ne) (.fin 1), mkPoint ![3, 0, 0] 0, mkPoint (rotS.pt ![3, 0, 0]) 0,
    0, ![1, 0, 0], ![3, 0, 0], mkRay_made .., mkPoint_made .., mkRay_made .., mkPoint_made .., mkRay_vicIs .., mkRay_vicIs .., ?_, ?_⟩
  · exact C47_zero_never _ _ _ _ _ (mkRay_made ..) (mkPoint_made ..) 1 (mkRay_vicIs ..) 1 rfl
  · refine C47_on_ray _ _ _ _ _ (mkRay_made ..) (mkPoint_made ..) 1 (mkRay_vicIs ..) zero_le_one (fun i => ?_) (rotS.mem_ray.mpr ?_)
    · rw [rotS_U]; fin_cases i <;> simp
    · exact ⟨3, by norm_num, by ext i; fin_cases i <;> simp⟩

theorem negY_ne : (![0, -1, 0] : R3) ≠ 0 := fun h => by simpa using congrFun h 1

/-- C85 fails for two rays: a pair that is not parallel is found exactly when the bounding boxes overlap, which changes when the
pair is turned. The rays of the witness do not meet. -/
theorem C85_ray_ray_false : ∃ (s t s' t' : Ray3 ℝ) (o d o' d' : R3), s.Made o d ∧ t.Made o' d' ∧
    s'.Made (rotS.pt o) (rotS.U d) ∧ t'.Made (rotS.pt o') (rotS.U d') ∧
    Shape.Misses (.ray s) (.ray t) ∧ ∃ p, Shape.Finds (.ray s') (.ray t') p := by
  refine ⟨mkRay 0 axX_ne (.fin 1), mkRay ![0, 0, 1] negY_ne (.fin 1), mkRay (rotS.pt 0) (rotS.U_ne axX_ne) (.fin 1),
    mkRay (rotS.pt ![0, 0, 1]) (rotS.U_ne negY_ne) (.fin 1), 0, ![1, 0, 0], ![0, 0, 1], ![0, -1, 0], mkRay_made .., mkRay_made ..,
    mkRay_made .., mkRay_made .., ?_, ?_⟩
  · have hov : AABB.overlap (mkRay 0 axX_ne (.fin 1)).bound (mkRay ![0, 0, 1] negY_ne (.fin 1)).bound = false := by
      rw [Bool.eq_false_iff]
      intro hov
      obtain ⟨τ, σ, _, _, e⟩ := (rays_overlap (mkRay_made ..) (mkRay_made ..)).mp hov 2
      simp at e
    unfold Shape.Misses
    rw [getIntersect_eq 0, show AABB.overlap (Shape.ray _).aabb (Shape.ray _).aabb = false from hov]; rfl
  · have eu : unit (rotS.U ![1, 0, 0]) = rotS.U ![1, 0, 0] := by
      rw [rotS.unit_U]; congr 1
      unfold unit
      rw [show euc (![1, 0, 0] : R3) = 1 by rw [euc_eq, Fin.sum_univ_three]; simp]; simp
    have ew : unit (rotS.U ![0, -1, 0]) = rotS.U ![0, -1, 0] := by
      rw [rotS.unit_U]; congr 1
      unfold unit
      rw [show euc (![0, -1, 0] : R3) = 1 by rw [euc_eq, Fin.sum_univ_three]; simp]; simp
    obtain ⟨p, _, hp⟩ := C48_always _ _ _ _ _ _ (mkRay_made (rotS.pt 0) (rotS.U_ne axX_ne) (.fin 1))
      (mkRay_made (rotS.pt ![0, 0, 1]) (rotS.U_ne negY_ne) (.fin 1)) 1 (mkRay_vicIs ..) zero_le_one ⟨0, by
        rw [eu, ew, rotS_U, rotS_U, cross_apply]; simp; norm_num [abs_of_neg, abs_of_pos]⟩ (by
        intro i
        rw [rotS_U, rotS_U, rotS_pt, rotS_pt]
        fin_cases i
        · exact ⟨2, 0, by norm_num, by norm_num, by simp; norm_num⟩
        · exact ⟨0, 2, by norm_num, by norm_num, by simp; norm_num⟩
        · exact ⟨1 / 2, 0, by norm_num, by norm_num, by simp; norm_num⟩)
    exact ⟨p, hp⟩

/-- C85 fails for GJK when the first pair is on the axis. -/
theorem C85_gjk_false : ∃ (s t s' t' : Sphere ℝ) (c d : R3) (r q : ℝ), s.Made c r ∧ t.Made d q ∧
    s'.Made (rotS.pt c) (rotS.k * r) ∧ t'.Made (rotS.pt d) (rotS.k * q) ∧
    ∃ n, ∀ m, n ≤ m → Gjk.queryIntersect m (.sphere s) (.sphere t) = .ok (some true) ∧
      Gjk.queryIntersect m (.sphere s') (.sphere t') = .ok (some false) := by
  refine ⟨mkSphere ![5, 0, 0] 1 0, mkSphere 0 1 0, mkSphere (rotS.pt ![5, 0, 0]) (rotS.k * 1) 0, mkSphere (rotS.pt 0) (rotS.k * 1) 0,
    ![5, 0, 0], 0, 1, 1, mkSphere_made .., mkSphere_made .., mkSphere_made .., mkSphere_made .., ?_⟩
  have he : euc (![5, 0, 0] - 0 : R3) = 5 := by
    rw [sub_zero, euc_eq, Fin.sum_univ_three]; simp
  obtain ⟨n, hn⟩ := (C52_terminates _ _ _ _ _ _ (mkSphere_made (rotS.pt ![5, 0, 0]) (rotS.k * 1) 0)
    (mkSphere_made (rotS.pt 0) (rotS.k * 1) 0) (by simp [rot122]) (by rw [rotS_pt, rotS_pt]; simp)).2 (by
      rw [rotS.euc_pt, he]; simp [rot122]; norm_num)
  refine ⟨n + 1, fun m hm => ⟨?_, hn m (by omega)⟩⟩
  obtain ⟨j, rfl⟩ := Nat.exists_eq_add_of_le' (show 1 ≤ m by omega)
  exact (C52_axis_false _ _ _ _ _ _ (mkSphere_made ![5, 0, 0] 1 0) (mkSphere_made 0 1 0) (by norm_num) (by norm_num) ⟨rfl, rfl⟩
    (by simp; norm_num) j).1

/-! ### concrete cases for the theorems above: the similarity `x ↦ 2 U x + (1, 2, 3)` -/

/-- the similarity of the examples -/
noncomputable abbrev simE : Simil := rot122 2 two_pos ![1, 2, 3]

example := C85_point_point simE _ _ _ _ _ _ (mkPoint_made ![1, 2, 3] (.fin 1)) (mkPoint_made ![1, 2, 3] 0) (mkPoint_made _ (.fin 2)) (mkPoint_made _ 0)
  1 2 (by norm_num) (by norm_num) (mkPoint_vicIs ..) (mkPoint_vicIs ..)
example := C85_sphere_sphere simE _ _ _ _ _ _ _ _ (mkSphere_made ![1, 2, 3] 1 0) (mkSphere_made ![0, 2, 3] 2 0) (mkSphere_made _ _ 0)
  (mkSphere_made _ _ 0) (by norm_num) (by norm_num) (by norm_num)
example := C85_ray_sphere simE _ _ _ _ _ _ _ _ (mkRay_made 0 axX_ne 0) (mkSphere_made ![5, 1, 0] 2 0) (mkRay_made _ (simE.U_ne axX_ne) 0)
  (mkSphere_made _ _ 0) (by norm_num)
example := C85_ray_plane simE _ _ _ _ _ _ _ _ (mkRay_made 0 axX_ne 0) (mkPlane_made ![0, 0, 0] upZ_ne 0) (mkRay_made _ (simE.U_ne axX_ne) 0)
  (mkPlane_made _ (simE.U_ne upZ_ne) 0)
example := C85_sphere_plane simE _ _ _ _ _ _ _ _ (mkSphere_made ![5, 1, 1] 2 0) (mkPlane_made ![0, 0, 0] upZ_ne 0) (mkSphere_made _ _ 0)
  (mkPlane_made _ (simE.U_ne upZ_ne) 0)
example := C85_plane_point simE _ _ _ _ _ _ _ _ (mkPlane_made ![0, 0, 0] upZ_ne (.fin 1)) (mkPoint_made ![4, 5, 1] 0) (mkPlane_vicIs ..)
  (mkPlane_made _ (simE.U_ne upZ_ne) (.fin (simE.k * 1))) (mkPoint_made _ 0) (mkPlane_vicIs ..)

/-- the turned and rescaled base triangle is not degenerate -/
theorem simE_ne : (simE.pt ![1, 0, 0] - simE.pt 0) ⨯₃ (simE.pt ![0, 1, 0] - simE.pt 0) ≠ 0 := by
  rw [simE.tri_cross (rot122_proper _ _ _)]
  exact smul_ne_zero (by simp [rot122]) (simE.U_ne corner_ne)

example : ∃ s t s' t', simE.Same (.triPrism s) (.point t) (.triPrism s') (.point t') := by
  obtain ⟨s', hs', _⟩ := TriPrism.exists_made _ _ _ (simE.k * 2) simE_ne 0
  exact ⟨_, _, s', _, C85_prism_point simE (rot122_proper _ _ _) _ _ _ _ _ _ _ _ _ (mkPrism_made 0) (mkPoint_made ![1 / 4, 1 / 4, 1] 0) hs'
    (mkPoint_made _ 0) (by norm_num)⟩
example : ∃ s t s' t', simE.Same (.triPrism s) (.line t) (.triPrism s') (.line t') := by
  obtain ⟨s', hs', _⟩ := TriPrism.exists_made _ _ _ (simE.k * 2) simE_ne 0
  exact ⟨_, _, s', _, C85_prism_line simE (rot122_proper _ _ _) _ _ _ _ _ _ _ _ _ _ (mkPrism_made 0) (mkLine_made ![1 / 4, 1 / 4, -1] ![1, 2, 3] 0) hs'
    (mkLine_made _ _ 0) (by norm_num) (fun e => by have := congrFun e 0; norm_num at this)⟩
example := C85_gjk rotS _ _ _ _ _ _ _ _ (mkSphere_made ![3, 4, 0] 1 0) (mkSphere_made 0 1 0) (mkSphere_made _ _ 0) (mkSphere_made _ _ 0)
  (by norm_num) (fun e => by
    have h := euc_sq (![3, 4, 0] - 0 : R3)
    rw [e, dot3] at h
    simp at h; norm_num at h) (by simp) (by rw [rotS_pt, rotS_pt]; simp; norm_num)

end Mazth
