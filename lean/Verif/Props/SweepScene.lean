import Verif.Props.Sweep
import Verif.Props.Trace

/-!
# C118: a ball moving through a scene

The client of C113 in a scene of several resting balls and planes: it follows the ray of the centre (C109) through the grown obstacles.
-/

set_option linter.unusedSectionVars false
set_option autoImplicit false

namespace Mazth

open Matrix

/-- the obstacle `t`, its grown version `g` for a ball of radius `r`, and the surface of the latter -/
inductive Obstacle (r : ℝ) : Shape ℝ → Shape ℝ → Set R3 → Prop
  | sphere {t g : Sphere ℝ} {c : R3} {R : ℝ} (ht : t.Made c R) (hg : g.Made c (R + r)) (hR : 0 ≤ R) (h0 : 0 < R + r) :
      Obstacle r (.sphere t) (.sphere g) {p | euc (p - c) = R + r}
  | plane {t g : Plane ℝ} {a n : R3} (ht : t.Made a n) (hg : g.Made (a + r • unit n) n) :
      Obstacle r (.plane t) (.plane g) (planePts (a + r • unit n) n)

/-- one obstacle: C113 for both kinds -/
theorem Obstacle.spec {r : ℝ} {t g : Shape ℝ} {S : Set R3} (h : Obstacle r t g S) {q : Ray3 ℝ} {b : Sphere ℝ} {o d : R3}
    (hq : q.Made o d) (hb : b.Made o r) (hr : 0 ≤ r) (ha : Shape.Misses (.sphere b) t) :
    Surface o g S ∧
    (∀ p, Shape.Finds (.ray q) g p → (∀ m : Sphere ℝ, m.Made p r → ∃ y, Shape.Finds (.sphere m) t y) ∧
      ∀ x ∈ rayPts o d, euc (x - o) < euc (p - o) → ∀ m : Sphere ℝ, m.Made x r → Shape.Misses (.sphere m) t) ∧
    (Shape.Misses (.ray q) g → ∀ x ∈ rayPts o d, ∀ m : Sphere ℝ, m.Made x r → Shape.Misses (.sphere m) t) := by
  cases h with
  | @sphere t g c R ht hg hR h0 =>
    obtain ⟨h1, h2⟩ := C113_sphere q t g b o d c r R hq ht hg hb hr hR h0 ha
    refine ⟨.sphere hg h0.le, fun p hp => ?_, h2⟩
    obtain ⟨-, k1, k2⟩ := h1 p hp
    exact ⟨fun m hm => let ⟨y, _, hy⟩ := k1 m hm; ⟨y, hy⟩, k2⟩
  | @plane t g a n ht hg =>
    obtain ⟨h1, h2⟩ := C113_plane q t g b o d a n r hq ht hg hb hr ha
    refine ⟨.plane hg ?_, fun p hp => ?_, h2⟩
    · have hso : r < signedDist a n o := by
        by_contra hc
        exact ((C44_spherePlane b t o a n r hb ht).1 (not_lt.mp hc)).not_misses ha
      have hE := euc_pos ht.1
      have e1 : (o - a) ⬝ᵥ n = signedDist a n o * euc n := by
        rw [signedDist, dotProduct_smul, smul_eq_mul]; field_simp
      have e2 : unit n ⬝ᵥ n = euc n := by
        rw [smul_dotProduct, smul_eq_mul, ← euc_sq]; field_simp
      rw [show o - (a + r • unit n) = (o - a) - r • unit n by abel, sub_dotProduct, smul_dotProduct, e1, smul_eq_mul, e2, ← sub_mul]
      exact mul_pos (by linarith) hE
    · obtain ⟨-, k1, k2⟩ := h1 p hp
      exact ⟨fun m hm => let ⟨y, _, hy⟩ := k1 m hm; ⟨y, hy⟩, k2⟩

/-- C118: a ball that starts apart from every obstacle of the scene. Following the ray of its centre through the grown obstacles never
panics. If nothing is found, the ball is reported apart from every obstacle at every position of its path. Otherwise the reported
point is on the path, there the ball is reported to meet the obstacle named, and at every earlier position it is reported apart
from every obstacle. -/
theorem C118_scene (q : Ray3 ℝ) (b : Sphere ℝ) (o d : R3) (r : ℝ) (hq : q.Made o d) (hb : b.Made o r) (hr : 0 ≤ r)
    (obs : List (Shape ℝ × Shape ℝ × Set R3)) (ho : ∀ x ∈ obs, Obstacle r x.1 x.2.1 x.2.2)
    (ha : ∀ x ∈ obs, Shape.Misses (.sphere b) x.1) :
    (trace q (obs.map fun x => x.2.1) = .ok none ∧
      ∀ y ∈ rayPts o d, ∀ m : Sphere ℝ, m.Made y r → ∀ x ∈ obs, Shape.Misses (.sphere m) x.1) ∨
    (∃ loc p, ∃ x ∈ obs, trace q (obs.map fun x => x.2.1) = .ok (some (x.2.1, loc)) ∧ loc.IsR p ∧ p ∈ rayPts o d ∧
      (∀ m : Sphere ℝ, m.Made p r → ∃ y, Shape.Finds (.sphere m) x.1 y) ∧
      ∀ y ∈ rayPts o d, euc (y - o) < euc (p - o) → ∀ m : Sphere ℝ, m.Made y r → ∀ x ∈ obs, Shape.Misses (.sphere m) x.1) := by
  have spec (x) (hx : x ∈ obs) := (ho x hx).spec hq hb hr (ha x hx)
  have hmap : (obs.map fun x => x.2.1) = (obs.map Prod.snd).map Prod.fst := by rw [List.map_map]; rfl
  have hss : ∀ x ∈ obs.map Prod.snd, Surface o x.1 x.2 := by
    intro x hx
    obtain ⟨y, hy, rfl⟩ := List.mem_map.mp hx
    exact (spec y hy).1
  obtain ⟨hn, hy⟩ := C109_trace q o d hq (obs.map Prod.snd) hss
  rw [hmap]
  by_cases hne : ∃ x ∈ obs.map Prod.snd, (rayPts o d ∩ x.2).Nonempty
  · right
    obtain ⟨g, S, loc, p, ht, hloc, hmem, hpS, hmin⟩ := hy hne
    obtain ⟨x, hx, hxe⟩ := List.mem_map.mp hmem
    obtain ⟨t, g', S'⟩ := x
    obtain ⟨rfl, rfl⟩ := Prod.mk.inj hxe
    refine ⟨loc, p, _, hx, ht, hloc, hpS.1, ?_, ?_⟩
    · obtain ⟨h1, h2, h3⟩ := spec _ hx
      rcases Tracing.first hq h1 with ⟨p', hf, hp', hmin'⟩ | ⟨-, he⟩
      · have d1 := hmin' p hpS
        have d2 := hmin _ hmem p' hp'
        obtain ⟨k, hk, rfl⟩ := (rayPts_unit hq.1).mp hpS.1
        obtain ⟨k', hk', rfl⟩ := (rayPts_unit hq.1).mp hp'.1
        rw [Tracing.dist_ray hq.1 hk, Tracing.dist_ray hq.1 hk'] at d1 d2
        rw [le_antisymm d2 d1]
        exact (h2 _ hf).1
      · rw [he] at hpS; exact hpS.elim
    · intro y hyr hlt m hm x' hx'
      obtain ⟨h1, h2, h3⟩ := spec _ hx'
      rcases Tracing.first hq h1 with ⟨p', hf, hp', -⟩ | ⟨hmiss, -⟩
      · exact (h2 _ hf).2 y hyr (lt_of_lt_of_le hlt (hmin _ (List.mem_map_of_mem hx') p' hp')) m hm
      · exact h3 hmiss y hyr m hm
  · left
    push Not at hne
    refine ⟨hn hne, fun y hyr m hm x hx => ?_⟩
    obtain ⟨h1, h2, h3⟩ := spec _ hx
    rcases Tracing.first hq h1 with ⟨p', hf, hp', -⟩ | ⟨hmiss, -⟩
    · have := hne _ (List.mem_map_of_mem hx)
      rw [this] at hp'
      exact hp'.elim
    · exact h3 hmiss y hyr m hm

/-- the unit ball at the origin and the plane `z = -7` -/
theorem sweep_scene : ∀ x ∈ ([(.sphere (mkSphere 0 1 0), .sphere (mkSphere 0 (1 + 1) 0), {p | euc (p - 0) = 1 + 1}),
      (.plane (mkPlane ![0, 0, -7] upZ_ne 0), .plane (mkPlane (![0, 0, -7] + (1 : ℝ) • unit ![0, 0, 2]) upZ_ne 0),
        planePts (![0, 0, -7] + (1 : ℝ) • unit ![0, 0, 2]) ![0, 0, 2])] : List (Shape ℝ × Shape ℝ × Set R3)),
    Obstacle 1 x.1 x.2.1 x.2.2 ∧ Shape.Misses (.sphere (mkSphere ![0, 0, 5] 1 0)) x.1 := by
  have e5 : euc ((0 : R3) - ![0, 0, 5]) = 5 := by
    rw [euc_eq, show (5 : ℝ) = √(5 * 5) by rw [Real.sqrt_mul_self (by norm_num)]]
    congr 1; simp [Fin.sum_univ_three]
  have e2 : euc (![0, 0, 2] : R3) = 2 := by
    rw [euc_eq, show (2 : ℝ) = √(2 * 2) by rw [Real.sqrt_mul_self (by norm_num)]]
    congr 1; simp [Fin.sum_univ_three]
  intro x hx
  rcases List.mem_pair.mp hx with rfl | rfl
  · exact ⟨.sphere (mkSphere_made 0 1 0) (mkSphere_made 0 (1 + 1) 0) zero_le_one (by norm_num),
      (C40_sphereSphere _ _ _ _ _ _ (mkSphere_made ![0, 0, 5] 1 0) (mkSphere_made 0 1 0) zero_le_one zero_le_one (by norm_num)).2
        (by rw [balls_meet zero_le_one zero_le_one, e5]; norm_num)⟩
  · refine ⟨.plane (mkPlane_made _ upZ_ne 0) (mkPlane_made _ upZ_ne 0),
      (C44_spherePlane _ _ _ _ _ _ (mkSphere_made ![0, 0, 5] 1 0) (mkPlane_made ![0, 0, -7] upZ_ne 0)).2 ?_⟩
    rw [signedDist, e2]
    simp [dotProduct, Fin.sum_univ_three]
    norm_num

/-- concrete case: the unit ball falling from `(0,0,5)` -/
example := C118_scene _ _ _ _ 1 (mkRay_made ![0, 0, 5] (d := ![0, 0, -1]) (fun h => by simpa using congrFun h 2) 0)
  (mkSphere_made ![0, 0, 5] 1 0) zero_le_one _ (fun x hx => (sweep_scene x hx).1) (fun x hx => (sweep_scene x hx).2)

end Mazth
