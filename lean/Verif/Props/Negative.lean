import Verif.Props.SphereQueries
import Verif.Props.RayQueries
import Verif.Props.Support

/-!
# C119: spheres of negative radius

`Sphere::init` accepts a negative radius and builds an inverted box for it. Such a sphere does not behave as an empty one: asked against a
sphere or a plane it answers whether the ball of the opposite radius lies wholly inside.
-/

set_option linter.unusedSectionVars false
set_option autoImplicit false

namespace Mazth

open Matrix

theorem abs_coord_le (v : R3) (i : Fin 3) : |v i| ≤ euc v := by
  rw [euc_eq]
  exact Real.abs_le_sqrt (by
    have := Finset.single_le_sum (f := fun j => v j * v j) (fun j _ => mul_self_nonneg (v j)) (Finset.mem_univ i)
    rw [sq]; exact this)

/-- a ball lies in another one iff the distance of the centres is at most the difference of the radii -/
theorem ball_subset {c c' : R3} {ρ R : ℝ} (hρ : 0 ≤ ρ) : ballPts c ρ ⊆ ballPts c' R ↔ euc (c' - c) + ρ ≤ R := by
  constructor
  · intro h
    have key (u : R3) (hu : euc u = 1) (k : ℝ) (hk : 0 ≤ k) (e : c - c' = k • u) : euc (c' - c) + ρ ≤ R := by
      have h1 : c + ρ • u ∈ ballPts c ρ := by
        show euc _ ≤ ρ
        rw [add_sub_cancel_left, euc_smul, hu, abs_of_nonneg hρ, mul_one]
      have h2 : euc (c + ρ • u - c') ≤ R := h h1
      rw [show c + ρ • u - c' = (c - c') + ρ • u by abel, e, ← add_smul, euc_smul, hu, abs_of_nonneg (add_nonneg hk hρ), mul_one] at h2
      rwa [euc_sub_comm, e, euc_smul, hu, abs_of_nonneg hk, mul_one]
    by_cases e : c - c' = 0
    · refine key ![1, 0, 0] ?_ 0 le_rfl (by rw [e, zero_smul])
      rw [euc_eq]; simp [Fin.sum_univ_three]
    · have h0 : euc (c - c') ≠ 0 := fun h => e ((euc_eq_zero _).mp h)
      exact key (unit (c - c')) (euc_unit e) (euc (c - c')) (euc_nonneg _) (by rw [smul_smul, mul_inv_cancel₀ h0, one_smul])
  · intro h p hp
    have hp : euc (p - c) ≤ ρ := hp
    show euc (p - c') ≤ R
    have := euc_add_le (p - c) (c - c')
    rw [sub_add_sub_cancel, euc_sub_comm c c'] at this
    linarith

/-- C119, for radii of any sign: two spheres are reported to meet only if the distance of the centres is at most the sum of the radii, and if that
sum is positive, whenever it is. -/
theorem C119_flag (s t : Sphere ℝ) (c c' : R3) (r r' : ℝ) (hs : s.Made c r) (ht : t.Made c' r') :
    (r + r' < euc (c' - c) → Shape.Misses (.sphere s) (.sphere t)) ∧
    (0 < r + r' → euc (c' - c) ≤ r + r' → Shape.Finds (.sphere s) (.sphere t) (c + (r / (r + r')) • (c' - c))) := by
  have hcore := sphereSphere_core s t c c' r r' hs ht
  obtain ⟨ho, hri, hb⟩ := hs.facts
  obtain ⟨ho', hri', hb'⟩ := ht.facts
  constructor
  · intro h
    unfold Shape.Misses
    rcases query_cases (.sphere s) (.sphere t) with e | e
    · rw [e, hcore, if_pos (by linarith)]
    · exact e
  · intro h0 h
    have hov : AABB.overlap (Shape.sphere s).aabb (Shape.sphere t).aabb = true := by
      show AABB.overlap s.bound t.bound = true
      rw [hb.overlap hb']
      intro i
      have := abs_le.mp ((abs_coord_le (c' - c) i).trans h)
      rw [Pi.sub_apply] at this
      constructor <;> linarith [this.1, this.2]
    unfold Shape.Finds
    rw [getIntersect_eq 0, hov, if_pos rfl, show Mazth.core (.sphere s) (.sphere t) = _ from hcore, if_neg (by linarith)]
    exact ⟨_, rfl, V3.isR_add ho (V3.isR_scl (V3.isR_sub ho' ho) (hri.div (hri.add hri') h0.ne'))⟩

/-- concrete case: radii 3 and -1 -/
example := C119_flag _ _ _ _ _ _ (mkSphere_made ![1, 2, 3] 3 0) (mkSphere_made ![1, 2, 2] (-1) 0)

/-- C119, the remaining case: opposite radii about the same centre are reported to meet, at a location whose coordinates are all NaN. -/
theorem C119_opposite (s t : Sphere ℝ) (c : R3) (r : ℝ) (hs : s.Made c r) (ht : t.Made c (-r)) :
    Shape.getIntersect 2 (.sphere s) (.sphere t) = .ok (true, some ⟨#v[.nan, .nan, .nan]⟩) := by
  have hcore := sphereSphere_core s t c c r (-r) hs ht
  obtain ⟨ho, hri, hb⟩ := hs.facts
  obtain ⟨ho', hri', hb'⟩ := ht.facts
  have hov : AABB.overlap (Shape.sphere s).aabb (Shape.sphere t).aabb = true := by
    show AABB.overlap s.bound t.bound = true
    rw [hb.overlap hb']
    intro i
    constructor <;> linarith
  have z : euc (c - c) = 0 := by rw [sub_self]; exact (euc_eq_zero _).mpr rfl
  rw [getIntersect_eq 0, hov, if_pos rfl, show Mazth.core (.sphere s) (.sphere t) = _ from hcore, if_neg (by rw [z]; simp)]
  have h1 (x : Fl ℝ) : x * Fl.nan = Fl.nan := by cases x <;> rfl
  have h2 (x : Fl ℝ) : x + Fl.nan = Fl.nan := by cases x <;> rfl
  have hsum : (s.radius + t.radius).Is 0 := (hri.add hri').cast (add_neg_cancel r)
  have hdiff := V3.isR_sub ho' ho
  have key (x : Fl ℝ) (hx : x.Is 0) : x * (s.radius / (s.radius + t.radius)) = Fl.nan := by
    by_cases hr : r = 0
    · subst hr
      rw [hri.div_zero_zero hsum, h1]
    · generalize s.radius + t.radius = y at hsum
      generalize s.radius = w at hri
      obtain ⟨b, hb⟩ : ∃ b, w / y = Fl.inf b := by
        rcases hri.cases with rfl | ⟨rfl, h⟩
        · rcases hsum.cases with rfl | ⟨rfl, -⟩
          · exact ⟨decide (r < 0), by show Fl.divFin _ r 0 = _; simp [Fl.divFin, hr]⟩
          · exact ⟨!decide (r < 0), by show Fl.divFin _ r 0 = _; simp [Fl.divFin, hr]⟩
        · exact absurd h hr
      rw [hb]
      rcases hx.cases with rfl | ⟨rfl, -⟩
      · show Fl.mulInf _ 0 = _
        simp [Fl.mulInf]
      · rfl
  rw [sub_self] at hdiff
  obtain ⟨a0, a1, a2⟩ := Mat3x1.isR_iff.mp hdiff
  have k0 := key _ a0
  have k1 := key _ a1
  have k2 := key _ a2
  simp only [V3.sub] at k0 k1 k2
  simp [V3.add, V3.scl, V3.sub] at k0 k1 k2 ⊢
  simp [k0, k1, k2, h2]

/-- concrete case: radii 2 and -2 -/
example := C119_opposite _ _ _ _ (mkSphere_made ![1, 2, 3] 2 0) (mkSphere_made ![1, 2, 3] (-2) 0)

/-- C119, sphere of radius `-ρ` against a larger sphere: found iff the ball of radius `ρ` lies inside the other ball, at a location inside it. -/
theorem C119_inside (s t : Sphere ℝ) (c c' : R3) (ρ R : ℝ) (hs : s.Made c (-ρ)) (ht : t.Made c' R) (hρ : 0 ≤ ρ) (hR : ρ < R) :
    (ballPts c ρ ⊆ ballPts c' R → ∃ p ∈ ballPts c ρ, Shape.Finds (.sphere s) (.sphere t) p) ∧
    (¬ ballPts c ρ ⊆ ballPts c' R → Shape.Misses (.sphere s) (.sphere t)) := by
  obtain ⟨h1, h2⟩ := C119_flag s t c c' (-ρ) R hs ht
  have h0 : 0 < -ρ + R := by linarith
  rw [ball_subset hρ]
  refine ⟨fun h => ⟨_, ?_, h2 h0 (by linarith)⟩, fun h => h1 (by linarith)⟩
  show euc _ ≤ ρ
  rw [add_sub_cancel_left, euc_smul, abs_div, abs_neg, abs_of_nonneg hρ, abs_of_pos h0]
  calc _ ≤ ρ / (-ρ + R) * (-ρ + R) := mul_le_mul_of_nonneg_left (by linarith) (div_nonneg hρ h0.le)
    _ = ρ := div_mul_cancel₀ _ h0.ne'

/-- concrete case -/
example := C119_inside _ _ _ _ 1 3 (mkSphere_made ![1, 2, 2] (-1) 0) (mkSphere_made ![1, 2, 3] 3 0) (by norm_num) (by norm_num)

/-- C119, sphere of radius `-ρ` against a plane: found iff the ball of radius `ρ` lies wholly behind or on the plane. -/
theorem C119_behind (s : Sphere ℝ) (t : Plane ℝ) (c a n : R3) (ρ : ℝ) (hs : s.Made c (-ρ)) (ht : t.Made a n) (hρ : 0 ≤ ρ) :
    ((∀ p ∈ ballPts c ρ, (p - a) ⬝ᵥ n ≤ 0) → Shape.Finds (.sphere s) (.plane t) (foot a n c)) ∧
    (¬ (∀ p ∈ ballPts c ρ, (p - a) ⬝ᵥ n ≤ 0) → Shape.Misses (.sphere s) (.plane t)) := by
  obtain ⟨h1, h2⟩ := C44_spherePlane s t c a n (-ρ) hs ht
  have hE := euc_pos ht.1
  have e1 : (c - a) ⬝ᵥ n = signedDist a n c * euc n := by
    rw [signedDist, dotProduct_smul, smul_eq_mul]; field_simp
  have key : (∀ p ∈ ballPts c ρ, (p - a) ⬝ᵥ n ≤ 0) ↔ signedDist a n c ≤ -ρ := by
    constructor
    · intro h
      have hm : c + ρ • unit n ∈ ballPts c ρ := by
        show euc _ ≤ ρ
        rw [add_sub_cancel_left, euc_smul, euc_unit ht.1, abs_of_nonneg hρ, mul_one]
      have := h _ hm
      have e2 : unit n ⬝ᵥ n = euc n := by
        rw [smul_dotProduct, smul_eq_mul, ← euc_sq]; field_simp
      rw [show c + ρ • unit n - a = (c - a) + ρ • unit n by abel, add_dotProduct, smul_dotProduct, e1, smul_eq_mul, e2, ← add_mul] at this
      have := nonpos_of_mul_nonpos_left this hE
      linarith
    · intro h p hp
      have hp : euc (p - c) ≤ ρ := hp
      have hcs : (p - c) ⬝ᵥ n ≤ euc (p - c) * euc n := (le_abs_self _).trans (abs_dot_le _ _)
      rw [show p - a = (p - c) + (c - a) by abel, add_dotProduct, e1]
      nlinarith
  rw [key]
  exact ⟨h1, fun h => h2 (not_le.mp h)⟩

/-- concrete case -/
example := C119_behind _ _ _ _ _ 2 (mkSphere_made ![1, 2, -5] (-2) 0) (mkPlane_made 0 upZ_ne 0) (by norm_num)

/-- C119, a ray: the answer for a negative radius is neither that of the empty set nor that of the ball of the opposite radius. In f64, of two rays
through the centre one is reported to hit and the other, along an axis, not, though it is reported to hit the sphere of radius 1. -/
theorem C119_ray_false : ∃ (s s' : Sphere Q64) (u v : Ray3 Q64), Sphere.init [0, 0, 0] (.fin (-1)) = .ok s ∧ Sphere.init [0, 0, 0] 1 = .ok s' ∧
    Ray3.init [.fin 5, .fin 5, .fin 5] [.fin (-1), .fin (-1), .fin (-1)] = .ok u ∧ Ray3.init [0, 0, .fin 5] [0, 0, .fin (-1)] = .ok v ∧
    (Shape.getIntersect 2 (.ray u) (.sphere s)).map Prod.fst = .ok true ∧
    Shape.getIntersect 2 (.ray v) (.sphere s) = .ok (false, none) ∧
    Shape.getIntersect 2 (.ray v) (.sphere s') = .ok (true, some ⟨#v[0, 0, 1]⟩) :=
  ⟨_, _, _, _, rfl, rfl, rfl, rfl, by decide +kernel, by decide +kernel, by decide +kernel⟩

end Mazth
