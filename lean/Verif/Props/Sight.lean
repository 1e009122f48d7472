import Verif.Props.Bisect
import Verif.Props.RayQueries

/-!
# C117: line of sight

A client asks whether `b` is visible from `a` past a ball: it queries the ray from `a` towards `b` and takes the view as blocked if the
reported location is not farther than `b`.
-/

set_option linter.unusedSectionVars false
set_option autoImplicit false

namespace Mazth

open Matrix

/-- the answer of the client: the ray from `a` hits no farther away than `b` -/
def Blocked (s : Ray3 ℝ) (t : Shape ℝ) (a b : R3) : Prop := ∃ p, Shape.Finds (.ray s) t p ∧ euc (p - a) ≤ euc (b - a)

/-- C117: for a viewer that is not inside the ball, the view is blocked exactly when the segment to the target meets the ball. -/
theorem C117_segment (s : Ray3 ℝ) (t : Sphere ℝ) (a b c : R3) (r : ℝ) (hs : s.Made a (b - a)) (ht : t.Made c r) (hr : 0 ≤ r)
    (ha : r ≤ euc (a - c)) : Blocked s (.sphere t) a b ↔ (segment ℝ a b ∩ ballPts c r).Nonempty := by
  obtain ⟨yes, no⟩ := C42_raySphere s t a (b - a) c r hs ht hr
  have hE : 0 < euc (b - a) := euc_pos hs.1
  constructor
  · rintro ⟨p, hp, hle⟩
    have hne : (rayPts a (b - a) ∩ ballPts c r).Nonempty := by
      by_contra hc; exact hp.not_misses (no hc)
    obtain ⟨p', hp', ⟨x, hx, rfl⟩, h2, -⟩ := yes hne
    obtain rfl := hp.unique hp'
    rw [add_sub_cancel_left, euc_smul, abs_of_nonneg hx] at hle
    exact ⟨_, mem_segment_along.mpr ⟨x, hx, by nlinarith, rfl⟩, h2.le⟩
  · rintro ⟨q, hq, hqb⟩
    obtain ⟨x, hx, hx1, rfl⟩ := mem_segment_along.mp hq
    have hray : along a b x ∈ rayPts a (b - a) := ⟨x, hx, rfl⟩
    obtain ⟨p, hp, -, -, h3⟩ := yes ⟨_, hray, hqb⟩
    refine ⟨p, hp, (h3 ha _ ⟨hray, hqb⟩).trans ?_⟩
    unfold along
    rw [add_sub_cancel_left, euc_smul, abs_of_nonneg hx]
    nlinarith

/-- C117: sight is mutual: of two places that are not inside the ball, one sees the other exactly when the other sees it. -/
theorem C117_mutual (s s' : Ray3 ℝ) (t : Sphere ℝ) (a b c : R3) (r : ℝ) (hs : s.Made a (b - a)) (hs' : s'.Made b (a - b))
    (ht : t.Made c r) (hr : 0 ≤ r) (ha : r ≤ euc (a - c)) (hb : r ≤ euc (b - c)) :
    Blocked s (.sphere t) a b ↔ Blocked s' (.sphere t) b a := by
  rw [C117_segment s t a b c r hs ht hr ha, C117_segment s' t b a c r hs' ht hr hb, segment_symm]

theorem sight_ne : (![0, 0, 5] - ![0, 0, -5] : R3) ≠ 0 := fun h => by
  have := congrFun h 2
  simp at this

theorem sight_ne' : (![0, 0, -5] - ![0, 0, 5] : R3) ≠ 0 := fun h => by
  have := congrFun h 2
  simp at this; norm_num at this

/-- concrete case: the unit ball at the origin blocks the view from `(0,0,-5)` to `(0,0,5)`, and back -/
example : ∃ (s s' : Ray3 ℝ) (t : Sphere ℝ), Blocked s (.sphere t) ![0, 0, -5] ![0, 0, 5] ∧ Blocked s' (.sphere t) ![0, 0, 5] ![0, 0, -5] := by
  have e (x : ℝ) (hx : x * x = 5 * 5) : euc ((![0, 0, x] : R3) - 0) = 5 := by
    rw [euc_eq, show (5 : ℝ) = √(5 * 5) by rw [Real.sqrt_mul_self (by norm_num)]]
    congr 1; simp [Fin.sum_univ_three, hx]
  have h1 : Blocked _ (.sphere (mkSphere 0 1 0)) ![0, 0, -5] ![0, 0, 5] :=
    (C117_segment _ _ _ _ _ 1 (mkRay_made ![0, 0, -5] sight_ne 0) (mkSphere_made 0 1 0) zero_le_one (by rw [e _ (by norm_num)]; norm_num)).mpr
      ⟨0, ⟨1 / 2, 1 / 2, by norm_num, by norm_num, by norm_num, by funext i; fin_cases i <;> norm_num⟩, by simp [ballPts, euc_eq]⟩
  exact ⟨_, _, _, h1, (C117_mutual _ _ _ _ _ _ 1 (mkRay_made ![0, 0, -5] sight_ne 0) (mkRay_made ![0, 0, 5] sight_ne' 0) (mkSphere_made 0 1 0)
    zero_le_one (by rw [e _ (by norm_num)]; norm_num) (by rw [e _ (by norm_num)]; norm_num)).mp h1⟩

/-- C117: past a plane sight is not mutual: whenever `a` is behind the plane and `b` in front, the view from `b` to `a` is blocked and
the view from `a` to `b` is not. -/
theorem C117_plane_false (s s' : Ray3 ℝ) (t : Plane ℝ) (a b o n : R3) (hs : s.Made a (b - a)) (hs' : s'.Made b (a - b)) (ht : t.Made o n)
    (ha : (a - o) ⬝ᵥ n < 0) (hb : 0 < (b - o) ⬝ᵥ n) : ¬ Blocked s (.plane t) a b ∧ Blocked s' (.plane t) b a := by
  have hd : (b - a) ⬝ᵥ n = (b - o) ⬝ᵥ n - (a - o) ⬝ᵥ n := by rw [← sub_dotProduct]; congr 1; abel
  constructor
  · rintro ⟨p, hp, -⟩
    exact hp.not_misses (C43_back_false s t a (b - a) o n hs ht (by rw [hd]; linarith) ha.le).2
  · have hD : 0 < (b - o) ⬝ᵥ n - (a - o) ⬝ᵥ n := by linarith
    have hd' : (a - b) ⬝ᵥ n = -((b - o) ⬝ᵥ n - (a - o) ⬝ᵥ n) := by rw [← hd, ← neg_sub b a, neg_dotProduct]
    obtain ⟨p, hp, hf⟩ := (C43_rayPlane s' t b (a - b) o n hs' ht).1 ⟨by rw [hd']; linarith,
      b + ((b - o) ⬝ᵥ n / ((b - o) ⬝ᵥ n - (a - o) ⬝ᵥ n)) • (a - b), ⟨_, div_nonneg hb.le hD.le, rfl⟩, by
        show (_ - o) ⬝ᵥ n = 0
        rw [show b + ((b - o) ⬝ᵥ n / ((b - o) ⬝ᵥ n - (a - o) ⬝ᵥ n)) • (a - b) - o =
          (b - o) + ((b - o) ⬝ᵥ n / ((b - o) ⬝ᵥ n - (a - o) ⬝ᵥ n)) • (a - b) by abel, add_dotProduct, smul_dotProduct, hd', smul_eq_mul, mul_neg,
          div_mul_cancel₀ _ hD.ne']
        ring⟩
    obtain ⟨⟨x, hx, rfl⟩, hpl⟩ := hp
    have h0 : (b + x • (a - b) - o) ⬝ᵥ n = 0 := hpl
    rw [show b + x • (a - b) - o = (b - o) + x • (a - b) by abel, add_dotProduct, smul_dotProduct, hd', smul_eq_mul] at h0
    refine ⟨_, hf, ?_⟩
    rw [add_sub_cancel_left, euc_smul, abs_of_nonneg hx]
    have hx1 : x ≤ 1 := by
      by_contra hc
      nlinarith [not_le.mp hc]
    nlinarith [euc_nonneg (a - b)]

/-- concrete case: the plane `z = 0` between `(0,0,-5)` and `(0,0,5)` -/
example := C117_plane_false _ _ _ _ _ _ _ (mkRay_made ![0, 0, -5] sight_ne 0) (mkRay_made ![0, 0, 5] sight_ne' 0) (mkPlane_made 0 upZ_ne 0)
  (by simp [dotProduct, Fin.sum_univ_three]) (by simp [dotProduct, Fin.sum_univ_three])

/-- C117 in binary64: past a ball sight is not mutual either: between `(17,-31,0)` and `(31,17,0)`, both outside the ball of radius 25
about the origin, the view from the first to the second is free, and the view back is blocked. -/
theorem C117_f64_false : ∃ (s s' : Ray3 Q64) (t : Sphere Q64) (p : V3 Q64),
    Ray3.init [.fin 17, .fin (-31), 0] [.fin 14, .fin 48, 0] = .ok s ∧ Ray3.init [.fin 31, .fin 17, 0] [.fin (-14), .fin (-48), 0] = .ok s' ∧
    Sphere.init [0, 0, 0] (.fin 25) = .ok t ∧ Shape.getIntersect 2 (.ray s) (.sphere t) = .ok (false, none) ∧
    Shape.getIntersect 2 (.ray s') (.sphere t) = .ok (true, some p) ∧
    ((p.minus s'.ori).bind fun d => d.magnitude.map fun m => Fl.le m (.fin 50)) = some true := by
  refine ⟨_, _, _, ⟨#v[.fin (24 : ℚ), .fin (-7 : ℚ), 0]⟩, rfl, rfl, rfl, ?_, ?_, ?_⟩
  · decide +kernel
  · decide +kernel
  · decide +kernel

end Mazth
