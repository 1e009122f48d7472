import Verif.Props.Gjk

/-!
# C84: how many turns the GJK loop needs, in exact arithmetic

The number of turns is at most logarithmic in the ratio of the radius sum to the distance from touching.
-/

set_option linter.unusedSectionVars false
set_option autoImplicit false

namespace Mazth

open Matrix GjkGeom Gjk

/-- C84: off the axis, if `2 (ra + rb) ≤ g * 2 ^ k` where `g` is the distance of the spheres from touching, then the loop has
ended after `k + 5` turns, with the right answer. -/
theorem C84_turns (s t : Sphere ℝ) (ca cb : R3) (ra rb : ℝ) (hs : s.Made ca ra) (ht : t.Made cb rb)
    (hR : 0 < ra + rb) (h : ¬(ca 1 = cb 1 ∧ ca 2 = cb 2)) (k : ℕ) (hk : 2 * (ra + rb) ≤ |euc (ca - cb) - (ra + rb)| * 2 ^ k)
    (n : ℕ) (hn : k + 5 ≤ n) :
    (euc (ca - cb) < ra + rb ∧ queryIntersect n (.sphere s) (.sphere t) = .ok (some true)) ∨
    (ra + rb < euc (ca - cb) ∧ queryIntersect n (.sphere s) (.sphere t) = .ok (some false)) := by
  have hne : euc (ca - cb) ≠ ra + rb := by
    intro e
    rw [e, sub_self, abs_zero, zero_mul] at hk
    linarith
  have key : queryIntersect (k + 5) (.sphere s) (.sphere t) ≠ .error .diverge := by
    have hm := (not_axis hR.ne' h).1
    have hc : (ca - cb) ⬝ᵥ ((ca - cb) ⨯₃ ![1, 0, 0]) = 0 := dot_self_cross _ _
    obtain ⟨β, hβ, hmin, hstop⟩ := loop_stops hs ht hR hm hc hne
    have hk' : 2 * (ra + rb) ≤ β * 2 ^ (k + 1) := by
      have h1 : (1 : ℝ) ≤ 2 ^ k := one_le_pow₀ (by norm_num)
      refine le_trans ?_ (mul_le_mul_of_nonneg_right hmin (by positivity))
      rw [min_mul_of_nonneg _ _ (by positivity), pow_succ]
      exact le_min (by nlinarith) (by linarith)
    rcases first_inv hs ht hR h (k + 1 + 2 + 1) with ⟨_, e⟩ | ⟨p, q, d, P, Q, D, hp, hq, hd, hI, e⟩
    · rw [show k + 5 = k + 1 + 2 + 1 + 1 from rfl, e]; simp
    · rw [show k + 5 = k + 1 + 2 + 1 + 1 from rfl, e]
      rcases loop_real hs ht (k + 1 + 2) hp hq hd hI with ⟨_, e⟩ | ⟨h0, x, d', A, B, a, hAB, ha, hx, hd', ho, e⟩ | ⟨_, _, _, e⟩
      · rw [e]; simp
      · rw [e]
        rcases hAB with ⟨rfl, rfl⟩ | ⟨rfl, rfl⟩
        · have hE := hI.symm.next hc h0 ho
          exact hstop (k + 1) ha hx hd' hE ((hE.toInv.sag_le hR.le).trans (by linarith))
        · have hE := hI.next hc h0 ho
          exact hstop (k + 1) ha hx hd' hE ((hE.toInv.sag_le hR.le).trans (by linarith))
      · rw [e]; simp
  obtain ⟨j, rfl⟩ := Nat.exists_eq_add_of_le hn
  rw [C52_fuel _ j _ _ key]
  rcases lt_or_gt_of_ne hne with hlt | hlt
  · left
    refine ⟨hlt, ?_⟩
    rcases query_answers hs ht hR h (k + 5) with e | ⟨_, hd⟩ | ⟨e, _⟩
    · exact absurd e key
    · linarith
    · exact e
  · right
    refine ⟨hlt, ?_⟩
    rcases query_answers hs ht hR h (k + 5) with e | ⟨e, _⟩ | ⟨_, hd⟩
    · exact absurd e key
    · exact e
    · linarith

/-- concrete case: centres (3, 4, 0) and the origin, radii 2 and 2, a gap of one: eight turns suffice -/
example : ∃ s t : Sphere ℝ, queryIntersect 8 (.sphere s) (.sphere t) = .ok (some false) := by
  have he : euc (![3, 4, 0] - ![0, 0, 0]) = 5 := by
    have h := euc_sq (![3, 4, 0] - ![0, 0, 0])
    have h0 := euc_nonneg (![3, 4, 0] - ![0, 0, 0])
    simp only [dot3, Pi.sub_apply, Matrix.cons_val_zero, Matrix.cons_val_one, Matrix.cons_val] at h
    nlinarith
  rcases C84_turns _ _ _ _ _ _ (mkSphere_made ![3, 4, 0] 2 0) (mkSphere_made ![0, 0, 0] 2 0) (by norm_num) (by simp) 3
    (by rw [he]; norm_num) 8 le_rfl with ⟨h, _⟩ | ⟨_, h⟩
  · rw [he] at h; norm_num at h
  · exact ⟨_, _, h⟩

end Mazth
