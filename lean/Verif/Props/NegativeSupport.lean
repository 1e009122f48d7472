import Verif.Props.Support

/-!
# C120: support points of shapes of negative size

`Sphere::init` and `RecBox::init` accept negative sizes. A box has the same corners for both signs, so its support point is still a
farthest one. A sphere answers with the point that is farthest in the opposite direction.
-/

set_option linter.unusedSectionVars false
set_option autoImplicit false

namespace Mazth

open Matrix

/-- C120, box: for a size of any sign and a non-zero direction, the support point is a point of the cube of the absolute size that maximises
the inner product with the direction. -/
theorem C120_box (s : RecBox ℝ) (c : R3) (r : ℝ) (hs : s.Made c r) (v : V3 ℝ) (u : R3) (hv : v.IsR u) (hu : u ≠ 0) :
    ∃ p P, (Shape.box s).getSupport v = .ok (some p) ∧ p.IsR P ∧ P ∈ cubePts c |r| ∧ ∀ q ∈ cubePts c |r|, q ⬝ᵥ u ≤ P ⬝ᵥ u := by
  rcases le_total 0 r with hr | hr
  · rw [abs_of_nonneg hr]
    exact C51_box s c r hs hr v u hv hu
  obtain ⟨ho, hrad, _⟩ := hs.facts
  have hn := hrad.neg
  have hc : List.Forall₂ Mat3x1.IsR s.corners
      [![r, r, r], ![-r, r, r], ![r, -r, r], ![-r, -r, r], ![r, r, -r], ![-r, r, -r], ![r, -r, -r], ![-r, -r, -r]] :=
    .cons (V3.isR_mk hrad hrad hrad) (.cons (V3.isR_mk hn hrad hrad) (.cons (V3.isR_mk hrad hn hrad) (.cons (V3.isR_mk hn hn hrad)
      (.cons (V3.isR_mk hrad hrad hn) (.cons (V3.isR_mk hn hrad hn) (.cons (V3.isR_mk hrad hn hn) (.cons (V3.isR_mk hn hn hn) .nil)))))))
  obtain ⟨p, P, e, hp, hP, hmax⟩ := furthest_real hc (by simp [RecBox.corners]) hv
  rw [abs_of_nonpos hr]
  refine ⟨V3.add s.ori p, c + P, ?_, V3.isR_add ho hp, ?_, ?_⟩
  · show RecBox.getSupport s v = _
    unfold RecBox.getSupport
    rw [(magnitudeNonzero_real hv).mpr hu, e]
    simp [V3.plus_eq]
  · intro i
    rw [Pi.add_apply, add_sub_cancel_left]
    simp only [List.mem_cons, List.not_mem_nil, or_false] at hP
    rcases hP with rfl | rfl | rfl | rfl | rfl | rfl | rfl | rfl <;> fin_cases i <;> simp [abs_of_nonpos hr]
  · intro q hq
    let w : R3 := fun i => if 0 ≤ u i then -r else r
    have hw : w ∈ [![r, r, r], ![-r, r, r], ![r, -r, r], ![-r, -r, r], ![r, r, -r], ![-r, r, -r], ![r, -r, -r], ![-r, -r, -r]] := by
      have e : w = ![if 0 ≤ u 0 then -r else r, if 0 ≤ u 1 then -r else r, if 0 ≤ u 2 then -r else r] := by
        ext i; fin_cases i <;> rfl
      rw [e]
      split_ifs <;> simp
    have h1 := hmax w hw
    have h2 : (q - c) ⬝ᵥ u ≤ w ⬝ᵥ u := by
      refine Finset.sum_le_sum fun i _ => ?_
      have := abs_le.mp (hq i)
      show (q i - c i) * u i ≤ (if 0 ≤ u i then -r else r) * u i
      split_ifs with h
      · exact mul_le_mul_of_nonneg_right this.2 h
      · exact mul_le_mul_of_nonpos_right (by linarith [this.1]) (not_le.mp h).le
    have h3 : q ⬝ᵥ u = c ⬝ᵥ u + (q - c) ⬝ᵥ u := by rw [sub_dotProduct]; ring
    rw [h3, add_dotProduct]; linarith

/-- concrete case: a box of size -5 -/
example := C120_box _ _ _ (mkBox_made ![1, 2, 3] (-5) 0) (vec3R 1 2 2) ![1, 2, 2] (vec3R_reads _ _ _) diag_ne

/-- C120, sphere of radius `-ρ`: the support point is the point of the ball of radius `ρ` that minimises the inner product with the
direction. -/
theorem C120_sphere (s : Sphere ℝ) (c : R3) (ρ : ℝ) (hs : s.Made c (-ρ)) (hρ : 0 ≤ ρ) (v : V3 ℝ) (u : R3) (hv : v.IsR u) (hu : u ≠ 0) :
    ∃ p P, (Shape.sphere s).getSupport v = .ok (some p) ∧ p.IsR P ∧ P ∈ ballPts c ρ ∧ ∀ q ∈ ballPts c ρ, P ⬝ᵥ u ≤ q ⬝ᵥ u := by
  obtain ⟨ho, hrad, _⟩ := hs.facts
  refine ⟨V3.add s.ori (V3.scl (V3.nrm v) s.radius), c + (-ρ) • unit u, ?_, V3.isR_add ho (V3.isR_scl (V3.isR_nrm hv hu) hrad), ?_, ?_⟩
  · show Sphere.getSupport s v = _
    unfold Sphere.getSupport
    rw [(magnitudeNonzero_real hv).mpr hu]
    simp [V3.normalize_eq, V3.scale_eq, V3.plus_eq]
  · show euc _ ≤ ρ
    rw [add_sub_cancel_left, euc_smul, euc_unit hu, abs_neg, abs_of_nonneg hρ, mul_one]
  · intro q hq
    have hq : euc (q - c) ≤ ρ := hq
    have h1 : q ⬝ᵥ u = c ⬝ᵥ u + (q - c) ⬝ᵥ u := by rw [sub_dotProduct]; ring
    have h2 : (c + (-ρ) • unit u) ⬝ᵥ u = c ⬝ᵥ u - ρ * euc u := by
      rw [add_dotProduct, smul_dotProduct, smul_dotProduct, ← euc_sq]
      have := (euc_pos hu).ne'
      simp only [smul_eq_mul]
      field_simp
      ring
    have h3 := (neg_le_abs _).trans (abs_dot_le (q - c) u)
    have h4 := mul_le_mul_of_nonneg_right hq (euc_nonneg u)
    rw [h1, h2]; linarith

/-- concrete case: a sphere of radius -5 -/
example := C120_sphere _ _ _ (mkSphere_made ![1, 2, 3] (-5) 0) (by norm_num) (vec3R 1 2 2) ![1, 2, 2] (vec3R_reads _ _ _) diag_ne

/-- C120: so the rule "a support point is a farthest point of the shape of the absolute size" fails for spheres of every negative radius. -/
theorem C120_sphere_false (s : Sphere ℝ) (c : R3) (r : ℝ) (hs : s.Made c r) (hr : r < 0) (v : V3 ℝ) (u : R3) (hv : v.IsR u) (hu : u ≠ 0) :
    ¬ ∃ p P, (Shape.sphere s).getSupport v = .ok (some p) ∧ p.IsR P ∧ ∀ q ∈ ballPts c |r|, q ⬝ᵥ u ≤ P ⬝ᵥ u := by
  rintro ⟨p, P, e, hp, hmax⟩
  obtain ⟨p', P', e', hp', -, hmin⟩ := C120_sphere s c (-r) (by rwa [neg_neg]) (by linarith) v u hv hu
  rw [e] at e'
  obtain rfl : p = p' := Option.some.inj (Except.ok.inj e')
  have : P = P' := by
    ext i
    obtain ⟨x, hx, hx'⟩ := hp i
    obtain ⟨y, hy, hy'⟩ := hp' i
    rw [hx] at hy
    rw [← Except.ok.inj hy] at hy'
    exact hx'.unique hy'
  subst this
  rw [abs_of_neg hr] at hmax
  have hE := euc_pos hu
  have mem (k : ℝ) (hk : |k| ≤ -r) : c + k • unit u ∈ ballPts c (-r) := by
    show euc _ ≤ -r
    rwa [add_sub_cancel_left, euc_smul, euc_unit hu, mul_one]
  have dot (k : ℝ) : (c + k • unit u) ⬝ᵥ u = c ⬝ᵥ u + k * euc u := by
    rw [add_dotProduct, smul_dotProduct, smul_dotProduct, ← euc_sq]
    simp only [smul_eq_mul]
    field_simp
  have h1 := hmax _ (mem (-r) (by rw [abs_neg, abs_of_neg hr]))
  have h2 := hmin _ (mem r (by rw [abs_of_neg hr]))
  rw [dot] at h1 h2
  nlinarith

/-- concrete case -/
example := C120_sphere_false _ _ _ (mkSphere_made ![1, 2, 3] (-5) 0) (by norm_num) (vec3R 1 2 2) ![1, 2, 2] (vec3R_reads _ _ _) diag_ne

end Mazth
