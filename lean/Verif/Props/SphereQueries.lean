import Verif.Props.PointQueries

/-!
# Sphere-sphere (C40) and sphere-plane (C44) queries, in exact arithmetic
-/

set_option linter.unusedSectionVars false
set_option autoImplicit false

namespace Mazth

open Matrix

/-- for two shapes with a common point the bounds do not matter -/
theorem query_meet {s t : Shape ℝ} {S T : Set R3} (hs : s.MadeOf S) (ht : t.MadeOf T) (h : (S ∩ T).Nonempty) :
    Shape.getIntersect 2 s t = core s t := by
  have := C36_pretest s t S T hs ht h
  rw [Shape.getBound_eq, Shape.getBound_eq, AABB.intersect_eq] at this
  rw [getIntersect_eq 0, Except.ok.inj this]; rfl

theorem query_cases (s t : Shape ℝ) : Shape.getIntersect 2 s t = core s t ∨ Shape.getIntersect 2 s t = .ok (false, none) := by
  rw [getIntersect_eq 0]; split
  · exact .inl rfl
  · exact .inr rfl

theorem euc_sub_comm {n : ℕ} (u v : Fin n → ℝ) : euc (u - v) = euc (v - u) := by
  rw [show u - v = (-1 : ℝ) • (v - u) by simp, euc_smul]; simp

/-! ## C40 -/

/-- two closed balls meet iff the distance of the centres is at most the sum of the radii -/
theorem balls_meet {c c' : R3} {r r' : ℝ} (hr : 0 ≤ r) (hr' : 0 ≤ r') :
    (ballPts c r ∩ ballPts c' r').Nonempty ↔ euc (c' - c) ≤ r + r' := by
  constructor
  · rintro ⟨p, hp, hp'⟩
    have hp : euc (p - c) ≤ r := hp
    have hp' : euc (p - c') ≤ r' := hp'
    have := euc_add_le (c' - p) (p - c)
    rw [show c' - p + (p - c) = c' - c by abel, euc_sub_comm c' p] at this
    linarith
  · intro h
    rcases (add_nonneg hr hr').lt_or_eq with h0 | h0
    · have hf0 : 0 ≤ r / (r + r') := div_nonneg hr h0.le
      have hf1 : 0 ≤ r' / (r + r') := div_nonneg hr' h0.le
      refine ⟨c + (r / (r + r')) • (c' - c), ?_, ?_⟩
      · show euc _ ≤ r
        rw [add_sub_cancel_left, euc_smul, abs_of_nonneg hf0]
        calc _ ≤ r / (r + r') * (r + r') := mul_le_mul_of_nonneg_left h hf0
          _ = r := by field_simp
      · show euc _ ≤ r'
        have e : c + (r / (r + r')) • (c' - c) - c' = (-(r' / (r + r'))) • (c' - c) := by
          have : r / (r + r') = 1 - r' / (r + r') := by field_simp; ring
          rw [this]; module
        rw [e, euc_smul, abs_neg, abs_of_nonneg hf1]
        calc _ ≤ r' / (r + r') * (r + r') := mul_le_mul_of_nonneg_left h hf1
          _ = r' := by field_simp
    · have e : c' = c := sub_eq_zero.mp ((euc_eq_zero _).mp (le_antisymm (h.trans h0.symm.le) (euc_nonneg _)))
      have z : euc (c - c) = 0 := by rw [sub_self]; exact (euc_eq_zero _).mpr rfl
      exact ⟨c, by show euc _ ≤ r; rw [z]; exact hr, by show euc _ ≤ r'; rw [e, z]; exact hr'⟩

theorem sphereSphere_core (s t : Sphere ℝ) (c c' : R3) (r r' : ℝ) (hs : s.Made c r) (ht : t.Made c' r') :
    core (.sphere s) (.sphere t) = .ok (if r' + r < euc (c' - c) then (false, none) else
      (true, some (V3.add s.ori (V3.scl (V3.sub t.ori s.ori) (s.radius / (s.radius + t.radius)))))) := by
  obtain ⟨ho, hr, hb⟩ := hs.facts
  obtain ⟨ho', hr', hb'⟩ := ht.facts
  show Sphere.intersectSphere _ _ = _
  unfold Sphere.intersectSphere
  simp only [vecAt_sphere, sliceGet_sphere, Res.ok_bind, V3.minus_eq, V3.magnitude_eq, V3.scale_eq, V3.plus_eq, unwrap_some, Res.pure_eq]
  rw [(hr'.add hr).lt (V3.is_mag (V3.isR_sub ho' ho))]
  by_cases h : r' + r < euc (c' - c) <;> simp [h]

/-- C40: two spheres of non-negative radii intersect for the code exactly when their closed balls do; and if the radii
are not both zero, the location lies in both balls, on the segment between the centres. -/
theorem C40_sphereSphere (s t : Sphere ℝ) (c c' : R3) (r r' : ℝ) (hs : s.Made c r) (ht : t.Made c' r') (hr : 0 ≤ r)
    (hr' : 0 ≤ r') (h0 : 0 < r + r') :
    ((ballPts c r ∩ ballPts c' r').Nonempty →
      ∃ p ∈ ballPts c r ∩ ballPts c' r', p ∈ segment ℝ c c' ∧ Shape.Finds (.sphere s) (.sphere t) p) ∧
    (¬ (ballPts c r ∩ ballPts c' r').Nonempty → Shape.Misses (.sphere s) (.sphere t)) := by
  have hcore := sphereSphere_core s t c c' r r' hs ht
  obtain ⟨ho, hri, hb⟩ := hs.facts
  obtain ⟨ho', hri', hb'⟩ := ht.facts
  constructor
  · intro hne
    have hd := (balls_meet hr hr').mp hne
    have hf0 : 0 ≤ r / (r + r') := div_nonneg hr h0.le
    have hf1 : 0 ≤ r' / (r + r') := div_nonneg hr' h0.le
    have hsum : r / (r + r') = 1 - r' / (r + r') := by field_simp; ring
    refine ⟨c + (r / (r + r')) • (c' - c), ⟨?_, ?_⟩, ?_, ?_⟩
    · show euc _ ≤ r
      rw [add_sub_cancel_left, euc_smul, abs_of_nonneg hf0]
      calc _ ≤ r / (r + r') * (r + r') := mul_le_mul_of_nonneg_left hd hf0
        _ = r := by field_simp
    · show euc _ ≤ r'
      have e : c + (r / (r + r')) • (c' - c) - c' = (-(r' / (r + r'))) • (c' - c) := by
        rw [hsum]; module
      rw [e, euc_smul, abs_neg, abs_of_nonneg hf1]
      calc _ ≤ r' / (r + r') * (r + r') := mul_le_mul_of_nonneg_left hd hf1
        _ = r' := by field_simp
    · exact ⟨r' / (r + r'), r / (r + r'), hf1, hf0, by rw [hsum]; ring, by rw [hsum]; module⟩
    · unfold Shape.Finds
      rw [query_meet (.sphere hs) (.sphere ht) hne, hcore, if_neg (by linarith)]
      exact ⟨_, rfl, V3.isR_add ho (V3.isR_scl (V3.isR_sub ho' ho) (hri.div (hri.add hri') h0.ne'))⟩
  · intro hne
    rw [balls_meet hr hr', not_le] at hne
    unfold Shape.Misses
    rcases query_cases (.sphere s) (.sphere t) with h | h
    · rw [h, hcore, if_pos (by linarith)]
    · exact h

/-- C40: two spheres of radius zero with the same centre are reported as intersecting, at a location whose coordinates
are all NaN. -/
theorem C40_zero_radii (s t : Sphere ℝ) (c : R3) (hs : s.Made c 0) (ht : t.Made c 0) :
    Shape.getIntersect 2 (.sphere s) (.sphere t) = .ok (true, some ⟨#v[.nan, .nan, .nan]⟩) := by
  have hcore := sphereSphere_core s t c c 0 0 hs ht
  obtain ⟨ho, hri, hb⟩ := hs.facts
  obtain ⟨ho', hri', hb'⟩ := ht.facts
  rw [query_meet (.sphere hs) (.sphere ht), hcore, if_neg]
  · rw [hri.div_zero_zero ((hri.add hri').cast (add_zero 0))]
    have h1 (x : Fl ℝ) : x * Fl.nan = Fl.nan := by cases x <;> rfl
    have h2 (x : Fl ℝ) : x + Fl.nan = Fl.nan := by cases x <;> rfl
    simp [V3.add, V3.scl, h1, h2]
  · simp [(euc_eq_zero _).mpr]
  · have z : euc (c - c) = 0 := by rw [sub_self]; exact (euc_eq_zero _).mpr rfl
    exact ⟨c, z.le, z.le⟩

/-- concrete case -/
example := C40_zero_radii _ _ _ (mkSphere_made ![1, 2, 3] 0 0) (mkSphere_made ![1, 2, 3] 0 0)

/-- C40: hence the location of a reported intersection need not be a point at all (also in binary64). -/
theorem C40_location_false : ∃ s t : Sphere Q64, Sphere.init [0, 0, 0] 0 = .ok s ∧ Sphere.init [0, 0, 0] 0 = .ok t ∧
    Shape.getIntersect 2 (.sphere s) (.sphere t) = .ok (true, some ⟨#v[.nan, .nan, .nan]⟩) :=
  ⟨_, _, rfl, rfl, by decide +kernel⟩

/-- C40, non-vacuity: touching and disjoint balls. -/
example : ∃ s t, Sphere.Made s 0 1 ∧ Sphere.Made t ![3, 0, 0] 2 ∧ ∃ p, Shape.Finds (.sphere s) (.sphere t) p := by
  obtain ⟨s, hs, _⟩ := Sphere.exists_made 0 1 0
  obtain ⟨t, ht, _⟩ := Sphere.exists_made ![3, 0, 0] 2 0
  refine ⟨s, t, hs, ht, ?_⟩
  obtain ⟨p, _, _, hp⟩ := (C40_sphereSphere s t _ _ _ _ hs ht (by norm_num) (by norm_num) (by norm_num)).1 <| by
    rw [balls_meet (by norm_num) (by norm_num), euc_eq]
    simp only [Fin.sum_univ_three]
    simp; norm_num
  exact ⟨p, hp⟩

/-! ## C44 -/

theorem plane_overlap_sphere (s : Sphere ℝ) (t : Plane ℝ) (c o n : R3) (r : ℝ) (hs : s.Made c r) (ht : t.Made o n) :
    AABB.overlap (Shape.sphere s).aabb (Shape.plane t).aabb = true := by
  obtain ⟨ho, hr, hb⟩ := hs.facts
  obtain ⟨ho', hn, hb'⟩ := ht.facts
  show AABB.overlap s.bound t.bound = true
  rw [hb', AABB.overlap_iff]
  intro i
  have h1 := hb i
  generalize s.bound.lower[i] = x at *
  generalize s.bound.upper[i] = y at *
  have e1 : (AABB.default : AABB (Fl ℝ)).upper[i] = .inf false := by fin_cases i <;> rfl
  have e2 : (AABB.default : AABB (Fl ℝ)).lower[i] = .inf true := by fin_cases i <;> rfl
  rw [e1, e2]
  rcases h1.1.cases with rfl | ⟨rfl, _⟩ <;> rcases h1.2.cases with rfl | ⟨rfl, _⟩ <;> exact ⟨rfl, rfl⟩

/-- the signed distance of `p` from the plane through `o` with normal `n` -/
noncomputable def signedDist (o n p : R3) : ℝ := (p - o) ⬝ᵥ ((euc n)⁻¹ • n)

/-- the foot of the perpendicular from `p` -/
noncomputable def foot (o n p : R3) : R3 := p - signedDist o n p • ((euc n)⁻¹ • n)

theorem foot_mem {o n p : R3} (hn : n ≠ 0) : foot o n p ∈ planePts o n := by
  have h0 : euc n ≠ 0 := fun h => hn ((euc_eq_zero _).mp h)
  have hu := unit_of hn
  show (_ - o) ⬝ᵥ n = 0
  unfold foot signedDist
  have e : n = euc n • ((euc n)⁻¹ • n) := by rw [smul_smul, mul_inv_cancel₀ h0, one_smul]
  generalize (euc n)⁻¹ • n = m at *
  rw [e, dotProduct_smul, sub_right_comm, sub_dotProduct, smul_dotProduct, hu]; simp

theorem foot_dist {o n p : R3} (hn : n ≠ 0) : euc (foot o n p - p) = |signedDist o n p| := by
  have h0 : euc n ≠ 0 := fun h => hn ((euc_eq_zero _).mp h)
  unfold foot
  rw [show p - signedDist o n p • ((euc n)⁻¹ • n) - p = (-(signedDist o n p)) • ((euc n)⁻¹ • n) by module, euc_smul, euc_smul,
    abs_of_nonneg (inv_nonneg.mpr (euc_nonneg n)), inv_mul_cancel₀ h0, mul_one, abs_neg]

theorem meet_plane {c o n : R3} {r : ℝ} (hn : n ≠ 0) :
    (ballPts c r ∩ planePts o n).Nonempty ↔ |signedDist o n c| ≤ r := by
  unfold signedDist
  rw [← plane_dist hn]
  constructor
  · rintro ⟨q, h1, h2⟩; exact ⟨q, h2, by rw [euc_sub_comm]; exact h1⟩
  · rintro ⟨q, h1, h2⟩; exact ⟨q, by show euc _ ≤ r; rw [euc_sub_comm]; exact h2, h1⟩

/-- C44: what the sphere-plane query computes (any radius): it answers true exactly when the signed distance of the
centre from the plane is at most the radius, and returns the foot of the perpendicular from the centre. -/
theorem C44_spherePlane (s : Sphere ℝ) (t : Plane ℝ) (c o n : R3) (r : ℝ) (hs : s.Made c r) (ht : t.Made o n) :
    (signedDist o n c ≤ r → Shape.Finds (.sphere s) (.plane t) (foot o n c)) ∧
    (r < signedDist o n c → Shape.Misses (.sphere s) (.plane t)) := by
  have hov := plane_overlap_sphere s t c o n r hs ht
  obtain ⟨ho, hr, hb⟩ := hs.facts
  obtain ⟨ho', hn, hb'⟩ := ht.facts
  unfold Shape.Finds Shape.Misses
  rw [getIntersect_eq 0, hov, if_pos rfl]
  show (_ → ∃ loc, Sphere.intersectPlane _ _ = _ ∧ _) ∧ (_ → Sphere.intersectPlane _ _ = _)
  unfold Sphere.intersectPlane
  simp only [vecAt_plane0, vecAt_plane3, Res.ok_bind, V3.dot_eq, V3.scale_eq, V3.plus_eq, unwrap_some, Res.pure_eq]
  have ht : (V3.dotp t.normal s.ori - V3.dotp t.normal t.offset).Is (signedDist o n c) :=
    ((V3.is_dotp hn ho).sub (V3.is_dotp hn ho')).cast (by
      unfold signedDist; rw [sub_dotProduct, dotProduct_comm c, dotProduct_comm o])
  rw [hr.lt ht]
  constructor
  · intro h
    rw [decide_eq_false (not_lt.mpr h)]
    refine ⟨_, rfl, ?_⟩
    have := V3.isR_add (V3.isR_scl hn ht.neg) ho
    rwa [show -signedDist o n c • ((euc n)⁻¹ • n) + c = foot o n c by unfold foot; module] at this
  · intro h
    rw [decide_eq_true h]; rfl

/-- concrete case: a sphere above a horizontal plane -/
example := C44_spherePlane _ _ _ _ _ _ (mkSphere_made ![1, 2, 3] 1 0) (mkPlane_made 0 upZ_ne 0)

/-- C44: so no intersection is missed (radius `≥ 0` is not needed: a ball with a point has one), and the location then lies
in the ball and on the plane. -/
theorem C44_complete (s : Sphere ℝ) (t : Plane ℝ) (c o n : R3) (r : ℝ) (hs : s.Made c r) (ht : t.Made o n)
    (h : (ballPts c r ∩ planePts o n).Nonempty) :
    Shape.Finds (.sphere s) (.plane t) (foot o n c) ∧ foot o n c ∈ ballPts c r ∩ planePts o n := by
  have h' := (meet_plane ht.1).mp h
  exact ⟨(C44_spherePlane s t c o n r hs ht).1 ((le_abs_self _).trans h'),
    by show euc _ ≤ r; rw [foot_dist ht.1]; exact h', foot_mem ht.1⟩

/-- concrete case: a plane through the centre -/
example := C44_complete _ _ _ _ _ _ (mkSphere_made 0 1 0) (mkPlane_made 0 upZ_ne 0) ⟨0, by
  show euc _ ≤ 1
  rw [sub_zero, (euc_eq_zero 0).mpr rfl]; norm_num, by
  show _ ⬝ᵥ _ = (0 : ℝ)
  simp⟩

/-- C44: a location is in the ball exactly when the sphere really meets the plane. -/
theorem C44_location (c o n : R3) (r : ℝ) (hn : n ≠ 0) :
    foot o n c ∈ ballPts c r ↔ (ballPts c r ∩ planePts o n).Nonempty := by
  rw [meet_plane hn]; show euc _ ≤ r ↔ _; rw [foot_dist hn]

/-- concrete case -/
example := C44_location ![1, 2, 3] 0 ![0, 0, 2] 5 upZ_ne

/-- C44, the answer is not "the sphere meets the plane": every sphere that lies wholly behind the plane is reported. -/
theorem C44_behind_false (s : Sphere ℝ) (t : Plane ℝ) (c o n : R3) (r : ℝ) (hs : s.Made c r) (ht : t.Made o n) (hr : 0 ≤ r)
    (h : signedDist o n c < -r) :
    ¬ (ballPts c r ∩ planePts o n).Nonempty ∧ Shape.Finds (.sphere s) (.plane t) (foot o n c) :=
  ⟨by rw [meet_plane ht.1, not_le, lt_abs]; exact .inr (by linarith),
    (C44_spherePlane s t c o n r hs ht).1 (by linarith)⟩

/-- concrete case: a sphere of radius 1 whose centre is 5 behind the plane -/
example := C44_behind_false _ _ _ _ _ _ (mkSphere_made ![0, 0, -5] 1 0) (mkPlane_made 0 upZ_ne 0) (by norm_num) (by
  have e : euc (![0, 0, 2] : R3) = 2 := by
    rw [euc_eq, Fin.sum_univ_three]
    simp
  rw [signedDist, e]
  simp [dotProduct, Fin.sum_univ_three])

/-- C44, a witness in binary64: the unit sphere around `(0,0,-10)` and the plane `z = 0`. -/
theorem C44_f64_false : ∃ (s : Sphere Q64) (t : Plane Q64), Sphere.init [0, 0, .fin (-10)] 1 = .ok s ∧
    Plane.init [0, 0, 0] [0, 0, 1] = .ok t ∧ Shape.getIntersect 2 (.sphere s) (.plane t) = .ok (true, some ⟨#v[0, 0, 0]⟩) :=
  ⟨_, _, rfl, rfl, by decide +kernel⟩

/-- C44, non-vacuity: a plane that touches a sphere. -/
example : ∃ s t, Sphere.Made s 0 1 ∧ Plane.Made t ![0, 0, 1] ![0, 0, 1] ∧
    (ballPts 0 1 ∩ planePts ![0, 0, 1] ![0, 0, 1]).Nonempty := by
  have hn : (![0, 0, 1] : R3) ≠ 0 := fun h => by simpa using congrFun h 2
  obtain ⟨s, hs, _⟩ := Sphere.exists_made 0 1 0
  obtain ⟨t, ht, _⟩ := Plane.exists_made ![0, 0, 1] hn 0
  refine ⟨s, t, hs, ht, ![0, 0, 1], ?_, ?_⟩
  · show euc _ ≤ 1
    rw [euc_eq, Fin.sum_univ_three]; simp
  · show (_ - _) ⬝ᵥ _ = 0
    simp

end Mazth
