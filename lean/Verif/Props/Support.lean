import Verif.Props.PrismQueries
import Verif.Proofs.Samples
import Verif.Model.Gjk

/-!
# C51: support points
-/

set_option linter.unusedSectionVars false
set_option autoImplicit false

namespace Mazth

open Matrix

section generic
variable {K : Type} [Field K] [LinearOrder K] [IsStrictOrderedRing K] [Fmt K]

/-- C51: the constant implementations: a point is its own support, a ray and a plane have none, a segment panics (all
floats, all directions). -/
theorem C51_constant (v : V3 K) (p : Point3 K) (r : Ray3 K) (pl : Plane K) (l : Line3 K) :
    (Shape.point p).getSupport v = .ok (some p.ori) ∧ (Shape.ray r).getSupport v = .ok none ∧
    (Shape.plane pl).getSupport v = .ok none ∧ (Shape.line l).getSupport v = .error .unimplemented :=
  ⟨rfl, rfl, rfl, rfl⟩

/-- concrete case: even a NaN direction -/
example := C51_constant (⟨#v[.nan, 1, 0]⟩ : V3 ℝ) (mkPoint ![1, 2, 3] 0) (mkRay ![1, 2, 3] axX_ne 0) (mkPlane ![1, 2, 3] upZ_ne 0)
  (mkLine 0 ![1, 2, 3] 0)

theorem magnitudeNonzero_eq (v : V3 K) : magnitudeNonzero v = !Fl.feq (V3.mag v) 0 := by
  unfold magnitudeNonzero
  rw [V3.magnitude_eq]

/-- C51: a sphere, box or prism answers `None` exactly for directions whose computed magnitude compares equal to zero (all
floats). -/
theorem C51_none (v : V3 K) (s : Shape K) (hs : s.getType = .sphere ∨ s.getType = .box ∨ s.getType = .triPrism) :
    s.getSupport v = .ok none ↔ ∃ m, v.magnitude = some m ∧ Fl.feq m 0 = true := by
  rw [V3.magnitude_eq]
  simp only [Option.some.injEq, exists_eq_left']
  have key {α : Type} (x : Res α) : (x >>= fun o => Except.ok (some o)) ≠ (Except.ok none : Res (Option α)) := by
    cases x <;> simp
  cases s with
  | sphere s =>
    show s.getSupport v = _ ↔ _
    unfold Sphere.getSupport
    rw [magnitudeNonzero_eq]
    cases h : Fl.feq (V3.mag v) 0
    · simp [unwrap, V3.normalize_eq, V3.scale_eq, V3.plus_eq]
    · simp
  | box s =>
    show s.getSupport v = _ ↔ _
    unfold RecBox.getSupport
    rw [magnitudeNonzero_eq]
    cases h : Fl.feq (V3.mag v) 0
    · simp only [Bool.not_false, if_true, iff_false, Bool.false_eq_true]
      cases furthest s.corners v <;> simp [V3.plus_eq]
    · simp
  | triPrism s =>
    show s.getSupport v = _ ↔ _
    unfold TriPrism.getSupport
    rw [magnitudeNonzero_eq]
    cases h : Fl.feq (V3.mag v) 0
    · simp only [Bool.not_false, if_true, iff_false, Bool.false_eq_true]
      exact key _
    · simp
  | _ => simp [Shape.getType] at hs

/-- concrete case -/
example := C51_none (K := Q64) ⟨#v[0, .fin (1 / 2 ^ 600), 0]⟩ (.sphere ⟨⟨#v[1, 0, 1]⟩, 1, AABB.default, 0⟩) (.inl rfl)

end generic

/-! ## Exact arithmetic -/

theorem abs_dot_le (u v : R3) : |u ⬝ᵥ v| ≤ euc u * euc v := by
  have := abs_real_inner_le_norm (WithLp.toLp 2 v : EuclideanSpace ℝ (Fin 3)) (WithLp.toLp 2 u)
  rw [EuclideanSpace.inner_toLp_toLp] at this
  simp only [star_trivial] at this
  rw [mul_comm]; exact this

theorem magnitudeNonzero_real {v : V3 ℝ} {u : R3} (hv : v.IsR u) : magnitudeNonzero v = true ↔ u ≠ 0 := by
  rw [magnitudeNonzero_eq, (V3.is_mag hv).feq Fl.is_zero, Bool.not_eq_true', decide_eq_false_iff_not, euc_eq_zero]

/-- the fold of `max_by` over a list of real numbers with positions -/
theorem maxFold_real (l : List (Fl ℝ × ℕ)) (hl : ∀ x ∈ l, ∃ r, x.1.Is r) (x : Fl ℝ × ℕ) (r : ℝ) (hx : x.1.Is r) :
    ∃ y ry, l.foldlM (fun acc y => do if (← unwrap (Fl.partialCmp acc.1 y.1)) = .gt then .ok acc else .ok y) x = (.ok y : Res _) ∧
      (y = x ∨ y ∈ l) ∧ y.1.Is ry ∧ r ≤ ry ∧ ∀ z ∈ l, ∀ rz, z.1.Is rz → rz ≤ ry := by
  induction l generalizing x r with
  | nil => exact ⟨x, r, rfl, .inl rfl, hx, le_rfl, by simp⟩
  | cons z l ih =>
    obtain ⟨rz, hz⟩ := hl z (by simp)
    have hl' : ∀ x ∈ l, ∃ r, x.1.Is r := fun y hy => hl y (List.mem_cons_of_mem _ hy)
    rw [List.foldlM_cons, hx.partialCmp hz]
    simp only [unwrap_some, Res.ok_bind]
    by_cases hc : compare r rz = .gt
    · rw [if_pos hc]
      obtain ⟨y, ry, e, hm, hy, hr, hmax⟩ := ih hl' x r hx
      refine ⟨y, ry, e, hm.imp id (List.mem_cons_of_mem _), hy, hr, ?_⟩
      intro w hw rw hrw
      rcases List.mem_cons.mp hw with rfl | hw
      · rw [hrw.unique hz]
        exact (compare_gt_iff_gt.mp hc).le.trans hr
      · exact hmax w hw rw hrw
    · rw [if_neg hc]
      obtain ⟨y, ry, e, hm, hy, hr, hmax⟩ := ih hl' z rz hz
      refine ⟨y, ry, e, .inr ?_, hy, (not_lt.mp fun h => hc (compare_gt_iff_gt.mpr h)).trans hr, ?_⟩
      · rcases hm with rfl | hm
        · simp
        · exact List.mem_cons_of_mem _ hm
      · intro w hw rw hrw
        rcases List.mem_cons.mp hw with rfl | hw
        · rw [hrw.unique hz]; exact hr
        · exact hmax w hw rw hrw

/-- `furthest` returns one of the points, with the largest inner product -/
theorem furthest_real {ps : List (V3 ℝ)} {rs : List R3} (h : List.Forall₂ Mat3x1.IsR ps rs) (h0 : ps ≠ []) {v : V3 ℝ} {u : R3}
    (hv : v.IsR u) : ∃ p r, furthest ps v = .ok p ∧ p.IsR r ∧ r ∈ rs ∧ ∀ q ∈ rs, q ⬝ᵥ u ≤ r ⬝ᵥ u := by
  have hd : (ps.mapM fun x => unwrap (x.dot v) : Res (List (Fl ℝ))) = .ok (ps.map fun x => V3.dotp x v) := by
    clear h h0
    induction ps with
    | nil => rfl
    | cons p ps ih =>
      rw [List.mapM_cons, ih, V3.dot_eq]; rfl
  have hget : ∀ (i : ℕ) (p : V3 ℝ), ps[i]? = some p → ∃ r : R3, rs[i]? = some r ∧ p.IsR r := by
    clear hd h0
    induction h with
    | nil => simp
    | cons hpr _ ih =>
      intro i p hp
      cases i with
      | zero => simp at hp; subst hp; exact ⟨_, rfl, hpr⟩
      | succ i => exact ih i p (by simpa using hp)
  have hget' : ∀ (i : ℕ) (r : R3), rs[i]? = some r → ∃ p : V3 ℝ, ps[i]? = some p ∧ p.IsR r := by
    clear hd h0 hget
    induction h with
    | nil => simp
    | cons hpr _ ih =>
      intro i p hp
      cases i with
      | zero => simp at hp; subst hp; exact ⟨_, rfl, hpr⟩
      | succ i => exact ih i p (by simpa using hp)
  have hmem : ∀ x ∈ (ps.map fun x => V3.dotp x v).zipIdx, ∃ (p : V3 ℝ) (r : R3), ps[x.2]? = some p ∧ rs[x.2]? = some r ∧ p.IsR r ∧ x.1.Is (r ⬝ᵥ u) := by
    intro x hx
    rw [List.mem_zipIdx_iff_getElem?, List.getElem?_map, Option.map_eq_some_iff] at hx
    obtain ⟨p, hp, e⟩ := hx
    obtain ⟨r, hr, hpr⟩ := hget _ _ hp
    exact ⟨p, r, hp, hr, hpr, e ▸ V3.is_dotp hpr hv⟩
  unfold furthest
  rw [hd]
  simp only [Res.ok_bind]
  generalize hz : (ps.map fun x => V3.dotp x v).zipIdx = zs at hmem
  have hlen : ∀ (i : ℕ) (p : V3 ℝ), ps[i]? = some p → (V3.dotp p v, i) ∈ zs := by
    intro i p hp
    rw [← hz, List.mem_zipIdx_iff_getElem?, List.getElem?_map, hp]; rfl
  cases zs with
  | nil =>
    exfalso
    rcases ps with _ | ⟨p, ps⟩
    · exact h0 rfl
    · exact absurd (hlen 0 p rfl) (by simp)
  | cons z zs =>
    obtain ⟨p0, r0, _, _, _, hz0⟩ := hmem z (by simp)
    obtain ⟨y, ry, e, hy, hyr, hr, hmax⟩ := maxFold_real zs (fun x hx => by
      obtain ⟨_, _, _, _, _, h⟩ := hmem x (List.mem_cons_of_mem _ hx)
      exact ⟨_, h⟩) z _ hz0
    have hy' : y ∈ z :: zs := by
      rcases hy with rfl | hy
      · simp
      · exact List.mem_cons_of_mem _ hy
    obtain ⟨p, r, hp, hr', hpr, hyp⟩ := hmem y hy'
    refine ⟨p, r, ?_, hpr, List.mem_of_getElem? hr', ?_⟩
    · unfold maxByM
      simp only [e, Res.ok_bind, unwrap_some]
      unfold sliceGet
      rw [hp]
    · intro q hq
      obtain ⟨i, hi⟩ := List.getElem?_of_mem hq
      obtain ⟨p', hp', hpq⟩ := hget' i q hi
      have hin := hlen i p' hp'
      have hd' := V3.is_dotp hpq hv
      rw [← hyr.unique hyp]
      rcases List.mem_cons.mp hin with h | h
      · rw [← h] at hz0
        rw [hd'.unique hz0]; exact hr
      · exact hmax _ h _ hd'

/-- C51, sphere: for radius `≥ 0` and a non-zero direction the answer is a point of the ball that maximises the inner
product with the direction. -/
theorem C51_sphere (s : Sphere ℝ) (c : R3) (r : ℝ) (hs : s.Made c r) (hr : 0 ≤ r) (v : V3 ℝ) (u : R3) (hv : v.IsR u) (hu : u ≠ 0) :
    ∃ p P, (Shape.sphere s).getSupport v = .ok (some p) ∧ p.IsR P ∧ P ∈ ballPts c r ∧ ∀ q ∈ ballPts c r, q ⬝ᵥ u ≤ P ⬝ᵥ u := by
  obtain ⟨ho, hrad, _⟩ := hs.facts
  refine ⟨V3.add s.ori (V3.scl (V3.nrm v) s.radius), c + r • unit u, ?_, V3.isR_add ho (V3.isR_scl (V3.isR_nrm hv hu) hrad), ?_, ?_⟩
  · show Sphere.getSupport s v = _
    unfold Sphere.getSupport
    rw [(magnitudeNonzero_real hv).mpr hu]
    simp [V3.normalize_eq, V3.scale_eq, V3.plus_eq]
  · show euc _ ≤ r
    rw [euc_along (euc_unit hu) c hr]
  · intro q hq
    have hq : euc (q - c) ≤ r := hq
    have h1 : q ⬝ᵥ u = c ⬝ᵥ u + (q - c) ⬝ᵥ u := by rw [sub_dotProduct]; ring
    have h2 : (c + r • unit u) ⬝ᵥ u = c ⬝ᵥ u + r * euc u := by
      rw [add_dotProduct, smul_dotProduct, smul_dotProduct, ← euc_sq]
      have := (euc_pos hu).ne'
      simp only [smul_eq_mul]
      field_simp
    have h3 := (le_abs_self _).trans (abs_dot_le (q - c) u)
    have h4 := mul_le_mul_of_nonneg_right hq (euc_nonneg u)
    rw [h1, h2]; linarith

/-- concrete case -/
example := C51_sphere _ _ _ (mkSphere_made ![1, 2, 3] 5 0) (by norm_num) (vec3R 1 2 2) ![1, 2, 2] (vec3R_reads _ _ _) diag_ne

/-- C51, box: for size `≥ 0` and a non-zero direction the answer is a point of the cube that maximises the inner product. -/
theorem C51_box (s : RecBox ℝ) (c : R3) (r : ℝ) (hs : s.Made c r) (hr : 0 ≤ r) (v : V3 ℝ) (u : R3) (hv : v.IsR u) (hu : u ≠ 0) :
    ∃ p P, (Shape.box s).getSupport v = .ok (some p) ∧ p.IsR P ∧ P ∈ cubePts c r ∧ ∀ q ∈ cubePts c r, q ⬝ᵥ u ≤ P ⬝ᵥ u := by
  obtain ⟨ho, hrad, _⟩ := hs.facts
  have hn := hrad.neg
  have hc : List.Forall₂ Mat3x1.IsR s.corners
      [![r, r, r], ![-r, r, r], ![r, -r, r], ![-r, -r, r], ![r, r, -r], ![-r, r, -r], ![r, -r, -r], ![-r, -r, -r]] :=
    .cons (V3.isR_mk hrad hrad hrad) (.cons (V3.isR_mk hn hrad hrad) (.cons (V3.isR_mk hrad hn hrad) (.cons (V3.isR_mk hn hn hrad)
      (.cons (V3.isR_mk hrad hrad hn) (.cons (V3.isR_mk hn hrad hn) (.cons (V3.isR_mk hrad hn hn) (.cons (V3.isR_mk hn hn hn) .nil)))))))
  obtain ⟨p, P, e, hp, hP, hmax⟩ := furthest_real hc (by simp [RecBox.corners]) hv
  refine ⟨V3.add s.ori p, c + P, ?_, V3.isR_add ho hp, ?_, ?_⟩
  · show RecBox.getSupport s v = _
    unfold RecBox.getSupport
    rw [(magnitudeNonzero_real hv).mpr hu, e]
    simp [V3.plus_eq]
  · intro i
    rw [Pi.add_apply, add_sub_cancel_left]
    simp only [List.mem_cons, List.not_mem_nil, or_false] at hP
    rcases hP with rfl | rfl | rfl | rfl | rfl | rfl | rfl | rfl <;> fin_cases i <;> simp [abs_of_nonneg hr]
  · intro q hq
    -- the best corner for `u`
    let w : R3 := fun i => if 0 ≤ u i then r else -r
    have hw : w ∈ [![r, r, r], ![-r, r, r], ![r, -r, r], ![-r, -r, r], ![r, r, -r], ![-r, r, -r], ![r, -r, -r], ![-r, -r, -r]] := by
      have e : w = ![if 0 ≤ u 0 then r else -r, if 0 ≤ u 1 then r else -r, if 0 ≤ u 2 then r else -r] := by
        ext i; fin_cases i <;> rfl
      rw [e]
      split_ifs <;> simp
    have h1 := hmax w hw
    have h2 : (q - c) ⬝ᵥ u ≤ w ⬝ᵥ u := by
      refine Finset.sum_le_sum fun i _ => ?_
      have := abs_le.mp (hq i)
      show (q i - c i) * u i ≤ (if 0 ≤ u i then r else -r) * u i
      split_ifs with h
      · exact mul_le_mul_of_nonneg_right this.2 h
      · exact mul_le_mul_of_nonpos_right this.1 (not_le.mp h).le
    have h3 : q ⬝ᵥ u = c ⬝ᵥ u + (q - c) ⬝ᵥ u := by rw [sub_dotProduct]; ring
    rw [h3, add_dotProduct]; linarith

/-- concrete case -/
example := C51_box _ _ _ (mkBox_made ![1, 2, 3] 5 0) (by norm_num) (vec3R 1 2 2) ![1, 2, 2] (vec3R_reads _ _ _) diag_ne

/-- C51, prism: for a non-zero direction the answer is a vertex that maximises the inner product over the solid prism. -/
theorem C51_prism (s : TriPrism ℝ) (v0 v1 v2 : R3) (h : ℝ) (hs : s.Made v0 v1 v2 h) (v : V3 ℝ) (u : R3) (hv : v.IsR u) (hu : u ≠ 0) :
    ∃ p P, (Shape.triPrism s).getSupport v = .ok (some p) ∧ p.IsR P ∧ P ∈ prismVerts v0 v1 v2 h ∧
      ∀ q ∈ prismPts v0 v1 v2 h, q ⬝ᵥ u ≤ P ⬝ᵥ u := by
  obtain ⟨⟨b0, b1, b2⟩, ⟨c0, c1, c2⟩, _, _⟩ := hs.facts
  obtain ⟨p, P, e, hp, hP, hmax⟩ := furthest_real
    (.cons b0 (.cons b1 (.cons b2 (.cons c0 (.cons c1 (.cons c2 .nil)))))) (by simp) hv
  have hset (q : R3) : q ∈ prismVerts v0 v1 v2 h ↔ q ∈ [v0, v1, v2, v0 + h • triNormal v0 v1 v2, v1 + h • triNormal v0 v1 v2,
      v2 + h • triNormal v0 v1 v2] := by simp [prismVerts]
  refine ⟨p, P, ?_, hp, (hset P).mpr hP, ?_⟩
  · show TriPrism.getSupport s v = _
    unfold TriPrism.getSupport
    rw [(magnitudeNonzero_real hv).mpr hu, e]
    rfl
  · intro q hq
    have hconv : Convex ℝ {q : R3 | q ⬝ᵥ u ≤ P ⬝ᵥ u} := by
      intro x hx y hy a b ha hb hab
      show (a • x + b • y) ⬝ᵥ u ≤ _
      rw [add_dotProduct, smul_dotProduct, smul_dotProduct]
      have hx : x ⬝ᵥ u ≤ P ⬝ᵥ u := hx
      have hy : y ⬝ᵥ u ≤ P ⬝ᵥ u := hy
      have e : P ⬝ᵥ u = a * (P ⬝ᵥ u) + b * (P ⬝ᵥ u) := by rw [← add_mul, hab, one_mul]
      rw [e]
      exact add_le_add (mul_le_mul_of_nonneg_left hx ha) (mul_le_mul_of_nonneg_left hy hb)
    exact convexHull_min (fun x hx => hmax x ((hset x).mp hx)) hconv hq

/-- concrete case -/
example := C51_prism _ _ _ _ _ (mkPrism_made 0) (vec3R 1 2 2) ![1, 2, 2] (vec3R_reads _ _ _) diag_ne

/-- C51: the zero direction gives `None`. -/
theorem C51_zero (s : Shape ℝ) (hs : s.getType = .sphere ∨ s.getType = .box ∨ s.getType = .triPrism) (v : V3 ℝ) (u : R3)
    (hv : v.IsR u) : s.getSupport v = .ok none ↔ u = 0 := by
  rw [C51_none v s hs, V3.magnitude_eq]
  simp only [Option.some.injEq, exists_eq_left']
  rw [(V3.is_mag hv).feq Fl.is_zero, decide_eq_true_eq, euc_eq_zero]

/-- concrete case: the zero direction has no support point -/
example : (Shape.box (mkBox ![1, 2, 3] 5 0)).getSupport (vec3R 0 0 0) = .ok none :=
  (C51_zero _ (.inr (.inl rfl)) _ _ (vec3R_reads _ _ _)).mpr (by ext i; fin_cases i <;> rfl)

/-- C51 in binary64: tiny non-zero directions have computed magnitude zero and also give `None`; NaN directions make the
box panic and give a NaN point for the sphere. -/
theorem C51_f64_false : ∃ (s : Sphere Q64) (b : RecBox Q64), Sphere.init [0, 0, 0] 1 = .ok s ∧ RecBox.init [0, 0, 0] 1 = .ok b ∧
    (Shape.sphere s).getSupport ⟨#v[.fin (1 / 2 ^ 600), 0, 0]⟩ = .ok none ∧
    (Shape.box b).getSupport ⟨#v[.fin (1 / 2 ^ 600), 0, 0]⟩ = .ok none ∧
    (Shape.box b).getSupport ⟨#v[.nan, 0, 0]⟩ = .error .unwrapNone ∧
    (Shape.sphere s).getSupport ⟨#v[.nan, 0, 0]⟩ = .ok (some ⟨#v[.nan, .nan, .nan]⟩) :=
  ⟨_, _, rfl, rfl, by decide +kernel, by decide +kernel, by decide +kernel, by decide +kernel⟩

/-- C51, non-vacuity. -/
example : ∃ (b : RecBox Q64) (t : TriPrism Q64) (s : Sphere Q64), RecBox.init [1, 0, 0] (.fin 2) = .ok b ∧
    TriPrism.init [0, 0, 0, 1, 0, 0, 0, 1, 0] (.fin 2) = .ok t ∧ Sphere.init [1, 0, 0] (.fin 5) = .ok s ∧
    (Shape.box b).getSupport ⟨#v[1, .fin (-1), 1]⟩ = .ok (some ⟨#v[.fin 3, .fin (-2), .fin 2]⟩) ∧
    (Shape.triPrism t).getSupport ⟨#v[1, .fin (-1), 1]⟩ = .ok (some ⟨#v[1, 0, .fin 2]⟩) ∧
    (Shape.sphere s).getSupport ⟨#v[0, .fin (-8), 0]⟩ = .ok (some ⟨#v[1, .fin (-5), 0]⟩) :=
  ⟨_, _, _, rfl, rfl, rfl, by decide +kernel, by decide +kernel, by decide +kernel⟩

end Mazth
