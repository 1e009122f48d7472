import Verif.Proofs.MinMax
import Verif.Float.BinaryLawful

/-!
# C37, C38: the dispatch of `get_intersect`

For all shapes over any floats (the shapes need not come from the constructors).
-/

set_option linter.unusedSectionVars false
set_option autoImplicit false

namespace Mazth

/-! Shapes for the examples. -/

/-- the unit ball -/
def ballQ : Shape Q64 := .sphere ⟨⟨#v[0, 0, 0]⟩, 1, ⟨#v[.fin (-1), .fin (-1), .fin (-1)], #v[1, 1, 1]⟩, 0⟩
/-- the point `(1/2, 0, 0)` -/
def pointQ : Shape Q64 := .point ⟨⟨#v[.fin (1/2), 0, 0]⟩, ⟨#v[.fin (1/2), 0, 0], #v[.fin (1/2), 0, 0]⟩, 0⟩
/-- the ray along `x` -/
def rayQ : Shape Q64 := .ray ⟨⟨#v[0, 0, 0]⟩, ⟨#v[1, 0, 0]⟩, ⟨#v[0, 0, 0], #v[.inf false, 0, 0]⟩, 0⟩
/-- the cube of half side `1` -/
def cubeQ : Shape Q64 := .box ⟨⟨#v[0, 0, 0]⟩, 1, ⟨#v[.fin (-1), .fin (-1), .fin (-1)], #v[1, 1, 1]⟩, 0⟩

variable {K : Type} [Field K] [LinearOrder K] [IsStrictOrderedRing K] [Fmt K]

/-- the call answered, and its flag is true iff it returned a location -/
def Answered (r : Res (Hit K)) : Prop := ∃ h : Hit K, r = .ok h ∧ (h.1 = true ↔ ∃ p, h.2 = some p)

theorem answered_ite {c : Prop} [Decidable c] {a b : Res (Hit K)} (ha : Answered a) (hb : Answered b) :
    Answered (if c then a else b) := by split <;> assumption

theorem answered_false : Answered (.ok (false, none) : Res (Hit K)) := ⟨_, rfl, by simp⟩
theorem answered_true (p : V3 K) : Answered (.ok (true, some p) : Res (Hit K)) := ⟨_, rfl, by simp⟩

theorem rayRay_answered (r s : Ray3 K) : Answered (r.intersectRay (Shape.ray s).getShapeData) := by
  unfold Ray3.intersectRay
  simp
  repeat' first | exact answered_false | exact answered_true _ | apply answered_ite
theorem rayPoint_answered (r : Ray3 K) (s : Point3 K) : Answered (r.intersectPoint (Shape.point s).getShapeData) := by
  unfold Ray3.intersectPoint
  simp
  repeat' first | exact answered_false | exact answered_true _ | apply answered_ite
theorem raySphere_answered (r : Ray3 K) (s : Sphere K) : Answered (r.intersectSphere (Shape.sphere s).getShapeData) := by
  unfold Ray3.intersectSphere
  simp
  repeat' first | exact answered_false | exact answered_true _ | apply answered_ite
theorem rayPlane_answered (r : Ray3 K) (s : Plane K) : Answered (r.intersectPlane (Shape.plane s).getShapeData) := by
  unfold Ray3.intersectPlane
  simp
  repeat' first | exact answered_false | exact answered_true _ | apply answered_ite
theorem sphereSphere_answered (r s : Sphere K) : Answered (r.intersectSphere (Shape.sphere s).getShapeData) := by
  unfold Sphere.intersectSphere
  simp
  repeat' first | exact answered_false | exact answered_true _ | apply answered_ite
theorem spherePoint_answered (r : Sphere K) (s : Point3 K) : Answered (r.intersectPoint (Shape.point s).getShapeData) := by
  unfold Sphere.intersectPoint
  simp only [vecAt_point, Res.ok_bind, V3.minus_eq, unwrap_some, Res.pure_eq]
  repeat' first | exact answered_false | exact answered_true _ | apply answered_ite
theorem spherePlane_answered (r : Sphere K) (s : Plane K) : Answered (r.intersectPlane (Shape.plane s).getShapeData) := by
  unfold Sphere.intersectPlane
  simp
  repeat' first | exact answered_false | exact answered_true _ | apply answered_ite
theorem planePoint_answered (r : Plane K) (s : Point3 K) : Answered (r.intersectPoint (Shape.point s).getShapeData) := by
  unfold Plane.intersectPoint
  simp
  repeat' first | exact answered_false | exact answered_true _ | apply answered_ite

theorem allInside_ok (ts : List (V3 K × V3 K)) (p : V3 K) :
    TriPrism.allInside ts p = .ok (ts.all fun vn => !Fl.lt 0 (V3.dotp (V3.sub p vn.1) vn.2)) := by
  unfold TriPrism.allInside
  induction ts with
  | nil => rfl
  | cons t ts ih =>
    rw [List.allM]
    simp only [V3.minus_eq, V3.dot_eq, unwrap_some, Res.ok_bind, List.all_cons] at ih ⊢
    cases Fl.lt 0 (V3.dotp (V3.sub p t.1) t.2)
    · simpa using ih
    · simp

/-- the tests as a plain list -/
def TriPrism.testsP (s : TriPrism K) : List (V3 K × V3 K) :=
  [(s.triBase[0], V3.scl s.normalHeight (-1)), (s.triBase2[0], s.normalHeight),
   (s.triBase[0], V3.crs (V3.sub s.triBase[1] s.triBase[0]) s.normalHeight),
   (s.triBase[1], V3.crs (V3.sub s.triBase[2] s.triBase[1]) s.normalHeight),
   (s.triBase[2], V3.crs (V3.sub s.triBase[0] s.triBase[2]) s.normalHeight)]

theorem TriPrism.tests_eq (s : TriPrism K) : s.tests = .ok s.testsP := rfl

/-- the inside test as a plain Boolean -/
def TriPrism.inside (s : TriPrism K) (p : V3 K) : Bool :=
  s.testsP.all fun vn => !Fl.lt 0 (V3.dotp (V3.sub p vn.1) vn.2)

theorem prismPoint_eq (r : TriPrism K) (s : Point3 K) : r.intersectPoint (Shape.point s).getShapeData =
    .ok (if r.inside s.ori then (true, some s.ori) else (false, none)) := by
  unfold TriPrism.intersectPoint
  simp only [vecAt_point, Res.ok_bind, TriPrism.tests_eq, allInside_ok, Res.pure_eq]
  show (if r.inside s.ori = true then _ else _) = _
  split <;> rfl

theorem prismPoint_answered (r : TriPrism K) (s : Point3 K) : Answered (r.intersectPoint (Shape.point s).getShapeData) := by
  rw [prismPoint_eq]
  cases r.inside s.ori
  · exact answered_false
  · exact answered_true _

theorem Ray3.getIntersect_plane (r : Ray3 K) (s : Plane K) : Answered (r.getIntersect (.plane s)) := by
  unfold Ray3.getIntersect
  simp only [Shape.getBound_eq, AABB.intersect_eq, Res.ok_bind, Res.pure_eq]
  apply answered_ite answered_false
  exact rayPlane_answered r s

theorem facetLoop_answered (r : Ray3 K) (ts : List (V3 K × V3 K)) (a : V3 K) (m : Fl K) (fs : List (Plane K)) :
    Answered (TriPrism.facetLoop r ts a m fs) := by
  induction fs with
  | nil => exact answered_false
  | cons f fs ih =>
    unfold TriPrism.facetLoop
    obtain ⟨⟨h1, h2⟩, e, hc⟩ := Ray3.getIntersect_plane r f
    rw [e]; simp only [Res.ok_bind]
    cases h1 with
    | false => simpa using ih
    | true =>
      obtain ⟨p, hp⟩ := hc.mp rfl
      simp only at hp; subst hp
      simp only [unwrap_some, V3.minus_eq, V3.magnitude_eq, Res.ok_bind, allInside_ok, if_true]
      exact answered_ite ih (answered_true p)

/-- the facets as a plain list -/
theorem facets_ok (s : TriPrism K) : ∃ fs, s.facets = .ok fs := ⟨_, rfl⟩

theorem ray_init_ok (a v : V3 K) : ∃ r, Ray3.init (TriPrism.toList a) (TriPrism.toList v) = .ok r := ⟨_, rfl⟩

theorem prismLine_answered (r : TriPrism K) (s : Line3 K) : Answered (r.intersectLine (Shape.line s).getShapeData) := by
  unfold TriPrism.intersectLine
  obtain ⟨fs, hf⟩ := facets_ok r
  obtain ⟨ry, hr⟩ := ray_init_ok s.a (V3.sub s.b s.a)
  simp only [vecAt_line0, vecAt_line3, Res.ok_bind, TriPrism.tests_eq, allInside_ok, Res.pure_eq, V3.minus_eq,
    V3.magnitude_eq, unwrap_some, hf, hr]
  apply answered_ite (answered_true _)
  apply answered_ite (answered_true _)
  exact facetLoop_answered ..

/-! ## Specification: which pairs are supported -/

/-- the pairs of kinds for which an intersection query is implemented -/
def Supported : ShapeType → ShapeType → Prop
  | .point, .point | .point, .ray | .point, .sphere | .point, .plane | .point, .box | .point, .triPrism => True
  | .ray, .ray | .ray, .point | .ray, .sphere | .ray, .plane => True
  | .sphere, .sphere | .sphere, .ray | .sphere, .point | .sphere, .plane => True
  | .plane, .ray | .plane, .sphere | .plane, .point => True
  | .box, .point => True
  | .triPrism, .point | .triPrism, .line => True
  | .line, .triPrism => True
  | _, _ => False

/-- the answer behind the bound test -/
def core : Shape K → Shape K → Res (Hit K)
  | .point s, .point t =>
    .ok (if !withinVicinity s.vicinity s.ori.val[0] t.ori.val[0] || !withinVicinity s.vicinity s.ori.val[1] t.ori.val[1] ||
        !withinVicinity s.vicinity s.ori.val[2] t.ori.val[2] then (false, none) else (true, some s.ori))
  | .point s, .ray t => t.intersectPoint (Shape.point s).getShapeData
  | .point s, .sphere t => t.intersectPoint (Shape.point s).getShapeData
  | .point s, .plane t => t.intersectPoint (Shape.point s).getShapeData
  | .point s, .box _ => .ok (true, some s.ori)
  | .point s, .triPrism t => t.intersectPoint (Shape.point s).getShapeData
  | .ray s, .ray t => s.intersectRay (Shape.ray t).getShapeData
  | .ray s, .point t => s.intersectPoint (Shape.point t).getShapeData
  | .ray s, .sphere t => s.intersectSphere (Shape.sphere t).getShapeData
  | .ray s, .plane t => s.intersectPlane (Shape.plane t).getShapeData
  | .sphere s, .sphere t => s.intersectSphere (Shape.sphere t).getShapeData
  | .sphere s, .ray t => t.intersectSphere (Shape.sphere s).getShapeData
  | .sphere s, .point t => s.intersectPoint (Shape.point t).getShapeData
  | .sphere s, .plane t => s.intersectPlane (Shape.plane t).getShapeData
  | .plane s, .ray t => t.intersectPlane (Shape.plane s).getShapeData
  | .plane s, .sphere t => t.intersectPlane (Shape.plane s).getShapeData
  | .plane s, .point t => s.intersectPoint (Shape.point t).getShapeData
  | .box _, .point t => .ok (true, some t.ori)
  | .triPrism s, .point t => s.intersectPoint (Shape.point t).getShapeData
  | .triPrism s, .line t => s.intersectLine (Shape.line t).getShapeData
  | .line s, .triPrism t => t.intersectLine (Shape.line s).getShapeData
  | _, _ => .error .unimplemented

theorem getIntersect_eq (n : ℕ) (a b : Shape K) : Shape.getIntersect (n + 2) a b =
    if AABB.overlap a.aabb b.aabb then core a b else .ok (false, none) := by
  have hs := AABB.overlap_comm a.aabb b.aabb
  cases a <;> cases b <;>
    simp only [Shape.getIntersect, Point3.getIntersect, Ray3.getIntersect, Sphere.getIntersect, Plane.getIntersect,
      RecBox.getIntersect, Line3.getIntersect, TriPrism.getIntersect, Shape.getBound_eq, AABB.intersect_eq, Res.ok_bind,
      Res.pure_eq, Shape.getType, vecAt_point, sliceGet_point0, sliceGet_point1, sliceGet_point2, ← hs] <;>
    (generalize AABB.overlap (K := K) _ _ = o; cases o); all_goals (simp [core]; try (split <;> rfl))

theorem core_answered (a b : Shape K) (h : Supported a.getType b.getType) : Answered (core a b) :=
  match a, b, h with
  | .point s, .point t, _ => by
    show Answered (.ok (if _ then _ else _))
    split
    · exact answered_false
    · exact answered_true _
  | .point s, .ray t, _ => rayPoint_answered t s
  | .point s, .sphere t, _ => spherePoint_answered t s
  | .point s, .plane t, _ => planePoint_answered t s
  | .point s, .box _, _ => answered_true _
  | .point s, .triPrism t, _ => prismPoint_answered t s
  | .ray s, .ray t, _ => rayRay_answered s t
  | .ray s, .point t, _ => rayPoint_answered s t
  | .ray s, .sphere t, _ => raySphere_answered s t
  | .ray s, .plane t, _ => rayPlane_answered s t
  | .sphere s, .sphere t, _ => sphereSphere_answered s t
  | .sphere s, .ray t, _ => raySphere_answered t s
  | .sphere s, .point t, _ => spherePoint_answered s t
  | .sphere s, .plane t, _ => spherePlane_answered s t
  | .plane s, .ray t, _ => rayPlane_answered t s
  | .plane s, .sphere t, _ => spherePlane_answered t s
  | .plane s, .point t, _ => planePoint_answered s t
  | .box _, .point t, _ => answered_true _
  | .triPrism s, .point t, _ => prismPoint_answered s t
  | .triPrism s, .line t, _ => prismLine_answered s t
  | .line s, .triPrism t, _ => prismLine_answered t s

theorem core_unsupported (a b : Shape K) (h : ¬ Supported a.getType b.getType) : core a b = .error .unimplemented := by
  cases a <;> cases b <;> first | rfl | exact absurd trivial h

/-! ## C37 -/

/-- C37: every call terminates, within a call depth of two: more depth does not change the result, and it is not the
out-of-depth value. -/
theorem C37_terminates (a b : Shape K) (n : ℕ) :
    Shape.getIntersect (n + 2) a b = Shape.getIntersect 2 a b ∧ Shape.getIntersect 2 a b ≠ .error .diverge := by
  refine ⟨by rw [getIntersect_eq, getIntersect_eq], ?_⟩
  rw [getIntersect_eq 0]
  split
  · by_cases hs : Supported a.getType b.getType
    · obtain ⟨h, e, _⟩ := core_answered a b hs
      rw [e]; simp
    · rw [core_unsupported a b hs]; simp
  · simp

/-- concrete case: a ray and a box, which is not answered at all -/
example := C37_terminates rayQ cubeQ 7

/-- C37: for two shapes of different kinds the answer (also a panic) does not depend on which one is asked. -/
theorem C37_symm (a b : Shape K) (h : a.getType ≠ b.getType) (n : ℕ) :
    Shape.getIntersect (n + 2) a b = Shape.getIntersect (n + 2) b a := by
  rw [getIntersect_eq, getIntersect_eq, AABB.overlap_comm]
  congr 1
  cases a <;> cases b <;> first | rfl | exact absurd rfl h


/-- concrete case -/
example := C37_symm pointQ ballQ (by decide) 0

/-- C37: a call panics exactly for the unsupported pairs of kinds whose bounds overlap (the test for overlap itself never
panics), and then with "unimplemented". -/
theorem C37_panics (a b : Shape K) (n : ℕ) (e : Panic) :
    Shape.getIntersect (n + 2) a b = .error e ↔
      a.getBound.intersect b.getBound = .ok true ∧ ¬ Supported a.getType b.getType ∧ e = .unimplemented := by
  rw [getIntersect_eq, Shape.getBound_eq, Shape.getBound_eq, AABB.intersect_eq]
  cases AABB.overlap a.aabb b.aabb with
  | false => simp
  | true =>
    rw [if_pos rfl]
    by_cases hs : Supported a.getType b.getType
    · obtain ⟨h, e', _⟩ := core_answered a b hs
      rw [e']; simp [hs]
    · rw [core_unsupported a b hs]
      simp [hs]; exact eq_comm

/-- concrete case: a ray and a box with overlapping bounds -/
example : Shape.getIntersect 2 rayQ cubeQ = .error .unimplemented :=
  (C37_panics rayQ cubeQ 0 .unimplemented).mpr ⟨by decide +kernel, id, rfl⟩

/-- C37: `Supported` is symmetric, so both directions of a supported pair are supported. -/
theorem C37_supported_symm (x y : ShapeType) : Supported x y ↔ Supported y x := by
  cases x <;> cases y <;> simp [Supported]

/-- concrete case -/
example : Supported .plane .ray ↔ Supported .ray .plane := C37_supported_symm .plane .ray

/-- C37: shapes whose bounds do not overlap are reported as not intersecting, whatever their kinds. -/
theorem C37_disjoint (a b : Shape K) (n : ℕ) (h : a.getBound.intersect b.getBound = .ok false) :
    Shape.getIntersect (n + 2) a b = .ok (false, none) := by
  rw [Shape.getBound_eq, Shape.getBound_eq, AABB.intersect_eq] at h
  rw [getIntersect_eq, Except.ok.inj h]; rfl

/-- concrete case: a point away from the ball -/
example := C37_disjoint ballQ (.point ⟨⟨#v[.fin 3, 0, 0]⟩, ⟨#v[.fin 3, 0, 0], #v[.fin 3, 0, 0]⟩, 0⟩) 0 (by decide +kernel)

/-! ## C38 -/

/-- C38: whenever `get_intersect` answers, the flag is true iff a location is returned. -/
theorem C38_flag (a b : Shape K) (n : ℕ) (flag : Bool) (loc : Option (V3 K))
    (h : Shape.getIntersect (n + 2) a b = .ok (flag, loc)) : flag = true ↔ ∃ p, loc = some p := by
  rw [getIntersect_eq] at h
  split at h
  · by_cases hs : Supported a.getType b.getType
    · obtain ⟨h', e, hc⟩ := core_answered a b hs
      rw [e] at h
      rw [Except.ok.inj h] at hc; exact hc
    · rw [core_unsupported a b hs] at h; simp at h
  · simp at h
    rw [h.1, ← h.2]; simp

/-- concrete case -/
example := C38_flag ballQ pointQ 0 true (some ⟨#v[.fin (1/2), 0, 0]⟩) (by decide +kernel)

/-- Non-vacuity of C37/C38: in binary64 a sphere and a point answer alike in both directions; a ray and a
box whose bounds overlap panic. -/
example :
    Shape.getIntersect 2 ballQ pointQ = .ok (true, some ⟨#v[.fin (1/2), 0, 0]⟩) ∧
    Shape.getIntersect 2 pointQ ballQ = .ok (true, some ⟨#v[.fin (1/2), 0, 0]⟩) ∧
    Shape.getIntersect 2 rayQ cubeQ = .error .unimplemented ∧ ballQ.getType ≠ pointQ.getType := by
  refine ⟨?_, ?_, ?_, ?_⟩ <;> decide +kernel

end Mazth
