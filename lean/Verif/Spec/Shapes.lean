import Verif.Model.Shapes
import Verif.Spec.Geom
import Verif.Spec.Quat
import Verif.Spec.Euclid
import Mathlib.Analysis.Convex.Hull

/-!
# Specification vocabulary for shapes

* `X.Made s …`: the shape `s` is the result of the constructor `X::init` on finite arguments with the given real values;
  its tolerance may have been changed afterwards (the constructors give every shape the same one).
* `rayPts`, `ballPts`, … are the sets of points of space that the shapes stand for.
-/

set_option linter.unusedSectionVars false
set_option autoImplicit false

namespace Mazth

open Matrix

/-- a point or vector of space -/
abbrev R3 := Fin 3 → ℝ

/-! ### sets of points -/

/-- the half-line from `o` in direction `d` -/
def rayPts (o d : R3) : Set R3 := {p | ∃ t : ℝ, 0 ≤ t ∧ p = o + t • d}
/-- the closed ball -/
def ballPts (c : R3) (r : ℝ) : Set R3 := {p | euc (p - c) ≤ r}
/-- the plane through `o` with normal `n` -/
def planePts (o n : R3) : Set R3 := {p | (p - o) ⬝ᵥ n = 0}
/-- the closed cube with centre `o` and half edge length `s` -/
def cubePts (o : R3) (s : ℝ) : Set R3 := {p | ∀ i, |p i - o i| ≤ s}
/-- the unit normal of the triangle `v0 v1 v2` -/
noncomputable def triNormal (v0 v1 v2 : R3) : R3 :=
  (euc ((v1 - v0) ⨯₃ (v2 - v0)))⁻¹ • ((v1 - v0) ⨯₃ (v2 - v0))
/-- the six vertices of the right prism over the triangle `v0 v1 v2` with signed height `h` -/
noncomputable def prismVerts (v0 v1 v2 : R3) (h : ℝ) : Set R3 :=
  {v0, v1, v2, v0 + h • triNormal v0 v1 v2, v1 + h • triNormal v0 v1 v2, v2 + h • triNormal v0 v1 v2}
/-- the solid prism -/
noncomputable def prismPts (v0 v1 v2 : R3) (h : ℝ) : Set R3 := convexHull ℝ (prismVerts v0 v1 v2 h)

/-! ### constructed shapes -/

/-- the slice `l` holds the three finite numbers `u` -/
def ListR (l : List (Fl ℝ)) (u : R3) : Prop := ∃ x y z, l = [x, y, z] ∧ x.Is (u 0) ∧ y.Is (u 1) ∧ z.Is (u 2)

/-- a point made by `Point3::init` -/
def Point3.Made (s : Point3 ℝ) (p : R3) : Prop :=
  ∃ l s0 v, ListR l p ∧ Point3.init l = .ok s0 ∧ s = { s0 with vicinity := v }

/-- a ray made by `Ray3::init` with a non-zero direction -/
def Ray3.Made (s : Ray3 ℝ) (o d : R3) : Prop :=
  d ≠ 0 ∧ ∃ l l' s0 v, ListR l o ∧ ListR l' d ∧ Ray3.init l l' = .ok s0 ∧ s = { s0 with vicinity := v }

/-- a sphere made by `Sphere::init` -/
def Sphere.Made (s : Sphere ℝ) (c : R3) (r : ℝ) : Prop :=
  ∃ l x s0 v, ListR l c ∧ x.Is r ∧ Sphere.init l x = .ok s0 ∧ s = { s0 with vicinity := v }

/-- a plane made by `Plane::init` with a non-zero normal -/
def Plane.Made (s : Plane ℝ) (o n : R3) : Prop :=
  n ≠ 0 ∧ ∃ l l' s0 v, ListR l o ∧ ListR l' n ∧ Plane.init l l' = .ok s0 ∧ s = { s0 with vicinity := v }

/-- a box made by `RecBox::init` -/
def RecBox.Made (s : RecBox ℝ) (o : R3) (h : ℝ) : Prop :=
  ∃ l x s0 v, ListR l o ∧ x.Is h ∧ RecBox.init l x = .ok s0 ∧ s = { s0 with vicinity := v }

/-- a segment made by `Line3::init` -/
def Line3.Made (s : Line3 ℝ) (a b : R3) : Prop :=
  ∃ l l' s0 v, ListR l a ∧ ListR l' b ∧ Line3.init l l' = .ok s0 ∧ s = { s0 with vicinity := v }

/-- a prism made by `TriPrism::init` with a non-degenerate base -/
def TriPrism.Made (s : TriPrism ℝ) (v0 v1 v2 : R3) (h : ℝ) : Prop :=
  (v1 - v0) ⨯₃ (v2 - v0) ≠ 0 ∧ ∃ l0 l1 l2 x s0 v, ListR l0 v0 ∧ ListR l1 v1 ∧ ListR l2 v2 ∧ x.Is h ∧
    TriPrism.init (l0 ++ l1 ++ l2) x = .ok s0 ∧ s = { s0 with vicinity := v }

/-- `s` is a constructed shape that stands for the point set `S` -/
inductive Shape.MadeOf : Shape ℝ → Set R3 → Prop
  | point {s : Point3 ℝ} {p : R3} (h : s.Made p) : MadeOf (.point s) {p}
  | ray {s : Ray3 ℝ} {o d : R3} (h : s.Made o d) : MadeOf (.ray s) (rayPts o d)
  | sphere {s : Sphere ℝ} {c : R3} {r : ℝ} (h : s.Made c r) : MadeOf (.sphere s) (ballPts c r)
  | plane {s : Plane ℝ} {o n : R3} (h : s.Made o n) : MadeOf (.plane s) (planePts o n)
  | box {s : RecBox ℝ} {o : R3} {r : ℝ} (h : s.Made o r) : MadeOf (.box s) (cubePts o r)
  | line {s : Line3 ℝ} {a b : R3} (h : s.Made a b) : MadeOf (.line s) (segment ℝ a b)
  | triPrism {s : TriPrism ℝ} {v0 v1 v2 : R3} {r : ℝ} (h : s.Made v0 v1 v2 r) : MadeOf (.triPrism s) (prismPts v0 v1 v2 r)

/-! ### answers of `get_intersect` (call depth two is enough, C37) -/

/-- `s.get_intersect(t)` answers "yes, at `p`" -/
def Shape.Finds (s t : Shape ℝ) (p : R3) : Prop := ∃ loc, Shape.getIntersect 2 s t = .ok (true, some loc) ∧ loc.IsR p
/-- `s.get_intersect(t)` answers "no" -/
def Shape.Misses (s t : Shape ℝ) : Prop := Shape.getIntersect 2 s t = .ok (false, none)

end Mazth
