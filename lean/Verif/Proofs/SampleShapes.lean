import Verif.Spec.Shapes
import Verif.Float.BinaryLawful

/-!
# Concrete shapes for the examples beside the theorems

Every real parameter list is met by a constructed shape, so the `Made` hypotheses of the theorems can always be discharged.
-/

set_option linter.unusedSectionVars false
set_option autoImplicit false

namespace Mazth

open Matrix

/-- a slice with given real entries -/
def lst (u : R3) : List (Fl ℝ) := [.fin (u 0), .fin (u 1), .fin (u 2)]

theorem lst_listR (u : R3) : ListR (lst u) u := ⟨_, _, _, rfl, rfl, rfl, rfl⟩

theorem Point3.exists_made (p : R3) (e : Fl ℝ) : ∃ s, Point3.Made s p ∧ s.vicinity = e :=
  ⟨_, ⟨lst p, _, e, lst_listR p, rfl, rfl⟩, rfl⟩
theorem Ray3.exists_made (o : R3) {d : R3} (hd : d ≠ 0) (e : Fl ℝ) : ∃ s, Ray3.Made s o d ∧ s.vicinity = e :=
  ⟨_, ⟨hd, lst o, lst d, _, e, lst_listR o, lst_listR d, rfl, rfl⟩, rfl⟩
theorem Sphere.exists_made (c : R3) (r : ℝ) (e : Fl ℝ) : ∃ s, Sphere.Made s c r ∧ s.vicinity = e :=
  ⟨_, ⟨lst c, .fin r, _, e, lst_listR c, rfl, rfl, rfl⟩, rfl⟩
theorem Plane.exists_made (o : R3) {n : R3} (hn : n ≠ 0) (e : Fl ℝ) : ∃ s, Plane.Made s o n ∧ s.vicinity = e :=
  ⟨_, ⟨hn, lst o, lst n, _, e, lst_listR o, lst_listR n, rfl, rfl⟩, rfl⟩
theorem RecBox.exists_made (o : R3) (r : ℝ) (e : Fl ℝ) : ∃ s, RecBox.Made s o r ∧ s.vicinity = e :=
  ⟨_, ⟨lst o, .fin r, _, e, lst_listR o, rfl, rfl, rfl⟩, rfl⟩
theorem Line3.exists_made (a b : R3) (e : Fl ℝ) : ∃ s, Line3.Made s a b ∧ s.vicinity = e :=
  ⟨_, ⟨lst a, lst b, _, e, lst_listR a, lst_listR b, rfl, rfl⟩, rfl⟩
theorem TriPrism.exists_made (v0 v1 v2 : R3) (h : ℝ) (hn : (v1 - v0) ⨯₃ (v2 - v0) ≠ 0) (e : Fl ℝ) :
    ∃ s, TriPrism.Made s v0 v1 v2 h ∧ s.vicinity = e :=
  ⟨_, ⟨hn, lst v0, lst v1, lst v2, .fin h, _, e, lst_listR v0, lst_listR v1, lst_listR v2, rfl, rfl, rfl⟩, rfl⟩

/-- a point over the reals with a chosen tolerance -/
noncomputable def mkPoint (p : R3) (e : Fl ℝ) : Point3 ℝ := (Point3.exists_made p e).choose
theorem mkPoint_made (p : R3) (e : Fl ℝ) : (mkPoint p e).Made p := (Point3.exists_made p e).choose_spec.1
theorem mkPoint_vic (p : R3) (e : Fl ℝ) : (mkPoint p e).vicinity = e := (Point3.exists_made p e).choose_spec.2

/-- a sphere over the reals with a chosen tolerance -/
noncomputable def mkSphere (c : R3) (r : ℝ) (e : Fl ℝ) : Sphere ℝ := (Sphere.exists_made c r e).choose
theorem mkSphere_made (c : R3) (r : ℝ) (e : Fl ℝ) : (mkSphere c r e).Made c r := (Sphere.exists_made c r e).choose_spec.1
theorem mkSphere_vic (c : R3) (r : ℝ) (e : Fl ℝ) : (mkSphere c r e).vicinity = e := (Sphere.exists_made c r e).choose_spec.2

/-- a cube over the reals with a chosen tolerance -/
noncomputable def mkBox (c : R3) (r : ℝ) (e : Fl ℝ) : RecBox ℝ := (RecBox.exists_made c r e).choose
theorem mkBox_made (c : R3) (r : ℝ) (e : Fl ℝ) : (mkBox c r e).Made c r := (RecBox.exists_made c r e).choose_spec.1
theorem mkBox_vic (c : R3) (r : ℝ) (e : Fl ℝ) : (mkBox c r e).vicinity = e := (RecBox.exists_made c r e).choose_spec.2

/-- a ray over the reals with a chosen tolerance -/
noncomputable def mkRay (o : R3) {d : R3} (hd : d ≠ 0) (e : Fl ℝ) : Ray3 ℝ := (Ray3.exists_made o hd e).choose
theorem mkRay_made (o : R3) {d : R3} (hd : d ≠ 0) (e : Fl ℝ) : (mkRay o hd e).Made o d := (Ray3.exists_made o hd e).choose_spec.1
theorem mkRay_vic (o : R3) {d : R3} (hd : d ≠ 0) (e : Fl ℝ) : (mkRay o hd e).vicinity = e := (Ray3.exists_made o hd e).choose_spec.2

/-- a plane over the reals with a chosen tolerance -/
noncomputable def mkPlane (o : R3) {n : R3} (hn : n ≠ 0) (e : Fl ℝ) : Plane ℝ := (Plane.exists_made o hn e).choose
theorem mkPlane_made (o : R3) {n : R3} (hn : n ≠ 0) (e : Fl ℝ) : (mkPlane o hn e).Made o n := (Plane.exists_made o hn e).choose_spec.1
theorem mkPlane_vic (o : R3) {n : R3} (hn : n ≠ 0) (e : Fl ℝ) : (mkPlane o hn e).vicinity = e := (Plane.exists_made o hn e).choose_spec.2

/-- a segment over the reals with a chosen tolerance -/
noncomputable def mkLine (a b : R3) (e : Fl ℝ) : Line3 ℝ := (Line3.exists_made a b e).choose
theorem mkLine_made (a b : R3) (e : Fl ℝ) : (mkLine a b e).Made a b := (Line3.exists_made a b e).choose_spec.1

theorem mkPoint_vicIs (p : R3) (v : ℝ) : (mkPoint p (.fin v)).vicinity.Is v := by rw [mkPoint_vic]; rfl
theorem mkSphere_vicIs (c : R3) (r v : ℝ) : (mkSphere c r (.fin v)).vicinity.Is v := by rw [mkSphere_vic]; rfl
theorem mkRay_vicIs (o : R3) {d : R3} (hd : d ≠ 0) (v : ℝ) : (mkRay o hd (.fin v)).vicinity.Is v := by rw [mkRay_vic]; rfl
theorem mkPlane_vicIs (o : R3) {n : R3} (hn : n ≠ 0) (v : ℝ) : (mkPlane o hn (.fin v)).vicinity.Is v := by rw [mkPlane_vic]; rfl

theorem axX_ne : (![1, 0, 0] : R3) ≠ 0 := fun h => by simpa using congrFun h 0
theorem axY_ne : (![0, 1, 0] : R3) ≠ 0 := fun h => by simpa using congrFun h 1
theorem upZ_ne : (![0, 0, 2] : R3) ≠ 0 := fun h => by simpa using congrFun h 2
theorem diag_ne : (![1, 2, 2] : R3) ≠ 0 := fun h => by simpa using congrFun h 0
theorem corner_ne : (![1, 0, 0] - 0 : R3) ⨯₃ (![0, 1, 0] - 0) ≠ 0 := fun h => by simpa [cross_apply] using congrFun h 2

/-- a prism of height `2` on a right triangle -/
noncomputable def mkPrism (e : Fl ℝ) : TriPrism ℝ := (TriPrism.exists_made 0 ![1, 0, 0] ![0, 1, 0] 2 corner_ne e).choose
theorem mkPrism_made (e : Fl ℝ) : (mkPrism e).Made 0 ![1, 0, 0] ![0, 1, 0] 2 :=
  (TriPrism.exists_made 0 ![1, 0, 0] ![0, 1, 0] 2 corner_ne e).choose_spec.1
theorem mkPrism_vic (e : Fl ℝ) : (mkPrism e).vicinity = e :=
  (TriPrism.exists_made 0 ![1, 0, 0] ![0, 1, 0] 2 corner_ne e).choose_spec.2

end Mazth
