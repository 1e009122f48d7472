import Verif.Spec.Shapes
import Verif.Proofs.Appr

/-!
# Specification vocabulary for shapes with floating-point data

`K` is the set of numbers a format rounds from, `φ` its embedding into the real numbers (for `f64`: rational numbers).
`s.MadeIn φ S`: the shape `s` is the result of a constructor on finite floating-point arguments whose exact values describe
the point set `S` of real space.
-/

set_option linter.unusedSectionVars false
set_option autoImplicit false

namespace Mazth

variable {K : Type} [Field K] [LinearOrder K] [IsStrictOrderedRing K] [Fmt K]

/-- the slice `l` holds three finite numbers of the format, with values `u` -/
def ListIn (l : List (Fl K)) (u : Fin 3 → K) : Prop :=
  ∃ x y z, l = [x, y, z] ∧ x.Holds (u 0) ∧ y.Holds (u 1) ∧ z.Holds (u 2)

/-- the real point with coordinates `u` -/
def toR (φ : K →+* ℝ) (u : Fin 3 → K) : R3 := fun i => φ (u i)

/-- the stored vector `a` is finite with coordinates `u` -/
def V3.In (a : V3 K) (u : Fin 3 → K) : Prop := ∀ i : Fin 3, (a.val[i]).Holds (u i)

/-- `s` was constructed from finite floating-point numbers; the exact shape they describe is `S`.  (A prism is described by
its six stored vertices: the three given ones and the three computed by the constructor.) -/
inductive Shape.MadeIn (φ : K →+* ℝ) : Shape K → Set R3 → Prop
  | point {l s v} {c : Fin 3 → K} (hl : ListIn l c) (h : Point3.init l = .ok s) :
      MadeIn φ (.point { s with vicinity := v }) {toR φ c}
  | ray {l l' s v} {o d : Fin 3 → K} (hl : ListIn l o) (hl' : ListIn l' d) (h : Ray3.init l l' = .ok s) :
      MadeIn φ (.ray { s with vicinity := v }) (rayPts (toR φ o) (toR φ d))
  | sphere {l x s v} {c : Fin 3 → K} {r : K} (hl : ListIn l c) (hx : x.Holds r) (h : Sphere.init l x = .ok s) :
      MadeIn φ (.sphere { s with vicinity := v }) (ballPts (toR φ c) (φ r))
  | plane {l l' s v} {o n : Fin 3 → K} (hl : ListIn l o) (hl' : ListIn l' n) (h : Plane.init l l' = .ok s) :
      MadeIn φ (.plane { s with vicinity := v }) (planePts (toR φ o) (toR φ n))
  | box {l x s v} {c : Fin 3 → K} {r : K} (hl : ListIn l c) (hx : x.Holds r) (h : RecBox.init l x = .ok s) :
      MadeIn φ (.box { s with vicinity := v }) (cubePts (toR φ c) (φ r))
  | line {l l' s v} {a b : Fin 3 → K} (hl : ListIn l a) (hl' : ListIn l' b) (h : Line3.init l l' = .ok s) :
      MadeIn φ (.line { s with vicinity := v }) (segment ℝ (toR φ a) (toR φ b))
  | triPrism {l x s v} {A B : Fin 3 → Fin 3 → K} (h : TriPrism.init l x = .ok s)
      (ha : ∀ j : Fin 3, V3.In s.triBase[j] (A j)) (hb : ∀ j : Fin 3, V3.In s.triBase2[j] (B j)) :
      MadeIn φ (.triPrism { s with vicinity := v })
        (convexHull ℝ ({p | ∃ j, p = toR φ (A j)} ∪ {p | ∃ j, p = toR φ (B j)}))

end Mazth
