import Verif.Model.Bound
import Verif.Float.Exact

/-!
# Specification vocabulary for bounds: points and boxes

A point is a function `Fin 3 → Fl K` (so that the ends of an unbounded box are points too) or `Fin 3 → ℝ`; a box
contains the points between its public fields `lower` and `upper`.
-/

set_option linter.unusedSectionVars false
set_option autoImplicit false

namespace Mazth

variable {K : Type} [Field K] [LinearOrder K] [Fmt K]

namespace AABB

/-- `p` lies in the closed box with corners `lower` and `upper` -/
def Has (b : AABB (Fl K)) (p : Fin 3 → Fl K) : Prop :=
  ∀ i : Fin 3, Fl.le b.lower[i] (p i) = true ∧ Fl.le (p i) b.upper[i] = true

/-- the point with real coordinates `p` lies in the closed box -/
def HasR (b : AABB (Fl ℝ)) (p : Fin 3 → ℝ) : Prop := b.Has fun i => .fin (p i)

/-- `lower ≤ upper` in every coordinate -/
def Valid (b : AABB (Fl K)) : Prop := ∀ i : Fin 3, Fl.le b.lower[i] b.upper[i] = true

/-- box `b` lies within box `c` -/
def Within (b c : AABB (Fl K)) : Prop :=
  ∀ i : Fin 3, Fl.le c.lower[i] b.lower[i] = true ∧ Fl.le b.upper[i] c.upper[i] = true

/-- no bound is NaN -/
def NoNan (b : AABB (Fl K)) : Prop := ∀ i : Fin 3, b.lower[i] ≠ .nan ∧ b.upper[i] ≠ .nan

/-- as `Within`, but a NaN bound of `b` counts as absent -/
def WithinNan (b c : AABB (Fl K)) : Prop :=
  ∀ i : Fin 3, (b.lower[i] ≠ .nan → Fl.le c.lower[i] b.lower[i] = true) ∧
    (b.upper[i] ≠ .nan → Fl.le b.upper[i] c.upper[i] = true)

/-- the corners of `b` are the real points `lo` and `hi` -/
def IsR (b : AABB (Fl ℝ)) (lo hi : Fin 3 → ℝ) : Prop := ∀ i : Fin 3, b.lower[i].Is (lo i) ∧ b.upper[i].Is (hi i)

end AABB

end Mazth
