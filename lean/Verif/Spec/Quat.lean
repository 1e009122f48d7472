import Verif.Model.Quat
import Verif.Spec.Linear
import Mathlib.Analysis.Quaternion

/-!
# Specification vocabulary for quaternions

A `Quat` value is described through its public fields `_x, _y, _z, _w`; `Quat.IsR q Q` says that the fields are finite and
are the components of Mathlib's quaternion `Q` (`_w` is the real part).
-/

set_option autoImplicit false

namespace Mazth

open Quaternion

/-- The fields of `q` are finite and are the components of the quaternion `Q`. -/
def Quat.IsR (q : Quat (Fl ℝ)) (Q : ℍ[ℝ]) : Prop := q.x.Is Q.imI ∧ q.y.Is Q.imJ ∧ q.z.Is Q.imK ∧ q.w.Is Q.re

/-- The pure quaternion with the given vector part. -/
def pureQ (u : Fin 3 → ℝ) : ℍ[ℝ] := ⟨0, u 0, u 1, u 2⟩

/-- The vector part of a quaternion. -/
def vecQ (Q : ℍ[ℝ]) : Fin 3 → ℝ := ![Q.imI, Q.imJ, Q.imK]

/-- `v` holds the real vector `u`. -/
abbrev Mat3x1.IsR (v : Mat3x1 (Fl ℝ)) (u : Fin 3 → ℝ) : Prop := VecTy.ReadsR .mat3x1 v u

/-- a real quaternion stored in the crate's type (used in the examples) -/
def quatR (Q : ℍ[ℝ]) : Quat (Fl ℝ) := ⟨.fin Q.imI, .fin Q.imJ, .fin Q.imK, .fin Q.re⟩

theorem quatR_isR (Q : ℍ[ℝ]) : (quatR Q).IsR Q := ⟨rfl, rfl, rfl, rfl⟩

end Mazth
