import Verif.Float.Binary
import Verif.Model.Quat

/-!
The crate's own quaternion test (`/repo/lib/test/test_quat.rs`), run on the model in binary32; see
`Verif/Conformance/Shapes.lean` for what these checks are for.

The model leaves `sin`, `cos`, `acos` abstract.  Here they are given by a table holding the correctly rounded binary32 results
at the only arguments the test uses (`π/4` and `cos (π/4)` rounded to binary32), and NaN elsewhere.
-/

set_option autoImplicit false
set_option linter.unusedSectionVars false

namespace Mazth.Conformance.Quats

/-- a decimal literal `n / 10^k` of the Rust source, rounded to binary32 -/
def dec (n : ℤ) (k : ℕ := 0) : Fl Q32 := Fl.lit ((n : ℚ) / (10 ^ k : ℕ) : ℚ)

/-- `std::f32::consts::PI` -/
def pi32 : Fl Q32 := .fin (13176795 / 4194304 : ℚ)
/-- `sin (π/4)` and `cos (π/4)` in binary32 -/
def half32 : Fl Q32 := .fin (11863283 / 16777216 : ℚ)
def quarter : Fl Q32 := .fin (13176795 / 16777216 : ℚ)

instance : Libm Q32 where
  sin x := if x = quarter then half32 else .nan
  cos x := if x = quarter then half32 else .nan
  acos x := if x = half32 then quarter else .nan
  atan2 _ _ := .nan
  ln _ := .nan
  powf _ _ := .nan
  pi := pi32

/-- `(axis, 90)` to a quaternion and back: the axis agrees with the normalised one, `angle / PI * 180 == 90` -/
def roundTrip (axis : Mat3x1 (Fl Q32)) : Option Bool := do
  let n ← axis.normalize
  let q ← (Quat.initFromAxisAngleDegree axis (dec 90)).toOption
  let (a, angle) ← q.toAxisAngle.toOption
  let e ← a.isEqual n (dec 1 4)
  return e && Fl.feq (angle / pi32 * dec 180) (dec 90)

example : roundTrip ⟨#v[dec 1, dec 2, dec 3]⟩ = some true := by decide +kernel
example : roundTrip ⟨#v[dec 1, dec 0, dec 0]⟩ = some true := by decide +kernel

/-- the rotation matrix of 90° about x, and the two ways of rotating `(1, 5, -3)` -/
def rotations : Option Bool := do
  let q ← (Quat.initFromAxisAngleDegree ⟨#v[dec 1, dec 0, dec 0]⟩ (dec 90)).toOption
  let rot := q.toRotationMatrix true
  let e ← rot.isEqual ⟨#v[dec 1, dec 0, dec 0, dec 0, dec 0, dec 0, dec (-1), dec 0, dec 0, dec 1, dec 0, dec 0,
    dec 0, dec 0, dec 0, dec 1], true⟩ (dec 1 4)
  let p ← rot.mulMat4x1 ⟨#v[dec 1, dec 5, dec (-3), dec 1]⟩
  let r := q.rotateVector ⟨#v[dec 1, dec 5, dec (-3)]⟩
  let e' ← r.isEqual ⟨#v[p.val[0], p.val[1], p.val[2]]⟩ (dec 1 5)
  return e && e'

example : rotations = some true := by decide +kernel

end Mazth.Conformance.Quats
