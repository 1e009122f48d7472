import Verif.Model.Mat

/-!
# Quaternions of `/repo/lib/quat.rs` and `/repo/lib/dualquat.rs`

The macro is instantiated at `f32` and `f64` (`/repo/lib/quat.rs:515-516`); the model is generic in the float
format.  `sin`, `cos`, `acos`, `atan2`, `ln`, `powf` and the constant `PI` come from the class `Libm`.
`n as $v_type` for a small integer `n` is `Fl.lit n` (`0`, `1` are written `0`, `1`).
-/

set_option linter.unusedSectionVars false
set_option autoImplicit false

namespace Mazth

variable {K : Type} [Field K] [LinearOrder K] [Fmt K]

/-- `Quat<T>`, /repo/lib/quat.rs:15-21. -/
structure Quat (α : Type) where
  x : α
  y : α
  z : α
  w : α
  deriving DecidableEq, Repr

/-- `DualQuat<T>`, /repo/lib/dualquat.rs:12-16. -/
structure DualQuat (α : Type) where
  rot : Quat α
  tra : Quat α
  deriving DecidableEq, Repr

/-- `DualQuat::init`, /repo/lib/dualquat.rs:22-27. -/
def DualQuat.init {α : Type} (rotate translate : Quat α) : DualQuat α := ⟨rotate, translate⟩

namespace Quat

/-- `Default::default`. /repo/lib/quat.rs:26-33 -/
def default : Quat (Fl K) := ⟨0, 0, 0, 1⟩

/-- `init`. /repo/lib/quat.rs:38-45 -/
def init : Quat (Fl K) := ⟨0, 0, 0, 1⟩

/-- `init_from_vals_raw`. /repo/lib/quat.rs:47-59 -/
def initFromValsRaw {α : Type} (x y z w : α) : Quat α := ⟨x, y, z, w⟩

/-- `length_squared`. /repo/lib/quat.rs:340-342 -/
def lengthSquared (q : Quat (Fl K)) : Fl K := q.x * q.x + q.y * q.y + q.z * q.z + q.w * q.w

/-- `length`. /repo/lib/quat.rs:344-347 -/
def length (q : Quat (Fl K)) : Fl K := Fl.sqrt (q.x * q.x + q.y * q.y + q.z * q.z + q.w * q.w)

/-- `normalize`. /repo/lib/quat.rs:349-361 -/
def normalize (q : Quat (Fl K)) : Res (Quat (Fl K)) :=
  let l := q.length
  if Fl.lt 0 l || Fl.lt l 0 then .ok ⟨q.x / l, q.y / l, q.z / l, q.w / l⟩
  else .error .explicit

/-- `init_from_vals_normalize`. /repo/lib/quat.rs:61-74 -/
def initFromValsNormalize (x y z w : Fl K) : Res (Quat (Fl K)) := (⟨x, y, z, w⟩ : Quat (Fl K)).normalize

/-- `init_from_vals_auto_w`. /repo/lib/quat.rs:76-93 -/
def initFromValsAutoW (x y z : Fl K) : Quat (Fl K) :=
  let w := 1 - x * x - y * y - z * z
  if Fl.lt w 0 then ⟨x, y, z, w⟩ else ⟨x, y, z, Fl.lit (-1) * Fl.sqrt w⟩

/-- `init_from_translation`. /repo/lib/quat.rs:95-102 -/
def initFromTranslation (trans : Mat3x1 (Fl K)) : Quat (Fl K) :=
  ⟨trans.val[0] / Fl.lit 2, trans.val[1] / Fl.lit 2, trans.val[2] / Fl.lit 2, 0⟩

/-- `to_translation_matrix`. /repo/lib/quat.rs:104-149 -/
def toTranslationMatrix (q : Quat (Fl K)) (rowMajor : Bool) : Mat4 (Fl K) :=
  match rowMajor with
  | true => Mat4.init #v[0, 0, 0, q.x, 0, 0, 0, q.y, 0, 0, 0, q.z, 0, 0, 0, 1] true
  | false => Mat4.init #v[0, 0, 0, 0, 0, 0, 0, 0, 0, 0, 0, 0, q.x, q.y, q.z, 1] false

/-- `to_rotation_matrix`. /repo/lib/quat.rs:151-197 -/
def toRotationMatrix (q : Quat (Fl K)) (rowMajor : Bool) : Mat4 (Fl K) :=
  match rowMajor with
  | true => Mat4.init #v[
      1 - Fl.lit 2 * (q.y * q.y + q.z * q.z),
      Fl.lit 2 * (q.x * q.y - q.z * q.w),
      Fl.lit 2 * (q.x * q.z + q.y * q.w),
      0,
      Fl.lit 2 * (q.x * q.y + q.z * q.w),
      1 - Fl.lit 2 * (q.x * q.x + q.z * q.z),
      Fl.lit 2 * (q.y * q.z - q.x * q.w),
      0,
      Fl.lit 2 * (q.x * q.z - q.y * q.w),
      Fl.lit 2 * (q.z * q.y + q.x * q.w),
      1 - Fl.lit 2 * (q.x * q.x + q.y * q.y),
      0, 0, 0, 0, 1] true
  | false => Mat4.init #v[
      1 - Fl.lit 2 * (q.y * q.y + q.z * q.z),
      Fl.lit 2 * (q.x * q.y + q.z * q.w),
      Fl.lit 2 * (q.x * q.z - q.y * q.w),
      0,
      Fl.lit 2 * (q.x * q.y - q.z * q.w),
      1 - Fl.lit 2 * (q.x * q.x + q.z * q.z),
      Fl.lit 2 * (q.z * q.y + q.x * q.w),
      0,
      Fl.lit 2 * (q.x * q.z + q.y * q.w),
      Fl.lit 2 * (q.y * q.z - q.x * q.w),
      1 - Fl.lit 2 * (q.x * q.x + q.y * q.y),
      0, 0, 0, 0, 1] false

/-- `to_axis_angle`. /repo/lib/quat.rs:199-221 -/
def toAxisAngle [Libm K] (q : Quat (Fl K)) : Res (Mat3x1 (Fl K) × Fl K) :=
  let k := Fl.sqrt (1 - q.w * q.w)
  if Fl.lt k (Fl.lit (1 / 1000000)) then .ok (⟨#v[1, 0, 0]⟩, 0)
  else do
    let vecX := q.x / k
    let vecY := q.y / k
    let vecZ := q.z / k
    let l := Fl.sqrt (vecX * vecX + vecY * vecY + vecZ * vecZ)
    assert (!Fl.feq l 0)
    .ok (⟨#v[vecX / l, vecY / l, vecZ / l]⟩, Fl.lit 2 * Libm.acos q.w)

/-- `init_from_axis_angle_radian`; the `expect` cannot fail because `normalize` always returns `Some` (kept as
`unwrap`). /repo/lib/quat.rs:231-243 -/
def initFromAxisAngleRadian [Libm K] (axis : Mat3x1 (Fl K)) (radians : Fl K) : Res (Quat (Fl K)) := do
  let axisAdjust ← unwrap axis.normalize
  let sineHalf := Libm.sin (radians / Fl.lit 2)
  .ok ⟨axisAdjust.val[0] * sineHalf, axisAdjust.val[1] * sineHalf, axisAdjust.val[2] * sineHalf,
    Libm.cos (radians / Fl.lit 2)⟩

/-- `init_from_axis_angle_degree`. /repo/lib/quat.rs:223-229 -/
def initFromAxisAngleDegree [Libm K] (axis : Mat3x1 (Fl K)) (angle : Fl K) : Res (Quat (Fl K)) :=
  initFromAxisAngleRadian axis (angle / Fl.lit 180 * Libm.pi)

/-- `add`. /repo/lib/quat.rs:306-313 -/
def add (p q : Quat (Fl K)) : Quat (Fl K) := ⟨p.x + q.x, p.y + q.y, p.z + q.z, p.w + q.w⟩

/-- `minus`. /repo/lib/quat.rs:315-322 -/
def minus (p q : Quat (Fl K)) : Quat (Fl K) := ⟨p.x - q.x, p.y - q.y, p.z - q.z, p.w - q.w⟩

/-- `mul`. /repo/lib/quat.rs:324-338 -/
def mul (p q : Quat (Fl K)) : Quat (Fl K) :=
  ⟨p.w * q.x + p.x * q.w + p.y * q.z - p.z * q.y,
   p.w * q.y - p.x * q.z + p.y * q.w + p.z * q.x,
   p.w * q.z + p.x * q.y - p.y * q.x + p.z * q.w,
   p.w * q.w - p.x * q.x - p.y * q.y - p.z * q.z⟩

/-- `negate`. /repo/lib/quat.rs:402-409 -/
def negate (q : Quat (Fl K)) : Quat (Fl K) := ⟨-q.x, -q.y, -q.z, -q.w⟩

/-- `conjugate`. /repo/lib/quat.rs:411-418 -/
def conjugate (q : Quat (Fl K)) : Quat (Fl K) := ⟨-q.x, -q.y, -q.z, q.w⟩

/-- `scale`. /repo/lib/quat.rs:420-427 -/
def scale (q : Quat (Fl K)) (s : Fl K) : Quat (Fl K) := ⟨q.x * s, q.y * s, q.z * s, q.w * s⟩

/-- `inverse`. /repo/lib/quat.rs:429-434 -/
def inverse (q : Quat (Fl K)) : Res (Quat (Fl K)) := do
  let conj := q.conjugate
  let norm := conj.lengthSquared
  assert (!Fl.feq norm 0)
  .ok (conj.scale (1 / norm))

/-- `rotate_vector`. /repo/lib/quat.rs:245-258 -/
def rotateVector (q : Quat (Fl K)) (p : Mat3x1 (Fl K)) : Mat3x1 (Fl K) :=
  let conj := q.conjugate
  let quatP : Quat (Fl K) := ⟨p.val[0], p.val[1], p.val[2], 0⟩
  let temp := q.mul quatP
  let temp2 := temp.mul conj
  ⟨#v[temp2.x, temp2.y, temp2.z]⟩

/-- `reflection_in_plane`. /repo/lib/quat.rs:260-272 -/
def reflectionInPlane (q : Quat (Fl K)) (p : Mat3x1 (Fl K)) : Mat3x1 (Fl K) :=
  let quatP : Quat (Fl K) := ⟨p.val[0], p.val[1], p.val[2], 0⟩
  let temp := q.mul quatP
  let temp2 := temp.mul q
  ⟨#v[temp2.x, temp2.y, temp2.z]⟩

/-- `parallel_component_of_plane`. /repo/lib/quat.rs:274-288 -/
def parallelComponentOfPlane (q : Quat (Fl K)) (p : Mat3x1 (Fl K)) : Mat3x1 (Fl K) :=
  let quatP : Quat (Fl K) := ⟨p.val[0], p.val[1], p.val[2], 0⟩
  let temp := q.mul quatP
  let temp2 := temp.mul q
  let temp3 := quatP.add temp2
  let temp4 := temp3.scale (Fl.lit (1 / 2))
  ⟨#v[temp4.x, temp4.y, temp4.z]⟩

/-- `orthogonal_component_of_plane`. /repo/lib/quat.rs:290-304 -/
def orthogonalComponentOfPlane (q : Quat (Fl K)) (p : Mat3x1 (Fl K)) : Mat3x1 (Fl K) :=
  let quatP : Quat (Fl K) := ⟨p.val[0], p.val[1], p.val[2], 0⟩
  let temp := q.mul quatP
  let temp2 := temp.mul q
  let temp3 := quatP.minus temp2
  let temp4 := temp3.scale (Fl.lit (1 / 2))
  ⟨#v[temp4.x, temp4.y, temp4.z]⟩

/-- `ln`. /repo/lib/quat.rs:363-380 -/
def ln [Libm K] (q : Quat (Fl K)) : Res (Quat (Fl K)) := do
  let l := q.length
  let wLn := Libm.ln q.w
  let vecLength := Fl.sqrt (q.x * q.x + q.y * q.y + q.z * q.z)
  assert (!Fl.feq vecLength 0)
  let vecX := q.x / vecLength
  let vecY := q.y / vecLength
  let vecZ := q.z / vecLength
  let s := Libm.acos (wLn / l)
  .ok ⟨vecX * s, vecY * s, vecZ * s, wLn⟩

/-- `pow`. /repo/lib/quat.rs:382-400 -/
def pow [Libm K] (q : Quat (Fl K)) (t : Fl K) : Res (Quat (Fl K)) := do
  let vecLength := Fl.sqrt (q.x * q.x + q.y * q.y + q.z * q.z)
  assert (!Fl.feq vecLength 0)
  let vecX := q.x / vecLength
  let vecY := q.y / vecLength
  let vecZ := q.z / vecLength
  let l := q.length
  let alpha := Libm.acos (q.w / l)
  let beta := t * alpha
  let coeff := Libm.powf l t
  .ok ⟨coeff * vecX * Libm.sin beta, coeff * vecY * Libm.sin beta, coeff * vecZ * Libm.sin beta,
    coeff * Libm.cos beta⟩

/-- `interpolate_linear`. /repo/lib/quat.rs:436-453 -/
def interpolateLinear (start end_ : Quat (Fl K)) (t : Fl K) : Quat (Fl K) :=
  let clampUpper := if Fl.lt 1 t then 1 else t
  let clamp := if Fl.lt clampUpper 0 then 0 else clampUpper
  ⟨start.x * (1 - clamp) + end_.x * clamp,
   start.y * (1 - clamp) + end_.y * clamp,
   start.z * (1 - clamp) + end_.z * clamp,
   start.w * (1 - clamp) + end_.w * clamp⟩

/-- `interpolate_slerp`. /repo/lib/quat.rs:455-510 -/
def interpolateSlerp [Libm K] (start end_ : Quat (Fl K)) (t : Fl K) : Quat (Fl K) :=
  let tClampUpper := if Fl.lt 1 t then 1 else t
  let tClamp := if Fl.lt tClampUpper 0 then 0 else tClampUpper
  let cosOmega := start.w * end_.w + start.x * end_.x + start.y * end_.y + start.z * end_.z
  let cosOmegaAdjust := if Fl.lt cosOmega 0 then -cosOmega else cosOmega
  let endAdjust : Quat (Fl K) :=
    if Fl.lt cosOmega 0 then ⟨-end_.x, -end_.y, -end_.z, -end_.w⟩ else ⟨end_.x, end_.y, end_.z, end_.w⟩
  let k : Fl K × Fl K :=
    if Fl.lt (Fl.lit (9999 / 10000)) cosOmegaAdjust then (1 - tClamp, tClamp)
    else
      let sinOmega := Fl.sqrt (1 - cosOmega * cosOmega)
      let omega := Libm.atan2 sinOmega cosOmega
      let invSinOmega := 1 / sinOmega
      (Libm.sin ((1 - tClamp) * omega) * invSinOmega, Libm.sin (tClamp * omega) * invSinOmega)
  ⟨start.x * k.1 + endAdjust.x * k.2,
   start.y * k.1 + endAdjust.y * k.2,
   start.z * k.1 + endAdjust.z * k.2,
   start.w * k.1 + endAdjust.w * k.2⟩

end Quat

end Mazth
