import Verif.Model.Vec

/-!
# Square matrices of `/repo/lib/mat.rs`: Mat3, Mat4, and the vector-matrix products

Both macros are instantiated at `f32` and `f64` (`/repo/lib/mat.rs:1676-1698`); the model is generic in the float
format `K`.  Casts `as $v_type` between identical types are dropped.  Functions that only move data are generic in the
scalar type.  `for` loops are kept as loops over the flat array.
-/

set_option linter.unusedSectionVars false
set_option autoImplicit false

namespace Mazth

variable {K : Type} [Field K] [LinearOrder K] [Fmt K]

/-- `(a as usize) * k + b as usize` on a 64-bit target.  With `chk` (debug build) an overflow panics, without it
(release build) it wraps. Used by `index`/`index_mut`, /repo/lib/mat.rs:929-943, 1249-1264. -/
def flatPos (chk : Bool) (a : UInt64) (k : UInt64) (b : UInt64) : Res UInt64 :=
  if chk && decide (2 ^ 64 ≤ a.toNat * k.toNat + b.toNat) then .error .arithmeticOverflow else .ok (a * k + b)

/-- `Mat3<T>`, /repo/lib/mat.rs:880-886. -/
structure Mat3 (α : Type) where
  val : Vector α 9
  isRowMajor : Bool
  deriving DecidableEq, Repr

namespace Mat3

/-- `Default::default`. /repo/lib/mat.rs:891-896 -/
def default : Mat3 (Fl K) := ⟨Vector.replicate 9 0, true⟩

/-- `init`. /repo/lib/mat.rs:900-913 -/
def init {α : Type} (arr : Vector α 9) (rowMajor : Bool) : Mat3 α :=
  match rowMajor with
  | true => ⟨arr, true⟩
  | false => ⟨#v[arr[0], arr[3], arr[6], arr[1], arr[4], arr[7], arr[2], arr[5], arr[8]], false⟩

/-- `iden`. /repo/lib/mat.rs:914-923 -/
def iden : Mat3 (Fl K) :=
  ⟨loop 3 (Vector.replicate 9 (0 : Fl K)) fun m i => m.set (i.val * 3 + i.val) 1, true⟩

/-- `trace`. /repo/lib/mat.rs:925-927 -/
def trace (a : Mat3 (Fl K)) : Fl K := a.val[0] + a.val[4] + a.val[8]

/-- `index` with arbitrary `u64` arguments. /repo/lib/mat.rs:929-935 -/
def index {α : Type} (chk : Bool) (a : Mat3 α) (m n : UInt64) : Res α := do
  let p ← if a.isRowMajor then flatPos chk m 3 n else flatPos chk n 3 m
  if h : p.toNat < 9 then .ok a.val[p.toNat] else .error .indexOutOfBounds

/-- `*index_mut(m, n) = x`. /repo/lib/mat.rs:937-943 -/
def indexMutSet {α : Type} (chk : Bool) (a : Mat3 α) (m n : UInt64) (x : α) : Res (Mat3 α) := do
  let p ← if a.isRowMajor then flatPos chk m 3 n else flatPos chk n 3 m
  if h : p.toNat < 9 then .ok { a with val := a.val.set p.toNat x } else .error .indexOutOfBounds

/-- `index(i, j)` for in-range literal arguments, as used inside the crate (no panic possible; agreement with
`index` is theorem `Mat3.index_eq_idx`). /repo/lib/mat.rs:929-935 -/
def idx {α : Type} (a : Mat3 α) (i j : Fin 3) : α :=
  if a.isRowMajor then a.val[i.val * 3 + j.val] else a.val[i.val + j.val * 3]

/-- `*index_mut(i, j) = x` for in-range literal arguments (see `idx`). /repo/lib/mat.rs:937-943 -/
def setIdx {α : Type} (a : Mat3 α) (i j : Fin 3) (x : α) : Mat3 α :=
  if a.isRowMajor then { a with val := a.val.set (i.val * 3 + j.val) x }
  else { a with val := a.val.set (i.val + j.val * 3) x }

/-- `size`. /repo/lib/mat.rs:945-947 -/
def size {α : Type} (a : Mat3 α) : Option ℕ := some a.val.size

/-- `mul_elem`. /repo/lib/mat.rs:949-964 -/
def mulElem (a b : Mat3 (Fl K)) : Option (Mat3 (Fl K)) :=
  some ⟨#v[a.val[0] * b.val[0], a.val[1] * b.val[1], a.val[2] * b.val[2],
           a.val[3] * b.val[3], a.val[4] * b.val[4], a.val[5] * b.val[5],
           a.val[6] * b.val[6], a.val[7] * b.val[7], a.val[8] * b.val[8]], a.isRowMajor⟩

/-- `div`. /repo/lib/mat.rs:1020-1035 -/
def div (a b : Mat3 (Fl K)) : Option (Mat3 (Fl K)) :=
  some ⟨#v[a.val[0] / b.val[0], a.val[1] / b.val[1], a.val[2] / b.val[2],
           a.val[3] / b.val[3], a.val[4] / b.val[4], a.val[5] / b.val[5],
           a.val[6] / b.val[6], a.val[7] / b.val[7], a.val[8] / b.val[8]], a.isRowMajor⟩

/-- `plus`. /repo/lib/mat.rs:1037-1052 -/
def plus (a b : Mat3 (Fl K)) : Option (Mat3 (Fl K)) :=
  some ⟨#v[a.val[0] + b.val[0], a.val[1] + b.val[1], a.val[2] + b.val[2],
           a.val[3] + b.val[3], a.val[4] + b.val[4], a.val[5] + b.val[5],
           a.val[6] + b.val[6], a.val[7] + b.val[7], a.val[8] + b.val[8]], a.isRowMajor⟩

/-- `minus`. /repo/lib/mat.rs:1054-1069 -/
def minus (a b : Mat3 (Fl K)) : Option (Mat3 (Fl K)) :=
  some ⟨#v[a.val[0] - b.val[0], a.val[1] - b.val[1], a.val[2] - b.val[2],
           a.val[3] - b.val[3], a.val[4] - b.val[4], a.val[5] - b.val[5],
           a.val[6] - b.val[6], a.val[7] - b.val[7], a.val[8] - b.val[8]], a.isRowMajor⟩

/-- `mul`. /repo/lib/mat.rs:965-996 -/
def mul (a b : Mat3 (Fl K)) : Res (Option (Mat3 (Fl K))) := do
  assert (a.isRowMajor == b.isRowMajor)
  if a.isRowMajor then
    .ok (some ⟨loop 3 (Vector.replicate 9 (0 : Fl K)) fun m y => loop 3 m fun m x =>
      m.set (y.val * 3 + x.val) (a.val[y.val * 3 + 0] * b.val[x.val + 0]
        + a.val[y.val * 3 + 1] * b.val[x.val + 3]
        + a.val[y.val * 3 + 2] * b.val[x.val + 6]), a.isRowMajor⟩)
  else
    .ok (some ⟨loop 3 (Vector.replicate 9 (0 : Fl K)) fun m x => loop 3 m fun m y =>
      m.set (x.val * 3 + y.val) (a.val[y.val + 0] * b.val[x.val * 3 + 0]
        + a.val[y.val + 3] * b.val[x.val * 3 + 1]
        + a.val[y.val + 6] * b.val[x.val * 3 + 2]), a.isRowMajor⟩)

/-- `mul_mat3x1`. /repo/lib/mat.rs:997-1018 -/
def mulMat3x1 (a : Mat3 (Fl K)) (b : Mat3x1 (Fl K)) : Option (Mat3x1 (Fl K)) :=
  if a.isRowMajor then
    some ⟨loop 3 (Mat3x1.default : Mat3x1 (Fl K)).val fun m y => m.set y.val (a.val[y.val * 3 + 0] * b.val[0] + a.val[y.val * 3 + 1] * b.val[1] + a.val[y.val * 3 + 2] * b.val[2])⟩
  else
    some ⟨loop 3 (Mat3x1.default : Mat3x1 (Fl K)).val fun m x => m.set x.val (a.val[x.val + 0] * b.val[0] + a.val[x.val + 3] * b.val[1] + a.val[x.val + 6] * b.val[2])⟩

/-- `dot`. /repo/lib/mat.rs:1071-1073 -/
def dot (_a _b : Mat3 (Fl K)) : Option (Fl K) := none

/-- `cross`. /repo/lib/mat.rs:1075-1077 -/
def cross (_a _b : Mat3 (Fl K)) : Option (Mat3 (Fl K)) := none

/-- `magnitude`. /repo/lib/mat.rs:1078-1080 -/
def magnitude (_a : Mat3 (Fl K)) : Res (Option (Fl K)) := .error .unimplemented

/-- `normalize`: the divisor is re-read from the array being updated in every iteration. /repo/lib/mat.rs:1081-1091 -/
def normalize (a : Mat3 (Fl K)) : Option (Mat3 (Fl K)) :=
  some ⟨loop 9 a.val fun m x => m.set x.val (m[x.val] / m[8]), a.isRowMajor⟩

/-- `scale`. /repo/lib/mat.rs:1092-1101 -/
def scale (a : Mat3 (Fl K)) (s : Fl K) : Option (Mat3 (Fl K)) :=
  some ⟨loop 9 a.val fun m x => m.set x.val (m[x.val] * s), a.isRowMajor⟩

/-- `transpose_self`: returns the new value of `*self`. /repo/lib/mat.rs:1115-1126 -/
def transposeSelf {α : Type} (a : Mat3 α) : Mat3 α :=
  let copy := a.val
  ⟨loop 9 a.val fun self i =>
    if h : i.val < 3 then self.set (i.val * 3) copy[i.val]
    else if h1 : 3 ≤ i.val ∧ i.val < 6 then self.set ((i.val - 3) * 3 + 1) copy[i.val]
    else self.set ((i.val - 6) * 3 + 2) copy[i.val], a.isRowMajor⟩

/-- `transpose`. /repo/lib/mat.rs:1127-1142 -/
def transpose {α : Type} (a : Mat3 α) : Mat3 α :=
  ⟨loop 9 a.val fun copy i =>
    if h : i.val < 3 then copy.set (i.val * 3) a.val[i.val]
    else if h1 : 3 ≤ i.val ∧ i.val < 6 then copy.set ((i.val - 3) * 3 + 1) a.val[i.val]
    else copy.set ((i.val - 6) * 3 + 2) a.val[i.val], a.isRowMajor⟩

/-- `inverse`, transcribed expression by expression: in Rust `x * y - z * w / d` divides only the second
product. /repo/lib/mat.rs:1143-1177 -/
def inverse (a : Mat3 (Fl K)) : Option (Mat3 (Fl K)) :=
  let determinant := a.idx 0 0 * (a.idx 1 1 * a.idx 2 2 - a.idx 2 1 * a.idx 1 2) - a.idx 1 0 * (a.idx 0 1 * a.idx 2 2 - a.idx 2 1 * a.idx 0 2) + a.idx 2 0 * (a.idx 0 1 * a.idx 1 2 - a.idx 1 1 * a.idx 0 2)
  if Fl.lt determinant (Fl.lit (1 / 10000000000)) && Fl.lt (-(Fl.lit (1 / 100000000000))) determinant then none
  else
    let t := a.transpose
    let out := a
    let out := out.setIdx 0 0 (t.idx 1 1 * t.idx 2 2 - t.idx 2 1 * t.idx 1 2 / determinant)
    let out := out.setIdx 1 0 (-(t.idx 0 1 * t.idx 2 2 - t.idx 2 1 * t.idx 0 2) / determinant)
    let out := out.setIdx 2 0 (t.idx 0 1 * t.idx 1 2 - t.idx 1 1 * t.idx 0 2 / determinant)
    let out := out.setIdx 0 1 (t.idx 1 0 * t.idx 2 2 - t.idx 2 0 * t.idx 1 2 / determinant)
    let out := out.setIdx 1 1 (-(t.idx 0 0 * t.idx 2 2 - t.idx 2 0 * t.idx 0 2) / determinant)
    let out := out.setIdx 2 1 (t.idx 0 0 * t.idx 1 2 - t.idx 1 0 * t.idx 0 2 / determinant)
    let out := out.setIdx 0 2 (t.idx 1 0 * t.idx 2 1 - t.idx 2 0 * t.idx 1 1 / determinant)
    let out := out.setIdx 1 2 (-(t.idx 0 0 * t.idx 2 1 - t.idx 2 0 * t.idx 0 1) / determinant)
    let out := out.setIdx 2 2 (t.idx 0 0 * t.idx 1 1 - t.idx 1 0 * t.idx 0 1 / determinant)
    some out

/-- `is_equal`: the early return of the loop is the short-circuit of `List.all`. /repo/lib/mat.rs:1180-1192 -/
def isEqual (a b : Mat3 (Fl K)) (error : Fl K) : Option Bool :=
  if a.isRowMajor != b.isRowMajor then some false
  else some ((List.finRange 9).all fun x =>
    Fl.le (b.val[x.val] - error) a.val[x.val] && Fl.le a.val[x.val] (b.val[x.val] + error))

end Mat3

/-- `Mat4<T>`, /repo/lib/mat.rs:1198-1204. -/
structure Mat4 (α : Type) where
  val : Vector α 16
  isRowMajor : Bool
  deriving DecidableEq, Repr

namespace Mat4

/-- `Default::default`. /repo/lib/mat.rs:1209-1214 -/
def default : Mat4 (Fl K) := ⟨Vector.replicate 16 0, true⟩

/-- `init`. /repo/lib/mat.rs:1219-1233 -/
def init {α : Type} (arr : Vector α 16) (rowMajor : Bool) : Mat4 α :=
  match rowMajor with
  | true => ⟨arr, true⟩
  | false => ⟨#v[arr[0], arr[4], arr[8], arr[12], arr[1], arr[5], arr[9], arr[13], arr[2], arr[6], arr[10], arr[14], arr[3], arr[7], arr[11], arr[15]], false⟩

/-- `iden`. /repo/lib/mat.rs:1234-1243 -/
def iden : Mat4 (Fl K) :=
  ⟨loop 4 (Vector.replicate 16 (0 : Fl K)) fun m i => m.set (i.val * 4 + i.val) 1, true⟩

/-- `trace`. /repo/lib/mat.rs:1245-1247 -/
def trace (a : Mat4 (Fl K)) : Fl K := a.val[0] + a.val[5] + a.val[10] + a.val[15]

/-- `index` with arbitrary `u64` arguments. /repo/lib/mat.rs:1249-1255 -/
def index {α : Type} (chk : Bool) (a : Mat4 α) (m n : UInt64) : Res α := do
  let p ← if a.isRowMajor then flatPos chk m 4 n else flatPos chk n 4 m
  if h : p.toNat < 16 then .ok a.val[p.toNat] else .error .indexOutOfBounds

/-- `*index_mut(m, n) = x`. /repo/lib/mat.rs:1257-1263 -/
def indexMutSet {α : Type} (chk : Bool) (a : Mat4 α) (m n : UInt64) (x : α) : Res (Mat4 α) := do
  let p ← if a.isRowMajor then flatPos chk m 4 n else flatPos chk n 4 m
  if h : p.toNat < 16 then .ok { a with val := a.val.set p.toNat x } else .error .indexOutOfBounds

/-- `index(i, j)` for in-range literal arguments, as used inside the crate (no panic possible; agreement with
`index` is theorem `Mat4.index_eq_idx`). /repo/lib/mat.rs:1249-1255 -/
def idx {α : Type} (a : Mat4 α) (i j : Fin 4) : α :=
  if a.isRowMajor then a.val[i.val * 4 + j.val] else a.val[i.val + j.val * 4]

/-- `*index_mut(i, j) = x` for in-range literal arguments (see `idx`). /repo/lib/mat.rs:1257-1263 -/
def setIdx {α : Type} (a : Mat4 α) (i j : Fin 4) (x : α) : Mat4 α :=
  if a.isRowMajor then { a with val := a.val.set (i.val * 4 + j.val) x }
  else { a with val := a.val.set (i.val + j.val * 4) x }

/-- `size`. /repo/lib/mat.rs:1265-1267 -/
def size {α : Type} (a : Mat4 α) : Option ℕ := some a.val.size

/-- `mul_elem`. /repo/lib/mat.rs:1269-1291 -/
def mulElem (a b : Mat4 (Fl K)) : Option (Mat4 (Fl K)) :=
  some ⟨#v[a.val[0] * b.val[0], a.val[1] * b.val[1], a.val[2] * b.val[2], a.val[3] * b.val[3],
           a.val[4] * b.val[4], a.val[5] * b.val[5], a.val[6] * b.val[6], a.val[7] * b.val[7],
           a.val[8] * b.val[8], a.val[9] * b.val[9], a.val[10] * b.val[10], a.val[11] * b.val[11],
           a.val[12] * b.val[12], a.val[13] * b.val[13], a.val[14] * b.val[14], a.val[15] * b.val[15]], a.isRowMajor⟩

/-- `div`. /repo/lib/mat.rs:1351-1373 -/
def div (a b : Mat4 (Fl K)) : Option (Mat4 (Fl K)) :=
  some ⟨#v[a.val[0] / b.val[0], a.val[1] / b.val[1], a.val[2] / b.val[2], a.val[3] / b.val[3],
           a.val[4] / b.val[4], a.val[5] / b.val[5], a.val[6] / b.val[6], a.val[7] / b.val[7],
           a.val[8] / b.val[8], a.val[9] / b.val[9], a.val[10] / b.val[10], a.val[11] / b.val[11],
           a.val[12] / b.val[12], a.val[13] / b.val[13], a.val[14] / b.val[14], a.val[15] / b.val[15]], a.isRowMajor⟩

/-- `plus`. /repo/lib/mat.rs:1375-1397 -/
def plus (a b : Mat4 (Fl K)) : Option (Mat4 (Fl K)) :=
  some ⟨#v[a.val[0] + b.val[0], a.val[1] + b.val[1], a.val[2] + b.val[2], a.val[3] + b.val[3],
           a.val[4] + b.val[4], a.val[5] + b.val[5], a.val[6] + b.val[6], a.val[7] + b.val[7],
           a.val[8] + b.val[8], a.val[9] + b.val[9], a.val[10] + b.val[10], a.val[11] + b.val[11],
           a.val[12] + b.val[12], a.val[13] + b.val[13], a.val[14] + b.val[14], a.val[15] + b.val[15]], a.isRowMajor⟩

/-- `minus`. /repo/lib/mat.rs:1399-1421 -/
def minus (a b : Mat4 (Fl K)) : Option (Mat4 (Fl K)) :=
  some ⟨#v[a.val[0] - b.val[0], a.val[1] - b.val[1], a.val[2] - b.val[2], a.val[3] - b.val[3],
           a.val[4] - b.val[4], a.val[5] - b.val[5], a.val[6] - b.val[6], a.val[7] - b.val[7],
           a.val[8] - b.val[8], a.val[9] - b.val[9], a.val[10] - b.val[10], a.val[11] - b.val[11],
           a.val[12] - b.val[12], a.val[13] - b.val[13], a.val[14] - b.val[14], a.val[15] - b.val[15]], a.isRowMajor⟩

/-- `mul`. /repo/lib/mat.rs:1292-1325 -/
def mul (a b : Mat4 (Fl K)) : Res (Option (Mat4 (Fl K))) := do
  assert (a.isRowMajor == b.isRowMajor)
  if a.isRowMajor then
    .ok (some ⟨loop 4 (Vector.replicate 16 (0 : Fl K)) fun m y => loop 4 m fun m x =>
      m.set (y.val * 4 + x.val) (a.val[y.val * 4 + 0] * b.val[x.val + 0]
        + a.val[y.val * 4 + 1] * b.val[x.val + 4]
        + a.val[y.val * 4 + 2] * b.val[x.val + 8]
        + a.val[y.val * 4 + 3] * b.val[x.val + 12]), a.isRowMajor⟩)
  else
    .ok (some ⟨loop 4 (Vector.replicate 16 (0 : Fl K)) fun m x => loop 4 m fun m y =>
      m.set (x.val * 4 + y.val) (a.val[y.val + 0] * b.val[x.val * 4 + 0]
        + a.val[y.val + 4] * b.val[x.val * 4 + 1]
        + a.val[y.val + 8] * b.val[x.val * 4 + 2]
        + a.val[y.val + 12] * b.val[x.val * 4 + 3]), a.isRowMajor⟩)

/-- `mul_mat4x1`. /repo/lib/mat.rs:1326-1349 -/
def mulMat4x1 (a : Mat4 (Fl K)) (b : Mat4x1 (Fl K)) : Option (Mat4x1 (Fl K)) :=
  if a.isRowMajor then
    some ⟨loop 4 (Mat4x1.default : Mat4x1 (Fl K)).val fun m y => m.set y.val (a.val[y.val * 4 + 0] * b.val[0] + a.val[y.val * 4 + 1] * b.val[1] + a.val[y.val * 4 + 2] * b.val[2] + a.val[y.val * 4 + 3] * b.val[3])⟩
  else
    some ⟨loop 4 (Mat4x1.default : Mat4x1 (Fl K)).val fun m x => m.set x.val (a.val[x.val + 0] * b.val[0] + a.val[x.val + 4] * b.val[1] + a.val[x.val + 8] * b.val[2] + a.val[x.val + 12] * b.val[3])⟩

/-- `dot`. /repo/lib/mat.rs:1423-1425 -/
def dot (_a _b : Mat4 (Fl K)) : Option (Fl K) := none

/-- `cross`. /repo/lib/mat.rs:1427-1429 -/
def cross (_a _b : Mat4 (Fl K)) : Option (Mat4 (Fl K)) := none

/-- `magnitude`. /repo/lib/mat.rs:1430-1432 -/
def magnitude (_a : Mat4 (Fl K)) : Res (Option (Fl K)) := .error .unimplemented

/-- `normalize`: the divisor is re-read from the array being updated in every iteration. /repo/lib/mat.rs:1433-1443 -/
def normalize (a : Mat4 (Fl K)) : Option (Mat4 (Fl K)) :=
  some ⟨loop 16 a.val fun m x => m.set x.val (m[x.val] / m[15]), a.isRowMajor⟩

/-- `scale`. /repo/lib/mat.rs:1444-1453 -/
def scale (a : Mat4 (Fl K)) (s : Fl K) : Option (Mat4 (Fl K)) :=
  some ⟨loop 16 a.val fun m x => m.set x.val (m[x.val] * s), a.isRowMajor⟩

/-- `transpose_self`: returns the new value of `*self`. /repo/lib/mat.rs:1467-1480 -/
def transposeSelf {α : Type} (a : Mat4 α) : Mat4 α :=
  let copy := a.val
  ⟨loop 16 a.val fun self i =>
    if h : i.val < 4 then self.set (i.val * 4) copy[i.val]
    else if h1 : 4 ≤ i.val ∧ i.val < 8 then self.set ((i.val - 4) * 4 + 1) copy[i.val]
    else if h2 : 8 ≤ i.val ∧ i.val < 12 then self.set ((i.val - 8) * 4 + 2) copy[i.val]
    else self.set ((i.val - 12) * 4 + 3) copy[i.val], a.isRowMajor⟩

/-- `transpose`. /repo/lib/mat.rs:1481-1498 -/
def transpose {α : Type} (a : Mat4 α) : Mat4 α :=
  ⟨loop 16 a.val fun copy i =>
    if h : i.val < 4 then copy.set (i.val * 4) a.val[i.val]
    else if h1 : 4 ≤ i.val ∧ i.val < 8 then copy.set ((i.val - 4) * 4 + 1) a.val[i.val]
    else if h2 : 8 ≤ i.val ∧ i.val < 12 then copy.set ((i.val - 8) * 4 + 2) a.val[i.val]
    else copy.set ((i.val - 12) * 4 + 3) a.val[i.val], a.isRowMajor⟩

/-- The first part of `inverse`: the sixteen assignments to `inv`, before the division by the determinant.
/repo/lib/mat.rs:1525-1656 (lines 1526-1630) -/
def inverseAdj (a : Mat4 (Fl K)) : Mat4 (Fl K) :=
  let inv : Mat4 (Fl K) := default
  let inv := inv.setIdx 0 0
    (a.idx 1 1 * a.idx 2 2 * a.idx 3 3
      - a.idx 1 1 * a.idx 3 2 * a.idx 2 3
      - a.idx 1 2 * a.idx 2 1 * a.idx 3 3
      + a.idx 1 2 * a.idx 3 1 * a.idx 2 3
      + a.idx 1 3 * a.idx 2 1 * a.idx 3 2
      - a.idx 1 3 * a.idx 3 1 * a.idx 2 2)
  let inv := inv.setIdx 0 1
    (-a.idx 0 1 * a.idx 2 2 * a.idx 3 3
      + a.idx 0 1 * a.idx 3 2 * a.idx 2 3
      + a.idx 0 2 * a.idx 2 1 * a.idx 3 3
      - a.idx 0 2 * a.idx 3 1 * a.idx 2 3
      - a.idx 0 3 * a.idx 2 1 * a.idx 3 2
      + a.idx 0 3 * a.idx 3 1 * a.idx 2 2)
  let inv := inv.setIdx 0 2
    (a.idx 0 1 * a.idx 1 2 * a.idx 3 3
      - a.idx 0 1 * a.idx 3 2 * a.idx 1 3
      - a.idx 0 2 * a.idx 1 1 * a.idx 3 3
      + a.idx 0 2 * a.idx 3 1 * a.idx 1 3
      + a.idx 0 3 * a.idx 1 1 * a.idx 3 2
      - a.idx 0 3 * a.idx 3 1 * a.idx 1 2)
  let inv := inv.setIdx 0 3
    (-a.idx 0 1 * a.idx 1 2 * a.idx 2 3
      + a.idx 0 1 * a.idx 2 2 * a.idx 1 3
      + a.idx 0 2 * a.idx 1 1 * a.idx 2 3
      - a.idx 0 2 * a.idx 2 1 * a.idx 1 3
      - a.idx 0 3 * a.idx 1 1 * a.idx 2 2
      + a.idx 0 3 * a.idx 2 1 * a.idx 1 2)
  let inv := inv.setIdx 1 0
    (-a.idx 1 0 * a.idx 2 2 * a.idx 3 3
      + a.idx 1 0 * a.idx 3 2 * a.idx 2 3
      + a.idx 1 2 * a.idx 2 0 * a.idx 3 3
      - a.idx 1 2 * a.idx 3 0 * a.idx 2 3
      - a.idx 1 3 * a.idx 2 0 * a.idx 3 2
      + a.idx 1 3 * a.idx 3 0 * a.idx 2 2)
  let inv := inv.setIdx 1 1
    (a.idx 0 0 * a.idx 2 2 * a.idx 3 3
      - a.idx 0 0 * a.idx 3 2 * a.idx 2 3
      - a.idx 0 2 * a.idx 2 0 * a.idx 3 3
      + a.idx 0 2 * a.idx 3 0 * a.idx 2 3
      + a.idx 0 3 * a.idx 2 0 * a.idx 3 2
      - a.idx 0 3 * a.idx 3 0 * a.idx 2 2)
  let inv := inv.setIdx 1 2
    (-a.idx 0 0 * a.idx 1 2 * a.idx 3 3
      + a.idx 0 0 * a.idx 3 2 * a.idx 1 3
      + a.idx 0 2 * a.idx 1 0 * a.idx 3 3
      - a.idx 0 2 * a.idx 3 0 * a.idx 1 3
      - a.idx 0 3 * a.idx 1 0 * a.idx 3 2
      + a.idx 0 3 * a.idx 3 0 * a.idx 1 2)
  let inv := inv.setIdx 1 3
    (a.idx 0 0 * a.idx 1 2 * a.idx 2 3
      - a.idx 0 0 * a.idx 2 2 * a.idx 1 3
      - a.idx 0 2 * a.idx 1 0 * a.idx 2 3
      + a.idx 0 2 * a.idx 2 0 * a.idx 1 3
      + a.idx 0 3 * a.idx 1 0 * a.idx 2 2
      - a.idx 0 3 * a.idx 2 0 * a.idx 1 2)
  let inv := inv.setIdx 2 0
    (a.idx 1 0 * a.idx 2 1 * a.idx 3 3
      - a.idx 1 0 * a.idx 3 1 * a.idx 2 3
      - a.idx 1 1 * a.idx 2 0 * a.idx 3 3
      + a.idx 1 1 * a.idx 3 0 * a.idx 2 3
      + a.idx 1 3 * a.idx 2 0 * a.idx 3 1
      - a.idx 1 3 * a.idx 3 0 * a.idx 2 1)
  let inv := inv.setIdx 2 1
    (-a.idx 0 0 * a.idx 2 1 * a.idx 3 3
      + a.idx 0 0 * a.idx 3 1 * a.idx 2 3
      + a.idx 0 1 * a.idx 2 0 * a.idx 3 3
      - a.idx 0 1 * a.idx 3 0 * a.idx 2 3
      - a.idx 0 3 * a.idx 2 0 * a.idx 3 1
      + a.idx 0 3 * a.idx 3 0 * a.idx 2 1)
  let inv := inv.setIdx 2 2
    (a.idx 0 0 * a.idx 1 1 * a.idx 3 3
      - a.idx 0 0 * a.idx 3 1 * a.idx 1 3
      - a.idx 0 1 * a.idx 1 0 * a.idx 3 3
      + a.idx 0 1 * a.idx 3 0 * a.idx 1 3
      + a.idx 0 3 * a.idx 1 0 * a.idx 3 1
      - a.idx 0 3 * a.idx 3 0 * a.idx 1 1)
  let inv := inv.setIdx 2 3
    (-a.idx 0 0 * a.idx 1 1 * a.idx 2 3
      + a.idx 0 0 * a.idx 2 1 * a.idx 1 3
      + a.idx 0 1 * a.idx 1 0 * a.idx 2 3
      - a.idx 0 1 * a.idx 2 0 * a.idx 1 3
      - a.idx 0 3 * a.idx 1 0 * a.idx 2 1
      + a.idx 0 3 * a.idx 2 0 * a.idx 1 1)
  let inv := inv.setIdx 3 0
    (-a.idx 1 0 * a.idx 2 1 * a.idx 3 2
      + a.idx 1 0 * a.idx 3 1 * a.idx 2 2
      + a.idx 1 1 * a.idx 2 0 * a.idx 3 2
      - a.idx 1 1 * a.idx 3 0 * a.idx 2 2
      - a.idx 1 2 * a.idx 2 0 * a.idx 3 1
      + a.idx 1 2 * a.idx 3 0 * a.idx 2 1)
  let inv := inv.setIdx 3 1
    (a.idx 0 0 * a.idx 2 1 * a.idx 3 2
      - a.idx 0 0 * a.idx 3 1 * a.idx 2 2
      - a.idx 0 1 * a.idx 2 0 * a.idx 3 2
      + a.idx 0 1 * a.idx 3 0 * a.idx 2 2
      + a.idx 0 2 * a.idx 2 0 * a.idx 3 1
      - a.idx 0 2 * a.idx 3 0 * a.idx 2 1)
  let inv := inv.setIdx 3 2
    (-a.idx 0 0 * a.idx 1 1 * a.idx 3 2
      + a.idx 0 0 * a.idx 3 1 * a.idx 1 2
      + a.idx 0 1 * a.idx 1 0 * a.idx 3 2
      - a.idx 0 1 * a.idx 3 0 * a.idx 1 2
      - a.idx 0 2 * a.idx 1 0 * a.idx 3 1
      + a.idx 0 2 * a.idx 3 0 * a.idx 1 1)
  let inv := inv.setIdx 3 3
    (a.idx 0 0 * a.idx 1 1 * a.idx 2 2
      - a.idx 0 0 * a.idx 2 1 * a.idx 1 2
      - a.idx 0 1 * a.idx 1 0 * a.idx 2 2
      + a.idx 0 1 * a.idx 2 0 * a.idx 1 2
      + a.idx 0 2 * a.idx 1 0 * a.idx 2 1
      - a.idx 0 2 * a.idx 2 0 * a.idx 1 1)
  inv

/-- `inverse`: determinant test, scaling, and the final `inv.transpose()`. /repo/lib/mat.rs:1525-1656 -/
def inverse (a : Mat4 (Fl K)) : Option (Mat4 (Fl K)) :=
  let inv := inverseAdj a
  let det := a.idx 0 0 * inv.idx 0 0 + a.idx 1 0 * inv.idx 0 1 + a.idx 2 0 * inv.idx 0 2 + a.idx 3 0 * inv.idx 0 3
  if Fl.lt (Fl.abs det) (Fl.fin Fmt.eps) then none
  else
    let detInv := 1 / det
    let inv : Mat4 (Fl K) := ⟨loop 16 inv.val fun m i => m.set i.val (m[i.val] * detInv), inv.isRowMajor⟩
    some inv.transpose

/-- `submat_mat3`. /repo/lib/mat.rs:1509-1524 -/
def submatMat3 {α : Type} (a : Mat4 α) : Mat3 α :=
  ⟨#v[a.val[0], a.val[1], a.val[2], a.val[4], a.val[5], a.val[6], a.val[8], a.val[9], a.val[10]], a.isRowMajor⟩

/-- `is_equal`: the early return of the loop is the short-circuit of `List.all`. /repo/lib/mat.rs:1659-1671 -/
def isEqual (a b : Mat4 (Fl K)) (error : Fl K) : Option Bool :=
  if a.isRowMajor != b.isRowMajor then some false
  else some ((List.finRange 16).all fun x =>
    Fl.le (b.val[x.val] - error) a.val[x.val] && Fl.le a.val[x.val] (b.val[x.val] + error))

end Mat4

/-- `Mat1x3::mul_mat3x3`. /repo/lib/mat.rs:483-502 -/
def Mat1x3.mulMat3x3 (a : Mat1x3 (Fl K)) (b : Mat3 (Fl K)) : Option (Mat1x3 (Fl K)) :=
  if b.isRowMajor then
    some ⟨loop 3 (Mat1x3.default : Mat1x3 (Fl K)).val fun m x => m.set x.val (b.val[x.val + 0] * a.val[0] + b.val[x.val + 3] * a.val[1] + b.val[x.val + 6] * a.val[2])⟩
  else
    some ⟨loop 3 (Mat1x3.default : Mat1x3 (Fl K)).val fun m y => m.set y.val (b.val[y.val * 3 + 0] * a.val[0] + b.val[y.val * 3 + 1] * a.val[1] + b.val[y.val * 3 + 2] * a.val[2])⟩

/-- `Mat1x4::mul_mat4x4`. /repo/lib/mat.rs:754-775 -/
def Mat1x4.mulMat4x4 (a : Mat1x4 (Fl K)) (b : Mat4 (Fl K)) : Option (Mat1x4 (Fl K)) :=
  if b.isRowMajor then
    some ⟨loop 4 (Mat1x4.default : Mat1x4 (Fl K)).val fun m x => m.set x.val (b.val[x.val + 0] * a.val[0] + b.val[x.val + 4] * a.val[1] + b.val[x.val + 8] * a.val[2] + b.val[x.val + 12] * a.val[3])⟩
  else
    some ⟨loop 4 (Mat1x4.default : Mat1x4 (Fl K)).val fun m y => m.set y.val (b.val[y.val * 4 + 0] * a.val[0] + b.val[y.val * 4 + 1] * a.val[1] + b.val[y.val * 4 + 2] * a.val[2] + b.val[y.val * 4 + 3] * a.val[3])⟩

end Mazth
