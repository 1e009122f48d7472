import Verif.Model.Prelude

/-!
# Vectors of `/repo/lib/mat.rs`: Mat2x1, Mat1x2, Mat3x1, Mat1x3, Mat4x1, Mat1x4

Every macro is instantiated at `f32` and `f64` (`/repo/lib/mat.rs:1676-1695`); the model is generic in the float
format `K`.  `as $v_type` casts between identical types are dropped.  `Option` results are kept.
`x.div(m)` / `x.mul(s)` on scalars are the operators `/` and `*`.
-/

set_option linter.unusedSectionVars false
set_option autoImplicit false

namespace Mazth

variable {K : Type} [Field K] [LinearOrder K] [Fmt K]

/-- `Mat2x1<T>`, /repo/lib/mat.rs:19-24 (the array `_val`). -/
structure Mat2x1 (α : Type) where
  val : Vector α 2
  deriving DecidableEq, Repr

/-- `Mat1x2<T>`, /repo/lib/mat.rs:44-49 (the array `_val`). -/
structure Mat1x2 (α : Type) where
  val : Vector α 2
  deriving DecidableEq, Repr

/-- `Mat3x1<T>`, /repo/lib/mat.rs:69-74 (the array `_val`). -/
structure Mat3x1 (α : Type) where
  val : Vector α 3
  deriving DecidableEq, Repr

/-- `Mat1x3<T>`, /repo/lib/mat.rs:95-100 (the array `_val`). -/
structure Mat1x3 (α : Type) where
  val : Vector α 3
  deriving DecidableEq, Repr

/-- `Mat4x1<T>`, /repo/lib/mat.rs:121-126 (the array `_val`). -/
structure Mat4x1 (α : Type) where
  val : Vector α 4
  deriving DecidableEq, Repr

/-- `Mat1x4<T>`, /repo/lib/mat.rs:146-151 (the array `_val`). -/
structure Mat1x4 (α : Type) where
  val : Vector α 4
  deriving DecidableEq, Repr

namespace Mat2x1

/-- `Index<usize>`: the array access panics when out of bounds. /repo/lib/mat.rs:25-33 -/
def index {α : Type} (a : Mat2x1 α) (i : ℕ) : Res α :=
  if h : i < 2 then .ok a.val[i] else .error .indexOutOfBounds

/-- `IndexMut<usize>` followed by a store. /repo/lib/mat.rs:34-41 -/
def indexMutSet {α : Type} (a : Mat2x1 α) (i : ℕ) (x : α) : Res (Mat2x1 α) :=
  if h : i < 2 then .ok ⟨a.val.set i x⟩ else .error .indexOutOfBounds

/-- `Default::default`. /repo/lib/mat.rs:173-177 -/
def default : Mat2x1 (Fl K) := ⟨#v[0, 0]⟩

/-- `size`. /repo/lib/mat.rs:180-182 -/
def size {α : Type} (a : Mat2x1 α) : Option ℕ := some a.val.size

/-- `mul_elem`. /repo/lib/mat.rs:183-187 -/
def mulElem (a b : Mat2x1 (Fl K)) : Option (Mat2x1 (Fl K)) :=
  some ⟨#v[a.val[0] * b.val[0], a.val[1] * b.val[1]]⟩

/-- `div`. /repo/lib/mat.rs:188-192 -/
def div (a b : Mat2x1 (Fl K)) : Option (Mat2x1 (Fl K)) :=
  some ⟨#v[a.val[0] / b.val[0], a.val[1] / b.val[1]]⟩

/-- `plus`. /repo/lib/mat.rs:193-197 -/
def plus (a b : Mat2x1 (Fl K)) : Option (Mat2x1 (Fl K)) :=
  some ⟨#v[a.val[0] + b.val[0], a.val[1] + b.val[1]]⟩

/-- `minus`. /repo/lib/mat.rs:198-202 -/
def minus (a b : Mat2x1 (Fl K)) : Option (Mat2x1 (Fl K)) :=
  some ⟨#v[a.val[0] - b.val[0], a.val[1] - b.val[1]]⟩

/-- `dot`. /repo/lib/mat.rs:203-208 -/
def dot (a b : Mat2x1 (Fl K)) : Option (Fl K) :=
  some (a.val[0] * b.val[0] + a.val[1] * b.val[1])

/-- `cross`: not defined in this dimension. /repo/lib/mat.rs:210-212 -/
def cross (_a _b : Mat2x1 (Fl K)) : Option (Mat2x1 (Fl K)) := none

/-- `magnitude`. /repo/lib/mat.rs:213-215 -/
def magnitude (a : Mat2x1 (Fl K)) : Option (Fl K) :=
  some (Fl.sqrt (a.val[0].powi2 + a.val[1].powi2))

/-- `normalize`: `magnitude` always returns `Some`, its `expect` cannot fail (kept as a `match`). /repo/lib/mat.rs:216-224 -/
def normalize (a : Mat2x1 (Fl K)) : Option (Mat2x1 (Fl K)) :=
  match a.magnitude with
  | some m => some ⟨#v[a.val[0] / m, a.val[1] / m]⟩
  | none => none

/-- `scale`. /repo/lib/mat.rs:225-232 -/
def scale (a : Mat2x1 (Fl K)) (s : Fl K) : Option (Mat2x1 (Fl K)) :=
  some ⟨#v[a.val[0] * s, a.val[1] * s]⟩

/-- `transpose`. /repo/lib/mat.rs:233-235 -/
def transpose {α : Type} (a : Mat2x1 α) : Mat1x2 α := ⟨a.val⟩

/-- `is_equal`. /repo/lib/mat.rs:238-245 -/
def isEqual (a b : Mat2x1 (Fl K)) (error : Fl K) : Option Bool :=
  some (Fl.le (b.val[0] - error) a.val[0] && Fl.le a.val[0] (b.val[0] + error) &&
    Fl.le (b.val[1] - error) a.val[1] && Fl.le a.val[1] (b.val[1] + error))

end Mat2x1

namespace Mat1x2

/-- `Index<usize>`: the array access panics when out of bounds. /repo/lib/mat.rs:50-58 -/
def index {α : Type} (a : Mat1x2 α) (i : ℕ) : Res α :=
  if h : i < 2 then .ok a.val[i] else .error .indexOutOfBounds

/-- `IndexMut<usize>` followed by a store. /repo/lib/mat.rs:59-66 -/
def indexMutSet {α : Type} (a : Mat1x2 α) (i : ℕ) (x : α) : Res (Mat1x2 α) :=
  if h : i < 2 then .ok ⟨a.val.set i x⟩ else .error .indexOutOfBounds

/-- `Default::default`. /repo/lib/mat.rs:253-257 -/
def default : Mat1x2 (Fl K) := ⟨#v[0, 0]⟩

/-- `size`. /repo/lib/mat.rs:260-262 -/
def size {α : Type} (a : Mat1x2 α) : Option ℕ := some a.val.size

/-- `mul_elem`. /repo/lib/mat.rs:263-267 -/
def mulElem (a b : Mat1x2 (Fl K)) : Option (Mat1x2 (Fl K)) :=
  some ⟨#v[a.val[0] * b.val[0], a.val[1] * b.val[1]]⟩

/-- `div`. /repo/lib/mat.rs:268-272 -/
def div (a b : Mat1x2 (Fl K)) : Option (Mat1x2 (Fl K)) :=
  some ⟨#v[a.val[0] / b.val[0], a.val[1] / b.val[1]]⟩

/-- `plus`. /repo/lib/mat.rs:273-277 -/
def plus (a b : Mat1x2 (Fl K)) : Option (Mat1x2 (Fl K)) :=
  some ⟨#v[a.val[0] + b.val[0], a.val[1] + b.val[1]]⟩

/-- `minus`. /repo/lib/mat.rs:278-282 -/
def minus (a b : Mat1x2 (Fl K)) : Option (Mat1x2 (Fl K)) :=
  some ⟨#v[a.val[0] - b.val[0], a.val[1] - b.val[1]]⟩

/-- `dot`. /repo/lib/mat.rs:283-288 -/
def dot (a b : Mat1x2 (Fl K)) : Option (Fl K) :=
  some (a.val[0] * b.val[0] + a.val[1] * b.val[1])

/-- `cross`: not defined in this dimension. /repo/lib/mat.rs:290-292 -/
def cross (_a _b : Mat1x2 (Fl K)) : Option (Mat1x2 (Fl K)) := none

/-- `magnitude`. /repo/lib/mat.rs:293-295 -/
def magnitude (a : Mat1x2 (Fl K)) : Option (Fl K) :=
  some (Fl.sqrt (a.val[0].powi2 + a.val[1].powi2))

/-- `normalize`: `magnitude` always returns `Some`, its `expect` cannot fail (kept as a `match`). /repo/lib/mat.rs:296-304 -/
def normalize (a : Mat1x2 (Fl K)) : Option (Mat1x2 (Fl K)) :=
  match a.magnitude with
  | some m => some ⟨#v[a.val[0] / m, a.val[1] / m]⟩
  | none => none

/-- `scale`. /repo/lib/mat.rs:305-312 -/
def scale (a : Mat1x2 (Fl K)) (s : Fl K) : Option (Mat1x2 (Fl K)) :=
  some ⟨#v[a.val[0] * s, a.val[1] * s]⟩

/-- `transpose`. /repo/lib/mat.rs:319-321 -/
def transpose {α : Type} (a : Mat1x2 α) : Mat2x1 α := ⟨a.val⟩

/-- `is_equal`. /repo/lib/mat.rs:324-331 -/
def isEqual (a b : Mat1x2 (Fl K)) (error : Fl K) : Option Bool :=
  some (Fl.le (b.val[0] - error) a.val[0] && Fl.le a.val[0] (b.val[0] + error) &&
    Fl.le (b.val[1] - error) a.val[1] && Fl.le a.val[1] (b.val[1] + error))

end Mat1x2

namespace Mat3x1

/-- `Index<usize>`: the array access panics when out of bounds. /repo/lib/mat.rs:76-84 -/
def index {α : Type} (a : Mat3x1 α) (i : ℕ) : Res α :=
  if h : i < 3 then .ok a.val[i] else .error .indexOutOfBounds

/-- `IndexMut<usize>` followed by a store. /repo/lib/mat.rs:85-92 -/
def indexMutSet {α : Type} (a : Mat3x1 α) (i : ℕ) (x : α) : Res (Mat3x1 α) :=
  if h : i < 3 then .ok ⟨a.val.set i x⟩ else .error .indexOutOfBounds

/-- `Default::default`. /repo/lib/mat.rs:339-343 -/
def default : Mat3x1 (Fl K) := ⟨#v[0, 0, 0]⟩

/-- `size`. /repo/lib/mat.rs:346-348 -/
def size {α : Type} (a : Mat3x1 α) : Option ℕ := some a.val.size

/-- `mul_elem`. /repo/lib/mat.rs:349-357 -/
def mulElem (a b : Mat3x1 (Fl K)) : Option (Mat3x1 (Fl K)) :=
  some ⟨#v[a.val[0] * b.val[0], a.val[1] * b.val[1], a.val[2] * b.val[2]]⟩

/-- `div`. /repo/lib/mat.rs:358-366 -/
def div (a b : Mat3x1 (Fl K)) : Option (Mat3x1 (Fl K)) :=
  some ⟨#v[a.val[0] / b.val[0], a.val[1] / b.val[1], a.val[2] / b.val[2]]⟩

/-- `plus`. /repo/lib/mat.rs:367-375 -/
def plus (a b : Mat3x1 (Fl K)) : Option (Mat3x1 (Fl K)) :=
  some ⟨#v[a.val[0] + b.val[0], a.val[1] + b.val[1], a.val[2] + b.val[2]]⟩

/-- `minus`. /repo/lib/mat.rs:376-384 -/
def minus (a b : Mat3x1 (Fl K)) : Option (Mat3x1 (Fl K)) :=
  some ⟨#v[a.val[0] - b.val[0], a.val[1] - b.val[1], a.val[2] - b.val[2]]⟩

/-- `dot`. /repo/lib/mat.rs:385-391 -/
def dot (a b : Mat3x1 (Fl K)) : Option (Fl K) :=
  some (a.val[0] * b.val[0] + a.val[1] * b.val[1] + a.val[2] * b.val[2])

/-- `cross`. /repo/lib/mat.rs:392-406 -/
def cross (a b : Mat3x1 (Fl K)) : Option (Mat3x1 (Fl K)) :=
  some ⟨#v[a.val[1] * b.val[2] - a.val[2] * b.val[1],
           a.val[2] * b.val[0] - a.val[0] * b.val[2],
           a.val[0] * b.val[1] - a.val[1] * b.val[0]]⟩

/-- `magnitude`. /repo/lib/mat.rs:407-414 -/
def magnitude (a : Mat3x1 (Fl K)) : Option (Fl K) :=
  some (Fl.sqrt (a.val[0].powi2 + a.val[1].powi2 + a.val[2].powi2))

/-- `normalize`: `magnitude` always returns `Some`, its `expect` cannot fail (kept as a `match`). /repo/lib/mat.rs:415-424 -/
def normalize (a : Mat3x1 (Fl K)) : Option (Mat3x1 (Fl K)) :=
  match a.magnitude with
  | some m => some ⟨#v[a.val[0] / m, a.val[1] / m, a.val[2] / m]⟩
  | none => none

/-- `scale`. /repo/lib/mat.rs:425-433 -/
def scale (a : Mat3x1 (Fl K)) (s : Fl K) : Option (Mat3x1 (Fl K)) :=
  some ⟨#v[a.val[0] * s, a.val[1] * s, a.val[2] * s]⟩

/-- `transpose`. /repo/lib/mat.rs:442-444 -/
def transpose {α : Type} (a : Mat3x1 α) : Mat1x3 α := ⟨a.val⟩

/-- `is_equal`. /repo/lib/mat.rs:447-456 -/
def isEqual (a b : Mat3x1 (Fl K)) (error : Fl K) : Option Bool :=
  some (Fl.le (b.val[0] - error) a.val[0] && Fl.le a.val[0] (b.val[0] + error) &&
    Fl.le (b.val[1] - error) a.val[1] && Fl.le a.val[1] (b.val[1] + error) &&
    Fl.le (b.val[2] - error) a.val[2] && Fl.le a.val[2] (b.val[2] + error))

end Mat3x1

namespace Mat1x3

/-- `Index<usize>`: the array access panics when out of bounds. /repo/lib/mat.rs:102-110 -/
def index {α : Type} (a : Mat1x3 α) (i : ℕ) : Res α :=
  if h : i < 3 then .ok a.val[i] else .error .indexOutOfBounds

/-- `IndexMut<usize>` followed by a store. /repo/lib/mat.rs:111-118 -/
def indexMutSet {α : Type} (a : Mat1x3 α) (i : ℕ) (x : α) : Res (Mat1x3 α) :=
  if h : i < 3 then .ok ⟨a.val.set i x⟩ else .error .indexOutOfBounds

/-- `Default::default`. /repo/lib/mat.rs:464-468 -/
def default : Mat1x3 (Fl K) := ⟨#v[0, 0, 0]⟩

/-- `size`. /repo/lib/mat.rs:471-473 -/
def size {α : Type} (a : Mat1x3 α) : Option ℕ := some a.val.size

/-- `mul_elem`. /repo/lib/mat.rs:474-482 -/
def mulElem (a b : Mat1x3 (Fl K)) : Option (Mat1x3 (Fl K)) :=
  some ⟨#v[a.val[0] * b.val[0], a.val[1] * b.val[1], a.val[2] * b.val[2]]⟩

/-- `div`. /repo/lib/mat.rs:503-511 -/
def div (a b : Mat1x3 (Fl K)) : Option (Mat1x3 (Fl K)) :=
  some ⟨#v[a.val[0] / b.val[0], a.val[1] / b.val[1], a.val[2] / b.val[2]]⟩

/-- `plus`. /repo/lib/mat.rs:512-520 -/
def plus (a b : Mat1x3 (Fl K)) : Option (Mat1x3 (Fl K)) :=
  some ⟨#v[a.val[0] + b.val[0], a.val[1] + b.val[1], a.val[2] + b.val[2]]⟩

/-- `minus`. /repo/lib/mat.rs:521-529 -/
def minus (a b : Mat1x3 (Fl K)) : Option (Mat1x3 (Fl K)) :=
  some ⟨#v[a.val[0] - b.val[0], a.val[1] - b.val[1], a.val[2] - b.val[2]]⟩

/-- `dot`. /repo/lib/mat.rs:530-536 -/
def dot (a b : Mat1x3 (Fl K)) : Option (Fl K) :=
  some (a.val[0] * b.val[0] + a.val[1] * b.val[1] + a.val[2] * b.val[2])

/-- `cross`. /repo/lib/mat.rs:537-551 -/
def cross (a b : Mat1x3 (Fl K)) : Option (Mat1x3 (Fl K)) :=
  some ⟨#v[a.val[1] * b.val[2] - a.val[2] * b.val[1],
           a.val[2] * b.val[0] - a.val[0] * b.val[2],
           a.val[0] * b.val[1] - a.val[1] * b.val[0]]⟩

/-- `magnitude`. /repo/lib/mat.rs:552-559 -/
def magnitude (a : Mat1x3 (Fl K)) : Option (Fl K) :=
  some (Fl.sqrt (a.val[0].powi2 + a.val[1].powi2 + a.val[2].powi2))

/-- `normalize`: `magnitude` always returns `Some`, its `expect` cannot fail (kept as a `match`). /repo/lib/mat.rs:560-569 -/
def normalize (a : Mat1x3 (Fl K)) : Option (Mat1x3 (Fl K)) :=
  match a.magnitude with
  | some m => some ⟨#v[a.val[0] / m, a.val[1] / m, a.val[2] / m]⟩
  | none => none

/-- `scale`. /repo/lib/mat.rs:570-578 -/
def scale (a : Mat1x3 (Fl K)) (s : Fl K) : Option (Mat1x3 (Fl K)) :=
  some ⟨#v[a.val[0] * s, a.val[1] * s, a.val[2] * s]⟩

/-- `transpose`. /repo/lib/mat.rs:587-589 -/
def transpose {α : Type} (a : Mat1x3 α) : Mat3x1 α := ⟨a.val⟩

/-- `is_equal`. /repo/lib/mat.rs:592-601 -/
def isEqual (a b : Mat1x3 (Fl K)) (error : Fl K) : Option Bool :=
  some (Fl.le (b.val[0] - error) a.val[0] && Fl.le a.val[0] (b.val[0] + error) &&
    Fl.le (b.val[1] - error) a.val[1] && Fl.le a.val[1] (b.val[1] + error) &&
    Fl.le (b.val[2] - error) a.val[2] && Fl.le a.val[2] (b.val[2] + error))

end Mat1x3

namespace Mat4x1

/-- `Index<usize>`: the array access panics when out of bounds. /repo/lib/mat.rs:127-135 -/
def index {α : Type} (a : Mat4x1 α) (i : ℕ) : Res α :=
  if h : i < 4 then .ok a.val[i] else .error .indexOutOfBounds

/-- `IndexMut<usize>` followed by a store. /repo/lib/mat.rs:136-143 -/
def indexMutSet {α : Type} (a : Mat4x1 α) (i : ℕ) (x : α) : Res (Mat4x1 α) :=
  if h : i < 4 then .ok ⟨a.val.set i x⟩ else .error .indexOutOfBounds

/-- `Default::default`. /repo/lib/mat.rs:608-612 -/
def default : Mat4x1 (Fl K) := ⟨#v[0, 0, 0, 0]⟩

/-- `size`. /repo/lib/mat.rs:615-617 -/
def size {α : Type} (a : Mat4x1 α) : Option ℕ := some a.val.size

/-- `mul_elem`. /repo/lib/mat.rs:618-627 -/
def mulElem (a b : Mat4x1 (Fl K)) : Option (Mat4x1 (Fl K)) :=
  some ⟨#v[a.val[0] * b.val[0], a.val[1] * b.val[1], a.val[2] * b.val[2], a.val[3] * b.val[3]]⟩

/-- `div`. /repo/lib/mat.rs:628-637 -/
def div (a b : Mat4x1 (Fl K)) : Option (Mat4x1 (Fl K)) :=
  some ⟨#v[a.val[0] / b.val[0], a.val[1] / b.val[1], a.val[2] / b.val[2], a.val[3] / b.val[3]]⟩

/-- `plus`. /repo/lib/mat.rs:638-647 -/
def plus (a b : Mat4x1 (Fl K)) : Option (Mat4x1 (Fl K)) :=
  some ⟨#v[a.val[0] + b.val[0], a.val[1] + b.val[1], a.val[2] + b.val[2], a.val[3] + b.val[3]]⟩

/-- `minus`. /repo/lib/mat.rs:648-657 -/
def minus (a b : Mat4x1 (Fl K)) : Option (Mat4x1 (Fl K)) :=
  some ⟨#v[a.val[0] - b.val[0], a.val[1] - b.val[1], a.val[2] - b.val[2], a.val[3] - b.val[3]]⟩

/-- `dot`. /repo/lib/mat.rs:658-665 -/
def dot (a b : Mat4x1 (Fl K)) : Option (Fl K) :=
  some (a.val[0] * b.val[0] + a.val[1] * b.val[1] + a.val[2] * b.val[2] + a.val[3] * b.val[3])

/-- `cross`: not defined in this dimension. /repo/lib/mat.rs:667-669 -/
def cross (_a _b : Mat4x1 (Fl K)) : Option (Mat4x1 (Fl K)) := none

/-- `magnitude`. /repo/lib/mat.rs:670-678 -/
def magnitude (a : Mat4x1 (Fl K)) : Option (Fl K) :=
  some (Fl.sqrt (a.val[0].powi2 + a.val[1].powi2 + a.val[2].powi2 + a.val[3].powi2))

/-- `normalize`: `magnitude` always returns `Some`, its `expect` cannot fail (kept as a `match`). /repo/lib/mat.rs:679-689 -/
def normalize (a : Mat4x1 (Fl K)) : Option (Mat4x1 (Fl K)) :=
  match a.magnitude with
  | some m => some ⟨#v[a.val[0] / m, a.val[1] / m, a.val[2] / m, a.val[3] / m]⟩
  | none => none

/-- `scale`. /repo/lib/mat.rs:690-699 -/
def scale (a : Mat4x1 (Fl K)) (s : Fl K) : Option (Mat4x1 (Fl K)) :=
  some ⟨#v[a.val[0] * s, a.val[1] * s, a.val[2] * s, a.val[3] * s]⟩

/-- `transpose`. /repo/lib/mat.rs:710-712 -/
def transpose {α : Type} (a : Mat4x1 α) : Mat1x4 α := ⟨a.val⟩

/-- `is_equal`. /repo/lib/mat.rs:715-726 -/
def isEqual (a b : Mat4x1 (Fl K)) (error : Fl K) : Option Bool :=
  some (Fl.le (b.val[0] - error) a.val[0] && Fl.le a.val[0] (b.val[0] + error) &&
    Fl.le (b.val[1] - error) a.val[1] && Fl.le a.val[1] (b.val[1] + error) &&
    Fl.le (b.val[2] - error) a.val[2] && Fl.le a.val[2] (b.val[2] + error) &&
    Fl.le (b.val[3] - error) a.val[3] && Fl.le a.val[3] (b.val[3] + error))

end Mat4x1

namespace Mat1x4

/-- `Index<usize>`: the array access panics when out of bounds. /repo/lib/mat.rs:152-160 -/
def index {α : Type} (a : Mat1x4 α) (i : ℕ) : Res α :=
  if h : i < 4 then .ok a.val[i] else .error .indexOutOfBounds

/-- `IndexMut<usize>` followed by a store. /repo/lib/mat.rs:161-168 -/
def indexMutSet {α : Type} (a : Mat1x4 α) (i : ℕ) (x : α) : Res (Mat1x4 α) :=
  if h : i < 4 then .ok ⟨a.val.set i x⟩ else .error .indexOutOfBounds

/-- `Default::default`. /repo/lib/mat.rs:734-738 -/
def default : Mat1x4 (Fl K) := ⟨#v[0, 0, 0, 0]⟩

/-- `size`. /repo/lib/mat.rs:741-743 -/
def size {α : Type} (a : Mat1x4 α) : Option ℕ := some a.val.size

/-- `mul_elem`. /repo/lib/mat.rs:744-753 -/
def mulElem (a b : Mat1x4 (Fl K)) : Option (Mat1x4 (Fl K)) :=
  some ⟨#v[a.val[0] * b.val[0], a.val[1] * b.val[1], a.val[2] * b.val[2], a.val[3] * b.val[3]]⟩

/-- `div`. /repo/lib/mat.rs:776-785 -/
def div (a b : Mat1x4 (Fl K)) : Option (Mat1x4 (Fl K)) :=
  some ⟨#v[a.val[0] / b.val[0], a.val[1] / b.val[1], a.val[2] / b.val[2], a.val[3] / b.val[3]]⟩

/-- `plus`. /repo/lib/mat.rs:786-795 -/
def plus (a b : Mat1x4 (Fl K)) : Option (Mat1x4 (Fl K)) :=
  some ⟨#v[a.val[0] + b.val[0], a.val[1] + b.val[1], a.val[2] + b.val[2], a.val[3] + b.val[3]]⟩

/-- `minus`. /repo/lib/mat.rs:796-805 -/
def minus (a b : Mat1x4 (Fl K)) : Option (Mat1x4 (Fl K)) :=
  some ⟨#v[a.val[0] - b.val[0], a.val[1] - b.val[1], a.val[2] - b.val[2], a.val[3] - b.val[3]]⟩

/-- `dot`. /repo/lib/mat.rs:806-813 -/
def dot (a b : Mat1x4 (Fl K)) : Option (Fl K) :=
  some (a.val[0] * b.val[0] + a.val[1] * b.val[1] + a.val[2] * b.val[2] + a.val[3] * b.val[3])

/-- `cross`: not defined in this dimension. /repo/lib/mat.rs:815-817 -/
def cross (_a _b : Mat1x4 (Fl K)) : Option (Mat1x4 (Fl K)) := none

/-- `magnitude`. /repo/lib/mat.rs:818-826 -/
def magnitude (a : Mat1x4 (Fl K)) : Option (Fl K) :=
  some (Fl.sqrt (a.val[0].powi2 + a.val[1].powi2 + a.val[2].powi2 + a.val[3].powi2))

/-- `normalize`: `magnitude` always returns `Some`, its `expect` cannot fail (kept as a `match`). /repo/lib/mat.rs:827-837 -/
def normalize (a : Mat1x4 (Fl K)) : Option (Mat1x4 (Fl K)) :=
  match a.magnitude with
  | some m => some ⟨#v[a.val[0] / m, a.val[1] / m, a.val[2] / m, a.val[3] / m]⟩
  | none => none

/-- `scale`. /repo/lib/mat.rs:838-847 -/
def scale (a : Mat1x4 (Fl K)) (s : Fl K) : Option (Mat1x4 (Fl K)) :=
  some ⟨#v[a.val[0] * s, a.val[1] * s, a.val[2] * s, a.val[3] * s]⟩

/-- `transpose`. /repo/lib/mat.rs:858-860 -/
def transpose {α : Type} (a : Mat1x4 α) : Mat4x1 α := ⟨a.val⟩

/-- `is_equal`. /repo/lib/mat.rs:863-874 -/
def isEqual (a b : Mat1x4 (Fl K)) (error : Fl K) : Option Bool :=
  some (Fl.le (b.val[0] - error) a.val[0] && Fl.le a.val[0] (b.val[0] + error) &&
    Fl.le (b.val[1] - error) a.val[1] && Fl.le a.val[1] (b.val[1] + error) &&
    Fl.le (b.val[2] - error) a.val[2] && Fl.le a.val[2] (b.val[2] + error) &&
    Fl.le (b.val[3] - error) a.val[3] && Fl.le a.val[3] (b.val[3] + error))

end Mat1x4

end Mazth
