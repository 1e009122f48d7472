import Verif.Model.Vec

/-!
# Bounds: `/repo/lib/i_bound.rs`, `/repo/lib/bound.rs`, `/repo/lib/bound_sphere.rs`

`&dyn IBound` is the inductive type `IBound`.  All floats here are `f64` in the source; the model is generic in the
format.  Slices `&[f64]` are lists.
-/

set_option linter.unusedSectionVars false
set_option autoImplicit false

namespace Mazth

variable {K : Type} [Field K] [LinearOrder K] [Fmt K]

/-- `ShapeType`, /repo/lib/i_shape.rs:6-20. -/
inductive ShapeType where
  | point | ray | sphere | plane | trig | box | rect | triPrism | line | frustum | complex
  deriving DecidableEq, Repr

/-- `BoundType`, /repo/lib/i_bound.rs:1-4. -/
inductive BoundType where
  | axisAlignBox | sphere
  deriving DecidableEq, Repr

/-- `Axis`, /repo/lib/bound.rs:14-19. -/
inductive Axis where
  | X | Y | Z
  deriving DecidableEq, Repr

/-- `AxisAlignedBBox`, /repo/lib/bound.rs:8-12. -/
structure AABB (α : Type) where
  lower : Vector α 3
  upper : Vector α 3
  deriving DecidableEq, Repr

/-- The trait objects `&dyn IBound`: the two implementors, /repo/lib/bound.rs:106 and
/repo/lib/bound_sphere.rs:18 (`BoundSphere` has no fields). -/
inductive IBound (α : Type) where
  | aabb (b : AABB α)
  | sphere
  deriving DecidableEq, Repr

/-- `vals[i]` on a slice: panics out of bounds. -/
def sliceGet {α : Type} (l : List α) (i : ℕ) : Res α :=
  match l[i]? with
  | some a => .ok a
  | none => .error .indexOutOfBounds

/-- `Iterator::max_by`: a fold that keeps the accumulator only when it compares `Greater` than the new element
(so the last of several maxima is returned). -/
def maxBy {β : Type} (cmp : β → β → Ordering) : List β → Option β
  | [] => none
  | x :: xs => some (xs.foldl (fun acc y => if cmp acc y = .gt then acc else y) x)

/-- `Iterator::min_by`: a fold that replaces the accumulator only when it compares `Greater` than the new element
(so the first of several minima is returned). -/
def minBy {β : Type} (cmp : β → β → Ordering) : List β → Option β
  | [] => none
  | x :: xs => some (xs.foldl (fun acc y => if cmp acc y = .gt then y else acc) x)

namespace AABB

/-- One iteration of the `ShapeType::Ray` loop of `init`. /repo/lib/bound.rs:26-34 -/
def rayBound (o d : Fl K) : Fl K × Fl K :=
  if Fl.lt 0 d then (o, Fl.pinf) else if Fl.lt d 0 then (Fl.ninf, o) else (o, o)

/-- `AxisAlignedBBox::init`. /repo/lib/bound.rs:22-84 -/
def init (shapeType : ShapeType) (vals : List (Fl K)) : Res (AABB (Fl K)) :=
  match shapeType with
  | .ray => do
    assert (vals.length == 6)
    let b0 := rayBound (← sliceGet vals 0) (← sliceGet vals 3)
    let b1 := rayBound (← sliceGet vals 1) (← sliceGet vals 4)
    let b2 := rayBound (← sliceGet vals 2) (← sliceGet vals 5)
    .ok ⟨#v[b0.1, b1.1, b2.1], #v[b0.2, b1.2, b2.2]⟩
  | .point => do
    assert (vals.length == 3)
    .ok ⟨#v[← sliceGet vals 0, ← sliceGet vals 1, ← sliceGet vals 2],
         #v[← sliceGet vals 0, ← sliceGet vals 1, ← sliceGet vals 2]⟩
  | .sphere => do
    assert (vals.length == 4)
    .ok ⟨#v[(← sliceGet vals 0) - (← sliceGet vals 3), (← sliceGet vals 1) - (← sliceGet vals 3),
            (← sliceGet vals 2) - (← sliceGet vals 3)],
         #v[(← sliceGet vals 0) + (← sliceGet vals 3), (← sliceGet vals 1) + (← sliceGet vals 3),
            (← sliceGet vals 2) + (← sliceGet vals 3)]⟩
  | .plane => do
    assert (vals.length == 6)
    .ok ⟨#v[Fl.ninf, Fl.ninf, Fl.ninf], #v[Fl.pinf, Fl.pinf, Fl.pinf]⟩
  | .box => do
    assert (vals.length == 4)
    .ok ⟨#v[(← sliceGet vals 0) - (← sliceGet vals 3), (← sliceGet vals 1) - (← sliceGet vals 3),
            (← sliceGet vals 2) - (← sliceGet vals 3)],
         #v[(← sliceGet vals 0) + (← sliceGet vals 3), (← sliceGet vals 1) + (← sliceGet vals 3),
            (← sliceGet vals 2) + (← sliceGet vals 3)]⟩
  | .rect => do
    assert (vals.length == 6)
    .ok ⟨#v[← sliceGet vals 0, ← sliceGet vals 1, ← sliceGet vals 2],
         #v[← sliceGet vals 3, ← sliceGet vals 4, ← sliceGet vals 5]⟩
  | .frustum => .error .unimplemented
  | .trig => .error .unimplemented
  | .triPrism => .error .unimplemented
  | .line => .error .unimplemented
  | .complex => .error .unimplemented

/-- The comparator of `get_longest_axis`: the second test repeats the first, so it never answers `Greater`.
/repo/lib/bound.rs:92-100 -/
def longestAxisCmp (x y : Axis × Fl K) : Ordering :=
  if Fl.lt x.2 y.2 then .lt else if Fl.lt x.2 y.2 then .gt else .eq

/-- `get_longest_axis`. /repo/lib/bound.rs:85-103 -/
def getLongestAxis (b : AABB (Fl K)) : Res (Axis × Fl K) :=
  let dx := (Axis.X, b.upper[0] - b.lower[0])
  let dy := (Axis.Y, b.upper[1] - b.lower[1])
  let dz := (Axis.Z, b.upper[2] - b.lower[2])
  unwrap (maxBy longestAxisCmp [dx, dy, dz])

/-- `get_bound_data`: 32 slots, of which six are used. /repo/lib/bound.rs:136-145 -/
def getBoundData (b : AABB (Fl K)) : Vector (Fl K) 32 :=
  let arr := Vector.replicate 32 (0 : Fl K)
  let arr := loop 3 arr fun arr i => arr.set i.val b.lower[i.val]
  loop 3 arr fun arr i => arr.set (i.val + 3) b.upper[i.val]

/-- `Default::default`. /repo/lib/bound.rs:185-190 -/
def default : AABB (Fl K) := ⟨#v[Fl.ninf, Fl.ninf, Fl.ninf], #v[Fl.pinf, Fl.pinf, Fl.pinf]⟩

end AABB

namespace IBound

/-- `get_type`. /repo/lib/bound.rs:107-109, /repo/lib/bound_sphere.rs:19-21 -/
def getType {α : Type} : IBound α → BoundType
  | .aabb _ => .axisAlignBox
  | .sphere => .sphere

/-- `get_bound_data`. /repo/lib/bound.rs:136-145, /repo/lib/bound_sphere.rs:28-30 -/
def getBoundData : IBound (Fl K) → Res (Vector (Fl K) 32)
  | .aabb b => .ok b.getBoundData
  | .sphere => .error .unimplemented

/-- `intersect`. The early `return false` is the short-circuit of `all`.
/repo/lib/bound.rs:110-132, /repo/lib/bound_sphere.rs:22-24 -/
def intersect (self other : IBound (Fl K)) : Res Bool :=
  match self with
  | .sphere => .error .unimplemented
  | .aabb _ =>
    match other.getType with
    | .axisAlignBox => do
      let a ← self.getBoundData
      let b ← other.getBoundData
      .ok ((List.finRange 3).all fun i =>
        !(Fl.lt b[i.val + 3] a[i.val] || Fl.lt a[i.val + 3] b[i.val]))
    | .sphere => .error .unimplemented

/-- `get_shortest_separation`. /repo/lib/bound.rs:133-135, /repo/lib/bound_sphere.rs:25-27 -/
def getShortestSeparation (_self _other : IBound (Fl K)) : Res (Fl K) := .error .unimplemented

/-- One iteration of the loop over the slice in `get_union`. /repo/lib/bound.rs:149-163 -/
def unionStep (acc : AABB (Fl K)) (i : IBound (Fl K)) : Res (AABB (Fl K)) :=
  match i.getType with
  | .axisAlignBox => do
    let b ← i.getBoundData
    .ok (loop 3 acc fun s j =>
      ⟨s.lower.set j.val (Fl.fmin s.lower[j.val] b[j.val]),
       s.upper.set j.val (Fl.fmax s.upper[j.val] b[j.val + 3])⟩)
  | .sphere => .error .unimplemented

/-- `get_union`: returns the new value of `*self`; the old bounds are discarded.
/repo/lib/bound.rs:146-164, /repo/lib/bound_sphere.rs:31-33 -/
def getUnion (self : IBound (Fl K)) (bounds : List (IBound (Fl K))) : Res (IBound (Fl K)) :=
  match self with
  | .sphere => .error .unimplemented
  | .aabb _ => do
    let r ← bounds.foldlM unionStep ⟨#v[Fl.pinf, Fl.pinf, Fl.pinf], #v[Fl.ninf, Fl.ninf, Fl.ninf]⟩
    .ok (.aabb r)

/-- `get_centroid`. /repo/lib/bound.rs:165-181, /repo/lib/bound_sphere.rs:34-36 -/
def getCentroid (self : IBound (Fl K)) : Res (Vector (Fl K) 3) :=
  match self.getType with
  | .sphere => .error .unimplemented
  | .axisAlignBox => do
    let b ← self.getBoundData
    .ok #v[(b[0] + b[3]) / Fl.lit 2, (b[1] + b[4]) / Fl.lit 2, (b[2] + b[5]) / Fl.lit 2]

end IBound

/-- `BoundSphere::init`, /repo/lib/bound_sphere.rs:13-15. -/
def BoundSphere.init {α : Type} (_shapeType : ShapeType) (_vals : List α) : IBound α := .sphere

/-- `BoundSphere::default`, /repo/lib/bound_sphere.rs:39-43. -/
def BoundSphere.default {α : Type} : Res (IBound α) := .error .unimplemented

end Mazth
