import Verif.Model.Bound

/-!
# Shapes: `/repo/lib/i_shape.rs`, `point.rs`, `ray.rs`, `sphere.rs`, `plane.rs`, `rbox.rs`, `line.rs`, `triprism.rs`

* `&dyn IShape` is the inductive type `Shape`; trait methods become functions on it.
* All floats are `f64` in the source; the model is generic in the format.
* The mutual dynamic dispatch of `get_intersect` (a point asks the other shape, …) is `Shape.getIntersect` with a fuel
  argument bounding the call depth; running out of fuel is the panic value `diverge`.
* Slices and `Vec<f64>` are lists, indexed with a bounds check.
-/

set_option linter.unusedSectionVars false
set_option autoImplicit false

namespace Mazth

variable {K : Type} [Field K] [LinearOrder K] [Fmt K]

/-- `Mat3x1<f64>`. -/
abbrev V3 (K : Type) := Mat3x1 (Fl K)

/-- `(bool, Option<Mat3x1<f64>>)`, the result of `get_intersect`, /repo/lib/i_shape.rs:26. -/
abbrev Hit (K : Type) := Bool × Option (V3 K)

/-- The literal `0.000001f64` used as default vicinity by every constructor (e.g. /repo/lib/point.rs:23). -/
def defaultVicinity : Fl K := Fl.lit (1 / 1000000)

/-- `Mat3x1 { _val: [d[i], d[i+1], d[i+2]] }` for `d` a slice or `Vec<f64>` (e.g. /repo/lib/ray.rs:62-68). -/
def vecAt (d : List (Fl K)) (i : ℕ) : Res (V3 K) := do
  .ok ⟨#v[← sliceGet d i, ← sliceGet d (i + 1), ← sliceGet d (i + 2)]⟩

/-- `within_vicinity`; the seven implementations are textually identical: /repo/lib/point.rs:90-96,
ray.rs:275-281, sphere.rs:153-159, plane.rs:104-110, rbox.rs:116-122, line.rs:104-110, triprism.rs:404-410. -/
def withinVicinity (vicinity a b : Fl K) : Bool := Fl.le b (a + vicinity) && Fl.le (a - vicinity) b

/-- `Point3`, /repo/lib/point.rs:8-13. -/
structure Point3 (K : Type) where
  ori : V3 K
  bound : AABB (Fl K)
  vicinity : Fl K
  deriving DecidableEq, Repr

/-- `Ray3`, /repo/lib/ray.rs:9-15. -/
structure Ray3 (K : Type) where
  ori : V3 K
  dir : V3 K
  bound : AABB (Fl K)
  vicinity : Fl K
  deriving DecidableEq, Repr

/-- `Sphere`, /repo/lib/sphere.rs:8-14. -/
structure Sphere (K : Type) where
  ori : V3 K
  radius : Fl K
  bound : AABB (Fl K)
  vicinity : Fl K
  deriving DecidableEq, Repr

/-- `Plane`, /repo/lib/plane.rs:8-14. -/
structure Plane (K : Type) where
  offset : V3 K
  normal : V3 K
  bound : AABB (Fl K)
  vicinity : Fl K
  deriving DecidableEq, Repr

/-- `RecBox`, /repo/lib/rbox.rs:8-14. -/
structure RecBox (K : Type) where
  ori : V3 K
  size : Fl K
  bound : AABB (Fl K)
  vicinity : Fl K
  deriving DecidableEq, Repr

/-- `Line3`, /repo/lib/line.rs:8-14. -/
structure Line3 (K : Type) where
  a : V3 K
  b : V3 K
  bound : AABB (Fl K)
  vicinity : Fl K
  deriving DecidableEq, Repr

/-- `TriPrism`, /repo/lib/triprism.rs:12-26. -/
structure TriPrism (K : Type) where
  triBase : Vector (V3 K) 3
  triBase2 : Vector (V3 K) 3
  normalHeight : V3 K
  bound : AABB (Fl K)
  vicinity : Fl K
  deriving DecidableEq, Repr

/-- The implementors of `IShape` in the crate. -/
inductive Shape (K : Type) where
  | point (s : Point3 K)
  | ray (s : Ray3 K)
  | sphere (s : Sphere K)
  | plane (s : Plane K)
  | box (s : RecBox K)
  | triPrism (s : TriPrism K)
  | line (s : Line3 K)
  deriving DecidableEq, Repr

/-! ### Constructors -/

/-- `Point3::init`. /repo/lib/point.rs:16-25 -/
def Point3.init (origin : List (Fl K)) : Res (Point3 K) := do
  assert (origin.length == 3)
  .ok { ori := ← vecAt origin 0
        bound := ← AABB.init .point (origin.take 3)
        vicinity := defaultVicinity }

/-- `Ray3::init`: the stored direction is normalised, the bound is built from the raw direction.
/repo/lib/ray.rs:18-33 -/
def Ray3.init (origin dir : List (Fl K)) : Res (Ray3 K) := do
  assert (origin.length == 3)
  assert (dir.length == 3)
  .ok { ori := ← vecAt origin 0
        dir := ← unwrap (← vecAt dir 0).normalize
        bound := ← AABB.init .ray (origin.take 3 ++ dir.take 3)
        vicinity := defaultVicinity }

/-- `Sphere::init`. /repo/lib/sphere.rs:17-27 -/
def Sphere.init (origin : List (Fl K)) (r : Fl K) : Res (Sphere K) := do
  assert (origin.length == 3)
  .ok { ori := ← vecAt origin 0
        radius := r
        bound := ← AABB.init .sphere (origin.take 3 ++ [r])
        vicinity := defaultVicinity }

/-- `Plane::init`. /repo/lib/plane.rs:17-35 -/
def Plane.init (offset normal : List (Fl K)) : Res (Plane K) := do
  assert (offset.length == 3)
  assert (normal.length == 3)
  .ok { offset := ← vecAt offset 0
        normal := ← unwrap (← vecAt normal 0).normalize
        bound := ← AABB.init .plane (offset.take 3 ++ normal.take 3)
        vicinity := defaultVicinity }

/-- `RecBox::init`. /repo/lib/rbox.rs:17-27 -/
def RecBox.init (origin : List (Fl K)) (size : Fl K) : Res (RecBox K) := do
  assert (origin.length == 3)
  .ok { ori := ← vecAt origin 0
        size := size
        bound := ← AABB.init .box (origin.take 3 ++ [size])
        vicinity := defaultVicinity }

/-- `|a, b| a.partial_cmp(b).unwrap_or(Equal)`, e.g. /repo/lib/line.rs:29. -/
def cmpOrEqual (a b : Fl K) : Ordering := (Fl.partialCmp a b).getD .eq

/-- `*xs.iter().min_by(..).unwrap()`, e.g. /repo/lib/line.rs:27-30. -/
def minOf (xs : List (Fl K)) : Res (Fl K) := unwrap (minBy cmpOrEqual xs)

/-- `*xs.iter().max_by(..).unwrap()`, e.g. /repo/lib/line.rs:31-34. -/
def maxOf (xs : List (Fl K)) : Res (Fl K) := unwrap (maxBy cmpOrEqual xs)

/-- `Line3::init`. /repo/lib/line.rs:17-67 -/
def Line3.init (a b : List (Fl K)) : Res (Line3 K) := do
  assert (a.length == 3)
  assert (b.length == 3)
  let xs := [← sliceGet a 0, ← sliceGet b 0]
  let ys := [← sliceGet a 1, ← sliceGet b 1]
  let zs := [← sliceGet a 2, ← sliceGet b 2]
  let xMin ← minOf xs
  let xMax ← maxOf xs
  let yMin ← minOf ys
  let yMax ← maxOf ys
  let zMin ← minOf zs
  let zMax ← maxOf zs
  .ok { a := ← vecAt a 0
        b := ← vecAt b 0
        bound := ← AABB.init .rect [xMin, yMin, zMin, xMax, yMax, zMax]
        vicinity := defaultVicinity }

/-- `TriPrism::init`. /repo/lib/triprism.rs:30-121 -/
def TriPrism.init (triBase : List (Fl K)) (height : Fl K) : Res (TriPrism K) := do
  assert (triBase.length == 9)
  let v0 ← vecAt triBase 0
  let v1 ← vecAt triBase 3
  let v2 ← vecAt triBase 6
  let d1 ← unwrap (v1.minus v0)
  let d2 ← unwrap (v2.minus v0)
  let normal ← unwrap (← unwrap (d1.cross d2)).normalize
  let hOffset ← unwrap (normal.scale height)
  let v00 ← unwrap (v0.plus hOffset)
  let v11 ← unwrap (v1.plus hOffset)
  let v22 ← unwrap (v2.plus hOffset)
  let base : Vector (V3 K) 3 := #v[v0, v1, v2]
  let base2 : Vector (V3 K) 3 := #v[v00, v11, v22]
  let xs := [base[0].val[0], base[1].val[0], base[2].val[0], base2[0].val[0], base2[1].val[0], base2[2].val[0]]
  let ys := [base[0].val[1], base[1].val[1], base[2].val[1], base2[0].val[1], base2[1].val[1], base2[2].val[1]]
  let zs := [base[0].val[2], base[1].val[2], base[2].val[2], base2[0].val[2], base2[1].val[2], base2[2].val[2]]
  let xMin ← minOf xs
  let xMax ← maxOf xs
  let yMin ← minOf ys
  let yMax ← maxOf ys
  let zMin ← minOf zs
  let zMax ← maxOf zs
  .ok { triBase := base
        triBase2 := base2
        normalHeight := hOffset
        bound := ← AABB.init .rect [xMin, yMin, zMin, xMax, yMax, zMax]
        vicinity := defaultVicinity }

/-- The derived `Default` of `TriPrism`, /repo/lib/triprism.rs:12. -/
def TriPrism.default : TriPrism K :=
  { triBase := #v[Mat3x1.default, Mat3x1.default, Mat3x1.default]
    triBase2 := #v[Mat3x1.default, Mat3x1.default, Mat3x1.default]
    normalHeight := Mat3x1.default
    bound := AABB.default
    vicinity := 0 }

/-! ### Simple trait methods -/

namespace Shape

/-- `get_type`. /repo/lib/point.rs:32-34, ray.rs:47-49, sphere.rs:34-36, plane.rs:49-51, rbox.rs:34-36,
triprism.rs:141-143, line.rs:76-78 -/
def getType : Shape K → ShapeType
  | .point _ => .point
  | .ray _ => .ray
  | .sphere _ => .sphere
  | .plane _ => .plane
  | .box _ => .box
  | .triPrism _ => .triPrism
  | .line _ => .line

/-- `get_shape_data`. /repo/lib/point.rs:29-31, ray.rs:37-46, sphere.rs:31-33, plane.rs:39-48, rbox.rs:31-33,
triprism.rs:125-140, line.rs:71-75 -/
def getShapeData : Shape K → List (Fl K)
  | .point s => [s.ori.val[0], s.ori.val[1], s.ori.val[2]]
  | .ray s => [s.ori.val[0], s.ori.val[1], s.ori.val[2], s.dir.val[0], s.dir.val[1], s.dir.val[2]]
  | .sphere s => [s.ori.val[0], s.ori.val[1], s.ori.val[2], s.radius]
  | .plane s => [s.offset.val[0], s.offset.val[1], s.offset.val[2], s.normal.val[0], s.normal.val[1], s.normal.val[2]]
  | .box s => [s.ori.val[0], s.ori.val[1], s.ori.val[2], s.size]
  | .triPrism s =>
    [s.triBase[0].val[0], s.triBase[0].val[1], s.triBase[0].val[2],
     s.triBase[1].val[0], s.triBase[1].val[1], s.triBase[1].val[2],
     s.triBase[2].val[0], s.triBase[2].val[1], s.triBase[2].val[2],
     s.normalHeight.val[0], s.normalHeight.val[1], s.normalHeight.val[2]]
  | .line s => [s.a.val[0], s.a.val[1], s.a.val[2], s.b.val[0], s.b.val[1], s.b.val[2]]

/-- `get_bound`. /repo/lib/point.rs:35-37, ray.rs:50-52, sphere.rs:37-39, plane.rs:52-54, rbox.rs:37-39,
triprism.rs:144-146, line.rs:79-81 -/
def getBound : Shape K → IBound (Fl K)
  | .point s => .aabb s.bound
  | .ray s => .aabb s.bound
  | .sphere s => .aabb s.bound
  | .plane s => .aabb s.bound
  | .box s => .aabb s.bound
  | .triPrism s => .aabb s.bound
  | .line s => .aabb s.bound

/-- `set_vicinity`. /repo/lib/point.rs:87-89, ray.rs:272-274, sphere.rs:150-152, plane.rs:101-103, rbox.rs:113-115,
triprism.rs:401-403, line.rs:101-103 -/
def setVicinity (e : Fl K) : Shape K → Shape K
  | .point s => .point { s with vicinity := Fl.abs e }
  | .ray s => .ray { s with vicinity := Fl.abs e }
  | .sphere s => .sphere { s with vicinity := Fl.abs e }
  | .plane s => .plane { s with vicinity := Fl.abs e }
  | .box s => .box { s with vicinity := Fl.abs e }
  | .triPrism s => .triPrism { s with vicinity := Fl.abs e }
  | .line s => .line { s with vicinity := Fl.abs e }

/-- The field `_vicinity`. -/
def vicinity : Shape K → Fl K
  | .point s => s.vicinity
  | .ray s => s.vicinity
  | .sphere s => s.vicinity
  | .plane s => s.vicinity
  | .box s => s.vicinity
  | .triPrism s => s.vicinity
  | .line s => s.vicinity

end Shape

/-! ### `get_intersect`

`rec self other` stands for a dynamically dispatched call `self.get_intersect(other)`. -/

/-- `Point3::get_intersect`. /repo/lib/point.rs:39-80 -/
def Point3.getIntersect (rec : Shape K → Shape K → Res (Hit K)) (self : Point3 K) (other : Shape K) :
    Res (Hit K) := do
  if !(← (Shape.point self).getBound.intersect other.getBound) then return (false, none)
  match other.getType with
  | .point => do
    let d := other.getShapeData
    if !withinVicinity self.vicinity self.ori.val[0] (← sliceGet d 0) ||
       !withinVicinity self.vicinity self.ori.val[1] (← sliceGet d 1) ||
       !withinVicinity self.vicinity self.ori.val[2] (← sliceGet d 2) then
      .ok (false, none)
    else .ok (true, some self.ori)
  | .ray => rec other (.point self)
  | .sphere => rec other (.point self)
  | .plane => rec other (.point self)
  | .box => rec other (.point self)
  | .triPrism => rec other (.point self)
  | _ => .error .unimplemented

/-- Branch `ShapeType::Ray` of `Ray3::get_intersect`. /repo/lib/ray.rs:59-140 -/
def Ray3.intersectRay (self : Ray3 K) (d0 : List (Fl K)) : Res (Hit K) := do
  let aDir := self.dir
  let bDir ← vecAt d0 3
  let aOff := self.ori
  let bOff ← vecAt d0 0
  let c ← unwrap (bDir.minus aDir)
  let v ← unwrap (aDir.cross bDir)
  let dotVC ← unwrap (v.dot c)
  if !withinVicinity self.vicinity dotVC 0 then return (false, none)
  let zero : V3 K := Mat3x1.default
  let d ← unwrap (bOff.minus aOff)
  if ← unwrap (v.isEqual zero (Fl.lit (1 / 10000))) then
    let point1 := aDir
    let point2 ← unwrap (bOff.minus aOff)
    let triangleArea ← unwrap (← unwrap (point1.cross point2)).magnitude
    if !withinVicinity self.vicinity triangleArea 0 then return (false, none)
    else
      let direction : Fl K := if Fl.lt (← unwrap (d.dot aDir)) 0 then -1 else 1
      let distance := direction * (← unwrap d.magnitude) / (← unwrap aDir.magnitude)
      if Fl.lt distance 0 then return (true, some aOff)
      else return (true, some (← unwrap ((← unwrap (self.dir.scale distance)).plus self.ori)))
  else
    let numerator ← unwrap (d.cross bDir)
    let t := (← unwrap numerator.magnitude) / (← unwrap v.magnitude)
    if Fl.lt t 0 then return (false, none)
    else return (true, some (← unwrap ((← unwrap (self.dir.scale t)).plus self.ori)))

/-- Branch `ShapeType::Point` of `Ray3::get_intersect`. /repo/lib/ray.rs:141-165 -/
def Ray3.intersectPoint (self : Ray3 K) (d0 : List (Fl K)) : Res (Hit K) := do
  let bOff ← vecAt d0 0
  let aDir := self.dir
  let aOff := self.ori
  let t ← unwrap ((← unwrap (bOff.minus aOff)).div aDir)
  if !withinVicinity self.vicinity t.val[0] t.val[1] || !withinVicinity self.vicinity t.val[1] t.val[2] then
    return (false, none)
  else if Fl.le 0 t.val[0] then
    return (true, some (← unwrap ((← unwrap (aDir.scale t.val[0])).plus aOff)))
  else return (false, none)

/-- Branch `ShapeType::Sphere` of `Ray3::get_intersect`. /repo/lib/ray.rs:166-213 -/
def Ray3.intersectSphere (self : Ray3 K) (d0 : List (Fl K)) : Res (Hit K) := do
  let bOff ← vecAt d0 0
  let bR ← sliceGet d0 3
  let aDir := self.dir
  let aOff := self.ori
  let relativeOffset ← unwrap (aOff.minus bOff)
  let b ← unwrap (relativeOffset.dot aDir)
  let c := (← unwrap (relativeOffset.dot relativeOffset)) - bR * bR
  if Fl.lt 0 b && Fl.lt 0 c then return (false, none)
  let d := b * b - c
  if Fl.lt d 0 then return (false, none)
  let t1 := -b - Fl.sqrt d
  let t2 := -b + Fl.sqrt d
  let t := if Fl.lt t1 0 then t2 else if Fl.lt t2 0 then t1 else if Fl.lt t1 t2 then t1 else t2
  return (true, some (← unwrap ((← unwrap (aDir.scale t)).plus aOff)))

/-- Branch `ShapeType::Plane` of `Ray3::get_intersect`. /repo/lib/ray.rs:214-259 -/
def Ray3.intersectPlane (self : Ray3 K) (d0 : List (Fl K)) : Res (Hit K) := do
  let bOff ← vecAt d0 0
  let bNor ← vecAt d0 3
  let constant ← unwrap (bOff.dot bNor)
  let numerator := constant - (← unwrap (bNor.dot self.ori))
  let denominator ← unwrap (bNor.dot self.dir)
  if Fl.feq denominator 0 then
    if Fl.feq constant (← unwrap (self.ori.dot bNor)) then return (true, some self.ori)
    else return (false, none)
  else if Fl.lt 0 denominator then return (false, none)
  let t := numerator / denominator
  if Fl.lt t 0 then return (false, none)
  return (true, some (← unwrap ((← unwrap (self.dir.scale t)).plus self.ori)))

/-- `Ray3::get_intersect`. /repo/lib/ray.rs:54-265 -/
def Ray3.getIntersect (self : Ray3 K) (other : Shape K) : Res (Hit K) := do
  if !(← (Shape.ray self).getBound.intersect other.getBound) then return (false, none)
  match other.getType with
  | .ray => self.intersectRay other.getShapeData
  | .point => self.intersectPoint other.getShapeData
  | .sphere => self.intersectSphere other.getShapeData
  | .plane => self.intersectPlane other.getShapeData
  | _ => .error .unimplemented

/-- Branch `ShapeType::Sphere` of `Sphere::get_intersect`. /repo/lib/sphere.rs:46-69 -/
def Sphere.intersectSphere (self : Sphere K) (d0 : List (Fl K)) : Res (Hit K) := do
  let bOff ← vecAt d0 0
  let aR := self.radius
  let bR ← sliceGet d0 3
  let aOff := self.ori
  let c ← unwrap (bOff.minus aOff)
  let d ← unwrap c.magnitude
  if Fl.lt (bR + aR) d then return (false, none)
  else
    let f := aR / (aR + bR)
    let g ← unwrap (c.scale f)
    return (true, some (← unwrap (aOff.plus g)))

/-- Branch `ShapeType::Point` of `Sphere::get_intersect`; the early return of the loop over the coordinates is the
short-circuit of `any`. /repo/lib/sphere.rs:74-90 -/
def Sphere.intersectPoint (self : Sphere K) (d0 : List (Fl K)) : Res (Hit K) := do
  let bOff ← vecAt d0 0
  let d ← unwrap (bOff.minus self.ori)
  if (List.finRange 3).any fun i => Fl.lt self.radius d.val[i.val] then return (false, none)
  return (true, some bOff)

/-- Branch `ShapeType::Plane` of `Sphere::get_intersect`. /repo/lib/sphere.rs:91-124 -/
def Sphere.intersectPlane (self : Sphere K) (d0 : List (Fl K)) : Res (Hit K) := do
  let bOff ← vecAt d0 0
  let bNor ← vecAt d0 3
  let k ← unwrap (bNor.dot bOff)
  let t := (← unwrap (bNor.dot self.ori)) - k
  if Fl.lt self.radius t then return (false, none)
  else return (true, some (← unwrap ((← unwrap (bNor.scale (-t))).plus self.ori)))

/-- `Sphere::get_intersect`. /repo/lib/sphere.rs:41-130 -/
def Sphere.getIntersect (rec : Shape K → Shape K → Res (Hit K)) (self : Sphere K) (other : Shape K) :
    Res (Hit K) := do
  if !(← (Shape.sphere self).getBound.intersect other.getBound) then return (false, none)
  match other.getType with
  | .sphere => self.intersectSphere other.getShapeData
  | .ray => rec other (.sphere self)
  | .point => self.intersectPoint other.getShapeData
  | .plane => self.intersectPlane other.getShapeData
  | _ => .error .unimplemented

/-- Branch `ShapeType::Point` of `Plane::get_intersect`. /repo/lib/plane.rs:72-88 -/
def Plane.intersectPoint (self : Plane K) (d0 : List (Fl K)) : Res (Hit K) := do
  let bOff ← vecAt d0 0
  let k ← unwrap (self.normal.dot self.offset)
  let c ← unwrap (self.normal.dot bOff)
  let d := k - c
  if !withinVicinity self.vicinity d 0 then return (false, none)
  return (true, some bOff)

/-- `Plane::get_intersect`. /repo/lib/plane.rs:56-94 -/
def Plane.getIntersect (rec : Shape K → Shape K → Res (Hit K)) (self : Plane K) (other : Shape K) :
    Res (Hit K) := do
  if !(← (Shape.plane self).getBound.intersect other.getBound) then return (false, none)
  match other.getType with
  | .plane => .error .unimplemented
  | .ray => rec other (.plane self)
  | .sphere => rec other (.plane self)
  | .point => self.intersectPoint other.getShapeData
  | _ => .error .unimplemented

/-- `RecBox::get_intersect`. /repo/lib/rbox.rs:41-63 -/
def RecBox.getIntersect (self : RecBox K) (other : Shape K) : Res (Hit K) := do
  if !(← (Shape.box self).getBound.intersect other.getBound) then return (false, none)
  match other.getType with
  | .point => do return (true, some (← vecAt other.getShapeData 0))
  | _ => .error .unimplemented

/-- `Line3::get_intersect`. /repo/lib/line.rs:83-94 -/
def Line3.getIntersect (rec : Shape K → Shape K → Res (Hit K)) (self : Line3 K) (other : Shape K) :
    Res (Hit K) := do
  if !(← (Shape.line self).getBound.intersect other.getBound) then return (false, none)
  match other.getType with
  | .triPrism => rec other (.line self)
  | _ => .error .unimplemented

namespace TriPrism

/-- The five (vertex, outward normal) pairs `tests`. /repo/lib/triprism.rs:165-194 and again 225-254 -/
def tests (self : TriPrism K) : Res (List (V3 K × V3 K)) := do
  let n := self.normalHeight
  .ok [(self.triBase[0], ← unwrap (n.scale (-1))),
       (self.triBase2[0], n),
       (self.triBase[0], ← unwrap ((← unwrap (self.triBase[1].minus self.triBase[0])).cross n)),
       (self.triBase[1], ← unwrap ((← unwrap (self.triBase[2].minus self.triBase[1])).cross n)),
       (self.triBase[2], ← unwrap ((← unwrap (self.triBase[0].minus self.triBase[2])).cross n))]

/-- `tests.iter().all(|(vert, normal)| !(p.minus(vert).dot(normal) > 0.))`.
/repo/lib/triprism.rs:196-198, 256-261, 346-348 -/
def allInside (ts : List (V3 K × V3 K)) (p : V3 K) : Res Bool :=
  ts.allM fun vn => do .ok (!Fl.lt 0 (← unwrap ((← unwrap (p.minus vn.1)).dot vn.2)))

/-- Branch `ShapeType::Point` of `TriPrism::get_intersect`. /repo/lib/triprism.rs:153-205 -/
def intersectPoint (self : TriPrism K) (d0 : List (Fl K)) : Res (Hit K) := do
  let otherPoint ← vecAt d0 0
  let ts ← self.tests
  if ← allInside ts otherPoint then return (true, some otherPoint)
  else return (false, none)

/-- `&[v[0], v[1], v[2]]`. -/
def toList (v : V3 K) : List (Fl K) := [v.val[0], v.val[1], v.val[2]]

/-- The five facet planes. /repo/lib/triprism.rs:276-335 -/
def facets (self : TriPrism K) : Res (List (Plane K)) := do
  let n1 := self.normalHeight
  let n0 ← unwrap (n1.scale (-1))
  let n2 ← unwrap ((← unwrap (self.triBase[1].minus self.triBase[0])).cross n1)
  let n3 ← unwrap ((← unwrap (self.triBase[2].minus self.triBase[1])).cross n1)
  let n4 ← unwrap ((← unwrap (self.triBase[0].minus self.triBase[2])).cross n1)
  .ok [← Plane.init (toList self.triBase[0]) (toList n0),
       ← Plane.init (toList self.triBase2[0]) (toList n1),
       ← Plane.init (toList self.triBase[0]) (toList n2),
       ← Plane.init (toList self.triBase[1]) (toList n3),
       ← Plane.init (toList self.triBase[2]) (toList n4)]

/-- The loop over the facets; `break` with a hit is the early return. /repo/lib/triprism.rs:337-364 -/
def facetLoop (r : Ray3 K) (ts : List (V3 K × V3 K)) (a : V3 K) (mag : Fl K) : List (Plane K) → Res (Hit K)
  | [] => .ok (false, none)
  | i :: rest => do
    let res ← r.getIntersect (.plane i)
    if res.1 then
      let collidePoint ← unwrap res.2
      let mag2 ← unwrap (← unwrap (collidePoint.minus a)).magnitude
      let isPointInside ← allInside ts collidePoint
      if !isPointInside || Fl.lt mag mag2 then facetLoop r ts a mag rest
      else .ok (true, res.2)
    else facetLoop r ts a mag rest

/-- Branch `ShapeType::Line` of `TriPrism::get_intersect`. /repo/lib/triprism.rs:206-365 -/
def intersectLine (self : TriPrism K) (d0 : List (Fl K)) : Res (Hit K) := do
  let a ← vecAt d0 0
  let b ← vecAt d0 3
  let ts ← self.tests
  let aIsInside ← allInside ts a
  let bIsInside ← allInside ts b
  if aIsInside then return (true, some a)
  else if bIsInside then return (true, some b)
  let v ← unwrap (b.minus a)
  let mag ← unwrap v.magnitude
  let r ← Ray3.init (toList a) (toList v)
  let fs ← self.facets
  facetLoop r ts a mag fs

/-- `TriPrism::get_intersect`. /repo/lib/triprism.rs:148-371 -/
def getIntersect (self : TriPrism K) (other : Shape K) : Res (Hit K) := do
  if !(← (Shape.triPrism self).getBound.intersect other.getBound) then return (false, none)
  match other.getType with
  | .point => self.intersectPoint other.getShapeData
  | .line => self.intersectLine other.getShapeData
  | _ => .error .unimplemented

end TriPrism

/-- `IShape::get_intersect` by dynamic dispatch, /repo/lib/i_shape.rs:26. The first argument bounds the call depth. -/
def Shape.getIntersect : ℕ → Shape K → Shape K → Res (Hit K)
  | 0, _, _ => .error .diverge
  | n + 1, .point s, o => s.getIntersect (Shape.getIntersect n) o
  | _ + 1, .ray s, o => s.getIntersect o
  | n + 1, .sphere s, o => s.getIntersect (Shape.getIntersect n) o
  | n + 1, .plane s, o => s.getIntersect (Shape.getIntersect n) o
  | _ + 1, .box s, o => s.getIntersect o
  | _ + 1, .triPrism s, o => s.getIntersect o
  | n + 1, .line s, o => s.getIntersect (Shape.getIntersect n) o

/-! ### `get_support` -/

/-- `v.magnitude() != Some(0f64)`, e.g. /repo/lib/sphere.rs:132. -/
def magnitudeNonzero (v : V3 K) : Bool :=
  match v.magnitude with
  | some m => !Fl.feq m 0
  | none => true

/-- `Iterator::max_by` with a comparator that may panic. -/
def maxByM {β : Type} (cmp : β → β → Res Ordering) : List β → Res (Option β)
  | [] => .ok none
  | x :: xs => do
    .ok (some (← xs.foldlM (fun acc y => do if (← cmp acc y) = .gt then .ok acc else .ok y) x))

/-- `points.iter().map(|x| x.dot(v).unwrap()).enumerate().max_by(|a, b| a.1.partial_cmp(&b.1).unwrap()).unwrap()`
followed by taking the point at the found position. /repo/lib/rbox.rs:94-104, triprism.rs:384-391 -/
def furthest (points : List (V3 K)) (v : V3 K) : Res (V3 K) := do
  let dots ← points.mapM fun x => unwrap (x.dot v)
  let best ← unwrap (← maxByM (fun a b => unwrap (Fl.partialCmp a.1 b.1)) dots.zipIdx)
  sliceGet points best.2

/-- `Sphere::get_support`. /repo/lib/sphere.rs:131-146 -/
def Sphere.getSupport (self : Sphere K) (v : V3 K) : Res (Option (V3 K)) := do
  if magnitudeNonzero v then
    let vAdjusted ← unwrap ((← unwrap v.normalize).scale self.radius)
    let o ← unwrap (self.ori.plus vAdjusted)
    return some o
  else return none

/-- The eight corner offsets. /repo/lib/rbox.rs:67-92 -/
def RecBox.corners (self : RecBox K) : List (V3 K) :=
  [⟨#v[self.size, self.size, self.size]⟩,
   ⟨#v[-self.size, self.size, self.size]⟩,
   ⟨#v[self.size, -self.size, self.size]⟩,
   ⟨#v[-self.size, -self.size, self.size]⟩,
   ⟨#v[self.size, self.size, -self.size]⟩,
   ⟨#v[-self.size, self.size, -self.size]⟩,
   ⟨#v[self.size, -self.size, -self.size]⟩,
   ⟨#v[-self.size, -self.size, -self.size]⟩]

/-- `RecBox::get_support`. /repo/lib/rbox.rs:64-109 -/
def RecBox.getSupport (self : RecBox K) (v : V3 K) : Res (Option (V3 K)) := do
  if magnitudeNonzero v then
    let p ← furthest self.corners v
    let o ← unwrap (self.ori.plus p)
    return some o
  else return none

/-- `TriPrism::get_support`. /repo/lib/triprism.rs:372-397 -/
def TriPrism.getSupport (self : TriPrism K) (v : V3 K) : Res (Option (V3 K)) := do
  if magnitudeNonzero v then
    let o ← furthest [self.triBase[0], self.triBase[1], self.triBase[2],
      self.triBase2[0], self.triBase2[1], self.triBase2[2]] v
    return some o
  else return none

/-- `IShape::get_support` by dynamic dispatch; the constant implementations are /repo/lib/point.rs:81-83, ray.rs:266-268,
plane.rs:95-97, line.rs:95-97. -/
def Shape.getSupport (s : Shape K) (v : V3 K) : Res (Option (V3 K)) :=
  match s with
  | .point p => .ok (some p.ori)
  | .ray _ => .ok none
  | .sphere p => p.getSupport v
  | .plane _ => .ok none
  | .box p => p.getSupport v
  | .triPrism p => p.getSupport v
  | .line _ => .error .unimplemented

end Mazth
