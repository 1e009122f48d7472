import Verif.Float.Binary
import Verif.Model.Shapes
import Verif.Model.Gjk

/-!
The crate's own shape tests (`/repo/lib/test/test_bound.rs`, `test_intersect_*.rs`), run on the model in binary64.

These are checks of the *model*, not of any property: each assertion of a Rust test is evaluated by the kernel on the executable
format `Q64` (round to nearest even on binary64), with the same literals, and must hold.  A test that the crate passes and the
model fails would show that the model departs from the code.  Nothing in `Verif/Props` depends on this file.
-/

set_option autoImplicit false
set_option linter.unusedSectionVars false

namespace Mazth.Conformance

/-- a decimal literal `n / 10^k` of the Rust source, rounded to binary64 -/
def dec (n : ℤ) (k : ℕ := 0) : Fl Q64 := Fl.lit ((n : ℚ) / (10 ^ k : ℕ) : ℚ)

def vec (x y z : Fl Q64) : V3 Q64 := ⟨#v[x, y, z]⟩

/-- `a.get_intersect(&b)` with both shapes built by their constructors; the answer must satisfy the predicate -/
def query (a b : Res (Shape Q64)) (ok : Hit Q64 → Bool) : Bool :=
  match (do let a ← a; let b ← b; Shape.getIntersect 2 a b) with
  | .ok h => ok h
  | _ => false

/-- `(true, Some(loc)) => assert!(loc.is_equal(&p, 0.0001f64).unwrap())`, anything else panics -/
def hitAt (p : V3 Q64) : Hit Q64 → Bool
  | (true, some loc) => loc.isEqual p (dec 1 4) == some true
  | _ => false

/-- `(true, Some(_)) => {}`, anything else panics -/
def hit : Hit Q64 → Bool
  | (true, some _) => true
  | _ => false

/-- `(false, None) => ()`, anything else panics -/
def miss : Hit Q64 → Bool
  | (false, none) => true
  | _ => false

def point (x y z : Fl Q64) : Res (Shape Q64) := do return .point (← Point3.init [x, y, z])
def ray (x y z a b c : Fl Q64) : Res (Shape Q64) := do return .ray (← Ray3.init [x, y, z] [a, b, c])
def sphere (x y z r : Fl Q64) : Res (Shape Q64) := do return .sphere (← Sphere.init [x, y, z] r)
def plane (x y z a b c : Fl Q64) : Res (Shape Q64) := do return .plane (← Plane.init [x, y, z] [a, b, c])
def box (x y z r : Fl Q64) : Res (Shape Q64) := do return .box (← RecBox.init [x, y, z] r)
def line (x y z a b c : Fl Q64) : Res (Shape Q64) := do return .line (← Line3.init [x, y, z] [a, b, c])
/-- the prism used by every prism test: `TriPrism::init(&[0., 0., 0., 1., 0., 0., 1., 1., 0.], 1.)` -/
def prism : Res (Shape Q64) := do
  return .triPrism (← TriPrism.init [dec 0, dec 0, dec 0, dec 1, dec 0, dec 0, dec 1, dec 1, dec 0] (dec 1))

/-! ### test_bound.rs -/

def aabb (a b c x y z : ℤ) : AABB (Fl Q64) := ⟨#v[dec a, dec b, dec c], #v[dec x, dec y, dec z]⟩

/-- `a.intersect(&b) == r` -/
def overlap (a b : AABB (Fl Q64)) (r : Bool) : Bool :=
  match (IBound.aabb a).intersect (.aabb b) with
  | .ok x => x == r
  | _ => false

/-- `==` on every component of the two corners -/
def corners (r : Res (IBound (Fl Q64))) (b : AABB (Fl Q64)) : Bool :=
  match r with
  | .ok (.aabb u) => (List.finRange 3).all fun i => Fl.feq u.lower[i] b.lower[i] && Fl.feq u.upper[i] b.upper[i]
  | _ => false

example : overlap (aabb 0 0 0 10 20 30) (aabb 0 0 0 10 20 30) true = true := by decide +kernel
example : overlap (aabb 0 0 0 10 20 30) (aabb 10 20 30 20 30 40) true = true := by decide +kernel
example : overlap (aabb 10 20 30 20 30 40) (aabb 0 0 0 10 20 30) true = true := by decide +kernel
example : overlap (aabb 0 0 0 10 20 30) (aabb 11 21 31 20 30 40) false = true := by decide +kernel
example : overlap (aabb 0 0 0 10 20 30) (aabb 9 19 31 20 30 40) false = true := by decide +kernel
example : overlap (aabb 9 19 31 20 30 40) (aabb 0 0 0 10 20 30) false = true := by decide +kernel
example : corners ((IBound.aabb AABB.default).getUnion [.aabb (aabb 0 (-9) (-18) 10 20 40), .aabb (aabb 9 (-20) 31 20 30 10)])
    (aabb 0 (-20) (-18) 20 30 40) = true := by decide +kernel

/-! ### test_intersect_box_point.rs -/
example : query (point (dec (-99) 1) (dec 99 1) (dec 99 1)) (box (dec 0) (dec 0) (dec 0) (dec 10))
    (hitAt (vec (dec (-99) 1) (dec 99 1) (dec 99 1))) = true := by decide +kernel
example : query (point (dec (-99) 1) (dec 99 1) (dec (-101) 1)) (box (dec 0) (dec 0) (dec 0) (dec 10)) miss = true := by
  decide +kernel

/-! ### test_intersect_plane_point.rs -/
example : query (point (dec 2) (dec 1) (dec 2)) (plane (dec 1) (dec 1) (dec 1) (dec 0) (dec 1) (dec 0))
    (hitAt (vec (dec 2) (dec 1) (dec 2))) = true := by decide +kernel
example : query (plane (dec 1) (dec 1) (dec 1) (dec 0) (dec 1) (dec 0)) (point (dec 2) (dec 1) (dec 2))
    (hitAt (vec (dec 2) (dec 1) (dec 2))) = true := by decide +kernel
example : query (point (dec 2) (dec 105 2) (dec 2)) (plane (dec 1) (dec 1) (dec 1) (dec 0) (dec 1) (dec 0)) miss = true := by
  decide +kernel
example : query (point (dec 2) (dec 99 2) (dec 2)) (plane (dec 1) (dec 1) (dec 1) (dec 0) (dec 1) (dec 0)) miss = true := by
  decide +kernel

/-! ### test_intersect_point_point.rs -/
example : query (point (dec 25) (dec 5) (dec 5)) (point (dec 25) (dec 5) (dec 5)) (hitAt (vec (dec 25) (dec 5) (dec 5))) = true := by
  decide +kernel
example : query (point (dec 25) (dec 5) (dec 5)) (point (dec 251 1) (dec 5) (dec 5)) miss = true := by decide +kernel

/-! ### test_intersect_ray_plane.rs -/
example : query (ray (dec 5) (dec 5) (dec 5) (dec (-1)) (dec (-1)) (dec (-1))) (plane (dec 1) (dec 1) (dec 1) (dec 0) (dec 1) (dec 0))
    (hitAt (vec (dec 1) (dec 1) (dec 1))) = true := by decide +kernel
example : query (ray (dec 0) (dec 0) (dec 0) (dec 1) (dec 1) (dec 1)) (plane (dec 1) (dec 1) (dec 1) (dec 0) (dec 1) (dec 0)) miss = true := by
  decide +kernel
example : query (ray (dec 5) (dec 5) (dec 5) (dec 1) (dec 0) (dec 1)) (plane (dec 1) (dec 1) (dec 1) (dec 0) (dec 1) (dec 0)) miss = true := by
  decide +kernel
example : query (ray (dec 1) (dec 1) (dec 1) (dec 1) (dec 0) (dec 1)) (plane (dec 1) (dec 1) (dec 1) (dec 0) (dec 1) (dec 0))
    (hitAt (vec (dec 1) (dec 1) (dec 1))) = true := by decide +kernel

/-! ### test_intersect_ray_point.rs -/
example : query (ray (dec 20) (dec 0) (dec 0) (dec 1) (dec 1) (dec 1)) (point (dec 25) (dec 5) (dec 5))
    (hitAt (vec (dec 25) (dec 5) (dec 5))) = true := by decide +kernel
example : query (ray (dec 20) (dec 0) (dec 0) (dec 1) (dec 1) (dec 1)) (point (dec 15) (dec (-5)) (dec (-5))) miss = true := by
  decide +kernel
example : query (ray (dec 20) (dec 0) (dec 0) (dec 1) (dec 1) (dec 1)) (point (dec 25) (dec 5) (dec 51 1)) miss = true := by
  decide +kernel
example : query (point (dec 25) (dec 5) (dec 5)) (ray (dec 20) (dec 0) (dec 0) (dec 1) (dec 1) (dec 1))
    (hitAt (vec (dec 25) (dec 5) (dec 5))) = true := by decide +kernel
example : query (point (dec 15) (dec (-5)) (dec (-5))) (ray (dec 20) (dec 0) (dec 0) (dec 1) (dec 1) (dec 1)) miss = true := by
  decide +kernel
example : query (point (dec 25) (dec 5) (dec 51 1)) (ray (dec 20) (dec 0) (dec 0) (dec 1) (dec 1) (dec 1)) miss = true := by
  decide +kernel

/-! ### test_intersect_ray_ray.rs -/
example : query (ray (dec 20) (dec 0) (dec 0) (dec 1) (dec 1) (dec 1)) (ray (dec 25) (dec 0) (dec 0) (dec 1) (dec 1) (dec 1)) miss = true := by
  decide +kernel
example : query (ray (dec 20) (dec 0) (dec 0) (dec 1) (dec 1) (dec 1)) (ray (dec 22) (dec 2) (dec 2) (dec 1) (dec 1) (dec 1))
    (hitAt (vec (dec 22) (dec 2) (dec 2))) = true := by decide +kernel
example : query (ray (dec 25) (dec 5) (dec 5) (dec 1) (dec 1) (dec 1)) (ray (dec 22) (dec 2) (dec 2) (dec 1) (dec 1) (dec 1))
    (hitAt (vec (dec 25) (dec 5) (dec 5))) = true := by decide +kernel
example : query (ray (dec 5) (dec 5) (dec 0) (dec (-1)) (dec 0) (dec 0)) (ray (dec 0) (dec 0) (dec 0) (dec 0) (dec 1) (dec 0))
    (hitAt (vec (dec 0) (dec 5) (dec 0))) = true := by decide +kernel
example : query (ray (dec 5) (dec 5) (dec 2) (dec (-1)) (dec (-1)) (dec 0)) (ray (dec 5) (dec 5) (dec 0) (dec 1) (dec 1) (dec 0)) miss = true := by
  decide +kernel

/-! ### test_intersect_ray_sphere.rs -/
example : query (ray (dec 5) (dec 0) (dec 0) (dec 1) (dec 0) (dec 0)) (sphere (dec 20) (dec 0) (dec 0) (dec 5))
    (hitAt (vec (dec 15) (dec 0) (dec 0))) = true := by decide +kernel
example : query (ray (dec 5) (dec 0) (dec 0) (dec (-1)) (dec 0) (dec 0)) (sphere (dec 20) (dec 0) (dec 0) (dec 5)) miss = true := by
  decide +kernel
example : query (ray (dec 30) (dec 10) (dec 10) (dec (-1)) (dec 0) (dec 0)) (sphere (dec 20) (dec 10) (dec 10) (dec 5))
    (hitAt (vec (dec 25) (dec 10) (dec 10))) = true := by decide +kernel
/-- `let c = (25f64 / 3f64).sqrt()` -/
def c253 : Fl Q64 := Fl.sqrt (dec 25 / dec 3)
example : query (ray (dec 30) (dec 10) (dec 10) (dec (-1)) (dec (-1)) (dec (-1))) (sphere (dec 20) (dec 0) (dec 0) (dec 5))
    (hitAt (vec (dec 20 + c253) (dec 0 + c253) (dec 0 + c253))) = true := by decide +kernel
example : query (ray (dec 30) (dec 10) (dec 10) (dec (-1)) (dec 0) (dec (-1))) (sphere (dec 20) (dec 0) (dec 0) (dec 5)) miss = true := by
  decide +kernel

/-! ### test_intersect_sphere_plane.rs -/
example : query (sphere (dec 10) (dec 0) (dec 0) (dec 5)) (plane (dec 5) (dec 0) (dec 0) (dec 1) (dec 0) (dec 0))
    (hitAt (vec (dec 5) (dec 0) (dec 0))) = true := by decide +kernel
example : query (sphere (dec 8) (dec 4) (dec 6) (dec 5)) (plane (dec 5) (dec 0) (dec 0) (dec 1) (dec 0) (dec 0))
    (hitAt (vec (dec 5) (dec 4) (dec 6))) = true := by decide +kernel
example : query (sphere (dec 10) (dec 4) (dec 6) (dec 5)) (plane (dec 10) (dec 4) (dec 6) (dec 1) (dec 1) (dec 1))
    (hitAt (vec (dec 10) (dec 4) (dec 6))) = true := by decide +kernel
example : query (sphere (dec 101 1) (dec 4) (dec 6) (dec 5)) (plane (dec 5) (dec 0) (dec 0) (dec 1) (dec 0) (dec 0)) miss = true := by
  decide +kernel

/-! ### test_intersect_sphere_point.rs -/
example : query (sphere (dec 10) (dec 0) (dec 0) (dec 5)) (point (dec 8) (dec 2) (dec 3)) (hitAt (vec (dec 8) (dec 2) (dec 3))) = true := by
  decide +kernel
example : query (sphere (dec 10) (dec 0) (dec 0) (dec 5)) (point (dec 10) (dec 5) (dec 0)) (hitAt (vec (dec 10) (dec 5) (dec 0))) = true := by
  decide +kernel
example : query (sphere (dec 10) (dec 0) (dec 0) (dec 5)) (point (dec 0) (dec 51 1) (dec 0)) miss = true := by decide +kernel

/-! ### test_intersect_sphere_sphere.rs -/
example : query (sphere (dec 10) (dec 0) (dec 0) (dec 5)) (sphere (dec 20) (dec 0) (dec 0) (dec 5)) (hitAt (vec (dec 15) (dec 0) (dec 0))) = true := by
  decide +kernel
example : query (sphere (dec 10) (dec 0) (dec 0) (dec 5)) (sphere (dec 13) (dec 4) (dec 0) (dec 5)) (hitAt (vec (dec 115 1) (dec 2) (dec 0))) = true := by
  decide +kernel
example : query (sphere (dec 10) (dec 0) (dec 0) (dec 5)) (sphere (dec 20) (dec 1 1) (dec 0) (dec 5)) miss = true := by decide +kernel

/-! ### test_intersect_triprism_line.rs -/
example : query prism (line (dec 25 2) (dec 25 2) (dec 0) (dec 1) (dec 1) (dec 0)) hit = true := by decide +kernel
example : query prism (line (dec 5 1) (dec (-50)) (dec 0) (dec 5 1) (dec 50) (dec 0)) hit = true := by decide +kernel
example : query prism (line (dec 25 2) (dec 25 2) (dec 5 1) (dec 26 2) (dec 26 2) (dec 5 1)) hit = true := by decide +kernel
example : query (line (dec 25 2) (dec 25 2) (dec 0) (dec 1) (dec 1) (dec 0)) prism hit = true := by decide +kernel
example : query (line (dec 5 1) (dec (-50)) (dec 0) (dec 5 1) (dec 50) (dec 0)) prism hit = true := by decide +kernel
example : query (line (dec 25 2) (dec 25 2) (dec 5 1) (dec 26 2) (dec 26 2) (dec 5 1)) prism hit = true := by decide +kernel
example : query prism (line (dec 25 2) (dec 25 2) (dec 15 1) (dec 1) (dec 1) (dec 15 1)) (fun h => !hit h) = true := by decide +kernel
example : query prism (line (dec 0) (dec (-5)) (dec 5 1) (dec 50) (dec 45) (dec 5 1)) (fun h => !hit h) = true := by decide +kernel

/-! ### test_intersect_triprism_point.rs -/
example : query prism (point (dec 25 2) (dec 25 2) (dec 0)) (hitAt (vec (dec 25 2) (dec 25 2) (dec 0))) = true := by decide +kernel
example : query prism (point (dec 25 2) (dec 25 2) (dec 5 1)) (hitAt (vec (dec 25 2) (dec 25 2) (dec 5 1))) = true := by decide +kernel
example : query prism (point (dec 25 2) (dec 25 2) (dec 1)) (hitAt (vec (dec 25 2) (dec 25 2) (dec 1))) = true := by decide +kernel
example : query (point (dec 25 2) (dec 25 2) (dec 0)) prism (hitAt (vec (dec 25 2) (dec 25 2) (dec 0))) = true := by decide +kernel
example : query (point (dec 25 2) (dec 25 2) (dec 5 1)) prism (hitAt (vec (dec 25 2) (dec 25 2) (dec 5 1))) = true := by decide +kernel
example : query (point (dec 25 2) (dec 25 2) (dec 1)) prism (hitAt (vec (dec 25 2) (dec 25 2) (dec 1))) = true := by decide +kernel
example : query prism (point (dec 25 2) (dec 25 2) (dec 1001 3)) miss = true := by decide +kernel
example : query prism (point (dec 5 1) (dec 55 2) (dec 5 1)) miss = true := by decide +kernel

/-! ### test_intersect_gjk.rs -/

/-- the body of the loop of `test_intersect_gjk_shape_support` -/
def supportCase (i j k : ℕ) : Bool :=
  let vx := dec 2 1 * dec i
  let vy := dec 2 1 * dec j
  let vz := dec 2 1 * dec k
  match (do let a ← sphere (dec (-5)) (dec 25 1) (dec 15) (dec 55 1); a.getSupport (vec vx vy vz)) with
  | .ok (some o) =>
    let l := Fl.sqrt (vx * vx + vy * vy + vz * vz)
    o.isEqual (vec (dec (-5) + vx / l * dec 55 1) (dec 25 1 + vy / l * dec 55 1) (dec 15 + vz / l * dec 55 1)) (dec 1 4) == some true
  | .ok none => i == 0 && j == 0 && k == 0
  | _ => false

/-- the Rust loop takes every `i`, `j`, `k` below 10; `#eval` finds all 1000 true, this keeps 64 of them
for build time -/
example : ([0, 1, 5, 9].all fun i => [0, 1, 5, 9].all fun j => [0, 1, 5, 9].all fun k => supportCase i j k) = true := by
  decide +kernel

/-- `intersect_gjk::query_intersect(&a, &b).expect(..)`; the touching pair below needs 29 iterations -/
def gjk (a b : Res (Shape Q64)) : Option Bool :=
  match (do let a ← a; let b ← b; Gjk.queryIntersect 40 a b) with
  | .ok o => o
  | _ => none

example : gjk (sphere (dec 0) (dec 0) (dec 0) (dec 5)) (sphere (dec 7) (dec 0) (dec 0) (dec 21 1)) = some true := by decide +kernel
example : gjk (sphere (dec 0) (dec 5) (dec 0) (dec 5)) (sphere (dec 0) (dec 0) (dec 0) (dec 2)) = some true := by decide +kernel
example : gjk (sphere (dec 0) (dec 5) (dec 0) (dec 10)) (sphere (dec 1) (dec 1) (dec 0) (dec 2)) = some true := by decide +kernel
example : gjk (sphere (dec 0) (dec (-5)) (dec 0) (dec 5)) (sphere (dec 0) (dec 5) (dec 0) (dec 5)) = some true := by decide +kernel
example : gjk (sphere (dec 0) (dec 0) (dec 0) (dec 5)) (sphere (dec 7) (dec 0) (dec 0) (dec 199 2)) = some false := by decide +kernel
example : gjk (sphere (dec 0) (dec 5) (dec 0) (dec 5)) (sphere (dec 0) (dec 0) (dec 10) (dec 2)) = some false := by decide +kernel

end Mazth.Conformance
