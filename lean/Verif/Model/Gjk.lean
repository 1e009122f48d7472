import Verif.Model.Shapes

/-!
# GJK intersection query: `/repo/lib/intersect_gjk.rs`

`&mut Vec` / `&mut Mat3x1` arguments become returned values.  The `loop` of `query_intersect` takes a fuel argument
(number of iterations allowed); running out is the panic value `diverge`.
-/

set_option linter.unusedSectionVars false
set_option autoImplicit false

namespace Mazth.Gjk

variable {K : Type} [Field K] [LinearOrder K] [Fmt K]

/-- `support`. /repo/lib/intersect_gjk.rs:6-18 -/
def support (a b : Shape K) (v : V3 K) : Res (Option (V3 K)) := do
  match ← a.getSupport v with
  | none => .ok none
  | some p0 =>
    let vOppose ← unwrap (v.scale (-1))
    match ← b.getSupport vOppose with
    | none => .ok none
    | some p1 =>
      let p10 ← unwrap (p0.minus p1)
      .ok (some p10)

/-- `pass_minkowski_origin`. /repo/lib/intersect_gjk.rs:20-23 -/
def passMinkowskiOrigin (lastVert support : V3 K) : Res Bool := do
  .ok (Fl.lt 0 (← unwrap (lastVert.dot support)))

/-- `simplex.last().unwrap()`. -/
def last (simplex : List (V3 K)) : Res (V3 K) := unwrap simplex.getLast?

/-- `contains_minkowski_origin`: returns the answer and the new values of `*simplex` and `*support`.
/repo/lib/intersect_gjk.rs:25-63 -/
def containsMinkowskiOrigin (simplex : List (V3 K)) (support : V3 K) : Res (Bool × List (V3 K) × V3 K) := do
  let a ← last simplex
  let ao ← unwrap (a.scale (-1))
  if simplex.length == 3 then
    let b ← sliceGet simplex 1
    let c ← sliceGet simplex 0
    let ab ← unwrap (b.minus a)
    let ac ← unwrap (c.minus a)
    let abNormal ← unwrap ((← unwrap (ac.cross ab)).cross ab)
    let acNormal ← unwrap ((← unwrap (ab.cross ac)).cross ac)
    if Fl.lt 0 (← unwrap (abNormal.dot ao)) then
      let simplexNew := [← sliceGet simplex 1, ← sliceGet simplex 2]
      return (false, simplexNew, abNormal)
    else if Fl.lt 0 (← unwrap (acNormal.dot ao)) then
      let simplexNew := [← sliceGet simplex 0, ← sliceGet simplex 2]
      return (false, simplexNew, acNormal)
    else return (true, simplex, support)
  else
    let b ← sliceGet simplex 0
    let ab ← unwrap (b.minus a)
    let abNormal ← unwrap ((← unwrap (ab.cross ao)).cross ao)
    if Fl.feq (← unwrap abNormal.magnitude) 0 then return (true, simplex, support)
    else return (false, simplex, abNormal)

/-- The `loop` of `query_intersect`, with the `assert!` on the simplex size. /repo/lib/intersect_gjk.rs:86-102 -/
def queryLoop (a b : Shape K) : ℕ → List (V3 K) → V3 K → Res (Option Bool)
  | 0, _, _ => .error .diverge
  | fuel + 1, simplex, d => do
    let sup ← unwrap (← support a b d)
    let simplex := simplex ++ [sup]
    assert (decide (simplex.length ≤ 3))
    if !(← passMinkowskiOrigin (← last simplex) d) then return some false
    let (found, simplex', d') ← containsMinkowskiOrigin simplex d
    if found then return some true
    queryLoop a b fuel simplex' d'

/-- `query_intersect`. /repo/lib/intersect_gjk.rs:65-103 -/
def queryIntersect (fuel : ℕ) (a b : Shape K) : Res (Option Bool) := do
  match a.getType, b.getType with
  | .sphere, .sphere => do
    let d : V3 K := ⟨#v[-1, 0, 0]⟩
    let sup ← unwrap (← support a b d)
    let d ← unwrap (d.scale (-1))
    queryLoop a b fuel [sup] d
  | _, _ => .error .explicit

end Mazth.Gjk
