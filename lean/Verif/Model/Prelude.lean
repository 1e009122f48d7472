import Verif.Float.Fl
import Mathlib.Data.List.FinRange

/-!
# Panics and loops

A Rust function that can panic returns `Res α`; the panic kind is kept as data.
-/

set_option autoImplicit false

namespace Mazth

/-- The ways the modelled code can fail to return. `diverge` is used for "out of fuel" of the two unbounded
recursions (`get_intersect` double dispatch and the GJK loop). -/
inductive Panic where
  | assertFailed
  | indexOutOfBounds
  | arithmeticOverflow
  | unwrapNone
  | unimplemented
  | explicit
  | diverge
  deriving DecidableEq, Repr

/-- Result of a Rust call that may panic. -/
abbrev Res (α : Type) := Except Panic α

/-- `Option::unwrap` / `Option::expect`. -/
def unwrap {α : Type} : Option α → Res α
  | some a => .ok a
  | none => .error .unwrapNone

/-- `assert!(c)`. -/
def assert (c : Bool) : Res Unit := if c then .ok () else .error .assertFailed

/-- `for i in 0..n { s = f(s, i) }`. -/
def loop {σ : Type} (n : ℕ) (s : σ) (f : σ → Fin n → σ) : σ := (List.finRange n).foldl f s

@[simp] theorem unwrap_some {α : Type} (a : α) : unwrap (some a) = .ok a := rfl
@[simp] theorem unwrap_none {α : Type} : unwrap (none : Option α) = .error .unwrapNone := rfl
@[simp] theorem Res.ok_bind {α β : Type} (a : α) (f : α → Res β) : ((.ok a : Res α) >>= f) = f a := rfl
@[simp] theorem Res.error_bind {α β : Type} (e : Panic) (f : α → Res β) :
    ((.error e : Res α) >>= f) = .error e := rfl
@[simp] theorem Res.pure_eq {α : Type} (a : α) : (pure a : Res α) = .ok a := rfl
@[simp] theorem assert_true : assert true = .ok () := rfl
@[simp] theorem assert_false : assert false = .error .assertFailed := rfl

end Mazth
