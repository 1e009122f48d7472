import Mathlib.Algebra.Order.Field.Basic
import Mathlib.Tactic.Ring
import Mathlib.Tactic.Linarith

/-!
# Floating-point data and IEEE-754 operations, generic in the rounding

`f32`/`f64` (the two instantiations of every macro of `/repo/lib/mat.rs` and `/repo/lib/quat.rs`, and the `f64` of
all shape files) are modelled by `Fl K`: NaN, two infinities, negative zero and finite values `fin v`
(`fin 0` is `+0`).  `K` is an ordered field and the class `Fmt K` supplies the rounding function:

* `K = ℝ` with the identity rounding (`Verif/Float/Exact.lean`): exact arithmetic that still has NaN, infinities
  and signed zeros, so division by zero, `sqrt` of a negative number etc. behave as in IEEE-754.
* `K = Q64`/`Q32` (`Verif/Float/Binary.lean`): round-to-nearest-even binary64 / binary32 arithmetic, executable.

The payload and sign of NaNs are not modelled (no code of the crate inspects them).
-/

set_option linter.unusedSectionVars false
set_option autoImplicit false

namespace Mazth

/-- An IEEE-754 datum. `fin 0` is `+0`, `nzero` is `-0`. -/
inductive Fl (K : Type) where
  | nan
  | inf (neg : Bool)
  | nzero
  | fin (v : K)
  deriving DecidableEq, Repr, Inhabited

/-- The parameters of a floating-point format: rounding of an exact real result, rounding of an exact square
root, and the format's `EPSILON` constant. -/
class Fmt (K : Type) where
  /-- round an exact (non-zero) result to the format -/
  rnd : K → Fl K
  /-- round the exact square root of a non-negative number to the format -/
  rsqrt : K → Fl K
  /-- `f32::EPSILON` / `f64::EPSILON` -/
  eps : K

namespace Fl

variable {K : Type} [Field K] [LinearOrder K] [Fmt K]

/-- Numerical value, if finite. Both zeros have value `0`. -/
def val : Fl K → Option K
  | nan => none
  | inf _ => none
  | nzero => some 0
  | fin v => some v

/-- Sign bit (NaN: `false`, unused). -/
def isNeg : Fl K → Bool
  | nan => false
  | inf s => s
  | nzero => true
  | fin v => decide (v < 0)

/-- Zero with the given sign. -/
def zero (neg : Bool) : Fl K := if neg then nzero else fin 0

/-- IEEE negation (`-x`): flips the sign bit. -/
def neg : Fl K → Fl K
  | nan => nan
  | inf s => inf !s
  | nzero => fin 0
  | fin v => if v = 0 then nzero else fin (-v)

/-- Sum of two finite values; the exact zero sum is `+0` (round-to-nearest). -/
def addFin (a b : K) : Fl K := if a + b = 0 then fin 0 else Fmt.rnd (a + b)

/-- IEEE addition. -/
def add : Fl K → Fl K → Fl K
  | nan, _ => nan
  | _, nan => nan
  | inf s, inf t => if s = t then inf s else nan
  | inf s, _ => inf s
  | _, inf t => inf t
  | nzero, nzero => nzero
  | nzero, fin b => addFin 0 b
  | fin a, nzero => addFin a 0
  | fin a, fin b => addFin a b

/-- IEEE subtraction. -/
def sub (x y : Fl K) : Fl K := add x (neg y)

/-- Product of two finite values with result sign `s` in case it is zero. -/
def mulFin (s : Bool) (a b : K) : Fl K := if a * b = 0 then zero s else Fmt.rnd (a * b)

/-- Product of an infinity with a finite value. -/
def mulInf (s : Bool) (b : K) : Fl K := if b = 0 then nan else inf s

/-- IEEE multiplication. -/
def mul : Fl K → Fl K → Fl K
  | nan, _ => nan
  | _, nan => nan
  | inf s, inf t => inf (xor s t)
  | inf _, nzero => nan
  | inf s, fin b => mulInf (xor s (decide (b < 0))) b
  | nzero, inf _ => nan
  | fin a, inf t => mulInf (xor (decide (a < 0)) t) a
  | nzero, nzero => fin 0
  | nzero, fin b => mulFin (!(decide (b < 0))) 0 b
  | fin a, nzero => mulFin (!(decide (a < 0))) a 0
  | fin a, fin b => mulFin (xor (decide (a < 0)) (decide (b < 0))) a b

/-- Quotient of two finite values with result sign `s` in case it is zero or infinite. -/
def divFin (s : Bool) (a b : K) : Fl K :=
  if b = 0 then (if a = 0 then nan else inf s)
  else if a = 0 then zero s else Fmt.rnd (a / b)

/-- IEEE division. -/
def div : Fl K → Fl K → Fl K
  | nan, _ => nan
  | _, nan => nan
  | inf _, inf _ => nan
  | inf s, nzero => inf !s
  | inf s, fin b => inf (xor s (decide (b < 0)))
  | nzero, inf t => zero !t
  | fin a, inf t => zero (xor (decide (a < 0)) t)
  | nzero, nzero => nan
  | nzero, fin b => divFin (!(decide (b < 0))) 0 b
  | fin a, nzero => divFin (!(decide (a < 0))) a 0
  | fin a, fin b => divFin (xor (decide (a < 0)) (decide (b < 0))) a b

/-- IEEE square root. -/
def sqrt : Fl K → Fl K
  | nan => nan
  | inf s => if s then nan else inf false
  | nzero => nzero
  | fin v => if v < 0 then nan else if v = 0 then fin 0 else Fmt.rsqrt v

/-- `f64::abs`. -/
def abs : Fl K → Fl K
  | nan => nan
  | inf _ => inf false
  | nzero => fin 0
  | fin v => fin |v|

/-- `x < y` on floats (`y > x` is `lt x y`); false if either is NaN. -/
def lt : Fl K → Fl K → Bool
  | nan, _ => false
  | _, nan => false
  | inf s, inf t => s && !t
  | inf s, _ => s
  | _, inf t => !t
  | nzero, nzero => false
  | nzero, fin b => decide (0 < b)
  | fin a, nzero => decide (a < 0)
  | fin a, fin b => decide (a < b)

/-- `x <= y` on floats; false if either is NaN. -/
def le : Fl K → Fl K → Bool
  | nan, _ => false
  | _, nan => false
  | inf s, inf t => s || !t
  | inf s, _ => s
  | _, inf t => !t
  | nzero, nzero => true
  | nzero, fin b => decide (0 ≤ b)
  | fin a, nzero => decide (a ≤ 0)
  | fin a, fin b => decide (a ≤ b)

/-- `x == y` on floats: NaN differs from everything, the two zeros are equal. -/
def feq (x y : Fl K) : Bool := le x y && le y x

/-- `f64::min`: a NaN operand is ignored. (For two zeros of different sign Rust leaves the choice open;
this model returns the first operand.) -/
def fmin (x y : Fl K) : Fl K :=
  if x = nan then y else if y = nan then x else if lt y x then y else x

/-- `f64::max`: a NaN operand is ignored. (Zeros of different sign: as for `fmin`.) -/
def fmax (x y : Fl K) : Fl K :=
  if x = nan then y else if y = nan then x else if lt x y then y else x

/-- `core::cmp::Ordering` as returned by `f64::partial_cmp`: `none` iff one operand is NaN. -/
def partialCmp (x y : Fl K) : Option Ordering :=
  if lt x y then some .lt else if lt y x then some .gt else if feq x y then some .eq else none

/-- A decimal literal of the source text, rounded to the format (`0` is exact and positive). -/
def lit (q : K) : Fl K := if q = 0 then fin 0 else Fmt.rnd q

instance : Add (Fl K) := ⟨add⟩
instance : Sub (Fl K) := ⟨sub⟩
instance : Mul (Fl K) := ⟨mul⟩
instance : Div (Fl K) := ⟨div⟩
instance : Neg (Fl K) := ⟨neg⟩
instance : Zero (Fl K) := ⟨fin 0⟩
instance : One (Fl K) := ⟨fin 1⟩

/-- `f64::powi(2)`, taken to be `x * x` (see DESIGN.md, trusted base). -/
def powi2 (x : Fl K) : Fl K := x * x

/-- `INFINITY` / `NEG_INFINITY`. -/
def pinf : Fl K := inf false
def ninf : Fl K := inf true

@[simp] theorem add_def (x y : Fl K) : add x y = x + y := rfl
@[simp] theorem sub_def (x y : Fl K) : sub x y = x - y := rfl
@[simp] theorem mul_def (x y : Fl K) : mul x y = x * y := rfl
@[simp] theorem div_def (x y : Fl K) : div x y = x / y := rfl
@[simp] theorem neg_def (x : Fl K) : neg x = -x := rfl
theorem zero_def : (0 : Fl K) = fin 0 := rfl
theorem one_def : (1 : Fl K) = fin 1 := rfl
theorem sub_eq (x y : Fl K) : x - y = x + (-y) := rfl

end Fl

/-- The transcendental functions the code calls on floats. They are not specified by IEEE-754; theorems about
binary32/64 are stated for an arbitrary instance of this class. -/
class Libm (K : Type) where
  sin : Fl K → Fl K
  cos : Fl K → Fl K
  acos : Fl K → Fl K
  atan2 : Fl K → Fl K → Fl K
  ln : Fl K → Fl K
  powf : Fl K → Fl K → Fl K
  /-- `std::f64::consts::PI as T` -/
  pi : Fl K

end Mazth
