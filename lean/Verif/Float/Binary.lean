import Verif.Float.Fl
import Mathlib.Data.Rat.Floor
import Mathlib.Algebra.Order.Field.Rat
import Mathlib.Algebra.Field.Rat
import Mathlib.Algebra.Order.Ring.Rat

/-!
# Binary floating point: round to nearest, ties to even, over exact rationals

`BinQ p emin emax` is ℚ tagged with a format: precision `p` (significand bits), smallest ulp exponent `emin`
(all finite values are integer multiples of `2^emin`) and overflow exponent `emax` (finite values are `< 2^emax`
in magnitude).  `Q64` is IEEE binary64 (Rust `f64`), `Q32` is binary32 (Rust `f32`).
Everything here is executable.
-/

set_option linter.unusedSectionVars false
set_option autoImplicit false

namespace Mazth

/-- Rationals tagged with a binary floating-point format. -/
def BinQ (_p : ℕ) (_emin _emax : ℤ) : Type := ℚ

namespace BinQ
variable {p : ℕ} {emin emax : ℤ}

instance : Field (BinQ p emin emax) := inferInstanceAs (Field ℚ)
instance : LinearOrder (BinQ p emin emax) := inferInstanceAs (LinearOrder ℚ)
instance : IsStrictOrderedRing (BinQ p emin emax) := inferInstanceAs (IsStrictOrderedRing ℚ)
instance : Repr (BinQ p emin emax) := inferInstanceAs (Repr ℚ)
instance : Inhabited (BinQ p emin emax) := inferInstanceAs (Inhabited ℚ)

end BinQ

/-- IEEE binary64, Rust's `f64`. -/
abbrev Q64 := BinQ 53 (-1074) 1024
/-- IEEE binary32, Rust's `f32`. -/
abbrev Q32 := BinQ 24 (-149) 128

namespace Bin

/-- `2^u` as a rational. -/
def pow2 (u : ℤ) : ℚ := if 0 ≤ u then ((2 ^ u.toNat : ℕ) : ℚ) else mkRat 1 (2 ^ (-u).toNat)

/-- `⌊log₂ q⌋` for positive `q`. -/
def ilog2 (q : ℚ) : ℤ :=
  let e : ℤ := (Nat.log2 q.num.natAbs : ℤ) - (Nat.log2 q.den : ℤ)
  if pow2 e ≤ q then e else e - 1

/-- Round to the nearest integer, ties to even. -/
def rne (q : ℚ) : ℤ :=
  let f := q.floor
  let r := q - f
  if r < 1 / 2 then f else if 1 / 2 < r then f + 1 else if f % 2 = 0 then f else f + 1

/-- Exponent of the unit in the last place used for a value with `⌊log₂ |v|⌋ = e`. -/
def ulpExp (p : ℕ) (emin e : ℤ) : ℤ := max (e - (p - 1)) emin

/-- Rounding with unbounded exponent above. -/
def rndQ (p : ℕ) (emin : ℤ) (v : ℚ) : ℚ :=
  let u := ulpExp p emin (ilog2 |v|)
  rne (v / pow2 u) * pow2 u

/-- digit-by-digit integer square root: `r ↦` largest `r + t`, `t < 2^k`, whose square is `≤ n`. -/
def isqrtAux (n : ℕ) : ℕ → ℕ → ℕ
  | 0, r => r
  | k + 1, r => if (r + 2 ^ k) * (r + 2 ^ k) ≤ n then isqrtAux n k (r + 2 ^ k) else isqrtAux n k r

/-- `⌊√n⌋`. -/
def isqrt (n : ℕ) : ℕ := isqrtAux n (Nat.log2 n / 2 + 1) 0

/-- `√w` rounded to the nearest integer, ties to even. -/
def rneSqrt (w : ℚ) : ℤ :=
  let n : ℤ := isqrt w.floor.toNat
  let h : ℚ := (n : ℚ) + 1 / 2
  if w < h * h then n else if h * h < w then n + 1 else if n % 2 = 0 then n else n + 1

/-- Correctly rounded square root of a positive rational. -/
def sqrtQ (p : ℕ) (emin : ℤ) (v : ℚ) : ℚ :=
  let u := ulpExp p emin (ilog2 v / 2)
  rneSqrt (v / (pow2 u * pow2 u)) * pow2 u

/-- Overflow/underflow handling of a rounded result: `neg` is the sign of the exact value. -/
def finish (emax : ℤ) (neg : Bool) (r : ℚ) : Fl ℚ :=
  if r = 0 then (if neg then .nzero else .fin 0)
  else if pow2 emax ≤ |r| then .inf neg else .fin r

end Bin

instance {p : ℕ} {emin emax : ℤ} : Fmt (BinQ p emin emax) where
  rnd v := Bin.finish emax (decide ((v : ℚ) < 0)) (Bin.rndQ p emin v)
  rsqrt v := Bin.finish emax false (Bin.sqrtQ p emin v)
  eps := Bin.pow2 (1 - p)

end Mazth
