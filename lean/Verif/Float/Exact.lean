import Verif.Float.Fl
import Mathlib.Analysis.Real.Sqrt
import Mathlib.Analysis.SpecialFunctions.Trigonometric.Inverse
import Mathlib.Analysis.SpecialFunctions.Complex.Arg
import Mathlib.Analysis.SpecialFunctions.Log.Basic
import Mathlib.Analysis.SpecialFunctions.Pow.Real

/-!
# Exact arithmetic: `Fl ℝ`

Rounding is the identity, `sqrt` is the exact square root; NaN, infinities and signed zeros follow IEEE-754.
`x.Is r` says that the datum `x` is finite and its value is the real number `r`.
-/

set_option linter.unusedSectionVars false
set_option autoImplicit false

namespace Mazth

noncomputable instance : Fmt ℝ where
  rnd v := .fin v
  rsqrt v := .fin (Real.sqrt v)
  eps := 2⁻¹ ^ 52

namespace Fl

/-- `x` is finite with value `r` (for `r = 0`: `+0` or `-0`). -/
def Is {K : Type} [Field K] [LinearOrder K] (x : Fl K) (r : K) : Prop := x.val = some r

section real
variable {x y : Fl ℝ} {a b : ℝ}

@[simp] theorem rnd_real (v : ℝ) : (Fmt.rnd v : Fl ℝ) = fin v := rfl
@[simp] theorem rsqrt_real (v : ℝ) : (Fmt.rsqrt v : Fl ℝ) = fin (Real.sqrt v) := rfl

theorem is_fin (a : ℝ) : (fin a).Is a := rfl
theorem is_nzero : (nzero : Fl ℝ).Is 0 := rfl
theorem is_zero : (0 : Fl ℝ).Is 0 := rfl
theorem is_one : (1 : Fl ℝ).Is 1 := rfl

theorem Is.cases (h : x.Is a) : x = fin a ∨ (x = nzero ∧ a = 0) := by
  unfold Is at h
  cases x <;> simp_all [val]

theorem Is.unique (h : x.Is a) (h' : x.Is b) : a = b := by
  unfold Is at *; rw [h] at h'; exact Option.some.inj h'

theorem Is.cast (h : x.Is a) (e : a = b) : x.Is b := e ▸ h

theorem is_lit (q : ℝ) : (lit q).Is q := by
  unfold lit; split <;> simp_all [Is, val]

theorem zeroIs (s : Bool) : (zero s : Fl ℝ).Is 0 := by
  unfold zero; split <;> simp [Is, val]

theorem addFinIs (a b : ℝ) : (addFin a b).Is (a + b) := by
  unfold addFin; split <;> simp_all [Is, val]

theorem Is.neg (h : x.Is a) : (-x).Is (-a) := by
  show (Fl.neg x).Is (-a)
  rcases h.cases with rfl | ⟨rfl, rfl⟩
  · unfold Fl.neg; dsimp only; split <;> simp_all [Is, val]
  · simp [Fl.neg, Is, val]

theorem Is.add (h : x.Is a) (h' : y.Is b) : (x + y).Is (a + b) := by
  show (Fl.add x y).Is (a + b)
  rcases h.cases with rfl | ⟨rfl, rfl⟩ <;> rcases h'.cases with rfl | ⟨rfl, rfl⟩ <;>
    simp only [Fl.add] <;> first | exact addFinIs _ _ | simp [Is, val]

theorem Is.sub (h : x.Is a) (h' : y.Is b) : (x - y).Is (a - b) := by
  rw [sub_eq_add_neg, Fl.sub_eq]; exact h.add h'.neg

theorem mulFinIs (s : Bool) (a b : ℝ) : (mulFin s a b).Is (a * b) := by
  unfold mulFin; split
  · rename_i h; rw [h]; exact zeroIs s
  · simp [Is, val]

theorem Is.mul (h : x.Is a) (h' : y.Is b) : (x * y).Is (a * b) := by
  show (Fl.mul x y).Is (a * b)
  rcases h.cases with rfl | ⟨rfl, rfl⟩ <;> rcases h'.cases with rfl | ⟨rfl, rfl⟩ <;>
    simp only [Fl.mul] <;> first | exact mulFinIs _ _ _ | simp [Is, val]

theorem divFinIs (s : Bool) {a b : ℝ} (hb : b ≠ 0) : (divFin s a b).Is (a / b) := by
  unfold divFin; rw [if_neg hb]; split
  · rename_i h; rw [h, zero_div]; exact zeroIs s
  · simp [Is, val]

theorem Is.div (h : x.Is a) (h' : y.Is b) (hb : b ≠ 0) : (x / y).Is (a / b) := by
  show (Fl.div x y).Is (a / b)
  rcases h.cases with rfl | ⟨rfl, rfl⟩ <;> rcases h'.cases with rfl | ⟨rfl, rfl⟩ <;>
    simp only [Fl.div] <;> first | exact absurd rfl hb | exact divFinIs _ hb

/-- `0/0` is NaN. -/
theorem Is.div_zero_zero (h : x.Is 0) (h' : y.Is 0) : x / y = nan := by
  show Fl.div x y = nan
  rcases h.cases with rfl | ⟨rfl, _⟩ <;> rcases h'.cases with rfl | ⟨rfl, _⟩ <;>
    simp [Fl.div, divFin]

/-- non-zero/0 is an infinity. -/
theorem Is.div_zero (h : x.Is a) (h' : y.Is 0) (ha : a ≠ 0) : ∃ s, x / y = inf s := by
  show ∃ s, Fl.div x y = inf s
  rcases h.cases with rfl | ⟨rfl, _⟩
  · rcases h'.cases with rfl | ⟨rfl, _⟩ <;> simp [Fl.div, divFin, ha, lt_or_ge]
  · exact absurd ‹_› ha

theorem Is.sqrt (h : x.Is a) (ha : 0 ≤ a) : (Fl.sqrt x).Is (Real.sqrt a) := by
  rcases h.cases with rfl | ⟨rfl, rfl⟩
  · unfold Fl.sqrt; dsimp only
    rw [if_neg (not_lt.mpr ha)]; split <;> simp_all [Is, val]
  · simp [Fl.sqrt, Is, val]

theorem Is.sqrt_neg (h : x.Is a) (ha : a < 0) : Fl.sqrt x = nan := by
  rcases h.cases with rfl | ⟨rfl, rfl⟩
  · simp [Fl.sqrt, ha]
  · exact absurd ha (lt_irrefl _)

theorem Is.abs (h : x.Is a) : (Fl.abs x).Is |a| := by
  rcases h.cases with rfl | ⟨rfl, rfl⟩ <;> simp [Fl.abs, Is, val]

theorem Is.powi2 (h : x.Is a) : (Fl.powi2 x).Is (a * a) := h.mul h

theorem Is.lt (h : x.Is a) (h' : y.Is b) : Fl.lt x y = decide (a < b) := by
  rcases h.cases with rfl | ⟨rfl, rfl⟩ <;> rcases h'.cases with rfl | ⟨rfl, rfl⟩ <;> simp [Fl.lt]

theorem Is.le (h : x.Is a) (h' : y.Is b) : Fl.le x y = decide (a ≤ b) := by
  rcases h.cases with rfl | ⟨rfl, rfl⟩ <;> rcases h'.cases with rfl | ⟨rfl, rfl⟩ <;> simp [Fl.le]

theorem Is.feq (h : x.Is a) (h' : y.Is b) : Fl.feq x y = decide (a = b) := by
  unfold Fl.feq; rw [h.le h', h'.le h, ← Bool.decide_and]
  exact decide_eq_decide.mpr le_antisymm_iff.symm

theorem Is.ne_nan (h : x.Is a) : x ≠ nan := by rintro rfl; simp [Is, val] at h

theorem Is.fmin (h : x.Is a) (h' : y.Is b) : (Fl.fmin x y).Is (min a b) := by
  unfold Fl.fmin; rw [if_neg h.ne_nan, if_neg h'.ne_nan, h'.lt h]
  by_cases hb : b < a <;> simp [hb]
  · rw [min_eq_right hb.le]; exact h'
  · rw [min_eq_left (not_lt.mp hb)]; exact h

theorem Is.fmax (h : x.Is a) (h' : y.Is b) : (Fl.fmax x y).Is (max a b) := by
  unfold Fl.fmax; rw [if_neg h.ne_nan, if_neg h'.ne_nan, h.lt h']
  by_cases hb : a < b <;> simp [hb]
  · rw [max_eq_right hb.le]; exact h'
  · rw [max_eq_left (not_lt.mp hb)]; exact h

theorem Is.partialCmp (h : x.Is a) (h' : y.Is b) : Fl.partialCmp x y = some (compare a b) := by
  unfold Fl.partialCmp; rw [h.lt h', h'.lt h, h.feq h']
  rcases lt_trichotomy a b with hh | hh | hh
  · simp [hh, compare_lt_iff_lt.mpr hh]
  · simp [hh]
  · simp [hh, not_lt.mpr hh.le, compare_gt_iff_gt.mpr hh]

/-- every finite datum has a value -/
theorem exists_is_of_val_isSome (h : x.val.isSome) : ∃ a, x.Is a := Option.isSome_iff_exists.mp h

end real
end Fl

/-! ### Transcendental functions in exact arithmetic -/

namespace Fl
open Real

/-- `f64::sin`. -/
noncomputable def sinR : Fl ℝ → Fl ℝ
  | nan => nan
  | inf _ => nan
  | nzero => nzero
  | fin v => fin (Real.sin v)

/-- `f64::cos`. -/
noncomputable def cosR : Fl ℝ → Fl ℝ
  | nan => nan
  | inf _ => nan
  | nzero => fin 1
  | fin v => fin (Real.cos v)

/-- `f64::acos`: NaN outside `[-1, 1]`. -/
noncomputable def acosR : Fl ℝ → Fl ℝ
  | nan => nan
  | inf _ => nan
  | nzero => fin (Real.arccos 0)
  | fin v => if v < -1 ∨ 1 < v then nan else fin (Real.arccos v)

/-- `f64::atan2(y, x)` on finite arguments that are not both zero with `y = ±0` handled by sign; the angle of the
point `(x, y)`. -/
noncomputable def atan2R : Fl ℝ → Fl ℝ → Fl ℝ
  | nan, _ => nan
  | _, nan => nan
  | inf s, inf t => fin ((if s then -1 else 1) * (if t then 3 * π / 4 else π / 4))
  | inf s, _ => fin ((if s then -1 else 1) * (π / 2))
  | y, inf t => if t then fin ((if y.isNeg then -1 else 1) * π) else zero y.isNeg
  | nzero, nzero => fin (-π)
  | nzero, fin x => if x < 0 then fin (-π) else nzero
  | fin y, nzero => if y = 0 then fin π else fin ((if y < 0 then -1 else 1) * (π / 2))
  | fin y, fin x => fin (Complex.arg ⟨x, y⟩)

/-- `f64::ln`. -/
noncomputable def lnR : Fl ℝ → Fl ℝ
  | nan => nan
  | inf s => if s then nan else inf false
  | nzero => inf true
  | fin v => if v < 0 then nan else if v = 0 then inf true else fin (Real.log v)

/-- `f64::powf` for a base that is positive and finite, or zero, and a finite exponent (the crate only calls it
with a length as base, `/repo/lib/quat.rs:393`); other arguments give NaN in this model. -/
noncomputable def powfR : Fl ℝ → Fl ℝ → Fl ℝ
  | fin b, fin t => if b < 0 then nan else if b = 0 ∧ t < 0 then inf false else fin (b ^ t)
  | fin b, nzero => if b < 0 then nan else fin 1
  | _, _ => nan

end Fl

noncomputable instance : Libm ℝ where
  sin := Fl.sinR
  cos := Fl.cosR
  acos := Fl.acosR
  atan2 := Fl.atan2R
  ln := Fl.lnR
  powf := Fl.powfR
  pi := .fin Real.pi

namespace Fl
variable {x y : Fl ℝ} {a b : ℝ}

theorem Is.sin (h : x.Is a) : (Libm.sin x).Is (Real.sin a) := by
  show (sinR x).Is _
  rcases h.cases with rfl | ⟨rfl, rfl⟩ <;> simp [sinR, Is, val]

theorem Is.cos (h : x.Is a) : (Libm.cos x).Is (Real.cos a) := by
  show (cosR x).Is _
  rcases h.cases with rfl | ⟨rfl, rfl⟩ <;> simp [cosR, Is, val]

theorem Is.acos (h : x.Is a) (h1 : -1 ≤ a) (h2 : a ≤ 1) : (Libm.acos x).Is (Real.arccos a) := by
  show (acosR x).Is _
  rcases h.cases with rfl | ⟨rfl, rfl⟩
  · simp [acosR, Is, val, not_lt.mpr h1, not_lt.mpr h2]
  · simp [acosR, Is, val]

theorem Is.acos_nan (h : x.Is a) (h1 : a < -1 ∨ 1 < a) : Libm.acos x = nan := by
  show acosR x = nan
  rcases h.cases with rfl | ⟨rfl, rfl⟩
  · simp [acosR, h1]
  · norm_num at h1

theorem Is.atan2 (hy : y.Is b) (h : x.Is a) (hb : b ≠ 0) :
    (Libm.atan2 y x).Is (Complex.arg ⟨a, b⟩) := by
  show (atan2R y x).Is _
  rcases hy.cases with rfl | ⟨rfl, rfl⟩
  · rcases h.cases with rfl | ⟨rfl, rfl⟩
    · simp [atan2R, Is, val]
    · simp only [atan2R, if_neg hb]
      rcases lt_or_gt_of_ne hb with h0 | h0
      · rw [if_pos h0]
        have : (⟨0, b⟩ : ℂ) = (((-b : ℝ)) : ℂ) * (-Complex.I) := by
          apply Complex.ext <;> simp
        rw [this, Complex.arg_real_mul _ (by linarith), Complex.arg_neg_I]
        simp [Is, val]
      · rw [if_neg (not_lt.mpr h0.le)]
        have : (⟨0, b⟩ : ℂ) = ((b : ℝ) : ℂ) * Complex.I := by
          apply Complex.ext <;> simp
        rw [this, Complex.arg_real_mul _ h0, Complex.arg_I]
        simp [Is, val]
  · exact absurd rfl hb

theorem Is.ln (h : x.Is a) (ha : 0 < a) : (Libm.ln x).Is (Real.log a) := by
  show (lnR x).Is _
  rcases h.cases with rfl | ⟨rfl, rfl⟩
  · simp [lnR, Is, val, not_lt.mpr ha.le, ha.ne']
  · exact absurd rfl ha.ne'

theorem Is.powf (h : x.Is a) (h' : y.Is b) (ha : 0 < a) : (Libm.powf x y).Is (a ^ b) := by
  show (powfR x y).Is _
  rcases h.cases with rfl | ⟨rfl, rfl⟩
  · rcases h'.cases with rfl | ⟨rfl, rfl⟩
    · simp [powfR, Is, val, not_lt.mpr ha.le, ha.ne']
    · simp [powfR, Is, val, not_lt.mpr ha.le]
  · exact absurd rfl ha.ne'

theorem is_pi : (Libm.pi : Fl ℝ).Is Real.pi := rfl

end Fl
end Mazth
