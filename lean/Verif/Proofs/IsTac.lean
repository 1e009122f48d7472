import Verif.Float.Exact

/-! `is_tac` proves `x.Is ?r` by following the structure of `x`; side goals (`≠ 0`, `0 ≤`) are left open. -/

namespace Mazth

macro "is_tac" : tactic => `(tactic| repeat' first
  | assumption
  | with_reducible apply Fl.Is.add
  | with_reducible apply Fl.Is.sub
  | with_reducible apply Fl.Is.mul
  | with_reducible apply Fl.Is.neg
  | with_reducible apply Fl.Is.div
  | with_reducible apply Fl.Is.powi2
  | with_reducible apply Fl.Is.abs
  | with_reducible apply Fl.Is.sqrt
  | with_reducible apply Fl.Is.sin
  | with_reducible apply Fl.Is.cos
  | with_reducible apply Fl.Is.fmin
  | with_reducible apply Fl.Is.fmax
  | with_reducible exact Fl.is_zero
  | with_reducible exact Fl.is_one
  | with_reducible exact Fl.is_lit _
  | with_reducible exact Fl.is_pi
  | with_reducible exact Fl.is_fin _
  | with_reducible apply_assumption)

example (x y : Fl ℝ) (a b : ℝ) (h : x.Is a) (h' : y.Is b) (f : ℕ → Fl ℝ) (g : ℕ → ℝ) (hf : ∀ i, (f i).Is (g i)) :
    (x * y + 1 - f 3).Is (a * b + 1 - g 3) := by is_tac

end Mazth
