import Verif.Float.RndErr
import Mathlib.Tactic.Ring
import Mathlib.Tactic.Linarith
import Mathlib.Tactic.Positivity

/-!
# A calculus of forward rounding errors

`Appr x k e T h`: if the float `x` is finite then it differs from the real value `e` by at most `((1+u)^k - 1) T + h`, where
`T` bounds `|e|`.  The rules follow the shape of a program: leaves, sums, differences, products, negation.
-/

set_option linter.unusedSectionVars false
set_option autoImplicit false

namespace Mazth

variable {K : Type} [Field K] [LinearOrder K] [IsStrictOrderedRing K] [Fmt K] [LawfulFmt K] [RndErr K]

open RndErr

/-- `x` is a finite datum of the format with value `a`. -/
def Fl.Holds (x : Fl K) (a : K) : Prop := x.Is a ∧ x.WF

structure Appr (x : Fl K) (k : ℕ) (e T h : K) : Prop where
  wf : x.WF
  bound : |e| ≤ T
  nonneg : 0 ≤ h
  err : ∀ c, x.Is c → |c - e| ≤ ((1 + u) ^ k - 1) * T + h

theorem grow_one (k : ℕ) : (1 : K) ≤ (1 + u) ^ k := one_le_pow₀ (by linarith [u_pos (K := K)])

theorem grow_mono {j k : ℕ} (h : j ≤ k) : ((1 : K) + u) ^ j ≤ (1 + u) ^ k :=
  pow_le_pow_right₀ (by linarith [u_pos (K := K)]) h

namespace Appr

variable {x y : Fl K} {j k l : ℕ} {e f T S h g : K}

theorem T_nonneg (a : Appr x k e T h) : 0 ≤ T := (abs_nonneg _).trans a.bound

theorem leaf {a : K} (hx : x.Holds a) : Appr x 0 a |a| 0 :=
  ⟨hx.2, le_rfl, le_rfl, fun c hc => by rw [hx.1.kunique hc]; simp⟩

theorem mono (a : Appr x k e T h) (hk : k ≤ l) (hh : h ≤ g) : Appr x l e T g :=
  ⟨a.wf, a.bound, a.nonneg.trans hh, fun c hc => by
    have := mul_le_mul_of_nonneg_right (grow_mono (K := K) hk) a.T_nonneg
    linarith [a.err c hc]⟩

theorem weaken (a : Appr x k e T h) (hT : T ≤ S) : Appr x k e S h :=
  ⟨a.wf, a.bound.trans hT, a.nonneg, fun c hc => by
    have := mul_le_mul_of_nonneg_left hT (sub_nonneg.mpr (grow_one (K := K) k))
    linarith [a.err c hc]⟩

theorem cast (a : Appr x k e T h) (he : e = f) (hT : T = S) (hh : h = g) : Appr x k f S g := by
  subst he hT hh; exact a

theorem neg (a : Appr x k e T h) : Appr (-x) k (-e) T h :=
  ⟨a.wf.neg, by rw [abs_neg]; exact a.bound, a.nonneg, fun c hc => by
    have := a.err (-c) (by have := hc.kneg; rwa [Fl.neg_neg'] at this)
    rwa [show -c - e = -(c - -e) by ring, abs_neg] at this⟩

/-- one rounding of relative error `u` on top of an error `(A-1) T + h` -/
theorem step {c s e T h A : K} (he : |e| ≤ T) (hs : |s - e| ≤ (A - 1) * T + h) (hc : |c - s| ≤ u * |s|) :
    |c - e| ≤ (A * (1 + u) - 1) * T + (1 + u) * h := by
  have h1 : |s| ≤ A * T + h := by
    have : |s| ≤ |s - e| + |e| := by
      have := abs_add_le (s - e) e; rwa [sub_add_cancel] at this
    linarith
  have h2 : |c - e| ≤ |c - s| + |s - e| := by
    have := abs_add_le (c - s) (s - e); rwa [sub_add_sub_cancel] at this
  have := mul_le_mul_of_nonneg_left h1 (u_pos (K := K)).le
  linarith [show (A * (1 + u) - 1) * T + (1 + u) * h = u * (A * T + h) + ((A - 1) * T + h) by ring]

theorem add (a : Appr x k e T h) (b : Appr y k f S g) : Appr (x + y) (k + 1) (e + f) (T + S) ((1 + u) * (h + g)) := by
  refine ⟨Fl.wf_add _ _, (abs_add_le _ _).trans (add_le_add a.bound b.bound),
    mul_nonneg (by linarith [u_pos (K := K)]) (add_nonneg a.nonneg b.nonneg), fun c hc => ?_⟩
  obtain ⟨p, q, hp, hq⟩ := Fl.add_finite hc
  have h1 := a.err p hp
  have h2 := b.err q hq
  rw [pow_succ]
  refine step ((abs_add_le _ _).trans (add_le_add a.bound b.bound)) (s := p + q) ?_ (Fl.add_err hp hq a.wf b.wf hc)
  have := abs_add_le (p - e) (q - f)
  rw [show p - e + (q - f) = p + q - (e + f) by ring] at this
  linarith [show ((1 + u) ^ k - 1) * (T + S) + (h + g) = ((1 + u) ^ k - 1) * T + h + (((1 + u) ^ k - 1) * S + g) by ring]

theorem sub (a : Appr x k e T h) (b : Appr y k f S g) : Appr (x - y) (k + 1) (e - f) (T + S) ((1 + u) * (h + g)) := by
  have := a.add b.neg
  rw [← sub_eq_add_neg] at this
  exact this

/-- the exact product of two approximations -/
theorem mul_exact {c d e f A B T S h g : K} (he : |e| ≤ T) (hf : |f| ≤ S)
    (hc : |c - e| ≤ (A - 1) * T + h) (hd : |d - f| ≤ (B - 1) * S + g) :
    |c * d - e * f| ≤ (A * B - 1) * (T * S) + (A * T * g + B * S * h + h * g) := by
  have hT := (abs_nonneg e).trans he
  have hS := (abs_nonneg f).trans hf
  have h1 : |c| ≤ A * T + h := by
    have : |c| ≤ |c - e| + |e| := by
      have := abs_add_le (c - e) e; rwa [sub_add_cancel] at this
    linarith
  have h2 : |c * d - e * f| ≤ |c| * |d - f| + |c - e| * |f| := by
    have := abs_add_le (c * (d - f)) ((c - e) * f)
    rw [abs_mul, abs_mul, show c * (d - f) + (c - e) * f = c * d - e * f by ring] at this
    exact this
  have h3 : |c| * |d - f| ≤ (A * T + h) * ((B - 1) * S + g) :=
    mul_le_mul h1 hd (abs_nonneg _) ((abs_nonneg _).trans h1)
  have h4 : |c - e| * |f| ≤ ((A - 1) * T + h) * S := mul_le_mul hc hf (abs_nonneg _) ((abs_nonneg _).trans hc)
  linarith [show (A * B - 1) * (T * S) + (A * T * g + B * S * h + h * g) =
    (A * T + h) * ((B - 1) * S + g) + ((A - 1) * T + h) * S by ring]

theorem mul (a : Appr x j e T h) (b : Appr y k f S g) :
    Appr (x * y) (j + k + 1) (e * f) (T * S) ((1 + u) * ((1 + u) ^ j * T * g + (1 + u) ^ k * S * h + h * g) + eta) := by
  have hT := a.T_nonneg
  have hS := b.T_nonneg
  have hh := a.nonneg
  have hg := b.nonneg
  have hu := u_pos (K := K)
  have he := eta_pos (K := K)
  have hb : |e * f| ≤ T * S := by
    rw [abs_mul]; exact mul_le_mul a.bound b.bound (abs_nonneg _) hT
  refine ⟨Fl.wf_mul _ _, hb, by positivity, fun c hc => ?_⟩
  obtain ⟨p, q, hp, hq⟩ := Fl.mul_finite hc
  have h1 := mul_exact a.bound b.bound (a.err p hp) (b.err q hq)
  have h2 := Fl.mul_err hp hq hc
  rw [← pow_add] at h1
  -- split the underflow error off
  obtain ⟨c', h3, h4⟩ : ∃ c', |c' - p * q| ≤ u * |p * q| ∧ |c - c'| ≤ eta := by
    rcases le_or_gt |c - p * q| (u * |p * q|) with h3 | h3
    · exact ⟨c, h3, by rw [sub_self, abs_zero]; exact he.le⟩
    · have h0 : 0 ≤ u * |p * q| := by positivity
      rcases le_or_gt 0 (c - p * q) with h5 | h5
      · rw [abs_of_nonneg h5] at h2 h3
        refine ⟨p * q + u * |p * q|, by rw [add_sub_cancel_left, abs_of_nonneg h0], ?_⟩
        rw [abs_of_nonneg (by linarith)]; linarith
      · rw [abs_of_neg h5] at h2 h3
        refine ⟨p * q - u * |p * q|, by rw [sub_sub_cancel_left, abs_neg, abs_of_nonneg h0], ?_⟩
        rw [abs_of_nonpos (by linarith)]; linarith
  have h5 := step hb h1 h3
  rw [pow_succ]
  have h6 := abs_add_le (c - c') (c' - e * f)
  rw [sub_add_sub_cancel] at h6
  linarith

/-- product of two inputs -/
theorem prod {a b : K} (hx : x.Holds a) (hy : y.Holds b) : Appr (x * y) 1 (a * b) |a * b| eta :=
  (Appr.mul (leaf hx) (leaf hy)).cast rfl (abs_mul a b).symm (by ring)

/-- product of two inputs that does not underflow -/
theorem prod_normal {a b : K} (hx : x.Holds a) (hy : y.Holds b) (hn : a * b = 0 ∨ nu ≤ |a * b|) :
    Appr (x * y) 1 (a * b) |a * b| 0 :=
  ⟨Fl.wf_mul _ _, le_rfl, le_rfl, fun c hc => by
    have := Fl.mul_err_normal hx.1 hy.1 hc hn
    rw [pow_one]; linarith⟩

end Appr

end Mazth
