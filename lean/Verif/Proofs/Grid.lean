import Verif.Float.RndErr
import Verif.Props.FloatAcc

/-!
Multiples of a power of two under binary rounding: rounding keeps a multiple of `2^e` a multiple of `2^e`, and a value of
the format that is not small is a multiple of a power of two that is not small either.  Used to show that a computed value is
either zero or not tiny.
-/

set_option linter.unusedSectionVars false
set_option autoImplicit false

namespace Mazth

open Bin

/-- `x` is an integer multiple of `2^e` -/
def Gr (e : ℤ) (x : ℚ) : Prop := ∃ n : ℤ, x = n * pow2 e

namespace Gr

variable {e f : ℤ} {x y : ℚ}

theorem zero (e : ℤ) : Gr e 0 := ⟨0, by simp⟩

theorem neg (h : Gr e x) : Gr e (-x) := by
  obtain ⟨n, h⟩ := h
  exact ⟨-n, by rw [h]; push_cast; ring⟩

theorem add (h : Gr e x) (h' : Gr e y) : Gr e (x + y) := by
  obtain ⟨n, h⟩ := h
  obtain ⟨m, h'⟩ := h'
  exact ⟨n + m, by rw [h, h']; push_cast; ring⟩

theorem mul (h : Gr e x) (h' : Gr f y) : Gr (e + f) (x * y) := by
  obtain ⟨n, h⟩ := h
  obtain ⟨m, h'⟩ := h'
  exact ⟨n * m, by rw [h, h', pow2_add]; push_cast; ring⟩

theorem mono (h : Gr e x) (hf : f ≤ e) : Gr f x := by
  obtain ⟨n, h⟩ := h
  obtain ⟨k, -, hk⟩ := pow2_int (sub_nonneg.mpr hf)
  refine ⟨n * k, ?_⟩
  push_cast
  rw [h, ← hk, mul_assoc, ← pow2_add, sub_add_cancel]

theorem lower (h : Gr e x) : x = 0 ∨ pow2 e ≤ |x| := by
  obtain ⟨n, h⟩ := h
  rcases eq_or_ne n 0 with rfl | hn
  · exact .inl (by rw [h]; simp)
  · right
    rw [h, abs_mul, abs_of_pos (pow2_pos e)]
    have : (1 : ℚ) ≤ |(n : ℚ)| := by exact_mod_cast Int.one_le_abs hn
    exact le_mul_of_one_le_left (pow2_pos e).le this

end Gr

variable {p : ℕ} {emin emax : ℤ}

theorem Gr.rnd {e : ℤ} {v : ℚ} (h : Gr e v) : Gr e (rndQ p emin v) := by
  unfold rndQ
  simp only
  rcases le_total e (ulpExp p emin (ilog2 |v|)) with hu | hu
  · exact Gr.mono ⟨_, rfl⟩ hu
  · obtain ⟨n, hn⟩ := h.mono hu
    have e1 : v / pow2 (ulpExp p emin (ilog2 |v|)) = n := by
      rw [div_eq_iff (pow2_pos _).ne']; exact hn
    rw [e1, rne_int, ← hn]
    exact h

theorem Gr.rnd_big {k : ℤ} {v : ℚ} (h : pow2 k ≤ |v|) : Gr (k - (p - 1)) (rndQ p emin v) := by
  have h1 := le_ilog2 ((pow2_pos k).trans_le h) h
  unfold rndQ
  simp only
  refine Gr.mono ⟨_, rfl⟩ ?_
  have : ilog2 |v| - (p - 1) ≤ ulpExp p emin (ilog2 |v|) := le_max_left _ _
  omega

theorem rep_rnd {v : ℚ} (h : Fl.Rep (K := BinQ p emin emax) v) : rndQ p emin v = v := by
  rcases h with h | h
  · have h : v = (0 : ℚ) := h
    rw [h, rndQ_zero]
  · have h : finish emax (decide (v < 0)) (rndQ p emin v) = Fl.fin v := h
    unfold finish at h
    split_ifs at h with h0
    · rw [h0]; exact Fl.fin.inj h
    · exact Fl.fin.inj h

theorem Gr.of_rep {k : ℤ} {v : ℚ} (hr : Fl.Rep (K := BinQ p emin emax) v) (h : pow2 k ≤ |v|) : Gr (k - (p - 1)) v := by
  have := Gr.rnd_big (p := p) (emin := emin) h
  rwa [rep_rnd hr] at this

/-- the rational number a value of the format stands for -/
def BinQ.q (x : BinQ p emin emax) : ℚ := x

theorem BinQ.q_add (x y : BinQ p emin emax) : (x + y).q = x.q + y.q := rfl
theorem BinQ.q_sub (x y : BinQ p emin emax) : (x - y).q = x.q - y.q := rfl
theorem BinQ.q_mul (x y : BinQ p emin emax) : (x * y).q = x.q * y.q := rfl
theorem BinQ.q_neg (x : BinQ p emin emax) : (-x).q = -x.q := rfl
theorem BinQ.q_abs (x : BinQ p emin emax) : |x|.q = |x.q| := rfl
theorem BinQ.q_zero : (0 : BinQ p emin emax).q = 0 := rfl
theorem BinQ.q_inj {x y : BinQ p emin emax} (h : x.q = y.q) : x = y := h
theorem BinQ.q_le {x y : BinQ p emin emax} : x.q ≤ y.q ↔ x ≤ y := Iff.rfl

variable [LawfulFmt (BinQ p emin emax)]

/-- a finite sum is the rounded exact sum -/
theorem Fl.add_rndQ {x y : Fl (BinQ p emin emax)} {a b c : BinQ p emin emax} (hx : x.Is a) (hy : y.Is b) (h : (x + y).Is c) :
    c.q = rndQ p emin (a.q + b.q) := by
  have key : ∀ a b : BinQ p emin emax, (Fl.addFin a b).Is c → c.q = rndQ p emin (a.q + b.q) := by
    intro a b h
    unfold Fl.addFin at h
    split_ifs at h with h0
    · rw [← BinQ.q_add, h0, BinQ.q_zero, rndQ_zero, ← Option.some.inj h, BinQ.q_zero]
    · exact finish_is (emax := emax) h
  rcases hx.kcases with rfl | ⟨rfl, rfl⟩ <;> rcases hy.kcases with rfl | ⟨rfl, rfl⟩
  · exact key _ _ h
  · exact key _ _ h
  · exact key _ _ h
  · have : (0 : BinQ p emin emax) = c := Option.some.inj h
    rw [← this, BinQ.q_zero, add_zero, rndQ_zero]

theorem Fl.sub_rndQ {x y : Fl (BinQ p emin emax)} {a b c : BinQ p emin emax} (hx : x.Is a) (hy : y.Is b) (h : (x - y).Is c) :
    c.q = rndQ p emin (a.q + -b.q) := Fl.add_rndQ hx hy.kneg h

/-- a finite product is the rounded exact product -/
theorem Fl.mul_rndQ {x y : Fl (BinQ p emin emax)} {a b c : BinQ p emin emax} (hx : x.Is a) (hy : y.Is b) (h : (x * y).Is c) :
    c.q = rndQ p emin (a.q * b.q) := by
  have key : ∀ (s : Bool) (a b : BinQ p emin emax), (Fl.mulFin s a b).Is c → c.q = rndQ p emin (a.q * b.q) := by
    intro s a b h
    unfold Fl.mulFin at h
    split_ifs at h with h0
    · rw [← BinQ.q_mul, h0, BinQ.q_zero, rndQ_zero, ← (Fl.kzeroIs s).kunique h, BinQ.q_zero]
    · exact finish_is (emax := emax) h
  rcases hx.kcases with rfl | ⟨rfl, rfl⟩ <;> rcases hy.kcases with rfl | ⟨rfl, rfl⟩
  · exact key _ _ _ h
  · exact key _ _ _ h
  · exact key _ _ _ h
  · have : (0 : BinQ p emin emax) = c := Option.some.inj h
    rw [← this, BinQ.q_zero, mul_zero, rndQ_zero]

section ops
variable [RndErr (BinQ p emin emax)] {e f : ℤ} {x y z w : Fl (BinQ p emin emax)} {a b c d r : BinQ p emin emax}

theorem Gr.fadd (hx : x.Is a) (hy : y.Is b) (h : (x + y).Is c) (ha : Gr e a.q) (hb : Gr e b.q) : Gr e c.q := by
  rw [Fl.add_rndQ hx hy h]; exact (ha.add hb).rnd

theorem Gr.fsub (hx : x.Is a) (hy : y.Is b) (h : (x - y).Is c) (ha : Gr e a.q) (hb : Gr e b.q) : Gr e c.q := by
  rw [Fl.sub_rndQ hx hy h]; exact (ha.add hb.neg).rnd

theorem Gr.fmul (hx : x.Is a) (hy : y.Is b) (h : (x * y).Is c) (ha : Gr e a.q) (hb : Gr f b.q) : Gr (e + f) c.q := by
  rw [Fl.mul_rndQ hx hy h]; exact (ha.mul hb).rnd

/-- a component of a cross product -/
theorem Gr.det2 (hx : x.Is a) (hy : y.Is b) (hz : z.Is c) (hw : w.Is d) (h : (x * y - z * w).Is r)
    (ha : Gr e a.q) (hb : Gr f b.q) (hc : Gr e c.q) (hd : Gr f d.q) :
    Gr (e + f) r.q ∧ (a * b = 0 → c * d = 0 → r = 0) := by
  obtain ⟨s, t, hs, ht⟩ := Fl.sub_finite h
  refine ⟨Gr.fsub hs ht h (Gr.fmul hx hy hs ha hb) (Gr.fmul hz hw ht hc hd), fun h1 h2 => BinQ.q_inj ?_⟩
  rw [Fl.sub_rndQ hs ht h, Fl.mul_rndQ hx hy hs, Fl.mul_rndQ hz hw ht, ← BinQ.q_mul, ← BinQ.q_mul, h1, h2, BinQ.q_zero, rndQ_zero,
    neg_zero, add_zero, rndQ_zero]

/-- a sum with one term not small -/
theorem Gr.fadd_big {k : ℤ} (hx : x.Holds a) (hy : y.Holds b) (h : (x + y).Is c) (ha : pow2 k ≤ |a.q|) : Gr (k - p) c.q := by
  have ha' := Gr.of_rep (p := p) (emin := emin) (emax := emax) (hx.1.wf_rep hx.2) ha
  rw [Fl.add_rndQ hx.1 hy.1 h]
  rcases le_or_gt (pow2 (k - 1)) |b.q| with hb | hb
  · have hb' := Gr.of_rep (p := p) (emin := emin) (emax := emax) (hy.1.wf_rep hy.2) hb
    exact ((ha'.mono (by omega)).add (hb'.mono (by omega))).rnd
  · refine Gr.mono (Gr.rnd_big (k := k - 1) ?_) (by omega)
    have h1 : pow2 k = 2 * pow2 (k - 1) := by
      rw [← pow2_one, ← pow2_add]; congr 1; ring
    have h2 := abs_sub_abs_le_abs_sub a.q (-b.q)
    rw [abs_neg, sub_neg_eq_add] at h2
    linarith

end ops

end Mazth
