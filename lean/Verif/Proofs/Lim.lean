import Verif.Proofs.Appr

/-!
# Ranges of floating-point expressions

`Lim x B`: `x` is a finite datum of the format of size at most `B`.  Used to show that nothing overflows.
-/

set_option linter.unusedSectionVars false
set_option autoImplicit false

namespace Mazth

open RndErr

variable {K : Type} [Field K] [LinearOrder K] [IsStrictOrderedRing K] [Fmt K] [LawfulFmt K] [RndErr K]

/-- finite, a datum of the format, at most `B` in size -/
def Lim (x : Fl K) (B : K) : Prop := ∃ c, x.Holds c ∧ |c| ≤ B

namespace Lim

variable {x y : Fl K} {A B C : K}

theorem leaf {a : K} (h : x.Holds a) (hB : |a| ≤ B) : Lim x B := ⟨a, h, hB⟩

theorem mono (h : Lim x A) (hB : A ≤ B) : Lim x B := by
  obtain ⟨c, h1, h2⟩ := h; exact ⟨c, h1, h2.trans hB⟩

theorem nonneg (h : Lim x A) : 0 ≤ A := by
  obtain ⟨c, _, h2⟩ := h; exact (abs_nonneg c).trans h2

theorem fin (h : Lim x A) : ∃ c, x.Is c := by
  obtain ⟨c, h1, _⟩ := h; exact ⟨c, h1.1⟩

theorem is_le (h : Lim x A) {c : K} (hc : x.Is c) : |c| ≤ A := by
  obtain ⟨d, h1, h2⟩ := h; rwa [h1.1.kunique hc] at h2

theorem neg (h : Lim x A) : Lim (-x) A := by
  obtain ⟨c, h1, h2⟩ := h
  exact ⟨-c, ⟨h1.1.kneg, h1.2.neg⟩, by rwa [abs_neg]⟩

theorem add (h : Lim x A) (h' : Lim y B) (ho : A + B ≤ omega) : Lim (x + y) (65 / 64 * (A + B)) := by
  obtain ⟨a, h1, h2⟩ := h
  obtain ⟨b, k1, k2⟩ := h'
  have hl := u_le (K := K)
  have hs := abs_add_le a b
  obtain ⟨c, hc⟩ := Fl.add_fin h1.1 k1.1 (by linarith)
  refine ⟨c, ⟨hc, Fl.wf_add _ _⟩, ?_⟩
  have he := Fl.add_err h1.1 k1.1 h1.2 k1.2 hc
  have h2' := abs_add_le (c - (a + b)) (a + b)
  rw [sub_add_cancel] at h2'
  have : u * |a + b| ≤ 1 / 64 * (A + B) := mul_le_mul hl (by linarith) (abs_nonneg _) (by norm_num)
  linarith

theorem sub (h : Lim x A) (h' : Lim y B) (ho : A + B ≤ omega) : Lim (x - y) (65 / 64 * (A + B)) := by
  exact h.add h'.neg ho

theorem mul (h : Lim x A) (h' : Lim y B) (ho : A * B ≤ omega) : Lim (x * y) (65 / 64 * (A * B) + eta) := by
  obtain ⟨a, h1, h2⟩ := h
  obtain ⟨b, k1, k2⟩ := h'
  have hl := u_le (K := K)
  have hs : |a * b| ≤ A * B := by rw [abs_mul]; exact mul_le_mul h2 k2 (abs_nonneg _) ((abs_nonneg _).trans h2)
  obtain ⟨c, hc⟩ := Fl.mul_fin h1.1 k1.1 (by linarith)
  refine ⟨c, ⟨hc, Fl.wf_mul _ _⟩, ?_⟩
  have he := Fl.mul_err h1.1 k1.1 hc
  have h2' := abs_add_le (c - a * b) (a * b)
  rw [sub_add_cancel] at h2'
  have : u * |a * b| ≤ 1 / 64 * (A * B) := mul_le_mul hl hs (abs_nonneg _) (by norm_num)
  linarith

end Lim

/-- the range of a dot product of three components -/
theorem Lim.dot3 {x1 x2 x3 y1 y2 y3 : Fl K} {A B : K} (h1 : Lim x1 A) (h2 : Lim x2 A) (h3 : Lim x3 A)
    (g1 : Lim y1 B) (g2 : Lim y2 B) (g3 : Lim y3 B) (he : (eta : K) ≤ 1) (ho : 4 * (A * B + 1) ≤ omega) :
    Lim (x1 * y1 + x2 * y2 + x3 * y3) (4 * (A * B + 1)) := by
  have h0 : 0 ≤ A * B := mul_nonneg h1.nonneg g1.nonneg
  have p1 := h1.mul g1 (by linarith)
  have p2 := h2.mul g2 (by linarith)
  have p3 := h3.mul g3 (by linarith)
  have s := p1.add p2 (by linarith)
  exact (s.add p3 (by linarith)).mono (by linarith)

/-- `x.Holds a` and a bound on `a` -/
theorem Lim.of_holds {x : Fl K} {a B : K} (h : x.Holds a) (hB : |a| ≤ B) : Lim x B := ⟨a, h, hB⟩

end Mazth
