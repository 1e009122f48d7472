import Verif.Proofs.Grid

/-!
# Binary rounding and powers of two

Multiplying by a power of two commutes with every rounded operation of a binary format, as long as no result leaves the
range of the format at either end.  `Fl.scale2` is the exact multiplication, `Fl.Rg e b` the range: a finite multiple of `2^e` of
size at most `2^b`.
-/

set_option linter.unusedSectionVars false
set_option autoImplicit false

namespace Mazth

open Bin

variable {p : ℕ} {emin emax : ℤ}

/-- `x · 2^k`, exactly (C's `ldexp` with unbounded range): what a change of the unit of length by a power of two does to a stored number -/
def Fl.scale2 (k : ℤ) : Fl (BinQ p emin emax) → Fl (BinQ p emin emax)
  | .nan => .nan
  | .inf s => .inf s
  | .nzero => .nzero
  | .fin v => .fin ((BinQ.q v * pow2 k : ℚ) : BinQ p emin emax)

/-- `x` is a finite multiple of `2^e` of size at most `2^b` -/
def Fl.Rg (e b : ℤ) (x : Fl (BinQ p emin emax)) : Prop := ∃ a : BinQ p emin emax, x.Is a ∧ Gr e a.q ∧ |a.q| ≤ pow2 b

/-! ### rounding and powers of two -/

theorem ilog2_scale {v : ℚ} (hv : 0 < v) (k : ℤ) : ilog2 (v * pow2 k) = ilog2 v + k := by
  obtain ⟨h1, h2⟩ := ilog2_spec hv
  refine ilog2_unique ?_ ?_
  · rw [pow2_add]; exact mul_le_mul_of_nonneg_right h1 (pow2_pos k).le
  · rw [show ilog2 v + k + 1 = (ilog2 v + 1) + k by ring, pow2_add]; exact mul_lt_mul_of_pos_right h2 (pow2_pos k)

theorem abs_scale (v : ℚ) (k : ℤ) : |v * pow2 k| = |v| * pow2 k := by rw [abs_mul, abs_of_pos (pow2_pos k)]

theorem Gr.scale {e : ℤ} {v : ℚ} (h : Gr e v) (k : ℤ) : Gr (e + k) (v * pow2 k) := by
  obtain ⟨n, rfl⟩ := h
  exact ⟨n, by rw [pow2_add, mul_assoc]⟩

/-- a multiple of the unit in its last place is not rounded -/
theorem Gr.rnd_eq {e : ℤ} {v : ℚ} (h : Gr e v) (hu : ulpExp p emin (ilog2 |v|) ≤ e) : rndQ p emin v = v := by
  obtain ⟨n, hn⟩ := h.mono hu
  have e1 : v / pow2 (ulpExp p emin (ilog2 |v|)) = n := by
    rw [div_eq_iff (pow2_pos _).ne']; exact hn
  unfold rndQ
  simp only
  rw [e1, rne_int, ← hn]

/-- rounding where the exponent range does not matter -/
theorem rndQ_shift {v : ℚ} (hv : v ≠ 0) {k : ℤ} (hu : ulpExp p emin (ilog2 |v| + k) = ulpExp p emin (ilog2 |v|) + k) :
    rndQ p emin (v * pow2 k) = rndQ p emin v * pow2 k := by
  unfold rndQ
  simp only
  rw [abs_scale, ilog2_scale (abs_pos.mpr hv), hu, pow2_add, mul_div_mul_right _ _ (pow2_pos k).ne', mul_assoc]

/-- rounding commutes with a power of two on multiples of `2^e`, as long as `2^e` stays in the range of the format -/
theorem rndQ_scale {e k : ℤ} {v : ℚ} (h : Gr e v) (h1 : emin ≤ e) (h2 : emin ≤ e + k) : rndQ p emin (v * pow2 k) = rndQ p emin v * pow2 k := by
  rcases eq_or_ne v 0 with rfl | hv
  · rw [zero_mul, rndQ_zero, zero_mul]
  · rcases le_or_gt (ulpExp p emin (ilog2 |v|)) e with hu | hu
    · rw [h.rnd_eq hu, (h.scale k).rnd_eq]
      rw [abs_scale, ilog2_scale (abs_pos.mpr hv)]
      unfold ulpExp at hu ⊢
      omega
    · refine rndQ_shift hv ?_
      unfold ulpExp at hu ⊢
      omega

theorem rndQ_scale_normal {k : ℤ} {v : ℚ} (h1 : pow2 (emin + p - 1) ≤ |v|) (h2 : pow2 (emin + p - 1) ≤ |v| * pow2 k) :
    rndQ p emin (v * pow2 k) = rndQ p emin v * pow2 k := by
  have hv : 0 < |v| := (pow2_pos _).trans_le h1
  refine rndQ_shift (abs_pos.mp hv) ?_
  have a1 := le_ilog2 hv h1
  have a2 := le_ilog2 (mul_pos hv (pow2_pos k)) h2
  rw [ilog2_scale hv] at a2
  unfold ulpExp
  omega

theorem rndQ_bound (hp : 1 ≤ p) {v : ℚ} {b : ℤ} (h : |v| ≤ pow2 b) (hb : emin ≤ b) : |rndQ p emin v| ≤ pow2 b := by
  rcases eq_or_ne v 0 with rfl | hv
  · rw [rndQ_zero, abs_zero]; exact (pow2_pos b).le
  · have pos : ∀ w : ℚ, 0 < w → w ≤ pow2 b → |rndQ p emin w| ≤ pow2 b := by
      intro w hw hwb
      rw [abs_of_nonneg (rndQ_nonneg hw.le)]
      refine rndQ_le_pow2 hw ?_ hwb
      have : ilog2 w ≤ b := ilog2_le hw (hwb.trans_lt (pow2_lt.mpr (by omega)))
      unfold ulpExp
      omega
    rcases hv.lt_or_gt with h0 | h0
    · have := pos (-v) (by linarith) (by rwa [abs_of_neg h0] at h)
      rwa [rndQ_neg, abs_neg] at this
    · exact pos v h0 (by rwa [abs_of_pos h0] at h)

theorem sqrtQ_scale {v : ℚ} (hv : 0 < v) {k : ℤ} (hu : ulpExp p emin (ilog2 v / 2 + k) = ulpExp p emin (ilog2 v / 2) + k) :
    sqrtQ p emin (v * pow2 (2 * k)) = sqrtQ p emin v * pow2 k := by
  unfold sqrtQ
  simp only
  rw [ilog2_scale hv, show (ilog2 v + 2 * k) / 2 = ilog2 v / 2 + k by omega, hu, pow2_add]
  have e : v * pow2 (2 * k) / (pow2 (ulpExp p emin (ilog2 v / 2)) * pow2 k * (pow2 (ulpExp p emin (ilog2 v / 2)) * pow2 k)) =
      v / (pow2 (ulpExp p emin (ilog2 v / 2)) * pow2 (ulpExp p emin (ilog2 v / 2))) := by
    rw [show 2 * k = k + k by ring, pow2_add]
    have := (pow2_pos k).ne'
    have := (pow2_pos (ulpExp p emin (ilog2 v / 2))).ne'
    field_simp
  rw [e, mul_assoc]

theorem finish_scale {k : ℤ} {neg : Bool} {r : ℚ} (h1 : |r| < pow2 emax) (h2 : |r| * pow2 k < pow2 emax) :
    finish emax neg (r * pow2 k) = Fl.scale2 (p := p) (emin := emin) (emax := emax) k (finish emax neg r) := by
  unfold finish
  by_cases h0 : r = 0
  · subst h0
    simp only [zero_mul, if_true]
    cases neg
    · exact congrArg Fl.fin (zero_mul (pow2 k)).symm
    · rfl
  · rw [if_neg h0, if_neg (mul_ne_zero h0 (pow2_pos k).ne'), abs_scale, if_neg (not_le.mpr h1), if_neg (not_le.mpr h2)]
    rfl

/-- the exact multiple as a value -/
def BinQ.sc (k : ℤ) (a : BinQ p emin emax) : BinQ p emin emax := (a.q * pow2 k : ℚ)

theorem BinQ.q_sc (k : ℤ) (a : BinQ p emin emax) : (a.sc k).q = a.q * pow2 k := rfl
theorem BinQ.sc_zero (k : ℤ) : (0 : BinQ p emin emax).sc k = 0 := BinQ.q_inj (zero_mul _)
theorem BinQ.sc_eq_zero {k : ℤ} {a : BinQ p emin emax} : a.sc k = 0 ↔ a = 0 :=
  ⟨fun h => BinQ.q_inj ((mul_eq_zero.mp (show a.q * pow2 k = 0 from h)).resolve_right (pow2_pos k).ne'), fun h => h ▸ BinQ.sc_zero k⟩
theorem BinQ.sc_add (k : ℤ) (a b : BinQ p emin emax) : (a + b).sc k = a.sc k + b.sc k :=
  BinQ.q_inj (show (a.q + b.q) * pow2 k = a.q * pow2 k + b.q * pow2 k from add_mul _ _ _)
theorem BinQ.sc_neg (k : ℤ) (a : BinQ p emin emax) : (-a).sc k = -a.sc k :=
  BinQ.q_inj (show -a.q * pow2 k = -(a.q * pow2 k) from neg_mul _ _)
theorem BinQ.sc_mul (j k : ℤ) (a b : BinQ p emin emax) : (a * b).sc (j + k) = a.sc j * b.sc k := BinQ.q_inj (by
  rw [BinQ.q_sc, BinQ.q_mul, BinQ.q_mul, BinQ.q_sc, BinQ.q_sc, pow2_add]; ring)
theorem BinQ.sc_lt {k : ℤ} {a b : BinQ p emin emax} : a.sc k < b.sc k ↔ a < b :=
  show a.q * pow2 k < b.q * pow2 k ↔ a.q < b.q from mul_lt_mul_iff_left₀ (pow2_pos k)
theorem BinQ.sc_le {k : ℤ} {a b : BinQ p emin emax} : a.sc k ≤ b.sc k ↔ a ≤ b :=
  show a.q * pow2 k ≤ b.q * pow2 k ↔ a.q ≤ b.q from mul_le_mul_iff_left₀ (pow2_pos k)
theorem BinQ.sc_neg_iff {k : ℤ} {a : BinQ p emin emax} : a.sc k < 0 ↔ a < 0 := by
  have := BinQ.sc_lt (k := k) (a := a) (b := 0)
  rwa [BinQ.sc_zero] at this
theorem BinQ.sc_div (j k : ℤ) (a b : BinQ p emin emax) : a.sc j / b.sc k = (a / b).sc (j - k) := BinQ.q_inj (by
  show a.q * pow2 j / (b.q * pow2 k) = a.q / b.q * pow2 (j - k)
  rw [pow2_eq, pow2_eq, pow2_eq, zpow_sub₀ (by norm_num)]
  exact mul_div_mul_comm _ _ _ _)

namespace Fl
variable {k j e f b c : ℤ} {x y : Fl (BinQ p emin emax)}

theorem scale2_fin (a : BinQ p emin emax) : scale2 k (fin a) = fin (a.sc k) := rfl
theorem scale2_zero : scale2 k (0 : Fl (BinQ p emin emax)) = 0 := congrArg fin (BinQ.sc_zero k)
theorem scale2_kzero (s : Bool) : scale2 k (zero s : Fl (BinQ p emin emax)) = zero s := by
  cases s
  · exact scale2_zero
  · rfl

theorem Is.scale2 {a : BinQ p emin emax} (h : x.Is a) (k : ℤ) : (scale2 k x).Is (a.sc k) := by
  cases x with
  | nan => exact absurd h (by simp [Is, val])
  | inf s => exact absurd h (by simp [Is, val])
  | nzero => rw [← Option.some.inj h, BinQ.sc_zero]; rfl
  | fin v => rw [← Option.some.inj h]; rfl

/-- a change of unit does not change the outcome of a comparison (also for NaN and infinities) -/
theorem lt_scale2 (x y : Fl (BinQ p emin emax)) : lt (scale2 k x) (scale2 k y) = lt x y := by
  cases x <;> cases y <;> first | rfl | skip
  · show decide (0 < BinQ.sc k _) = decide _
    refine decide_eq_decide.mpr ?_
    have := BinQ.sc_lt (k := k) (a := (0 : BinQ p emin emax)) (b := ‹_›)
    rwa [BinQ.sc_zero] at this
  · show decide (BinQ.sc k _ < 0) = decide _
    exact decide_eq_decide.mpr BinQ.sc_neg_iff
  · exact decide_eq_decide.mpr BinQ.sc_lt

theorem le_scale2 (x y : Fl (BinQ p emin emax)) : le (scale2 k x) (scale2 k y) = le x y := by
  cases x <;> cases y <;> first | rfl | skip
  · refine decide_eq_decide.mpr ?_
    have := BinQ.sc_le (k := k) (a := (0 : BinQ p emin emax)) (b := ‹_›)
    rwa [BinQ.sc_zero] at this
  · refine decide_eq_decide.mpr ?_
    have := BinQ.sc_le (k := k) (a := ‹_›) (b := (0 : BinQ p emin emax))
    rwa [BinQ.sc_zero] at this
  · exact decide_eq_decide.mpr BinQ.sc_le

theorem neg_scale2 (x : Fl (BinQ p emin emax)) : -scale2 k x = scale2 k (-x) := by
  cases x <;> first | rfl | skip
  · exact scale2_zero.symm
  · rename_i v
    show (if BinQ.sc k v = 0 then nzero else fin (-BinQ.sc k v)) = scale2 k (if v = 0 then nzero else fin (-v))
    by_cases h : v = 0
    · rw [if_pos h, if_pos (BinQ.sc_eq_zero.mpr h)]; rfl
    · rw [if_neg h, if_neg (fun h' => h (BinQ.sc_eq_zero.mp h')), scale2_fin, BinQ.sc_neg]

theorem abs_scale2 (x : Fl (BinQ p emin emax)) : Fl.abs (scale2 k x) = scale2 k (Fl.abs x) := by
  cases x <;> first | rfl | skip
  · exact scale2_zero.symm
  · rename_i v
    exact congrArg fin (BinQ.q_inj (abs_scale v.q k))

theorem rnd_scale2 {v : BinQ p emin emax} (h : rndQ p emin (v.q * pow2 k) = rndQ p emin v.q * pow2 k) (h1 : |rndQ p emin v.q| < pow2 emax)
    (h2 : |rndQ p emin v.q| * pow2 k < pow2 emax) : (Fmt.rnd (v.sc k) : Fl (BinQ p emin emax)) = scale2 k (Fmt.rnd v) := by
  show finish emax (decide (v.q * pow2 k < 0)) (rndQ p emin (v.q * pow2 k)) = scale2 k (finish emax (decide (v.q < 0)) (rndQ p emin v.q))
  rw [h, show decide (v.q * pow2 k < 0) = decide (v.q < 0) from decide_eq_decide.mpr BinQ.sc_neg_iff]
  exact finish_scale (p := p) (emin := emin) h1 h2

/-- a rounded value in range -/
theorem rnd_rg {v : BinQ p emin emax} (hp : 1 ≤ p) (hg : Gr e v.q) (hb : |v.q| ≤ pow2 b) (h1 : emin ≤ b) (h2 : b < emax) :
    (Fmt.rnd v : Fl (BinQ p emin emax)).Rg e b := by
  have hr := rndQ_bound (emin := emin) hp hb h1
  have hlt := hr.trans_lt (pow2_lt.mpr h2)
  refine ⟨(rndQ p emin v.q : ℚ), ?_, hg.rnd, hr⟩
  show (finish emax (decide (v.q < 0)) (rndQ p emin v.q)).Is (rndQ p emin v.q)
  unfold finish
  split_ifs with h0 h3 h4
  · rw [h0]; rfl
  · rw [h0]; rfl
  · exact absurd h4 (not_le.mpr hlt)
  · rfl

theorem Rg.mono (h : x.Rg e b) (he : f ≤ e) (hb : b ≤ c) : x.Rg f c := by
  obtain ⟨a, h1, h2, h3⟩ := h
  exact ⟨a, h1, h2.mono he, h3.trans (pow2_le.mpr hb)⟩

theorem Rg.zero : (0 : Fl (BinQ p emin emax)).Rg e b := ⟨0, rfl, Gr.zero e, by rw [BinQ.q_zero, abs_zero]; exact (pow2_pos b).le⟩

theorem Rg.one (he : e ≤ 0) (hb : 0 ≤ b) : (1 : Fl (BinQ p emin emax)).Rg e b :=
  ⟨1, rfl, Gr.mono (e := 0) ⟨1, show (1 : ℚ) = ((1 : ℤ) : ℚ) * pow2 0 by rw [pow2_zero]; norm_num⟩ he,
    show |(1 : ℚ)| ≤ pow2 b by rw [abs_one, ← pow2_zero]; exact pow2_le.mpr hb⟩

/-- cases on a finite number -/
theorem Rg.cases (h : x.Rg e b) : x = nzero ∨ ∃ a : BinQ p emin emax, x = fin a ∧ Gr e a.q ∧ |a.q| ≤ pow2 b := by
  obtain ⟨a, h1, h2, h3⟩ := h
  cases x with
  | nan => exact absurd h1 (by simp [Is, val])
  | inf s => exact absurd h1 (by simp [Is, val])
  | nzero => exact .inl rfl
  | fin v => exact .inr ⟨a, by rw [← Option.some.inj h1], h2, h3⟩

theorem Rg.neg (h : x.Rg e b) : (-x).Rg e b := by
  rcases h.cases with rfl | ⟨a, rfl, h2, h3⟩
  · exact ⟨0, rfl, Gr.zero e, by rw [BinQ.q_zero, abs_zero]; exact (pow2_pos b).le⟩
  · refine ⟨-a, ?_, h2.neg, by rw [BinQ.q_neg, abs_neg]; exact h3⟩
    show (if a = 0 then nzero else fin (-a)).Is (-a)
    split_ifs with h0
    · rw [h0, neg_zero]; rfl
    · rfl

theorem Rg.abs (h : x.Rg e b) : (Fl.abs x).Rg e b := by
  rcases h.cases with rfl | ⟨a, rfl, h2, h3⟩
  · exact ⟨0, rfl, Gr.zero e, by rw [BinQ.q_zero, abs_zero]; exact (pow2_pos b).le⟩
  · refine ⟨|a|, rfl, ?_, by rw [BinQ.q_abs, abs_abs]; exact h3⟩
    rw [BinQ.q_abs]
    rcases abs_choice a.q with h | h <;> rw [h]
    · exact h2
    · exact h2.neg

section add
variable (hp : 1 ≤ p) (hx : x.Rg e b) (hy : y.Rg e b) (h0 : emin ≤ b + 1) (h1 : b + 1 < emax)
include hp hx hy h0 h1

theorem Rg.add : (x + y).Rg e (b + 1) := by
  have key (u v : BinQ p emin emax) (gu : Gr e u.q) (gv : Gr e v.q) (bu : |u.q| ≤ pow2 b) (bv : |v.q| ≤ pow2 b) : (addFin u v).Rg e (b + 1) := by
    unfold addFin
    split_ifs with h
    · exact Rg.zero
    · refine rnd_rg hp (gu.add gv) ?_ h0 h1
      rw [pow2_add, pow2_one]
      exact (abs_add_le u.q v.q).trans (by linarith)
  have z : |BinQ.q (0 : BinQ p emin emax)| ≤ pow2 b := by rw [BinQ.q_zero, abs_zero]; exact (pow2_pos b).le
  rcases hx.cases with rfl | ⟨u, rfl, gu, bu⟩ <;> rcases hy.cases with rfl | ⟨v, rfl, gv, bv⟩
  · exact ⟨0, rfl, Gr.zero e, by rw [BinQ.q_zero, abs_zero]; exact (pow2_pos _).le⟩
  · exact key 0 v (Gr.zero e) gv z bv
  · exact key u 0 gu (Gr.zero e) bu z
  · exact key u v gu gv bu bv

theorem add_scale2 (h2 : emin ≤ e) (h3 : emin ≤ e + k) (h4 : b + 1 + k < emax) : scale2 k x + scale2 k y = scale2 k (x + y) := by
  have key (u v : BinQ p emin emax) (gu : Gr e u.q) (gv : Gr e v.q) (bu : |u.q| ≤ pow2 b) (bv : |v.q| ≤ pow2 b) :
      addFin (u.sc k) (v.sc k) = scale2 k (addFin u v) := by
    unfold addFin
    rw [← BinQ.sc_add]
    by_cases h : u + v = 0
    · rw [if_pos h, if_pos (BinQ.sc_eq_zero.mpr h)]; exact scale2_zero.symm
    · rw [if_neg h, if_neg (fun h' => h (BinQ.sc_eq_zero.mp h'))]
      have hb : |(u + v).q| ≤ pow2 (b + 1) := by
        rw [pow2_add, pow2_one]
        exact (abs_add_le u.q v.q).trans (by linarith)
      have hr := rndQ_bound (emin := emin) hp hb h0
      refine rnd_scale2 (rndQ_scale (gu.add gv) h2 h3) (hr.trans_lt (pow2_lt.mpr h1)) ?_
      refine (mul_le_mul_of_nonneg_right hr (pow2_pos k).le).trans_lt ?_
      rw [← pow2_add]; exact pow2_lt.mpr h4
  have z : |BinQ.q (0 : BinQ p emin emax)| ≤ pow2 b := by rw [BinQ.q_zero, abs_zero]; exact (pow2_pos b).le
  rcases hx.cases with rfl | ⟨u, rfl, gu, bu⟩ <;> rcases hy.cases with rfl | ⟨v, rfl, gv, bv⟩
  · rfl
  · have := key 0 v (Gr.zero e) gv z bv
    rw [BinQ.sc_zero] at this
    exact this
  · have := key u 0 gu (Gr.zero e) bu z
    rw [BinQ.sc_zero] at this
    exact this
  · exact key u v gu gv bu bv

theorem Rg.sub : (x - y).Rg e (b + 1) := Rg.add hp hx hy.neg h0 h1

theorem sub_scale2 (h2 : emin ≤ e) (h3 : emin ≤ e + k) (h4 : b + 1 + k < emax) : scale2 k x - scale2 k y = scale2 k (x - y) := by
  rw [Fl.sub_eq, Fl.sub_eq, neg_scale2]; exact add_scale2 hp hx hy.neg h0 h1 h2 h3 h4

end add

section mul
variable (hp : 1 ≤ p) (hx : x.Rg e b) (hy : y.Rg f c) (h0 : emin ≤ b + c) (h1 : b + c < emax)
include hp hx hy h0 h1

theorem Rg.mul : (x * y).Rg (e + f) (b + c) := by
  have zr (s : Bool) : (Fl.zero s : Fl (BinQ p emin emax)).Rg (e + f) (b + c) :=
    ⟨0, by cases s <;> rfl, Gr.zero _, by rw [BinQ.q_zero, abs_zero]; exact (pow2_pos _).le⟩
  have key (s : Bool) (u v : BinQ p emin emax) (gu : Gr e u.q) (gv : Gr f v.q) (bu : |u.q| ≤ pow2 b) (bv : |v.q| ≤ pow2 c) :
      (mulFin s u v).Rg (e + f) (b + c) := by
    unfold mulFin
    split_ifs with h
    · exact zr s
    · refine rnd_rg hp (gu.mul gv) ?_ h0 h1
      rw [BinQ.q_mul, abs_mul, pow2_add]
      exact mul_le_mul bu bv (abs_nonneg _) (pow2_pos _).le
  have z (b : ℤ) : |BinQ.q (0 : BinQ p emin emax)| ≤ pow2 b := by rw [BinQ.q_zero, abs_zero]; exact (pow2_pos b).le
  rcases hx.cases with rfl | ⟨u, rfl, gu, bu⟩ <;> rcases hy.cases with rfl | ⟨v, rfl, gv, bv⟩
  · exact Rg.zero
  · exact key _ 0 v (Gr.zero e) gv (z b) bv
  · exact key _ u 0 gu (Gr.zero f) bu (z c)
  · exact key _ u v gu gv bu bv

theorem mul_scale2 (h2 : emin ≤ e + f) (h3 : emin ≤ e + f + (j + k)) (h4 : b + c + (j + k) < emax) :
    scale2 j x * scale2 k y = scale2 (j + k) (x * y) := by
  have key (s : Bool) (u v : BinQ p emin emax) (gu : Gr e u.q) (gv : Gr f v.q) (bu : |u.q| ≤ pow2 b) (bv : |v.q| ≤ pow2 c) :
      mulFin s (u.sc j) (v.sc k) = scale2 (j + k) (mulFin s u v) := by
    unfold mulFin
    rw [← BinQ.sc_mul]
    by_cases h : u * v = 0
    · rw [if_pos h, if_pos (BinQ.sc_eq_zero.mpr h)]; exact (scale2_kzero s).symm
    · rw [if_neg h, if_neg (fun h' => h (BinQ.sc_eq_zero.mp h'))]
      have hb : |(u * v).q| ≤ pow2 (b + c) := by
        rw [BinQ.q_mul, abs_mul, pow2_add]
        exact mul_le_mul bu bv (abs_nonneg _) (pow2_pos _).le
      have hr := rndQ_bound (emin := emin) hp hb h0
      refine rnd_scale2 (rndQ_scale (gu.mul gv) h2 h3) (hr.trans_lt (pow2_lt.mpr h1)) ?_
      refine (mul_le_mul_of_nonneg_right hr (pow2_pos _).le).trans_lt ?_
      rw [← pow2_add]; exact pow2_lt.mpr h4
  have z (b : ℤ) : |BinQ.q (0 : BinQ p emin emax)| ≤ pow2 b := by rw [BinQ.q_zero, abs_zero]; exact (pow2_pos b).le
  have sg (k : ℤ) (u : BinQ p emin emax) : decide (u.sc k < 0) = decide (u < 0) := decide_eq_decide.mpr BinQ.sc_neg_iff
  rcases hx.cases with rfl | ⟨u, rfl, gu, bu⟩ <;> rcases hy.cases with rfl | ⟨v, rfl, gv, bv⟩
  · exact scale2_zero.symm
  · have := key (!(decide (v < 0))) 0 v (Gr.zero e) gv (z b) bv
    rw [BinQ.sc_zero] at this
    show mulFin (!(decide (v.sc k < 0))) 0 (v.sc k) = _
    rw [sg]; exact this
  · have := key (!(decide (u < 0))) u 0 gu (Gr.zero f) bu (z c)
    rw [BinQ.sc_zero] at this
    show mulFin (!(decide (u.sc j < 0))) (u.sc j) 0 = _
    rw [sg]; exact this
  · show mulFin (xor (decide (u.sc j < 0)) (decide (v.sc k < 0))) (u.sc j) (v.sc k) = _
    rw [sg, sg]; exact key _ u v gu gv bu bv

end mul

/-- a quotient of two numbers in the same unit does not depend on the unit (also for zeros, infinities and NaN) -/
theorem div_scale2_same (x y : Fl (BinQ p emin emax)) : scale2 k x / scale2 k y = x / y := by
  have z : ∀ {a : BinQ p emin emax}, a.sc k = 0 ↔ a = 0 := BinQ.sc_eq_zero
  have key (s : Bool) (u v : BinQ p emin emax) : divFin s (u.sc k) (v.sc k) = divFin s u v := by
    unfold divFin
    simp only [z]
    rw [BinQ.sc_div, sub_self, show (u / v).sc 0 = u / v from BinQ.q_inj (by rw [BinQ.q_sc, pow2_zero, mul_one])]
  have sg (u : BinQ p emin emax) : decide (u.sc k < 0) = decide (u < 0) := decide_eq_decide.mpr BinQ.sc_neg_iff
  cases x <;> cases y <;> first | rfl | skip
  · rename_i s v
    show inf (xor s (decide (v.sc k < 0))) = inf (xor s (decide (v < 0)))
    rw [sg]
  · rename_i v
    have := key (!(decide (v < 0))) 0 v
    rw [BinQ.sc_zero] at this
    show divFin (!(decide (v.sc k < 0))) 0 (v.sc k) = _
    rw [sg]; exact this
  · rename_i u t
    show zero (xor (decide (u.sc k < 0)) t) = zero (xor (decide (u < 0)) t)
    rw [sg]
  · rename_i u
    have := key (!(decide (u < 0))) u 0
    rw [BinQ.sc_zero] at this
    show divFin (!(decide (u.sc k < 0))) (u.sc k) 0 = _
    rw [sg]; exact this
  · rename_i u v
    show divFin (xor (decide (u.sc k < 0)) (decide (v.sc k < 0))) (u.sc k) (v.sc k) = _
    rw [sg, sg]; exact key _ u v

section div
variable (hp : 1 ≤ p) (hx : x.Rg e b) (hy : y.Rg f c)
include hp hx hy

theorem div_scale2 (h0 : emin ≤ b - f) (h1 : b - f < emax) (h2 : emin + p - 1 ≤ e - c) (h3 : emin + p - 1 ≤ e - c + (j - k))
    (h4 : b - f + (j - k) < emax) : scale2 j x / scale2 k y = scale2 (j - k) (x / y) := by
  have key (s : Bool) (u v : BinQ p emin emax) (gu : Gr e u.q) (gv : Gr f v.q) (bu : |u.q| ≤ pow2 b) (bv : |v.q| ≤ pow2 c) :
      divFin s (u.sc j) (v.sc k) = scale2 (j - k) (divFin s u v) := by
    unfold divFin
    by_cases hv : v = 0
    · rw [if_pos hv, if_pos (BinQ.sc_eq_zero.mpr hv)]
      by_cases hu : u = 0
      · rw [if_pos hu, if_pos (BinQ.sc_eq_zero.mpr hu)]; rfl
      · rw [if_neg hu, if_neg (fun h => hu (BinQ.sc_eq_zero.mp h))]; rfl
    · rw [if_neg hv, if_neg (fun h => hv (BinQ.sc_eq_zero.mp h))]
      by_cases hu : u = 0
      · rw [if_pos hu, if_pos (BinQ.sc_eq_zero.mpr hu)]; exact (scale2_kzero s).symm
      · rw [if_neg hu, if_neg (fun h => hu (BinQ.sc_eq_zero.mp h)), BinQ.sc_div]
        have lu : pow2 e ≤ |u.q| := gu.lower.resolve_left fun h => hu (BinQ.q_inj h)
        have lv : pow2 f ≤ |v.q| := gv.lower.resolve_left fun h => hv (BinQ.q_inj h)
        have pv : 0 < |v.q| := (pow2_pos f).trans_le lv
        have eq : (u / v).q = u.q / v.q := rfl
        have lo : pow2 (e - c) ≤ |(u / v).q| := by
          rw [eq, abs_div, le_div_iff₀ pv]
          refine _root_.le_trans (mul_le_mul_of_nonneg_left bv (pow2_pos _).le) ?_
          rw [← pow2_add, sub_add_cancel]; exact lu
        have hi : |(u / v).q| ≤ pow2 (b - f) := by
          rw [eq, abs_div, div_le_iff₀ pv]
          refine _root_.le_trans bu ?_
          refine _root_.le_trans (le_of_eq ?_) (mul_le_mul_of_nonneg_left lv (pow2_pos _).le)
          rw [← pow2_add, sub_add_cancel]
        have hr := rndQ_bound (emin := emin) hp hi h0
        refine rnd_scale2 (rndQ_scale_normal ((pow2_le.mpr h2).trans lo) ?_) (hr.trans_lt (pow2_lt.mpr h1)) ?_
        · refine _root_.le_trans ?_ (mul_le_mul_of_nonneg_right lo (pow2_pos _).le)
          rw [← pow2_add]; exact pow2_le.mpr h3
        · refine (mul_le_mul_of_nonneg_right hr (pow2_pos _).le).trans_lt ?_
          rw [← pow2_add]; exact pow2_lt.mpr h4
  have z (b : ℤ) : |BinQ.q (0 : BinQ p emin emax)| ≤ pow2 b := by rw [BinQ.q_zero, abs_zero]; exact (pow2_pos b).le
  have sg (k : ℤ) (u : BinQ p emin emax) : decide (u.sc k < 0) = decide (u < 0) := decide_eq_decide.mpr BinQ.sc_neg_iff
  rcases hx.cases with rfl | ⟨u, rfl, gu, bu⟩ <;> rcases hy.cases with rfl | ⟨v, rfl, gv, bv⟩
  · rfl
  · have := key (!(decide (v < 0))) 0 v (Gr.zero e) gv (z b) bv
    rw [BinQ.sc_zero] at this
    show divFin (!(decide (v.sc k < 0))) 0 (v.sc k) = _
    rw [sg]; exact this
  · have := key (!(decide (u < 0))) u 0 gu (Gr.zero f) bu (z c)
    rw [BinQ.sc_zero] at this
    show divFin (!(decide (u.sc j < 0))) (u.sc j) 0 = _
    rw [sg]; exact this
  · show divFin (xor (decide (u.sc j < 0)) (decide (v.sc k < 0))) (u.sc j) (v.sc k) = _
    rw [sg, sg]; exact key _ u v gu gv bu bv

end div

section sqrt
variable (hp : 1 ≤ p) (hx : x.Rg e b) (h0 : emin ≤ (b + 1) / 2) (h1 : (b + 1) / 2 < emax)
include hp hx h0 h1

theorem sqrt_scale2 (h2 : emin + p - 1 ≤ e / 2) (h3 : emin + p - 1 ≤ e / 2 + k) (h4 : (b + 1) / 2 + k < emax) :
    Fl.sqrt (scale2 (2 * k) x) = scale2 k (Fl.sqrt x) := by
  rcases hx.cases with rfl | ⟨a, rfl, ga, ba⟩
  · rfl
  · show (if a.sc (2 * k) < 0 then nan else if a.sc (2 * k) = 0 then fin 0 else Fmt.rsqrt (a.sc (2 * k))) =
      scale2 k (if a < 0 then nan else if a = 0 then fin 0 else Fmt.rsqrt a)
    by_cases hn : a < 0
    · rw [if_pos hn, if_pos (BinQ.sc_neg_iff.mpr hn)]; rfl
    · rw [if_neg hn, if_neg (fun h => hn (BinQ.sc_neg_iff.mp h))]
      by_cases hz : a = 0
      · rw [if_pos hz, if_pos (BinQ.sc_eq_zero.mpr hz)]; exact scale2_zero.symm
      · rw [if_neg hz, if_neg (fun h => hz (BinQ.sc_eq_zero.mp h))]
        have pa : 0 < a.q := lt_of_le_of_ne (not_lt.mp hn) (Ne.symm hz)
        have lo : pow2 e ≤ a.q := by
          have := ga.lower.resolve_left fun h => hz (BinQ.q_inj h)
          rwa [abs_of_pos pa] at this
        rw [abs_of_pos pa] at ba
        have l1 := le_ilog2 pa lo
        have l2 : ilog2 a.q ≤ b := ilog2_le pa (ba.trans_lt (pow2_lt.mpr (by omega)))
        have hr : sqrtQ p emin a.q ≤ pow2 ((b + 1) / 2) := by
          refine sqrtQ_le_pow2 pa ?_ (ba.trans ?_)
          · unfold ulpExp; omega
          · rw [← pow2_add]; exact pow2_le.mpr (by omega)
        have hab : |sqrtQ p emin a.q| ≤ pow2 ((b + 1) / 2) := by rw [abs_of_nonneg sqrtQ_nonneg]; exact hr
        show finish emax false (sqrtQ p emin (a.q * pow2 (2 * k))) = scale2 k (finish emax false (sqrtQ p emin a.q))
        rw [sqrtQ_scale pa (by unfold ulpExp; omega)]
        refine finish_scale (p := p) (emin := emin) (hab.trans_lt (pow2_lt.mpr h1)) ?_
        refine (mul_le_mul_of_nonneg_right hab (pow2_pos _).le).trans_lt ?_
        rw [← pow2_add]; exact pow2_lt.mpr h4

end sqrt

theorem fmin_scale2 (x y : Fl (BinQ p emin emax)) : fmin (scale2 k x) (scale2 k y) = scale2 k (fmin x y) := by
  have n (z : Fl (BinQ p emin emax)) : scale2 k z = nan ↔ z = nan := by cases z <;> simp [scale2]
  unfold fmin
  simp only [n, lt_scale2]
  split_ifs <;> rfl

theorem fmax_scale2 (x y : Fl (BinQ p emin emax)) : fmax (scale2 k x) (scale2 k y) = scale2 k (fmax x y) := by
  have n (z : Fl (BinQ p emin emax)) : scale2 k z = nan ↔ z = nan := by cases z <;> simp [scale2]
  unfold fmax
  simp only [n, lt_scale2]
  split_ifs <;> rfl


/-! ### ranges of quotients and roots -/

theorem zero_rg (s : Bool) : (Fl.zero s : Fl (BinQ p emin emax)).Rg e b :=
  ⟨0, by cases s <;> rfl, Gr.zero _, by rw [BinQ.q_zero, abs_zero]; exact (pow2_pos _).le⟩

/-- a finite number in range, an infinity or a NaN -/
def Ext (e b : ℤ) (x : Fl (BinQ p emin emax)) : Prop := x.Rg e b ∨ x = nan ∨ ∃ s, x = inf s

theorem Ext.mono (h : x.Ext e b) (he : f ≤ e) (hb : b ≤ c) : x.Ext f c := h.imp_left fun h => h.mono he hb

theorem Ext.div (hp : 1 ≤ p) (hx : x.Ext e b) (hy : y.Ext f c) (h0 : emin ≤ b - f) (h1 : b - f < emax) : (x / y).Ext (e - c - (p - 1)) (b - f) := by
  have key (s : Bool) (u v : BinQ p emin emax) (gu : Gr e u.q) (gv : Gr f v.q) (bu : |u.q| ≤ pow2 b) (bv : |v.q| ≤ pow2 c) :
      (divFin s u v).Ext (e - c - (p - 1)) (b - f) := by
    unfold divFin
    split_ifs with hv hu hu
    · exact .inr (.inl rfl)
    · exact .inr (.inr ⟨_, rfl⟩)
    · exact .inl (zero_rg s)
    · have lu : pow2 e ≤ |u.q| := gu.lower.resolve_left fun h => hu (BinQ.q_inj h)
      have lv : pow2 f ≤ |v.q| := gv.lower.resolve_left fun h => hv (BinQ.q_inj h)
      have pv : 0 < |v.q| := (pow2_pos f).trans_le lv
      have eq : (u / v).q = u.q / v.q := rfl
      have lo : pow2 (e - c) ≤ |(u / v).q| := by
        rw [eq, abs_div, le_div_iff₀ pv]
        refine _root_.le_trans (mul_le_mul_of_nonneg_left bv (pow2_pos _).le) ?_
        rw [← pow2_add, sub_add_cancel]; exact lu
      have hi : |(u / v).q| ≤ pow2 (b - f) := by
        rw [eq, abs_div, div_le_iff₀ pv]
        refine _root_.le_trans bu ?_
        refine _root_.le_trans (le_of_eq ?_) (mul_le_mul_of_nonneg_left lv (pow2_pos _).le)
        rw [← pow2_add, sub_add_cancel]
      exact .inl (rnd_div lo hi h0 h1)
  have z (b : ℤ) : |BinQ.q (0 : BinQ p emin emax)| ≤ pow2 b := by rw [BinQ.q_zero, abs_zero]; exact (pow2_pos b).le
  rcases hx with hx | rfl | ⟨s, rfl⟩ <;> rcases hy with hy | rfl | ⟨t, rfl⟩
  · rcases hx.cases with rfl | ⟨u, rfl, gu, bu⟩ <;> rcases hy.cases with rfl | ⟨v, rfl, gv, bv⟩
    · exact .inr (.inl rfl)
    · exact key _ 0 v (Gr.zero e) gv (z b) bv
    · exact key _ u 0 gu (Gr.zero f) bu (z c)
    · exact key _ u v gu gv bu bv
  · exact .inr (.inl (by cases x <;> rfl))
  · rcases hx.cases with rfl | ⟨u, rfl, gu, bu⟩
    · exact .inl (zero_rg _)
    · exact .inl (zero_rg _)
  · exact .inr (.inl rfl)
  · exact .inr (.inl rfl)
  · exact .inr (.inl rfl)
  · rcases hy.cases with rfl | ⟨u, rfl, gu, bu⟩
    · exact .inr (.inr ⟨_, rfl⟩)
    · exact .inr (.inr ⟨_, rfl⟩)
  · exact .inr (.inl rfl)
  · exact .inr (.inl rfl)
where
  rnd_div {v : BinQ p emin emax} {l b : ℤ} (lo : pow2 l ≤ |v.q|) (hi : |v.q| ≤ pow2 b) (h1 : emin ≤ b) (h2 : b < emax) :
      (Fmt.rnd v : Fl (BinQ p emin emax)).Rg (l - (p - 1)) b := by
    have hr := rndQ_bound (emin := emin) hp hi h1
    have hlt := hr.trans_lt (pow2_lt.mpr h2)
    refine ⟨(rndQ p emin v.q : ℚ), ?_, Gr.rnd_big lo, hr⟩
    show (finish emax (decide (v.q < 0)) (rndQ p emin v.q)).Is (rndQ p emin v.q)
    unfold finish
    split_ifs with h0 h3 h4
    · rw [h0]; rfl
    · rw [h0]; rfl
    · exact absurd h4 (not_le.mpr hlt)
    · rfl

theorem Ext.sqrt (hx : x.Ext e b) (h0 : emin ≤ (b + 1) / 2) (h1 : (b + 1) / 2 < emax) (hp : 1 ≤ p) : (Fl.sqrt x).Ext (e / 2 - (p - 1)) ((b + 1) / 2) := by
  rcases hx with hx | rfl | ⟨s, rfl⟩
  · rcases hx.cases with rfl | ⟨a, rfl, ga, ba⟩
    · exact .inl (zero_rg true)
    · show (if a < 0 then nan else if a = 0 then fin 0 else Fmt.rsqrt a).Ext _ _
      split_ifs with hn hz
      · exact .inr (.inl rfl)
      · exact .inl (zero_rg false)
      · have pa : 0 < a.q := lt_of_le_of_ne (not_lt.mp hn) (Ne.symm hz)
        have lo : pow2 e ≤ a.q := by
          have := ga.lower.resolve_left fun h => hz (BinQ.q_inj h)
          rwa [abs_of_pos pa] at this
        rw [abs_of_pos pa] at ba
        have l1 := le_ilog2 pa lo
        have l2 : ilog2 a.q ≤ b := ilog2_le pa (ba.trans_lt (pow2_lt.mpr (by omega)))
        have hr : sqrtQ p emin a.q ≤ pow2 ((b + 1) / 2) := by
          refine sqrtQ_le_pow2 pa ?_ (ba.trans ?_)
          · unfold ulpExp; omega
          · rw [← pow2_add]; exact pow2_le.mpr (by omega)
        have hab : |sqrtQ p emin a.q| ≤ pow2 ((b + 1) / 2) := by rw [abs_of_nonneg sqrtQ_nonneg]; exact hr
        have hg : Gr (e / 2 - (p - 1)) (sqrtQ p emin a.q) := by
          unfold sqrtQ
          refine Gr.mono ⟨_, rfl⟩ ?_
          have : ilog2 a.q / 2 - (p - 1) ≤ ulpExp p emin (ilog2 a.q / 2) := le_max_left _ _
          omega
        refine .inl ⟨(sqrtQ p emin a.q : ℚ), ?_, hg, hab⟩
        show (finish emax false (sqrtQ p emin a.q)).Is (sqrtQ p emin a.q)
        unfold finish
        rw [if_neg Bool.false_ne_true]
        split_ifs with h0 h4
        · rw [h0]; rfl
        · exact absurd h4 (not_le.mpr (hab.trans_lt (pow2_lt.mpr h1)))
        · rfl
  · exact .inr (.inl rfl)
  · cases s
    · exact .inr (.inr ⟨_, rfl⟩)
    · exact .inr (.inl rfl)

end Fl

end Mazth
