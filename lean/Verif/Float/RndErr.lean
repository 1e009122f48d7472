import Verif.Float.BinaryLawful
import Verif.Float.ExactOps

/-!
# Rounding errors of the binary formats

`RndErr K` gives the unit roundoff `u`, the largest absolute underflow error `eta`, the smallest normal number `nu` and
the largest power of two `omega` of a format together with the standard model of floating-point arithmetic; it is proved for every binary format with
`emin ≤ -2p`, in particular binary64 and binary32.
-/

set_option linter.unusedSectionVars false
set_option autoImplicit false

namespace Mazth

/-- The standard model: relative error `u`, absolute error `eta` on underflow, none for sums, none above `nu`; no overflow
up to `omega`. -/
class RndErr (K : Type) [Field K] [LinearOrder K] [Fmt K] where
  u : K
  eta : K
  nu : K
  omega : K
  u_pos : 0 < u
  u_le : u ≤ 1 / 64
  eta_pos : 0 < eta
  nu_pos : 0 < nu
  four_le : 4 ≤ omega
  rnd_fin : ∀ v : K, |v| ≤ omega → ∃ w, (Fmt.rnd v : Fl K).Is w
  rsqrt_fin : ∀ v : K, 0 < v → v ≤ omega → ∃ w, (Fmt.rsqrt v : Fl K).Is w
  rnd_err : ∀ v w : K, (Fmt.rnd v : Fl K).Is w → |w - v| ≤ u * |v| + eta
  rnd_normal : ∀ v w : K, nu ≤ |v| → (Fmt.rnd v : Fl K).Is w → |w - v| ≤ u * |v|
  rnd_sum : ∀ a b w : K, Fl.Rep a → Fl.Rep b → a + b ≠ 0 → (Fmt.rnd (a + b) : Fl K).Is w → |w - (a + b)| ≤ u * |a + b|
  rsqrt_err : ∀ v w : K, 0 < v → Fl.Rep v → (Fmt.rsqrt v : Fl K).Is w →
    0 ≤ w ∧ (1 - u) ^ 2 * v ≤ w ^ 2 ∧ w ^ 2 ≤ (1 + u) ^ 2 * v

namespace Bin

variable {p : ℕ} {emin emax : ℤ}

theorem half_ulp (e : ℤ) : pow2 (ulpExp p emin e) / 2 = pow2 (e - p) ∧ emin ≤ e - (p - 1) ∨
    pow2 (ulpExp p emin e) / 2 = pow2 emin / 2 ∧ e - (p - 1) < emin := by
  unfold ulpExp
  rcases le_or_gt emin (e - (p - 1)) with h | h
  · left
    refine ⟨?_, h⟩
    rw [max_eq_left h, show e - ((p : ℤ) - 1) = e - p + 1 by ring, pow2_add, pow2_one]
    ring
  · right
    rw [max_eq_right h.le]; exact ⟨rfl, h⟩

theorem rndQ_zero : rndQ p emin 0 = 0 := by
  unfold rndQ
  simp only [zero_div]
  rw [show rne 0 = 0 by exact_mod_cast rne_int 0]
  simp

theorem rndQ_rel {v : ℚ} : |rndQ p emin v - v| ≤ pow2 (-p) * |v| + pow2 emin / 2 := by
  rcases eq_or_ne v 0 with rfl | hv
  · rw [rndQ_zero]
    have := pow2_pos emin
    simp; positivity
  · have h := rndQ_err (p := p) (emin := emin) (v := v)
    have hv' := abs_pos.mpr hv
    have h1 := pow2_pos (-(p : ℤ))
    have h2 := pow2_pos emin
    rcases half_ulp (p := p) (emin := emin) (ilog2 |v|) with ⟨e, _⟩ | ⟨e, _⟩
    · rw [e, show ilog2 |v| - p = -p + ilog2 |v| by ring, pow2_add] at h
      have := mul_le_mul_of_nonneg_left (ilog2_spec hv').1 h1.le
      linarith
    · rw [e] at h
      have : 0 ≤ pow2 (-(p : ℤ)) * |v| := by positivity
      linarith

theorem rndQ_rel_normal {v : ℚ} (hv : pow2 (emin + p - 1) ≤ |v|) : |rndQ p emin v - v| ≤ pow2 (-p) * |v| := by
  have hv' := (pow2_pos _).trans_le hv
  have h := rndQ_err (p := p) (emin := emin) (v := v)
  have h1 := pow2_pos (-(p : ℤ))
  have h3 := le_ilog2 hv' hv
  rcases half_ulp (p := p) (emin := emin) (ilog2 |v|) with ⟨e, _⟩ | ⟨e, h4⟩
  · rw [e, show ilog2 |v| - p = -p + ilog2 |v| by ring, pow2_add] at h
    have := mul_le_mul_of_nonneg_left (ilog2_spec hv').1 h1.le
    linarith
  · omega

theorem rndQ_rel_mult {v : ℚ} {m : ℤ} (hm : v = m * pow2 emin) : |rndQ p emin v - v| ≤ pow2 (-p) * |v| := by
  rcases eq_or_ne v 0 with rfl | hv
  · rw [rndQ_zero]; simp
  · have hv' := abs_pos.mpr hv
    have h := rndQ_err (p := p) (emin := emin) (v := v)
    have h1 := pow2_pos (-(p : ℤ))
    rcases half_ulp (p := p) (emin := emin) (ilog2 |v|) with ⟨e, _⟩ | ⟨_, h4⟩
    · rw [e, show ilog2 |v| - p = -p + ilog2 |v| by ring, pow2_add] at h
      have := mul_le_mul_of_nonneg_left (ilog2_spec hv').1 h1.le
      linarith
    · have e : rndQ p emin v = v := by
        unfold rndQ
        simp only
        have eu : ulpExp p emin (ilog2 |v|) = emin := max_eq_right h4.le
        rw [eu, hm, mul_div_assoc, div_self (pow2_pos emin).ne', mul_one, rne_int]
      rw [e, sub_self, abs_zero]; positivity

/-- a value of the format is a multiple of `2^emin` -/
theorem rep_mult {v : ℚ} (h : Fl.Rep (K := BinQ p emin emax) v) : ∃ m : ℤ, v = m * pow2 emin := by
  rcases h with h | h
  · have h : v = (0 : ℚ) := h
    exact ⟨0, by rw [h]; simp⟩
  · have e : rndQ p emin v = v := by
      have h : finish emax (decide (v < 0)) (rndQ p emin v) = Fl.fin v := h
      unfold finish at h
      split_ifs at h with h0
      · rw [h0]; exact Fl.fin.inj h
      · exact Fl.fin.inj h
    unfold rndQ at e
    simp only at e
    obtain ⟨k, _, hk⟩ := pow2_int (show 0 ≤ ulpExp p emin (ilog2 |v|) - emin by
      have := le_ulpExp (p := p) (emin := emin) (ilog2 |v|); omega)
    refine ⟨rne (v / pow2 (ulpExp p emin (ilog2 |v|))) * k, ?_⟩
    push_cast
    rw [← hk, mul_assoc, ← pow2_add, sub_add_cancel]
    exact e.symm

theorem finish_is {neg : Bool} {r w : ℚ} (h : (finish emax neg r).Is w) : w = r := by
  unfold finish at h
  split_ifs at h with h0 h1 h2
  · rw [h0]; exact (Option.some.inj h).symm
  · rw [h0]; exact (Option.some.inj h).symm
  · exact absurd h (by simp [Fl.Is, Fl.val])
  · exact (Option.some.inj h).symm

theorem root_upper {x t E v : ℚ} (hx0 : 0 ≤ x) (ht0 : 0 < t) (hE : E * E ≤ v)
    (h1 : (x - t * E) * (x - t * E) ≤ v) : x ^ 2 ≤ (1 + t) ^ 2 * v := by
  by_contra h
  rw [not_le] at h
  have h1 : (x - t * E) * (x - t * E) * (1 + t) ^ 2 < x ^ 2 := by
    calc _ ≤ v * (1 + t) ^ 2 := by gcongr
      _ < _ := by linarith
  have h2 : (x - t * E) * (1 + t) < x := by
    have : ((x - t * E) * (1 + t)) ^ 2 < x ^ 2 := by
      calc _ = (x - t * E) * (x - t * E) * (1 + t) ^ 2 := by ring
        _ < _ := h1
    exact lt_of_pow_lt_pow_left₀ 2 hx0 this
  have h3 : x < (1 + t) * E := by
    have : t * x < t * ((1 + t) * E) := by linarith
    exact lt_of_mul_lt_mul_left this ht0.le
  have h4 : x ^ 2 < ((1 + t) * E) ^ 2 := pow_lt_pow_left₀ h3 hx0 two_ne_zero
  have h5 := mul_le_mul_of_nonneg_left hE (sq_nonneg (1 + t))
  linarith [show ((1 + t) * E) ^ 2 = (1 + t) ^ 2 * (E * E) by ring]

theorem sqrtQ_rel {v : ℚ} (hv : 0 < v) (hp : 1 ≤ p) (hemin : emin ≤ -(2 * p)) (hmin : pow2 emin ≤ v) :
    (1 - pow2 (-p)) ^ 2 * v ≤ sqrtQ p emin v ^ 2 ∧ sqrtQ p emin v ^ 2 ≤ (1 + pow2 (-p)) ^ 2 * v := by
  have he := le_ilog2 hv hmin
  obtain ⟨l1, l2⟩ := ilog2_spec hv
  set e := ilog2 v / 2 with hedef
  have hu : ulpExp p emin e = e - (p - 1) := max_eq_left (by omega)
  have hn := sqrtQ_nonneg (p := p) (emin := emin) (v := v)
  set t := pow2 (-(p : ℤ)) with ht
  have ht0 : 0 < t := pow2_pos _
  have ht1 : t ≤ 1 / 2 := by
    have : pow2 (-(p : ℤ)) ≤ pow2 (-1) := pow2_le.mpr (by omega)
    rw [pow2_eq (-1)] at this; norm_num at this; rw [ht]; linarith
  -- the ulp
  set U := pow2 (e - (p - 1)) with hU
  have hUpos : 0 < U := pow2_pos _
  have hUt : U = 2 * t * pow2 e := by
    rw [hU, ht, show e - ((p : ℤ) - 1) = -p + (e + 1) by ring, pow2_add, pow2_add, pow2_one]; ring
  -- the leading power
  have hE : pow2 e * pow2 e ≤ v := by
    rw [← pow2_add]; exact (pow2_le.mpr (by omega)).trans l1
  set N : ℚ := (rneSqrt (v / (U * U)) : ℚ) with hN
  have hs : sqrtQ p emin v = N * U := by
    unfold sqrtQ; simp only; rw [← hedef, hu]
  rw [hs] at hn ⊢
  obtain ⟨s1, s2⟩ := rneSqrt_spec (w := v / (U * U)) (by positivity)
  rw [← hN] at s1 s2
  have hN0 : 0 ≤ N := by rw [hN]; exact_mod_cast rneSqrt_nonneg
  have s2' : v ≤ (N * U + U / 2) * (N * U + U / 2) := by
    rw [div_le_iff₀ (by positivity)] at s2
    calc v ≤ _ := s2
      _ = _ := by ring
  have hpe := pow2_pos e
  -- `sqrt v ≥ 2^e`, so half an ulp is at most `t * sqrt v`; stated with squares
  have hNpos : 0 < N := by
    rcases hN0.lt_or_eq with h | h
    · exact h
    · exfalso
      rw [← h] at s2'
      have h1 : v ≤ U ^ 2 / 4 := by linarith
      have h2 : U ≤ pow2 e := by rw [hUt]; nlinarith
      nlinarith
  have s1' : (N * U - U / 2) * (N * U - U / 2) ≤ v := by
    have := s1 hNpos
    rw [le_div_iff₀ (by positivity)] at this
    calc _ = _ := by ring
      _ ≤ v := this
  -- work with a rational stand-in for the root
  set x := N * U with hx
  have hx0 : 0 ≤ x := hn
  have hU2 : U / 2 = t * pow2 e := by rw [hUt]; ring
  rw [hU2] at s1' s2'
  set E := pow2 e with hEdef
  have hNU : E / 2 ≤ x := by
    by_contra hc
    rw [not_le] at hc
    have : t * E ≤ E / 2 := by nlinarith
    nlinarith
  constructor
  · -- lower bound
    rcases le_or_gt (v * (1 - t) ^ 2) (x ^ 2) with h | h
    · linarith
    · exfalso
      -- x < (1-t) √v, so x + tE ≤ x + t√v < √v
      have h1 : x ^ 2 < v * (1 - t) ^ 2 := h
      -- (x + tE)² ≥ v, E² ≤ v
      have h2 : v ≤ x ^ 2 + 2 * t * (E * x) + t ^ 2 * E ^ 2 := by nlinarith
      have h3 : E * x < v * (1 - t) := by
        have : (E * x) ^ 2 < (v * (1 - t)) ^ 2 := by
          calc (E * x) ^ 2 = (E * E) * x ^ 2 := by ring
            _ ≤ v * x ^ 2 := by gcongr
            _ < v * (v * (1 - t) ^ 2) := by gcongr
            _ = _ := by ring
        exact lt_of_pow_lt_pow_left₀ 2 (mul_nonneg hv.le (by linarith)) this
      nlinarith [mul_pos ht0 (sub_pos.mpr h3), sq_nonneg t, mul_le_mul_of_nonneg_left hE (sq_nonneg t)]
  · exact root_upper hx0 ht0 hE s1'

theorem finish_fin {neg : Bool} {r : ℚ} (h : |r| < pow2 emax) : ∃ w, (finish emax neg r).Is w := by
  unfold finish
  split_ifs with h0 h1 h2
  · exact ⟨0, rfl⟩
  · exact ⟨0, rfl⟩
  · exact absurd h (not_lt.mpr h2)
  · exact ⟨r, rfl⟩

theorem rndQ_small (hemin : emin ≤ 0) (hemax : 1 ≤ emax) (hp : 1 ≤ p) {v : ℚ} (h : |v| ≤ pow2 (emax - 1)) :
    |rndQ p emin v| < pow2 emax := by
  have key : ∀ v : ℚ, 0 < v → v ≤ pow2 (emax - 1) → |rndQ p emin v| < pow2 emax := by
    intro v hv h
    rw [abs_of_nonneg (rndQ_nonneg hv.le)]
    refine (rndQ_le_pow2 hv (k := emax - 1) ?_ h).trans_lt (pow2_lt.mpr (by omega))
    have : ilog2 v ≤ emax - 1 := ilog2_le hv (h.trans_lt (pow2_lt.mpr (by omega)))
    unfold ulpExp; omega
  rcases lt_trichotomy v 0 with hv | rfl | hv
  · rw [abs_of_neg hv] at h
    have := key (-v) (by linarith) h
    rwa [rndQ_neg, abs_neg] at this
  · rw [rndQ_zero, abs_zero]; exact pow2_pos _
  · rw [abs_of_pos hv] at h; exact key v hv h

/-- the standard model for a binary format -/
@[instance_reducible] def rndErr (hp : 6 ≤ p) (hemin : emin ≤ -(2 * p)) (hemax : 3 ≤ emax) : RndErr (BinQ p emin emax) where
  u := pow2 (-p)
  eta := (pow2 emin / 2 : ℚ)
  nu := pow2 (emin + p - 1)
  omega := pow2 (emax - 1)
  u_pos := pow2_pos _
  u_le := by
    show pow2 (-(p : ℤ)) ≤ (1 / 64 : ℚ)
    have : pow2 (-(p : ℤ)) ≤ pow2 (-6) := pow2_le.mpr (by omega)
    rw [pow2_eq (-6)] at this; norm_num at this; linarith
  eta_pos := by
    show (0 : ℚ) < pow2 emin / 2
    have := pow2_pos emin; positivity
  nu_pos := pow2_pos _
  four_le := by
    show (4 : ℚ) ≤ pow2 (emax - 1)
    have : pow2 2 ≤ pow2 (emax - 1) := pow2_le.mpr (by omega)
    rw [pow2_eq 2] at this; norm_num at this; linarith
  rnd_fin (v : ℚ) h := finish_fin (rndQ_small (by omega) (by omega) (by omega) h)
  rsqrt_fin (v : ℚ) (hv : 0 < v) (h : v ≤ pow2 (emax - 1)) := by
    refine finish_fin ?_
    rw [abs_of_nonneg sqrtQ_nonneg]
    have h1 : (1 : ℚ) ≤ pow2 (emax - 1) := by rw [← pow2_zero]; exact pow2_le.mpr (by omega)
    refine (sqrtQ_le_pow2 hv (k := emax - 1) ?_ (by nlinarith)).trans_lt (pow2_lt.mpr (by omega))
    have : ilog2 v ≤ emax - 1 := ilog2_le hv (h.trans_lt (pow2_lt.mpr (by omega)))
    unfold ulpExp; omega
  rnd_err (v w : ℚ) h := by
    have h : (finish emax (decide (v < 0)) (rndQ p emin v)).Is w := h
    rw [finish_is h]; exact rndQ_rel
  rnd_normal (v w : ℚ) hv h := by
    have h : (finish emax (decide (v < 0)) (rndQ p emin v)).Is w := h
    rw [finish_is h]; exact rndQ_rel_normal hv
  rnd_sum (a b w : ℚ) ha hb _ h := by
    have h : (finish emax (decide (a + b < 0)) (rndQ p emin (a + b))).Is w := h
    rw [finish_is h]
    obtain ⟨m, hm⟩ := rep_mult ha
    obtain ⟨n, hn⟩ := rep_mult hb
    exact rndQ_rel_mult (m := m + n) (by rw [hm, hn]; push_cast; ring)
  rsqrt_err (v w : ℚ) hv hr h := by
    have h : (finish emax false (sqrtQ p emin v)).Is w := h
    rw [finish_is h]
    obtain ⟨m, hm⟩ := rep_mult hr
    have hm1 : 1 ≤ m := by
      by_contra hc
      have : (m : ℚ) ≤ 0 := by exact_mod_cast (show m ≤ 0 by omega)
      have := mul_nonpos_of_nonpos_of_nonneg this (pow2_pos emin).le
      rw [← hm] at this
      exact absurd hv (not_lt.mpr this)
    refine ⟨sqrtQ_nonneg, sqrtQ_rel hv (by omega) hemin ?_⟩
    rw [hm]
    have h1 : (1 : ℚ) ≤ m := by exact_mod_cast hm1
    have := pow2_pos emin
    nlinarith

end Bin

instance instRndErrQ64 : RndErr Q64 := Bin.rndErr (by norm_num) (by norm_num) (by norm_num)
instance instRndErrQ32 : RndErr Q32 := Bin.rndErr (by norm_num) (by norm_num) (by norm_num)

/-! ### the operations -/

namespace Fl

variable {K : Type} [Field K] [LinearOrder K] [IsStrictOrderedRing K] [Fmt K] [LawfulFmt K] [RndErr K]

open RndErr

variable {x y : Fl K} {a b c : K}

/-! finite results come from finite operands -/

theorem add_finite (h : (x + y).Is c) : ∃ a b, x.Is a ∧ y.Is b := by
  cases x with
  | nan => exact absurd h (by cases y <;> simp [← add_def, add, Is, val])
  | inf s =>
    cases y with
    | inf t => exact absurd h (by simp only [← add_def, add]; split <;> simp [Is, val])
    | _ => exact absurd h (by simp [← add_def, add, Is, val])
  | nzero =>
    cases y with
    | nan => exact absurd h (by simp [← add_def, add, Is, val])
    | inf t => exact absurd h (by simp [← add_def, add, Is, val])
    | nzero => exact ⟨0, 0, rfl, rfl⟩
    | fin w => exact ⟨0, w, rfl, rfl⟩
  | fin v =>
    cases y with
    | nan => exact absurd h (by simp [← add_def, add, Is, val])
    | inf t => exact absurd h (by simp [← add_def, add, Is, val])
    | nzero => exact ⟨v, 0, rfl, rfl⟩
    | fin w => exact ⟨v, w, rfl, rfl⟩

theorem neg_finite (h : (-x).Is c) : ∃ a, x.Is a := by
  cases x with
  | nan => exact absurd h (by simp [← neg_def, neg, Is, val])
  | inf s => exact absurd h (by simp [← neg_def, neg, Is, val])
  | nzero => exact ⟨0, rfl⟩
  | fin v => exact ⟨v, rfl⟩

theorem sub_finite (h : (x - y).Is c) : ∃ a b, x.Is a ∧ y.Is b := by
  rw [sub_eq] at h
  obtain ⟨a, b, ha, hb⟩ := add_finite h
  obtain ⟨b', hb'⟩ := neg_finite hb
  exact ⟨a, b', ha, hb'⟩

theorem mul_finite (h : (x * y).Is c) : ∃ a b, x.Is a ∧ y.Is b := by
  cases x with
  | nan => exact absurd h (by cases y <;> simp [← mul_def, mul, Is, val])
  | inf s =>
    cases y with
    | fin w => exact absurd h (by simp only [← mul_def, mul, mulInf]; split <;> simp [Is, val])
    | _ => exact absurd h (by simp [← mul_def, mul, Is, val])
  | nzero =>
    cases y with
    | nan => exact absurd h (by simp [← mul_def, mul, Is, val])
    | inf t => exact absurd h (by simp [← mul_def, mul, Is, val])
    | nzero => exact ⟨0, 0, rfl, rfl⟩
    | fin w => exact ⟨0, w, rfl, rfl⟩
  | fin v =>
    cases y with
    | nan => exact absurd h (by simp [← mul_def, mul, Is, val])
    | inf t => exact absurd h (by simp only [← mul_def, mul, mulInf]; split <;> simp [Is, val])
    | nzero => exact ⟨v, 0, rfl, rfl⟩
    | fin w => exact ⟨v, w, rfl, rfl⟩

theorem sqrt_finite (h : (Fl.sqrt x).Is c) : ∃ a, 0 ≤ a ∧ x.Is a := by
  cases x with
  | nan => exact absurd h (by simp [Fl.sqrt, Is, val])
  | inf s => exact absurd h (by cases s <;> simp [Fl.sqrt, Is, val])
  | nzero => exact ⟨0, le_rfl, rfl⟩
  | fin v =>
    by_cases hv : v < 0
    · exact absurd h (by simp [Fl.sqrt, hv, Is, val])
    · exact ⟨v, not_lt.mp hv, rfl⟩

/-! bounded results are finite -/

theorem add_fin (hx : x.Is a) (hy : y.Is b) (h : |a + b| ≤ omega) : ∃ c, (x + y).Is c := by
  have key : ∃ c, (addFin a b).Is c := by
    unfold addFin
    split_ifs with h0
    · exact ⟨0, rfl⟩
    · exact rnd_fin _ h
  rcases hx.kcases with rfl | ⟨rfl, rfl⟩ <;> rcases hy.kcases with rfl | ⟨rfl, rfl⟩
  · exact key
  · exact key
  · exact key
  · exact ⟨0, rfl⟩

theorem sub_fin (hx : x.Is a) (hy : y.Is b) (h : |a - b| ≤ omega) : ∃ c, (x - y).Is c := by
  rw [sub_eq]; exact add_fin hx hy.kneg (by rwa [← sub_eq_add_neg])

theorem mul_fin (hx : x.Is a) (hy : y.Is b) (h : |a * b| ≤ omega) : ∃ c, (x * y).Is c := by
  have key : ∀ s, ∃ c, (mulFin s a b).Is c := by
    intro s
    unfold mulFin
    split_ifs with h0
    · exact ⟨0, kzeroIs s⟩
    · exact rnd_fin _ h
  rcases hx.kcases with rfl | ⟨rfl, rfl⟩ <;> rcases hy.kcases with rfl | ⟨rfl, rfl⟩
  · exact key _
  · exact key _
  · exact key _
  · exact ⟨0, rfl⟩

theorem div_fin (hx : x.Is a) (hy : y.Is b) (hb : b ≠ 0) (h : |a / b| ≤ omega) : ∃ c, (x / y).Is c := by
  have key : ∀ s, ∃ c, (divFin s a b).Is c := by
    intro s
    unfold divFin
    rw [if_neg hb]
    split_ifs with h0
    · exact ⟨0, kzeroIs s⟩
    · exact rnd_fin _ h
  rcases hx.kcases with rfl | ⟨rfl, rfl⟩ <;> rcases hy.kcases with rfl | ⟨rfl, rfl⟩
  · exact key _
  · exact absurd rfl hb
  · exact key _
  · exact absurd rfl hb

theorem sqrt_fin (hx : x.Is a) (ha : 0 ≤ a) (h : a ≤ omega) : ∃ c, (Fl.sqrt x).Is c := by
  rcases hx.kcases with rfl | ⟨rfl, rfl⟩
  · rcases ha.eq_or_lt with rfl | ha
    · exact ⟨0, by simp [Fl.sqrt, Is, val]⟩
    · obtain ⟨w, hw⟩ := rsqrt_fin a ha h
      exact ⟨w, by simpa [Fl.sqrt, not_lt.mpr ha.le, ha.ne'] using hw⟩
  · exact ⟨0, rfl⟩

/-! errors -/

theorem add_err (hx : x.Is a) (hy : y.Is b) (wx : WF x) (wy : WF y) (h : (x + y).Is c) : |c - (a + b)| ≤ u * |a + b| := by
  have key : ∀ a b : K, Rep a → Rep b → (addFin a b).Is c → |c - (a + b)| ≤ u * |a + b| := by
    intro a b ra rb h
    unfold addFin at h
    split_ifs at h with h0
    · rw [h0, ← Option.some.inj h]; simp
    · exact rnd_sum a b c ra rb h0 h
  have ra := hx.wf_rep wx
  have rb := hy.wf_rep wy
  rcases hx.kcases with rfl | ⟨rfl, rfl⟩ <;> rcases hy.kcases with rfl | ⟨rfl, rfl⟩
  · exact key _ _ ra rb h
  · exact key _ _ ra rb h
  · exact key _ _ ra rb h
  · have : (0 : K) = c := Option.some.inj h
    rw [← this]; simp

theorem sub_err (hx : x.Is a) (hy : y.Is b) (wx : WF x) (wy : WF y) (h : (x - y).Is c) : |c - (a - b)| ≤ u * |a - b| := by
  have := add_err hx hy.kneg wx wy.neg h
  rwa [← sub_eq_add_neg] at this

theorem mul_core (hx : x.Is a) (hy : y.Is b) (h : (x * y).Is c) : a * b = 0 ∧ c = 0 ∨ (Fmt.rnd (a * b) : Fl K).Is c := by
  have key : ∀ (s : Bool) (a b : K), (mulFin s a b).Is c → a * b = 0 ∧ c = 0 ∨ (Fmt.rnd (a * b) : Fl K).Is c := by
    intro s a b h
    unfold mulFin at h
    split_ifs at h with h0
    · exact .inl ⟨h0, (kzeroIs s).kunique h |>.symm⟩
    · exact .inr h
  rcases hx.kcases with rfl | ⟨rfl, rfl⟩ <;> rcases hy.kcases with rfl | ⟨rfl, rfl⟩
  · exact key _ _ _ h
  · exact key _ _ _ h
  · exact key _ _ _ h
  · exact .inl ⟨mul_zero _, (Option.some.inj h).symm⟩

theorem mul_err (hx : x.Is a) (hy : y.Is b) (h : (x * y).Is c) : |c - a * b| ≤ u * |a * b| + eta := by
  rcases mul_core hx hy h with ⟨h0, rfl⟩ | h
  · rw [h0]; simpa using (eta_pos (K := K)).le
  · exact rnd_err _ _ h

theorem mul_err_normal (hx : x.Is a) (hy : y.Is b) (h : (x * y).Is c) (hn : a * b = 0 ∨ nu ≤ |a * b|) : |c - a * b| ≤ u * |a * b| := by
  rcases mul_core hx hy h with ⟨h0, rfl⟩ | h'
  · rw [h0]; simp
  · rcases hn with hn | hn
    · have h1 : (x * y).Is 0 := by
        rcases hx.kcases with rfl | ⟨rfl, rfl⟩ <;> rcases hy.kcases with rfl | ⟨rfl, rfl⟩ <;>
          first | rfl | (simp only [← mul_def, mul, mulFin, hn, if_true]; exact kzeroIs _)
      rw [hn, h.kunique h1]; simp
    · exact rnd_normal _ _ hn h'

theorem div_core (hx : x.Is a) (hy : y.Is b) (hb : b ≠ 0) (h : (x / y).Is c) : a = 0 ∧ c = 0 ∨ (Fmt.rnd (a / b) : Fl K).Is c := by
  have key : ∀ (s : Bool) (a b : K), b ≠ 0 → (divFin s a b).Is c → a = 0 ∧ c = 0 ∨ (Fmt.rnd (a / b) : Fl K).Is c := by
    intro s a b hb h
    unfold divFin at h
    rw [if_neg hb] at h
    split_ifs at h with h0
    · exact .inl ⟨h0, (kzeroIs s).kunique h |>.symm⟩
    · exact .inr h
  rcases hx.kcases with rfl | ⟨rfl, rfl⟩ <;> rcases hy.kcases with rfl | ⟨rfl, rfl⟩
  · exact key _ _ _ hb h
  · exact absurd rfl hb
  · exact key _ _ _ hb h
  · exact absurd rfl hb

theorem div_err (hx : x.Is a) (hy : y.Is b) (hb : b ≠ 0) (h : (x / y).Is c) : |c - a / b| ≤ u * |a / b| + eta := by
  rcases div_core hx hy hb h with ⟨rfl, rfl⟩ | h
  · simpa using (eta_pos (K := K)).le
  · exact rnd_err _ _ h

theorem sqrt_err (hx : x.Is a) (wx : WF x) (h : (Fl.sqrt x).Is c) :
    0 ≤ c ∧ (1 - u) ^ 2 * a ≤ c ^ 2 ∧ c ^ 2 ≤ (1 + u) ^ 2 * a := by
  have ra := hx.wf_rep wx
  rcases hx.kcases with rfl | ⟨rfl, rfl⟩
  · rcases lt_trichotomy a 0 with ha | rfl | ha
    · exact absurd h (by simp [Fl.sqrt, ha, Is, val])
    · have : (0 : K) = c := by
        have : (fin (0 : K)).Is c := by simpa [Fl.sqrt] using h
        exact Option.some.inj this
      rw [← this]; simp
    · apply rsqrt_err a c ha ra
      simpa [Fl.sqrt, not_lt.mpr ha.le, ha.ne'] using h
  · have : (0 : K) = c := Option.some.inj h
    rw [← this]; simp

end Fl

end Mazth
