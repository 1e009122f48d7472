import Verif.Float.Binary
import Verif.Float.Lawful
import Mathlib.Tactic.Positivity
import Mathlib.Tactic.Zify
import Mathlib.Tactic.FieldSimp
import Mathlib.Data.Nat.Log
import Mathlib.Data.Nat.Sqrt

/-!
# The binary formats satisfy the rounding laws

Facts about `Verif/Float/Binary.lean`: `ilog2` is the binary logarithm, `rne` is round-to-nearest-even, rounding is
monotone, odd, idempotent and has relative error at most `2⁻ᵖ` (absent underflow); `sqrtQ` is within half an ulp of the
square root.  `instLawfulFmtQ64`, `instLawfulFmtQ32` package the laws.
-/

set_option linter.unusedSectionVars false
set_option autoImplicit false

namespace Mazth
namespace Bin

theorem pow2_eq (u : ℤ) : pow2 u = (2 : ℚ) ^ u := by
  unfold pow2; split
  · rename_i h
    obtain ⟨n, rfl⟩ := Int.eq_ofNat_of_zero_le h
    simp
  · rename_i h
    obtain ⟨n, hn⟩ := Int.eq_ofNat_of_zero_le (show 0 ≤ -u by omega)
    have : u = -(n : ℤ) := by omega
    subst this
    rw [Rat.mkRat_eq_div]
    simp

theorem pow2_pos (u : ℤ) : 0 < pow2 u := by rw [pow2_eq]; positivity

theorem pow2_add (u w : ℤ) : pow2 (u + w) = pow2 u * pow2 w := by
  simp only [pow2_eq]; rw [zpow_add₀ (by norm_num)]

theorem pow2_le {u w : ℤ} : pow2 u ≤ pow2 w ↔ u ≤ w := by
  simp only [pow2_eq]; exact zpow_le_zpow_iff_right₀ (by norm_num)

theorem pow2_lt {u w : ℤ} : pow2 u < pow2 w ↔ u < w := by
  simp only [pow2_eq]; exact zpow_lt_zpow_iff_right₀ (by norm_num)

@[simp] theorem pow2_zero : pow2 0 = 1 := by rw [pow2_eq]; simp
@[simp] theorem pow2_one : pow2 1 = 2 := by rw [pow2_eq]; simp

/-- `2^k`, `k ≥ 0`, is an integer -/
theorem pow2_int {k : ℤ} (h : 0 ≤ k) : ∃ m : ℤ, 1 ≤ m ∧ pow2 k = m := by
  obtain ⟨n, rfl⟩ := Int.eq_ofNat_of_zero_le h
  refine ⟨2 ^ n, ?_, by rw [pow2_eq]; simp⟩
  exact one_le_pow₀ (by norm_num)

/-- `ilog2` is the binary logarithm -/
theorem ilog2_spec {q : ℚ} (hq : 0 < q) : pow2 (ilog2 q) ≤ q ∧ q < pow2 (ilog2 q + 1) := by
  set n := q.num.natAbs with hn
  set d := q.den with hd
  have hnum : 0 < q.num := Rat.num_pos.mpr hq
  have hn0 : n ≠ 0 := Int.natAbs_ne_zero.mpr hnum.ne'
  have hd0 : d ≠ 0 := q.den_nz
  have hqe : q = (n : ℚ) / d := by
    conv_lhs => rw [← Rat.num_div_den q]
    congr 1
    have : (q.num : ℤ) = (n : ℤ) := by omega
    rw [this]; simp
  have a1 : 2 ^ Nat.log2 n ≤ n := Nat.log2_self_le hn0
  have a2 : n < 2 ^ (Nat.log2 n + 1) := Nat.lt_log2_self
  have b1 : 2 ^ Nat.log2 d ≤ d := Nat.log2_self_le hd0
  have b2 : d < 2 ^ (Nat.log2 d + 1) := Nat.lt_log2_self
  have a1' : (2 : ℚ) ^ Nat.log2 n ≤ n := by exact_mod_cast a1
  have a2' : (n : ℚ) < 2 ^ (Nat.log2 n + 1) := by exact_mod_cast a2
  have b1' : (2 : ℚ) ^ Nat.log2 d ≤ d := by exact_mod_cast b1
  have b2' : (d : ℚ) < 2 ^ (Nat.log2 d + 1) := by exact_mod_cast b2
  have hdp : (0 : ℚ) < d := by positivity
  set a := Nat.log2 n
  set b := Nat.log2 d
  have lo : pow2 ((a : ℤ) - b - 1) < q := by
    rw [hqe, lt_div_iff₀ hdp, pow2_eq]
    calc (2 : ℚ) ^ ((a : ℤ) - b - 1) * d < 2 ^ ((a : ℤ) - b - 1) * 2 ^ (b + 1) := by gcongr
      _ = 2 ^ a := by
          rw [← zpow_natCast, ← zpow_add₀ (by norm_num), ← zpow_natCast]; congr 1; push_cast; ring
      _ ≤ n := a1'
  have hi : q < pow2 ((a : ℤ) - b + 1) := by
    rw [hqe, div_lt_iff₀ hdp, pow2_eq]
    calc (n : ℚ) < 2 ^ (a + 1) := a2'
      _ = 2 ^ ((a : ℤ) - b + 1) * 2 ^ b := by
          rw [← zpow_natCast, ← zpow_natCast, ← zpow_add₀ (by norm_num)]; congr 1; push_cast; ring
      _ ≤ _ := by gcongr
  unfold ilog2
  simp only
  split
  · exact ⟨‹_›, hi⟩
  · rename_i h
    refine ⟨lo.le, ?_⟩
    have := not_le.mp h
    rwa [sub_add_cancel]

theorem ilog2_le {q : ℚ} (hq : 0 < q) {k : ℤ} (h : q < pow2 (k + 1)) : ilog2 q ≤ k := by
  have := (ilog2_spec hq).1.trans_lt h
  rw [pow2_lt] at this; omega

theorem le_ilog2 {q : ℚ} (hq : 0 < q) {k : ℤ} (h : pow2 k ≤ q) : k ≤ ilog2 q := by
  have := h.trans_lt (ilog2_spec hq).2
  rw [pow2_lt] at this; omega

theorem ilog2_unique {q : ℚ} {k : ℤ} (h : pow2 k ≤ q) (h' : q < pow2 (k + 1)) : ilog2 q = k :=
  _root_.le_antisymm (ilog2_le ((pow2_pos k).trans_le h) h') (le_ilog2 ((pow2_pos k).trans_le h) h)

theorem ilog2_mono {q r : ℚ} (hq : 0 < q) (h : q ≤ r) : ilog2 q ≤ ilog2 r :=
  le_ilog2 (hq.trans_le h) ((ilog2_spec hq).1.trans h)

theorem ilog2_pow2 (k : ℤ) : ilog2 (pow2 k) = k := ilog2_unique _root_.le_rfl (pow2_lt.mpr (by omega))

theorem ilog2_two_mul {q : ℚ} (hq : 0 < q) : ilog2 (2 * q) = ilog2 q + 1 := by
  obtain ⟨h1, h2⟩ := ilog2_spec hq
  apply ilog2_unique
  · rw [pow2_add, pow2_one]; linarith
  · rw [pow2_add, pow2_one]; linarith

/-! ### rounding to integer -/

theorem rne_floor (q : ℚ) : (q.floor : ℚ) ≤ q ∧ q < q.floor + 1 := by
  have h1 : (⌊q⌋ : ℚ) ≤ q := Int.floor_le q
  have h2 : q < ⌊q⌋ + 1 := Int.lt_floor_add_one q
  exact ⟨h1, h2⟩

theorem rne_err (q : ℚ) : |(rne q : ℚ) - q| ≤ 1 / 2 := by
  obtain ⟨h1, h2⟩ := rne_floor q
  rw [abs_le]
  unfold rne; simp only
  split_ifs <;> push_cast <;> constructor <;> linarith

/-- ties go to the even integer -/
theorem rne_tie (q : ℚ) (h : |(rne q : ℚ) - q| = 1 / 2) : rne q % 2 = 0 := by
  obtain ⟨h1, h2⟩ := rne_floor q
  revert h
  unfold rne; simp only
  split_ifs with c1 c2 c3
  · intro h
    rcases abs_eq (by norm_num : (0:ℚ) ≤ 1/2) |>.mp h with h | h <;> linarith
  · intro h; push_cast at h
    rcases abs_eq (by norm_num : (0:ℚ) ≤ 1/2) |>.mp h with h | h <;> linarith
  · intro _; exact c3
  · intro _; omega

theorem rne_int (n : ℤ) : rne (n : ℚ) = n := by
  have := rne_err (n : ℚ)
  have h2 : |((rne (n : ℚ) - n : ℤ) : ℚ)| < 1 := by push_cast; linarith
  rw [← Int.cast_abs] at h2
  have h3 : |rne (n : ℚ) - n| < 1 := by exact_mod_cast h2
  have := Int.abs_lt_one_iff.mp h3
  omega

theorem rne_mono {q r : ℚ} (h : q ≤ r) : rne q ≤ rne r := by
  by_contra hc
  have hc : rne r + 1 ≤ rne q := by omega
  have h1 := abs_le.mp (rne_err q)
  have h2 := abs_le.mp (rne_err r)
  have hc' : (rne r : ℚ) + 1 ≤ rne q := by exact_mod_cast hc
  -- both are ties at the same value
  have e1 : (rne q : ℚ) - q = 1 / 2 := by linarith [h1.1, h1.2, h2.1, h2.2]
  have e2 : (rne r : ℚ) - r = -(1 / 2) := by linarith [h1.1, h1.2, h2.1, h2.2]
  have t1 := rne_tie q (by rw [e1]; norm_num)
  have t2 := rne_tie r (by rw [e2]; norm_num)
  have : (rne q : ℚ) = rne r + 1 := by linarith
  have : rne q = rne r + 1 := by exact_mod_cast this
  omega

/-- `rne q` is the only integer within one half, even if at exactly one half -/
theorem rne_unique {q : ℚ} {n : ℤ} (h : |(n : ℚ) - q| ≤ 1 / 2) (ht : |(n : ℚ) - q| = 1 / 2 → n % 2 = 0) : rne q = n := by
  have h1 := rne_err q
  have t1 := rne_tie q
  by_contra hne
  have hlt : |rne q - n| < 2 := by
    have : |((rne q - n : ℤ) : ℚ)| ≤ 1 := by
      push_cast
      calc |(rne q : ℚ) - n| = |((rne q : ℚ) - q) - (n - q)| := by congr 1; ring
        _ ≤ |(rne q : ℚ) - q| + |(n : ℚ) - q| := abs_sub _ _
        _ ≤ 1 := by linarith
    rw [← Int.cast_abs] at this
    have : |rne q - n| ≤ 1 := by exact_mod_cast this
    omega
  have h1' := abs_le.mp h1
  have h2' := abs_le.mp h
  have : rne q = n + 1 ∨ rne q = n - 1 := by
    rw [abs_lt] at hlt; omega
  rcases this with e | e
  · have e' : (rne q : ℚ) = n + 1 := by rw [e]; push_cast; ring
    have a : (rne q : ℚ) - q = 1 / 2 := by linarith
    have b : (n : ℚ) - q = -(1 / 2) := by linarith
    have := t1 (by rw [a]; norm_num)
    have := ht (by rw [b]; norm_num)
    omega
  · have e' : (rne q : ℚ) = n - 1 := by rw [e]; push_cast; ring
    have a : (rne q : ℚ) - q = -(1 / 2) := by linarith
    have b : (n : ℚ) - q = (1 / 2) := by linarith
    have := t1 (by rw [a]; norm_num)
    have := ht (by rw [b]; norm_num)
    omega

theorem rne_neg (q : ℚ) : rne (-q) = -rne q := by
  apply rne_unique
  · push_cast
    rw [show -(rne q : ℚ) - -q = -((rne q : ℚ) - q) by ring, abs_neg]; exact rne_err q
  · push_cast
    rw [show -(rne q : ℚ) - -q = -((rne q : ℚ) - q) by ring, abs_neg]
    intro h; have := rne_tie q h; omega

/-! ### rounding to `p` bits -/

variable {p : ℕ} {emin emax : ℤ}

theorem rndQ_neg (v : ℚ) : rndQ p emin (-v) = -rndQ p emin v := by
  unfold rndQ; simp only [abs_neg, neg_div, rne_neg]; push_cast; ring

theorem rndQ_nonneg {v : ℚ} (h : 0 ≤ v) : 0 ≤ rndQ p emin v := by
  unfold rndQ; simp only
  have : (0 : ℤ) ≤ rne (v / pow2 (ulpExp p emin (ilog2 |v|))) := by
    have := rne_mono (q := ((0 : ℤ) : ℚ)) (r := v / pow2 (ulpExp p emin (ilog2 |v|)))
      (by have := pow2_pos (ulpExp p emin (ilog2 |v|)); push_cast; positivity)
    rwa [rne_int] at this
  have h1 : (0 : ℚ) ≤ (rne (v / pow2 (ulpExp p emin (ilog2 |v|))) : ℚ) := by exact_mod_cast this
  have := pow2_pos (ulpExp p emin (ilog2 |v|))
  positivity

theorem rndQ_err {v : ℚ} : |rndQ p emin v - v| ≤ pow2 (ulpExp p emin (ilog2 |v|)) / 2 := by
  unfold rndQ; simp only
  set u := ulpExp p emin (ilog2 |v|)
  have hu := pow2_pos u
  have := rne_err (v / pow2 u)
  have e : (rne (v / pow2 u) : ℚ) * pow2 u - v = ((rne (v / pow2 u) : ℚ) - v / pow2 u) * pow2 u := by
    field_simp
  rw [e, abs_mul, abs_of_pos hu]
  calc _ ≤ 1 / 2 * pow2 u := by gcongr
    _ = _ := by ring

theorem le_ulpExp (e : ℤ) : emin ≤ ulpExp p emin e := le_max_right _ _
theorem ulpExp_mono {e e' : ℤ} (h : e ≤ e') : ulpExp p emin e ≤ ulpExp p emin e' := by
  unfold ulpExp; omega

/-- powers of two bound the rounded value from above -/
theorem rndQ_le_pow2 {v : ℚ} (hv : 0 < v) {k : ℤ} (hk : ulpExp p emin (ilog2 v) ≤ k) (h : v ≤ pow2 k) :
    rndQ p emin v ≤ pow2 k := by
  unfold rndQ; simp only [abs_of_pos hv]
  set u := ulpExp p emin (ilog2 v)
  have hu := pow2_pos u
  obtain ⟨m, _, hm⟩ := pow2_int (show 0 ≤ k - u by omega)
  have e : pow2 k = m * pow2 u := by rw [← hm, ← pow2_add]; congr 1; ring
  have : rne (v / pow2 u) ≤ m := by
    have := rne_mono (q := v / pow2 u) (r := (m : ℚ)) (by rw [div_le_iff₀ hu, ← e]; exact h)
    rwa [rne_int] at this
  rw [e]
  have : (rne (v / pow2 u) : ℚ) ≤ m := by exact_mod_cast this
  gcongr

/-- powers of two bound the rounded value from below -/
theorem pow2_le_rndQ {v : ℚ} (hv : 0 < v) {k : ℤ} (hk : ulpExp p emin (ilog2 v) ≤ k) (h : pow2 k ≤ v) :
    pow2 k ≤ rndQ p emin v := by
  unfold rndQ; simp only [abs_of_pos hv]
  set u := ulpExp p emin (ilog2 v)
  have hu := pow2_pos u
  obtain ⟨m, _, hm⟩ := pow2_int (show 0 ≤ k - u by omega)
  have e : pow2 k = m * pow2 u := by rw [← hm, ← pow2_add]; congr 1; ring
  have : m ≤ rne (v / pow2 u) := by
    have := rne_mono (q := (m : ℚ)) (r := v / pow2 u) (by rw [le_div_iff₀ hu, ← e]; exact h)
    rwa [rne_int] at this
  rw [e]
  have : (m : ℚ) ≤ (rne (v / pow2 u) : ℚ) := by exact_mod_cast this
  gcongr

theorem rndQ_mono_pos (hp : 1 ≤ p) {v w : ℚ} (hv : 0 < v) (h : v ≤ w) : rndQ p emin v ≤ rndQ p emin w := by
  have hw := hv.trans_le h
  have hee := ilog2_mono hv h
  have huu := ulpExp_mono (p := p) (emin := emin) hee
  rcases huu.eq_or_lt with hu | hu
  · unfold rndQ; simp only [abs_of_pos hv, abs_of_pos hw]
    rw [hu]
    have hup := pow2_pos (ulpExp p emin (ilog2 w))
    have : rne (v / pow2 (ulpExp p emin (ilog2 w))) ≤ rne (w / pow2 (ulpExp p emin (ilog2 w))) :=
      rne_mono (by gcongr)
    have : (rne (v / pow2 (ulpExp p emin (ilog2 w))) : ℚ) ≤ rne (w / pow2 (ulpExp p emin (ilog2 w))) := by
      exact_mod_cast this
    gcongr
  · have hlt : ilog2 v < ilog2 w := by
      by_contra hc
      have := ulpExp_mono (p := p) (emin := emin) (not_lt.mp hc)
      omega
    have huw : ulpExp p emin (ilog2 w) ≤ ilog2 w := by
      have := le_ulpExp (p := p) (emin := emin) (ilog2 v)
      unfold ulpExp at *; omega
    refine (rndQ_le_pow2 hv (k := ilog2 w) (by omega) ?_).trans (pow2_le_rndQ hw huw (ilog2_spec hw).1)
    exact (ilog2_spec hv).2.le.trans (pow2_le.mpr (by omega))

/-- a multiple of its own ulp rounds to itself -/
theorem rndQ_exact {v : ℚ} (hv : 0 < v) {m u : ℤ} (hm : v = m * pow2 u) (hu : ulpExp p emin (ilog2 v) ≤ u) :
    rndQ p emin v = v := by
  unfold rndQ; simp only [abs_of_pos hv]
  set u' := ulpExp p emin (ilog2 v)
  obtain ⟨k, _, hk⟩ := pow2_int (show 0 ≤ u - u' by omega)
  have hup := pow2_pos u'
  have e : v / pow2 u' = ((m * k : ℤ) : ℚ) := by
    rw [div_eq_iff hup.ne', hm]; push_cast; rw [← hk, mul_assoc, ← pow2_add]; congr 2; ring
  rw [e, rne_int, ← e]
  field_simp

theorem rndQ_pow2 (hp : 1 ≤ p) {k : ℤ} (hk : emin ≤ k) : rndQ p emin (pow2 k) = pow2 k := by
  apply rndQ_exact (pow2_pos k) (m := 1) (u := k) (by simp)
  rw [ilog2_pow2]; unfold ulpExp; omega

/-- what a rounding step produces is representable -/
theorem rndQ_of_ulp (hp : 1 ≤ p) {r : ℚ} (hr : 0 < r) {m e : ℤ} (hm : r = m * pow2 (ulpExp p emin e))
    (hle : r ≤ pow2 (max (e + 1) (ulpExp p emin e))) : rndQ p emin r = r := by
  set u := ulpExp p emin e with hu
  have hup := pow2_pos u
  have hmin : emin ≤ u := le_ulpExp e
  have hm1 : 1 ≤ m := by
    by_contra hc
    have : (m : ℚ) ≤ 0 := by exact_mod_cast (show m ≤ 0 by omega)
    have := mul_nonpos_of_nonpos_of_nonneg this hup.le
    rw [← hm] at this; linarith
  have hru : pow2 u ≤ r := by
    rw [hm]
    have : (1 : ℚ) ≤ m := by exact_mod_cast hm1
    nlinarith
  rcases le_or_gt (ilog2 r) e with h | h
  · exact rndQ_exact hr hm (ulpExp_mono h)
  · have h1 : pow2 (e + 1) ≤ r := (pow2_le.mpr (by omega)).trans (ilog2_spec hr).1
    rcases le_total (e + 1) u with h2 | h2
    · have : r = pow2 u := by
        apply _root_.le_antisymm _ hru
        rwa [max_eq_right h2] at hle
      rw [this]; exact rndQ_pow2 hp hmin
    · have : r = pow2 (e + 1) := by
        apply _root_.le_antisymm _ h1
        rwa [max_eq_left h2] at hle
      rw [this]; exact rndQ_pow2 hp (by omega)

theorem rndQ_idem (hp : 1 ≤ p) {v : ℚ} (hv : 0 < v) : rndQ p emin (rndQ p emin v) = rndQ p emin v := by
  rcases (rndQ_nonneg (p := p) (emin := emin) hv.le).eq_or_lt with h | h
  · rw [← h]
    unfold rndQ
    simp only [zero_div]
    rw [show rne 0 = 0 by exact_mod_cast rne_int 0]
    simp
  · refine rndQ_of_ulp hp h (m := rne (v / pow2 (ulpExp p emin (ilog2 v)))) (e := ilog2 v) ?_ ?_
    · unfold rndQ; simp only [abs_of_pos hv]
    · exact rndQ_le_pow2 hv (le_max_right _ _) ((ilog2_spec hv).2.le.trans (pow2_le.mpr (le_max_left _ _)))

theorem rndQ_double {v : ℚ} (hv : 0 < v) (h : rndQ p emin v = v) : rndQ p emin (2 * v) = 2 * v := by
  refine rndQ_exact (by linarith) (m := rne (v / pow2 (ulpExp p emin (ilog2 v)))) (u := ulpExp p emin (ilog2 v) + 1) ?_ ?_
  · rw [pow2_add, pow2_one]
    conv_lhs => rw [← h]
    unfold rndQ; simp only [abs_of_pos hv]; ring
  · rw [ilog2_two_mul hv]; unfold ulpExp; omega

/-! ### square root -/

theorem isqrtAux_spec (n k r : ℕ) (h1 : r * r ≤ n) (h2 : n < (r + 2 ^ k) * (r + 2 ^ k)) :
    isqrtAux n k r * isqrtAux n k r ≤ n ∧ n < (isqrtAux n k r + 1) * (isqrtAux n k r + 1) := by
  induction k generalizing r with
  | zero => simpa [isqrtAux] using ⟨h1, h2⟩
  | succ k ih =>
    unfold isqrtAux
    split
    · rename_i h
      apply ih _ h
      have : r + 2 ^ k + 2 ^ k = r + 2 ^ (k + 1) := by ring
      rwa [this]
    · rename_i h
      exact ih _ h1 (not_le.mp h)

theorem isqrt_spec (n : ℕ) : isqrt n * isqrt n ≤ n ∧ n < (isqrt n + 1) * (isqrt n + 1) := by
  unfold isqrt
  apply isqrtAux_spec _ _ _ (by simp)
  rw [zero_add, ← pow_add]
  have : n < 2 ^ (Nat.log2 n + 1) := Nat.lt_log2_self
  refine this.trans_le (Nat.pow_le_pow_right (by norm_num) ?_)
  omega

/-- `isqrt ⌊w⌋` brackets `√w` -/
theorem isqrt_floor {w : ℚ} (hw : 0 ≤ w) :
    ((isqrt w.floor.toNat : ℤ) : ℚ) * ((isqrt w.floor.toNat : ℤ) : ℚ) ≤ w ∧
      w < (((isqrt w.floor.toNat : ℤ) : ℚ) + 1) * (((isqrt w.floor.toNat : ℤ) : ℚ) + 1) := by
  obtain ⟨h1, h2⟩ := rne_floor w
  have hf : 0 ≤ w.floor := Rat.le_floor_iff.mpr (by simpa using hw)
  obtain ⟨s1, s2⟩ := isqrt_spec w.floor.toNat
  set n := isqrt w.floor.toNat
  have e : ((w.floor.toNat : ℤ)) = w.floor := Int.toNat_of_nonneg hf
  have s1' : ((n : ℤ)) * n ≤ w.floor := by rw [← e]; exact_mod_cast s1
  have s2' : w.floor + 1 ≤ ((n : ℤ) + 1) * (n + 1) := by
    have : w.floor < ((n : ℤ) + 1) * (n + 1) := by rw [← e]; exact_mod_cast s2
    omega
  constructor
  · calc ((n : ℤ) : ℚ) * ((n : ℤ) : ℚ) = ((n * n : ℤ) : ℚ) := by push_cast; ring
      _ ≤ (w.floor : ℚ) := by exact_mod_cast s1'
      _ ≤ w := h1
  · calc w < w.floor + 1 := h2
      _ = ((w.floor + 1 : ℤ) : ℚ) := by push_cast; ring
      _ ≤ ((((n : ℤ) + 1) * (n + 1) : ℤ) : ℚ) := by exact_mod_cast s2'
      _ = _ := by push_cast; ring

theorem rneSqrt_nonneg {w : ℚ} : 0 ≤ rneSqrt w := by
  unfold rneSqrt; simp only; split_ifs <;> omega

/-- `rneSqrt w` is within one half of `√w` -/
theorem rneSqrt_spec {w : ℚ} (hw : 0 ≤ w) :
    (0 < (rneSqrt w : ℚ) → ((rneSqrt w : ℚ) - 1 / 2) * ((rneSqrt w : ℚ) - 1 / 2) ≤ w) ∧
      w ≤ ((rneSqrt w : ℚ) + 1 / 2) * ((rneSqrt w : ℚ) + 1 / 2) := by
  obtain ⟨h1, h2⟩ := isqrt_floor hw
  unfold rneSqrt; simp only
  set n : ℤ := (isqrt w.floor.toNat : ℤ)
  have hn : (0 : ℚ) ≤ n := by simp [n]
  have hn1 : 0 < (n : ℚ) → 1 ≤ (n : ℚ) := by
    intro h
    have : 0 < n := by exact_mod_cast h
    exact_mod_cast (show 1 ≤ n by omega)
  split_ifs with c1 c2 c3 <;> push_cast <;> constructor <;> (try intro hpos) <;>
    first | nlinarith | (have := hn1 hpos; nlinarith)

theorem rneSqrt_le {w : ℚ} (hw : 0 ≤ w) {N : ℤ} (hN : 0 ≤ N) (h : w ≤ N * N) : rneSqrt w ≤ N := by
  by_contra hc
  have hc : (N : ℚ) + 1 ≤ rneSqrt w := by exact_mod_cast (show N + 1 ≤ rneSqrt w by omega)
  have hN' : (0 : ℚ) ≤ N := by exact_mod_cast hN
  have := (rneSqrt_spec hw).1 (by linarith)
  nlinarith

theorem le_rneSqrt {w : ℚ} (hw : 0 ≤ w) {N : ℤ} (h : (N : ℚ) * N ≤ w) : N ≤ rneSqrt w := by
  by_contra hc
  have hc : (rneSqrt w : ℚ) + 1 ≤ N := by exact_mod_cast (show rneSqrt w + 1 ≤ N by omega)
  have h0 : (0 : ℚ) ≤ rneSqrt w := by exact_mod_cast rneSqrt_nonneg
  have := (rneSqrt_spec hw).2
  nlinarith

theorem sqrtQ_nonneg {v : ℚ} : 0 ≤ sqrtQ p emin v := by
  unfold sqrtQ; simp only
  have : (0 : ℚ) ≤ (rneSqrt (v / (pow2 (ulpExp p emin (ilog2 v / 2)) * pow2 (ulpExp p emin (ilog2 v / 2)))) : ℚ) := by
    exact_mod_cast rneSqrt_nonneg
  have := pow2_pos (ulpExp p emin (ilog2 v / 2))
  positivity

theorem sqrtQ_le_pow2 {v : ℚ} (hv : 0 < v) {k : ℤ} (hk : ulpExp p emin (ilog2 v / 2) ≤ k) (h : v ≤ pow2 k * pow2 k) :
    sqrtQ p emin v ≤ pow2 k := by
  unfold sqrtQ; simp only
  set u := ulpExp p emin (ilog2 v / 2)
  have hu := pow2_pos u
  obtain ⟨m, hm1, hm⟩ := pow2_int (show 0 ≤ k - u by omega)
  have e : pow2 k = m * pow2 u := by rw [← hm, ← pow2_add]; congr 1; ring
  have : rneSqrt (v / (pow2 u * pow2 u)) ≤ m := by
    apply rneSqrt_le (by positivity) (by omega)
    rw [div_le_iff₀ (by positivity)]
    rw [e] at h; linarith
  rw [e]
  have : (rneSqrt (v / (pow2 u * pow2 u)) : ℚ) ≤ m := by exact_mod_cast this
  gcongr

/-- the square root is representable -/
theorem rndQ_sqrtQ (hp : 1 ≤ p) {v : ℚ} (hv : 0 < v) (h : 0 < sqrtQ p emin v) :
    rndQ p emin (sqrtQ p emin v) = sqrtQ p emin v := by
  refine rndQ_of_ulp hp h (m := rneSqrt (v / (pow2 (ulpExp p emin (ilog2 v / 2)) * pow2 (ulpExp p emin (ilog2 v / 2)))))
    (e := ilog2 v / 2) rfl ?_
  apply sqrtQ_le_pow2 hv (le_max_right _ _)
  rw [← pow2_add]
  exact (ilog2_spec hv).2.le.trans (pow2_le.mpr (by omega))

/-! ### the laws -/

/-- The bounds on the format parameters used by the laws. -/
structure Ok (p : ℕ) (emin emax : ℤ) : Prop where
  p_pos : 1 ≤ p
  emin_nonpos : emin ≤ 0
  emax_pos : 1 < emax

theorem finish_nonneg {r : ℚ} (h : 0 ≤ r) :
    finish emax false r = .inf false ∧ pow2 emax ≤ r ∨ finish emax false r = .fin r ∧ r < pow2 emax := by
  unfold finish
  rw [abs_of_nonneg h]
  by_cases h0 : r = 0
  · right; simp [h0, pow2_pos]
  · by_cases h1 : pow2 emax ≤ r
    · left; simp [h0, h1]
    · right; simp [h0, h1]; exact not_le.mp h1

theorem finish_mono {r s : ℚ} (hr : 0 ≤ r) (h : r ≤ s) : Fl.le (finish emax false r) (finish emax false s) = true := by
  rcases finish_nonneg (emax := emax) hr with ⟨e1, c1⟩ | ⟨e1, c1⟩ <;>
    rcases finish_nonneg (emax := emax) (hr.trans h) with ⟨e2, c2⟩ | ⟨e2, c2⟩ <;> rw [e1, e2] <;> simp [Fl.le, h]
  linarith

theorem lawful (ok : Ok p emin emax) : LawfulFmt (BinQ p emin emax) where
  rnd_pos (v : ℚ) (hv : 0 < v) := by
    have hr := rndQ_nonneg (p := p) (emin := emin) hv.le
    show finish emax (decide (v < 0)) (rndQ p emin v) = .inf false ∨
      ∃ w : ℚ, 0 ≤ w ∧ finish emax (decide (v < 0)) (rndQ p emin v) = .fin w
    rw [decide_eq_false (not_lt.mpr hv.le)]
    rcases finish_nonneg (emax := emax) hr with ⟨e, _⟩ | ⟨e, _⟩
    · exact .inl e
    · exact .inr ⟨_, hr, e⟩
  rnd_neg (v : ℚ) (hv : 0 < v) := by
    show finish emax (decide (-v < 0)) (rndQ p emin (-v)) = Fl.neg (finish emax (decide (v < 0)) (rndQ p emin v))
    rw [decide_eq_false (not_lt.mpr hv.le), decide_eq_true (by linarith : -v < 0), rndQ_neg]
    unfold finish
    by_cases h0 : rndQ p emin v = 0
    · simp [h0, Fl.neg]
    · by_cases h1 : pow2 emax ≤ |rndQ p emin v|
      · simp [h0, h1, Fl.neg]
      · simp [h0, h1, Fl.neg]
  rnd_mono (v w : ℚ) (hv : 0 < v) (h : v ≤ w) := by
    show Fl.le (finish emax (decide (v < 0)) (rndQ p emin v)) (finish emax (decide (w < 0)) (rndQ p emin w)) = true
    rw [decide_eq_false (not_lt.mpr hv.le), decide_eq_false (not_lt.mpr (hv.le.trans h))]
    exact finish_mono (rndQ_nonneg hv.le) (rndQ_mono_pos ok.p_pos hv h)
  rnd_idem (v w : ℚ) (hv : 0 < v) := by
    show finish emax (decide (v < 0)) (rndQ p emin v) = .fin w → 0 < w →
      finish emax (decide (w < 0)) (rndQ p emin w) = .fin w
    rw [decide_eq_false (not_lt.mpr hv.le)]
    intro e hw
    rw [decide_eq_false (not_lt.mpr hw.le)]
    rcases finish_nonneg (emax := emax) (rndQ_nonneg (p := p) (emin := emin) hv.le) with ⟨e', _⟩ | ⟨e', c⟩
    · rw [e'] at e; simp at e
    · rw [e'] at e
      have : rndQ p emin v = w := by simpa using e
      rw [← this, rndQ_idem ok.p_pos hv]; exact e'
  rnd_one := by
    show finish emax (decide ((1 : ℚ) < 0)) (rndQ p emin 1) = .fin (1 : ℚ)
    have : rndQ p emin 1 = 1 := by
      have := rndQ_pow2 (p := p) (emin := emin) ok.p_pos (k := 0) ok.emin_nonpos
      rwa [pow2_zero] at this
    rw [this, decide_eq_false (by norm_num)]
    rcases finish_nonneg (emax := emax) (r := 1) (by norm_num) with ⟨_, c⟩ | ⟨e, _⟩
    · have := pow2_lt.mpr (zero_lt_one.trans ok.emax_pos)
      rw [pow2_zero] at this; linarith
    · exact e
  rnd_two := by
    show finish emax (decide ((2 : ℚ) < 0)) (rndQ p emin 2) = .fin (2 : ℚ)
    have h2 : pow2 1 = 2 := by rw [pow2_eq]; norm_num
    have : rndQ p emin 2 = 2 := by
      have := rndQ_pow2 (p := p) (emin := emin) ok.p_pos (k := 1) (ok.emin_nonpos.trans (by norm_num))
      rwa [h2] at this
    rw [this, decide_eq_false (by norm_num)]
    rcases finish_nonneg (emax := emax) (r := 2) (by norm_num) with ⟨_, c⟩ | ⟨e, _⟩
    · have := pow2_lt.mpr ok.emax_pos
      rw [h2] at this; linarith
    · exact e
  rnd_double (v : ℚ) (hv : 0 < v) := by
    show finish emax (decide (v < 0)) (rndQ p emin v) = .fin v →
      finish emax (decide (2 * v < 0)) (rndQ p emin (2 * v)) = .fin (2 * v) ∨
      finish emax (decide (2 * v < 0)) (rndQ p emin (2 * v)) = .inf false
    rw [decide_eq_false (not_lt.mpr hv.le), decide_eq_false (not_lt.mpr (by linarith : 0 ≤ 2 * v))]
    intro e
    rcases finish_nonneg (emax := emax) (rndQ_nonneg (p := p) (emin := emin) hv.le) with ⟨e', _⟩ | ⟨e', c⟩
    · rw [e'] at e; simp at e
    · rw [e'] at e
      have : rndQ p emin v = v := by simpa using e
      rw [rndQ_double hv this]
      rcases finish_nonneg (emax := emax) (r := 2 * v) (by linarith) with ⟨e, _⟩ | ⟨e, _⟩
      · exact .inr e
      · exact .inl e
  rsqrt_pos (v : ℚ) (hv : 0 < v) := by
    show finish emax false (sqrtQ p emin v) = .inf false ∨ ∃ w : ℚ, 0 ≤ w ∧ finish emax false (sqrtQ p emin v) = .fin w ∧
      (w = 0 ∨ finish emax (decide (w < 0)) (rndQ p emin w) = .fin w)
    rcases finish_nonneg (emax := emax) (sqrtQ_nonneg (p := p) (emin := emin) (v := v)) with ⟨e', _⟩ | ⟨e', c⟩
    · exact .inl e'
    · refine .inr ⟨_, sqrtQ_nonneg, e', ?_⟩
      rcases (sqrtQ_nonneg (p := p) (emin := emin) (v := v)).eq_or_lt with h | h
      · exact .inl h.symm
      · right
        rw [decide_eq_false (not_lt.mpr h.le), rndQ_sqrtQ ok.p_pos hv h]; exact e'
  eps_pos := pow2_pos _

end Bin

instance instLawfulFmtQ64 : LawfulFmt Q64 := Bin.lawful ⟨by norm_num, by norm_num, by norm_num⟩
instance instLawfulFmtQ32 : LawfulFmt Q32 := Bin.lawful ⟨by norm_num, by norm_num, by norm_num⟩

end Mazth
