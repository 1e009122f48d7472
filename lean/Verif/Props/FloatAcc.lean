import Verif.Proofs.Appr
import Verif.Spec.Euclid
import Verif.Model.Vec
import Verif.Model.Quat

/-!
# C55: accuracy of dot, magnitude and normalisation in floating point

The theorems hold for every format with the standard error model (`RndErr`), in particular binary64 (`u = 2^-53`,
`eta = 2^-1075`, `nu = 2^-1022`) and binary32 (`u = 2^-24`, `eta = 2^-150`, `nu = 2^-126`), see `C55_constants`.
-/

set_option linter.unusedSectionVars false
set_option autoImplicit false

namespace Mazth

open RndErr

/-- all components are finite data of the format, with values `A` -/
def Mat3x1.Holds {K : Type} [Field K] [LinearOrder K] [Fmt K] [IsStrictOrderedRing K] (a : Mat3x1 (Fl K)) (A : Fin 3 → K) : Prop :=
  ∀ i : Fin 3, (a.val[i]).Holds (A i)

/-- C55: the constants of the two formats of the library. -/
theorem C55_constants :
    (u : Q64) = ((2 : ℚ) ^ (-53 : ℤ) : ℚ) ∧ (eta : Q64) = ((2 : ℚ) ^ (-1075 : ℤ) : ℚ) ∧ (nu : Q64) = ((2 : ℚ) ^ (-1022 : ℤ) : ℚ) ∧
      (omega : Q64) = ((2 : ℚ) ^ (1023 : ℤ) : ℚ) ∧
    (u : Q32) = ((2 : ℚ) ^ (-24 : ℤ) : ℚ) ∧ (eta : Q32) = ((2 : ℚ) ^ (-150 : ℤ) : ℚ) ∧ (nu : Q32) = ((2 : ℚ) ^ (-126 : ℤ) : ℚ) ∧
      (omega : Q32) = ((2 : ℚ) ^ (127 : ℤ) : ℚ) := by
  refine ⟨Bin.pow2_eq _, ?_, Bin.pow2_eq _, Bin.pow2_eq _, Bin.pow2_eq _, ?_, Bin.pow2_eq _, Bin.pow2_eq _⟩
  · show Bin.pow2 (-1074) / 2 = (2 : ℚ) ^ (-1075 : ℤ)
    rw [Bin.pow2_eq, show (-1075 : ℤ) = -1074 - 1 by norm_num, zpow_sub_one₀ (by norm_num)]; rfl
  · show Bin.pow2 (-149) / 2 = (2 : ℚ) ^ (-150 : ℤ)
    rw [Bin.pow2_eq, show (-150 : ℤ) = -149 - 1 by norm_num, zpow_sub_one₀ (by norm_num)]; rfl

/-- the embedding of a binary format's rationals into the reals -/
noncomputable def BinQ.real {p : ℕ} {emin emax : ℤ} : BinQ p emin emax →+* ℝ := Rat.castHom ℝ

theorem BinQ.real_strictMono {p : ℕ} {emin emax : ℤ} : StrictMono (BinQ.real (p := p) (emin := emin) (emax := emax)) :=
  fun (a b : ℚ) (h : a < b) => show ((a : ℚ) : ℝ) < (b : ℝ) from Rat.cast_lt.mpr h

/-! Data for the examples: the binary64 vectors `(1, 2, 3)` and `(-4, 0, 5)`, and rough sizes of the constants. -/

def A123 : Fin 3 → Q64 := ![1, 2, 3]
def B405 : Fin 3 → Q64 := ![-4, 0, 5]
def a123 : Mat3x1 (Fl Q64) := ⟨#v[.fin 1, .fin 2, .fin 3]⟩
def b405 : Mat3x1 (Fl Q64) := ⟨#v[.fin (-4), .fin 0, .fin 5]⟩

theorem a123_holds : a123.Holds A123 := fun i => by fin_cases i <;> exact ⟨rfl, .inr (by decide +kernel)⟩
theorem b405_holds : b405.Holds B405 := fun i => by
  fin_cases i
  · exact ⟨rfl, .inr (by decide +kernel)⟩
  · exact ⟨rfl, .inl rfl⟩
  · exact ⟨rfl, .inr (by decide +kernel)⟩
theorem one64_holds : (.fin 1 : Fl Q64).Holds 1 := ⟨rfl, .inr (by decide +kernel)⟩

theorem one_nu : (nu : Q64) ≤ 1 := by
  rw [C55_constants.2.2.1]
  show (2 : ℚ) ^ (-1022 : ℤ) ≤ 1
  exact zpow_le_one_of_nonpos₀ (by norm_num) (by norm_num)
theorem eta_u : (eta : Q64) ≤ u := by
  rw [C55_constants.2.1, C55_constants.1]
  show (2 : ℚ) ^ (-1075 : ℤ) ≤ 2 ^ (-53 : ℤ)
  exact zpow_le_zpow_right₀ (by norm_num) (by norm_num)
theorem u_small : (u : Q64) ≤ 1 / 1024 := by
  rw [C55_constants.1]
  exact (by norm_num : (2 : ℚ) ^ (-53 : ℤ) ≤ 1 / 1024)
theorem eta_tiny : (eta : Q64) ≤ 1 / 64 := (eta_u.trans u_small).trans (by norm_num)
theorem omega_big : (1000000 : Q64) ≤ omega := by
  rw [C55_constants.2.2.2.1]
  exact (by norm_num : (1000000 : ℚ) ≤ 2 ^ (20 : ℤ)).trans (zpow_le_zpow_right₀ (by norm_num) (by norm_num : (20 : ℤ) ≤ 1023))
theorem u_omega_big : (1000000 : Q64) ≤ u * omega := by
  rw [C55_constants.1, C55_constants.2.2.2.1]
  have h : (2 : ℚ) ^ (-53 : ℤ) * 2 ^ (1023 : ℤ) = 2 ^ (970 : ℤ) := by rw [← zpow_add₀ (by norm_num)]; norm_num
  exact ((by norm_num : (1000000 : ℚ) ≤ 2 ^ (20 : ℤ)).trans (zpow_le_zpow_right₀ (by norm_num) (by norm_num : (20 : ℤ) ≤ 970))).trans h.ge
theorem five_le {k : ℤ} (h : 3 ≤ k) : (5 : Q64) ≤ ((2 : ℚ) ^ k : ℚ) :=
  (by norm_num : (5 : ℚ) ≤ 2 ^ (3 : ℤ)).trans (zpow_le_zpow_right₀ (by norm_num) h)
theorem pow_le_one64 {k : ℤ} (h : k ≤ 0) : ((2 : ℚ) ^ k : ℚ) ≤ (1 : Q64) := zpow_le_one_of_nonpos₀ (by norm_num) h

theorem A123_ne : A123 ≠ 0 := fun h => one_ne_zero (congrFun h 0 : (1 : Q64) = 0)
theorem B405_ne : B405 ≠ 0 := fun h => (by norm_num : (5 : Q64) ≠ 0) (congrFun h 2)
theorem A123_pos (i : Fin 3) : A123 i = 0 ∨ 1 ≤ |A123 i| := .inr (by fin_cases i <;> simp [A123])
theorem A123_five (i : Fin 3) : |A123 i| ≤ 5 := by fin_cases i <;> simp [A123] <;> norm_num
theorem B405_pos (i : Fin 3) : B405 i = 0 ∨ 1 ≤ |B405 i| := by fin_cases i <;> simp [B405]
theorem B405_five (i : Fin 3) : |B405 i| ≤ 5 := by fin_cases i <;> simp [B405]; norm_num

theorem lo_of {x : Q64} (h : x = 0 ∨ 1 ≤ |x|) : x = 0 ∨ nu ≤ x * x :=
  h.imp_right fun h => one_nu.trans (by rw [← abs_mul_abs_self]; nlinarith)
theorem hi_of {x : Q64} (h : |x| ≤ 5) : 8 * (x * x) ≤ omega := by
  have := omega_big
  have h' := abs_le.mp h
  nlinarith

theorem A123_lo (i : Fin 3) : A123 i = 0 ∨ nu ≤ A123 i * A123 i := lo_of (A123_pos i)
theorem B405_lo (i : Fin 3) : B405 i = 0 ∨ nu ≤ B405 i * B405 i := lo_of (B405_pos i)
theorem A123_hi (i : Fin 3) : 8 * (A123 i * A123 i) ≤ omega := hi_of (A123_five i)
theorem B405_hi (i : Fin 3) : 8 * (B405 i * B405 i) ≤ omega := hi_of (B405_five i)
theorem A123_lo64 {k : ℤ} (h : k ≤ 0) (i : Fin 3) : A123 i = 0 ∨ ((2 : ℚ) ^ k : ℚ) ≤ |A123 i| :=
  (A123_pos i).imp_right ((pow_le_one64 h).trans)
theorem B405_lo64 {k : ℤ} (h : k ≤ 0) (i : Fin 3) : B405 i = 0 ∨ ((2 : ℚ) ^ k : ℚ) ≤ |B405 i| :=
  (B405_pos i).imp_right ((pow_le_one64 h).trans)
theorem A123_hi64 {k : ℤ} (h : 3 ≤ k) (i : Fin 3) : |A123 i| ≤ ((2 : ℚ) ^ k : ℚ) := (A123_five i).trans (five_le h)
theorem B405_hi64 {k : ℤ} (h : 3 ≤ k) (i : Fin 3) : |B405 i| ≤ ((2 : ℚ) ^ k : ℚ) := (B405_five i).trans (five_le h)

variable {K : Type} [Field K] [LinearOrder K] [IsStrictOrderedRing K] [Fmt K] [LawfulFmt K] [RndErr K]

/-- C55: `dot` never fails; if its result is finite, it differs from the exact dot product by at most
`((1+u)³-1) Σ|aᵢbᵢ|` plus the underflow term `3(1+u)² eta`. -/
theorem C55_dot (a b : Mat3x1 (Fl K)) (A B : Fin 3 → K) (ha : a.Holds A) (hb : b.Holds B) :
    ∃ d, a.dot b = some d ∧ ∀ c, d.Is c →
      |c - (A 0 * B 0 + A 1 * B 1 + A 2 * B 2)| ≤
        ((1 + u) ^ 3 - 1) * (|A 0 * B 0| + |A 1 * B 1| + |A 2 * B 2|) + 3 * (1 + u) ^ 2 * eta := by
  refine ⟨_, rfl, ?_⟩
  have h := ((Appr.prod (ha 0) (hb 0)).add (Appr.prod (ha 1) (hb 1))).add
    ((Appr.prod (ha 2) (hb 2)).mono (l := 2) (by norm_num) le_rfl)
  have hu := u_pos (K := K)
  have he := eta_pos (K := K)
  exact (h.mono le_rfl (by nlinarith [mul_pos hu he, mul_pos hu (mul_pos hu he)])).err

/-- concrete case -/
example := C55_dot a123 b405 A123 B405 a123_holds b405_holds

/-- C55: if no product underflows, the error is purely relative: at most `((1+u)³-1) Σ|aᵢbᵢ|`. -/
theorem C55_dot_normal (a b : Mat3x1 (Fl K)) (A B : Fin 3 → K) (ha : a.Holds A) (hb : b.Holds B)
    (hn : ∀ i, A i * B i = 0 ∨ nu ≤ |A i * B i|) :
    ∃ d, a.dot b = some d ∧ ∀ c, d.Is c →
      |c - (A 0 * B 0 + A 1 * B 1 + A 2 * B 2)| ≤ ((1 + u) ^ 3 - 1) * (|A 0 * B 0| + |A 1 * B 1| + |A 2 * B 2|) := by
  refine ⟨_, rfl, ?_⟩
  have h := ((Appr.prod_normal (ha 0) (hb 0) (hn 0)).add (Appr.prod_normal (ha 1) (hb 1) (hn 1))).add
    ((Appr.prod_normal (ha 2) (hb 2) (hn 2)).mono (l := 2) (by norm_num) le_rfl)
  intro c hc
  have := h.err c hc
  simpa using this

/-- concrete case: the products are `-4`, `0` and `15` -/
example := C55_dot_normal a123 b405 A123 B405 a123_holds b405_holds fun i => by
  have h := one_nu
  fin_cases i <;> simp [A123, B405] <;> linarith

/-! ### sums of squares -/

/-- `c` is `S ≥ 0` up to `j` rounding errors -/
structure Near (j : ℕ) (c S : K) : Prop where
  nonneg : 0 ≤ S
  lower : (1 - u) ^ j * S ≤ c
  upper : c ≤ (1 + u) ^ j * S

theorem one_sub_u_pos : (0 : K) < 1 - u := by linarith [u_le (K := K)]

theorem one_sub_u_le : (1 : K) - u ≤ 1 := by linarith [u_pos (K := K)]

namespace Near

variable {j k : ℕ} {c d w S T : K}

theorem pos (h : Near j c S) : 0 ≤ c :=
  (mul_nonneg (pow_nonneg one_sub_u_pos.le j) h.nonneg).trans h.lower

theorem mono (h : Near j c S) (hk : j ≤ k) : Near k c S :=
  ⟨h.nonneg, (mul_le_mul_of_nonneg_right (pow_le_pow_of_le_one one_sub_u_pos.le one_sub_u_le hk) h.nonneg).trans h.lower,
    h.upper.trans (mul_le_mul_of_nonneg_right (grow_mono hk) h.nonneg)⟩

theorem add (h : Near j c S) (h' : Near j d T) (hw : |w - (c + d)| ≤ u * |c + d|) : Near (j + 1) w (S + T) := by
  have hs : 0 ≤ c + d := add_nonneg h.pos h'.pos
  rw [abs_of_nonneg hs] at hw
  obtain ⟨h1, h2⟩ := abs_le.mp hw
  have hu := u_pos (K := K)
  refine ⟨add_nonneg h.nonneg h'.nonneg, ?_, ?_⟩
  · have := mul_le_mul_of_nonneg_right (add_le_add h.lower h'.lower) (one_sub_u_pos (K := K)).le
    rw [pow_succ]
    linarith [show (1 - u) ^ j * (1 - u) * (S + T) = ((1 - u) ^ j * S + (1 - u) ^ j * T) * (1 - u) by ring]
  · have := mul_le_mul_of_nonneg_right (add_le_add h.upper h'.upper) (show (0 : K) ≤ 1 + u by linarith)
    rw [pow_succ]
    linarith [show (1 + u) ^ j * (1 + u) * (S + T) = ((1 + u) ^ j * S + (1 + u) ^ j * T) * (1 + u) by ring]

theorem sq {x : Fl K} {a : K} (hx : x.Is a) (hn : a = 0 ∨ nu ≤ a * a) (h : (x * x).Is c) : Near 1 c (a * a) := by
  have := Fl.mul_err_normal hx hx h (by
    rcases hn with rfl | hn
    · exact .inl (mul_zero _)
    · exact .inr (by rwa [abs_of_nonneg (mul_self_nonneg a)]))
  rw [abs_of_nonneg (mul_self_nonneg a)] at this
  obtain ⟨h1, h2⟩ := abs_le.mp this
  exact ⟨mul_self_nonneg a, by rw [pow_one]; linarith, by rw [pow_one]; linarith⟩

end Near

theorem sumsq3 {x y z : Fl K} {a b c s : K} (hx : x.Is a) (hy : y.Is b) (hz : z.Is c)
    (na : a = 0 ∨ nu ≤ a * a) (nb : b = 0 ∨ nu ≤ b * b) (nc : c = 0 ∨ nu ≤ c * c) (h : (x * x + y * y + z * z).Is s) :
    Near 3 s (a * a + b * b + c * c) := by
  obtain ⟨s1, s2, h1, h2⟩ := Fl.add_finite h
  obtain ⟨s3, s4, h3, h4⟩ := Fl.add_finite h1
  exact ((Near.sq hx na h3).add (Near.sq hy nb h4) (Fl.add_err h3 h4 (Fl.wf_mul _ _) (Fl.wf_mul _ _) h1)).add
    ((Near.sq hz nc h2).mono (by norm_num)) (Fl.add_err h1 h2 (Fl.wf_add _ _) (Fl.wf_mul _ _) h)

theorem sumsq4 {x y z t : Fl K} {a b c d s : K} (hx : x.Is a) (hy : y.Is b) (hz : z.Is c) (ht : t.Is d)
    (na : a = 0 ∨ nu ≤ a * a) (nb : b = 0 ∨ nu ≤ b * b) (nc : c = 0 ∨ nu ≤ c * c) (nd : d = 0 ∨ nu ≤ d * d)
    (h : (x * x + y * y + z * z + t * t).Is s) : Near 4 s (a * a + b * b + c * c + d * d) := by
  obtain ⟨s1, s2, h1, h2⟩ := Fl.add_finite h
  exact (sumsq3 hx hy hz na nb nc h1).add ((Near.sq ht nd h2).mono (by norm_num)) (Fl.add_err h1 h2 (Fl.wf_add _ _) (Fl.wf_mul _ _) h)

/-- square root of an approximate sum -/
theorem Near.root {j : ℕ} {x : Fl K} {c S m : K} (h : Near j c S) (hx : x.Is c) (wx : x.WF) (hm : (Fl.sqrt x).Is m) :
    0 ≤ m ∧ Near (j + 2) (m ^ 2) S := by
  obtain ⟨h0, h1, h2⟩ := Fl.sqrt_err hx wx hm
  have hu := u_pos (K := K)
  refine ⟨h0, h.nonneg, ?_, ?_⟩
  · have := mul_le_mul_of_nonneg_left h.lower (sq_nonneg (1 - u : K))
    rw [pow_add]; linarith [show (1 - u) ^ j * (1 - u) ^ 2 * S = (1 - u) ^ 2 * ((1 - u) ^ j * S) by ring]
  · have := mul_le_mul_of_nonneg_left h.upper (sq_nonneg (1 + u : K))
    rw [pow_add]; linarith [show (1 + u) ^ j * (1 + u) ^ 2 * S = (1 + u) ^ 2 * ((1 + u) ^ j * S) by ring]

/-- `(1+u)^5 ≤ (1+3u)²` etc. -/
theorem pow5_bounds : ((1 : K) + u) ^ 5 ≤ (1 + 3 * u) ^ 2 ∧ ((1 : K) - 3 * u) ^ 2 ≤ (1 - u) ^ 5 := by
  have hu := u_pos (K := K)
  have hl := u_le (K := K)
  set t : K := u
  have h2 : t * t ≤ t * (1 / 64) := by gcongr
  have h3 : t * t * t ≤ t * (1 / 64) * (1 / 64) := by gcongr
  have h4 : t * t * t * t ≤ t * (1 / 64) * (1 / 64) * (1 / 64) := by gcongr
  have h5 : t * t * t * t * t ≤ t * (1 / 64) * (1 / 64) * (1 / 64) * (1 / 64) := by gcongr
  have p2 : 0 < t * t := by positivity
  have p3 : 0 < t * t * t := by positivity
  have p4 : 0 < t * t * t * t := by positivity
  constructor
  · rw [show (1 + t) ^ 5 = 1 + 5 * t + 10 * (t * t) + 10 * (t * t * t) + 5 * (t * t * t * t) + t * t * t * t * t by ring,
      show (1 + 3 * t) ^ 2 = 1 + 6 * t + 9 * (t * t) by ring]
    linarith
  · rw [show (1 - t) ^ 5 = 1 - 5 * t + 10 * (t * t) - 10 * (t * t * t) + 5 * (t * t * t * t) - t * t * t * t * t by ring,
      show (1 - 3 * t) ^ 2 = 1 - 6 * t + 9 * (t * t) by ring]
    linarith

theorem pow6_bounds : ((1 : K) + u) ^ 6 ≤ (1 + 4 * u) ^ 2 ∧ ((1 : K) - 4 * u) ^ 2 ≤ (1 - u) ^ 6 := by
  obtain ⟨h1, h2⟩ := pow5_bounds (K := K)
  have hu := u_pos (K := K)
  have hl := u_le (K := K)
  constructor
  · calc ((1 : K) + u) ^ 6 = (1 + u) ^ 5 * (1 + u) := by ring
      _ ≤ (1 + 3 * u) ^ 2 * (1 + u) := by gcongr
      _ ≤ (1 + 4 * u) ^ 2 := by nlinarith [mul_pos hu hu]
  · calc ((1 : K) - 4 * u) ^ 2 ≤ (1 - 3 * u) ^ 2 * (1 - u) := by nlinarith [mul_pos hu hu]
      _ ≤ (1 - u) ^ 5 * (1 - u) := by
        have := one_sub_u_pos (K := K); gcongr
      _ = _ := by ring

/-! ### passage to the real numbers -/

section real

variable (φ : K →+* ℝ) (hφ : StrictMono φ)

include hφ in
theorem real_root {m S : K} {c : ℕ} (h0 : 0 ≤ m) (h1 : (1 - c * u) ^ 2 * S ≤ m ^ 2) (h2 : m ^ 2 ≤ (1 + c * u) ^ 2 * S)
    (hc : (c : K) * u ≤ 1) : |φ m - √(φ S)| ≤ c * φ u * √(φ S) := by
  have hu : 0 < φ u := by have := hφ (u_pos (K := K)); rwa [map_zero] at this
  have h0' : 0 ≤ φ m := by have := hφ.monotone h0; rwa [map_zero] at this
  have h1' : (1 - c * φ u) ^ 2 * φ S ≤ φ m ^ 2 := by have := hφ.monotone h1; simpa using this
  have h2' : φ m ^ 2 ≤ (1 + c * φ u) ^ 2 * φ S := by have := hφ.monotone h2; simpa using this
  have hc' : c * φ u ≤ 1 := by have := hφ.monotone hc; simpa using this
  have hcu : 0 ≤ c * φ u := by positivity
  have e1 := Real.sqrt_le_sqrt h1'
  have e2 := Real.sqrt_le_sqrt h2'
  rw [Real.sqrt_sq h0', Real.sqrt_mul (sq_nonneg _), Real.sqrt_sq (by linarith)] at e1
  rw [Real.sqrt_sq h0', Real.sqrt_mul (sq_nonneg _), Real.sqrt_sq (by linarith)] at e2
  rw [abs_le]; constructor <;> linarith

theorem euc_mono {n : ℕ} {f g : Fin n → ℝ} (h : ∀ i, |f i| ≤ g i) : euc f ≤ euc g := by
  rw [euc_eq, euc_eq]
  apply Real.sqrt_le_sqrt
  refine Finset.sum_le_sum fun i _ => ?_
  rw [← abs_mul_abs_self (f i)]
  exact mul_le_mul (h i) (h i) (abs_nonneg _) ((abs_nonneg _).trans (h i))

theorem euc_abs {n : ℕ} (f : Fin n → ℝ) : euc (fun i => |f i|) = euc f := by
  rw [euc_eq, euc_eq]; simp only [abs_mul_abs_self]

include hφ in
/-- the exact norm as a square root in the format's field -/
theorem euc_map (A : Fin 3 → K) : euc (fun i => φ (A i)) = √(φ (A 0 * A 0 + A 1 * A 1 + A 2 * A 2)) := by
  rw [euc_eq, Fin.sum_univ_three]; simp

include hφ in
/-- C55: if the magnitude is finite and no square underflows, it is within `3u` (relative) of the Euclidean norm. -/
theorem C55_magnitude (a : Mat3x1 (Fl K)) (A : Fin 3 → K) (ha : a.Holds A) (hn : ∀ i, A i = 0 ∨ nu ≤ A i * A i) :
    ∃ x, a.magnitude = some x ∧ ∀ m, x.Is m →
      0 ≤ φ m ∧ |φ m - euc (fun i => φ (A i))| ≤ 3 * φ u * euc (fun i => φ (A i)) := by
  refine ⟨_, rfl, fun m hm => ?_⟩
  obtain ⟨s, _, hs⟩ := Fl.sqrt_finite hm
  have h := sumsq3 (ha 0).1 (ha 1).1 (ha 2).1 (hn 0) (hn 1) (hn 2) hs
  obtain ⟨h0, hr⟩ := h.root hs (Fl.wf_add _ _) hm
  obtain ⟨b1, b2⟩ := pow5_bounds (K := K)
  have h0' : 0 ≤ φ m := by have := hφ.monotone h0; rwa [map_zero] at this
  refine ⟨h0', ?_⟩
  rw [euc_map φ hφ]
  have := real_root φ hφ (c := 3) h0 ((mul_le_mul_of_nonneg_right (by simpa using b2) h.nonneg).trans hr.lower)
    (hr.upper.trans (mul_le_mul_of_nonneg_right (by simpa using b1) h.nonneg)) (by push_cast; linarith [u_le (K := K)])
  simpa using this

/-- concrete case -/
example := C55_magnitude BinQ.real BinQ.real_strictMono a123 A123 a123_holds A123_lo

/-- dividing by an approximate length -/
theorem quot_err {a m r n t e : ℝ} {c : ℕ} (hr : 0 < r) (ht : 0 < t) (hct : (c + 1) * (c + 2) * t ≤ 1)
    (hm : |m - r| ≤ c * t * r) (hn : |n - a / m| ≤ t * |a / m| + e) : |n - a / r| ≤ (c + 2) * t * |a / r| + e := by
  have hc0 : (0 : ℝ) ≤ c := by positivity
  have hct' : c * t ≤ 1 / 2 := by nlinarith [mul_nonneg hc0 ht.le, mul_nonneg (mul_nonneg hc0 hc0) ht.le]
  obtain ⟨m1, m2⟩ := abs_le.mp hm
  have hmr : (1 - c * t) * r ≤ m := by linarith
  have hm0 : 0 < m := lt_of_lt_of_le (mul_pos (by linarith) hr) hmr
  have e1 : |a / m - a / r| = |a / m| * (|m - r| / r) := by
    rw [show a / m - a / r = (a / m) * (-(m - r) / r) by field_simp; ring, abs_mul, abs_div (-(m - r)), abs_neg, abs_of_pos hr]
  have e2 : |m - r| / r ≤ c * t := by rw [div_le_iff₀ hr]; exact hm
  have e3 : |n - a / r| ≤ |n - a / m| + |a / m - a / r| := by
    have := abs_add_le (n - a / m) (a / m - a / r); rwa [sub_add_sub_cancel] at this
  have e4 : |a / m| * (|m - r| / r) ≤ |a / m| * (c * t) := by gcongr
  have e5 : |a / m| = |a / r| * (r / m) := by
    rw [abs_div, abs_div, abs_of_pos hm0, abs_of_pos hr]; field_simp
  have e6 : (c + 1) * (r / m) ≤ c + 2 := by
    rw [mul_div_assoc', div_le_iff₀ hm0]
    nlinarith [mul_le_mul_of_nonneg_left hmr (show (0 : ℝ) ≤ c + 2 by linarith),
      mul_nonneg (mul_nonneg hc0 ht.le) hr.le, mul_nonneg ht.le hr.le, mul_le_mul_of_nonneg_right hct hr.le]
  have e7 : (c + 1) * t * |a / m| ≤ (c + 2) * t * |a / r| := by
    rw [e5]
    have := mul_le_mul_of_nonneg_left e6 (mul_nonneg ht.le (abs_nonneg (a / r)))
    linarith
  rw [e1] at e3
  linarith

include hφ in
theorem map_abs_mono (k : K) : φ |k| = |φ k| := by
  rcases le_total 0 k with h | h
  · have h' := hφ.monotone h; rw [map_zero] at h'
    rw [abs_of_nonneg h, abs_of_nonneg h']
  · have h' := hφ.monotone h; rw [map_zero] at h'
    rw [abs_of_nonpos h, abs_of_nonpos h', map_neg]

theorem euc_coord {n : ℕ} (f : Fin n → ℝ) (i : Fin n) : |f i| ≤ euc f := by
  rw [euc_eq]
  apply Real.abs_le_sqrt
  rw [sq]
  exact Finset.single_le_sum (f := fun i => f i * f i) (fun i _ => mul_self_nonneg _) (Finset.mem_univ i)

include hφ in
/-- dividing the (at most four) components by an approximate length -/
theorem unit_close {n c : ℕ} (hn4 : n ≤ 4) (hc4 : c ≤ 4) (X : Fin n → Fl K) (A : Fin n → K) (hX : ∀ i, (X i).Is (A i)) (h0 : A ≠ 0)
    {x : Fl K} {m : K} (hm : x.Is m) (hmr : |φ m - euc (fun i => φ (A i))| ≤ c * φ u * euc (fun i => φ (A i))) :
    0 < m ∧ ∃ N : Fin n → K, (∀ i, (X i / x).Is (N i)) ∧
      (∀ i, |φ (N i) - φ (A i) / euc (fun i => φ (A i))| ≤ (c + 2) * φ u * |φ (A i) / euc (fun i => φ (A i))| + φ eta) ∧
      |euc (fun i => φ (N i)) - 1| ≤ (c + 2) * φ u + 2 * φ eta := by
  set r := euc (fun i => φ (A i)) with hrdef
  have hc4' : (c : ℝ) ≤ 4 := by exact_mod_cast hc4
  have hc0 : (0 : ℝ) ≤ c := by positivity
  have hφ0 : ∀ k : K, φ k = 0 → k = 0 := fun k hk => hφ.injective (by rw [hk, map_zero])
  have hr : 0 < r := euc_pos (by
    intro h; apply h0; funext i; exact hφ0 _ (congrFun h i))
  have hu : 0 < φ u := by have := hφ (u_pos (K := K)); rwa [map_zero] at this
  have hul : φ u ≤ 1 / 64 := by have := hφ.monotone (u_le (K := K)); rwa [map_div₀, map_one, map_ofNat] at this
  have he : 0 < φ eta := by have := hφ (eta_pos (K := K)); rwa [map_zero] at this
  have hcu : c * φ u ≤ 1 / 16 := by nlinarith
  have hm0 : r / 2 < φ m := by
    obtain ⟨m1, _⟩ := abs_le.mp hmr
    nlinarith
  have hmpos : 0 < φ m := by linarith
  have hmK : 0 < m := by rw [← hφ.lt_iff_lt, map_zero]; exact hmpos
  have hq : ∀ i, |A i / m| ≤ omega := fun i => by
    refine le_trans ?_ (four_le (K := K))
    rw [← hφ.le_iff_le, map_abs_mono φ hφ, map_div₀, abs_div, abs_of_pos hmpos, div_le_iff₀ hmpos, map_ofNat]
    have : |φ (A i)| ≤ r := euc_coord (fun i => φ (A i)) i
    linarith
  have hdiv : ∀ i, ∃ N, (X i / x).Is N := fun i => Fl.div_fin (hX i) hm hmK.ne' (hq i)
  choose N hN using hdiv
  have hcomp : ∀ i, |φ (N i) - φ (A i) / r| ≤ (c + 2) * φ u * |φ (A i) / r| + φ eta := by
    intro i
    have herr := Fl.div_err (hX i) hm hmK.ne' (hN i)
    have herr' : |φ (N i) - φ (A i) / φ m| ≤ φ u * |φ (A i) / φ m| + φ eta := by
      have := hφ.monotone herr
      rw [map_add, map_mul, map_abs_mono φ hφ, map_abs_mono φ hφ, map_sub, map_div₀] at this
      exact this
    exact quot_err hr hu (by nlinarith) hmr herr'
  refine ⟨hmK, N, hN, hcomp, ?_⟩
  set U : Fin n → ℝ := fun i => φ (A i) / r with hU
  have hU1 : euc U = 1 := by
    have : U = r⁻¹ • fun i => φ (A i) := by funext i; simp [hU, div_eq_inv_mul]
    rw [this, euc_smul, abs_of_pos (inv_pos.mpr hr), ← hrdef, inv_mul_cancel₀ hr.ne']
  set D : Fin n → ℝ := fun i => φ (N i) - U i with hD
  have hDle : euc D ≤ (c + 2) * φ u + 2 * φ eta := by
    have h1 : euc D ≤ euc (((c + 2) * φ u) • (fun i => |U i|) + φ eta • fun _ => (1 : ℝ)) := euc_mono fun i => by
      simpa using hcomp i
    refine h1.trans ((euc_add_le _ _).trans ?_)
    rw [euc_smul, euc_smul, euc_abs, hU1, abs_of_pos (by positivity), abs_of_pos he]
    have h2 : euc (fun _ : Fin n => (1 : ℝ)) ≤ 2 := by
      rw [euc_eq, Real.sqrt_le_left (by norm_num)]
      simp only [mul_one, Finset.sum_const, Finset.card_univ, Fintype.card_fin, nsmul_eq_mul]
      have : (n : ℝ) ≤ 4 := by exact_mod_cast hn4
      linarith
    nlinarith
  have e1 : (fun i => φ (N i)) = U + D := by funext i; simp [hD]
  have e2 : U = (fun i => φ (N i)) + (-1 : ℝ) • D := by funext i; simp [hD]
  have h1 := euc_add_le U D
  have h2 := euc_add_le (fun i => φ (N i)) ((-1 : ℝ) • D)
  rw [← e1, hU1] at h1
  rw [← e2, hU1, euc_smul, abs_neg, abs_one, one_mul] at h2
  rw [abs_le]; constructor <;> linarith

include hφ in
/-- C55: normalising a vector whose squares do not underflow and whose magnitude is finite gives finite components, each
within `5u |aᵢ|/‖a‖ + eta` of the exact unit vector; the result has length `1` up to `5u + 2 eta`. -/
theorem C55_normalize (a : Mat3x1 (Fl K)) (A : Fin 3 → K) (ha : a.Holds A) (hn : ∀ i, A i = 0 ∨ nu ≤ A i * A i) (h0 : A ≠ 0)
    (x : Fl K) (hx : a.magnitude = some x) (hfin : x.Finite) :
    ∃ n N, a.normalize = some n ∧ n.Holds N ∧
      (∀ i, |φ (N i) - φ (A i) / euc (fun i => φ (A i))| ≤ 5 * φ u * |φ (A i) / euc (fun i => φ (A i))| + φ eta) ∧
      |euc (fun i => φ (N i)) - 1| ≤ 5 * φ u + 2 * φ eta := by
  obtain ⟨m, hm⟩ := hfin
  obtain ⟨x', hx', hacc⟩ := C55_magnitude φ hφ a A ha hn
  obtain rfl : x' = x := Option.some.inj (hx'.symm.trans hx)
  obtain ⟨-, hmr⟩ := hacc m hm
  obtain ⟨-, N, hN, h1, h2⟩ := unit_close φ hφ (c := 3) (by norm_num) (by norm_num) (fun i : Fin 3 => a.val[i]) A
    (fun i => (ha i).1) h0 hm (by exact_mod_cast hmr)
  have e5 : ((3 : ℕ) : ℝ) + 2 = 5 := by norm_num
  rw [e5] at h1 h2
  have hnorm : a.normalize = some ⟨#v[a.val[0] / x', a.val[1] / x', a.val[2] / x']⟩ := by
    unfold Mat3x1.normalize; rw [hx]
  refine ⟨_, N, hnorm, ?_, h1, h2⟩
  intro i
  fin_cases i
  · exact ⟨hN 0, Fl.wf_div _ _⟩
  · exact ⟨hN 1, Fl.wf_div _ _⟩
  · exact ⟨hN 2, Fl.wf_div _ _⟩

end real

/-- C55: the magnitude is finite (and so the hypotheses above are met) when the squares neither underflow nor come within a
factor 8 of overflow. -/
theorem C55_finite (a : Mat3x1 (Fl K)) (A : Fin 3 → K) (ha : a.Holds A) (hn : ∀ i, A i = 0 ∨ nu ≤ A i * A i)
    (hM : ∀ i, 8 * (A i * A i) ≤ omega) : ∃ x, a.magnitude = some x ∧ x.Finite := by
  refine ⟨_, rfl, ?_⟩
  have h4 := four_le (K := K)
  have hl := u_le (K := K)
  have hu := u_pos (K := K)
  have hsq : ∀ i : Fin 3, ∃ p, (a.val[i] * a.val[i]).Is p ∧ 0 ≤ p ∧ 4 * p ≤ omega := fun i => by
    have h0 := mul_self_nonneg (A i)
    obtain ⟨p, hp⟩ := Fl.mul_fin (ha i).1 (ha i).1 (by rw [abs_of_nonneg h0]; linarith [hM i])
    have hN := Near.sq (ha i).1 (hn i) hp
    refine ⟨p, hp, hN.pos, ?_⟩
    have := hN.upper
    rw [pow_one] at this
    nlinarith [hM i]
  obtain ⟨p, hp, p0, p1⟩ := hsq 0
  obtain ⟨q, hq, q0, q1⟩ := hsq 1
  obtain ⟨r, hr, r0, r1⟩ := hsq 2
  obtain ⟨s, hs⟩ := Fl.add_fin hp hq (by rw [abs_of_nonneg (by linarith)]; linarith)
  have hs' := abs_le.mp (Fl.add_err hp hq (Fl.wf_mul _ _) (Fl.wf_mul _ _) hs)
  rw [abs_of_nonneg (by linarith)] at hs'
  have s0 : 0 ≤ s := by nlinarith [hs'.1]
  have s1 : 8 * s ≤ 5 * omega := by nlinarith [hs'.2]
  obtain ⟨t, ht⟩ := Fl.add_fin hs hr (by rw [abs_of_nonneg (by linarith)]; linarith)
  have ht' := abs_le.mp (Fl.add_err hs hr (Fl.wf_add _ _) (Fl.wf_mul _ _) ht)
  rw [abs_of_nonneg (by linarith)] at ht'
  have t0 : 0 ≤ t := by nlinarith [ht'.1]
  have t1 : t ≤ omega := by nlinarith [ht'.2]
  exact Fl.sqrt_fin ht t0 t1

/-- concrete case, also of `C55_normalize` -/
example : ∃ n N, b405.normalize = some n ∧ n.Holds N := by
  obtain ⟨x, hx, hf⟩ := C55_finite b405 B405 b405_holds B405_lo B405_hi
  obtain ⟨n, N, h, h', _⟩ := C55_normalize BinQ.real BinQ.real_strictMono b405 B405 b405_holds B405_lo B405_ne x hx hf
  exact ⟨n, N, h, h'⟩

/-- normalisation within a range of exponents -/
theorem normalize_range (φ : K →+* ℝ) (hφ : StrictMono φ) (a : Mat3x1 (Fl K)) (A : Fin 3 → K) (ha : a.Holds A) (h0 : A ≠ 0)
    (lo hi : K) (l0 : 0 ≤ lo) (l1 : nu ≤ lo * lo) (h1 : 8 * (hi * hi) ≤ omega) (he : 2 * (eta : K) ≤ 3 * u)
    (hlo : ∀ i, A i = 0 ∨ lo ≤ |A i|) (hhi : ∀ i, |A i| ≤ hi) :
    ∃ n N, a.normalize = some n ∧ n.Holds N ∧
      (∀ i, |φ (N i) - φ (A i) / euc (fun i => φ (A i))| ≤ 8 * φ u) ∧ |euc (fun i => φ (N i)) - 1| ≤ 8 * φ u := by
  have hn : ∀ i, A i = 0 ∨ nu ≤ A i * A i := fun i => (hlo i).imp_right fun h => by
    rw [← abs_mul_abs_self]; exact l1.trans (mul_le_mul h h l0 (abs_nonneg _))
  have hM : ∀ i, 8 * (A i * A i) ≤ omega := fun i => by
    rw [← abs_mul_abs_self]
    have := mul_le_mul (hhi i) (hhi i) (abs_nonneg _) ((abs_nonneg _).trans (hhi i))
    linarith
  obtain ⟨x, hx, hf⟩ := C55_finite a A ha hn hM
  obtain ⟨n, N, e, hN, h2, h3⟩ := C55_normalize φ hφ a A ha hn h0 x hx hf
  have he' : 2 * φ eta ≤ 3 * φ u := by have := hφ.monotone he; rwa [map_mul, map_mul, map_ofNat, map_ofNat] at this
  have hu : 0 < φ u := by have := hφ (u_pos (K := K)); rwa [map_zero] at this
  refine ⟨n, N, e, hN, fun i => (h2 i).trans ?_, h3.trans (by linarith)⟩
  have : |φ (A i) / euc (fun i => φ (A i))| ≤ 1 := by
    rw [abs_div, abs_of_nonneg (euc_nonneg _)]
    apply div_le_one_of_le₀ _ (euc_nonneg _)
    exact euc_coord (fun i => φ (A i)) i
  nlinarith

/-- C55 for `f64`: a nonzero vector whose components are zero or between `2^-511` and `2^510` in absolute value normalises to
a vector of length `1 ± 2^-50`, with each component within `2^-50` of the exact one. -/
theorem C55_normalize_f64 (a : Mat3x1 (Fl Q64)) (A : Fin 3 → Q64) (ha : a.Holds A) (h0 : A ≠ 0)
    (hlo : ∀ i, A i = 0 ∨ ((2 : ℚ) ^ (-511 : ℤ) : ℚ) ≤ |A i|) (hhi : ∀ i, |A i| ≤ ((2 : ℚ) ^ (510 : ℤ) : ℚ)) :
    ∃ n N, a.normalize = some n ∧ n.Holds N ∧
      (∀ i, |(N i).real - (A i).real / euc (fun i => (A i).real)| ≤ 2 ^ (-50 : ℤ)) ∧
      |euc (fun i => (N i).real) - 1| ≤ 2 ^ (-50 : ℤ) := by
  obtain ⟨cu, ce, cn, co, -⟩ := C55_constants
  have e : 8 * BinQ.real (u : Q64) = 2 ^ (-50 : ℤ) := by
    rw [cu]
    show (8 : ℝ) * (((2 : ℚ) ^ (-53 : ℤ) : ℚ) : ℝ) = _
    push_cast
    rw [show (-50 : ℤ) = 3 + (-53) by norm_num, zpow_add₀ (by norm_num)]; norm_num
  rw [← e]
  refine normalize_range BinQ.real BinQ.real_strictMono a A ha h0 _ _ ?_ ?_ ?_ ?_ hlo hhi
  · show (0 : ℚ) ≤ 2 ^ (-511 : ℤ); positivity
  · rw [cn]
    show (2 : ℚ) ^ (-1022 : ℤ) ≤ 2 ^ (-511 : ℤ) * 2 ^ (-511 : ℤ)
    rw [← zpow_add₀ (by norm_num)]; norm_num
  · rw [co]
    show (8 : ℚ) * (2 ^ (510 : ℤ) * 2 ^ (510 : ℤ)) ≤ 2 ^ (1023 : ℤ)
    rw [← zpow_add₀ (by norm_num), show (8 : ℚ) = 2 ^ (3 : ℤ) by norm_num, ← zpow_add₀ (by norm_num)]; norm_num
  · rw [cu, ce]
    show (2 : ℚ) * 2 ^ (-1075 : ℤ) ≤ 3 * 2 ^ (-53 : ℤ)
    have : (2 : ℚ) ^ (-1075 : ℤ) ≤ 2 ^ (-53 : ℤ) := zpow_le_zpow_right₀ (by norm_num) (by norm_num)
    have : (0 : ℚ) < 2 ^ (-53 : ℤ) := by positivity
    linarith

/-- concrete case -/
example := C55_normalize_f64 b405 B405 b405_holds B405_ne (B405_lo64 (by norm_num)) (B405_hi64 (by norm_num))

/-- C55 for `f32`: the same with components zero or between `2^-63` and `2^62`, to within `2^-21`. -/
theorem C55_normalize_f32 (a : Mat3x1 (Fl Q32)) (A : Fin 3 → Q32) (ha : a.Holds A) (h0 : A ≠ 0)
    (hlo : ∀ i, A i = 0 ∨ ((2 : ℚ) ^ (-63 : ℤ) : ℚ) ≤ |A i|) (hhi : ∀ i, |A i| ≤ ((2 : ℚ) ^ (62 : ℤ) : ℚ)) :
    ∃ n N, a.normalize = some n ∧ n.Holds N ∧
      (∀ i, |(N i).real - (A i).real / euc (fun i => (A i).real)| ≤ 2 ^ (-21 : ℤ)) ∧
      |euc (fun i => (N i).real) - 1| ≤ 2 ^ (-21 : ℤ) := by
  obtain ⟨-, -, -, -, cu, ce, cn, co⟩ := C55_constants
  have e : 8 * BinQ.real (u : Q32) = 2 ^ (-21 : ℤ) := by
    rw [cu]
    show (8 : ℝ) * (((2 : ℚ) ^ (-24 : ℤ) : ℚ) : ℝ) = _
    push_cast
    rw [show (-21 : ℤ) = 3 + (-24) by norm_num, zpow_add₀ (by norm_num)]; norm_num
  rw [← e]
  refine normalize_range BinQ.real BinQ.real_strictMono a A ha h0 _ _ ?_ ?_ ?_ ?_ hlo hhi
  · show (0 : ℚ) ≤ 2 ^ (-63 : ℤ); positivity
  · rw [cn]
    show (2 : ℚ) ^ (-126 : ℤ) ≤ 2 ^ (-63 : ℤ) * 2 ^ (-63 : ℤ)
    rw [← zpow_add₀ (by norm_num)]; norm_num
  · rw [co]
    show (8 : ℚ) * (2 ^ (62 : ℤ) * 2 ^ (62 : ℤ)) ≤ 2 ^ (127 : ℤ)
    rw [← zpow_add₀ (by norm_num), show (8 : ℚ) = 2 ^ (3 : ℤ) by norm_num, ← zpow_add₀ (by norm_num)]; norm_num
  · rw [cu, ce]
    show (2 : ℚ) * 2 ^ (-150 : ℤ) ≤ 3 * 2 ^ (-24 : ℤ)
    norm_num

/-- concrete case: `(2, 2, 2)` -/
example := C55_normalize_f32 ⟨#v[.fin 2, .fin 2, .fin 2]⟩ (fun _ => 2) (fun i => by fin_cases i <;> exact ⟨rfl, .inr (by decide +kernel)⟩)
  (fun h => (by norm_num : (2 : Q32) ≠ 0) (congrFun h 0))
  (fun _ => .inr (by
    have h : (2 : ℚ) ^ (-63 : ℤ) ≤ |(2 : ℚ)| := by norm_num
    exact h))
  (fun _ => by
    have h : |(2 : ℚ)| ≤ (2 : ℚ) ^ (62 : ℤ) := by norm_num
    exact h)

/-- the vector (1, 2, 3) as floats -/
def acc123 : Mat3x1 (Fl Q64) := ⟨#v[.fin (1 : ℚ), .fin (2 : ℚ), .fin (3 : ℚ)]⟩

/-- The hypotheses are met by (1, 2, 3); the result really is inexact. -/
example : acc123.Holds ![(1 : ℚ), (2 : ℚ), (3 : ℚ)] ∧
    (∀ i, |(![(1 : ℚ), (2 : ℚ), (3 : ℚ)] : Fin 3 → ℚ) i| ≤ (2 : ℚ) ^ (510 : ℤ)) ∧
    ∃ n, acc123.normalize = some n ∧ ¬ ∃ q : ℚ, n.val[0].Is (q : Q64) ∧ q * q * 14 = 1 := by
  refine ⟨?_, ?_, _, rfl, ?_⟩
  · intro i
    fin_cases i
    · exact ⟨rfl, .inr (by decide +kernel)⟩
    · exact ⟨rfl, .inr (by decide +kernel)⟩
    · exact ⟨rfl, .inr (by decide +kernel)⟩
  · have h : (4 : ℚ) ≤ 2 ^ (510 : ℤ) := by
      calc (4 : ℚ) = 2 ^ (2 : ℤ) := by norm_num
        _ ≤ _ := zpow_le_zpow_right₀ (by norm_num) (by norm_num)
    intro i
    fin_cases i
    · show |(1 : ℚ)| ≤ _; rw [abs_of_pos (by norm_num)]; exact le_trans (by norm_num) h
    · show |(2 : ℚ)| ≤ _; rw [abs_of_pos (by norm_num)]; exact le_trans (by norm_num) h
    · show |(3 : ℚ)| ≤ _; rw [abs_of_pos (by norm_num)]; exact le_trans (by norm_num) h
  · rintro ⟨q, -, h⟩
    -- 14 is not the square of a rational
    have h14 : ¬ IsSquare (14 : ℚ) := by
      rw [Rat.isSquare_ofNat_iff]
      decide +kernel
    apply h14
    refine ⟨14 * q, ?_⟩
    linear_combination (-14) * h

theorem holds_vec {v : K} (h : Fl.Rep v) : (⟨#v[.fin v, .fin 0, .fin 0]⟩ : Mat3x1 (Fl K)).Holds ![v, 0, 0] := by
  intro i
  fin_cases i
  · exact ⟨rfl, h⟩
  · exact ⟨rfl, .inl rfl⟩
  · exact ⟨rfl, .inl rfl⟩

theorem vec_ne_zero {v : K} (h : v ≠ 0) : (![v, 0, 0] : Fin 3 → K) ≠ 0 := fun e => h (congrFun e 0)

/-- C55: the range hypothesis is needed: the magnitude of `(2^-600, 0, 0)` is computed as zero and its normalisation is not
a vector of finite floats. -/
theorem C55_underflow : ∃ a : Mat3x1 (Fl Q64), ∃ A : Fin 3 → Q64, a.Holds A ∧ A ≠ 0 ∧ a.magnitude = some (.fin (0 : ℚ)) ∧
    ∀ n, a.normalize = some n → ¬ ∃ N, n.Holds N := by
  refine ⟨⟨#v[.fin (Bin.pow2 (-600)), .fin (0 : ℚ), .fin (0 : ℚ)]⟩, ![Bin.pow2 (-600), (0 : ℚ), (0 : ℚ)], ?_, ?_, ?_, ?_⟩
  · exact holds_vec (.inr (by decide +kernel))
  · exact vec_ne_zero (Bin.pow2_pos (-600)).ne'
  · decide +kernel
  · rintro n hn ⟨N, hN⟩
    have e : n = ⟨#v[.inf false, .nan, .nan]⟩ := (Option.some.inj hn).symm.trans (by decide +kernel)
    subst e
    exact absurd (hN 0).1 (by simp [Fl.Is, Fl.val])

end Mazth
