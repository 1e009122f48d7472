import Verif.Props.FloatGjk

/-! Real and rounding estimates for an infinite run of the GJK loop in binary64 (property C83). The retained vertex is `p`; the
edges from it to the new and the old vertex, divided by the radius, are `A` and `β`; the search direction is `D`. -/

set_option autoImplicit false
set_option linter.unusedSectionVars false
namespace Mazth
open RndErr Matrix
namespace Gjk

section real

theorem abs_mul_le2 {a b A B : ℝ} (ha : |a| ≤ A) (hb : |b| ≤ B) : |a * b| ≤ A * B := by
  rw [abs_mul]; exact mul_le_mul ha hb (abs_nonneg _) ((abs_nonneg _).trans ha)

/-- the next search direction, from the inner products of the two edges -/
theorem next_real {p q σ ω β κ x S : ℝ} (hp : |p - 2 / 3| ≤ 1 / 20 + 1 / 1000000) (hq : |q - 2 / 3| ≤ 1 / 20 + 1 / 1000000)
    (hσ : |σ| ≤ 1 / 1000000) (hω : |ω| ≤ 1 / 1000000) (hβ : |β| ≤ 1 / 1000000) (hκ : |κ| ≤ 1 / 1000000)
    (hx : x = (p + σ) * q - (2 * q + ω) * p + κ)
    (hS : |S - (2 * q + ω) * ((2 * q + ω) * (2 * p + β) - (p + σ) ^ 2)| ≤ 1 / 1000) :
    |x - -(p * q)| ≤ 1 / 100000 ∧ |S - 2 * (p * q) * (4 * q - p)| ≤ 1 / 500 := by
  have hp1 : |p| ≤ 1 := by rw [abs_le] at hp ⊢; constructor <;> linarith [hp.1, hp.2]
  have hq1 : |q| ≤ 1 := by rw [abs_le] at hq ⊢; constructor <;> linarith [hq.1, hq.2]
  have e1 : |σ * q| ≤ 1 / 1000000 * 1 := abs_mul_le2 hσ hq1
  have e2 : |ω * p| ≤ 1 / 1000000 * 1 := abs_mul_le2 hω hp1
  have hx0 : |x - -(p * q)| ≤ 1 / 100000 := by
    rw [show x - -(p * q) = σ * q - ω * p + κ by rw [hx]; ring]
    rw [abs_le] at *
    constructor <;> linarith [e1.1, e1.2, e2.1, e2.2, hκ.1, hκ.2]
  have k1 : |2 * q + ω - 2 * q| ≤ 1 / 1000000 := by rwa [add_sub_cancel_left]
  have f1 : |(2 * q + ω) * (2 * p + β) - 4 * (p * q)| ≤ 1 / 100000 := by
    rw [show (2 * q + ω) * (2 * p + β) - 4 * (p * q) = 2 * (β * q) + 2 * (ω * p) + ω * β by ring]
    have a1 : |β * q| ≤ 1 / 1000000 * 1 := abs_mul_le2 hβ hq1
    have a2 : |ω * β| ≤ 1 / 1000000 * (1 / 1000000) := abs_mul_le2 hω hβ
    rw [abs_le] at *
    constructor <;> linarith [a1.1, a1.2, e2.1, e2.2, a2.1, a2.2]
  have f2 : |(p + σ) ^ 2 - p * p| ≤ 1 / 100000 := by
    rw [show (p + σ) ^ 2 - p * p = 2 * (σ * p) + σ * σ by ring]
    have a1 : |σ * p| ≤ 1 / 1000000 * 1 := abs_mul_le2 hσ hp1
    have a2 : |σ * σ| ≤ 1 / 1000000 * (1 / 1000000) := abs_mul_le2 hσ hσ
    rw [abs_le] at *
    constructor <;> linarith [a1.1, a1.2, a2.1, a2.2]
  set T := (2 * q + ω) * (2 * p + β) - (p + σ) ^ 2 with hT
  have f3 : |T - (4 * (p * q) - p * p)| ≤ 1 / 50000 := by
    rw [show T - (4 * (p * q) - p * p) = ((2 * q + ω) * (2 * p + β) - 4 * (p * q)) - ((p + σ) ^ 2 - p * p) by rw [hT]; ring]
    rw [abs_le] at f1 f2 ⊢
    constructor <;> linarith [f1.1, f1.2, f2.1, f2.2]
  refine ⟨hx0, ?_⟩
  have a1 : |2 * q * (T - (4 * (p * q) - p * p))| ≤ 2 * (1 / 50000) := by
    refine abs_mul_le2 ?_ f3
    rw [abs_mul, abs_two]; linarith
  have a2 : |ω * T| ≤ 1 / 1000000 * 10 := by
    refine abs_mul_le2 hω ?_
    have b1 : |p * q| ≤ 1 * 1 := abs_mul_le2 hp1 hq1
    have b2 : |p * p| ≤ 1 * 1 := abs_mul_le2 hp1 hp1
    rw [abs_le] at f3 b1 b2 ⊢
    constructor <;> linarith [f3.1, f3.2, b1.1, b1.2, b2.1, b2.2]
  rw [show S - 2 * (p * q) * (4 * q - p) = (S - (2 * q + ω) * T) + 2 * q * (T - (4 * (p * q) - p * p)) + ω * T by ring]
  rw [abs_le] at *
  constructor <;> linarith [hS.1, hS.2, a1.1, a1.2, a2.1, a2.2]

/-- the size and the slope of the next search direction -/
theorem slope_real {p q x S s : ℝ} (hp : |p - 2 / 3| ≤ 1 / 20 + 1 / 1000000) (hq : |q - 2 / 3| ≤ 1 / 20 + 1 / 1000000)
    (hx0 : |x - -(p * q)| ≤ 1 / 100000) (f4 : |S - 2 * (p * q) * (4 * q - p)| ≤ 1 / 500) (hs : 0 < s) (hss : s * s = S) :
    x < -1 / 3 ∧ 1 ≤ s ∧ |x / s + 1 / 3| ≤ 1 / 20 := by
  obtain ⟨pl, pu⟩ := abs_le.mp hp
  obtain ⟨ql, qu⟩ := abs_le.mp hq
  have pq1 : 0 ≤ (p - 6166 / 10000) * (q - 6166 / 10000) := mul_nonneg (by linarith) (by linarith)
  have pq2 : 0 ≤ (7167 / 10000 - p) * (7167 / 10000 - q) := mul_nonneg (by linarith) (by linarith)
  have pq3 : 0 ≤ (p - 6166 / 10000) * (7167 / 10000 - q) := mul_nonneg (by linarith) (by linarith)
  have pq4 : 0 ≤ (7167 / 10000 - p) * (q - 6166 / 10000) := mul_nonneg (by linarith) (by linarith)
  have hpq : 38 / 100 ≤ p * q := by nlinarith
  have hpq' : p * q ≤ 52 / 100 := by nlinarith
  obtain ⟨Sl, Su⟩ := abs_le.mp f4
  obtain ⟨xl, xu⟩ := abs_le.mp hx0
  have m1 : p * q * 8 / 100 ≤ p * q * (p * q - 289 / 3600 * (8 * q - 2 * p)) := by
    rw [mul_div_assoc]
    exact mul_le_mul_of_nonneg_left (by nlinarith) (by linarith)
  have m2 : p * q * 7 / 100 ≤ p * q * (529 / 3600 * (8 * q - 2 * p) - p * q) := by
    rw [mul_div_assoc]
    exact mul_le_mul_of_nonneg_left (by nlinarith) (by linarith)
  have m3 : 1 ≤ S := by
    have : 38 / 100 * (15 / 10) ≤ p * q * (4 * q - p) := mul_le_mul hpq (by linarith) (by norm_num) (by linarith)
    linarith
  have hs1 : 1 ≤ s := by nlinarith
  refine ⟨by linarith, hs1, ?_⟩
  have xx : |x * x - (p * q) * (p * q)| ≤ 1 / 10000 := by
    rw [show x * x - (p * q) * (p * q) = (x - -(p * q)) * (x - p * q) by ring]
    refine (abs_mul_le2 hx0 (B := 2) ?_).trans (by norm_num)
    rw [abs_le]; constructor <;> linarith
  obtain ⟨yl, yu⟩ := abs_le.mp xx
  have u1 : x / s * s = x := div_mul_cancel₀ _ hs.ne'
  have g1 : (-x) ^ 2 ≤ (23 / 60 * s) ^ 2 := by
    have : (23 / 60 * s) ^ 2 = 529 / 3600 * S := by rw [← hss]; ring
    rw [this]; nlinarith
  have g2 : (17 / 60 * s) ^ 2 ≤ (-x) ^ 2 := by
    have : (17 / 60 * s) ^ 2 = 289 / 3600 * S := by rw [← hss]; ring
    rw [this]; nlinarith
  have g1' := abs_le_of_sq_le_sq g1 (by positivity)
  have g2' := abs_le_of_sq_le_sq g2 (by linarith)
  rw [abs_le] at g1' g2'
  rw [abs_le]
  constructor
  · rw [neg_le_iff_add_nonneg]
    have : x / s + 1 / 3 + 1 / 20 = (x + 23 / 60 * s) / s := by field_simp; ring
    rw [this]; exact div_nonneg (by linarith) hs.le
  · rw [← sub_nonneg]
    have : 1 / 20 - (x / s + 1 / 3) = (-x - 17 / 60 * s) / s := by field_simp; ring
    rw [this]; exact div_nonneg (by linarith) hs.le

theorem dot3_le {a b : R3} {X Y : ℝ} (ha : ∀ i, |a i| ≤ X) (hb : ∀ i, |b i| ≤ Y) : |a ⬝ᵥ b| ≤ 3 * (X * Y) := by
  have h (i : Fin 3) := abs_le.mp (abs_mul_le2 (ha i) (hb i))
  rw [dot3, abs_le]
  constructor <;> linarith [(h 0).1, (h 0).2, (h 1).1, (h 1).2, (h 2).1, (h 2).2]

/-- the new edge, from the search direction `n`: `A` is up to rounding the first axis plus `n` -/
theorem edge_real {n A β e : R3} (hA : ∀ i, A i = (![1, 0, 0] : R3) i + n i + e i) (he : ∀ i, |e i| ≤ 1 / 100000000) (hn : n ⬝ᵥ n = 1)
    (h0 : |n 0 + 1 / 3| ≤ 1 / 20) (hβ : |n ⬝ᵥ β| ≤ 1 / 2000000) (hb : ∀ i, |β i| ≤ 4) :
    |A ⬝ᵥ A - 2 * A 0| ≤ 1 / 1000000 ∧ |A 0 - 2 / 3| ≤ 1 / 20 + 1 / 1000000 ∧ |A ⬝ᵥ β - β 0| ≤ 1 / 1000000 ∧
      (∀ i, |A i| ≤ 5 / 2) ∧ 1 / 2 ≤ A ⬝ᵥ n := by
  have hn1 (i : Fin 3) : |n i| ≤ 1 := by
    rw [dot3] at hn
    rw [← sq_le_one_iff_abs_le_one]
    fin_cases i
    · show n 0 ^ 2 ≤ 1; nlinarith [mul_self_nonneg (n 1), mul_self_nonneg (n 2)]
    · show n 1 ^ 2 ≤ 1; nlinarith [mul_self_nonneg (n 0), mul_self_nonneg (n 2)]
    · show n 2 ^ 2 ≤ 1; nlinarith [mul_self_nonneg (n 1), mul_self_nonneg (n 0)]
  have a0 : A 0 = 1 + n 0 + e 0 := hA 0
  have a1 : A 1 = n 1 + e 1 := by rw [hA 1]; simp
  have a2 : A 2 = n 2 + e 2 := by rw [hA 2]; simp
  have en := abs_le.mp (dot3_le he hn1)
  have ee := abs_le.mp (dot3_le he he)
  have eb := abs_le.mp (dot3_le he hb)
  have e0 := abs_le.mp (he 0)
  have n0 := abs_le.mp h0
  have nb := abs_le.mp hβ
  have k1 : A ⬝ᵥ A - 2 * A 0 = 2 * (e ⬝ᵥ n) + e ⬝ᵥ e := by
    have h : n ⬝ᵥ n = 1 := hn
    rw [dot3] at h
    rw [dot3, dot3, dot3, a0, a1, a2]
    linear_combination h
  have k2 : A ⬝ᵥ β - β 0 = n ⬝ᵥ β + e ⬝ᵥ β := by
    rw [dot3, dot3, dot3, a0, a1, a2]; ring
  have k3 : A ⬝ᵥ n = n 0 + 1 + e ⬝ᵥ n := by
    have h : n ⬝ᵥ n = 1 := hn
    rw [dot3] at h
    rw [dot3, dot3, a0, a1, a2]
    linear_combination h
  refine ⟨?_, ?_, ?_, fun i => ?_, ?_⟩
  · rw [k1, abs_le]; constructor <;> linarith [en.1, en.2, ee.1, ee.2]
  · rw [a0, abs_le]; constructor <;> linarith [e0.1, e0.2, n0.1, n0.2]
  · rw [k2, abs_le]; constructor <;> linarith [eb.1, eb.2, nb.1, nb.2]
  · have h1 := abs_le.mp (hn1 i)
    have h2 := abs_le.mp (he i)
    have h3 : |(![1, 0, 0] : R3) i| ≤ 1 := by fin_cases i <;> simp
    have h3 := abs_le.mp h3
    rw [hA i, abs_le]; constructor <;> linarith [h1.1, h1.2, h2.1, h2.2, h3.1, h3.2]
  · rw [k3]; linarith [en.1, n0.1]

/-- the next direction computed from the edges `A` (to the new vertex) and `β` (to the old one) -/
theorem turn_real {A β D : R3} (hb : |β ⬝ᵥ β - 2 * β 0| ≤ 1 / 1000000) (hb0 : |β 0 - 2 / 3| ≤ 1 / 20 + 1 / 1000000)
    (hA : |A ⬝ᵥ A - 2 * A 0| ≤ 1 / 1000000) (hA0 : |A 0 - 2 / 3| ≤ 1 / 20 + 1 / 1000000) (hAb : |A ⬝ᵥ β - β 0| ≤ 1 / 1000000)
    (hA1 : ∀ i, |A i| ≤ 5 / 2) (hb1 : ∀ i, |β i| ≤ 4) (hD : ∀ i, |D i - ((A ⬝ᵥ β) • A - (A ⬝ᵥ A) • β) i| ≤ 1 / 100000000) :
    D 0 < -1 / 3 ∧ 1 ≤ euc D ∧ |D 0 / euc D + 1 / 3| ≤ 1 / 20 ∧ |D ⬝ᵥ A| ≤ 1 / 10000000 ∧
      1 ≤ A ⬝ᵥ A * (β ⬝ᵥ β) - A ⬝ᵥ β * (A ⬝ᵥ β) ∧ ∀ i, |D i| ≤ 16 := by
  set E : R3 := (A ⬝ᵥ β) • A - (A ⬝ᵥ A) • β with hE
  have Ei (i : Fin 3) : E i = (A ⬝ᵥ β) * A i - (A ⬝ᵥ A) * β i := rfl
  set σ := A ⬝ᵥ β - β 0 with hσ
  set ω := A ⬝ᵥ A - 2 * A 0 with hω
  set τ := β ⬝ᵥ β - 2 * β 0 with hτ
  have eAb : A ⬝ᵥ β = β 0 + σ := by rw [hσ]; ring
  have eAA : A ⬝ᵥ A = 2 * A 0 + ω := by rw [hω]; ring
  have ebb : β ⬝ᵥ β = 2 * β 0 + τ := by rw [hτ]; ring
  have hEE : E ⬝ᵥ E = (2 * A 0 + ω) * ((2 * A 0 + ω) * (2 * β 0 + τ) - (β 0 + σ) ^ 2) := by
    rw [← eAb, ← eAA, ← ebb, dot3 E E, Ei, Ei, Ei]
    generalize hx : A ⬝ᵥ β = x
    generalize hy : A ⬝ᵥ A = y
    generalize hz : β ⬝ᵥ β = z
    rw [dot3] at hx hy hz
    linear_combination (2 * x * y - 2 * x * y) * hx + x ^ 2 * hy - 2 * x * y * hx + y ^ 2 * hz
  have hEA : E ⬝ᵥ A = 0 := by
    rw [dot3 E A, Ei, Ei, Ei]
    generalize hx : A ⬝ᵥ β = x
    generalize hy : A ⬝ᵥ A = y
    rw [dot3] at hx hy
    linear_combination x * hy - y * hx
  have Eb (i : Fin 3) : |E i| ≤ 15 := by
    rw [Ei]
    have x1 : |A ⬝ᵥ β| ≤ 1 := by
      rw [eAb]; rw [abs_le] at hb0 hAb ⊢; constructor <;> linarith [hb0.1, hb0.2, hAb.1, hAb.2]
    have x2 : |A ⬝ᵥ A| ≤ 2 := by
      rw [eAA]; rw [abs_le] at hA0 hA ⊢; constructor <;> linarith [hA0.1, hA0.2, hA.1, hA.2]
    have y1 := abs_le.mp (abs_mul_le2 x1 (hA1 i))
    have y2 := abs_le.mp (abs_mul_le2 x2 (hb1 i))
    rw [abs_le]; constructor <;> linarith [y1.1, y1.2, y2.1, y2.2]
  have hDE (i : Fin 3) : |(D - E) i| ≤ 1 / 100000000 := hD i
  have Db (i : Fin 3) : |D i| ≤ 16 := by
    have h1 := abs_le.mp (hD i)
    have h2 := abs_le.mp (Eb i)
    rw [abs_le]; constructor <;> linarith [h1.1, h1.2, h2.1, h2.2]
  have hDD : |D ⬝ᵥ D - E ⬝ᵥ E| ≤ 1 / 1000 := by
    have h : D ⬝ᵥ D - E ⬝ᵥ E = (D - E) ⬝ᵥ (D + E) := by
      rw [dot3, dot3, dot3]; simp only [Pi.sub_apply, Pi.add_apply]; ring
    rw [h]
    refine (dot3_le hDE (fun i => (abs_add_le (D i) (E i)).trans (add_le_add (Db i) (Eb i)))).trans (by norm_num)
  have h0 : D 0 = (β 0 + σ) * A 0 - (2 * A 0 + ω) * β 0 + (D 0 - E 0) := by
    rw [Ei, ← eAb, ← eAA]; ring
  have hκ : |D 0 - E 0| ≤ 1 / 1000000 := (hD 0).trans (by norm_num)
  rw [hEE] at hDD
  obtain ⟨k1, k2⟩ := next_real hb0 hA0 hAb hA hb hκ h0 hDD
  have hDne : D ≠ 0 := by
    rintro h
    have h1 := abs_le.mp k1
    have h2 := abs_le.mp hA0
    have h3 := abs_le.mp hb0
    rw [h] at h1
    have : D 0 = 0 := by rw [h]; rfl
    have h4 : 0 ≤ (A 0 - 1 / 2) * (β 0 - 1 / 2) := mul_nonneg (by linarith [h2.1]) (by linarith [h3.1])
    have h5 : (0 : R3) 0 = 0 := rfl
    rw [h5] at h1
    nlinarith [h1.1, h1.2, h2.1, h2.2, h3.1, h3.2]
  have hpos := euc_pos hDne
  obtain ⟨g1, g2, g3⟩ := slope_real hb0 hA0 k1 k2 hpos (euc_sq D)
  refine ⟨g1, g2, g3, ?_, ?_, Db⟩
  · have : D ⬝ᵥ A = (D - E) ⬝ᵥ A := by rw [sub_dotProduct, hEA, sub_zero]
    rw [this]
    exact (dot3_le hDE hA1).trans (by norm_num)
  · rw [eAA, ebb, eAb]
    have q := abs_le.mp hA0
    have p := abs_le.mp hb0
    have w := abs_le.mp hA
    have v := abs_le.mp hb
    have s := abs_le.mp hAb
    have m1 : (2 * (6166 / 10000) - 1 / 1000000) * (2 * β 0 - 1 / 1000000) ≤ (2 * A 0 + ω) * (2 * β 0 + τ) :=
      mul_le_mul (by linarith [q.1, w.1]) (by linarith [v.1]) (by linarith [p.1]) (by linarith [q.1, w.1])
    have m2 : (β 0 + σ) * (β 0 + σ) ≤ (β 0 + 1 / 1000000) * (72 / 100) :=
      mul_le_mul (by linarith [s.2]) (by linarith [s.2, p.2]) (by linarith [s.1, p.1]) (by linarith [p.1])
    linarith [p.1]
end real

open Bin

theorem real_pq (k : ℤ) : (pq k).real = (2 : ℝ) ^ k := by
  show (((pow2 k : ℚ)) : ℝ) = _
  rw [pow2_eq]; push_cast; rfl

theorem real_le {x : Q64} {k : ℤ} (h : |x| ≤ pq k) : |x.real| ≤ (2 : ℝ) ^ k := by
  rw [← real_abs, ← real_pq]; exact BinQ.real_strictMono.monotone h

theorem ru : BinQ.real (u : Q64) = (2 : ℝ) ^ (-53 : ℤ) := by
  rw [← real_pq]; exact congrArg BinQ.real (BinQ.q_inj (x := (u : Q64)) (y := pq (-53)) (q_u.trans (q_pq _).symm))

theorem reta : BinQ.real (eta : Q64) = (2 : ℝ) ^ (-1075 : ℤ) := by
  rw [← real_pq]; exact congrArg BinQ.real (BinQ.q_inj (x := (eta : Q64)) (y := pq (-1075)) (q_eta.trans (q_pq _).symm))

/-- a computed inner product -/
theorem dot_real {p v : V3 Q64} {P V : Fin 3 → Q64} (hp : p.Holds P) (hv : v.Holds V) {a b : ℤ} (hP : ∀ i, |P i| ≤ pq a)
    (hV : ∀ i, |V i| ≤ pq b) (h0 : 0 ≤ a + b) (h1 : a + b ≤ 1000) :
    ∃ y, (V3.dotp p v).Is y ∧ |y.real - toR BinQ.real P ⬝ᵥ toR BinQ.real V| ≤ (2 : ℝ) ^ (a + b - 49) := by
  have he : (eta : Q64) ≤ 1 := by
    rw [← BinQ.q_le, q_eta]; show pow2 (-1075) ≤ 1; rw [← pow2_zero]; exact pow2_le.mpr (by norm_num)
  obtain ⟨y, hy⟩ := dotp_range hp hv hP hV he (by
    rw [← BinQ.q_le, q_omega]
    show 4 * (pow2 a * pow2 b + 1) ≤ pow2 1023
    have h1 : 1 ≤ pow2 (a + b) := by rw [← pow2_zero]; exact pow2_le.mpr h0
    have h2 : pow2 1023 = pow2 3 * pow2 1020 := by rw [← pow2_add]; norm_num
    have h3 : pow2 (a + b) ≤ pow2 1020 := pow2_le.mpr (by omega)
    rw [← pow2_add, h2, show pow2 3 = 8 by rw [pow2_eq]; norm_num]
    linarith)
  refine ⟨y, hy, ?_⟩
  have h := BinQ.real_strictMono.monotone (dotp_err hp hv hP hy)
  have e1 : BinQ.real (P ⬝ᵥ V) = toR BinQ.real P ⬝ᵥ toR BinQ.real V := by
    rw [dot3, dotProduct, Fin.sum_univ_three, map_add, map_add, map_mul, map_mul, map_mul]; rfl
  have n1 : BinQ.real (norm1 V) ≤ 3 * (2 : ℝ) ^ b := by
    have e : BinQ.real (norm1 V) = |(V 0).real| + |(V 1).real| + |(V 2).real| := by
      unfold norm1; rw [map_add, map_add, real_abs, real_abs, real_abs]
    rw [e]; linarith [real_le (hV 0), real_le (hV 1), real_le (hV 2)]
  rw [real_abs, map_sub, e1, map_add, map_mul, map_mul, map_mul, map_mul, real_pq, ru, reta] at h
  have e2 : BinQ.real (7 / 2 : Q64) = 7 / 2 := by
    rw [map_div₀, map_ofNat, map_ofNat]
  rw [e2, map_ofNat] at h
  refine h.trans ?_
  have pa : (0 : ℝ) < 2 ^ a := by positivity
  have pb : (0 : ℝ) < 2 ^ b := by positivity
  have k1 : (2 : ℝ) ^ a * BinQ.real (norm1 V) ≤ 3 * 2 ^ (a + b) := by
    rw [zpow_add₀ (by norm_num : (2 : ℝ) ≠ 0)]
    have := mul_le_mul_of_nonneg_left n1 pa.le
    linarith
  have k2 : (1 : ℝ) ≤ 2 ^ (a + b) := one_le_zpow₀ (by norm_num) h0
  have k3 : (2 : ℝ) ^ (a + b - 49) = 2 ^ (a + b) * (16 * 2 ^ (-53 : ℤ)) := by
    rw [sub_eq_add_neg, zpow_add₀ (by norm_num : (2 : ℝ) ≠ 0)]; norm_num
  have k4 : (2 : ℝ) ^ (-1075 : ℤ) ≤ 2 ^ (-53 : ℤ) := zpow_le_zpow_right₀ (by norm_num) (by norm_num)
  rw [k3]
  generalize (2 : ℝ) ^ (-1075 : ℤ) = η at *
  have hv0 : (0 : ℝ) < 2 ^ (-53 : ℤ) := by positivity
  generalize (2 : ℝ) ^ (-53 : ℤ) = v at *
  generalize (2 : ℝ) ^ (a + b) = Z at *
  have k5 := mul_le_mul_of_nonneg_left k1 (show 0 ≤ 7 / 2 * v by positivity)
  have k6 := mul_le_mul_of_nonneg_right k2 hv0.le
  linarith

/-- a computed triple product of two edges at the same vertex -/
theorem triple_real {p q x : V3 Q64} {P Q X : Fin 3 → Q64} (hp : p.Holds P) (hq : q.Holds Q) (hx : x.Holds X) (bP : ∀ i, |P i| ≤ pq 26)
    (bQ : ∀ i, |Q i| ≤ pq 26) (bX : ∀ i, |X i| ≤ pq 26) :
    ∃ D, (V3.crs (V3.crs (V3.sub p x) (V3.sub q x)) (V3.sub q x)).Holds D ∧ (∀ i, |D i| ≤ pq 88) ∧
      ∀ i, |(D i).real - (((toR BinQ.real P - toR BinQ.real X) ⨯₃ (toR BinQ.real Q - toR BinQ.real X)) ⨯₃
        (toR BinQ.real Q - toR BinQ.real X)) i| ≤ 2 ^ 38 := by
  have ho : 2 * pq 26 ≤ omega := by
    rw [← BinQ.q_le, q_omega]; show 2 * pow2 26 ≤ pow2 1023; rw [← pow2_one, ← pow2_add]; exact pow2_le.mpr (by norm_num)
  have up : 65 / 32 * pq 26 ≤ pq 28 := by
    rw [← BinQ.q_le]
    show 65 / 32 * pow2 26 ≤ pow2 28
    rw [pow2_eq, pow2_eq]; norm_num
  obtain ⟨A, hA, bA, eA⟩ := sub_float hp hx bP bX ho
  obtain ⟨B, hB, bB, eB⟩ := sub_float hq hx bQ bX ho
  replace bA : ∀ i, |A i| ≤ pq 28 := fun i => (bA i).trans up
  replace bB : ∀ i, |B i| ≤ pq 28 := fun i => (bB i).trans up
  obtain ⟨n1, n2, n3⟩ := cross_range (a := 28) (b := 28) (by norm_num) (by norm_num)
  obtain ⟨m1, m2, m3⟩ := cross_range (a := 58) (b := 28) (by norm_num) (by norm_num)
  obtain ⟨C, hC, bC, eC⟩ := cross_float hA hB bA bB n1 n2
  replace bC : ∀ i, |C i| ≤ pq 58 := fun i => (bC i).trans n3
  obtain ⟨D, hD, bD, eD⟩ := cross_float hC hB bC bB m1 m2
  refine ⟨D, hD, fun i => (bD i).trans m3, fun i => ?_⟩
  set α := toR BinQ.real P - toR BinQ.real X
  set β := toR BinQ.real Q - toR BinQ.real X
  have small {x y : Q64} {z : ℝ} (h : |x - y| ≤ 2 * (u * pq 26)) (hz : y.real = z) : |x.real - z| ≤ 2 ^ (-26 : ℤ) := by
    have := BinQ.real_strictMono.monotone h
    rw [real_abs, map_sub, hz, map_mul, map_mul, map_ofNat, ru, real_pq] at this
    refine this.trans ?_
    rw [← zpow_add₀ (by norm_num : (2 : ℝ) ≠ 0)]; norm_num
  have eA' (i : Fin 3) : |toR BinQ.real A i - α i| ≤ 2 ^ (-26 : ℤ) := small (eA i) (map_sub BinQ.real _ _)
  have eB' (i : Fin 3) : |toR BinQ.real B i - β i| ≤ 2 ^ (-26 : ℤ) := small (eB i) (map_sub BinQ.real _ _)
  have bα (i : Fin 3) : |α i| ≤ 2 ^ 27 := by
    refine (abs_sub _ _).trans ?_
    have h1 := real_le (bP i)
    have h2 := real_le (bX i)
    norm_num at h1 h2
    have h1' : |toR BinQ.real P i| ≤ 67108864 := h1
    have h2' : |toR BinQ.real X i| ≤ 67108864 := h2
    linarith
  have bβ (i : Fin 3) : |β i| ≤ 2 ^ 27 := by
    refine (abs_sub _ _).trans ?_
    have h1 := real_le (bQ i)
    have h2 := real_le (bX i)
    norm_num at h1 h2
    have h1' : |toR BinQ.real Q i| ≤ 67108864 := h1
    have h2' : |toR BinQ.real X i| ≤ 67108864 := h2
    linarith
  have bB' (i : Fin 3) : |toR BinQ.real B i| ≤ 2 ^ 28 := by
    have := real_le (bB i); norm_num at this ⊢; exact this
  have c1 (i : Fin 3) := cross_perturb eA' eB' bα bB' i
  have c2 (i : Fin 3) : |toR BinQ.real C i - (toR BinQ.real A ⨯₃ toR BinQ.real B) i| ≤ 64 := by
    have := BinQ.real_strictMono.monotone (eC i)
    rw [real_abs, map_sub, map_mul, map_mul, map_mul, map_ofNat, ru, real_pq] at this
    rw [← toR_cross]
    refine this.trans ?_
    rw [← zpow_add₀ (by norm_num : (2 : ℝ) ≠ 0), ← zpow_add₀ (by norm_num : (2 : ℝ) ≠ 0)]; norm_num
  have c3 (i : Fin 3) : |toR BinQ.real C i - (α ⨯₃ β) i| ≤ 80 := by
    have h1 := abs_le.mp (c1 i)
    have h2 := abs_le.mp (c2 i)
    norm_num at h1
    rw [abs_le]; constructor <;> linarith [h1.1, h1.2, h2.1, h2.2]
  have c4 (i : Fin 3) : |(α ⨯₃ β) i| ≤ 2 ^ 55 := (cross_bound bα bβ i).trans (by norm_num)
  have c5 := abs_le.mp (cross_perturb c3 eB' c4 bB' i)
  have c6 : |toR BinQ.real D i - (toR BinQ.real C ⨯₃ toR BinQ.real B) i| ≤ 2 ^ 36 := by
    have := BinQ.real_strictMono.monotone (eD i)
    rw [real_abs, map_sub, map_mul, map_mul, map_mul, map_ofNat, ru, real_pq, real_pq] at this
    rw [← toR_cross]
    refine this.trans ?_
    rw [← zpow_add₀ (by norm_num : (2 : ℝ) ≠ 0), ← zpow_add₀ (by norm_num : (2 : ℝ) ≠ 0)]; norm_num
  have c6 := abs_le.mp c6
  norm_num at c5
  have c7 : toR BinQ.real D i = (D i).real := rfl
  rw [c7] at c6
  rw [abs_le]; constructor <;> linarith [c5.1, c5.2, c6.1, c6.2]

theorem le_pq {x : Q64} {k : ℤ} (h : |x.real| ≤ (2 : ℝ) ^ k) : |x| ≤ pq k := by
  rw [← BinQ.real_strictMono.le_iff_le, real_abs, real_pq]; exact h

theorem cross_id (ρ : ℝ) (A β : R3) : ((ρ • (β - A)) ⨯₃ ((-ρ) • A)) ⨯₃ ((-ρ) • A) = ρ ^ 3 • ((A ⬝ᵥ β) • A - (A ⬝ᵥ A) • β) := by
  rw [dot3, dot3]
  ext i
  fin_cases i <;> simp [cross_apply] <;> ring

theorem cross_id2 (ρ : ℝ) (A β : R3) : ((((-ρ) • A) ⨯₃ (ρ • (β - A))) ⨯₃ (ρ • (β - A))) ⬝ᵥ A =
    ρ ^ 3 * (A ⬝ᵥ A * (β ⬝ᵥ β) - A ⬝ᵥ β * (A ⬝ᵥ β)) := by
  rw [dot3, dot3, dot3, dot3]
  simp [cross_apply]; ring

end Gjk

end Mazth
