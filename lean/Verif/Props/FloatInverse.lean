import Verif.Props.Inverse
import Verif.Props.FloatVec
import Verif.Props.FloatBounds

/-!
# C71: the matrix inverses in floating point

`Mat4::inverse` computes the sixteen cofactors, the determinant, its reciprocal and the products.  For a matrix with entries of
size at most `M` the error of the determinant is bounded, which gives the decision (`None` / `Some`) outside a margin, and the
error of every entry of the result (which is the transposed inverse, see C13) is bounded in terms of the determinant.
-/

set_option linter.unusedSectionVars false
set_option autoImplicit false

namespace Mazth

open RndErr

variable {K : Type} [Field K] [LinearOrder K] [IsStrictOrderedRing K] [Fmt K] [LawfulFmt K] [RndErr K]

namespace FInv

/-- `Appr` and finite -/
def AF (x : Fl K) (k : ℕ) (e T h : K) : Prop := Appr x k e T h ∧ x.Finite

variable {x y z : Fl K} {a b c e f M : K}

/-- a sum of `n` signed triple products of numbers up to `M` -/
def Sum3 (M : K) (n : ℕ) (x : Fl K) (e : K) : Prop := AF x (n + 1) e (n * M ^ 3) (n * (1 + u) ^ (n - 1) * (3 * M * eta))

theorem grow_small {n : ℕ} (hn : n ≤ 12) : ((1 : K) + u) ^ n ≤ 5 / 4 := by
  have hl := u_le (K := K)
  have hu := u_pos (K := K)
  refine (grow_mono hn).trans ((pow_le_pow_left₀ (by linarith) (show (1 : K) + u ≤ 65 / 64 by linarith) 12).trans ?_)
  norm_num

theorem neg_mul_holds (hx : x.Holds a) : (-x).Holds (-a) := ⟨hx.1.kneg, hx.2.neg⟩

/-- the hypotheses on the size of the entries -/
structure Range (M : K) : Prop where
  one : 1 ≤ M
  hi : 64 * M ^ 4 ≤ omega
  lo : 2 ^ 14 * M ^ 4 * eta ≤ u

namespace Range

variable (R : Range M)
include R

theorem pos : 0 < M := lt_of_lt_of_le one_pos R.one
theorem sq : M ≤ M ^ 2 := by nlinarith [R.one]
theorem cube : M ^ 2 ≤ M ^ 3 := by nlinarith [R.one, R.sq, sq_nonneg M]
theorem four : M ^ 3 ≤ M ^ 4 := by
  have := pow_pos R.pos 3
  nlinarith [R.one]
theorem eta4 : 16384 * (M ^ 4 * eta) ≤ (u : K) := by have := R.lo; norm_num at this; linarith
theorem meta_le : M * eta ≤ 1 / 16384 * (u : K) := by
  have h := R.eta4
  have h1 : M ≤ M ^ 4 := R.sq.trans (R.cube.trans R.four)
  have h2 := mul_le_mul_of_nonneg_right h1 (eta_pos (K := K)).le
  linarith
theorem eta_le : (eta : K) ≤ 1 / 16384 * (u : K) := by
  have h := R.meta_le
  have := mul_le_mul_of_nonneg_right R.one (eta_pos (K := K)).le
  linarith

end Range

theorem triple (R : Range M) (hx : x.Holds a) (hy : y.Holds b) (hz : z.Holds c) (ha : |a| ≤ M) (hb : |b| ≤ M) (hc : |c| ≤ M) :
    Sum3 M 1 (x * y * z) (a * b * c) := by
  have hM := R.pos
  have he := eta_pos (K := K)
  have hl := u_le (K := K)
  have hu := u_pos (K := K)
  have p1 : |a * b| ≤ M ^ 2 := by rw [abs_mul, pow_two]; exact mul_le_mul ha hb (abs_nonneg _) hM.le
  have hme := R.meta_le
  have hee := R.eta_le
  have h4 := R.hi
  have h5 := R.sq; have h6 := R.cube; have h7 := R.four
  have h1 := R.one
  have q1 := (Appr.prod hx hy).weaken p1
  have q2 := q1.mul ((Appr.leaf hz).weaken hc)
  obtain ⟨v, hv⟩ : (x * y).Finite := Fl.mul_fin hx.1 hy.1 (by linarith)
  have hv' := q1.size hv
  rw [pow_one] at hv'
  have hvM : |v| ≤ 2 * M ^ 2 := by
    have : u * M ^ 2 ≤ 1 / 64 * M ^ 2 := mul_le_mul_of_nonneg_right hl (by positivity)
    linarith
  refine ⟨(q2.mono (l := 2) (g := 3 * M * eta) le_rfl ?_).cast rfl ?_ ?_, ?_⟩
  · have h0 : u * (M * eta) ≤ 1 / 64 * (M * eta) := mul_le_mul_of_nonneg_right hl (by positivity)
    have h0' : eta ≤ M * eta := by nlinarith
    linarith [show (1 + u) * ((1 + u) ^ 1 * M ^ 2 * 0 + (1 + u) ^ 0 * M * eta + eta * 0) + eta = M * eta + u * (M * eta) + eta by ring,
      show 3 * M * eta = 3 * (M * eta) by ring]
  · push_cast; ring
  · simp
  · refine Fl.mul_fin hv hz.1 ?_
    rw [abs_mul]
    have := mul_le_mul hvM hc (abs_nonneg _) (by positivity)
    linarith [show 2 * M ^ 2 * M = 2 * M ^ 3 by ring]

theorem Sum3.hyp (R : Range M) {n : ℕ} (hn : n ≤ 6) (h0 : 1 ≤ n) :
    (n : K) * (1 + u) ^ (n - 1) * (3 * M * eta) ≤ 1 / 512 * u ∧ (1 + u) ^ (n + 1) * (n * M ^ 3) ≤ 8 * M ^ 3 := by
  have hM := R.pos
  have he := eta_pos (K := K)
  have hu := u_pos (K := K)
  have h1 : (n : K) ≤ 6 := by exact_mod_cast hn
  have h2 := grow_small (K := K) (show n - 1 ≤ 12 by omega)
  have h3 := grow_small (K := K) (show n + 1 ≤ 12 by omega)
  have h4 := R.meta_le
  constructor
  · have : (n : K) * (1 + u) ^ (n - 1) ≤ 6 * (5 / 4) := mul_le_mul h1 h2 (by positivity) (by norm_num)
    have := mul_le_mul_of_nonneg_right this (show 0 ≤ 3 * M * eta by positivity)
    linarith [show 3 * M * eta = 3 * (M * eta) by ring]
  · have : (1 + u) ^ (n + 1) * (n : K) ≤ 5 / 4 * 6 := mul_le_mul h3 h1 (by positivity) (by norm_num)
    have := mul_le_mul_of_nonneg_right this (show 0 ≤ M ^ 3 by positivity)
    have : 0 ≤ M ^ 3 := by positivity
    linarith

theorem Sum3.neg {n : ℕ} (h : Sum3 M n x e) : Sum3 M n (-x) (-e) := by
  refine ⟨h.1.neg, ?_⟩
  obtain ⟨c, hc⟩ := h.2
  exact ⟨-c, hc.kneg⟩

theorem Sum3.add (R : Range M) {n : ℕ} (hn : n ≤ 5) (h0 : 1 ≤ n) (h : Sum3 M n x e) (h' : Sum3 M 1 y f) :
    Sum3 M (n + 1) (x + y) (e + f) := by
  have hM := R.pos
  have he := eta_pos (K := K)
  have hu := u_pos (K := K)
  have hl := u_le (K := K)
  have k1 := h.1.add (h'.1.mono (show 1 + 1 ≤ n + 1 by omega) le_rfl)
  have hme : 0 ≤ 3 * M * eta := by positivity
  refine ⟨(k1.mono le_rfl ?_).cast rfl ?_ rfl, ?_⟩
  · have hp : (1 : K) ≤ (1 + u) ^ (n - 1) := grow_one _
    obtain ⟨m, rfl⟩ : ∃ m, n = m + 1 := ⟨n - 1, by omega⟩
    simp only [Nat.add_sub_cancel, Nat.cast_add, Nat.cast_one, one_mul, Nat.sub_self, pow_zero] at hp ⊢
    have := mul_le_mul_of_nonneg_right hp hme
    have h3 := mul_le_mul_of_nonneg_left this (show (0 : K) ≤ 1 + u by linarith)
    rw [pow_succ]
    linarith [show (1 + u) * (((m : K) + 1) * (1 + u) ^ m * (3 * M * eta) + 3 * M * eta) =
      ((m : K) + 1) * ((1 + u) ^ m * (1 + u)) * (3 * M * eta) + (1 + u) * (1 * (3 * M * eta)) by ring,
      show ((m : K) + 1 + 1) * ((1 + u) ^ m * (1 + u)) * (3 * M * eta) =
      ((m : K) + 1) * ((1 + u) ^ m * (1 + u)) * (3 * M * eta) + (1 + u) * ((1 + u) ^ m * (3 * M * eta)) by ring]
  · push_cast; ring
  · obtain ⟨c, hc⟩ := h.2
    obtain ⟨d, hd⟩ := h'.2
    refine Fl.add_fin hc hd ((abs_add_le _ _).trans ?_)
    have s1 := h.1.size hc
    have s2 := h'.1.size hd
    obtain ⟨t1, t2⟩ := Sum3.hyp (K := K) R (show n ≤ 6 by omega) h0
    obtain ⟨t3, t4⟩ := Sum3.hyp (K := K) R (show 1 ≤ 6 by omega) le_rfl
    have h4 := R.hi
    have h7 := R.four
    have h8 : 1 ≤ M ^ 3 := one_le_pow₀ R.one
    have s1' := s1.trans (add_le_add t2 t1)
    have s2' := s2.trans (add_le_add t4 t3)
    linarith only [s1', s2', h4, h7, h8, hl]

theorem Sum3.sub (R : Range M) {n : ℕ} (hn : n ≤ 5) (h0 : 1 ≤ n) (h : Sum3 M n x e) (h' : Sum3 M 1 y f) :
    Sum3 M (n + 1) (x - y) (e - f) := by
  rw [sub_eq_add_neg]; exact Sum3.add R hn h0 h h'.neg

theorem six_pos (R : Range M) {x1 x2 x3 x4 x5 x6 : Fl K} {e1 e2 e3 e4 e5 e6 : K} (h1 : Sum3 M 1 x1 e1) (h2 : Sum3 M 1 x2 e2)
    (h3 : Sum3 M 1 x3 e3) (h4 : Sum3 M 1 x4 e4) (h5 : Sum3 M 1 x5 e5) (h6 : Sum3 M 1 x6 e6) :
    Sum3 M 6 (x1 - x2 - x3 + x4 + x5 - x6) (e1 - e2 - e3 + e4 + e5 - e6) := by
  have k2 : Sum3 M 2 _ _ := h1.sub R (by omega) (by omega) h2
  have k3 : Sum3 M 3 _ _ := k2.sub R (by omega) (by omega) h3
  have k4 : Sum3 M 4 _ _ := k3.add R (by omega) (by omega) h4
  have k5 : Sum3 M 5 _ _ := k4.add R (by omega) (by omega) h5
  exact k5.sub R (by omega) (by omega) h6

theorem six_neg (R : Range M) {x1 x2 x3 x4 x5 x6 : Fl K} {e1 e2 e3 e4 e5 e6 : K} (h1 : Sum3 M 1 x1 e1) (h2 : Sum3 M 1 x2 e2)
    (h3 : Sum3 M 1 x3 e3) (h4 : Sum3 M 1 x4 e4) (h5 : Sum3 M 1 x5 e5) (h6 : Sum3 M 1 x6 e6) :
    Sum3 M 6 (x1 + x2 + x3 - x4 - x5 + x6) (e1 + e2 + e3 - e4 - e5 + e6) := by
  have k2 : Sum3 M 2 _ _ := h1.add R (by omega) (by omega) h2
  have k3 : Sum3 M 3 _ _ := k2.add R (by omega) (by omega) h3
  have k4 : Sum3 M 4 _ _ := k3.sub R (by omega) (by omega) h4
  have k5 : Sum3 M 5 _ _ := k4.sub R (by omega) (by omega) h5
  exact k5.add R (by omega) (by omega) h6

/-- the cofactors -/
theorem adj4_sum (R : Range M) {F : Fin 4 → Fin 4 → Fl K} {A : Fin 4 → Fin 4 → K} (h : ∀ i j, (F i j).Holds (A i j))
    (hM : ∀ i j, |A i j| ≤ M) (i j : Fin 4) : Sum3 M 6 (adj4 F i j) (adj4 A i j) := by
  have t (i j k l m n : Fin 4) : Sum3 M 1 (F i j * F k l * F m n) (A i j * A k l * A m n) :=
    triple R (h i j) (h k l) (h m n) (hM i j) (hM k l) (hM m n)
  have t' (i j k l m n : Fin 4) : Sum3 M 1 (-F i j * F k l * F m n) (-A i j * A k l * A m n) :=
    triple R (neg_mul_holds (h i j)) (h k l) (h m n) (by rw [abs_neg]; exact hM i j) (hM k l) (hM m n)
  fin_cases i <;> fin_cases j <;> simp only [adj4]
  · exact six_pos R (t 1 1 2 2 3 3) (t 1 1 3 2 2 3) (t 1 2 2 1 3 3) (t 1 2 3 1 2 3) (t 1 3 2 1 3 2) (t 1 3 3 1 2 2)
  · exact six_neg R (t' 0 1 2 2 3 3) (t 0 1 3 2 2 3) (t 0 2 2 1 3 3) (t 0 2 3 1 2 3) (t 0 3 2 1 3 2) (t 0 3 3 1 2 2)
  · exact six_pos R (t 0 1 1 2 3 3) (t 0 1 3 2 1 3) (t 0 2 1 1 3 3) (t 0 2 3 1 1 3) (t 0 3 1 1 3 2) (t 0 3 3 1 1 2)
  · exact six_neg R (t' 0 1 1 2 2 3) (t 0 1 2 2 1 3) (t 0 2 1 1 2 3) (t 0 2 2 1 1 3) (t 0 3 1 1 2 2) (t 0 3 2 1 1 2)
  · exact six_neg R (t' 1 0 2 2 3 3) (t 1 0 3 2 2 3) (t 1 2 2 0 3 3) (t 1 2 3 0 2 3) (t 1 3 2 0 3 2) (t 1 3 3 0 2 2)
  · exact six_pos R (t 0 0 2 2 3 3) (t 0 0 3 2 2 3) (t 0 2 2 0 3 3) (t 0 2 3 0 2 3) (t 0 3 2 0 3 2) (t 0 3 3 0 2 2)
  · exact six_neg R (t' 0 0 1 2 3 3) (t 0 0 3 2 1 3) (t 0 2 1 0 3 3) (t 0 2 3 0 1 3) (t 0 3 1 0 3 2) (t 0 3 3 0 1 2)
  · exact six_pos R (t 0 0 1 2 2 3) (t 0 0 2 2 1 3) (t 0 2 1 0 2 3) (t 0 2 2 0 1 3) (t 0 3 1 0 2 2) (t 0 3 2 0 1 2)
  · exact six_pos R (t 1 0 2 1 3 3) (t 1 0 3 1 2 3) (t 1 1 2 0 3 3) (t 1 1 3 0 2 3) (t 1 3 2 0 3 1) (t 1 3 3 0 2 1)
  · exact six_neg R (t' 0 0 2 1 3 3) (t 0 0 3 1 2 3) (t 0 1 2 0 3 3) (t 0 1 3 0 2 3) (t 0 3 2 0 3 1) (t 0 3 3 0 2 1)
  · exact six_pos R (t 0 0 1 1 3 3) (t 0 0 3 1 1 3) (t 0 1 1 0 3 3) (t 0 1 3 0 1 3) (t 0 3 1 0 3 1) (t 0 3 3 0 1 1)
  · exact six_neg R (t' 0 0 1 1 2 3) (t 0 0 2 1 1 3) (t 0 1 1 0 2 3) (t 0 1 2 0 1 3) (t 0 3 1 0 2 1) (t 0 3 2 0 1 1)
  · exact six_neg R (t' 1 0 2 1 3 2) (t 1 0 3 1 2 2) (t 1 1 2 0 3 2) (t 1 1 3 0 2 2) (t 1 2 2 0 3 1) (t 1 2 3 0 2 1)
  · exact six_pos R (t 0 0 2 1 3 2) (t 0 0 3 1 2 2) (t 0 1 2 0 3 2) (t 0 1 3 0 2 2) (t 0 2 2 0 3 1) (t 0 2 3 0 2 1)
  · exact six_neg R (t' 0 0 1 1 3 2) (t 0 0 3 1 1 2) (t 0 1 1 0 3 2) (t 0 1 3 0 1 2) (t 0 2 1 0 3 1) (t 0 2 3 0 1 1)
  · exact six_pos R (t 0 0 1 1 2 2) (t 0 0 2 1 1 2) (t 0 1 1 0 2 2) (t 0 1 2 0 1 2) (t 0 2 1 0 2 1) (t 0 2 2 0 1 1)

/-- `(1+u)^n - 1` -/
theorem grow_sub {n : ℕ} (hn : n ≤ 11) : ((1 : K) + u) ^ n - 1 ≤ 12 * u := by
  have hl := u_le (K := K)
  have hu := u_pos (K := K)
  have h1 := grow_mono (K := K) hn
  have h2 : ((1 : K) + u) ^ 11 - 1 ≤ 12 * u := by
    have e : ((1 : K) + u) ^ 11 - 1 = u * (11 + 55 * u + 165 * u ^ 2 + 330 * u ^ 3 + 462 * u ^ 4 + 462 * u ^ 5 + 330 * u ^ 6 + 165 * u ^ 7
      + 55 * u ^ 8 + 11 * u ^ 9 + u ^ 10) := by ring
    rw [e, mul_comm]
    refine mul_le_mul_of_nonneg_right ?_ hu.le
    have p (k : ℕ) : (u : K) ^ k ≤ (1 / 64) ^ k := pow_le_pow_left₀ hu.le hl k
    have p2 := p 2; have p3 := p 3; have p4 := p 4; have p5 := p 5; have p6 := p 6; have p7 := p 7; have p8 := p 8; have p9 := p 9
    have p10 := p 10
    norm_num at p2 p3 p4 p5 p6 p7 p8 p9 p10
    linarith
  linarith

/-- value, size and error of a cofactor -/
theorem Sum3.val (R : Range M) (h : Sum3 M 6 x e) : |e| ≤ 6 * M ^ 3 ∧ ∃ c, x.Holds c ∧ |c - e| ≤ 48 * u * M ^ 3 := by
  have hu := u_pos (K := K)
  obtain ⟨c, hc⟩ := h.2
  refine ⟨by simpa using h.1.bound, c, ⟨hc, h.1.wf⟩, ?_⟩
  have h1 := h.1.err c hc
  have h2 := (Sum3.hyp (K := K) R (show 6 ≤ 6 by omega) (by omega)).1
  have h3 : ((1 : K) + u) ^ (6 + 1) - 1 ≤ 15 / 2 * u := by
    have hl := u_le (K := K)
    have e : ((1 : K) + u) ^ (6 + 1) - 1 = u * (7 + 21 * u + 35 * u ^ 2 + 35 * u ^ 3 + 21 * u ^ 4 + 7 * u ^ 5 + u ^ 6) := by ring
    rw [e, mul_comm]
    refine mul_le_mul_of_nonneg_right ?_ hu.le
    have p (k : ℕ) : (u : K) ^ k ≤ (1 / 64) ^ k := pow_le_pow_left₀ hu.le hl k
    have p2 := p 2; have p3 := p 3; have p4 := p 4; have p5 := p 5; have p6 := p 6
    norm_num at p2 p3 p4 p5 p6
    linarith
  have h4 : 1 ≤ M ^ 3 := one_le_pow₀ R.one
  have h5 := mul_le_mul_of_nonneg_right h3 (show 0 ≤ 6 * M ^ 3 by linarith)
  push_cast at h1 h2
  have h6 : u * 1 ≤ u * M ^ 3 := mul_le_mul_of_nonneg_left h4 hu.le
  linarith [show 15 / 2 * u * (6 * M ^ 3) = 45 * (u * M ^ 3) by ring, show 48 * u * M ^ 3 = 48 * (u * M ^ 3) by ring]

/-- the determinant expression of `Mat4::inverse` -/
def det4code (F : Fin 4 → Fin 4 → Fl K) : Fl K :=
  F 0 0 * adj4 F 0 0 + F 1 0 * adj4 F 0 1 + F 2 0 * adj4 F 0 2 + F 3 0 * adj4 F 0 3

/-- the error of the determinant -/
theorem det4_err (R : Range M) {F : Fin 4 → Fin 4 → Fl K} {A : Matrix (Fin 4) (Fin 4) K} (h : ∀ i j, (F i j).Holds (A i j))
    (hM : ∀ i j, |A i j| ≤ M) : |A.det| ≤ 24 * M ^ 4 ∧ ∃ d, (det4code F).Holds d ∧ |d - A.det| ≤ 300 * u * M ^ 4 := by
  have hM0 := R.pos
  have hu := u_pos (K := K)
  have hl := u_le (K := K)
  have he := eta_pos (K := K)
  have h4 := R.hi
  have h8 : 1 ≤ M ^ 4 := one_le_pow₀ R.one
  have hee := R.eta_le
  have key (i j : Fin 4) : Appr (F i 0 * adj4 F 0 j) 8 (A i 0 * adj4 A 0 j) (6 * M ^ 4) (1 / 256 * (u * M)) ∧
      ∃ c, (F i 0 * adj4 F 0 j).Is c ∧ |c| ≤ 8 * M ^ 4 := by
    have s := adj4_sum R h hM 0 j
    obtain ⟨hy1, hy2⟩ := Sum3.hyp (K := K) R (show 6 ≤ 6 by omega) (by omega)
    push_cast at hy1 hy2
    have s1 : Appr (adj4 F 0 j) 7 (adj4 A 0 j) (6 * M ^ 3) (1 / 512 * u) := by
      refine ((s.1).cast rfl (by push_cast; rfl) rfl).mono (by omega) ?_
      push_cast; exact hy1
    have q := ((Appr.leaf (h i 0)).weaken (hM i 0)).mul s1
    have hA : Appr (F i 0 * adj4 F 0 j) 8 (A i 0 * adj4 A 0 j) (6 * M ^ 4) (1 / 256 * (u * M)) := by
      refine (q.mono (l := 8) (by omega) ?_).cast rfl (by ring) rfl
      have h1 : u * (u * M) ≤ 1 / 64 * (u * M) := mul_le_mul_of_nonneg_right hl (by positivity)
      have h2 : u * 1 ≤ u * M := mul_le_mul_of_nonneg_left R.one hu.le
      linarith [show (1 + u) * ((1 + u) ^ 0 * M * (1 / 512 * u) + (1 + u) ^ 7 * (6 * M ^ 3) * 0 + 0 * (1 / 512 * u)) + eta =
        1 / 512 * (u * M) + 1 / 512 * (u * (u * M)) + eta by ring]
    refine ⟨hA, ?_⟩
    obtain ⟨c, hc⟩ := s.2
    have hc' := s1.size hc
    have hg := grow_small (K := K) (show 7 ≤ 12 by omega)
    have hM3 : 1 ≤ M ^ 3 := one_le_pow₀ R.one
    have h3 := mul_le_mul_of_nonneg_right hg (show 0 ≤ 6 * M ^ 3 by linarith)
    have h5 : |A i 0 * c| ≤ M * (8 * M ^ 3) := by
      rw [abs_mul]; exact mul_le_mul (hM i 0) (by linarith) (abs_nonneg _) hM0.le
    obtain ⟨w, hw⟩ := Fl.mul_fin (h i 0).1 hc (by linarith [show M * (8 * M ^ 3) = 8 * M ^ 4 by ring])
    refine ⟨w, hw, ?_⟩
    have hw' := hA.size hw
    have hg := grow_small (K := K) (show 8 ≤ 12 by omega)
    have h3 := mul_le_mul_of_nonneg_right hg (show 0 ≤ 6 * M ^ 4 by linarith)
    have h6 : u * M ≤ 1 / 64 * M := mul_le_mul_of_nonneg_right hl hM0.le
    have h7 : M ≤ M ^ 4 := R.sq.trans (R.cube.trans R.four)
    linarith
  obtain ⟨a0, c0, w0, b0⟩ := key 0 0
  obtain ⟨a1, c1, w1, b1⟩ := key 1 1
  obtain ⟨a2, c2, w2, b2⟩ := key 2 2
  obtain ⟨a3, c3, w3, b3⟩ := key 3 3
  have uM : 0 ≤ u * M := by positivity
  have uuM : u * (u * M) ≤ 1 / 64 * (u * M) := mul_le_mul_of_nonneg_right hl uM
  have d1 := a0.add a1
  have d2 := (d1.mono (g := 1 / 100 * (u * M)) le_rfl (by
    linarith [show (1 + u) * (1 / 256 * (u * M) + 1 / 256 * (u * M)) = 1 / 128 * (u * M) + 1 / 128 * (u * (u * M)) by ring])).add
    (a2.mono (show 8 ≤ 8 + 1 by omega) le_rfl)
  have d3 := (d2.mono (g := 1 / 50 * (u * M)) le_rfl (by
    linarith [show (1 + u) * (1 / 100 * (u * M) + 1 / 256 * (u * M)) = (1 / 100 + 1 / 256) * (u * M) + (1 / 100 + 1 / 256) * (u * (u * M)) by ring])).add
    (a3.mono (show 8 ≤ 8 + 1 + 1 by omega) le_rfl)
  have d4 := d3.mono (g := 1 / 10 * (u * M)) le_rfl (by
    linarith [show (1 + u) * (1 / 50 * (u * M) + 1 / 256 * (u * M)) = (1 / 50 + 1 / 256) * (u * M) + (1 / 50 + 1 / 256) * (u * (u * M)) by ring])
  have hdet := det_fin_four A
  have d5 : Appr (det4code F) 11 A.det (24 * M ^ 4) (1 / 10 * (u * M)) := d4.cast hdet.symm (by ring) rfl
  obtain ⟨e1, f1⟩ := Fl.add_fin w0 w1 ((abs_add_le _ _).trans (by linarith))
  have g1 := d1.size f1
  obtain ⟨e2, f2⟩ := Fl.add_fin f1 w2 ((abs_add_le _ _).trans (by
    have hg := grow_small (K := K) (show 8 + 1 ≤ 12 by omega)
    have h3 := mul_le_mul_of_nonneg_right hg (show 0 ≤ 6 * M ^ 4 + 6 * M ^ 4 by linarith)
    have h6 : u * M ≤ 1 / 64 * M := mul_le_mul_of_nonneg_right hl hM0.le
    have h7 : M ≤ M ^ 4 := R.sq.trans (R.cube.trans R.four)
    linarith [show (1 + u) * (1 / 256 * (u * M) + 1 / 256 * (u * M)) = 1 / 128 * (u * M) + 1 / 128 * (u * (u * M)) by ring]))
  have g2 := d2.size f2
  obtain ⟨e3, f3⟩ := Fl.add_fin f2 w3 ((abs_add_le _ _).trans (by
    have hg := grow_small (K := K) (show 8 + 1 + 1 ≤ 12 by omega)
    have h3 := mul_le_mul_of_nonneg_right hg (show 0 ≤ 6 * M ^ 4 + 6 * M ^ 4 + 6 * M ^ 4 by linarith)
    have h6 : u * M ≤ 1 / 64 * M := mul_le_mul_of_nonneg_right hl hM0.le
    have h7 : M ≤ M ^ 4 := R.sq.trans (R.cube.trans R.four)
    linarith [show (1 + u) * (1 / 100 * (u * M) + 1 / 256 * (u * M)) = (1 / 100 + 1 / 256) * (u * M) + (1 / 100 + 1 / 256) * (u * (u * M)) by ring]))
  refine ⟨d5.bound, e3, ⟨f3, d5.wf⟩, ?_⟩
  have h1 := d5.err e3 f3
  have h2 := mul_le_mul_of_nonneg_right (grow_sub (K := K) (show 11 ≤ 11 by omega)) (show 0 ≤ 24 * M ^ 4 by linarith)
  have h7 : M ≤ M ^ 4 := R.sq.trans (R.cube.trans R.four)
  have h9 := mul_le_mul_of_nonneg_left h7 hu.le
  linarith [show 12 * u * (24 * M ^ 4) = 288 * (u * M ^ 4) by ring, show 300 * u * M ^ 4 = 300 * (u * M ^ 4) by ring]

/-- the arithmetic of the last step -/
theorem entry_arith {c d r w E D t eta' u' : K} (hu : 0 < u') (hul : u' ≤ 1 / 64) (hM1 : 1 ≤ M) (ht : 0 < t) (hDt : |D| * t = 1)
    (hD24 : 1 ≤ 24 * (M ^ 4 * t)) (hsep : 600 * (u' * (M ^ 4 * t)) ≤ 1) (heta0 : 0 ≤ eta') (heta : 16384 * (M ^ 4 * eta') ≤ u')
    (hE : |E| ≤ 6 * M ^ 3) (hc : |c - E| ≤ 48 * u' * M ^ 3) (hd : |d - D| ≤ 300 * u' * M ^ 4) :
    d ≠ 0 ∧ |1 / d| ≤ 2 * t ∧ (|r - 1 / d| ≤ u' * |1 / d| + eta' →
      |c * r| ≤ 18 * (M ^ 3 * t) ∧ (|w - c * r| ≤ u' * |c * r| + eta' → |w - E / D| ≤ 8192 * u' * M ^ 7 * t ^ 2)) := by
  have hM0 : 0 < M := by linarith
  have hL : 0 < |D| := by
    rcases (abs_nonneg D).lt_or_eq with h | h
    · exact h
    · rw [← h, zero_mul] at hDt; exact absurd hDt zero_ne_one
  have hD0 : D ≠ 0 := abs_pos.mp hL
  have h1 : 300 * u' * M ^ 4 ≤ |D| / 2 := by
    have := mul_le_mul_of_nonneg_right hsep hL.le
    have e : 600 * (u' * (M ^ 4 * t)) * |D| = 600 * (u' * M ^ 4) * (|D| * t) := by ring
    rw [e, hDt] at this; linarith
  have hd2 : |D| / 2 ≤ |d| := by
    have := abs_sub_abs_le_abs_sub D d
    rw [abs_sub_comm] at this
    linarith
  have hdpos : 0 < |d| := by linarith
  have hd0 : d ≠ 0 := abs_pos.mp hdpos
  have hJ : |1 / d| ≤ 2 * t := by
    rw [abs_div, abs_one, div_le_iff₀ hdpos]
    have := mul_le_mul_of_nonneg_left hd2 (show 0 ≤ 2 * t by positivity)
    linarith [show 2 * t * (|D| / 2) = |D| * t by ring]
  refine ⟨hd0, hJ, fun hr => ?_⟩
  have hI : |1 / D| = t := by
    rw [abs_div, abs_one, div_eq_iff hL.ne']; linarith
  have hJI : |1 / d - 1 / D| ≤ 600 * u' * M ^ 4 * t ^ 2 := by
    have e : 1 / d - 1 / D = -(d - D) * (1 / d) * (1 / D) := by field_simp; ring
    rw [e, abs_mul, abs_mul, abs_neg, hI]
    have := mul_le_mul (mul_le_mul hd hJ (abs_nonneg _) (by positivity)) (le_refl t) ht.le (by positivity)
    linarith [show 300 * u' * M ^ 4 * (2 * t) * t = 600 * u' * M ^ 4 * t ^ 2 by ring]
  -- abbreviations
  obtain ⟨p, hp⟩ : ∃ p, p = u' * t := ⟨_, rfl⟩
  obtain ⟨q, hq⟩ : ∃ q, q = u' * M ^ 4 * t ^ 2 := ⟨_, rfl⟩
  have hp0 : 0 ≤ p := by rw [hp]; positivity
  have hq0 : 0 ≤ q := by rw [hq]; positivity
  have hpq : p ≤ 24 * q := by
    have := mul_le_mul_of_nonneg_left hD24 hp0
    rw [hp] at this ⊢; rw [hq]; linarith [show u' * t * (24 * (M ^ 4 * t)) = 24 * (u' * M ^ 4 * t ^ 2) by ring]
  have hep : eta' ≤ 1 / 600 * p := by
    have h2 := mul_le_mul_of_nonneg_left hD24 heta0
    have h3 := mul_le_mul_of_nonneg_right heta ht.le
    rw [hp]; linarith [show eta' * (24 * (M ^ 4 * t)) = 24 * (M ^ 4 * eta' * t) by ring, show 16384 * (M ^ 4 * eta') * t = 16384 * (M ^ 4 * eta' * t) by ring,
      show 0 ≤ u' * t by positivity]
  have hqt : 600 * q ≤ t := by
    have := mul_le_mul_of_nonneg_right hsep ht.le
    rw [hq]; linarith [show 600 * (u' * (M ^ 4 * t)) * t = 600 * (u' * M ^ 4 * t ^ 2) by ring]
  have hrI : |r - 1 / D| ≤ 650 * q := by
    have h2 := abs_add_le (r - 1 / d) (1 / d - 1 / D)
    rw [sub_add_sub_cancel] at h2
    have h3 := mul_le_mul_of_nonneg_left hJ hu.le
    have h4 : u' * (2 * t) = 2 * p := by rw [hp]; ring
    have h5 : 600 * u' * M ^ 4 * t ^ 2 = 600 * q := by rw [hq]; ring
    linarith
  have hrs : |r| ≤ 21 / 10 * t := by
    have h2 := abs_add_le (r - 1 / D) (1 / D)
    rw [sub_add_cancel, hI] at h2
    linarith
  have hM3 : 0 < M ^ 3 := by positivity
  have hcr : |c * r - E * (1 / D)| ≤ 6324 * (M ^ 3 * q) := by
    have h2 := abs_add_le ((c - E) * r) (E * (r - 1 / D))
    rw [show (c - E) * r + E * (r - 1 / D) = c * r - E * (1 / D) by ring, abs_mul, abs_mul] at h2
    have h3 := mul_le_mul hc hrs (abs_nonneg _) (by positivity)
    have h4 := mul_le_mul hE hrI (abs_nonneg _) (by positivity)
    have h5 : 48 * u' * M ^ 3 * (21 / 10 * t) = 504 / 5 * (M ^ 3 * p) := by rw [hp]; ring
    have h6 := mul_le_mul_of_nonneg_left hpq hM3.le
    have h9 : 0 ≤ M ^ 3 * q := by positivity
    linarith [show 6 * M ^ 3 * (650 * q) = 3900 * (M ^ 3 * q) by ring, show M ^ 3 * (24 * q) = 24 * (M ^ 3 * q) by ring]
  have hEI : |E * (1 / D)| ≤ 6 * (M ^ 3 * t) := by
    rw [abs_mul, hI]
    have := mul_le_mul_of_nonneg_right hE ht.le
    linarith
  have hcr2 : |c * r| ≤ 6 * (M ^ 3 * t) + 6324 * (M ^ 3 * q) := by
    have h2 := abs_add_le (c * r - E * (1 / D)) (E * (1 / D))
    rw [sub_add_cancel] at h2
    linarith
  have hmq := mul_le_mul_of_nonneg_left hqt hM3.le
  refine ⟨by linarith [show M ^ 3 * (600 * q) = 600 * (M ^ 3 * q) by ring, show 0 < M ^ 3 * t by positivity], fun hw => ?_⟩
  have h2 := abs_add_le (w - c * r) (c * r - E * (1 / D))
  rw [sub_add_sub_cancel, mul_one_div] at h2
  rw [mul_one_div] at hcr
  have h3 := mul_le_mul_of_nonneg_left hcr2 hu.le
  have h4 : u' * (M ^ 3 * q) ≤ 1 / 64 * (M ^ 3 * q) := mul_le_mul_of_nonneg_right hul (by positivity)
  have h5 : u' * (6 * (M ^ 3 * t) + 6324 * (M ^ 3 * q)) = 6 * (M ^ 3 * p) + 6324 * (u' * (M ^ 3 * q)) := by rw [hp]; ring
  have h6 := mul_le_mul_of_nonneg_left hpq hM3.le
  have h7 : p ≤ M ^ 3 * p := le_mul_of_one_le_left hp0 (one_le_pow₀ hM1)
  have h8 : 8192 * u' * M ^ 7 * t ^ 2 = 8192 * (M ^ 3 * q) := by rw [hq]; ring
  have h9 : 0 ≤ M ^ 3 * q := by positivity
  rw [h8]
  linarith [show M ^ 3 * (24 * q) = 24 * (M ^ 3 * q) by ring]

theorem abs_is {x : Fl K} {a : K} (h : x.Is a) : (Fl.abs x).Is |a| := by
  rcases h.kcases with rfl | ⟨rfl, rfl⟩
  · rfl
  · rw [abs_zero]; rfl

theorem inverse_none {a : Mat4 (Fl K)} (h : Fl.lt (Fl.abs (det4code a.idx)) (.fin Fmt.eps) = true) : a.inverse = none := by
  unfold Mat4.inverse
  simp only [Mat4.inverseAdj_idx]
  exact if_pos h

theorem inverse_some {a : Mat4 (Fl K)} (h : ¬Fl.lt (Fl.abs (det4code a.idx)) (.fin Fmt.eps) = true) :
    ∃ m, a.inverse = some m ∧ m.isRowMajor = true ∧ ∀ i j, m.idx i j = adj4 a.idx j i * (1 / det4code a.idx) := by
  obtain ⟨s, hs, hf, hsi⟩ := Mat4.scale_idx a.inverseAdj (1 / det4code a.idx)
  refine ⟨s.transpose, ?_, ?_, fun i j => ?_⟩
  · unfold Mat4.inverse
    simp only [Mat4.inverseAdj_idx]
    refine (if_neg h).trans ?_
    unfold Mat4.scale at hs
    rw [← Option.some.inj hs]; rfl
  · rw [Mat4.transpose_flag, hf, Mat4.inverseAdj_flag]
  · rw [Mat4.idx_transpose, hsi, Mat4.inverseAdj_idx]

end FInv

open FInv

/-- C71: `Mat4::inverse` of a matrix with entries up to `M` (with `1 ≤ M`, `64 M⁴` in range and `2^14 M⁴` times the underflow unit
below `u`): `None` only if `|det| < ε + 300uM⁴`, `None` whenever `|det| < ε - 300uM⁴`, and for `|det| ≥ ε + 600uM⁴` the result is
`Some`, row-major, with every entry finite and within `2^13 u M⁷/det²` of the transposed inverse. -/
theorem C71_mat4 (a : Mat4 (Fl K)) (A : Matrix (Fin 4) (Fin 4) K) (ha : MatTy.HoldsF .mat4 a A) (M : K) (hM1 : 1 ≤ M)
    (hMo : 64 * M ^ 4 ≤ omega) (hMe : 2 ^ 14 * M ^ 4 * eta ≤ (u : K)) (huo : (1 : K) ≤ u * omega) (hM : ∀ i j, |A i j| ≤ M) :
    (a.inverse = none → |A.det| < Fmt.eps + 300 * u * M ^ 4) ∧
    (|A.det| < Fmt.eps - 300 * u * M ^ 4 → a.inverse = none) ∧
    (0 ≤ (Fmt.eps : K) → Fmt.eps + 600 * u * M ^ 4 ≤ |A.det| → ∃ (m : Mat4 (Fl K)) (W : Matrix (Fin 4) (Fin 4) K), a.inverse = some m ∧ m.isRowMajor = true ∧
      MatTy.HoldsF .mat4 m W ∧ ∀ i j, |W i j - A⁻¹ j i| ≤ 2 ^ 13 * u * M ^ 7 / A.det ^ 2) := by
  have R : Range M := ⟨hM1, hMo, hMe⟩
  have hi : ∀ i j, (a.idx i j).Holds (A i j) := MatTy.holdsF_iff.mp ha
  obtain ⟨hD, d, hd, herr⟩ := det4_err R hi hM
  have hlt := (abs_is hd.1).klt (show (Fl.fin (Fmt.eps : K)).Is Fmt.eps from rfl)
  have h1 := abs_sub_abs_le_abs_sub A.det d
  have h2 := abs_sub_abs_le_abs_sub d A.det
  rw [abs_sub_comm] at h1
  have hu := u_pos (K := K)
  have hM4 : 0 < M ^ 4 := pow_pos R.pos 4
  refine ⟨fun h => ?_, fun h => inverse_none (hlt.mpr (by linarith)), fun heps h => ?_⟩
  · by_contra hc
    obtain ⟨m, hm, -⟩ := inverse_some (a := a) (fun hc' => by have := hlt.mp hc'; linarith)
    rw [h] at hm; simp at hm
  · have hpos : 0 < 600 * u * M ^ 4 := by positivity
    obtain ⟨m, hm, hf, hmi⟩ := inverse_some (a := a) (fun hc' => by have := hlt.mp hc'; linarith)
    have hDpos : 0 < |A.det| := by linarith
    have hD0 : A.det ≠ 0 := abs_pos.mp hDpos
    obtain ⟨t, htd⟩ : ∃ t, t = 1 / |A.det| := ⟨_, rfl⟩
    have ht : 0 < t := by rw [htd]; positivity
    have hDt : |A.det| * t = 1 := by rw [htd]; field_simp
    have hD24 : 1 ≤ 24 * (M ^ 4 * t) := by
      have := mul_le_mul_of_nonneg_right hD ht.le
      rw [hDt] at this; linarith
    have hsep : 600 * (u * (M ^ 4 * t)) ≤ 1 := by
      have := mul_le_mul_of_nonneg_right (show 600 * u * M ^ 4 ≤ |A.det| by linarith) ht.le
      rw [hDt] at this; linarith
    have hMt : 600 * (M ^ 3 * t) ≤ omega := by
      have h3 := mul_le_mul_of_nonneg_left hsep (show (0 : K) ≤ omega by linarith [four_le (K := K)])
      have h4 := mul_le_mul_of_nonneg_right huo (show 0 ≤ 600 * (M ^ 4 * t) by positivity)
      have h5 := mul_le_mul_of_nonneg_right R.four ht.le
      linarith [show omega * (600 * (u * (M ^ 4 * t))) = u * omega * (600 * (M ^ 4 * t)) by ring]
    have hto : 600 * t ≤ omega := by
      have := mul_le_mul_of_nonneg_right (one_le_pow₀ R.one : 1 ≤ M ^ 3) ht.le
      linarith
    have hsq : 1 / A.det ^ 2 = t ^ 2 := by rw [htd, div_pow, one_pow, sq_abs]
    have main (i j : Fin 4) : ∃ w, (m.idx i j).Holds w ∧ |w - A⁻¹ j i| ≤ 2 ^ 13 * u * M ^ 7 / A.det ^ 2 := by
      obtain ⟨hE, c, hc, hcE⟩ := (adj4_sum R hi hM j i).val R
      obtain ⟨hd0, hJ, -⟩ := entry_arith (r := 0) (w := 0) hu u_le hM1 ht hDt hD24 hsep (eta_pos (K := K)).le R.eta4 hE hcE herr
      have one : (1 : Fl K).Is 1 := rfl
      obtain ⟨r, hr⟩ := Fl.div_fin one hd.1 hd0 (by linarith)
      obtain ⟨-, -, k⟩ := entry_arith (r := r) (w := 0) hu u_le hM1 ht hDt hD24 hsep (eta_pos (K := K)).le R.eta4 hE hcE herr
      obtain ⟨k1, -⟩ := k (Fl.div_err one hd.1 hd0 hr)
      obtain ⟨w, hw⟩ := Fl.mul_fin hc.1 hr (by have := mul_pos (pow_pos R.pos 3) ht; linarith)
      obtain ⟨-, -, k⟩ := entry_arith (r := r) (w := w) hu u_le hM1 ht hDt hD24 hsep (eta_pos (K := K)).le R.eta4 hE hcE herr
      refine ⟨w, ?_, ?_⟩
      · rw [hmi]; exact ⟨hw, Fl.wf_mul _ _⟩
      · have := (k (Fl.div_err one hd.1 hd0 hr)).2 (Fl.mul_err hc.1 hr hw)
        rw [inv_adj4 A hD0]
        have e : (A.det⁻¹ • Matrix.of (adj4 A)) j i = adj4 A j i / A.det := by simp [div_eq_inv_mul]
        rw [e, ← mul_one_div _ (A.det ^ 2), hsq]
        norm_num at this ⊢
        linarith
    choose W hW hWe using main
    exact ⟨m, Matrix.of W, hm, hf, MatTy.holdsF_iff.mpr hW, hWe⟩

namespace FInv

/-- the error of the determinant of `Mat3::inverse` -/
theorem det3_err {M : K} (R : Range M) {F : Fin 3 → Fin 3 → Fl K} {A : Matrix (Fin 3) (Fin 3) K} (h : ∀ i j, (F i j).Holds (A i j))
    (hM : ∀ i j, |A i j| ≤ M) : ∃ d, (det3code F).Holds d ∧ |d - A.det| ≤ 40 * u * M ^ 3 := by
  have hM0 := R.pos
  have hu := u_pos (K := K)
  have hl := u_le (K := K)
  have he := eta_pos (K := K)
  have h4 := R.hi
  have h1 := R.one
  have hee := R.eta_le
  have hme := R.meta_le
  have q2 := R.sq; have q3 := R.cube; have q4 := R.four
  have hM3 : 1 ≤ M ^ 3 := one_le_pow₀ R.one
  have p2 (i j k l : Fin 3) : |A i j * A k l| ≤ M ^ 2 := by
    rw [abs_mul, pow_two]; exact mul_le_mul (hM i j) (hM k l) (abs_nonneg _) hM0.le
  have ue : (u : K) * eta ≤ 1 / 64 * eta := mul_le_mul_of_nonneg_right hl he.le
  have ume : u * (M * eta) ≤ 1 / 64 * (M * eta) := mul_le_mul_of_nonneg_right hl (by positivity)
  have ml : eta ≤ M * eta := le_mul_of_one_le_left he.le h1
  have gr {n : ℕ} (hn : n ≤ 12) {T : K} (hT : 0 ≤ T) : (1 + u) ^ n * T ≤ 5 / 4 * T := mul_le_mul_of_nonneg_right (grow_small hn) hT
  -- the product of an entry and a minor
  have key (r i j k l m n o p : Fin 3) : Appr (F r 0 * (F i j * F k l - F m n * F o p)) 3 (A r 0 * (A i j * A k l - A m n * A o p))
      (2 * M ^ 3) (5 * (M * eta)) ∧ ∃ c, (F r 0 * (F i j * F k l - F m n * F o p)).Is c ∧ |c| ≤ 3 * M ^ 3 := by
    have a1 := (Appr.prod (h i j) (h k l)).weaken (p2 i j k l)
    have a2 := (Appr.prod (h m n) (h o p)).weaken (p2 m n o p)
    have a3 : Appr (F i j * F k l - F m n * F o p) 2 (A i j * A k l - A m n * A o p) (2 * M ^ 2) (3 * eta) :=
      ((a1.sub a2).mono (g := 3 * eta) (by omega) (by linarith [show (1 + u) * (eta + eta) = 2 * eta + 2 * ((u : K) * eta) by ring])).cast rfl (by ring) rfl
    have a4 : Appr (F r 0 * (F i j * F k l - F m n * F o p)) 3 (A r 0 * (A i j * A k l - A m n * A o p)) (2 * M ^ 3) (5 * (M * eta)) := by
      refine ((((Appr.leaf (h r 0)).weaken (hM r 0)).mul a3).mono (l := 3) (g := 5 * (M * eta)) (by omega) ?_).cast rfl (by ring) rfl
      linarith [show (1 + u) * ((1 + u) ^ 0 * M * (3 * eta) + (1 + u) ^ 2 * (2 * M ^ 2) * 0 + 0 * (3 * eta)) + eta =
        3 * (M * eta) + 3 * (u * (M * eta)) + eta by ring]
    refine ⟨a4, ?_⟩
    obtain ⟨c1, hc1⟩ := Fl.mul_fin (h i j).1 (h k l).1 ((p2 i j k l).trans (by linarith))
    obtain ⟨c2, hc2⟩ := Fl.mul_fin (h m n).1 (h o p).1 ((p2 m n o p).trans (by linarith))
    have s1 := a1.size hc1
    have s2 := a2.size hc2
    have g1 := gr (show 1 ≤ 12 by omega) (show 0 ≤ M ^ 2 by positivity)
    obtain ⟨c3, hc3⟩ := Fl.sub_fin hc1 hc2 ((abs_sub c1 c2).trans (by linarith))
    have s3 := a3.size hc3
    have g3 := gr (show 2 ≤ 12 by omega) (show 0 ≤ 2 * M ^ 2 by positivity)
    have s4 : |A r 0 * c3| ≤ M * (3 * M ^ 2) := by
      rw [abs_mul]; exact mul_le_mul (hM r 0) (by linarith) (abs_nonneg _) hM0.le
    obtain ⟨c4, hc4⟩ := Fl.mul_fin (h r 0).1 hc3 (by linarith [show M * (3 * M ^ 2) = 3 * M ^ 3 by ring])
    have s5 := a4.size hc4
    have g5 := gr (show 3 ≤ 12 by omega) (show 0 ≤ 2 * M ^ 3 by positivity)
    exact ⟨c4, hc4, by linarith⟩
  obtain ⟨a0, c0, w0, b0⟩ := key 0 1 1 2 2 2 1 1 2
  obtain ⟨a1, c1, w1, b1⟩ := key 1 0 1 2 2 2 1 0 2
  obtain ⟨a2, c2, w2, b2⟩ := key 2 0 1 1 2 1 1 0 2
  have d1 := (a0.sub a1).mono (g := 11 * (M * eta)) le_rfl
    (by linarith [show (1 + u) * (5 * (M * eta) + 5 * (M * eta)) = 10 * (M * eta) + 10 * (u * (M * eta)) by ring])
  have d2 := (d1.add (a2.mono (show 3 ≤ 3 + 1 by omega) le_rfl)).mono (g := 17 * (M * eta)) le_rfl
    (by linarith [show (1 + u) * (11 * (M * eta) + 5 * (M * eta)) = 16 * (M * eta) + 16 * (u * (M * eta)) by ring])
  have d3 : Appr (det3code F) 5 A.det (6 * M ^ 3) (17 * (M * eta)) := d2.cast (det3code_det A) (by ring) rfl
  obtain ⟨e1, f1⟩ := Fl.sub_fin w0 w1 ((abs_sub c0 c1).trans (by linarith))
  have s1 := d1.size f1
  have g1 := gr (show 3 + 1 ≤ 12 by omega) (show 0 ≤ 2 * M ^ 3 + 2 * M ^ 3 by positivity)
  have s1' : |e1| ≤ 6 * M ^ 3 := (s1.trans (add_le_add g1 le_rfl)).trans (by linarith)
  obtain ⟨e2, f2⟩ := Fl.add_fin f1 w2 ((abs_add_le _ _).trans (by linarith))
  refine ⟨e2, ⟨f2, d3.wf⟩, ?_⟩
  have h2 := d3.err e2 f2
  have h3 : ((1 : K) + u) ^ 5 - 1 ≤ 6 * u := by
    have e : ((1 : K) + u) ^ 5 - 1 = u * (5 + 10 * u + 10 * u ^ 2 + 5 * u ^ 3 + u ^ 4) := by ring
    rw [e, mul_comm]
    refine mul_le_mul_of_nonneg_right ?_ hu.le
    have p (k : ℕ) : (u : K) ^ k ≤ (1 / 64) ^ k := pow_le_pow_left₀ hu.le hl k
    have p2 := p 2; have p3 := p 3; have p4 := p 4
    norm_num at p2 p3 p4
    linarith
  have h5 := mul_le_mul_of_nonneg_right h3 (show 0 ≤ 6 * M ^ 3 by linarith)
  have h6 := mul_le_mul_of_nonneg_left hM3 hu.le
  linarith [show 6 * u * (6 * M ^ 3) = 36 * (u * M ^ 3) by ring, show 40 * u * M ^ 3 = 40 * (u * M ^ 3) by ring]

/-- a decimal constant of the source -/
theorem lit_near {v : K} (h0 : 0 < v) (h1 : v ≤ 1) : ∃ w, (Fl.lit v : Fl K).Is w ∧ |w - v| ≤ u * v + eta := by
  obtain ⟨w, hw⟩ := rnd_fin (K := K) v (by rw [abs_of_pos h0]; linarith [four_le (K := K)])
  refine ⟨w, by rw [Fl.lit_of_ne h0.ne']; exact hw, ?_⟩
  have := rnd_err v w hw
  rwa [abs_of_pos h0] at this

end FInv

/-- C71: `Mat3::inverse` of a matrix with entries up to `M`: `Some` if `det` is outside `(-10⁻¹¹, 10⁻¹⁰)` by the margin `41uM³`,
`None` if it is inside by that margin. -/
theorem C71_mat3 (a : Mat3 (Fl K)) (A : Matrix (Fin 3) (Fin 3) K) (ha : MatTy.HoldsF .mat3 a A) (M : K) (hM1 : 1 ≤ M)
    (hMo : 64 * M ^ 4 ≤ omega) (hMe : 2 ^ 14 * M ^ 4 * eta ≤ (u : K)) (hM : ∀ i j, |A i j| ≤ M) :
    (A.det ≤ -(1 / 10 ^ 11) - 41 * u * M ^ 3 ∨ 1 / 10 ^ 10 + 41 * u * M ^ 3 ≤ A.det → a.inverse ≠ none) ∧
    (-(1 / 10 ^ 11) + 41 * u * M ^ 3 ≤ A.det ∧ A.det ≤ 1 / 10 ^ 10 - 41 * u * M ^ 3 → a.inverse = none) := by
  have R : Range M := ⟨hM1, hMo, hMe⟩
  have hi : ∀ i j, (a.idx i j).Holds (A i j) := MatTy.holdsF_iff.mp ha
  obtain ⟨d, hd, herr⟩ := det3_err R hi hM
  obtain ⟨w1, hw1, e1⟩ := lit_near (K := K) (v := 1 / 10000000000) (by norm_num) (by norm_num)
  obtain ⟨w2, hw2, e2⟩ := lit_near (K := K) (v := 1 / 100000000000) (by norm_num) (by norm_num)
  have c1 := hd.1.klt hw1
  have c2 := hw2.kneg.klt hd.1
  have hu := u_pos (K := K)
  have hM3 : 1 ≤ M ^ 3 := one_le_pow₀ R.one
  have h6 := mul_le_mul_of_nonneg_left hM3 hu.le
  have hee := R.eta_le
  rw [abs_le] at herr e1 e2
  have m1 : |w1 - 1 / 10 ^ 10| < u * M ^ 3 := by rw [abs_lt]; constructor <;> norm_num at * <;> linarith
  have m2 : |w2 - 1 / 10 ^ 11| < u * M ^ 3 := by rw [abs_lt]; constructor <;> norm_num at * <;> linarith
  rw [abs_lt] at m1 m2
  have k1 : 40 * u * M ^ 3 = 40 * (u * M ^ 3) := by ring
  have k2 : 41 * u * M ^ 3 = 41 * (u * M ^ 3) := by ring
  rw [k1] at herr
  rw [k2]
  constructor
  · intro h
    rcases Mat3.inverse_eq a with ⟨hc, -⟩ | ⟨-, m, hm, -⟩
    · rw [Bool.and_eq_true, c1, c2] at hc
      rcases h with h | h <;> linarith
    · rw [hm]; simp
  · intro h
    rcases Mat3.inverse_eq a with ⟨-, hm⟩ | ⟨hc, -⟩
    · exact hm
    · have : (Fl.lt (det3code a.idx) (Fl.lit (1 / 10000000000)) && Fl.lt (-(Fl.lit (1 / 100000000000))) (det3code a.idx)) = true := by
        rw [Bool.and_eq_true, c1, c2]; constructor <;> linarith
      rw [hc] at this; simp at this

/-! ### binary64 -/

/-- a rational constant of the format -/
def f64c (q : ℚ) : Q64 := q

theorem rat_range {M : ℚ} (h1 : 1 ≤ M) (h2 : M ≤ 2 ^ (252 : ℤ)) : 64 * M ^ 4 ≤ 2 ^ (1023 : ℤ) ∧
    2 ^ 14 * M ^ 4 * 2 ^ (-1075 : ℤ) ≤ (2 : ℚ) ^ (-53 : ℤ) ∧ (1 : ℚ) ≤ 2 ^ (-53 : ℤ) * 2 ^ (1023 : ℤ) := by
  have h4 : M ^ 4 ≤ 2 ^ (1008 : ℤ) := by
    refine (pow_le_pow_left₀ (by linarith) h2 4).trans (le_of_eq ?_)
    rw [← zpow_natCast, ← zpow_mul]; norm_num
  refine ⟨?_, ?_, ?_⟩
  · refine (mul_le_mul_of_nonneg_left h4 (by norm_num)).trans ?_
    rw [show (64 : ℚ) = 2 ^ (6 : ℤ) by norm_num, ← zpow_add₀ (by norm_num)]
    exact zpow_le_zpow_right₀ (by norm_num) (by norm_num)
  · refine (mul_le_mul_of_nonneg_right (mul_le_mul_of_nonneg_left h4 (by norm_num)) (by positivity)).trans ?_
    rw [← zpow_natCast, ← zpow_add₀ (by norm_num), ← zpow_add₀ (by norm_num)]
    exact zpow_le_zpow_right₀ (by norm_num) (by norm_num)
  · rw [← zpow_add₀ (by norm_num)]
    exact one_le_zpow₀ (by norm_num) (by norm_num)

theorem f64_inv_range {M : Q64} (h1 : 1 ≤ M) (h2 : M ≤ f64c (2 ^ (252 : ℤ))) :
    64 * M ^ 4 ≤ omega ∧ 2 ^ 14 * M ^ 4 * eta ≤ (u : Q64) ∧ (1 : Q64) ≤ u * omega := by
  obtain ⟨cu, ce, cn, co, -⟩ := C55_constants
  rw [cu, ce, co]
  exact rat_range h1 h2

theorem f64_inv_consts : (Fmt.eps : Q64) = f64c (2 ^ (-52 : ℤ)) ∧ (∀ n : ℕ, (n * u : Q64) = f64c (n * 2 ^ (-53 : ℤ))) := by
  refine ⟨Bin.pow2_eq _, fun n => ?_⟩
  rw [C55_constants.1]; rfl

/-- C71 for `f64`: entries up to `M`, `1 ≤ M ≤ 2^252`: `None` only if `|det| < 2^-52 + 300·2^-53·M⁴`; if
`|det| ≥ 2^-52 + 600·2^-53·M⁴` the result is `Some` and every entry is within `2^-40 M⁷/det²` of the transposed inverse. -/
theorem C71_mat4_f64 (a : Mat4 (Fl Q64)) (A : Matrix (Fin 4) (Fin 4) Q64) (ha : MatTy.HoldsF .mat4 a A) (M : Q64) (hM1 : 1 ≤ M)
    (hM2 : M ≤ f64c (2 ^ (252 : ℤ))) (hM : ∀ i j, |A i j| ≤ M) :
    (a.inverse = none → |A.det| < f64c (2 ^ (-52 : ℤ)) + f64c (300 * 2 ^ (-53 : ℤ)) * M ^ 4) ∧
    (f64c (2 ^ (-52 : ℤ)) + f64c (600 * 2 ^ (-53 : ℤ)) * M ^ 4 ≤ |A.det| → ∃ (m : Mat4 (Fl Q64)) (W : Matrix (Fin 4) (Fin 4) Q64),
      a.inverse = some m ∧ m.isRowMajor = true ∧ MatTy.HoldsF .mat4 m W ∧
      ∀ i j, |W i j - A⁻¹ j i| ≤ f64c (2 ^ (-40 : ℤ)) * M ^ 7 / A.det ^ 2) := by
  obtain ⟨r1, r2, r3⟩ := f64_inv_range hM1 hM2
  obtain ⟨k1, -, k3⟩ := C71_mat4 a A ha M hM1 r1 r2 r3 hM
  obtain ⟨ee, en⟩ := f64_inv_consts
  have e1 : (300 * u : Q64) = f64c (300 * 2 ^ (-53 : ℤ)) := en 300
  have e2 : (600 * u : Q64) = f64c (600 * 2 ^ (-53 : ℤ)) := en 600
  have e3 : (2 ^ 13 * u : Q64) = f64c (2 ^ (-40 : ℤ)) := by
    rw [show (2 ^ 13 : Q64) = ((8192 : ℕ) : Q64) by norm_num, en 8192]
    unfold f64c
    rw [show (-40 : ℤ) = 13 + (-53) by norm_num, zpow_add₀ (by norm_num)]; norm_num; rfl
  rw [ee, e1] at k1
  rw [ee, e2, e3] at k3
  exact ⟨k1, k3 (show (0 : ℚ) ≤ 2 ^ (-52 : ℤ) by positivity)⟩

/-- C71 for `f64`, `Mat3` -/
theorem C71_mat3_f64 (a : Mat3 (Fl Q64)) (A : Matrix (Fin 3) (Fin 3) Q64) (ha : MatTy.HoldsF .mat3 a A) (M : Q64) (hM1 : 1 ≤ M)
    (hM2 : M ≤ f64c (2 ^ (252 : ℤ))) (hM : ∀ i j, |A i j| ≤ M) :
    (A.det ≤ -(1 / 10 ^ 11) - f64c (41 * 2 ^ (-53 : ℤ)) * M ^ 3 ∨ 1 / 10 ^ 10 + f64c (41 * 2 ^ (-53 : ℤ)) * M ^ 3 ≤ A.det →
      a.inverse ≠ none) ∧
    (-(1 / 10 ^ 11) + f64c (41 * 2 ^ (-53 : ℤ)) * M ^ 3 ≤ A.det ∧ A.det ≤ 1 / 10 ^ 10 - f64c (41 * 2 ^ (-53 : ℤ)) * M ^ 3 →
      a.inverse = none) := by
  obtain ⟨r1, r2, -⟩ := f64_inv_range hM1 hM2
  have k := C71_mat3 a A ha M hM1 r1 r2 hM
  have e1 : (41 * u : Q64) = f64c (41 * 2 ^ (-53 : ℤ)) := f64_inv_consts.2 41
  rwa [e1] at k

/-- a regular matrix, of determinant `100` -/
def regZ : Matrix (Fin 4) (Fin 4) ℤ := !![2, 1, 0, 0; 1, 3, 0, 0; 0, 0, 4, 1; 0, 0, 0, 5]

/-- the same matrix in the library's representation -/
def f64RegM : Mat4 (Fl Q64) := ⟨#v[.fin (2 : ℚ), .fin (1 : ℚ), .fin (0 : ℚ), .fin (0 : ℚ), .fin (1 : ℚ), .fin (3 : ℚ), .fin (0 : ℚ),
  .fin (0 : ℚ), .fin (0 : ℚ), .fin (0 : ℚ), .fin (4 : ℚ), .fin (1 : ℚ), .fin (0 : ℚ), .fin (0 : ℚ), .fin (0 : ℚ), .fin (5 : ℚ)], true⟩

/-- non-vacuity: the matrix `regZ` is inverted by the code and every entry is within `2^-40 · 5⁷/100²` of the exact one -/
example : ∃ (m : Mat4 (Fl Q64)) (W : Matrix (Fin 4) (Fin 4) Q64), f64RegM.inverse = some m ∧ MatTy.HoldsF .mat4 m W ∧
    ∀ i j, |W i j - (regZ.map (Int.castRingHom Q64))⁻¹ j i| ≤ f64c (2 ^ (-40 : ℤ)) * 5 ^ 7 / 100 ^ 2 := by
  have hh : MatTy.HoldsF .mat4 f64RegM (regZ.map (Int.castRingHom Q64)) := by
    refine MatTy.holdsF_iff.mpr fun i j => ⟨?_, ?_⟩
    · fin_cases i <;> fin_cases j <;> rfl
    · revert i j; show ∀ i j : Fin 4, _; intro i j
      fin_cases i <;> fin_cases j <;> first | exact .inl rfl | exact .inr (by decide +kernel)
  have hd : (regZ.map (Int.castRingHom Q64)).det = 100 := by
    have : regZ.det = 100 := by decide +kernel
    have e := (Int.castRingHom Q64).map_det regZ
    rw [this] at e
    exact e.symm.trans (map_ofNat _ 100)
  have k := (C71_mat4_f64 f64RegM _ hh 5 (show (1 : ℚ) ≤ 5 by norm_num) (show (5 : ℚ) ≤ 2 ^ (252 : ℤ) from
    (by norm_num : (5 : ℚ) ≤ 2 ^ (3 : ℤ)).trans (zpow_le_zpow_right₀ (by norm_num) (by norm_num)))
    (by intro i j; fin_cases i <;> fin_cases j <;> decide +kernel)).2
  rw [hd] at k
  obtain ⟨m, W, e, -, h1, h2⟩ := k (by decide +kernel)
  exact ⟨m, W, e, h1, h2⟩

/-- non-vacuity: a singular `Mat3` within the margin (`None`), and a regular one (`Some`) -/
example : (⟨#v[.fin (1 : ℚ), .fin (2 : ℚ), .fin (3 : ℚ), .fin (4 : ℚ), .fin (5 : ℚ), .fin (6 : ℚ), .fin (7 : ℚ), .fin (8 : ℚ),
    .fin (9 : ℚ)], true⟩ : Mat3 (Fl Q64)).inverse = none := by
  refine (C71_mat3_f64 _ ((!![1, 2, 3; 4, 5, 6; 7, 8, 9] : Matrix (Fin 3) (Fin 3) ℤ).map (Int.castRingHom Q64)) ?_ 9
    (show (1 : ℚ) ≤ 9 by norm_num) (show (9 : ℚ) ≤ 2 ^ (252 : ℤ) from
    (by norm_num : (9 : ℚ) ≤ 2 ^ (4 : ℤ)).trans (zpow_le_zpow_right₀ (by norm_num) (by norm_num)))
    (by intro i j; fin_cases i <;> fin_cases j <;> decide +kernel)).2 ?_
  · refine MatTy.holdsF_iff.mpr fun i j => ⟨?_, ?_⟩
    · fin_cases i <;> fin_cases j <;> rfl
    · revert i j; show ∀ i j : Fin 3, _; intro i j
      fin_cases i <;> fin_cases j <;> first | exact .inl rfl | exact .inr (by decide +kernel)
  · have : (!![1, 2, 3; 4, 5, 6; 7, 8, 9] : Matrix (Fin 3) (Fin 3) ℤ).det = 0 := by decide +kernel
    have e := (Int.castRingHom Q64).map_det (!![1, 2, 3; 4, 5, 6; 7, 8, 9] : Matrix (Fin 3) (Fin 3) ℤ)
    rw [this, map_zero] at e
    have e' : ((!![1, 2, 3; 4, 5, 6; 7, 8, 9] : Matrix (Fin 3) (Fin 3) ℤ).map (Int.castRingHom Q64)).det = 0 := e.symm
    rw [e']
    constructor <;> decide +kernel

/-- an integer matrix whose fourth row is `row₁ + row₂ - row₃` -/
def singZ : Matrix (Fin 4) (Fin 4) ℤ := !![-2886, -7583, -8383, -9239; -4155, -8999, 8657, -344; -4916, -7308, 3939, 8970;
  -2125, -9274, -3665, -18553]

/-- the same matrix over the format -/
def f64Sing : Matrix (Fin 4) (Fin 4) Q64 := singZ.map (Int.castRingHom Q64)

/-- the same matrix in the library's representation -/
def f64SingM : Mat4 (Fl Q64) := ⟨#v[.fin (-2886 : ℚ), .fin (-7583 : ℚ), .fin (-8383 : ℚ), .fin (-9239 : ℚ), .fin (-4155 : ℚ),
  .fin (-8999 : ℚ), .fin (8657 : ℚ), .fin (-344 : ℚ), .fin (-4916 : ℚ), .fin (-7308 : ℚ), .fin (3939 : ℚ), .fin (8970 : ℚ),
  .fin (-2125 : ℚ), .fin (-9274 : ℚ), .fin (-3665 : ℚ), .fin (-18553 : ℚ)], true⟩

theorem f64Sing_holds : MatTy.HoldsF .mat4 f64SingM f64Sing := by
  refine MatTy.holdsF_iff.mpr fun i j => ⟨?_, ?_⟩
  · fin_cases i <;> fin_cases j <;> rfl
  · revert i j; show ∀ i j : Fin 4, _; intro i j; fin_cases i <;> fin_cases j <;> exact .inr (by decide +kernel)

/-- A singular matrix can have an `inverse`: the exact determinant is `0`, the computed one is `-1`. -/
theorem C71_singular_false : ¬ ∀ (a : Mat4 (Fl Q64)) (A : Matrix (Fin 4) (Fin 4) Q64), MatTy.HoldsF .mat4 a A → A.det = 0 →
    a.inverse = none := by
  intro h
  have h0 : f64Sing.det = 0 := by
    have : singZ.det = 0 := by decide +kernel
    have e := (Int.castRingHom Q64).map_det singZ
    rw [this, map_zero] at e
    exact e.symm
  exact absurd (h _ _ f64Sing_holds h0) (by decide +kernel)

end Mazth
