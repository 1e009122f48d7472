import Verif.Props.FloatSupport
import Verif.Props.PrismQueries
import Verif.Props.Translate
import Verif.Props.Degenerate

/-!
# C78: prism against point in floating point

The prism stores a rounded normal and rounded top vertices, and every facet test is a rounded triple product.  Here: the answer
agrees with the exact solid prism except within an explicit distance of a facet; that distance is `2^14 κ² u M` where `M`
bounds the coordinates and `κ` is the condition number of the base triangle (`M²` over twice its area).
-/

set_option linter.unusedSectionVars false
set_option autoImplicit false

namespace Mazth

open RndErr Matrix

variable {K : Type} [Field K] [LinearOrder K] [IsStrictOrderedRing K] [Fmt K] [LawfulFmt K] [RndErr K]

/-! ## rounding errors of the pieces -/

theorem grow_lin (k : ℕ) (hk : k ≤ 7) : (1 + u : K) ^ k - 1 ≤ 8 * u := by
  have hu := u_pos (K := K)
  have hl := u_le (K := K)
  refine (sub_le_sub_right (grow_mono (K := K) hk) 1).trans ?_
  have h2 : (1 + u : K) ^ 2 ≤ 1 + (2 + 1 / 64) * u := by nlinarith
  have h3 : (1 + u : K) ^ 3 ≤ 1 + (3 + 1 / 16) * u := by
    rw [pow_succ]; nlinarith
  have h6 : (1 + u : K) ^ 6 ≤ 1 + (6 + 1 / 2) * u := by
    rw [show (6 : ℕ) = 3 * 2 by rfl, pow_mul]
    nlinarith [one_le_pow₀ (M₀ := K) (a := 1 + u) (by linarith) (n := 3)]
  have h7 : (1 + u : K) ^ 7 ≤ 1 + 8 * u := by
    rw [pow_succ]; nlinarith
  linarith

theorem grow_four : (1 + u : K) ^ 4 - 1 ≤ 9 / 2 * u := by
  have hu := u_pos (K := K)
  have hl := u_le (K := K)
  have h2 : (1 + u : K) ^ 2 ≤ 1 + (2 + 1 / 64) * u := by nlinarith
  have : (1 + u : K) ^ 4 ≤ 1 + 9 / 2 * u := by
    rw [show (4 : ℕ) = 2 * 2 by rfl, pow_mul]
    nlinarith [one_le_pow₀ (M₀ := K) (a := 1 + u) (by linarith) (n := 2)]
  linarith

theorem sum_three {x : K} (hx : 0 ≤ x) : (1 + u) * ((1 + u) * (x + x) + x) ≤ 31 / 10 * x := by
  have hu := u_pos (K := K)
  have hl := u_le (K := K)
  have : (1 + u) * ((1 + u) * 2 + 1) ≤ (31 / 10 : K) := by nlinarith
  calc (1 + u) * ((1 + u) * (x + x) + x) = (1 + u) * ((1 + u) * 2 + 1) * x := by ring
    _ ≤ 31 / 10 * x := mul_le_mul_of_nonneg_right this hx

theorem Appr.leafM {x : Fl K} {a M : K} (h : x.Holds a) (hM : |a| ≤ M) : Appr x 0 a M 0 := (Appr.leaf h).weaken hM

/-- difference of two inputs -/
theorem Appr.dif {x y : Fl K} {a b M : K} (hx : x.Holds a) (hy : y.Holds b) (ha : |a| ≤ M) (hb : |b| ≤ M) :
    Appr (x - y) 1 (a - b) (2 * M) 0 :=
  ((Appr.leafM hx ha).sub (Appr.leafM hy hb)).cast rfl (by ring) (by ring)

theorem Lim.dif {x y : Fl K} {a b M : K} (hx : x.Holds a) (hy : y.Holds b) (ha : |a| ≤ M) (hb : |b| ≤ M) (ho : 2 * M ≤ omega) :
    Lim (x - y) (65 / 32 * M) :=
  ((Lim.leaf hx ha).sub (Lim.leaf hy hb) (by linarith)).mono (by linarith)

/-- one component of the cross product of two edges -/
theorem cross_edges {x1 x2 x3 x4 y1 y2 y3 y4 : Fl K} {a1 a2 a3 a4 b1 b2 b3 b4 M : K}
    (h1 : x1.Holds a1) (h2 : x2.Holds a2) (h3 : x3.Holds a3) (h4 : x4.Holds a4)
    (g1 : y1.Holds b1) (g2 : y2.Holds b2) (g3 : y3.Holds b3) (g4 : y4.Holds b4)
    (k1 : |a1| ≤ M) (k2 : |a2| ≤ M) (k3 : |a3| ≤ M) (k4 : |a4| ≤ M)
    (l1 : |b1| ≤ M) (l2 : |b2| ≤ M) (l3 : |b3| ≤ M) (l4 : |b4| ≤ M)
    (he : (eta : K) ≤ u * (M * M)) (ho : 2 * M ≤ omega) (ho2 : 9 * (M * M) ≤ omega) :
    ∃ c, ((x1 - x2) * (x3 - x4) - (y1 - y2) * (y3 - y4)).Holds c ∧ |c| ≤ 9 * (M * M) ∧
      |c - ((a1 - a2) * (a3 - a4) - (b1 - b2) * (b3 - b4))| ≤ 40 * u * (M * M) := by
  have hu := u_pos (K := K)
  have hl := u_le (K := K)
  have hη := eta_pos (K := K)
  have hM : 0 ≤ M := (abs_nonneg _).trans k1
  have hMM : 0 ≤ M * M := mul_nonneg hM hM
  have hη' : (eta : K) ≤ 1 / 64 * (M * M) := he.trans (mul_le_mul_of_nonneg_right hl hMM)
  have L := ((Lim.dif h1 h2 k1 k2 ho).mul (Lim.dif h3 h4 k3 k4 ho) (by nlinarith)).sub
    ((Lim.dif g1 g2 l1 l2 ho).mul (Lim.dif g3 g4 l3 l4 ho) (by nlinarith)) (by nlinarith)
  obtain ⟨c, hc, hb⟩ := L.mono (B := 9 * (M * M)) (by nlinarith)
  refine ⟨c, hc, hb, ?_⟩
  have A := ((Appr.dif h1 h2 k1 k2).mul (Appr.dif h3 h4 k3 k4)).sub ((Appr.dif g1 g2 l1 l2).mul (Appr.dif g3 g4 l3 l4))
  have e := A.err c hc.1
  have hg : (1 + u : K) ^ (1 + 1 + 1 + 1) - 1 ≤ 9 / 2 * u := grow_four
  refine e.trans ?_
  have h5 := mul_le_mul_of_nonneg_right hg (show 0 ≤ 2 * M * (2 * M) + 2 * M * (2 * M) by nlinarith)
  have h6 : u * (M * M) * u ≤ u * (M * M) * (1 / 64) := mul_le_mul_of_nonneg_left hl (mul_nonneg hu.le hMM)
  have h7 : (1 + u) * ((1 + u) * ((1 + u) ^ 1 * (2 * M) * 0 + (1 + u) ^ 1 * (2 * M) * 0 + 0 * 0) + eta +
      ((1 + u) * ((1 + u) ^ 1 * (2 * M) * 0 + (1 + u) ^ 1 * (2 * M) * 0 + 0 * 0) + eta)) ≤ 3 * (u * (M * M)) := by
    have : (1 + u) * (2 * eta) ≤ (1 + u) * (2 * (u * (M * M))) := mul_le_mul_of_nonneg_left (by linarith) (by linarith)
    nlinarith
  have h8 := mul_nonneg hu.le hMM
  exact (add_le_add h5 h7).trans (by linarith)

/-- a facet test of a side of the prism: the triple product of `p - v`, `w - v` and the stored normal -/
theorem side_test {p v w n : V3 K} {P V W N : Fin 3 → K} {M H : K} (hp : p.Holds P) (hv : v.Holds V) (hw : w.Holds W) (hn : n.Holds N)
    (bp : ∀ i, |P i| ≤ M) (bv : ∀ i, |V i| ≤ M) (bw : ∀ i, |W i| ≤ M) (bn : ∀ i, |N i| ≤ H)
    (he : (eta : K) ≤ 1) (ho : 40 * (M + 1) * (M * H + 1) ≤ omega) (ho4 : 2 * M ≤ omega) :
    ∃ c, (V3.dotp (V3.sub p v) (V3.crs (V3.sub w v) n)).Is c ∧
      |c - (P - V) ⬝ᵥ ((W - V) ⨯₃ N)| ≤ 192 * u * (M * M * H) + (14 * M + 4) * eta := by
  have hu := u_pos (K := K)
  have hl := u_le (K := K)
  have hη := eta_pos (K := K)
  have hM : 0 ≤ M := (abs_nonneg _).trans (bp 0)
  have hH : 0 ≤ H := (abs_nonneg _).trans (bn 0)
  have hMH := mul_nonneg hM hH
  have hMMH := mul_nonneg hM hMH
  have ld (i j : Fin 3) : Lim ((w.val[i] - v.val[i]) * n.val[j]) (65 / 64 * (65 / 32 * M * H) + eta) :=
    (Lim.dif (hw i) (hv i) (bw i) (bv i) ho4).mul (Lim.leaf (hn j) (bn j)) (by nlinarith)
  have lc (i j : Fin 3) : Lim ((w.val[i] - v.val[i]) * n.val[j] - (w.val[j] - v.val[j]) * n.val[i]) (9 / 2 * (M * H + 1)) :=
    ((ld i j).sub (ld j i) (by nlinarith)).mono (by nlinarith)
  have lp (i : Fin 3) : Lim (p.val[i] - v.val[i]) (65 / 32 * M) := Lim.dif (hp i) (hv i) (bp i) (bv i) ho4
  have L := Lim.dot3 (lp 0) (lp 1) (lp 2) (lc 1 2) (lc 2 0) (lc 0 1) he (by nlinarith)
  obtain ⟨c, hc⟩ := L.fin
  refine ⟨c, hc, ?_⟩
  have ad (i j : Fin 3) : Appr ((w.val[i] - v.val[i]) * n.val[j]) 2 ((W i - V i) * N j) (2 * M * H) eta :=
    ((Appr.dif (hw i) (hv i) (bw i) (bv i)).mul (Appr.leafM (hn j) (bn j))).cast rfl rfl (by ring)
  have ac (i j : Fin 3) : Appr ((w.val[i] - v.val[i]) * n.val[j] - (w.val[j] - v.val[j]) * n.val[i]) 3
      ((W i - V i) * N j - (W j - V j) * N i) (4 * (M * H)) (2 * (1 + u) * eta) :=
    ((ad i j).sub (ad j i)).cast rfl (by ring) (by ring)
  have ap (i j k : Fin 3) := ((Appr.dif (hp i) (hv i) (bp i) (bv i)).mul (ac j k)).cast (S := 8 * (M * M * H)) (g := 4 * (1 + u) ^ 3 * M * eta + eta)
    rfl (by ring) (by ring)
  have A := ((ap 0 1 2).add (ap 1 2 0)).add ((ap 2 0 1).mono (l := 1 + 3 + 1 + 1) (by norm_num) le_rfl)
  have e := A.err c hc
  have hex : (P - V) ⬝ᵥ ((W - V) ⨯₃ N) = (P 0 - V 0) * ((W 1 - V 1) * N 2 - (W 2 - V 2) * N 1) +
      (P 1 - V 1) * ((W 2 - V 2) * N 0 - (W 0 - V 0) * N 2) + (P 2 - V 2) * ((W 0 - V 0) * N 1 - (W 1 - V 1) * N 0) := by
    simp [dotProduct, Fin.sum_univ_three, cross_apply]; ring
  rw [hex]
  refine e.trans ?_
  have hg := grow_lin (K := K) (1 + 3 + 1 + 1 + 1) (by norm_num)
  have h5 := mul_le_mul_of_nonneg_right hg (show 0 ≤ 8 * (M * M * H) + 8 * (M * M * H) + 8 * (M * M * H) by nlinarith)
  have g2 : (1 + u : K) ^ 2 ≤ 33 / 32 + 1 / 128 := by nlinarith
  have g3 : (1 + u : K) ^ 3 ≤ 21 / 20 := by rw [pow_succ]; nlinarith
  have hME := mul_nonneg hM hη.le
  have h6 : 4 * (1 + u) ^ 3 * M * eta + eta ≤ 21 / 5 * (M * eta) + eta := by
    have := mul_le_mul_of_nonneg_right g3 hME
    linarith
  have h7 := sum_three (K := K) (x := 4 * (1 + u) ^ 3 * M * eta + eta) (by positivity)
  nlinarith only [h5, h6, h7, hME, hη]

/-- the test of the base: the inner product of `p - v` with minus the stored normal -/
theorem base_test {p v n : V3 K} {P V N : Fin 3 → K} {M H : K} (hp : p.Holds P) (hv : v.Holds V) (hn : n.Holds N)
    (bp : ∀ i, |P i| ≤ M) (bv : ∀ i, |V i| ≤ M) (bn : ∀ i, |N i| ≤ H)
    (he : (eta : K) ≤ 1) (ho : 40 * (M + 1) * (H + 1) ≤ omega) (ho4 : 2 * M ≤ omega) :
    ∃ c, (V3.dotp (V3.sub p v) (V3.scl n (-1))).Is c ∧
      |c + (P - V) ⬝ᵥ N| ≤ 48 * u * (M * H) + (14 * M + 4) * eta := by
  have hu := u_pos (K := K)
  have hl := u_le (K := K)
  have hη := eta_pos (K := K)
  have hM : 0 ≤ M := (abs_nonneg _).trans (bp 0)
  have hH : 0 ≤ H := (abs_nonneg _).trans (bn 0)
  have hMH := mul_nonneg hM hH
  have h1 : (-1 : Fl K).Holds (-1) := ⟨Fl.Is.kneg (x := 1) rfl, Fl.WF.neg (x := 1) Fl.rep_one⟩
  have hHM : H ≤ (M + 1) * (H + 1) := by nlinarith
  have ls (i : Fin 3) : Lim (n.val[i] * -1) (65 / 64 * (H * 1) + eta) :=
    (Lim.leaf (hn i) (bn i)).mul (Lim.leaf h1 (by rw [abs_neg, abs_one])) (by nlinarith)
  have lp (i : Fin 3) : Lim (p.val[i] - v.val[i]) (65 / 32 * M) := Lim.dif (hp i) (hv i) (bp i) (bv i) ho4
  have L := Lim.dot3 (lp 0) (lp 1) (lp 2) (ls 0) (ls 1) (ls 2) he (by nlinarith)
  obtain ⟨c, hc⟩ := L.fin
  refine ⟨c, hc, ?_⟩
  have as (i : Fin 3) : Appr (n.val[i] * -1) 1 (-N i) H eta :=
    ((Appr.leafM (hn i) (bn i)).mul (Appr.leafM h1 (M := 1) (by rw [abs_neg, abs_one]))).cast (by ring) (by ring) (by ring)
  have ap (i : Fin 3) := ((Appr.dif (hp i) (hv i) (bp i) (bv i)).mul (as i)).cast (S := 2 * (M * H)) (g := 2 * (1 + u) ^ 2 * M * eta + eta)
    rfl (by ring) (by ring)
  have A := ((ap 0).add (ap 1)).add ((ap 2).mono (l := 1 + 1 + 1 + 1) (by norm_num) le_rfl)
  have e := A.err c hc
  have hex : c + (P - V) ⬝ᵥ N = c - ((P 0 - V 0) * -N 0 + (P 1 - V 1) * -N 1 + (P 2 - V 2) * -N 2) := by
    simp [dotProduct, Fin.sum_univ_three]; ring
  rw [hex]
  refine e.trans ?_
  have hg := grow_lin (K := K) (1 + 1 + 1 + 1 + 1) (by norm_num)
  have h5 := mul_le_mul_of_nonneg_right hg (show 0 ≤ 2 * (M * H) + 2 * (M * H) + 2 * (M * H) by nlinarith)
  have g2 : (1 + u : K) ^ 2 ≤ 33 / 32 + 1 / 128 := by nlinarith
  have hME := mul_nonneg hM hη.le
  have h6 : 2 * (1 + u) ^ 2 * M * eta + eta ≤ 21 / 10 * (M * eta) + eta := by
    have := mul_le_mul_of_nonneg_right g2 hME
    linarith
  have h7 := sum_three (K := K) (x := 2 * (1 + u) ^ 2 * M * eta + eta) (by positivity)
  nlinarith only [h5, h6, h7, hME, hη]

/-- the test of the top, whose first vertex is the rounded sum of `v` and the stored normal -/
theorem top_test {p v n : V3 K} {P V N : Fin 3 → K} {M H : K} (hp : p.Holds P) (hv : v.Holds V) (hn : n.Holds N)
    (bp : ∀ i, |P i| ≤ M) (bv : ∀ i, |V i| ≤ M) (bn : ∀ i, |N i| ≤ H)
    (he : (eta : K) ≤ 1) (ho : 40 * (M + H + 1) * (H + 1) ≤ omega) :
    ∃ c, (V3.dotp (V3.sub p (V3.add v n)) n).Is c ∧
      |c - (P - V - N) ⬝ᵥ N| ≤ 24 * u * ((2 * M + H) * H) + 4 * eta := by
  have hu := u_pos (K := K)
  have hl := u_le (K := K)
  have hη := eta_pos (K := K)
  have hM : 0 ≤ M := (abs_nonneg _).trans (bp 0)
  have hH : 0 ≤ H := (abs_nonneg _).trans (bn 0)
  have hMH := mul_nonneg hM hH
  have hHH := mul_nonneg hH hH
  have ls (i : Fin 3) : Lim (v.val[i] + n.val[i]) (65 / 64 * (M + H)) :=
    (Lim.leaf (hv i) (bv i)).add (Lim.leaf (hn i) (bn i)) (by nlinarith)
  have lp (i : Fin 3) : Lim (p.val[i] - (v.val[i] + n.val[i])) (33 / 16 * (M + H)) :=
    ((Lim.leaf (hp i) (bp i)).sub (ls i) (by nlinarith)).mono (by linarith)
  have L := Lim.dot3 (lp 0) (lp 1) (lp 2) (.leaf (hn 0) (bn 0)) (.leaf (hn 1) (bn 1)) (.leaf (hn 2) (bn 2)) he (by nlinarith)
  obtain ⟨c, hc⟩ := L.fin
  refine ⟨c, hc, ?_⟩
  have as (i : Fin 3) := (Appr.leafM (hv i) (bv i)).add (Appr.leafM (hn i) (bn i))
  have ap (i : Fin 3) := ((((Appr.leafM (hp i) (bp i)).mono (l := 0 + 1) (by norm_num) le_rfl).sub (as i)).mul (Appr.leafM (hn i) (bn i))).cast
    (f := (P i - V i - N i) * N i) (S := (2 * M + H) * H) (g := eta) (by ring) (by ring) (by ring)
  have A := ((ap 0).add (ap 1)).add ((ap 2).mono (l := 0 + 1 + 1 + 0 + 1 + 1) (by norm_num) le_rfl)
  have e := A.err c hc
  have hex : (P - V - N) ⬝ᵥ N = (P 0 - V 0 - N 0) * N 0 + (P 1 - V 1 - N 1) * N 1 + (P 2 - V 2 - N 2) * N 2 := by
    simp [dotProduct, Fin.sum_univ_three]
  rw [hex]
  refine e.trans ?_
  have hg := grow_lin (K := K) (0 + 1 + 1 + 0 + 1 + 1 + 1) (by norm_num)
  have h5 := mul_le_mul_of_nonneg_right hg (show 0 ≤ (2 * M + H) * H + (2 * M + H) * H + (2 * M + H) * H by nlinarith)
  have h7 := sum_three (K := K) (x := eta) hη.le
  linarith

/-! ## the stored normal -/

section real

/-- a small change of a vector changes its direction little -/
theorem unit_perturb {c c' : R3} {ε : ℝ} (hc : 0 < euc c) (hc' : 0 < euc c') (h : euc (c' - c) ≤ ε) (i : Fin 3) :
    |c' i / euc c' - c i / euc c| ≤ 2 * ε / euc c := by
  have e1 : c' i / euc c' - c i / euc c = c' i / euc c' * ((euc c - euc c') / euc c) + (c' - c) i / euc c := by
    rw [Pi.sub_apply]; field_simp; ring
  have h1 : |c' i / euc c'| ≤ 1 := by
    rw [abs_div, abs_of_pos hc', div_le_one hc']; exact euc_coord c' i
  have h2 : |euc c - euc c'| ≤ ε := by
    have a1 := euc_add_le (c' - c) c
    have a2 := euc_add_le c' ((-1 : ℝ) • (c' - c))
    rw [sub_add_cancel] at a1
    rw [euc_smul, abs_neg, abs_one, one_mul, show c' + (-1 : ℝ) • (c' - c) = c by module] at a2
    rw [abs_le]; constructor <;> linarith
  have h3 : |(c' - c) i| ≤ ε := (euc_coord _ i).trans h
  have h4 : |(euc c - euc c') / euc c| ≤ ε / euc c := by
    rw [abs_div, abs_of_pos hc]; exact div_le_div_of_nonneg_right h2 hc.le
  have h5 : |(c' - c) i / euc c| ≤ ε / euc c := by
    rw [abs_div, abs_of_pos hc]; exact div_le_div_of_nonneg_right h3 hc.le
  rw [e1]
  refine (abs_add_le _ _).trans ?_
  rw [abs_mul]
  have := mul_le_mul h1 h4 (abs_nonneg _) zero_le_one
  rw [two_mul, add_div]
  linarith

/-- the Euclidean norm from the components -/
theorem euc_le_of {c : R3} {ε : ℝ} (h : ∀ i, |c i| ≤ ε) : euc c ≤ 7 / 4 * ε := by
  have hε : 0 ≤ ε := (abs_nonneg _).trans (h 0)
  rw [euc_eq, Fin.sum_univ_three]
  refine Real.sqrt_le_iff.mpr ⟨by positivity, ?_⟩
  have q (i : Fin 3) : c i * c i ≤ ε * ε := by
    rw [← abs_mul_abs_self]; exact mul_le_mul (h i) (h i) (abs_nonneg _) hε
  nlinarith [q 0, q 1, q 2, mul_nonneg hε hε]

theorem euc_cross_le (a b : R3) : euc (a ⨯₃ b) ≤ euc a * euc b := by
  refine abs_le_of_sq_le_sq' ?_ (mul_nonneg (euc_nonneg _) (euc_nonneg _)) |>.2
  have e (w : R3) : euc w ^ 2 = w ⬝ᵥ w := by rw [sq, euc_sq]
  rw [mul_pow, e, e, e]
  have : (a ⨯₃ b) ⬝ᵥ (a ⨯₃ b) = (a ⬝ᵥ a) * (b ⬝ᵥ b) - (a ⬝ᵥ b) * (a ⬝ᵥ b) := by
    simp [cross_apply, dotProduct, Fin.sum_univ_three]; ring
  rw [this]; linarith [mul_self_nonneg (a ⬝ᵥ b)]

end real

section generic

variable (φ : K →+* ℝ) (hφ : StrictMono φ)
include hφ

/-- normalisation of a vector that is long compared with the underflow threshold -/
theorem nrm_close {a : V3 K} {A : Fin 3 → K} (ha : a.Holds A) {B : K} (hB : ∀ i, |A i| ≤ B) (h0 : 0 < euc (toR φ A))
    (he : (eta : K) ≤ 1) (ho : 4 * (B * B + 1) ≤ omega) (hs : 2 * √(φ eta) ≤ φ u * euc (toR φ A)) :
    ∃ N, (V3.nrm a).Holds N ∧ ∀ i, |φ (N i) - φ (A i) / euc (toR φ A)| ≤ 6 * φ u * |φ (A i) / euc (toR φ A)| + φ eta := by
  obtain ⟨t, ht⟩ := (Lim.dot3 (.leaf (ha 0) (hB 0)) (.leaf (ha 1) (hB 1)) (.leaf (ha 2) (hB 2)) (.leaf (ha 0) (hB 0)) (.leaf (ha 1) (hB 1))
    (.leaf (ha 2) (hB 2)) he ho)
  have hsq : ∃ m, (V3.mag a).Is m := by
    refine Fl.sqrt_fin ht.1.1 ?_ (((abs_le.mp ht.2).2).trans ho)
    have hnn := ((Fl.nonNeg_sq a.val[0]).add (Fl.nonNeg_sq a.val[1])).add (Fl.nonNeg_sq a.val[2])
    have ht : (a.val[0] * a.val[0] + a.val[1] * a.val[1] + a.val[2] * a.val[2]).Is t := ht.1.1
    generalize (a.val[0] * a.val[0] + a.val[1] * a.val[1] + a.val[2] * a.val[2]) = z at hnn ht
    rcases hnn with rfl | rfl | ⟨w, hw, rfl⟩
    · exact absurd ht (by simp [Fl.Is, Fl.val])
    · exact absurd ht (by simp [Fl.Is, Fl.val])
    · exact (show w = t from Option.some.inj ht) ▸ hw
  obtain ⟨m, hm⟩ := hsq
  obtain ⟨x, hx, hacc⟩ := C55_magnitude_abs φ hφ a A ha
  obtain rfl : x = V3.mag a := by rw [V3.magnitude_eq] at hx; exact (Option.some.inj hx).symm
  obtain ⟨-, hmr⟩ := hacc m hm
  have hA0 : A ≠ 0 := by
    rintro rfl
    have : toR φ (0 : Fin 3 → K) = 0 := by funext i; simp [toR]
    rw [this, (euc_eq_zero _).mpr rfl] at h0
    exact lt_irrefl _ h0
  obtain ⟨-, N, hN, h1, -⟩ := unit_close φ hφ (c := 4) (by norm_num) (by norm_num) (fun i : Fin 3 => a.val[i]) A
    (fun i => (ha i).1) hA0 hm (hmr.trans (by
      have : euc (toR φ A) = euc (fun i => φ (A i)) := rfl
      rw [this] at hs
      push_cast
      linarith))
  have e6 : ((4 : ℕ) : ℝ) + 2 = 6 := by norm_num
  rw [e6] at h1
  refine ⟨N, ?_, h1⟩
  intro i
  fin_cases i
  · exact ⟨hN 0, Fl.wf_div _ _⟩
  · exact ⟨hN 1, Fl.wf_div _ _⟩
  · exact ⟨hN 2, Fl.wf_div _ _⟩


omit hφ in
/-- The numeric hypotheses about a prism with base `V0 V1 V2` and height `h`: coordinates and height are at most `M`; `κ` is a
condition number of the base triangle (`M²` is at most `κ` times twice its area) that is small compared with `1/u`; nothing
overflows, and the underflow error is small compared with the sizes that occur. -/
structure PrismData (V0 V1 V2 : Fin 3 → K) (h M : K) (κ : ℝ) : Prop where
  b0 : ∀ i, |V0 i| ≤ M
  b1 : ∀ i, |V1 i| ≤ M
  b2 : ∀ i, |V2 i| ≤ M
  pos : 0 < h
  hle : h ≤ M
  cond : φ M * φ M ≤ κ * euc ((toR φ V1 - toR φ V0) ⨯₃ (toR φ V2 - toR φ V0))
  one : 1 ≤ κ
  small : 600 * φ u * κ ≤ 1
  e1 : (eta : K) ≤ u
  e2 : (eta : K) ≤ u ^ 4 * M ^ 4
  e3 : (eta : K) ≤ u * h
  e4 : (eta : K) ≤ u * h * M ^ 2
  top : 512 * (M + 1) ^ 4 ≤ (omega : K)

namespace PrismData

variable {φ} {V0 V1 V2 : Fin 3 → K} {h M : K} {κ : ℝ} (D : PrismData φ V0 V1 V2 h M κ)
include D

omit hφ in
theorem Mpos : 0 < M := D.pos.trans_le D.hle

omit hφ in
theorem eMM : (eta : K) ≤ u * (M * M) := by
  have hu := u_pos (K := K)
  have hl := u_le (K := K)
  have hM := D.Mpos
  rcases le_total 1 M with h1 | h1
  · have : 1 ≤ M * M := by nlinarith
    have := D.e1
    nlinarith
  · refine D.e2.trans ?_
    have h2 : M * M ≤ 1 := by nlinarith
    have h3 : (u : K) ^ 3 ≤ 1 := pow_le_one₀ hu.le (by linarith)
    calc u ^ 4 * M ^ 4 = u ^ 3 * (M * M) * (u * (M * M)) := by ring
      _ ≤ 1 * 1 * (u * (M * M)) := by gcongr
      _ = u * (M * M) := by ring

omit hφ in
theorem eone : (eta : K) ≤ 1 := D.e1.trans ((u_le (K := K)).trans (by norm_num))

omit hφ in
theorem eMh : (eta : K) ≤ u * (M * h) := by
  have hu := u_pos (K := K)
  have hM := D.Mpos
  have hh := D.pos
  rcases le_total 1 M with h1 | h1
  · refine D.e3.trans ?_
    have : h ≤ M * h := by nlinarith
    exact mul_le_mul_of_nonneg_left this hu.le
  · refine D.e4.trans ?_
    have : h * M ^ 2 ≤ M * h := by nlinarith [mul_pos hM hh]
    calc u * h * M ^ 2 = u * (h * M ^ 2) := by ring
      _ ≤ u * (M * h) := mul_le_mul_of_nonneg_left this hu.le

omit hφ in
theorem tops : 2 * M ≤ (omega : K) ∧ 9 * (M * M) ≤ (omega : K) ∧ 4 * (9 * (M * M) * (9 * (M * M)) + 1) ≤ (omega : K) ∧
    40 * (M + 1) * (M * (5 / 4 * h) + 1) ≤ omega ∧ 40 * (M + 1) * (5 / 4 * h + 1) ≤ omega ∧
    40 * (M + 5 / 4 * h + 1) * (5 / 4 * h + 1) ≤ omega := by
  have hM := D.Mpos
  have hh := D.pos
  have hhM := D.hle
  have hT := D.top
  have q1 : (1 : K) ≤ M + 1 := by linarith
  have m1 : (M + 1) ^ 2 ≤ (M + 1) ^ 4 := pow_le_pow_right₀ q1 (by norm_num)
  have m2 : (M + 1) ^ 3 ≤ (M + 1) ^ 4 := pow_le_pow_right₀ q1 (by norm_num)
  have m0 : (M + 1) ^ 1 ≤ (M + 1) ^ 4 := pow_le_pow_right₀ q1 (by norm_num)
  have hMM := mul_pos hM hM
  have hMMM := mul_pos hM hMM
  have hMh : M * h ≤ M * M := mul_le_mul_of_nonneg_left hhM hM.le
  have hMMh : M * (M * h) ≤ M * (M * M) := mul_le_mul_of_nonneg_left hMh hM.le
  have hhh : h * h ≤ M * M := mul_le_mul hhM hhM hh.le hM.le
  refine ⟨by nlinarith, by nlinarith, ?_, ?_, ?_, ?_⟩
  · have : (M + 1) ^ 4 = M ^ 4 + 4 * M ^ 3 + 6 * M ^ 2 + 4 * M + 1 := by ring
    have p3 : 0 < M ^ 3 := by positivity
    have p2 : 0 < M ^ 2 := by positivity
    nlinarith
  all_goals nlinarith

include hφ

/-- the normal the constructor stores -/
theorem normal {a b c : V3 K} {x : Fl K} (ha : a.Holds V0) (hb : b.Holds V1) (hc : c.Holds V2) (hx : x.Holds h) :
    ∃ N, (V3.scl (V3.nrm (V3.crs (V3.sub b a) (V3.sub c a))) x).Holds N ∧
      ∀ i, |φ (N i) - φ h * triNormal (toR φ V0) (toR φ V1) (toR φ V2) i| ≤ 150 * φ u * κ * φ h := by
  obtain ⟨o1, o2, o3, -⟩ := D.tops
  have hu := u_pos (K := K)
  have hl := u_le (K := K)
  have hM := D.Mpos
  have comp (i j : Fin 3) := cross_edges (hb i) (ha i) (hc j) (ha j) (hb j) (ha j) (hc i) (ha i) (D.b1 i) (D.b0 i) (D.b2 j) (D.b0 j)
    (D.b1 j) (D.b0 j) (D.b2 i) (D.b0 i) D.eMM o1 o2
  obtain ⟨c0, hc0, s0, t0⟩ := comp 1 2
  obtain ⟨c1, hc1, s1, t1⟩ := comp 2 0
  obtain ⟨c2, hc2, s2, t2⟩ := comp 0 1
  set A : Fin 3 → K := ![c0, c1, c2] with hA
  have hcr : (V3.crs (V3.sub b a) (V3.sub c a)).Holds A := mk_holds hc0 hc1 hc2
  have sA : ∀ i, |A i| ≤ 9 * (M * M) := by
    intro i; fin_cases i
    · exact s0
    · exact s1
    · exact s2
  set C : R3 := (toR φ V1 - toR φ V0) ⨯₃ (toR φ V2 - toR φ V0) with hC
  -- real constants
  set t := φ u with ht
  set m := φ M with hm
  have t0' : 0 < t := by have := hφ hu; rwa [map_zero] at this
  have tl : t ≤ 1 / 64 := by have := hφ.monotone hl; rwa [map_div₀, map_one, map_ofNat] at this
  have m0 : 0 < m := by have := hφ hM; rwa [map_zero] at this
  have h0 : 0 < φ h := by have := hφ D.pos; rwa [map_zero] at this
  have hη0 : 0 < φ eta := by have := hφ (eta_pos (K := K)); rwa [map_zero] at this
  have η1 : φ eta ≤ t := hφ.monotone D.e1
  have η3 : φ eta ≤ t * φ h := by have := hφ.monotone D.e3; rwa [map_mul] at this
  have η2 : φ eta ≤ t ^ 4 * m ^ 4 := by have := hφ.monotone D.e2; rwa [map_mul, map_pow, map_pow] at this
  have hκ := D.one
  have hsm := D.small
  have hcond := D.cond
  rw [← ht] at hsm
  rw [← hm, ← hC] at hcond
  have mm : 0 < m * m := mul_pos m0 m0
  have hCpos : 0 < euc C := by
    by_contra hn
    have : euc C = 0 := le_antisymm (not_lt.mp hn) (euc_nonneg _)
    rw [this] at hcond; linarith
  have tr {c a1 a2 a3 a4 b1 b2 b3 b4 : K} (hh : |c - ((a1 - a2) * (a3 - a4) - (b1 - b2) * (b3 - b4))| ≤ 40 * u * (M * M)) :
      |φ c - ((φ a1 - φ a2) * (φ a3 - φ a4) - (φ b1 - φ b2) * (φ b3 - φ b4))| ≤ 40 * t * (m * m) := by
    have := hφ.monotone hh
    rw [map_abs_mono φ hφ] at this
    simpa only [map_sub, map_mul, map_ofNat] using this
  have hd : ∀ i, |(toR φ A - C) i| ≤ 40 * t * (m * m) := by
    intro i
    rw [hC, cross_apply]
    fin_cases i
    · exact tr t0
    · exact tr t1
    · exact tr t2
  have hde : euc (toR φ A - C) ≤ 70 * t * (m * m) := (euc_le_of hd).trans (by linarith)
  -- the computed cross product is long
  have hbig : 600 * t * (m * m) ≤ euc C := by
    have h1 := mul_le_mul_of_nonneg_right hsm hCpos.le
    have h2 := mul_le_mul_of_nonneg_left hcond (show 0 ≤ 600 * t by positivity)
    nlinarith
  have hA530 : 530 * t * (m * m) ≤ euc (toR φ A) := by
    have := euc_add_le (toR φ A) ((-1 : ℝ) • (toR φ A - C))
    rw [euc_smul, abs_neg, abs_one, one_mul, show toR φ A + (-1 : ℝ) • (toR φ A - C) = C by module] at this
    linarith
  have hApos : 0 < euc (toR φ A) := lt_of_lt_of_le (by positivity) hA530
  have hsq : √(φ eta) ≤ t * t * (m * m) := by
    rw [Real.sqrt_le_left (by positivity)]
    calc φ eta ≤ t ^ 4 * m ^ 4 := η2
      _ = (t * t * (m * m)) ^ 2 := by ring
  obtain ⟨n, hn, hnc⟩ := nrm_close φ hφ hcr sA hApos D.eone o3 (by
    have := mul_le_mul_of_nonneg_left hA530 t0'.le
    have p := mul_pos (mul_pos t0' t0') mm
    rw [← ht]
    nlinarith)
  -- components of the normal
  have hnt : ∀ i, |φ (n i) - triNormal (toR φ V0) (toR φ V1) (toR φ V2) i| ≤ 147 * t * κ := by
    intro i
    have h1 := hnc i
    have h2 := unit_perturb hCpos hApos hde i
    have e : triNormal (toR φ V0) (toR φ V1) (toR φ V2) i = C i / euc C := by
      rw [triNormal, ← hC, Pi.smul_apply, smul_eq_mul, div_eq_inv_mul]
    have h3 : |φ (A i) / euc (toR φ A)| ≤ 1 := by
      rw [abs_div, abs_of_pos hApos, div_le_one hApos]; exact euc_coord (toR φ A) i
    have h4 : 2 * (70 * t * (m * m)) / euc C ≤ 140 * t * κ := by
      rw [div_le_iff₀ hCpos]
      have := mul_le_mul_of_nonneg_left hcond (show 0 ≤ 140 * t by positivity)
      linarith
    rw [e]
    have h5 := abs_add_le (φ (n i) - φ (A i) / euc (toR φ A)) (φ (A i) / euc (toR φ A) - C i / euc C)
    rw [sub_add_sub_cancel] at h5
    have h6 : |φ (A i) / euc (toR φ A) - C i / euc C| ≤ 2 * (70 * t * (m * m)) / euc C := h2
    have h7 : 6 * t * |φ (A i) / euc (toR φ A)| ≤ 6 * t * 1 := mul_le_mul_of_nonneg_left h3 (by positivity)
    have h8 : t * 1 ≤ t * κ := mul_le_mul_of_nonneg_left hκ t0'.le
    linarith
  have hun : ∀ i, |triNormal (toR φ V0) (toR φ V1) (toR φ V2) i| ≤ 1 := by
    intro i
    rw [triNormal, ← hC, Pi.smul_apply, smul_eq_mul, ← div_eq_inv_mul, abs_div, abs_of_pos hCpos, div_le_one hCpos]
    exact euc_coord C i
  have htk : t * κ ≤ 1 / 600 := by linarith
  have hnb : ∀ i, |φ (n i)| ≤ 5 / 4 := by
    intro i
    have := abs_add_le (φ (n i) - triNormal (toR φ V0) (toR φ V1) (toR φ V2) i) (triNormal (toR φ V0) (toR φ V1) (toR φ V2) i)
    rw [sub_add_cancel] at this
    linarith [hnt i, hun i]
  have hnK : ∀ i, |n i| ≤ 5 / 4 := by
    intro i
    rw [← hφ.le_iff_le, map_abs_mono φ hφ]
    have e : φ (5 / 4) = 5 / 4 := by rw [map_div₀, map_ofNat, map_ofNat]
    rw [e]; exact hnb i
  have scale (i : Fin 3) : ∃ N, ((V3.nrm (V3.crs (V3.sub b a) (V3.sub c a))).val[i] * x).Holds N ∧
      |φ N - φ h * triNormal (toR φ V0) (toR φ V1) (toR φ V2) i| ≤ 150 * t * κ * φ h := by
    have hov : |n i * h| ≤ omega := by
      rw [abs_mul, abs_of_pos D.pos]
      have h1 := mul_le_mul (hnK i) D.hle D.pos.le (by norm_num)
      linarith
    obtain ⟨N, hN⟩ := Fl.mul_fin (hn i).1 hx.1 hov
    refine ⟨N, ⟨hN, Fl.wf_mul _ _⟩, ?_⟩
    have h1 := hφ.monotone (Fl.mul_err (hn i).1 hx.1 hN)
    rw [map_add, map_mul, map_abs_mono φ hφ, map_abs_mono φ hφ, map_sub, map_mul, abs_mul (φ (n i)), abs_of_pos h0] at h1
    have h2 : |φ (n i) * φ h - φ h * triNormal (toR φ V0) (toR φ V1) (toR φ V2) i| ≤ 147 * t * κ * φ h := by
      rw [show φ (n i) * φ h - φ h * triNormal (toR φ V0) (toR φ V1) (toR φ V2) i =
        (φ (n i) - triNormal (toR φ V0) (toR φ V1) (toR φ V2) i) * φ h by ring, abs_mul, abs_of_pos h0]
      exact mul_le_mul_of_nonneg_right (hnt i) h0.le
    have h3 := abs_add_le (φ N - φ (n i) * φ h) (φ (n i) * φ h - φ h * triNormal (toR φ V0) (toR φ V1) (toR φ V2) i)
    rw [sub_add_sub_cancel] at h3
    have h4 : t * (|φ (n i)| * φ h) ≤ t * (5 / 4 * φ h) := by
      have := hnb i
      gcongr
    have h5 : t * φ h * 1 ≤ t * φ h * κ := mul_le_mul_of_nonneg_left hκ (by positivity)
    linarith
  obtain ⟨N0, g0, k0⟩ := scale 0
  obtain ⟨N1, g1, k1⟩ := scale 1
  obtain ⟨N2, g2, k2⟩ := scale 2
  refine ⟨![N0, N1, N2], mk_holds g0 g1 g2, ?_⟩
  intro i; fin_cases i
  · exact k0
  · exact k1
  · exact k2

end PrismData

/-! ## facets -/

section facets

/-- signed distances of `p` from the five facets of the right prism over `v0 v1 v2` with height `h`, positive outside: base, top, and
the sides over `v0 v1`, `v1 v2`, `v2 v0` (`C78_facets`) -/
noncomputable def facetDist (v0 v1 v2 : R3) (h : ℝ) (p : R3) : Fin 5 → ℝ :=
  ![-((p - v0) ⬝ᵥ triNormal v0 v1 v2), (p - v0) ⬝ᵥ triNormal v0 v1 v2 - h,
    (p - v0) ⬝ᵥ ((v1 - v0) ⨯₃ triNormal v0 v1 v2) / euc (v1 - v0), (p - v1) ⬝ᵥ ((v2 - v1) ⨯₃ triNormal v0 v1 v2) / euc (v2 - v1),
    (p - v2) ⬝ᵥ ((v0 - v2) ⨯₃ triNormal v0 v1 v2) / euc (v0 - v2)]

omit hφ in
theorem edges_pos {v0 v1 v2 : R3} (hN : (v1 - v0) ⨯₃ (v2 - v0) ≠ 0) : 0 < euc (v1 - v0) ∧ 0 < euc (v2 - v1) ∧ 0 < euc (v0 - v2) := by
  refine ⟨euc_pos ?_, euc_pos ?_, euc_pos ?_⟩ <;> intro h <;> apply hN
  · rw [h]; simp
  · rw [sub_eq_zero.mp h, cross_self]
  · rw [show v2 - v0 = -(v0 - v2) by abel, h]; simp

omit hφ in
theorem triNormal_facts {v0 v1 v2 : R3} (hN : (v1 - v0) ⨯₃ (v2 - v0) ≠ 0) : euc (triNormal v0 v1 v2) = 1 ∧
    (v1 - v0) ⬝ᵥ triNormal v0 v1 v2 = 0 ∧ (v2 - v1) ⬝ᵥ triNormal v0 v1 v2 = 0 ∧ (v0 - v2) ⬝ᵥ triNormal v0 v1 v2 = 0 := by
  have h1 : (v1 - v0) ⬝ᵥ ((v1 - v0) ⨯₃ (v2 - v0)) = 0 := dot_self_cross _ _
  have h2 : (v2 - v0) ⬝ᵥ ((v1 - v0) ⨯₃ (v2 - v0)) = 0 := dot_cross_self _ _
  unfold triNormal
  refine ⟨?_, ?_, ?_, ?_⟩
  · rw [euc_smul, abs_of_pos (inv_pos.mpr (euc_pos hN)), inv_mul_cancel₀ (euc_pos hN).ne']
  · rw [dotProduct_smul, h1, smul_zero]
  · rw [dotProduct_smul, show v2 - v1 = (v2 - v0) - (v1 - v0) by abel, sub_dotProduct, h1, h2, sub_zero, smul_zero]
  · rw [dotProduct_smul, show v0 - v2 = -(v2 - v0) by abel, neg_dotProduct, h2, neg_zero, smul_zero]

omit hφ in
theorem euc_cross_perp {a n : R3} (hn : euc n = 1) (h : a ⬝ᵥ n = 0) : euc (a ⨯₃ n) = euc a := by
  have e (w : R3) : euc w ^ 2 = w ⬝ᵥ w := by rw [sq, euc_sq]
  have : (a ⨯₃ n) ⬝ᵥ (a ⨯₃ n) = (a ⬝ᵥ a) * (n ⬝ᵥ n) - (a ⬝ᵥ n) * (a ⬝ᵥ n) := by
    simp [cross_apply, dotProduct, Fin.sum_univ_three]; ring
  rw [h, ← e n, hn] at this
  refine (pow_left_inj₀ (euc_nonneg _) (euc_nonneg _) two_ne_zero).mp ?_
  rw [e, e, this]; ring

omit hφ in
/-- C78: `facetDist` consists of signed distances to five planes (each is an affine function with a unit normal) and the solid prism is
where all five are at most zero. -/
theorem C78_facets {v0 v1 v2 : R3} (hN : (v1 - v0) ⨯₃ (v2 - v0) ≠ 0) {h : ℝ} (hh : 0 < h) :
    (∀ p, p ∈ prismPts v0 v1 v2 h ↔ ∀ j, facetDist v0 v1 v2 h p j ≤ 0) ∧
    ∃ m : Fin 5 → R3, (∀ j, euc (m j) = 1) ∧
      ∀ p q j, facetDist v0 v1 v2 h p j - facetDist v0 v1 v2 h q j = (p - q) ⬝ᵥ m j := by
  obtain ⟨l1, l2, l3⟩ := edges_pos hN
  obtain ⟨n1, n2, n3, n4⟩ := triNormal_facts hN
  constructor
  · intro p
    rw [← prism_halves hN hh]
    unfold InHalves facetDist
    have e : triNormal v0 v1 v2 ⬝ᵥ triNormal v0 v1 v2 = 1 := by rw [← euc_sq, n1, one_mul]
    generalize triNormal v0 v1 v2 = n at *
    simp only [Fin.forall_fin_succ, map_smul, dotProduct_smul, smul_dotProduct, e, smul_eq_mul, mul_one, IsEmpty.forall_iff, and_true]
    have c1 (x : ℝ) : 0 ≤ h * x ↔ -x ≤ 0 := by rw [mul_nonneg_iff_of_pos_left hh, neg_nonpos]
    have c2 (x : ℝ) : h * x ≤ h * h ↔ x - h ≤ 0 := by rw [mul_le_mul_iff_right₀ hh, sub_nonpos]
    have c3 (x l : ℝ) (hl : 0 < l) : h * x ≤ 0 ↔ x / l ≤ 0 := by
      rw [div_le_iff₀ hl, zero_mul]
      constructor
      · intro a; by_contra b; push Not at b; linarith [mul_pos hh b]
      · intro a; exact mul_nonpos_of_nonneg_of_nonpos hh.le a
    exact and_congr (c1 _) (and_congr (c2 _) (and_congr (c3 _ _ l1) (and_congr (c3 _ _ l2) (c3 _ _ l3))))
  · refine ⟨![-triNormal v0 v1 v2, triNormal v0 v1 v2, (euc (v1 - v0))⁻¹ • ((v1 - v0) ⨯₃ triNormal v0 v1 v2),
      (euc (v2 - v1))⁻¹ • ((v2 - v1) ⨯₃ triNormal v0 v1 v2), (euc (v0 - v2))⁻¹ • ((v0 - v2) ⨯₃ triNormal v0 v1 v2)], ?_, ?_⟩
    · have k (a : R3) (ha : 0 < euc a) (hp : a ⬝ᵥ triNormal v0 v1 v2 = 0) : euc ((euc a)⁻¹ • (a ⨯₃ triNormal v0 v1 v2)) = 1 := by
        rw [euc_smul, abs_of_pos (inv_pos.mpr ha), euc_cross_perp n1 hp, inv_mul_cancel₀ ha.ne']
      intro j; fin_cases j
      · show euc (-_) = 1
        rw [show -triNormal v0 v1 v2 = (-1 : ℝ) • triNormal v0 v1 v2 by module, euc_smul, n1]; norm_num
      · exact n1
      · exact k _ l1 n2
      · exact k _ l2 n3
      · exact k _ l3 n4
    · intro p q j
      have k (a n v : R3) : (p - v) ⬝ᵥ n / euc a - (q - v) ⬝ᵥ n / euc a = (p - q) ⬝ᵥ ((euc a)⁻¹ • n) := by
        rw [← sub_div, ← sub_dotProduct, dotProduct_smul, smul_eq_mul, div_eq_inv_mul, sub_sub_sub_cancel_right]
      unfold facetDist
      fin_cases j
      · show -((p - v0) ⬝ᵥ triNormal v0 v1 v2) - -((q - v0) ⬝ᵥ triNormal v0 v1 v2) = (p - q) ⬝ᵥ -triNormal v0 v1 v2
        simp only [dotProduct_neg, sub_dotProduct]; ring
      · show (p - v0) ⬝ᵥ triNormal v0 v1 v2 - h - ((q - v0) ⬝ᵥ triNormal v0 v1 v2 - h) = (p - q) ⬝ᵥ triNormal v0 v1 v2
        simp only [sub_dotProduct]; ring
      · exact k _ _ _
      · exact k _ _ _
      · exact k _ _ _

/-- concrete case -/
example := C78_facets prism_example.1 (h := 2) (by norm_num)

omit hφ in
theorem dot_bound_euc {x y : R3} {A B : ℝ} (hx : ∀ i, |x i| ≤ A) (hy : ∀ i, |y i| ≤ B) : |x ⬝ᵥ y| ≤ 3 * (A * B) := by
  have hA : 0 ≤ A := (abs_nonneg _).trans (hx 0)
  have q (i : Fin 3) : |x i * y i| ≤ A * B := by rw [abs_mul]; exact mul_le_mul (hx i) (hy i) (abs_nonneg _) hA
  rw [dotProduct, Fin.sum_univ_three]
  have := abs_add_le (x 0 * y 0 + x 1 * y 1) (x 2 * y 2)
  have := abs_add_le (x 0 * y 0) (x 1 * y 1)
  linarith [q 0, q 1, q 2]

omit hφ in
theorem cross_bound {x y : R3} {A B : ℝ} (hx : ∀ i, |x i| ≤ A) (hy : ∀ i, |y i| ≤ B) (i : Fin 3) : |(x ⨯₃ y) i| ≤ 2 * (A * B) := by
  have hA : 0 ≤ A := (abs_nonneg _).trans (hx 0)
  have q (i j k l : Fin 3) : |x i * y j - x k * y l| ≤ 2 * (A * B) := by
    have h1 : |x i * y j| ≤ A * B := by rw [abs_mul]; exact mul_le_mul (hx i) (hy j) (abs_nonneg _) hA
    have h2 : |x k * y l| ≤ A * B := by rw [abs_mul]; exact mul_le_mul (hx k) (hy l) (abs_nonneg _) hA
    have := abs_sub (x i * y j) (x k * y l)
    linarith
  rw [cross_apply]
  fin_cases i
  · exact q 1 2 2 1
  · exact q 2 0 0 2
  · exact q 0 1 1 0

omit hφ in
/-- a computed number close to a positive multiple of a signed distance has its sign -/
theorem sign_margin {c k f μ E : ℝ} (hk : 0 < k) (hc : |c - k * f| ≤ E) (hE : E ≤ k * μ) :
    (f ≤ -μ → c ≤ 0) ∧ (μ < f → 0 < c) := by
  obtain ⟨h1, h2⟩ := abs_le.mp hc
  constructor
  · intro h; have := mul_le_mul_of_nonneg_left h hk.le; linarith
  · intro h; have := mul_lt_mul_of_pos_left h hk; linarith

end facets

namespace PrismData

variable {φ} {V0 V1 V2 : Fin 3 → K} {h M : K} {κ : ℝ} (D : PrismData φ V0 V1 V2 h M κ)
include D hφ

theorem cross_pos : 0 < φ M ∧ 0 < euc ((toR φ V1 - toR φ V0) ⨯₃ (toR φ V2 - toR φ V0)) := by
  have m0 : 0 < φ M := by have := hφ D.Mpos; rwa [map_zero] at this
  refine ⟨m0, ?_⟩
  by_contra hn
  have e : euc ((toR φ V1 - toR φ V0) ⨯₃ (toR φ V2 - toR φ V0)) = 0 := le_antisymm (not_lt.mp hn) (euc_nonneg _)
  have := D.cond
  rw [e] at this
  nlinarith

theorem ne : (toR φ V1 - toR φ V0) ⨯₃ (toR φ V2 - toR φ V0) ≠ 0 := by
  intro e
  have := (D.cross_pos hφ).2
  rw [e, (euc_eq_zero _).mpr rfl] at this
  exact lt_irrefl _ this

omit D in
theorem dif_bound {P V : Fin 3 → K} (hP : ∀ i, |P i| ≤ M) (hV : ∀ i, |V i| ≤ M) (i : Fin 3) : |(toR φ P - toR φ V) i| ≤ 2 * φ M := by
  have h1 := hφ.monotone (hP i)
  have h2 := hφ.monotone (hV i)
  rw [map_abs_mono φ hφ] at h1 h2
  have := abs_sub (φ (P i)) (φ (V i))
  show |φ (P i) - φ (V i)| ≤ _
  linarith

/-- no edge of the base is short -/
theorem edge_long : φ M ≤ 7 / 2 * κ * euc (toR φ V1 - toR φ V0) ∧ φ M ≤ 7 / 2 * κ * euc (toR φ V2 - toR φ V1) ∧
    φ M ≤ 7 / 2 * κ * euc (toR φ V0 - toR φ V2) := by
  obtain ⟨m0, -⟩ := D.cross_pos hφ
  have hcond := D.cond
  have hκ := D.one
  have key (a b : R3) (hb : ∀ i, |b i| ≤ 2 * φ M) (hc : euc ((toR φ V1 - toR φ V0) ⨯₃ (toR φ V2 - toR φ V0)) ≤ euc a * euc b) :
      φ M ≤ 7 / 2 * κ * euc a := by
    have h1 := euc_le_of hb
    have h2 := mul_le_mul_of_nonneg_left h1 (euc_nonneg a)
    have h3 : φ M * φ M ≤ κ * (euc a * (7 / 4 * (2 * φ M))) := hcond.trans (mul_le_mul_of_nonneg_left (hc.trans h2) (by linarith))
    have h4 : φ M * φ M ≤ φ M * (7 / 2 * κ * euc a) := by linarith
    exact le_of_mul_le_mul_left h4 m0
  have d10 := dif_bound hφ D.b1 D.b0
  have d20 := dif_bound hφ D.b2 D.b0
  refine ⟨key _ (toR φ V2 - toR φ V0) d20 (euc_cross_le _ _), key _ (toR φ V1 - toR φ V0) d10 ?_, key _ (toR φ V1 - toR φ V0) d10 ?_⟩
  · have : (toR φ V1 - toR φ V0) ⨯₃ (toR φ V2 - toR φ V0) = (-1 : ℝ) • ((toR φ V2 - toR φ V1) ⨯₃ (toR φ V1 - toR φ V0)) := by
      ext i; fin_cases i <;> simp [cross_apply] <;> ring
    rw [this, euc_smul]
    simpa using euc_cross_le (toR φ V2 - toR φ V1) (toR φ V1 - toR φ V0)
  · have : (toR φ V1 - toR φ V0) ⨯₃ (toR φ V2 - toR φ V0) = (toR φ V0 - toR φ V2) ⨯₃ (toR φ V1 - toR φ V0) := by
      ext i; fin_cases i <;> simp [cross_apply] <;> ring
    rw [this]
    exact euc_cross_le _ _

end PrismData

omit hφ in
theorem toR_triple (P V W N : Fin 3 → K) :
    φ ((P - V) ⬝ᵥ ((W - V) ⨯₃ N)) = (toR φ P - toR φ V) ⬝ᵥ ((toR φ W - toR φ V) ⨯₃ toR φ N) := by
  simp [dotProduct, Fin.sum_univ_three, cross_apply, toR]

omit hφ in
theorem toR_dif (P V N : Fin 3 → K) : φ ((P - V) ⬝ᵥ N) = (toR φ P - toR φ V) ⬝ᵥ toR φ N := by
  simp [dotProduct, Fin.sum_univ_three, toR]

omit hφ in
theorem top_real {c X Y Z W t κ m y η : ℝ} (t0 : 0 < t) (κ0 : 0 < κ) (m0 : 0 < m) (h0 : 0 < y) (hhm : y ≤ m) (htk : t * κ ≤ 1 / 600)
    (tκ : t * 1 ≤ t * κ) (η3 : η ≤ t * (m * y))
    (h1 : |c - (y * (X - y) + (Y - 2 * (y * Z) - W))| ≤ 24 * t * ((2 * m + 5 / 4 * y) * (5 / 4 * y)) + 4 * η)
    (h2 : |Y| ≤ 3 * (2 * m * (150 * t * κ * y))) (h3 : |Z| ≤ 3 * (1 * (150 * t * κ * y)))
    (h4 : |W| ≤ 3 * (150 * t * κ * y * (150 * t * κ * y))) : |c - y * (X - y)| ≤ 2100 * (t * κ * m * y) := by
  have b1 : |c - y * (X - y)| ≤ |c - (y * (X - y) + (Y - 2 * (y * Z) - W))| + (|Y| + 2 * (y * |Z|) + |W|) := by
    have b2 := abs_add_le (c - (y * (X - y) + (Y - 2 * (y * Z) - W))) (Y - 2 * (y * Z) - W)
    have b3 := abs_sub (Y - 2 * (y * Z)) W
    have b4 := abs_sub Y (2 * (y * Z))
    rw [show c - (y * (X - y) + (Y - 2 * (y * Z) - W)) + (Y - 2 * (y * Z) - W) = c - y * (X - y) by ring] at b2
    rw [show |2 * (y * Z)| = 2 * (y * |Z|) by rw [abs_mul, abs_mul, abs_of_pos h0]; norm_num] at b4
    linarith
  have c1' : y * |Z| ≤ y * (3 * (1 * (150 * t * κ * y))) := mul_le_mul_of_nonneg_left h3 h0.le
  have c2' : y * (t * κ * y) ≤ m * (t * κ * y) := mul_le_mul_of_nonneg_right hhm (by positivity)
  have c3' : t * κ * (t * κ * y * y) ≤ 1 / 600 * (t * κ * y * y) := mul_le_mul_of_nonneg_right htk (by positivity)
  have c4' : y * (t * y) ≤ m * (t * y) := mul_le_mul_of_nonneg_right hhm (by positivity)
  have a3 : t * 1 * (m * y) ≤ t * κ * (m * y) := mul_le_mul_of_nonneg_right tκ (by positivity)
  have a4 : 0 < t * κ * m * y := by positivity
  linarith

omit hφ in
theorem side_real {c X Y t κ m y η : ℝ} (t0 : 0 < t) (κ0 : 0 < κ) (m0 : 0 < m) (h0 : 0 < y)
    (tκ : t * 1 ≤ t * κ) (η5 : η ≤ t * (m * y)) (η4 : η ≤ t * y * m ^ 2)
    (h1 : |c - (y * X + Y)| ≤ 192 * t * (m * m * (5 / 4 * y)) + (14 * m + 4) * η)
    (h2 : |Y| ≤ 3 * (2 * m * (2 * (2 * m * (150 * t * κ * y))))) : |c - y * X| ≤ 3900 * (t * κ * (m * m) * y) := by
  have a1 := abs_add_le (c - (y * X + Y)) Y
  rw [show c - (y * X + Y) + Y = c - y * X by ring] at a1
  have a2 : m * η ≤ m * (t * (m * y)) := mul_le_mul_of_nonneg_left η5 m0.le
  have a3 : t * 1 * (m * m * y) ≤ t * κ * (m * m * y) := mul_le_mul_of_nonneg_right tκ (by positivity)
  have a4 : 0 < t * κ * (m * m) * y := by positivity
  linarith

omit hφ in
theorem base_real {c X Y t κ m y η : ℝ} (t0 : 0 < t) (κ0 : 0 < κ) (m0 : 0 < m) (h0 : 0 < y)
    (tκ : t * 1 ≤ t * κ) (η3 : η ≤ t * y) (η5 : η ≤ t * (m * y))
    (h1 : |c + (y * X + Y)| ≤ 48 * t * (m * (5 / 4 * y)) + (14 * m + 4) * η)
    (h2 : |Y| ≤ 3 * (2 * m * (150 * t * κ * y))) : |c - y * -X| ≤ 2100 * (t * κ * m * y) := by
  have b1 := abs_sub (c + (y * X + Y)) Y
  rw [show c + (y * X + Y) - Y = c - y * -X by ring] at b1
  have a2 : m * η ≤ m * (t * y) := mul_le_mul_of_nonneg_left η3 m0.le
  have a3 : t * 1 * (m * y) ≤ t * κ * (m * y) := mul_le_mul_of_nonneg_right tκ (by positivity)
  have a4 : 0 < t * κ * m * y := by positivity
  linarith

/-- the five quantities whose signs decide the inside test -/
def facetTests (a b c n p : V3 K) : Fin 5 → Fl K :=
  ![V3.dotp (V3.sub p a) (V3.scl n (-1)), V3.dotp (V3.sub p (V3.add a n)) n, V3.dotp (V3.sub p a) (V3.crs (V3.sub b a) n),
    V3.dotp (V3.sub p b) (V3.crs (V3.sub c b) n), V3.dotp (V3.sub p c) (V3.crs (V3.sub a c) n)]

omit hφ in
theorem inside_iff (a b c n p : V3 K) : (prismWith a b c n).inside p = true ↔ ∀ j, (!Fl.lt 0 (facetTests a b c n p j)) = true := by
  unfold TriPrism.inside TriPrism.testsP facetTests
  simp only [List.all_cons, List.all_nil, Bool.and_true, Bool.and_eq_true, Fin.forall_fin_succ, IsEmpty.forall_iff, and_true]
  rfl

/-- the margin of C78 -/
noncomputable def prismMargin (M : K) (κ : ℝ) : ℝ := 2 ^ 14 * κ ^ 2 * φ u * φ M

namespace PrismData

variable {φ} {V0 V1 V2 : Fin 3 → K} {h M : K} {κ : ℝ} (D : PrismData φ V0 V1 V2 h M κ)
include D

/-- the signs of the five computed quantities against the exact signed distances -/
theorem signs {a b c p : V3 K} {x : Fl K} (ha : a.Holds V0) (hb : b.Holds V1) (hc : c.Holds V2) (hx : x.Holds h)
    {P : Fin 3 → K} (hp : p.Holds P) (hP : ∀ i, |P i| ≤ M) (j : Fin 5) :
    ∃ r, (facetTests a b c (V3.scl (V3.nrm (V3.crs (V3.sub b a) (V3.sub c a))) x) p j).Is r ∧
    (facetDist (toR φ V0) (toR φ V1) (toR φ V2) (φ h) (toR φ P) j ≤ -prismMargin φ M κ → φ r ≤ 0) ∧
    (prismMargin φ M κ < facetDist (toR φ V0) (toR φ V1) (toR φ V2) (φ h) (toR φ P) j → 0 < φ r) := by
  obtain ⟨N, hN, hNe⟩ := D.normal hφ ha hb hc hx
  obtain ⟨o1, -, -, o4, o5, o6⟩ := D.tops
  obtain ⟨m0, -⟩ := D.cross_pos hφ
  have hne := D.ne hφ
  obtain ⟨l1, l2, l3⟩ := edges_pos hne
  obtain ⟨k1, k2, k3⟩ := D.edge_long hφ
  obtain ⟨n1, -⟩ := triNormal_facts hne
  have hun (i : Fin 3) : |triNormal (toR φ V0) (toR φ V1) (toR φ V2) i| ≤ 1 := by
    rw [← n1]; exact euc_coord _ i
  have hnn : triNormal (toR φ V0) (toR φ V1) (toR φ V2) ⬝ᵥ triNormal (toR φ V0) (toR φ V1) (toR φ V2) = 1 := by rw [← euc_sq, n1, one_mul]
  generalize V3.scl (V3.nrm (V3.crs (V3.sub b a) (V3.sub c a))) x = n at *
  have t0 : 0 < φ u := by have := hφ (u_pos (K := K)); rwa [map_zero] at this
  have h0 : 0 < φ h := by have := hφ D.pos; rwa [map_zero] at this
  have hhm : φ h ≤ φ M := hφ.monotone D.hle
  have hη0 : 0 < φ eta := by have := hφ (eta_pos (K := K)); rwa [map_zero] at this
  have η3 : φ eta ≤ φ u * φ h := by have := hφ.monotone D.e3; rwa [map_mul] at this
  have η4 : φ eta ≤ φ u * φ h * φ M ^ 2 := by have := hφ.monotone D.e4; rwa [map_mul, map_mul, map_pow] at this
  have η5 : φ eta ≤ φ u * (φ M * φ h) := by have := hφ.monotone D.eMh; rwa [map_mul, map_mul] at this
  have hκ := D.one
  have hsm := D.small
  have htk : φ u * κ ≤ 1 / 600 := by linarith
  -- size of the stored normal
  have hNb (i : Fin 3) : |φ (N i)| ≤ 5 / 4 * φ h := by
    have h1 := abs_add_le (φ (N i) - φ h * triNormal (toR φ V0) (toR φ V1) (toR φ V2) i) (φ h * triNormal (toR φ V0) (toR φ V1) (toR φ V2) i)
    rw [sub_add_cancel, abs_mul, abs_of_pos h0] at h1
    have h2 := mul_le_mul_of_nonneg_left (hun i) h0.le
    have h3 := mul_le_mul_of_nonneg_right htk h0.le
    linarith [hNe i]
  have hNK (i : Fin 3) : |N i| ≤ 5 / 4 * h := by
    rw [← hφ.le_iff_le, map_abs_mono φ hφ, map_mul, map_div₀, map_ofNat, map_ofNat]
    exact hNb i
  have he := D.eone
  have T1 := base_test hp ha hN hP D.b0 hNK he o5 o1
  have T2 := top_test hp ha hN hP D.b0 hNK he o6
  have T3 := side_test hp ha hb hN hP D.b0 D.b1 hNK he o4 o1
  have T4 := side_test hp hb hc hN hP D.b1 D.b2 hNK he o4 o1
  have T5 := side_test hp hc ha hN hP D.b2 D.b0 hNK he o4 o1
  -- the same in real numbers
  set nn := triNormal (toR φ V0) (toR φ V1) (toR φ V2) with hnn'
  set t := φ u with ht
  set m := φ M with hm
  set y := φ h with hy
  set E : R3 := toR φ N - y • nn with hE
  have hEb (i : Fin 3) : |E i| ≤ 150 * t * κ * y := hNe i
  have hNE : toR φ N = y • nn + E := by rw [hE]; abel
  have tκ : t * 1 ≤ t * κ := mul_le_mul_of_nonneg_left hκ t0.le
  have κ0 : 0 < κ := by linarith
  have hμ : prismMargin φ M κ = 2 ^ 14 * κ ^ 2 * t * m := rfl
  have side {V W : Fin 3 → K} (bV : ∀ i, |V i| ≤ M) (bW : ∀ i, |W i| ≤ M) {c : K} (hl : 0 < euc (toR φ W - toR φ V))
      (hk : m ≤ 7 / 2 * κ * euc (toR φ W - toR φ V))
      (hc : |c - (P - V) ⬝ᵥ ((W - V) ⨯₃ N)| ≤ 192 * u * (M * M * (5 / 4 * h)) + (14 * M + 4) * eta) :
      ((toR φ P - toR φ V) ⬝ᵥ ((toR φ W - toR φ V) ⨯₃ nn) / euc (toR φ W - toR φ V) ≤ -prismMargin φ M κ → φ c ≤ 0) ∧
      (prismMargin φ M κ < (toR φ P - toR φ V) ⬝ᵥ ((toR φ W - toR φ V) ⨯₃ nn) / euc (toR φ W - toR φ V) → 0 < φ c) := by
    have h1 := hφ.monotone hc
    rw [map_abs_mono φ hφ, map_sub, toR_triple, hNE] at h1
    simp only [map_add, map_mul, map_div₀, map_ofNat, map_smul, dotProduct_add, dotProduct_smul, smul_eq_mul] at h1
    rw [← ht, ← hm, ← hy] at h1
    have h2 := dot_bound_euc (dif_bound hφ hP bV) (cross_bound (dif_bound hφ bW bV) hEb)
    rw [← hm] at h2
    have h3 := side_real t0 κ0 m0 h0 tκ η5 η4 h1 h2
    set X := (toR φ P - toR φ V) ⬝ᵥ ((toR φ W - toR φ V) ⨯₃ nn)
    refine sign_margin (k := y * euc (toR φ W - toR φ V)) (E := 3900 * (t * κ * (m * m) * y)) (mul_pos h0 hl) ?_ ?_
    · rwa [show y * euc (toR φ W - toR φ V) * (X / euc (toR φ W - toR φ V)) = y * X by field_simp]
    · rw [hμ]
      have b1 := mul_le_mul_of_nonneg_left hk (show 0 ≤ t * κ * m * y by positivity)
      have b2 : 0 < t * κ * (m * m) * y := by positivity
      calc 3900 * (t * κ * (m * m) * y) = 3900 * (t * κ * m * y * m) := by ring
        _ ≤ 3900 * (t * κ * m * y * (7 / 2 * κ * euc (toR φ W - toR φ V))) := mul_le_mul_of_nonneg_left b1 (by norm_num)
        _ = 13650 * (t * κ ^ 2 * m * y * euc (toR φ W - toR φ V)) := by ring
        _ ≤ 2 ^ 14 * (t * κ ^ 2 * m * y * euc (toR φ W - toR φ V)) := by
          refine mul_le_mul_of_nonneg_right (by norm_num) (by positivity)
        _ = y * euc (toR φ W - toR φ V) * (2 ^ 14 * κ ^ 2 * t * m) := by ring
  have big : 2100 * (t * κ * m * y) ≤ y * prismMargin φ M κ := by
    rw [hμ]
    calc 2100 * (t * κ * m * y) = 2100 * (t * κ * m * y * 1) := by ring
      _ ≤ 2100 * (t * κ * m * y * κ) := by
        have := mul_le_mul_of_nonneg_left hκ (show 0 ≤ t * κ * m * y by positivity)
        linarith
      _ = 2100 * (t * κ ^ 2 * m * y) := by ring
      _ ≤ 2 ^ 14 * (t * κ ^ 2 * m * y) := mul_le_mul_of_nonneg_right (by norm_num) (by positivity)
      _ = y * (2 ^ 14 * κ ^ 2 * t * m) := by ring
  obtain ⟨c1, i1, T1⟩ := T1
  obtain ⟨c2, i2, T2⟩ := T2
  obtain ⟨c3, i3, T3⟩ := T3
  obtain ⟨c4, i4, T4⟩ := T4
  obtain ⟨c5, i5, T5⟩ := T5
  have S1 : (-((toR φ P - toR φ V0) ⬝ᵥ nn) ≤ -prismMargin φ M κ → φ c1 ≤ 0) ∧
      (prismMargin φ M κ < -((toR φ P - toR φ V0) ⬝ᵥ nn) → 0 < φ c1) := by
    refine sign_margin (k := y) (E := 2100 * (t * κ * m * y)) h0 ?_ big
    have h1 := hφ.monotone T1
    rw [map_abs_mono φ hφ, map_add, toR_dif, hNE] at h1
    simp only [map_add, map_mul, map_div₀, map_ofNat, dotProduct_add, dotProduct_smul, smul_eq_mul] at h1
    rw [← ht, ← hm, ← hy] at h1
    have h2 := dot_bound_euc (dif_bound hφ hP D.b0) hEb
    rw [← hm] at h2
    exact base_real t0 κ0 m0 h0 tκ η3 η5 h1 h2
  have S2 : ((toR φ P - toR φ V0) ⬝ᵥ nn - y ≤ -prismMargin φ M κ → φ c2 ≤ 0) ∧
      (prismMargin φ M κ < (toR φ P - toR φ V0) ⬝ᵥ nn - y → 0 < φ c2) := by
    refine sign_margin (k := y) (E := 2100 * (t * κ * m * y)) h0 ?_ big
    have h1 := hφ.monotone T2
    have e : (toR φ P - toR φ V0 - (y • nn + E)) ⬝ᵥ (y • nn + E) = y * ((toR φ P - toR φ V0) ⬝ᵥ nn - y) +
        ((toR φ P - toR φ V0) ⬝ᵥ E - 2 * (y * (nn ⬝ᵥ E)) - E ⬝ᵥ E) := by
      have : E ⬝ᵥ nn = nn ⬝ᵥ E := dotProduct_comm _ _
      simp only [sub_dotProduct, add_dotProduct, dotProduct_add, smul_dotProduct, dotProduct_smul, smul_eq_mul, hnn, this]
      ring
    have e' : φ ((P - V0 - N) ⬝ᵥ N) = (toR φ P - toR φ V0 - toR φ N) ⬝ᵥ toR φ N := by
      simp [dotProduct, Fin.sum_univ_three, toR]
    rw [map_abs_mono φ hφ, map_sub, e', hNE, e] at h1
    simp only [map_add, map_mul, map_div₀, map_ofNat] at h1
    rw [← ht, ← hm, ← hy] at h1
    have h2 := dot_bound_euc (dif_bound hφ hP D.b0) hEb
    have h3 := dot_bound_euc hun hEb
    have h4 := dot_bound_euc hEb hEb
    rw [← hm] at h2
    exact top_real t0 κ0 m0 h0 hhm htk tκ η5 h1 h2 h3 h4
  have S3 := side D.b0 D.b1 l1 k1 T3
  have S4 := side D.b1 D.b2 l2 k2 T4
  have S5 := side D.b2 D.b0 l3 k3 T5
  fin_cases j
  · exact ⟨c1, i1, S1⟩
  · exact ⟨c2, i2, S2⟩
  · exact ⟨c3, i3, S3⟩
  · exact ⟨c4, i4, S4⟩
  · exact ⟨c5, i5, S5⟩

/-- the inside test against the exact signed distances -/
theorem inside_margin {a b c p : V3 K} {x : Fl K} (ha : a.Holds V0) (hb : b.Holds V1) (hc : c.Holds V2) (hx : x.Holds h)
    {P : Fin 3 → K} (hp : p.Holds P) (hP : ∀ i, |P i| ≤ M) {s : TriPrism K}
    (hs : s = prismWith a b c (V3.scl (V3.nrm (V3.crs (V3.sub b a) (V3.sub c a))) x)) :
    ((∀ j, facetDist (toR φ V0) (toR φ V1) (toR φ V2) (φ h) (toR φ P) j ≤ -prismMargin φ M κ) → s.inside p = true) ∧
    (∀ j, prismMargin φ M κ < facetDist (toR φ V0) (toR φ V1) (toR φ V2) (φ h) (toR φ P) j → s.inside p = false) := by
  have lt0 {z : Fl K} {c : K} (hz : z.Is c) : (φ c ≤ 0 → (!Fl.lt 0 z) = true) ∧ (0 < φ c → (!Fl.lt 0 z) = false) := by
    have key : Fl.lt 0 z = true ↔ 0 < c := Fl.Is.klt (x := 0) rfl hz
    have e : (0 < φ c) ↔ 0 < c := by rw [← hφ.lt_iff_lt (a := 0), map_zero]
    constructor
    · intro h'
      rw [Bool.not_eq_true', ← Bool.not_eq_true, key, ← e]; exact not_lt.mpr h'
    · intro h'
      rw [Bool.not_eq_false', key]; exact e.mp h'
  have key := D.signs hφ ha hb hc hx hp hP
  rw [hs]
  constructor
  · intro hall
    rw [inside_iff]
    intro j
    obtain ⟨r, hr, h1, -⟩ := key j
    exact (lt0 hr).1 (h1 (hall j))
  · intro j hj
    obtain ⟨r, hr, -, h2⟩ := key j
    rw [← Bool.not_eq_true, inside_iff]
    intro hall
    have := (lt0 hr).2 (h2 hj)
    rw [hall j] at this
    exact Bool.noConfusion this

end PrismData


section box

omit hφ in
theorem hull_upper {v0 v1 v2 q : R3} {y : ℝ} (hq : q ∈ prismPts v0 v1 v2 y) (i : Fin 3) : ∃ w ∈ prismVerts v0 v1 v2 y, q i ≤ w i := by
  by_contra hn
  push Not at hn
  have hc : Convex ℝ {x : R3 | x i < q i} := convex_halfSpace_lt (LinearMap.proj i : R3 →ₗ[ℝ] ℝ).isLinear _
  exact lt_irrefl (q i) (convexHull_min hn hc hq)

omit hφ in
theorem hull_lower {v0 v1 v2 q : R3} {y : ℝ} (hq : q ∈ prismPts v0 v1 v2 y) (i : Fin 3) : ∃ w ∈ prismVerts v0 v1 v2 y, w i ≤ q i := by
  by_contra hn
  push Not at hn
  have hc : Convex ℝ {x : R3 | q i < x i} := convex_halfSpace_gt (LinearMap.proj i : R3 →ₗ[ℝ] ℝ).isLinear _
  exact lt_irrefl (q i) (convexHull_min hn hc hq)

omit hφ in
theorem le_sum {p v n : Fl K} {P V N : K} (hp : p.Holds P) (hv : v.Holds V) (hn : n.Holds N) :
    (P ≤ V + N → Fl.le p (v + n) = true) ∧ (V + N ≤ P → Fl.le (v + n) p = true) :=
  ⟨fun h => Fl.le_trans (self_le_lit hp) (Fl.le_trans (Fl.lit_mono h) (hv.1.add_lit hn.1).2),
    fun h => Fl.le_trans (hv.1.add_lit hn.1).1 (Fl.le_trans (Fl.lit_mono h) (lit_le_self hp))⟩

end box

namespace PrismData

variable {φ} {V0 V1 V2 : Fin 3 → K} {h M : K} {κ : ℝ} (D : PrismData φ V0 V1 V2 h M κ)
include D

/-- a point clearly inside the prism lies in the stored box -/
theorem in_box {a b c p : V3 K} {x : Fl K} (ha : a.Holds V0) (hb : b.Holds V1) (hc : c.Holds V2) (hx : x.Holds h)
    {P : Fin 3 → K} (hp : p.Holds P) {l : List (Fl K)} {s : TriPrism K} (hi : TriPrism.init l x = .ok s)
    (hs : s = prismWith a b c (V3.scl (V3.nrm (V3.crs (V3.sub b a) (V3.sub c a))) x))
    (hall : ∀ j, facetDist (toR φ V0) (toR φ V1) (toR φ V2) (φ h) (toR φ P) j ≤ -prismMargin φ M κ) :
    s.bound.Has fun i => p.val[i] := by
  obtain ⟨N, hN, hNe⟩ := D.normal hφ ha hb hc hx
  obtain ⟨m0, -⟩ := D.cross_pos hφ
  have h0 : 0 < φ h := by have := hφ D.pos; rwa [map_zero] at this
  have t0 : 0 < φ u := by have := hφ (u_pos (K := K)); rwa [map_zero] at this
  have hhm : φ h ≤ φ M := hφ.monotone D.hle
  have hκ := D.one
  obtain ⟨hmem, f, hf1, hf⟩ := C78_facets (D.ne hφ) h0
  generalize V3.scl (V3.nrm (V3.crs (V3.sub b a) (V3.sub c a))) x = n at *
  have hδ : 150 * φ u * κ * φ h ≤ prismMargin φ M κ := by
    have h1 : φ u * κ * 1 ≤ φ u * κ * κ := mul_le_mul_of_nonneg_left hκ (by positivity)
    calc 150 * φ u * κ * φ h = 150 * (φ u * κ * 1 * φ h) := by ring
      _ ≤ 150 * (φ u * κ * κ * φ M) := by gcongr
      _ ≤ 2 ^ 14 * (φ u * κ * κ * φ M) := mul_le_mul_of_nonneg_right (by norm_num) (by positivity)
      _ = prismMargin φ M κ := by unfold prismMargin; ring
  have hδ0 : 0 ≤ 150 * φ u * κ * φ h := by positivity
  set δ := 150 * φ u * κ * φ h
  -- the prism contains the points shifted by `δ` along each axis
  have hin (i : Fin 3) (σ : ℝ) (hσ : |σ| ≤ δ) : toR φ P + σ • Pi.single i 1 ∈ prismPts (toR φ V0) (toR φ V1) (toR φ V2) (φ h) := by
    rw [hmem]
    intro j
    have h1 := hf (toR φ P + σ • Pi.single i 1) (toR φ P) j
    rw [add_sub_cancel_left, smul_dotProduct, single_dotProduct, one_mul, smul_eq_mul] at h1
    have h2 : |σ * f j i| ≤ δ * 1 := by
      rw [abs_mul]
      exact mul_le_mul hσ ((euc_coord (f j) i).trans (hf1 j).le) (abs_nonneg _) hδ0
    have h3 := (abs_le.mp h2).2
    linarith [hall j]
  have coordP (i : Fin 3) (σ : ℝ) : (toR φ P + σ • (Pi.single i 1 : R3)) i = φ (P i) + σ := by
    simp [toR]
  have vert {w : R3} (hw : w ∈ prismVerts (toR φ V0) (toR φ V1) (toR φ V2) (φ h)) (i : Fin 3) :
      ∃ v V, (v, V) ∈ [(a, V0), (b, V1), (c, V2)] ∧ (w i = φ (V i) ∨ w i = φ (V i) + φ h * triNormal (toR φ V0) (toR φ V1) (toR φ V2) i) := by
    simp only [prismVerts, Set.mem_insert_iff, Set.mem_singleton_iff] at hw
    rcases hw with rfl | rfl | rfl | rfl | rfl | rfl
    · exact ⟨a, V0, by simp, .inl rfl⟩
    · exact ⟨b, V1, by simp, .inl rfl⟩
    · exact ⟨c, V2, by simp, .inl rfl⟩
    · exact ⟨a, V0, by simp, .inr rfl⟩
    · exact ⟨b, V1, by simp, .inr rfl⟩
    · exact ⟨c, V2, by simp, .inr rfl⟩
  have holds {v : V3 K} {V : Fin 3 → K} (hv : (v, V) ∈ [(a, V0), (b, V1), (c, V2)]) : v.Holds V := by
    simp only [List.mem_cons, List.not_mem_nil, or_false, Prod.mk.injEq] at hv
    rcases hv with ⟨rfl, rfl⟩ | ⟨rfl, rfl⟩ | ⟨rfl, rfl⟩ <;> assumption
  have mem {v : V3 K} {V : Fin 3 → K} (hv : (v, V) ∈ [(a, V0), (b, V1), (c, V2)]) (i : Fin 3) :
      v.val[i] ∈ s.coords i ∧ v.val[i] + n.val[i] ∈ s.coords i := by
    have e : s.coords i = [a.val[i], b.val[i], c.val[i], (V3.add a n).val[i], (V3.add b n).val[i], (V3.add c n).val[i]] := by rw [hs]; rfl
    have ea (v : V3 K) : (V3.add v n).val[i] = v.val[i] + n.val[i] := by fin_cases i <;> rfl
    rw [e, ea, ea, ea]
    simp only [List.mem_cons, List.not_mem_nil, or_false, Prod.mk.injEq] at hv
    rcases hv with ⟨rfl, rfl⟩ | ⟨rfl, rfl⟩ | ⟨rfl, rfl⟩ <;> simp
  intro i
  have hnan : ∀ z ∈ s.coords i, z ≠ Fl.nan := by
    intro z hz
    have e : s.coords i = [a.val[i], b.val[i], c.val[i], (V3.add a n).val[i], (V3.add b n).val[i], (V3.add c n).val[i]] := by rw [hs]; rfl
    have ea (v : V3 K) : (V3.add v n).val[i] = v.val[i] + n.val[i] := by fin_cases i <;> rfl
    rw [e, ea, ea, ea] at hz
    simp only [List.mem_cons, List.not_mem_nil, or_false] at hz
    rcases hz with rfl | rfl | rfl | rfl | rfl | rfl
    · exact (ha i).1.kne_nan
    · exact (hb i).1.kne_nan
    · exact (hc i).1.kne_nan
    · exact (Fl.le_ne_nan ((ha i).1.add_lit (hN i).1).1).1
    · exact (Fl.le_ne_nan ((hb i).1.add_lit (hN i).1).1).1
    · exact (Fl.le_ne_nan ((hc i).1.add_lit (hN i).1).1).1
  have hne : s.coords i ≠ [] := by simp [TriPrism.coords]
  obtain ⟨lo, up, e1, e2, e3, e4⟩ := prism_init_bound hi i
  obtain ⟨lo', f1, -, f3⟩ := minOf_spec hne hnan
  obtain ⟨up', g1, -, g3⟩ := maxOf_spec hne hnan
  obtain rfl : lo = lo' := Except.ok.inj (e1.symm.trans f1)
  obtain rfl : up = up' := Except.ok.inj (e2.symm.trans g1)
  have hd := abs_le.mp (hNe i)
  constructor
  · rw [e3]
    obtain ⟨w, hw, hwi⟩ := hull_lower (hin i (-δ) (by rw [abs_neg, abs_of_nonneg hδ0])) i
    rw [coordP] at hwi
    obtain ⟨v, V, hv, hc'⟩ := vert hw i
    rcases hc' with e | e
    · refine Fl.le_trans (f3 _ (mem hv i).1) (((holds hv i).1.kle (hp i).1).mpr ?_)
      rw [← hφ.le_iff_le]; linarith
    · refine Fl.le_trans (f3 _ (mem hv i).2) ((le_sum (hp i) (holds hv i) (hN i)).2 ?_)
      rw [← hφ.le_iff_le, map_add]; linarith
  · rw [e4]
    obtain ⟨w, hw, hwi⟩ := hull_upper (hin i δ (by rw [abs_of_nonneg hδ0])) i
    rw [coordP] at hwi
    obtain ⟨v, V, hv, hc'⟩ := vert hw i
    rcases hc' with e | e
    · refine Fl.le_trans (((hp i).1.kle (holds hv i).1).mpr ?_) (g3 _ (mem hv i).1)
      rw [← hφ.le_iff_le]; linarith
    · refine Fl.le_trans ((le_sum (hp i) (holds hv i) (hN i)).1 ?_) (g3 _ (mem hv i).2)
      rw [← hφ.le_iff_le, map_add]; linarith

end PrismData

omit hφ in
theorem prism_init_data {l0 l1 l2 : List (Fl K)} {x : Fl K} {s : TriPrism K} {V0 V1 V2 : Fin 3 → K} (h0 : ListIn l0 V0) (h1 : ListIn l1 V1)
    (h2 : ListIn l2 V2) (hs : TriPrism.init (l0 ++ l1 ++ l2) x = .ok s) : ∃ a b c : V3 K, a.Holds V0 ∧ b.Holds V1 ∧ c.Holds V2 ∧
      s = prismWith a b c (V3.scl (V3.nrm (V3.crs (V3.sub b a) (V3.sub c a))) x) := by
  obtain ⟨x0, y0, z0, rfl, a0, a1, a2⟩ := h0
  obtain ⟨x1, y1, z1, rfl, b0, b1, b2⟩ := h1
  obtain ⟨x2, y2, z2, rfl, c0, c1, c2⟩ := h2
  exact ⟨⟨#v[x0, y0, z0]⟩, ⟨#v[x1, y1, z1]⟩, ⟨#v[x2, y2, z2]⟩, mk_holds a0 a1 a2, mk_holds b0 b1 b2, mk_holds c0 c1 c2,
    (Except.ok.inj ((prism_init x0 y0 z0 x1 y1 z1 x2 y2 z2 x).symm.trans hs)).symm⟩

/-- C78: a prism and a point made by the constructors from finite numbers in range.  A point at least `prismMargin` inside all five
facets of the exact prism is reported, with the point itself as location; a point more than `prismMargin` outside some facet is not
reported.  Both orders of the arguments give the same answer. -/
theorem C78_prismPoint {l0 l1 l2 l : List (Fl K)} {x : Fl K} {s : TriPrism K} {t : Point3 K} {V0 V1 V2 P : Fin 3 → K} {h M : K} {κ : ℝ}
    (h0 : ListIn l0 V0) (h1 : ListIn l1 V1) (h2 : ListIn l2 V2) (hx : x.Holds h) (hs : TriPrism.init (l0 ++ l1 ++ l2) x = .ok s)
    (hl : ListIn l P) (ht : Point3.init l = .ok t) (D : PrismData φ V0 V1 V2 h M κ) (hP : ∀ i, |P i| ≤ M) :
    ((∀ j, facetDist (toR φ V0) (toR φ V1) (toR φ V2) (φ h) (toR φ P) j ≤ -prismMargin φ M κ) →
      ∃ loc : V3 K, loc.Holds P ∧ Shape.getIntersect 2 (.triPrism s) (.point t) = .ok (true, some loc) ∧
        Shape.getIntersect 2 (.point t) (.triPrism s) = .ok (true, some loc)) ∧
    (∀ j, prismMargin φ M κ < facetDist (toR φ V0) (toR φ V1) (toR φ V2) (φ h) (toR φ P) j →
      Shape.getIntersect 2 (.triPrism s) (.point t) = .ok (false, none) ∧
        Shape.getIntersect 2 (.point t) (.triPrism s) = .ok (false, none)) := by
  obtain ⟨a, b, c, ha, hb, hc, hs'⟩ := prism_init_data h0 h1 h2 hs
  have hor : t.ori.Holds P ∧ t.bound.lower = t.ori.val ∧ t.bound.upper = t.ori.val := by
    obtain ⟨p0, p1, p2, rfl, q0, q1, q2⟩ := hl
    obtain ⟨x', y', z', e, e1, e2⟩ := point_init_eq ht
    simp only [List.cons.injEq, and_true] at e
    obtain ⟨rfl, rfl, rfl⟩ := e
    rw [e1, e2]; exact ⟨mk_holds q0 q1 q2, rfl, rfl⟩
  obtain ⟨hp, tl, tu⟩ := hor
  obtain ⟨m1, m2⟩ := D.inside_margin hφ ha hb hc hx hp hP hs'
  have c1 : core (.triPrism s) (.point t) = .ok (if s.inside t.ori then (true, some t.ori) else (false, none)) := prismPoint_eq s t
  have c2 : core (.point t) (.triPrism s) = .ok (if s.inside t.ori then (true, some t.ori) else (false, none)) := prismPoint_eq s t
  constructor
  · intro hall
    have hov : AABB.overlap (Shape.triPrism s).aabb (Shape.point t).aabb = true := by
      refine AABB.overlap_of_has _ _ (p := fun i => t.ori.val[i]) (D.in_box hφ ha hb hc hx hp hs hs' hall) ?_
      intro i
      show Fl.le t.bound.lower[i] _ = true ∧ Fl.le _ t.bound.upper[i] = true
      rw [tl, tu]
      exact ⟨Fl.le_refl (hp i).1.kne_nan, Fl.le_refl (hp i).1.kne_nan⟩
    refine ⟨t.ori, hp, ?_, ?_⟩
    · rw [getIntersect_eq 0, hov, c1, m1 hall]; rfl
    · rw [getIntersect_eq 0, AABB.overlap_comm, hov, c2, m1 hall]; rfl
  · intro j hj
    rw [getIntersect_eq 0, getIntersect_eq 0, c1, c2, m2 j hj]
    constructor <;> split <;> rfl


end generic

/-! ## binary64 -/

/-- the range conditions for `f64` -/
theorem prismData_f64 {V0 V1 V2 : Fin 3 → Q64} {h M : Q64} {κ : ℝ} (b0 : ∀ i, |V0 i| ≤ M) (b1 : ∀ i, |V1 i| ≤ M) (b2 : ∀ i, |V2 i| ≤ M)
    (hlo : ((2 : ℚ) ^ (-200 : ℤ) : ℚ) ≤ h) (hle : h ≤ M) (hhi : M ≤ ((2 : ℚ) ^ (200 : ℤ) : ℚ))
    (cond : M.real * M.real ≤ κ * euc ((toR BinQ.real V1 - toR BinQ.real V0) ⨯₃ (toR BinQ.real V2 - toR BinQ.real V0)))
    (one : 1 ≤ κ) (hκ : κ ≤ 2 ^ (40 : ℤ)) : PrismData BinQ.real V0 V1 V2 h M κ := by
  obtain ⟨cu, ce, -, co, -⟩ := C55_constants
  have key (h M : ℚ) (hlo : (2 : ℚ) ^ (-200 : ℤ) ≤ h) (hle : h ≤ M) (hhi : M ≤ (2 : ℚ) ^ (200 : ℤ)) :
      (2 : ℚ) ^ (-1075 : ℤ) ≤ ((2 : ℚ) ^ (-53 : ℤ)) ^ 4 * M ^ 4 ∧ (2 : ℚ) ^ (-1075 : ℤ) ≤ (2 : ℚ) ^ (-53 : ℤ) * h ∧
      (2 : ℚ) ^ (-1075 : ℤ) ≤ (2 : ℚ) ^ (-53 : ℤ) * h * M ^ 2 ∧ 512 * (M + 1) ^ 4 ≤ (2 : ℚ) ^ (1023 : ℤ) := by
    have hz : (0 : ℚ) < (2 : ℚ) ^ (-200 : ℤ) := zpow_pos (by norm_num) _
    have hM := hlo.trans hle
    have hM0 : 0 ≤ M := hz.le.trans hM
    have hh0 : 0 ≤ h := hz.le.trans hlo
    refine ⟨?_, ?_, ?_, ?_⟩
    · calc (2 : ℚ) ^ (-1075 : ℤ) ≤ (2 : ℚ) ^ (-1012 : ℤ) := zpow_le_zpow_right₀ (by norm_num) (by norm_num)
        _ = ((2 : ℚ) ^ (-53 : ℤ)) ^ 4 * ((2 : ℚ) ^ (-200 : ℤ)) ^ 4 := by
          rw [← zpow_natCast, ← zpow_natCast, ← zpow_mul, ← zpow_mul, ← zpow_add₀ (by norm_num)]; norm_num
        _ ≤ _ := by gcongr
    · calc (2 : ℚ) ^ (-1075 : ℤ) ≤ (2 : ℚ) ^ (-253 : ℤ) := zpow_le_zpow_right₀ (by norm_num) (by norm_num)
        _ = (2 : ℚ) ^ (-53 : ℤ) * (2 : ℚ) ^ (-200 : ℤ) := by rw [← zpow_add₀ (by norm_num)]; norm_num
        _ ≤ _ := by gcongr
    · calc (2 : ℚ) ^ (-1075 : ℤ) ≤ (2 : ℚ) ^ (-653 : ℤ) := zpow_le_zpow_right₀ (by norm_num) (by norm_num)
        _ = (2 : ℚ) ^ (-53 : ℤ) * (2 : ℚ) ^ (-200 : ℤ) * ((2 : ℚ) ^ (-200 : ℤ)) ^ 2 := by
          rw [← zpow_natCast, ← zpow_mul, ← zpow_add₀ (by norm_num), ← zpow_add₀ (by norm_num)]; norm_num
        _ ≤ _ := by gcongr
    · have h1 : (1 : ℚ) ≤ (2 : ℚ) ^ (200 : ℤ) := one_le_zpow₀ (by norm_num) (by norm_num)
      have h2 : M + 1 ≤ 2 * (2 : ℚ) ^ (200 : ℤ) := by linarith
      calc 512 * (M + 1) ^ 4 ≤ 512 * (2 * (2 : ℚ) ^ (200 : ℤ)) ^ 4 := by gcongr
        _ = 2 ^ (13 : ℤ) * ((2 : ℚ) ^ (200 : ℤ)) ^ 4 := by rw [mul_pow]; norm_num
        _ = (2 : ℚ) ^ (813 : ℤ) := by rw [← zpow_natCast, ← zpow_mul, ← zpow_add₀ (by norm_num)]; norm_num
        _ ≤ _ := zpow_le_zpow_right₀ (by norm_num) (by norm_num)
  obtain ⟨k1, k2, k3, k4⟩ := key h M hlo hle hhi
  refine ⟨b0, b1, b2, lt_of_lt_of_le (zpow_pos (by norm_num) _ : (0 : ℚ) < (2 : ℚ) ^ (-200 : ℤ)) hlo, hle, cond, one, ?_, ?_, ?_, ?_, ?_, ?_⟩
  · rw [real_u]
    calc 600 * (2 : ℝ) ^ (-53 : ℤ) * κ ≤ 600 * (2 : ℝ) ^ (-53 : ℤ) * (2 : ℝ) ^ (40 : ℤ) := by gcongr
      _ ≤ 1 := by norm_num
  · exact eta_u
  · rw [ce, cu]; exact k1
  · rw [ce, cu]; exact k2
  · rw [ce, cu]; exact k3
  · rw [co]; exact k4

/-- C78 for `f64`: coordinates up to `M ≤ 2^200`, height between `2^-200` and `M`, and a base triangle of area at least `M² / 2κ`
with `κ ≤ 2^40`: the margin is `2^-39 κ² M`. -/
theorem C78_prismPoint_f64 {l0 l1 l2 l : List (Fl Q64)} {x : Fl Q64} {s : TriPrism Q64} {t : Point3 Q64} {V0 V1 V2 P : Fin 3 → Q64} {h M : Q64}
    {κ : ℝ} (h0 : ListIn l0 V0) (h1 : ListIn l1 V1) (h2 : ListIn l2 V2) (hx : x.Holds h) (hs : TriPrism.init (l0 ++ l1 ++ l2) x = .ok s)
    (hl : ListIn l P) (ht : Point3.init l = .ok t) (b0 : ∀ i, |V0 i| ≤ M) (b1 : ∀ i, |V1 i| ≤ M) (b2 : ∀ i, |V2 i| ≤ M)
    (hlo : ((2 : ℚ) ^ (-200 : ℤ) : ℚ) ≤ h) (hle : h ≤ M) (hhi : M ≤ ((2 : ℚ) ^ (200 : ℤ) : ℚ))
    (cond : M.real * M.real ≤ κ * euc ((toR BinQ.real V1 - toR BinQ.real V0) ⨯₃ (toR BinQ.real V2 - toR BinQ.real V0)))
    (one : 1 ≤ κ) (hκ : κ ≤ 2 ^ (40 : ℤ)) (hP : ∀ i, |P i| ≤ M) :
    ((∀ j, facetDist (toR BinQ.real V0) (toR BinQ.real V1) (toR BinQ.real V2) h.real (toR BinQ.real P) j ≤ -(2 ^ (-39 : ℤ) * κ ^ 2 * M.real)) →
      ∃ loc : V3 Q64, loc.Holds P ∧ Shape.getIntersect 2 (.triPrism s) (.point t) = .ok (true, some loc) ∧
        Shape.getIntersect 2 (.point t) (.triPrism s) = .ok (true, some loc)) ∧
    (∀ j, 2 ^ (-39 : ℤ) * κ ^ 2 * M.real < facetDist (toR BinQ.real V0) (toR BinQ.real V1) (toR BinQ.real V2) h.real (toR BinQ.real P) j →
      Shape.getIntersect 2 (.triPrism s) (.point t) = .ok (false, none) ∧
        Shape.getIntersect 2 (.point t) (.triPrism s) = .ok (false, none)) := by
  have e : prismMargin BinQ.real M κ = 2 ^ (-39 : ℤ) * κ ^ 2 * M.real := by
    have e2 : (2 : ℝ) ^ (-39 : ℤ) = 2 ^ 14 * 2 ^ (-53 : ℤ) := by rw [show (-39 : ℤ) = 14 + (-53) by norm_num, zpow_add₀ (by norm_num)]; norm_num
    rw [prismMargin, real_u, e2]; ring
  have := C78_prismPoint BinQ.real BinQ.real_strictMono h0 h1 h2 hx hs hl ht
    (prismData_f64 b0 b1 b2 hlo hle hhi cond one hκ) hP
  rwa [e] at this

/-! ### a concrete prism -/

def T0 : Fin 3 → Q64 := ![(0 : ℚ), (0 : ℚ), (0 : ℚ)]
def T1 : Fin 3 → Q64 := ![(1 : ℚ), (0 : ℚ), (0 : ℚ)]
def T2 : Fin 3 → Q64 := ![(0 : ℚ), (1 : ℚ), (0 : ℚ)]

theorem toR_T0 : toR BinQ.real T0 = 0 := by
  ext i; fin_cases i <;> exact Rat.cast_zero
theorem toR_T1 : toR BinQ.real T1 = ![1, 0, 0] := by
  ext i; fin_cases i
  · exact Rat.cast_one
  · exact Rat.cast_zero
  · exact Rat.cast_zero
theorem toR_T2 : toR BinQ.real T2 = ![0, 1, 0] := by
  ext i; fin_cases i
  · exact Rat.cast_zero
  · exact Rat.cast_one
  · exact Rat.cast_zero

theorem T_list : ListIn (K := Q64) [.fin (0 : ℚ), .fin (0 : ℚ), .fin (0 : ℚ)] T0 ∧
    ListIn (K := Q64) [.fin (1 : ℚ), .fin (0 : ℚ), .fin (0 : ℚ)] T1 ∧
    ListIn (K := Q64) [.fin (0 : ℚ), .fin (1 : ℚ), .fin (0 : ℚ)] T2 :=
  ⟨⟨_, _, _, rfl, int_holds rfl (.inl rfl), int_holds rfl (.inl rfl), int_holds rfl (.inl rfl)⟩,
    ⟨_, _, _, rfl, int_holds rfl (.inr (.inl rfl)), int_holds rfl (.inl rfl), int_holds rfl (.inl rfl)⟩,
    ⟨_, _, _, rfl, int_holds rfl (.inl rfl), int_holds rfl (.inr (.inl rfl)), int_holds rfl (.inl rfl)⟩⟩

theorem T_bound (a : ℚ) (h : a = 0 ∨ a = 1) : |(a : Q64)| ≤ ((2 : ℚ) : Q64) := by
  have : |a| ≤ 2 := by rcases h with rfl | rfl <;> norm_num
  exact this

theorem T_bounds : (∀ i, |T0 i| ≤ ((2 : ℚ) : Q64)) ∧ (∀ i, |T1 i| ≤ ((2 : ℚ) : Q64)) ∧ ∀ i, |T2 i| ≤ ((2 : ℚ) : Q64) := by
  refine ⟨?_, ?_, ?_⟩ <;> intro i <;> fin_cases i <;> exact T_bound _ (by first | exact .inl rfl | exact .inr rfl)

theorem T_cross : euc ((toR BinQ.real T1 - toR BinQ.real T0) ⨯₃ (toR BinQ.real T2 - toR BinQ.real T0)) = 1 := by
  rw [toR_T0, toR_T1, toR_T2]
  have hN : ((![1, 0, 0] : R3) - 0) ⨯₃ ((![0, 1, 0] : R3) - 0) = ![0, 0, 1] := by rw [cross_apply]; simp
  rw [hN, euc_eq, Fin.sum_univ_three]; simp

theorem T_facets (p : R3) : facetDist (toR BinQ.real T0) (toR BinQ.real T1) (toR BinQ.real T2) 2 p =
    ![-p 2, p 2 - 2, -p 1, (p 0 - 1 + p 1) / √2, -p 0] := by
  rw [toR_T0, toR_T1, toR_T2, facetDist, prism_example.2]
  have e1 : euc ((![1, 0, 0] : R3) - 0) = 1 := by rw [euc_eq, Fin.sum_univ_three]; simp
  have e2 : euc ((![0, 1, 0] : R3) - ![1, 0, 0]) = √2 := by rw [euc_eq, Fin.sum_univ_three]; simp; norm_num
  have e3 : euc ((0 : R3) - ![0, 1, 0]) = 1 := by rw [euc_eq, Fin.sum_univ_three]; simp
  rw [e1, e2, e3]
  ext j; fin_cases j <;> simp [cross_apply, dotProduct, Fin.sum_univ_three]

def two64 : Q64 := (2 : ℚ)
def In1 : Fin 3 → Q64 := ![(1 / 4 : ℚ), (1 / 4 : ℚ), (1 : ℚ)]
def Out1 : Fin 3 → Q64 := ![(1 : ℚ), (1 : ℚ), (1 : ℚ)]

/-- concrete case: the prism over `(0,0,0), (1,0,0), (0,1,0)` of height `2` reports `(1/4, 1/4, 1)` and not `(1, 1, 1)`; the hypotheses
hold with `M = 2`, `κ = 4` -/
example (s : TriPrism Q64) (t t' : Point3 Q64)
    (hs : TriPrism.init (K := Q64) ([.fin (0 : ℚ), .fin (0 : ℚ), .fin (0 : ℚ)] ++ [.fin (1 : ℚ), .fin (0 : ℚ), .fin (0 : ℚ)] ++
      [.fin (0 : ℚ), .fin (1 : ℚ), .fin (0 : ℚ)]) (.fin (2 : ℚ)) = .ok s)
    (ht : Point3.init (K := Q64) [.fin (1 / 4 : ℚ), .fin (1 / 4 : ℚ), .fin (1 : ℚ)] = .ok t)
    (ht' : Point3.init (K := Q64) [.fin (1 : ℚ), .fin (1 : ℚ), .fin (1 : ℚ)] = .ok t') :
    (∃ loc : V3 Q64, loc.Holds In1 ∧ Shape.getIntersect 2 (.triPrism s) (.point t) = .ok (true, some loc) ∧
      Shape.getIntersect 2 (.point t) (.triPrism s) = .ok (true, some loc)) ∧
    (Shape.getIntersect 2 (.triPrism s) (.point t') = .ok (false, none) ∧
      Shape.getIntersect 2 (.point t') (.triPrism s) = .ok (false, none)) := by
  have two : BinQ.real two64 = 2 := Rat.cast_ofNat 2
  have hlo : ((2 : ℚ) ^ (-200 : ℤ) : ℚ) ≤ (2 : ℚ) :=
    (zpow_le_zpow_right₀ (by norm_num) (by norm_num : (-200 : ℤ) ≤ 1)).trans (by norm_num)
  have hhi : (2 : ℚ) ≤ ((2 : ℚ) ^ (200 : ℤ) : ℚ) :=
    (by norm_num : (2 : ℚ) ≤ 2 ^ (1 : ℤ)).trans (zpow_le_zpow_right₀ (by norm_num) (by norm_num : (1 : ℤ) ≤ 200))
  have cond : BinQ.real two64 * BinQ.real two64 ≤
      4 * euc ((toR BinQ.real T1 - toR BinQ.real T0) ⨯₃ (toR BinQ.real T2 - toR BinQ.real T0)) := by
    rw [T_cross, two]; norm_num
  have hq (a : ℚ) (h : a = 1 / 4 ∨ a = 1) : |(a : Q64)| ≤ two64 := by
    have : |a| ≤ 2 := by rcases h with rfl | rfl <;> norm_num [abs_of_pos]
    exact this
  have h14 : (Fl.fin (1 / 4 : ℚ) : Fl Q64).Holds ((1 / 4 : ℚ) : Q64) := ⟨rfl, .inr (by decide +kernel)⟩
  have h1 : (Fl.fin (1 : ℚ) : Fl Q64).Holds ((1 : ℚ) : Q64) := int_holds rfl (.inr (.inl rfl))
  have eIn : toR BinQ.real In1 = ![1 / 4, 1 / 4, 1] := by
    ext i; fin_cases i
    · exact (by norm_num : (((1 / 4 : ℚ) : ℚ) : ℝ) = 1 / 4)
    · exact (by norm_num : (((1 / 4 : ℚ) : ℚ) : ℝ) = 1 / 4)
    · exact Rat.cast_one
  have eOut : toR BinQ.real Out1 = ![1, 1, 1] := by
    ext i; fin_cases i <;> exact Rat.cast_one
  have s2 : √(2 : ℝ) ≤ 2 := by rw [Real.sqrt_le_left (by norm_num)]; norm_num
  have s0 : 0 < √(2 : ℝ) := by positivity
  constructor
  · refine (C78_prismPoint_f64 (h := two64) (M := two64) (P := In1) (κ := 4) T_list.1 T_list.2.1 T_list.2.2 (int_holds rfl (.inr (.inr rfl))) hs
      ⟨_, _, _, rfl, h14, h14, h1⟩ ht T_bounds.1 T_bounds.2.1 T_bounds.2.2 hlo le_rfl hhi cond (by norm_num) (by norm_num) ?_).1 ?_
    · intro i; fin_cases i <;> exact hq _ (by first | exact .inl rfl | exact .inr rfl)
    · rw [two, T_facets, eIn]
      have h4 : (1 / 4 - 1 + 1 / 4) / √2 ≤ (-(1 / 4) : ℝ) := by rw [div_le_iff₀ s0]; linarith
      intro j; fin_cases j
      · show -(1 : ℝ) ≤ _; norm_num
      · show (1 - 2 : ℝ) ≤ _; norm_num
      · show -(1 / 4 : ℝ) ≤ _; norm_num
      · exact h4.trans (by norm_num)
      · show -(1 / 4 : ℝ) ≤ _; norm_num
  · refine (C78_prismPoint_f64 (h := two64) (M := two64) (P := Out1) (κ := 4) T_list.1 T_list.2.1 T_list.2.2 (int_holds rfl (.inr (.inr rfl))) hs
      ⟨_, _, _, rfl, h1, h1, h1⟩ ht' T_bounds.1 T_bounds.2.1 T_bounds.2.2 hlo le_rfl hhi cond (by norm_num) (by norm_num) ?_).2 3 ?_
    · intro i; fin_cases i <;> exact hq _ (.inr rfl)
    · rw [two, T_facets, eOut]
      show _ < (1 - 1 + 1) / √2
      rw [lt_div_iff₀ s0]
      norm_num
      linarith

def eps60 : ℚ := 1 / 2 ^ 60

/-- C78: some margin is unavoidable: over the same triangle the point `(2^-60, 1, 1)` is outside (`x + y > 1`) and is reported, because
`2^-60 - 1` rounds to `-1`. -/
theorem C78_exact_false : ∃ (s : TriPrism Q64) (t : Point3 Q64) (P : Fin 3 → Q64),
    TriPrism.init [0, 0, 0, 1, 0, 0, 0, 1, 0] (.fin 2) = .ok s ∧ Point3.init [.fin (1 / 2 ^ 60), 1, 1] = .ok t ∧
    (⟨#v[.fin (1 / 2 ^ 60), 1, 1]⟩ : V3 Q64).Holds P ∧
    Shape.getIntersect 2 (.triPrism s) (.point t) = .ok (true, some ⟨#v[.fin (1 / 2 ^ 60), 1, 1]⟩) ∧
    toR BinQ.real P ∉ prismPts 0 ![1, 0, 0] ![0, 1, 0] 2 := by
  refine ⟨_, _, ![eps60, (1 : ℚ), (1 : ℚ)], rfl, rfl,
    mk_holds ⟨rfl, .inr (by decide +kernel)⟩ ⟨rfl, .inr (by decide +kernel)⟩ ⟨rfl, .inr (by decide +kernel)⟩, by decide +kernel, ?_⟩
  rw [prism_coords, prism_example.2]
  rintro ⟨α, β, γ, _, _, h, _, _, e⟩
  have e0 : (((1 / 2 ^ 60 : ℚ)) : ℝ) = _ := congrFun e 0
  have e1 : (((1 : ℚ) : ℚ) : ℝ) = _ := congrFun e 1
  simp at e0 e1
  have : (0 : ℝ) < (2 ^ 60)⁻¹ := by positivity
  linarith

end Mazth
