import Verif.Props.FloatGjkLoop

/-!
# Collision query of deeply overlapping spheres in floating point

Two spheres whose centres are at most two fifths of the sum of the radii apart: the GJK query finds the overlap in two turns.
The first two support points are opposite points of the Minkowski difference along the first axis, the third is one far from
both, and the tests on the triangle of the three come out right in spite of rounding. In the other direction there is no such
result: spheres clearly apart may be reported as intersecting (`C91_separated_false`).
-/

set_option linter.unusedSectionVars false
set_option autoImplicit false

namespace Mazth

open Matrix RndErr Gjk Bin

/-! ### the triangle over a diameter, in exact terms -/

theorem triple_dot (a b o : R3) : ((a ⨯₃ b) ⨯₃ b) ⬝ᵥ o = (b ⬝ᵥ o) * (a ⬝ᵥ b) - (a ⬝ᵥ o) * (b ⬝ᵥ b) := by
  simp only [cross_apply, dotProduct, Fin.sum_univ_three, Matrix.cons_val_zero, Matrix.cons_val_one, Matrix.cons_val]
  ring

theorem dot_near {a b e f : R3} {A B δ : ℝ} (ha : euc a ≤ A) (hb : euc b ≤ B) (he : euc e ≤ δ) (hf : euc f ≤ δ) :
    |(a + e) ⬝ᵥ (b + f) - a ⬝ᵥ b| ≤ A * δ + δ * B + δ * δ := by
  have e1 : (a + e) ⬝ᵥ (b + f) - a ⬝ᵥ b = a ⬝ᵥ f + e ⬝ᵥ b + e ⬝ᵥ f := by
    rw [add_dotProduct, dotProduct_add, dotProduct_add]; ring
  have k {x y : R3} {X Y : ℝ} (hx : euc x ≤ X) (hy : euc y ≤ Y) : |x ⬝ᵥ y| ≤ X * Y :=
    (abs_dot_le x y).trans (mul_le_mul hx hy (euc_nonneg _) ((euc_nonneg _).trans hx))
  rw [e1]
  exact (abs_add_three _ _ _).trans (add_le_add (add_le_add (k ha hf) (k he hb)) (k he hf))

theorem tri_arith {x y z w R : ℝ} (k1 : |y| ≤ R ^ 2 / 200) (k2 : 99 / 100 * R ^ 2 ≤ w) (k3 : R ^ 2 * (9 / 100) ≤ z) (k4 : |x| ≤ 3 * R ^ 2) :
    x * y - z * w ≤ -(R ^ 4 / 20) := by
  have h0 : 0 ≤ R ^ 2 := sq_nonneg R
  have p1 : x * y ≤ 3 * R ^ 2 * (R ^ 2 / 200) := by
    refine (le_abs_self _).trans ?_
    rw [abs_mul]
    exact mul_le_mul k4 k1 (abs_nonneg _) (by positivity)
  have p2 : R ^ 2 * (9 / 100) * (99 / 100 * R ^ 2) ≤ z * w := mul_le_mul k3 k2 (by positivity) (le_trans (by positivity) k3)
  have h1 := mul_nonneg h0 h0
  have e4 : R ^ 4 = R ^ 2 * R ^ 2 := by ring
  rw [e4]
  generalize R ^ 2 = t at *
  linarith

/-- Two opposite points `C ± R X` of the circle and a third point `C + R N` not near either see the centre region: if the
origin is within `2/5` of the radius of the centre, it is on the inner side of the edge from the third point to the first, with
room for perturbations. -/
theorem tri_neg {X N C AB AC AO : R3} {R : ℝ} (hX : X ⬝ᵥ X = 1) (hN : N ⬝ᵥ N = 1) (hs : |X ⬝ᵥ N| ≤ 1 / 2) (hR : 0 < R)
    (hC : 5 * euc C ≤ 2 * R) (h1 : euc (AB - R • (X - N)) ≤ R / 1000) (h2 : euc (AC - R • (-X - N)) ≤ R / 1000)
    (h3 : euc (AO - (-C - R • N)) ≤ R / 1000) : ((AC ⨯₃ AB) ⨯₃ AB) ⬝ᵥ AO ≤ -(R ^ 4 / 20) := by
  obtain ⟨a, ha⟩ : ∃ a, a = R • (X - N) := ⟨_, rfl⟩
  obtain ⟨b, hb⟩ : ∃ b, b = R • (-X - N) := ⟨_, rfl⟩
  obtain ⟨o, ho⟩ : ∃ o, o = -C - R • N := ⟨_, rfl⟩
  rw [← ha] at h1
  rw [← hb] at h2
  rw [← ho] at h3
  obtain ⟨e, rfl⟩ : ∃ e, AB = a + e := ⟨AB - a, by abel⟩
  obtain ⟨f, rfl⟩ : ∃ f, AC = b + f := ⟨AC - b, by abel⟩
  obtain ⟨g, rfl⟩ : ∃ g, AO = o + g := ⟨AO - o, by abel⟩
  rw [add_sub_cancel_left] at h1 h2 h3
  have hNX : N ⬝ᵥ X = X ⬝ᵥ N := dotProduct_comm _ _
  obtain ⟨s1, s2⟩ := abs_le.mp hs
  have aa : a ⬝ᵥ a = R ^ 2 * (2 - 2 * (X ⬝ᵥ N)) := by
    rw [ha, smul_dotProduct, dotProduct_smul, sub_dotProduct, dotProduct_sub, dotProduct_sub, hX, hN, hNX, smul_eq_mul, smul_eq_mul]; ring
  have bb : b ⬝ᵥ b = R ^ 2 * (2 + 2 * (X ⬝ᵥ N)) := by
    rw [hb, smul_dotProduct, dotProduct_smul, sub_dotProduct, dotProduct_sub, dotProduct_sub, neg_dotProduct, neg_dotProduct, dotProduct_neg,
      dotProduct_neg, hX, hN, hNX, smul_eq_mul, smul_eq_mul]; ring
  have ba : b ⬝ᵥ a = 0 := by
    rw [hb, ha, smul_dotProduct, dotProduct_smul, sub_dotProduct, dotProduct_sub, dotProduct_sub, neg_dotProduct, neg_dotProduct,
      hX, hN, hNX, smul_eq_mul, smul_eq_mul]; ring
  have nrm {x : R3} (hx : x ⬝ᵥ x ≤ (2 * R) ^ 2) : euc x ≤ 2 * R :=
    abs_le_of_sq_le_sq' (by rw [sq, euc_sq]; exact hx) (by positivity) |>.2
  have R2 : 0 < R ^ 2 := by positivity
  have na : euc a ≤ 2 * R := nrm (by rw [aa]; nlinarith)
  have nb : euc b ≤ 2 * R := nrm (by rw [bb]; nlinarith)
  have nN : euc N = 1 := by
    have := euc_sq N
    rw [hN] at this
    nlinarith [euc_nonneg N]
  have no : euc o ≤ 7 / 5 * R := by
    have h := euc_add_le (-C) (-(R • N))
    have e1 : euc (-C) = euc C := by rw [← neg_one_smul ℝ, euc_smul]; simp
    have e2 : euc (-(R • N)) = R := by rw [← neg_one_smul ℝ, euc_smul, euc_smul, nN, abs_of_pos hR]; simp
    rw [e1, e2, ← sub_eq_add_neg, ← ho] at h
    linarith
  -- the side term
  have bo : R ^ 2 / 10 ≤ b ⬝ᵥ o := by
    obtain ⟨α, hα⟩ : ∃ α, α = euc (X + N) := ⟨_, rfl⟩
    have α2 : α * α = 2 + 2 * (X ⬝ᵥ N) := by
      rw [hα, euc_sq, add_dotProduct, dotProduct_add, dotProduct_add, hX, hN, hNX]; ring
    have α0 : 0 ≤ α := hα ▸ euc_nonneg _
    have α1 : 1 ≤ α := by nlinarith
    have hc := abs_dot_le (X + N) C
    rw [← hα] at hc
    have hc' : α * euc C ≤ α * (2 / 5 * R) := mul_le_mul_of_nonneg_left (by linarith) α0
    have e1 : b ⬝ᵥ o = R * ((X + N) ⬝ᵥ C) + R ^ 2 * (1 + X ⬝ᵥ N) := by
      rw [hb, ho, smul_dotProduct, smul_eq_mul, sub_dotProduct, dotProduct_sub, dotProduct_sub, neg_dotProduct, neg_dotProduct, dotProduct_neg,
        dotProduct_neg, dotProduct_smul, dotProduct_smul, hN, add_dotProduct, smul_eq_mul, smul_eq_mul]; ring
    have hc2 := (abs_le.mp hc).1
    have h5 : -(α * (2 / 5 * R)) ≤ (X + N) ⬝ᵥ C := by linarith
    have h6 := mul_le_mul_of_nonneg_left h5 hR.le
    rw [e1]
    have h7 : R ^ 2 * (1 + X ⬝ᵥ N) = R ^ 2 * (α * α / 2) := by rw [α2]; ring
    have h8 : 0 ≤ R ^ 2 * ((α - 1) * (α / 2 + 1 / 10)) := mul_nonneg R2.le (mul_nonneg (by linarith) (by linarith))
    nlinarith
  rw [triple_dot]
  have k1 := dot_near nb na h2 h1
  have k2 := dot_near na na h1 h1
  have k3 := dot_near nb no h2 h3
  have k4 : |(a + e) ⬝ᵥ (o + g)| ≤ 3 * R ^ 2 := by
    refine (abs_dot_le _ _).trans ?_
    have h5 := (euc_add_le a e).trans (add_le_add na h1)
    have h6 := (euc_add_le o g).trans (add_le_add no h3)
    have := mul_le_mul h5 h6 (euc_nonneg _) ((euc_nonneg _).trans h5)
    nlinarith
  rw [ba, sub_zero] at k1
  have k1' : |(b + f) ⬝ᵥ (a + e)| ≤ R ^ 2 / 200 := k1.trans (by nlinarith)
  have k2' : 99 / 100 * R ^ 2 ≤ (a + e) ⬝ᵥ (a + e) := by
    have := (abs_le.mp k2).1
    rw [aa] at this
    nlinarith
  have k3' : R ^ 2 * (9 / 100) ≤ (b + f) ⬝ᵥ (o + g) := by
    have := (abs_le.mp k3).1
    nlinarith
  generalize (b + f) ⬝ᵥ (a + e) = y at *
  generalize (a + e) ⬝ᵥ (a + e) = w at *
  generalize (b + f) ⬝ᵥ (o + g) = z at *
  generalize (a + e) ⬝ᵥ (o + g) = x at *
  exact tri_arith k1' k2' k3' k4

section generic
variable {K : Type} [Field K] [LinearOrder K] [IsStrictOrderedRing K] [Fmt K] [LawfulFmt K] [RndErr K]

theorem cross_le {A B : Fin 3 → K} {X Y : K} (hA : ∀ i, |A i| ≤ X) (hB : ∀ i, |B i| ≤ Y) (i : Fin 3) : |(A ⨯₃ B) i| ≤ 2 * (X * Y) := by
  have k (i j : Fin 3) : |A i * B j| ≤ X * Y := by
    rw [abs_mul]; exact mul_le_mul (hA i) (hB j) (abs_nonneg _) ((abs_nonneg _).trans (hA i))
  have k2 (i j m n : Fin 3) : |A i * B j - A m * B n| ≤ 2 * (X * Y) := by
    have := abs_sub (A i * B j) (A m * B n)
    linarith [k i j, k m n]
  rw [cross_apply]
  fin_cases i
  · exact k2 1 2 2 1
  · exact k2 2 0 0 2
  · exact k2 0 1 1 0

theorem dot_le3 {A B : Fin 3 → K} {X Y : K} (hA : ∀ i, |A i| ≤ X) (hB : ∀ i, |B i| ≤ Y) : |A ⬝ᵥ B| ≤ 3 * (X * Y) := by
  have k (i : Fin 3) : |A i * B i| ≤ X * Y := by
    rw [abs_mul]; exact mul_le_mul (hA i) (hB i) (abs_nonneg _) ((abs_nonneg _).trans (hA i))
  rw [dotProduct, Fin.sum_univ_three]
  refine (abs_add_three _ _ _).trans ?_
  linarith [k 0, k 1, k 2]

/-- the computed side test of an edge -/
theorem triple_float {a b o : V3 K} {A B O : Fin 3 → K} {X : K} (ha : a.Holds A) (hb : b.Holds B) (ho : o.Holds O) (hA : ∀ i, |A i| ≤ X)
    (hB : ∀ i, |B i| ≤ X) (hO : ∀ i, |O i| ≤ X) (he1 : (eta : K) ≤ 1) (he2 : (eta : K) ≤ u * (X * X)) (he3 : (eta : K) ≤ u * (3 * (X * X) * X))
    (he4 : (eta : K) ≤ u * (X * X * X * X)) (o2 : 3 * (X * X) ≤ omega) (o3 : 3 * (3 * (X * X) * X) ≤ omega)
    (o4 : 4 * (3 * (3 * (X * X) * X) * X + 1) ≤ omega) :
    ∃ c, (V3.dotp (V3.crs (V3.crs a b) b) o).Is c ∧ |c - ((A ⨯₃ B) ⨯₃ B) ⬝ᵥ O| ≤ 256 * (u * (X * X * X * X)) := by
  have hu := u_pos (K := K)
  have hX : 0 ≤ X := (abs_nonneg _).trans (hA 0)
  obtain ⟨C, hC, bC, eC⟩ := cross_float ha hb hA hB he2 o2
  obtain ⟨N, hN, bN, eN⟩ := cross_float hC hb bC hB he3 o3
  obtain ⟨c, hc⟩ := dotp_range hN ho bN hO he1 o4
  refine ⟨c, hc, ?_⟩
  have h1 := dotp_err hN ho bN hc
  have n1 : norm1 O ≤ 3 * X := by
    unfold norm1; linarith [hO 0, hO 1, hO 2]
  have d1 (i : Fin 3) : |N i - ((A ⨯₃ B) ⨯₃ B) i| ≤ 40 * (u * (X * X * X)) := by
    have e1 : N i - ((A ⨯₃ B) ⨯₃ B) i = (N i - (C ⨯₃ B) i) + ((C - A ⨯₃ B) ⨯₃ B) i := by
      rw [LinearMap.map_sub, LinearMap.sub_apply, Pi.sub_apply]; ring
    have e2 := cross_le (A := C - A ⨯₃ B) (B := B) (X := 8 * (u * (X * X))) (Y := X) eC hB i
    rw [e1]
    refine (abs_add_le _ _).trans ?_
    have := eN i
    linarith
  have h2 := dot_le3 (A := N - (A ⨯₃ B) ⨯₃ B) (B := O) d1 hO
  rw [sub_dotProduct] at h2
  have h3 : c - ((A ⨯₃ B) ⨯₃ B) ⬝ᵥ O = (c - N ⬝ᵥ O) + (N ⬝ᵥ O - ((A ⨯₃ B) ⨯₃ B) ⬝ᵥ O) := by ring
  rw [h3]
  refine (abs_add_le _ _).trans ?_
  have h4 : 7 / 2 * u * (3 * (3 * (X * X) * X) * norm1 O) ≤ 7 / 2 * u * (3 * (3 * (X * X) * X) * (3 * X)) := by
    have : 0 ≤ 3 * (3 * (X * X) * X) := by positivity
    exact mul_le_mul_of_nonneg_left (mul_le_mul_of_nonneg_left n1 this) (by positivity)
  have h5 : 0 ≤ u * (X * X * X * X) := by positivity
  have h6 : 7 / 2 * u * (3 * (3 * (X * X) * X) * (3 * X)) = 189 / 2 * (u * (X * X * X * X)) := by ring
  have h7 : 3 * (40 * (u * (X * X * X)) * X) = 120 * (u * (X * X * X * X)) := by ring
  rw [h6] at h4
  rw [h7] at h2
  linarith

end generic

/-- Two spheres in range: centre coordinates and radii are zero or of size between `2^-30` and `M`, `M` between `2^-30` and `2^30`. -/
structure SphBox (c1 c2 : Fin 3 → Q64) (r1 r2 M : Q64) : Prop where
  lo1 : ∀ i, c1 i = 0 ∨ ((2 : ℚ) ^ (-30 : ℤ) : ℚ) ≤ |c1 i|
  lo2 : ∀ i, c2 i = 0 ∨ ((2 : ℚ) ^ (-30 : ℤ) : ℚ) ≤ |c2 i|
  rlo1 : r1 = 0 ∨ ((2 : ℚ) ^ (-30 : ℤ) : ℚ) ≤ |r1|
  rlo2 : r2 = 0 ∨ ((2 : ℚ) ^ (-30 : ℤ) : ℚ) ≤ |r2|
  hi1 : ∀ i, |c1 i| ≤ M
  hi2 : ∀ i, |c2 i| ≤ M
  rhi1 : |r1| ≤ M
  rhi2 : |r2| ≤ M
  le : M ≤ ((2 : ℚ) ^ (30 : ℤ) : ℚ)
  ge : ((2 : ℚ) ^ (-30 : ℤ) : ℚ) ≤ M

variable {c1 c2 : Fin 3 → Q64} {r1 r2 M : Q64} {l1 l2 : List (Fl Q64)} {x1 x2 : Fl Q64} {s t : Sphere Q64}

theorem SphBox.M_lo (H : SphBox c1 c2 r1 r2 M) : pow2 (-30) ≤ M.q := by rw [pow2_eq]; exact H.ge
theorem SphBox.M_hi (H : SphBox c1 c2 r1 r2 M) : M.q ≤ pow2 30 := by rw [pow2_eq]; exact H.le
theorem SphBox.M_nonneg (H : SphBox c1 c2 r1 r2 M) : 0 ≤ M := le_trans (le_of_lt (show (0 : ℚ) < pow2 (-30) from pow2_pos _)) H.M_lo

theorem box_eta (qlo : pow2 (-30) ≤ M.q) : 2 * (1 + M) * eta ≤ u * M := by
  rw [← BinQ.q_le, BinQ.q_mul, BinQ.q_mul, BinQ.q_mul, q_eta, q_u]
  show 2 * (1 + M.q) * pow2 (-1075) ≤ pow2 (-53) * M.q
  have a1 : pow2 (-53) = pow2 1000 * (4 * pow2 (-1055)) := by
    rw [show (4 : ℚ) = pow2 2 by rw [pow2_eq]; norm_num, ← pow2_add, ← pow2_add]; norm_num
  have a2 : pow2 (-1075) ≤ pow2 (-1055) := pow2_le.mpr (by norm_num)
  have a4 : 1 ≤ pow2 1000 * pow2 (-30) := by
    rw [← pow2_add, ← pow2_zero]; exact pow2_le.mpr (by norm_num)
  have a5 : 1 ≤ pow2 1000 := by rw [← pow2_zero]; exact pow2_le.mpr (by norm_num)
  have a6 := pow2_pos (-30)
  have a7 := pow2_pos (-1055)
  rw [a1]
  generalize pow2 1000 = A at *
  generalize pow2 (-1055) = B at *
  have k1 : 1 ≤ A * M.q := a4.trans (mul_le_mul_of_nonneg_left qlo (by linarith))
  have k2 : M.q ≤ A * M.q := le_mul_of_one_le_left (a6.le.trans qlo) a5
  calc 2 * (1 + M.q) * pow2 (-1075) ≤ 2 * (1 + M.q) * B := mul_le_mul_of_nonneg_left a2 (by linarith)
    _ ≤ 2 * (A * M.q + A * M.q) * B := mul_le_mul_of_nonneg_right (by linarith) a7.le
    _ = A * (4 * B) * M.q := by ring

theorem box_omega (qlo : pow2 (-30) ≤ M.q) (qhi : M.q ≤ pow2 30) : 8 * (M + 1) ≤ omega := by
  have := f64_omega (M := M) (by
    have h : M.q ≤ (2 : ℚ) ^ (1000 : ℤ) := by
      rw [← pow2_eq]; exact qhi.trans (pow2_le.mpr (by norm_num))
    exact h)
  have h1 : (8 : Q64) * (M + 1) ≤ 64 * (M + 1) := by
    have : (0 : Q64) ≤ M + 1 := by
      have h2 : (0 : Q64) ≤ M := le_trans (le_of_lt (show (0 : ℚ) < pow2 (-30) from pow2_pos _)) qlo
      exact add_nonneg h2 zero_le_one
    exact mul_le_mul_of_nonneg_right (by norm_num) this
  exact h1.trans this

/-- a value in range is on the grid -/
theorem gr_lo {x : Fl Q64} {c : Q64} (hx : x.Holds c) (h : c = 0 ∨ ((2 : ℚ) ^ (-30 : ℤ) : ℚ) ≤ |c|) : Gr (-83) c.q := by
  rcases pow2_lo h with h | h
  · rw [h, BinQ.q_zero]; exact Gr.zero _
  · exact (Gr.of_rep (p := 53) (emin := -1074) (emax := 1024) (hx.1.wf_rep hx.2) h).mono (by norm_num)

/-- a coordinate across the search direction -/
theorem axis_zero {y1 y2 ρ1 ρ2 n n' : Fl Q64} {a1 a2 b1 b2 P : Q64} (h1 : y1.Holds a1) (h2 : y2.Holds a2) (g1 : ρ1.Holds b1) (g2 : ρ2.Holds b2)
    (hn : n.Holds 0) (hn' : n'.Holds 0) (hP : (y1 + n * ρ1 - (y2 + n' * ρ2)).Is P) : P.q = rndQ 53 (-1074) (a1.q + -a2.q) := by
  obtain ⟨p1, p2, e1, e2⟩ := Fl.sub_finite hP
  obtain ⟨_, z1, hc1, hz1⟩ := Fl.add_finite e1
  obtain rfl := h1.1.kunique hc1
  obtain ⟨_, z2, hc2, hz2⟩ := Fl.add_finite e2
  obtain rfl := h2.1.kunique hc2
  have f1 := Fl.mul_rndQ hn.1 g1.1 hz1
  have f2 := Fl.mul_rndQ hn'.1 g2.1 hz2
  rw [BinQ.q_zero, zero_mul, rndQ_zero] at f1 f2
  have k1 := Fl.add_rndQ h1.1 hz1 e1
  have k2 := Fl.add_rndQ h2.1 hz2 e2
  rw [f1, add_zero, rep_rnd (v := a1.q) (emax := 1024) (h1.1.wf_rep h1.2)] at k1
  rw [f2, add_zero, rep_rnd (v := a2.q) (emax := 1024) (h2.1.wf_rep h2.2)] at k2
  rw [Fl.sub_rndQ e1 e2 hP, k1, k2]

/-- the coordinate along the search direction -/
theorem axis_one {y1 y2 ρ1 ρ2 n n' : Fl Q64} {a1 a2 b1 b2 σ σ' P : Q64} (h1 : y1.Holds a1) (h2 : y2.Holds a2) (g1 : ρ1.Holds b1)
    (g2 : ρ2.Holds b2) (hn : n.Holds σ) (hn' : n'.Holds σ') (k : Gr 0 σ.q) (k' : Gr 0 σ'.q) (i1 : Gr (-83) a1.q) (i2 : Gr (-83) a2.q)
    (j1 : Gr (-83) b1.q) (j2 : Gr (-83) b2.q) (hP : (y1 + n * ρ1 - (y2 + n' * ρ2)).Is P) : Gr (-83) P.q := by
  obtain ⟨p1, p2, e1, e2⟩ := Fl.sub_finite hP
  obtain ⟨_, z1, hc1, hz1⟩ := Fl.add_finite e1
  obtain rfl := h1.1.kunique hc1
  obtain ⟨_, z2, hc2, hz2⟩ := Fl.add_finite e2
  obtain rfl := h2.1.kunique hc2
  have f1 := Gr.fmul hn.1 g1.1 hz1 k j1
  have f2 := Gr.fmul hn'.1 g2.1 hz2 k' j2
  rw [zero_add] at f1 f2
  exact Gr.fsub e1 e2 hP (Gr.fadd h1.1 hz1 e1 i1 f1) (Gr.fadd h2.1 hz2 e2 i2 f2)

theorem gr_sign {τ : Q64} (h : τ = 1 ∨ τ = -1) : Gr 0 τ.q := by
  rcases h with rfl | rfl
  · exact ⟨1, show (1 : ℚ) = ((1 : ℤ) : ℚ) * pow2 0 by rw [pow2_zero]; norm_num⟩
  · exact ⟨-1, show (-1 : ℚ) = ((-1 : ℤ) : ℚ) * pow2 0 by rw [pow2_zero]; norm_num⟩

/-- the unit vector along the first axis, times `σ` -/
def axv (σ : Q64) : Fin 3 → Q64 := ![σ, 0, 0]

section
variable (H : SphBox c1 c2 r1 r2 M) (hl1 : ListIn l1 c1) (hx1 : x1.Holds r1) (hs : Sphere.init l1 x1 = .ok s)
  (hl2 : ListIn l2 c2) (hx2 : x2.Holds r2) (ht : Sphere.init l2 x2 = .ok t)

include H hl1 hx1 hs hl2 hx2 ht

/-- one of the first two support points -/
theorem axis_support {d : V3 Q64} {σ : Q64} (hσ : σ = 1 ∨ σ = -1) (hd : d.Holds (axv σ)) (hd' : (V3.scl d (-1)).Holds (-axv σ))
    (hn : (V3.nrm d).Holds (axv σ)) (hn' : (V3.nrm (V3.scl d (-1))).Holds (axv (-σ))) :
    ∃ p P, support (.sphere s) (.sphere t) d = .ok (some p) ∧ Vec (fun _ => False) (-83) 35 p P ∧ (∀ i, |P i| ≤ 5 * M) ∧
      (∀ i, |(P i).real - ((c1 i).real - (c2 i).real + (r1.real + r2.real) * ((axv σ i).real / euc (toR BinQ.real (axv σ))))| ≤
        40 * (BinQ.real (u : Q64) * M.real)) ∧
      (P 1).q = rndQ 53 (-1074) ((c1 1).q + -(c2 1).q) ∧ (P 2).q = rndQ 53 (-1074) ((c1 2).q + -(c2 2).q) := by
  have hdv : Vec (fun _ => False) (-438) 115 d (axv σ) := by
    refine ⟨hd, fun i => ?_, fun i => ?_, fun _ h => h.elim⟩
    · have h1 : (1 : ℚ) ≤ pow2 115 := by rw [← pow2_zero]; exact pow2_le.mpr (by norm_num)
      have h0 : (0 : ℚ) ≤ pow2 115 := (pow2_pos _).le
      fin_cases i
      · rcases hσ with rfl | rfl
        · exact (show |(1 : ℚ)| ≤ pow2 115 by rw [abs_one]; exact h1)
        · exact (show |(-1 : ℚ)| ≤ pow2 115 by rw [abs_neg, abs_one]; exact h1)
      · exact (show |(0 : ℚ)| ≤ pow2 115 by rw [abs_zero]; exact h0)
      · exact (show |(0 : ℚ)| ≤ pow2 115 by rw [abs_zero]; exact h0)
    · fin_cases i
      · exact (gr_sign hσ).mono (by norm_num)
      · exact Gr.zero _
      · exact Gr.zero _
  have hne : axv σ ≠ 0 := fun h => by
    have := congrFun h 0
    rcases hσ with rfl | rfl
    · exact absurd (show (1 : Q64) = 0 from this) one_ne_zero
    · exact absurd (show (-1 : Q64) = 0 from this) (by norm_num)
  obtain ⟨hr1, hr2, he⟩ := dir_range hdv
  obtain ⟨p, P, ep, hp, efp, hP, hR⟩ := support_float BinQ.real BinQ.real_strictMono hl1 hx1 hs hl2 hx2 ht hd hd' hr1 hr2 hne
    H.hi1 H.hi2 H.rhi1 H.rhi2 he (box_eta H.M_lo) (box_omega H.M_lo H.M_hi)
  obtain ⟨hc1, hρ1⟩ := Sphere.init_facts hl1 hx1 hs
  obtain ⟨hc2, hρ2⟩ := Sphere.init_facts hl2 hx2 ht
  have hval (i : Fin 3) : (s.ori.val[i] + (V3.nrm d).val[i] * s.radius - (t.ori.val[i] + (V3.nrm (V3.scl d (-1))).val[i] * t.radius)).Is (P i) := by
    have := (hp i).1
    rw [efp] at this
    fin_cases i
    · exact this
    · exact this
    · exact this
  have g1 (i : Fin 3) := gr_lo (hc1 i) (H.lo1 i)
  have g2 (i : Fin 3) := gr_lo (hc2 i) (H.lo2 i)
  have e1 := axis_zero (hc1 1) (hc2 1) hρ1 hρ2 (hn 1) (hn' 1) (hval 1)
  have e2 := axis_zero (hc1 2) (hc2 2) hρ1 hρ2 (hn 2) (hn' 2) (hval 2)
  have hσ' : -σ = 1 ∨ -σ = -1 := by
    rcases hσ with rfl | rfl
    · exact .inr rfl
    · exact .inl (neg_neg 1)
  refine ⟨p, P, ep, ⟨hp, fun i => ?_, fun i => ?_, fun _ h => h.elim⟩, hR, hP, e1, e2⟩
  · refine (hR i).trans ?_
    rw [← BinQ.q_le]
    show 5 * M.q ≤ pow2 35
    rw [show (35 : ℤ) = 5 + 30 by norm_num, pow2_add, show pow2 5 = 32 by rw [pow2_eq]; norm_num]
    have := pow2_pos 30
    have := H.M_hi
    linarith
  · fin_cases i
    · exact axis_one (hc1 0) (hc2 0) hρ1 hρ2 (hn 0) (hn' 0) (gr_sign hσ) (gr_sign hσ') (g1 0) (g2 0) (gr_lo hρ1 H.rlo1) (gr_lo hρ2 H.rlo2) (hval 0)
    · show Gr (-83) (P 1).q
      rw [e1]; exact ((g1 1).add (g2 1).neg).rnd
    · show Gr (-83) (P 2).q
      rw [e2]; exact ((g1 2).add (g2 2).neg).rnd

end

theorem sq_up {a d e : ℝ} (h : |d - a| ≤ e) : d ^ 2 ≤ 11 / 10 * a ^ 2 + 11 * e ^ 2 := by
  have h1 : (d - a) ^ 2 ≤ e ^ 2 := sq_le_sq' (by linarith [(abs_le.mp h).1]) (abs_le.mp h).2
  nlinarith [sq_nonneg (a - 10 * (d - a))]

theorem sq_down {a d e : ℝ} (h : |d - a| ≤ e) : 9 / 10 * a ^ 2 - 9 * e ^ 2 ≤ d ^ 2 := by
  have h1 : (d - a) ^ 2 ≤ e ^ 2 := sq_le_sq' (by linarith [(abs_le.mp h).1]) (abs_le.mp h).2
  nlinarith [sq_nonneg (a + 10 * (d - a))]

theorem dir_real {w1 w2 o0 o1 o2 d0 d1 d2 ε : ℝ} (ho : o1 ^ 2 + o2 ^ 2 ≤ 81 / 400 * o0 ^ 2) (h0 : |d0 - (w1 * o2 - w2 * o1)| ≤ ε)
    (h1 : |d1 - w2 * o0| ≤ ε) (h2 : |d2 - -(w1 * o0)| ≤ ε) (hε : 10000 * ε ^ 2 ≤ (w1 ^ 2 + w2 ^ 2) * o0 ^ 2) :
    3 * d0 ^ 2 ≤ d1 ^ 2 + d2 ^ 2 := by
  have k0 := sq_up h0
  have k1 := sq_down h1
  have k2 := sq_down h2
  have c1 : (w1 * o2 - w2 * o1) ^ 2 ≤ (w1 ^ 2 + w2 ^ 2) * (o1 ^ 2 + o2 ^ 2) := by nlinarith [sq_nonneg (w1 * o1 + w2 * o2)]
  have c2 : (w1 ^ 2 + w2 ^ 2) * (o1 ^ 2 + o2 ^ 2) ≤ (w1 ^ 2 + w2 ^ 2) * (81 / 400 * o0 ^ 2) := mul_le_mul_of_nonneg_left ho (by positivity)
  have e1 : (w2 * o0) ^ 2 + (-(w1 * o0)) ^ 2 = (w1 ^ 2 + w2 ^ 2) * o0 ^ 2 := by ring
  have e2 : (w1 ^ 2 + w2 ^ 2) * (81 / 400 * o0 ^ 2) = 81 / 400 * ((w1 ^ 2 + w2 ^ 2) * o0 ^ 2) := by ring
  have : 0 ≤ ε ^ 2 := sq_nonneg _
  generalize (w1 ^ 2 + w2 ^ 2) * o0 ^ 2 = S at *
  linarith

/-- The first search direction off the axis: it is not near the axis. -/
theorem first_normal {p q : V3 Q64} {P Q : Fin 3 → Q64} (hp : Vec (fun _ => False) (-83) 35 p P) (hq : Vec (fun _ => False) (-83) 35 q Q)
    (e1 : P 1 = Q 1) (e2 : P 2 = Q 2) {Y : Q64} (hY : ∀ i, |Q i| ≤ Y) (hY0 : pq (-70) ≤ Y) (hY1 : Y ≤ pq 40) (hQ : 800 * (u * Y) ≤ Q 0)
    (ho : (Q 1).real ^ 2 + (Q 2).real ^ 2 ≤ 81 / 400 * (Q 0).real ^ 2) :
    ∃ D, Vec (fun _ => False) (-438) 115 (V3.crs (V3.crs (V3.sub p q) (V3.scl q (-1))) (V3.scl q (-1))) D ∧
      (D ≠ 0 → 3 * (D 0).real ^ 2 ≤ (D 1).real ^ 2 + (D 2).real ^ 2) := by
  have up {p : V3 Q64} {P : Fin 3 → Q64} (h : Vec (fun _ => False) (-83) 35 p P) : Vec (fun _ => False) (-83) 37 p P :=
    ⟨h.holds, fun i => le_trans (h.le i) (show pq 35 ≤ pq 37 from pow2_le.mpr (by norm_num)), h.gr, h.zero⟩
  obtain ⟨A, hA⟩ := hp.sub hq (by norm_num)
  have hO := up (hq.negate (by norm_num))
  obtain ⟨D, hD⟩ := hA.triple hO hO (by norm_num) (by norm_num)
  refine ⟨D, ⟨hD.holds, fun i => (hD.le i).trans (le_of_eq rfl), fun i => (hD.gr i).mono (by norm_num), hD.zero⟩, fun hne => ?_⟩
  have zA {i : Fin 3} (h : (p.val[i] - q.val[i]).Is (A i)) (e : P i = Q i) : A i = 0 := by
    have := Fl.sub_rndQ (hp.holds i).1 (hq.holds i).1 h
    rw [e, add_neg_cancel, rndQ_zero] at this
    exact BinQ.q_inj this
  have A1 : A 1 = 0 := zA (i := 1) (hA.holds 1).1 e1
  have A2 : A 2 = 0 := zA (i := 2) (hA.holds 2).1 e2
  obtain ⟨n1, n2, n3⟩ := cross_range (a := 37) (b := 37) (by norm_num) (by norm_num)
  obtain ⟨W, hW, bW, -⟩ := cross_float hA.holds hO.holds hA.le hO.le n1 n2
  obtain ⟨g0, z0⟩ := Gr.det2 (hA.holds 1).1 (hO.holds 2).1 (hA.holds 2).1 (hO.holds 1).1 (hW 0).1 (hA.gr 1) (hO.gr 2) (hA.gr 2) (hO.gr 1)
  obtain ⟨g1, z1⟩ := Gr.det2 (hA.holds 2).1 (hO.holds 0).1 (hA.holds 0).1 (hO.holds 2).1 (hW 1).1 (hA.gr 2) (hO.gr 0) (hA.gr 0) (hO.gr 2)
  obtain ⟨g2, z2⟩ := Gr.det2 (hA.holds 0).1 (hO.holds 1).1 (hA.holds 1).1 (hO.holds 0).1 (hW 2).1 (hA.gr 0) (hO.gr 1) (hA.gr 1) (hO.gr 0)
  have W0 : W 0 = 0 := z0 (by rw [A1, zero_mul]) (by rw [A2, zero_mul])
  have hO' := hO.holds
  obtain ⟨-, w0⟩ := Gr.det2 (hW 1).1 (hO' 2).1 (hW 2).1 (hO' 1).1 (hD.holds 0).1 g1 (hO.gr 2) g2 (hO.gr 1)
  obtain ⟨-, w1⟩ := Gr.det2 (hW 2).1 (hO' 0).1 (hW 0).1 (hO' 2).1 (hD.holds 1).1 g2 (hO.gr 0) g0 (hO.gr 2)
  obtain ⟨-, w2⟩ := Gr.det2 (hW 0).1 (hO' 1).1 (hW 1).1 (hO' 0).1 (hD.holds 2).1 g0 (hO.gr 1) g1 (hO.gr 0)
  have hWne : W 1 ≠ 0 ∨ W 2 ≠ 0 := by
    by_contra hc
    rw [not_or, not_not, not_not] at hc
    refine hne (funext fun i => ?_)
    fin_cases i
    · exact w0 (by rw [hc.1, zero_mul]) (by rw [hc.2, zero_mul])
    · exact w1 (by rw [hc.2, zero_mul]) (by rw [W0, zero_mul])
    · exact w2 (by rw [W0, zero_mul]) (by rw [hc.1, zero_mul])
  obtain ⟨X, hX⟩ : ∃ X, X = max |W 1| |W 2| := ⟨_, rfl⟩
  have X1 : |W 1| ≤ X := hX ▸ le_max_left _ _
  have X2 : |W 2| ≤ X := hX ▸ le_max_right _ _
  have Xlo : pow2 (-166) ≤ X.q := by
    rcases hWne with h | h
    · exact (g1.lower.resolve_left fun h' => h (BinQ.q_inj h')).trans X1
    · exact (g2.lower.resolve_left fun h' => h (BinQ.q_inj h')).trans X2
  have Xpos : 0 < X.q := (pow2_pos _).trans_le Xlo
  have Xhi : X.q ≤ pow2 76 := by
    have k (i : Fin 3) : |W i| ≤ pq 76 := (bW i).trans n3
    rw [hX]
    exact max_le (k 1) (k 2)
  have Ypos : 0 < Y.q := (pow2_pos _).trans_le hY0
  have bX (i : Fin 3) : |W i| ≤ X := by
    fin_cases i
    · show |W 0| ≤ X
      rw [W0, abs_zero]; exact Xpos.le
    · exact X1
    · exact X2
  have bO (i : Fin 3) : |(-Q) i| ≤ Y := by rw [Pi.neg_apply, abs_neg]; exact hY i
  obtain ⟨D', hD', -, eD⟩ := cross_float hW hO.holds bX bO
    (by
      rw [← BinQ.q_le, BinQ.q_mul, BinQ.q_mul, q_eta, q_u]
      have h : pow2 (-166) * pow2 (-70) ≤ X.q * Y.q := mul_le_mul Xlo hY0 (pow2_pos _).le Xpos.le
      refine le_trans ?_ (mul_le_mul_of_nonneg_left h (pow2_pos _).le)
      rw [← pow2_add, ← pow2_add]; exact pow2_le.mpr (by norm_num))
    (by
      rw [← BinQ.q_le, q_omega]
      show 3 * (X.q * Y.q) ≤ _
      have h : X.q * Y.q ≤ pow2 76 * pow2 40 := mul_le_mul Xhi hY1 Ypos.le (pow2_pos _).le
      have h2 : pow2 1023 = pow2 2 * pow2 1021 := by rw [← pow2_add]; norm_num
      have h3 : pow2 76 * pow2 40 ≤ pow2 1021 := by rw [← pow2_add]; exact pow2_le.mpr (by norm_num)
      rw [h2, show pow2 2 = 4 by rw [pow2_eq]; norm_num]
      have := pow2_pos 1021
      linarith)
  obtain rfl : D' = D := funext fun i => (hD' i).1.kunique (hD.holds i).1
  have cR (i : Fin 3) : |(D' i).real - BinQ.real ((W ⨯₃ (-Q)) i)| ≤ 8 * (BinQ.real (u : Q64) * (X.real * Y.real)) := by
    have := BinQ.real_strictMono.monotone (eD i)
    rwa [real_abs, map_sub, map_mul, map_mul, map_mul, map_ofNat] at this
  have c0 := cR 0
  have c1 := cR 1
  have c2 := cR 2
  rw [cross_apply] at c0 c1 c2
  simp only [Matrix.cons_val_zero, Matrix.cons_val_one, Matrix.cons_val, Pi.neg_apply, map_sub, map_mul, map_neg, W0, map_zero] at c0 c1 c2
  obtain ⟨hu0, -, -⟩ := phi_u (K := Q64) BinQ.real BinQ.real_strictMono
  have hQr : 800 * (BinQ.real (u : Q64) * Y.real) ≤ (Q 0).real := by
    have := BinQ.real_strictMono.monotone hQ
    rwa [map_mul, map_mul, map_ofNat] at this
  have Yr : 0 < Y.real := by
    have := BinQ.real_strictMono (show (0 : Q64) < Y from Ypos)
    rwa [map_zero] at this
  have hXr : X.real ^ 2 ≤ (W 1).real ^ 2 + (W 2).real ^ 2 := by
    have k {a : Q64} (h : X = |a|) : X.real ^ 2 = a.real ^ 2 := by rw [h, real_abs, sq_abs]
    rcases max_choice |W 1| |W 2| with h | h
    · rw [k (hX.trans h)]; linarith [sq_nonneg (W 2).real]
    · rw [k (hX.trans h)]; linarith [sq_nonneg (W 1).real]
  refine dir_real (w1 := (W 1).real) (w2 := (W 2).real) (o0 := -(Q 0).real) (o1 := -(Q 1).real) (o2 := -(Q 2).real)
    (ε := 8 * (BinQ.real (u : Q64) * (X.real * Y.real))) (by rw [neg_sq, neg_sq, neg_sq]; exact ho) ?_ ?_ ?_ ?_
  · exact c0
  · simpa using c1
  · simpa using c2
  · have h1 : (800 * (BinQ.real (u : Q64) * Y.real)) ^ 2 ≤ (Q 0).real ^ 2 := by
      refine pow_le_pow_left₀ ?_ hQr 2
      exact mul_nonneg (by norm_num) (mul_nonneg hu0.le Yr.le)
    rw [neg_sq]
    calc 10000 * (8 * (BinQ.real (u : Q64) * (X.real * Y.real))) ^ 2 = X.real ^ 2 * (800 * (BinQ.real (u : Q64) * Y.real)) ^ 2 := by ring
      _ ≤ ((W 1).real ^ 2 + (W 2).real ^ 2) * (Q 0).real ^ 2 := mul_le_mul hXr h1 (sq_nonneg _) (by positivity)

theorem four_range {X : Q64} (lo : pow2 (-70) ≤ X.q) (hi : X.q ≤ pow2 42) : (eta : Q64) ≤ 1 ∧ (eta : Q64) ≤ u * (X * X) ∧
    (eta : Q64) ≤ u * (3 * (X * X) * X) ∧ (eta : Q64) ≤ u * (X * X * X * X) ∧ 3 * (X * X) ≤ omega ∧ 3 * (3 * (X * X) * X) ≤ omega ∧
    4 * (3 * (3 * (X * X) * X) * X + 1) ≤ omega := by
  have p0 : 0 < pow2 (-70) := pow2_pos _
  have hX : 0 < X.q := p0.trans_le lo
  have l2 : pow2 (-140) ≤ X.q * X.q := by
    rw [← pow2_prod (show (-70 : ℤ) + -70 = -140 by norm_num)]; exact mul_le_mul lo lo p0.le hX.le
  have l3 : pow2 (-210) ≤ X.q * X.q * X.q := by
    rw [← pow2_prod (show (-140 : ℤ) + -70 = -210 by norm_num)]; exact mul_le_mul l2 lo p0.le (mul_pos hX hX).le
  have l4 : pow2 (-280) ≤ X.q * X.q * X.q * X.q := by
    rw [← pow2_prod (show (-210 : ℤ) + -70 = -280 by norm_num)]; exact mul_le_mul l3 lo p0.le (mul_pos (mul_pos hX hX) hX).le
  have h42 : 0 < pow2 42 := pow2_pos _
  have u2 : X.q * X.q ≤ pow2 84 := by
    rw [← pow2_prod (show (42 : ℤ) + 42 = 84 by norm_num)]; exact mul_le_mul hi hi hX.le h42.le
  have u3 : X.q * X.q * X.q ≤ pow2 126 := by
    rw [← pow2_prod (show (84 : ℤ) + 42 = 126 by norm_num)]; exact mul_le_mul u2 hi hX.le (pow2_pos _).le
  have u4 : X.q * X.q * X.q * X.q ≤ pow2 168 := by
    rw [← pow2_prod (show (126 : ℤ) + 42 = 168 by norm_num)]; exact mul_le_mul u3 hi hX.le (pow2_pos _).le
  have eu {a : ℚ} (h : pow2 (-280) ≤ a) : pow2 (-1075) ≤ pow2 (-53) * a := by
    refine le_trans ?_ (mul_le_mul_of_nonneg_left h (pow2_pos _).le)
    rw [← pow2_add]; exact pow2_le.mpr (by norm_num)
  have big {a : ℚ} (h : a ≤ pow2 168) : 64 * (a + 1) ≤ pow2 1023 := by
    have h1 : pow2 1023 = 128 * pow2 1016 := by
      rw [show (128 : ℚ) = pow2 7 by rw [pow2_eq]; norm_num, ← pow2_add]; norm_num
    have h2 : pow2 168 ≤ pow2 1016 := pow2_le.mpr (by norm_num)
    have h3 : 1 ≤ pow2 1016 := by rw [← pow2_zero]; exact pow2_le.mpr (by norm_num)
    linarith
  have m2 : pow2 (-280) ≤ X.q * X.q := (pow2_le.mpr (by norm_num)).trans l2
  have m3 : pow2 (-280) ≤ X.q * X.q * X.q := (pow2_le.mpr (by norm_num)).trans l3
  have b2 : X.q * X.q ≤ pow2 168 := u2.trans (pow2_le.mpr (by norm_num))
  have b3 : X.q * X.q * X.q ≤ pow2 168 := u3.trans (pow2_le.mpr (by norm_num))
  have q2 : 0 < X.q * X.q := mul_pos hX hX
  have q3 : 0 < X.q * X.q * X.q := mul_pos q2 hX
  have q4 : 0 < X.q * X.q * X.q * X.q := mul_pos q3 hX
  refine ⟨?_, ?_, ?_, ?_, ?_, ?_, ?_⟩ <;> rw [← BinQ.q_le]
  · rw [q_eta]
    show pow2 (-1075) ≤ 1
    rw [← pow2_zero]; exact pow2_le.mpr (by norm_num)
  · rw [q_eta, BinQ.q_mul, q_u]; exact eu m2
  · rw [q_eta, BinQ.q_mul, q_u]
    refine eu (m3.trans ?_)
    show X.q * X.q * X.q ≤ 3 * (X.q * X.q) * X.q
    linarith
  · rw [q_eta, BinQ.q_mul, q_u]; exact eu l4
  · rw [q_omega]
    show 3 * (X.q * X.q) ≤ _
    linarith [big b2]
  · rw [q_omega]
    show 3 * (3 * (X.q * X.q) * X.q) ≤ _
    linarith [big b3]
  · rw [q_omega]
    show 4 * (3 * (3 * (X.q * X.q) * X.q) * X.q + 1) ≤ _
    linarith [big u4]

/-- a triangle test whose exact value is clearly negative does not fire -/
theorem no_fire {a b o : V3 Q64} {A B O : Fin 3 → Q64} {X : Q64} {R : ℝ} (ha : a.Holds A) (hb : b.Holds B) (ho : o.Holds O)
    (hA : ∀ i, |A i| ≤ X) (hB : ∀ i, |B i| ≤ X) (hO : ∀ i, |O i| ≤ X) (lo : pow2 (-70) ≤ X.q) (hi : X.q ≤ pow2 42) (hR : 0 < R)
    (hX : X.real ≤ 6 * R) (h : ((toR BinQ.real A ⨯₃ toR BinQ.real B) ⨯₃ toR BinQ.real B) ⬝ᵥ toR BinQ.real O ≤ -(R ^ 4 / 20)) :
    ¬ Fl.lt 0 (V3.dotp (V3.crs (V3.crs a b) b) o) = true := by
  obtain ⟨a1, a2, a3, a4, a5, a6, a7⟩ := four_range lo hi
  obtain ⟨c, hc, hce⟩ := triple_float ha hb ho hA hB hO a1 a2 a3 a4 a5 a6 a7
  intro hlt
  have hpos : 0 < c := (Fl.Is.klt (show (0 : Fl Q64).Is 0 from rfl) hc).mp hlt
  have hposr : 0 < c.real := by
    have := BinQ.real_strictMono hpos
    rwa [map_zero] at this
  have he := BinQ.real_strictMono.monotone hce
  have hdot : BinQ.real (((A ⨯₃ B) ⨯₃ B) ⬝ᵥ O) = ((toR BinQ.real A ⨯₃ toR BinQ.real B) ⨯₃ toR BinQ.real B) ⬝ᵥ toR BinQ.real O := by
    rw [← toR_cross, ← toR_cross]
    simp only [dotProduct, map_sum, map_mul, toR]
  rw [real_abs, map_sub, map_mul, map_mul, map_mul, map_mul, map_mul, map_ofNat, hdot, real_u] at he
  have X0 : 0 ≤ X.real := by
    have := BinQ.real_strictMono.monotone ((abs_nonneg _).trans (hA 0))
    rwa [map_zero] at this
  have h4 : X.real * X.real * X.real * X.real ≤ (6 * R) ^ 4 := by
    calc X.real * X.real * X.real * X.real = X.real ^ 4 := by ring
      _ ≤ (6 * R) ^ 4 := pow_le_pow_left₀ X0 hX 4
  have h5 : (256 : ℝ) * (2 ^ (-53 : ℤ) * (X.real * X.real * X.real * X.real)) ≤ R ^ 4 / 100 := by
    have e1 : (256 : ℝ) * (2 ^ (-53 : ℤ) * (6 * R) ^ 4) = (256 * 2 ^ (-53 : ℤ) * 1296) * R ^ 4 := by ring
    have e2 : (256 : ℝ) * 2 ^ (-53 : ℤ) * 1296 ≤ 1 / 100 := by norm_num
    have e3 := mul_le_mul_of_nonneg_right e2 (pow_pos hR 4).le
    have e4 : (256 : ℝ) * (2 ^ (-53 : ℤ) * (X.real * X.real * X.real * X.real)) ≤ 256 * (2 ^ (-53 : ℤ) * (6 * R) ^ 4) :=
      mul_le_mul_of_nonneg_left (mul_le_mul_of_nonneg_left h4 (by positivity)) (by norm_num)
    rw [e1] at e4
    linarith
  have h6 := (abs_le.mp he).2.trans h5
  have h7 := pow_pos hR 4
  generalize ((toR BinQ.real A ⨯₃ toR BinQ.real B) ⨯₃ toR BinQ.real B) ⬝ᵥ toR BinQ.real O = w at h h6
  linarith only [h6, h7, h, hposr]

/-- the second support point is close to the axis as seen from the origin -/
theorem axis_cone {C : R3} {R δ q0 q1 q2 : ℝ} (hR : 0 < R) (hC : 5 * euc C ≤ 2 * R) (hδ : 10000 * δ ≤ R) (h0 : |q0 - (C 0 + R)| ≤ δ)
    (h1 : |q1 - C 1| ≤ δ) (h2 : |q2 - C 2| ≤ δ) : q1 ^ 2 + q2 ^ 2 ≤ 81 / 400 * q0 ^ 2 ∧ R / 2 ≤ q0 := by
  have e := euc_sq C
  rw [dotProduct, Fin.sum_univ_three] at e
  have hC2 : 25 * (C 0 * C 0 + C 1 * C 1 + C 2 * C 2) ≤ 4 * R ^ 2 := by
    rw [← e]
    have h := pow_le_pow_left₀ (mul_nonneg (by norm_num) (euc_nonneg C)) hC 2
    calc 25 * (euc C * euc C) = (5 * euc C) ^ 2 := by ring
      _ ≤ (2 * R) ^ 2 := h
      _ = 4 * R ^ 2 := by ring
  have hd0 : 0 ≤ δ := (abs_nonneg _).trans h0
  have hd2 : 10 ^ 8 * δ ^ 2 ≤ R ^ 2 := by
    have h := pow_le_pow_left₀ (mul_nonneg (by norm_num) hd0) hδ 2
    calc 10 ^ 8 * δ ^ 2 = (10000 * δ) ^ 2 := by ring
      _ ≤ R ^ 2 := h
  have sqb {x y : ℝ} (h : |x - y| ≤ δ) : (x - y) ^ 2 ≤ δ ^ 2 := sq_le_sq' (by linarith [(abs_le.mp h).1]) (abs_le.mp h).2
  have s0 := sqb h0
  have s1 := sqb h1
  have s2 := sqb h2
  have k0 : 99 / 100 * (C 0 + R) ^ 2 - 99 * δ ^ 2 ≤ q0 ^ 2 := by nlinarith [sq_nonneg ((C 0 + R) + 100 * (q0 - (C 0 + R)))]
  have k1 : q1 ^ 2 ≤ 101 / 100 * (C 1) ^ 2 + 101 * δ ^ 2 := by nlinarith [sq_nonneg (C 1 - 100 * (q1 - C 1))]
  have k2 : q2 ^ 2 ≤ 101 / 100 * (C 2) ^ 2 + 101 * δ ^ 2 := by nlinarith [sq_nonneg (C 2 - 100 * (q2 - C 2))]
  have hR2 := pow_pos hR 2
  constructor
  · nlinarith [sq_nonneg (C 0 + 1656 / 10000 * R)]
  · have := (abs_le.mp (euc_coord C 0)).1
    have := (abs_le.mp h0).1
    linarith

section
variable (H : SphBox c1 c2 r1 r2 M) (hl1 : ListIn l1 c1) (hx1 : x1.Holds r1) (hs : Sphere.init l1 x1 = .ok s)
  (hl2 : ListIn l2 c2) (hx2 : x2.Holds r2) (ht : Sphere.init l2 x2 = .ok t)

include H hl1 hx1 hs hl2 hx2 ht

/-- one support query -/
theorem box_step {d : V3 Q64} {D : Fin 3 → Q64} (hD : Vec (fun _ => False) (-438) 115 d D) (h0 : D ≠ 0) :
    ∃ p P, support (.sphere s) (.sphere t) d = .ok (some p) ∧ p.Holds P ∧
    (∀ i, |(P i).real - ((c1 i).real - (c2 i).real + (r1.real + r2.real) * ((D i).real / euc (toR BinQ.real D)))| ≤
      40 * (BinQ.real (u : Q64) * M.real)) ∧
    (euc (toR BinQ.real c1 - toR BinQ.real c2) < r1.real + r2.real - 128 * BinQ.real (u : Q64) * M.real → Fl.lt 0 (V3.dotp p d) = true) := by
  obtain ⟨hr1, hr2, he⟩ := dir_range hD
  obtain ⟨p, P, ep, hp, -, hP, hR⟩ := support_float BinQ.real BinQ.real_strictMono hl1 hx1 hs hl2 hx2 ht hD.holds (hD.negate (by norm_num)).holds
    hr1 hr2 h0 H.hi1 H.hi2 H.rhi1 H.rhi2 he (box_eta H.M_lo) (box_omega H.M_lo H.M_hi)
  have qlo := H.M_lo
  refine ⟨p, P, ep, hp, hP, fun hd => ?_⟩
  by_contra hlt
  have p35 (i : Fin 3) : |P i| ≤ pq 35 := by
    refine (hR i).trans ?_
    rw [← BinQ.q_le]
    show 5 * M.q ≤ pow2 35
    rw [show (35 : ℤ) = 5 + 30 by norm_num, pow2_add, show pow2 5 = 32 by rw [pow2_eq]; norm_num]
    have := pow2_pos 30
    have := H.M_hi
    linarith
  obtain ⟨x, hx⟩ := dotp_range hp hD.holds p35 hD.le (le_trans he (by norm_num)) (by
    rw [← BinQ.q_le, q_omega]
    show 4 * (pow2 35 * pow2 115 + 1) ≤ pow2 1023
    have h1 : 1 ≤ pow2 (35 + 115) := by rw [← pow2_zero]; exact pow2_le.mpr (by norm_num)
    have h2 : pow2 1023 = pow2 3 * pow2 1020 := by rw [← pow2_add]; norm_num
    have h3 : pow2 (35 + 115) ≤ pow2 1020 := pow2_le.mpr (by norm_num)
    rw [← pow2_add, h2, show pow2 3 = 8 by rw [pow2_eq]; norm_num]
    linarith)
  have hle : x ≤ 0 := by
    by_contra hc
    exact hlt ((Fl.Is.klt (show (0 : Fl Q64).Is 0 from rfl) hx).mpr (not_le.mp hc))
  refine absurd hd (not_lt.mpr (margin_float BinQ.real BinQ.real_strictMono hp hD.holds h0 H.M_nonneg hP hR ?_ hx hle))
  have hnorm : pow2 (-438) ≤ (norm1 D).q := by
    obtain ⟨j, hj⟩ := Function.ne_iff.mp h0
    have hlow : pow2 (-438) ≤ |(D j).q| := (hD.gr j).lower.resolve_left fun h => hj (BinQ.q_inj h)
    refine hlow.trans ?_
    show |(D j).q| ≤ |(D 0).q| + |(D 1).q| + |(D 2).q|
    have a0 := abs_nonneg (D 0).q
    have a1 := abs_nonneg (D 1).q
    have a2 := abs_nonneg (D 2).q
    fin_cases j
    · show |(D 0).q| ≤ _; linarith
    · show |(D 1).q| ≤ _; linarith
    · show |(D 2).q| ≤ _; linarith
  rw [← BinQ.q_le, BinQ.q_mul, BinQ.q_mul, BinQ.q_mul, q_eta, q_u]
  show 8 * pow2 (-1075) ≤ pow2 (-53) * M.q * (norm1 D).q
  have a1 : 8 * pow2 (-1075) ≤ pow2 (-53) * pow2 (-30) * pow2 (-438) := by
    rw [show (8 : ℚ) = pow2 3 by rw [pow2_eq]; norm_num, ← pow2_add, ← pow2_add, ← pow2_add]; exact pow2_le.mpr (by norm_num)
  refine a1.trans (mul_le_mul (mul_le_mul_of_nonneg_left qlo (pow2_pos _).le) hnorm (pow2_pos _).le ?_)
  exact mul_nonneg (pow2_pos _).le ((pow2_pos _).le.trans qlo)

end

theorem neg_axv (σ : Q64) : -axv σ = axv (-σ) := by
  funext i; fin_cases i
  · rfl
  · exact neg_zero
  · exact neg_zero

theorem toR_axv {σ : Q64} : toR BinQ.real (axv σ) = ![σ.real, 0, 0] := by
  funext i; fin_cases i
  · rfl
  · exact map_zero BinQ.real
  · exact map_zero BinQ.real

theorem euc_axv {σ : Q64} (hσ : σ = 1 ∨ σ = -1) : euc (toR BinQ.real (axv σ)) = 1 := by
  have h : σ.real * σ.real = 1 := by
    rcases hσ with rfl | rfl
    · rw [map_one, one_mul]
    · rw [map_neg, map_one]; norm_num
  rw [toR_axv, euc_eq, Fin.sum_univ_three]
  simp [h]

/-- the first search direction and its opposite, with their computed normalisations -/
theorem axis_dirs : (⟨#v[-1, 0, 0]⟩ : V3 Q64).Holds (axv (-1)) ∧ (V3.scl (⟨#v[-1, 0, 0]⟩ : V3 Q64) (-1)).Holds (axv 1) ∧
    (V3.scl (V3.scl (⟨#v[-1, 0, 0]⟩ : V3 Q64) (-1)) (-1)).Holds (axv (-1)) ∧ (V3.nrm (⟨#v[-1, 0, 0]⟩ : V3 Q64)).Holds (axv (-1)) ∧
    (V3.nrm (V3.scl (⟨#v[-1, 0, 0]⟩ : V3 Q64) (-1))).Holds (axv 1) ∧
    (V3.nrm (V3.scl (V3.scl (⟨#v[-1, 0, 0]⟩ : V3 Q64) (-1)) (-1))).Holds (axv (-1)) := by
  have n0 : V3.nrm (⟨#v[-1, 0, 0]⟩ : V3 Q64) = ⟨#v[-1, 0, 0]⟩ := by decide +kernel
  have n1 : V3.nrm (V3.scl (⟨#v[-1, 0, 0]⟩ : V3 Q64) (-1)) = ⟨#v[1, -0, -0]⟩ := by decide +kernel
  have n2 : V3.nrm (V3.scl (V3.scl (⟨#v[-1, 0, 0]⟩ : V3 Q64) (-1)) (-1)) = ⟨#v[-1, 0, 0]⟩ := by decide +kernel
  have n3 : V3.scl (⟨#v[-1, 0, 0]⟩ : V3 Q64) (-1) = ⟨#v[1, -0, -0]⟩ := by decide +kernel
  have n4 : V3.scl (V3.scl (⟨#v[-1, 0, 0]⟩ : V3 Q64) (-1)) (-1) = ⟨#v[-1, 0, 0]⟩ := by decide +kernel
  have one : (1 : Fl Q64).Holds (1 : Q64) := holds1
  have mone : (-1 : Fl Q64).Holds (-1 : Q64) := ⟨one.1.kneg, one.2.neg⟩
  have zer : (0 : Fl Q64).Holds (0 : Q64) := holdsZ
  have mzer : (-0 : Fl Q64).Holds (0 : Q64) := by
    have : (-0 : Fl Q64).Holds (-0 : Q64) := ⟨zer.1.kneg, zer.2.neg⟩
    rwa [neg_zero] at this
  have a : (⟨#v[-1, 0, 0]⟩ : V3 Q64).Holds (axv (-1)) := mk_holds (k := axv (-1)) mone zer zer
  have b : (⟨#v[1, -0, -0]⟩ : V3 Q64).Holds (axv 1) := mk_holds (k := axv 1) one mzer mzer
  rw [n0, n1, n2, n4, n3]
  exact ⟨a, b, a, a, b, a⟩

/-- a search direction away from the first axis makes an angle of at least 60° with it -/
theorem dir_cos {D : Fin 3 → Q64} (h0 : D ≠ 0) (h : 3 * (D 0).real ^ 2 ≤ (D 1).real ^ 2 + (D 2).real ^ 2) :
    ∃ N : R3, (∀ i, N i = (D i).real / euc (toR BinQ.real D)) ∧ N ⬝ᵥ N = 1 ∧ |N 0| ≤ 1 / 2 := by
  have hE : 0 < euc (toR BinQ.real D) := by
    refine euc_pos fun hh => h0 ?_
    funext i
    exact BinQ.real_strictMono.injective ((congrFun hh i).trans (map_zero _).symm)
  have e := euc_sq (toR BinQ.real D)
  rw [dotProduct, Fin.sum_univ_three] at e
  simp only [toR] at e
  obtain ⟨E, hEe⟩ : ∃ E, E = euc (toR BinQ.real D) := ⟨_, rfl⟩
  have e' : E * E = (D 0).real * (D 0).real + (D 1).real * (D 1).real + (D 2).real * (D 2).real := hEe ▸ e
  rw [← hEe] at hE ⊢
  refine ⟨fun i => (D i).real / E, fun i => rfl, ?_, ?_⟩
  · rw [dotProduct, Fin.sum_univ_three]
    field_simp
    linarith
  · show |(D 0).real / E| ≤ 1 / 2
    rw [abs_div, abs_of_pos hE, div_le_iff₀ hE]
    refine abs_le_of_sq_le_sq ?_ (by positivity)
    nlinarith

/-- the opposite vector -/
theorem scl_neg {p : V3 Q64} {P : Fin 3 → Q64} (hp : p.Holds P) (hb : ∀ i, |P i| ≤ pq 1000) : (V3.scl p (-1)).Holds (-P) := by
  have h1 : (-1 : Fl Q64).Is (-1 : Q64) := (show (1 : Fl Q64).Is 1 from rfl).kneg
  have key (i : Fin 3) : (p.val[i] * -1).Holds (-P i) := by
    obtain ⟨c, hc⟩ := Fl.mul_fin (hp i).1 h1 (by
      rw [mul_neg_one, abs_neg]
      refine (hb i).trans ?_
      rw [← BinQ.q_le, q_omega]
      rw [q_pq]; exact pow2_le.mpr (by norm_num))
    have e1 := Fl.mul_rndQ (hp i).1 h1 hc
    have e2 : (P i).q * (-1 : Q64).q = -(P i).q := mul_neg_one (P i).q
    rw [e2, rndQ_neg, rep_rnd (v := (P i).q) (emax := 1024) ((hp i).1.wf_rep (hp i).2)] at e1
    have e3 : c = -P i := BinQ.q_inj e1
    rw [← e3]
    exact ⟨hc, Fl.wf_mul _ _⟩
  exact mk_holds (k := -P) (key 0) (key 1) (key 2)

/-- vectors whose coordinates are near -/
theorem euc_near {a b : R3} {δ B : ℝ} (hδ : 0 ≤ δ) (h : ∀ i, |a i - b i| ≤ δ) (hB : 2 * δ ≤ B) : euc (a - b) ≤ B :=
  (euc_le_two hδ fun i => h i).trans hB

/-- the last turn: neither triangle test fires -/
theorem deep_triangle {p q z : V3 Q64} {P Q Z : Fin 3 → Q64} {C N : R3} {R δ : ℝ} {Y : Q64} (hp : p.Holds P) (hq : q.Holds Q) (hz : z.Holds Z)
    (hP : ∀ i, |(P i).real - (C i + R * ![-1, 0, 0] i)| ≤ δ) (hQ : ∀ i, |(Q i).real - (C i + R * ![1, 0, 0] i)| ≤ δ)
    (hZ : ∀ i, |(Z i).real - (C i + R * N i)| ≤ δ) (hN : N ⬝ᵥ N = 1) (hN0 : |N 0| ≤ 1 / 2) (hR : 0 < R) (hδ : 10000 * δ ≤ R)
    (hC : 5 * euc C ≤ 2 * R) (hY : Y.real = 2 * R) (lo : pow2 (-60) ≤ Y.q) (hi : Y.q ≤ pow2 40) :
    ¬ Fl.lt 0 (V3.dotp (V3.crs (V3.crs (V3.sub p z) (V3.sub q z)) (V3.sub q z)) (V3.scl z (-1))) = true ∧
    ¬ Fl.lt 0 (V3.dotp (V3.crs (V3.crs (V3.sub q z) (V3.sub p z)) (V3.sub p z)) (V3.scl z (-1))) = true := by
  have hd0 : 0 ≤ δ := (abs_nonneg _).trans (hP 0)
  have hCi (i : Fin 3) : |C i| ≤ 2 / 5 * R := (euc_coord C i).trans (by linarith)
  have hNi (i : Fin 3) : |N i| ≤ 1 := by
    refine (euc_coord N i).trans ?_
    have := euc_sq N
    rw [hN] at this
    nlinarith [euc_nonneg N]
  have bd {v : Fin 3 → Q64} {w : R3} (h : ∀ i, |(v i).real - (C i + R * w i)| ≤ δ) (hw : ∀ i, |w i| ≤ 1) (i : Fin 3) : |v i| ≤ Y := by
    have h1 : |R * w i| ≤ R := by
      rw [abs_mul, abs_of_pos hR]
      exact mul_le_of_le_one_right hR.le (hw i)
    have h2 := abs_le.mp (h i)
    have h3 := abs_le.mp (hCi i)
    have h4 := abs_le.mp h1
    have h5 : |(v i).real| ≤ Y.real := by
      rw [hY, abs_le]
      constructor <;> linarith [h2.1, h2.2, h3.1, h3.2, h4.1, h4.2]
    rw [← real_abs] at h5
    exact BinQ.real_strictMono.le_iff_le.mp h5
  have bP := bd hP (fun i => by fin_cases i <;> simp)
  have bQ := bd hQ (fun i => by fin_cases i <;> simp)
  have bZ := bd hZ hNi
  have ho : 2 * Y ≤ (omega : Q64) := by
    rw [← BinQ.q_le, q_omega]
    show 2 * Y.q ≤ _
    have h1 : pow2 1023 = 2 * pow2 1022 := pow2_half (by norm_num)
    have h2 : pow2 40 ≤ pow2 1022 := pow2_le.mpr (by norm_num)
    linarith
  have hz' := scl_neg hz fun i => (bZ i).trans (show Y ≤ pq 1000 from hi.trans (pow2_le.mpr (by norm_num)))
  obtain ⟨A, hA, bA, eA⟩ := sub_float hp hz bP bZ ho
  obtain ⟨B, hB, bB, eB⟩ := sub_float hq hz bQ bZ ho
  obtain ⟨X, hX⟩ : ∃ X : Q64, X = 65 / 32 * Y := ⟨_, rfl⟩
  rw [← hX] at bA bB
  have Ypos : 0 < Y.q := (pow2_pos _).trans_le lo
  have hXq : X.q = 65 / 32 * Y.q := by rw [hX]; rfl
  have bO (i : Fin 3) : |(-Z) i| ≤ X := by
    rw [Pi.neg_apply, abs_neg]
    refine (bZ i).trans ?_
    rw [← BinQ.q_le, hXq]; linarith
  have Xlo : pow2 (-70) ≤ X.q := by
    rw [hXq]
    have : pow2 (-70) ≤ pow2 (-60) := pow2_le.mpr (by norm_num)
    linarith
  have Xhi : X.q ≤ pow2 42 := by
    rw [hXq, show (42 : ℤ) = 2 + 40 by norm_num, pow2_add, show pow2 2 = 4 by rw [pow2_eq]; norm_num]
    linarith
  have Xr : X.real ≤ 6 * R := by
    have : X.real = 65 / 32 * Y.real := by
      rw [hX, map_mul, map_div₀, map_ofNat, map_ofNat]
    rw [this, hY]; linarith
  have er {v w : Fin 3 → Q64} (h : ∀ i, |v i - (w i - Z i)| ≤ 2 * (u * Y)) (i : Fin 3) : |(v i).real - ((w i).real - (Z i).real)| ≤ R / 10000 := by
    have := BinQ.real_strictMono.monotone (h i)
    rw [real_abs, map_sub, map_sub, map_mul, map_mul, map_ofNat, real_u, hY] at this
    refine this.trans ?_
    have e : (2 : ℝ) * (2 ^ (-53 : ℤ) * (2 * R)) = (4 * 2 ^ (-53 : ℤ)) * R := by ring
    rw [e]
    have : (4 : ℝ) * 2 ^ (-53 : ℤ) ≤ 1 / 10000 := by norm_num
    have := mul_le_mul_of_nonneg_right this hR.le
    linarith
  have dif {v w : Fin 3 → Q64} {x : R3} (h1 : ∀ i, |(v i).real - ((w i).real - (Z i).real)| ≤ R / 10000)
      (h2 : ∀ i, |(w i).real - (C i + R * x i)| ≤ δ) : euc (toR BinQ.real v - R • (x - N)) ≤ R / 1000 := by
    refine euc_near (δ := 3 * (R / 10000)) (by positivity) (fun i => ?_) (by linarith)
    show |(v i).real - R * (x i - N i)| ≤ _
    have a1 := abs_le.mp (h1 i)
    have a2 := abs_le.mp (h2 i)
    have a3 := abs_le.mp (hZ i)
    rw [abs_le]
    constructor <;> linarith [a1.1, a1.2, a2.1, a2.2, a3.1, a3.2]
  have dA := dif (er eA) hP
  have dB := dif (er eB) hQ
  have dO : euc (toR BinQ.real (-Z) - (-C - R • N)) ≤ R / 1000 := by
    refine euc_near (δ := δ) hd0 (fun i => ?_) (by linarith)
    show |BinQ.real (-(Z i)) - (-(C i) - R * N i)| ≤ _
    have a3 := abs_le.mp (hZ i)
    rw [map_neg, abs_le]
    constructor <;> linarith [a3.1, a3.2]
  have X1 : (![1, 0, 0] : R3) ⬝ᵥ ![1, 0, 0] = 1 := by simp [dotProduct, Fin.sum_univ_three]
  have X2 : (![-1, 0, 0] : R3) ⬝ᵥ ![-1, 0, 0] = 1 := by simp [dotProduct, Fin.sum_univ_three]
  have ng : (![-1, 0, 0] : R3) = -![1, 0, 0] := by ext i; fin_cases i <;> simp
  have ng' : (![1, 0, 0] : R3) = -![-1, 0, 0] := by ext i; fin_cases i <;> simp
  have s1 : |(![1, 0, 0] : R3) ⬝ᵥ N| ≤ 1 / 2 := by
    rw [show (![1, 0, 0] : R3) ⬝ᵥ N = N 0 by simp [dotProduct, Fin.sum_univ_three]]; exact hN0
  have s2 : |(![-1, 0, 0] : R3) ⬝ᵥ N| ≤ 1 / 2 := by
    rw [show (![-1, 0, 0] : R3) ⬝ᵥ N = -N 0 by simp [dotProduct, Fin.sum_univ_three], abs_neg]; exact hN0
  refine ⟨no_fire hA hB hz' bA bB bO Xlo Xhi hR Xr (tri_neg X1 hN s1 hR hC dB (ng ▸ dA) dO),
    no_fire hB hA hz' bB bA bO Xlo Xhi hR Xr (tri_neg X2 hN s2 hR hC dA (ng' ▸ dB) dO)⟩

/-- C91: in binary64, two spheres whose centres are at most two fifths of the sum of the radii apart are found to intersect, in
two turns (coordinates and radii zero or between `2^-30` and `M ≤ 2^30`, sum of radii at least `2^-30 M`). -/
theorem C91_deep_f64 (H : SphBox c1 c2 r1 r2 M) (hl1 : ListIn l1 c1) (hx1 : x1.Holds r1) (hs : Sphere.init l1 x1 = .ok s)
    (hl2 : ListIn l2 c2) (hx2 : x2.Holds r2) (ht : Sphere.init l2 x2 = .ok t) (hM : M.real ≤ 2 ^ 30 * (r1.real + r2.real))
    (hd : 5 * euc (toR BinQ.real c1 - toR BinQ.real c2) ≤ 2 * (r1.real + r2.real)) (n : ℕ) :
    queryIntersect (n + 2) (.sphere s) (.sphere t) = .ok (some true) := by
  obtain ⟨C, hC⟩ : ∃ C, C = toR BinQ.real c1 - toR BinQ.real c2 := ⟨_, rfl⟩
  obtain ⟨R, hR⟩ : ∃ R, R = r1.real + r2.real := ⟨_, rfl⟩
  obtain ⟨δ, hδ⟩ : ∃ δ, δ = 40 * (BinQ.real (u : Q64) * M.real) := ⟨_, rfl⟩
  have Mpos : 0 < M.real := by
    have := BinQ.real_strictMono (show (0 : Q64) < M from (pow2_pos _).trans_le H.M_lo)
    rwa [map_zero] at this
  rw [← hR] at hM hd
  rw [← hC] at hd
  have Rpos : 0 < R := by nlinarith
  have huM : BinQ.real (u : Q64) * M.real ≤ R / 2 ^ 23 := by
    rw [real_u]
    have h1 : (2 : ℝ) ^ (-53 : ℤ) * M.real ≤ 2 ^ (-53 : ℤ) * (2 ^ 30 * R) := mul_le_mul_of_nonneg_left hM (by positivity)
    refine h1.trans (le_of_eq ?_)
    rw [← mul_assoc]; norm_num; ring
  have δR : 10000 * δ ≤ R := by rw [hδ]; linarith
  have Ci (i : Fin 3) : (c1 i).real - (c2 i).real = C i := by rw [hC]; rfl
  have hov : euc C < R - 128 * BinQ.real (u : Q64) * M.real := by
    rw [mul_assoc]; linarith
  -- the first two support points
  obtain ⟨a0, a1, a2, b0, b1, b2⟩ := axis_dirs
  have e11 : -(-1 : Q64) = 1 := neg_neg 1
  obtain ⟨p, P, ep, hp, -, hP, p1, p2⟩ := axis_support H hl1 hx1 hs hl2 hx2 ht (σ := -1) (.inr rfl) a0 (by rw [neg_axv, e11]; exact a1) b0
    (by rw [e11]; exact b1)
  obtain ⟨q, Q, eq, hq, -, hQ, q1, q2⟩ := axis_support H hl1 hx1 hs hl2 hx2 ht (σ := 1) (.inl rfl) a1 (by rw [neg_axv]; exact a2) b1 b2
  have vax : Vec (fun _ => False) (-438) 115 (V3.scl (⟨#v[-1, 0, 0]⟩ : V3 Q64) (-1)) (axv 1) := by
    have h1 : (1 : ℚ) ≤ pow2 115 := by rw [← pow2_zero]; exact pow2_le.mpr (by norm_num)
    have h0 : (0 : ℚ) ≤ pow2 115 := (pow2_pos _).le
    refine ⟨a1, fun i => ?_, fun i => ?_, fun _ h => h.elim⟩
    · fin_cases i
      · exact (show |(1 : ℚ)| ≤ pow2 115 by rw [abs_one]; exact h1)
      · exact (show |(0 : ℚ)| ≤ pow2 115 by rw [abs_zero]; exact h0)
      · exact (show |(0 : ℚ)| ≤ pow2 115 by rw [abs_zero]; exact h0)
    · fin_cases i
      · exact (gr_sign (.inl rfl)).mono (by norm_num)
      · exact Gr.zero _
      · exact Gr.zero _
  have vne : axv 1 ≠ 0 := fun h => one_ne_zero (show (1 : Q64) = 0 from congrFun h 0)
  obtain ⟨q', -, eq', -, -, hlt⟩ := box_step H hl1 hx1 hs hl2 hx2 ht vax vne
  obtain rfl : q' = q := Option.some.inj (Except.ok.inj (eq'.symm.trans eq))
  have P' (i : Fin 3) : |(P i).real - (C i + R * ![-1, 0, 0] i)| ≤ δ := by
    have := hP i
    rw [euc_axv (.inr rfl), div_one, Ci, ← hR, ← hδ] at this
    have e : (axv (-1) i).real = (![-1, 0, 0] : R3) i := by
      have := congrFun (toR_axv (σ := -1)) i
      rw [map_neg, map_one] at this
      exact this
    rwa [e] at this
  have Q' (i : Fin 3) : |(Q i).real - (C i + R * ![1, 0, 0] i)| ≤ δ := by
    have := hQ i
    rw [euc_axv (.inl rfl), div_one, Ci, ← hR, ← hδ] at this
    have e : (axv 1 i).real = (![1, 0, 0] : R3) i := by
      have := congrFun (toR_axv (σ := 1)) i
      rw [map_one] at this
      exact this
    rwa [e] at this
  -- the first turn
  have hquery : queryIntersect (n + 2) (.sphere s) (.sphere t) = queryLoop (.sphere s) (.sphere t) (n + 2) [p] (V3.scl ⟨#v[-1, 0, 0]⟩ (-1)) := by
    unfold queryIntersect
    show (support (.sphere s) (.sphere t) ⟨#v[-1, 0, 0]⟩ >>= _) = _
    rw [ep]
    simp only [Res.ok_bind, unwrap_some, V3.scale_eq]
  rw [hquery, queryLoop_succ _ _ (n + 1) [p] (by simp) _ q' eq, if_pos (hlt (by rw [← hC, ← hR]; exact hov)), List.singleton_append, contains2]
  split_ifs with hz
  · rfl
  show queryLoop (.sphere s) (.sphere t) (n + 1) [p, q'] _ = _
  -- scale
  obtain ⟨Y, hY⟩ : ∃ Y : Q64, Y = 2 * (r1 + r2) := ⟨_, rfl⟩
  have Yr : Y.real = 2 * R := by rw [hY, map_mul, map_add, map_ofNat, hR]
  have Yq : Y.q = 2 * (r1.q + r2.q) := by rw [hY]; rfl
  have MY : M.q ≤ pow2 30 * (r1.q + r2.q) := by
    rw [hR] at hM
    have h : ((M.q : ℚ) : ℝ) ≤ ((2 ^ 30 * (r1.q + r2.q) : ℚ) : ℝ) := by push_cast; exact hM
    have h2 : M.q ≤ 2 ^ 30 * (r1.q + r2.q) := Rat.cast_le.mp h
    rw [show pow2 30 = 2 ^ 30 by rw [pow2_eq]; norm_num]; exact h2
  have Ylo : pow2 (-60) ≤ Y.q := by
    have h1 : pow2 (-30) ≤ pow2 30 * (r1.q + r2.q) := H.M_lo.trans MY
    have h2 : pow2 (-30) = pow2 30 * pow2 (-60) := by rw [← pow2_add]; norm_num
    have h3 : 0 < pow2 30 := pow2_pos _
    rw [h2] at h1
    have h4 := le_of_mul_le_mul_left h1 h3
    have h5 : 0 < pow2 (-60) := pow2_pos _
    rw [Yq]; linarith only [h4, h5]
  have Yhi : Y.q ≤ pow2 40 := by
    have h1 := (le_abs_self _).trans (show |r1.q| ≤ M.q from H.rhi1)
    have h2 := (le_abs_self _).trans (show |r2.q| ≤ M.q from H.rhi2)
    have h3 := H.M_hi
    have h4 : pow2 40 = 1024 * pow2 30 := by
      rw [show (1024 : ℚ) = pow2 10 by rw [pow2_eq]; norm_num, ← pow2_add]; norm_num
    have h5 : 0 < pow2 30 := pow2_pos _
    rw [Yq, h4]; linarith only [h1, h2, h3, h5]
  have hCi (i : Fin 3) : |C i| ≤ 2 / 5 * R := (euc_coord C i).trans (by linarith)
  have bQ (i : Fin 3) : |Q i| ≤ Y := by
    have h2 := abs_le.mp (Q' i)
    have h3 := abs_le.mp (hCi i)
    have h4 : |(![1, 0, 0] : R3) i| ≤ 1 := by fin_cases i <;> simp
    have h4' : |R * (![1, 0, 0] : R3) i| ≤ R := by
      rw [abs_mul, abs_of_pos Rpos]; exact mul_le_of_le_one_right Rpos.le h4
    have h4'' := abs_le.mp h4'
    have h5 : |(Q i).real| ≤ Y.real := by
      rw [Yr, abs_le]
      constructor <;> linarith [h2.1, h2.2, h3.1, h3.2, h4''.1, h4''.2]
    rw [← real_abs] at h5
    exact BinQ.real_strictMono.le_iff_le.mp h5
  obtain ⟨cone, Q0⟩ := axis_cone Rpos hd δR (q0 := (Q 0).real) (q1 := (Q 1).real) (q2 := (Q 2).real) (by simpa using Q' 0)
    (by simpa using Q' 1) (by simpa using Q' 2)
  obtain ⟨D, hD, hDc⟩ := first_normal hp hq (BinQ.q_inj (p1.trans q1.symm)) (BinQ.q_inj (p2.trans q2.symm)) bQ
    (le_trans (pow2_le.mpr (by norm_num)) Ylo) Yhi (by
      refine BinQ.real_strictMono.le_iff_le.mp ?_
      rw [map_mul, map_mul, map_ofNat, real_u, Yr]
      have e : (800 : ℝ) * (2 ^ (-53 : ℤ) * (2 * R)) = (1600 * 2 ^ (-53 : ℤ)) * R := by ring
      rw [e]
      have : (1600 : ℝ) * 2 ^ (-53 : ℤ) ≤ 1 / 2 := by norm_num
      exact (mul_le_mul_of_nonneg_right this Rpos.le).trans (by linarith only [Q0])) cone
  have D0 := mag_zero hD hz
  obtain ⟨N, hN, hNN, hN0⟩ := dir_cos D0 (hDc D0)
  -- the second turn
  obtain ⟨z, Z, ez, hz1, hZ, hlt2⟩ := box_step H hl1 hx1 hs hl2 hx2 ht hD D0
  have Z' (i : Fin 3) : |(Z i).real - (C i + R * N i)| ≤ δ := by
    have := hZ i
    rwa [Ci, ← hR, ← hδ, ← hN] at this
  obtain ⟨t1, t2⟩ := deep_triangle hp.holds hq.holds hz1 P' Q' Z' hNN hN0 Rpos δR hd Yr Ylo Yhi
  rw [queryLoop_succ _ _ n [p, q'] (by simp) _ z ez, if_pos (hlt2 (by rw [← hC, ← hR]; exact hov)), List.cons_append, List.singleton_append,
    contains3, if_neg t1, if_neg t2]
  rfl

/-- the sphere of the example below: its first centre coordinate, and the radius of the other -/
def c91 : Q64 := (-2758208597260381 / 2251799813685248 : ℚ)
def r91 : Q64 := (1012817567150269 / 4503599627370496 : ℚ)

/-- C91: no such result for the other answer: two spheres clearly apart (the distance of the centres is more than four times the
sum of the radii) are reported as intersecting, in two turns. -/
theorem C91_separated_false : ∃ (a b : Sphere Q64),
    Sphere.init [.fin c91, .fin 5, .fin 3] (.fin 1) = .ok a ∧ Sphere.init [0, 0, 0] (.fin r91) = .ok b ∧
    (4 * (1 + r91)) ^ 2 < (c91 ^ 2 + 5 ^ 2 + 3 ^ 2 : Q64) ∧
    queryIntersect 2 (.sphere a) (.sphere b) = .ok (some true) :=
  ⟨_, _, rfl, rfl, by decide +kernel, by decide +kernel⟩

/-! Concrete case: the spheres of radius 2 about `(0, 1, 0)` and the origin (both first coordinates are zero) -/

theorem box_010 : SphBox D010 Z3 ((2 : ℚ) : Q64) ((2 : ℚ) : Q64) ((2 : ℚ) : Q64) := by
  have lo (a : ℚ) (h : a = 0 ∨ 1 ≤ |a|) : (a : Q64) = 0 ∨ ((2 : ℚ) ^ (-30 : ℤ) : ℚ) ≤ |(a : Q64)| :=
    h.imp id fun h => le_trans (show (2 : ℚ) ^ (-30 : ℤ) ≤ 1 by norm_num) h
  have hi (a : ℚ) (h : |a| ≤ 2) : |(a : Q64)| ≤ ((2 : ℚ) : Q64) := h
  refine ⟨fun i => ?_, fun i => ?_, lo 2 (by norm_num), lo 2 (by norm_num), fun i => ?_, fun i => ?_, hi 2 (by norm_num), hi 2 (by norm_num),
    ?_, ?_⟩
  · fin_cases i
    · exact lo 0 (by norm_num)
    · exact lo 1 (by norm_num)
    · exact lo 0 (by norm_num)
  · fin_cases i <;> exact lo 0 (by norm_num)
  · fin_cases i
    · exact hi 0 (by norm_num)
    · exact hi 1 (by norm_num)
    · exact hi 0 (by norm_num)
  · fin_cases i <;> exact hi 0 (by norm_num)
  · exact (show (2 : ℚ) ≤ 2 ^ (30 : ℤ) by norm_num)
  · exact (show (2 : ℚ) ^ (-30 : ℤ) ≤ 2 by norm_num)

example (n : ℕ) := C91_deep_f64 box_010 lD010 holds2 rfl lZ3 holds2 rfl (by
    have h2 : (BinQ.real : Q64 →+* ℝ) (2 : ℚ) = 2 := by
      show (((2 : ℚ) : ℚ) : ℝ) = 2
      norm_num
    rw [h2]; norm_num) (by
    have h2 : (BinQ.real : Q64 →+* ℝ) (2 : ℚ) = 2 := by
      show (((2 : ℚ) : ℚ) : ℝ) = 2
      norm_num
    rw [h2, toR_D010, toR_Z3, sub_zero, euc_eq, Fin.sum_univ_three]
    simp only [Matrix.cons_val_zero, Matrix.cons_val_one, Matrix.cons_val]
    norm_num) n

end Mazth
