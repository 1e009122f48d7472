import Verif.Props.FloatGjkOrbit

/-! C83: in binary64 the GJK query does not terminate on some disjoint spheres. -/

set_option autoImplicit false
set_option linter.unusedSectionVars false

namespace Mazth

open RndErr Matrix

namespace Gjk

open Bin

/-- the centre of the first sphere; the second is the origin with radius zero -/
def C83 : Fin 3 → Q64 := ![(16778240 : ℚ), (-3 / 1073741824 : ℚ), (-5 / 2147483648 : ℚ)]
/-- its radius, `2^24` -/
def R83 : Q64 := (16777216 : ℚ)
/-- the vertex of the simplex that is never dropped -/
def P83 : Fin 3 → Q64 := ![(1024 : ℚ), (-3 / 1073741824 : ℚ), (-5 / 2147483648 : ℚ)]
def p83 : V3 Q64 := ⟨#v[.fin (1024 : ℚ), .fin (-3 / 1073741824 : ℚ), .fin (-5 / 2147483648 : ℚ)]⟩

theorem real_c83 : toR BinQ.real C83 = ![16778240, -3 / 1073741824, -5 / 2147483648] := by
  ext i
  fin_cases i
  · show ((16778240 : ℚ) : ℝ) = 16778240; norm_num
  · show ((-3 / 1073741824 : ℚ) : ℝ) = -3 / 1073741824; norm_num
  · show ((-5 / 2147483648 : ℚ) : ℝ) = -5 / 2147483648; norm_num
theorem P83_real : toR BinQ.real P83 = ![1024, -3 / 1073741824, -5 / 2147483648] := by
  ext i
  fin_cases i
  · show ((1024 : ℚ) : ℝ) = 1024; norm_num
  · show ((-3 / 1073741824 : ℚ) : ℝ) = -3 / 1073741824; norm_num
  · show ((-5 / 2147483648 : ℚ) : ℝ) = -5 / 2147483648; norm_num
theorem R83_real : R83.real = 2 ^ 24 := by
  show ((16777216 : ℚ) : ℝ) = _; norm_num

theorem c83_ne (i : Fin 3) : C83 i ≠ 0 := by
  fin_cases i <;> decide +kernel

/-- the arguments of `Sphere::init` -/
def l83 : List (Fl Q64) := [.fin (16778240 : ℚ), .fin (-3 / 1073741824 : ℚ), .fin (-5 / 2147483648 : ℚ)]
def x83 : Fl Q64 := .fin (16777216 : ℚ)

theorem hC83 : ListIn l83 C83 :=
  ⟨_, _, _, rfl, ⟨rfl, .inr (by decide +kernel)⟩, ⟨rfl, .inr (by decide +kernel)⟩, ⟨rfl, .inr (by decide +kernel)⟩⟩
theorem hR83 : x83.Holds R83 := ⟨rfl, .inr (by decide +kernel)⟩

theorem pair_83 : SphPair C83 Z3 R83 ((0 : ℚ) : Q64) (pq 25) := by
  have p25 : pq 25 = ((33554432 : ℚ) : Q64) := BinQ.q_inj (by rw [q_pq, pow2_eq]; show _ = (33554432 : ℚ); norm_num)
  have lo : ((2 : ℚ) ^ (-30 : ℤ) : ℚ) = 1 / 1073741824 := by norm_num
  rw [p25]
  refine ⟨fun i => .inr ?_, fun i => .inl ?_, .inr ?_, .inl rfl, fun i => ?_, fun i => ?_, ?_, ?_, ?_, .inl (c83_ne 0)⟩
  · rw [lo]
    fin_cases i
    · show (1 / 1073741824 : ℚ) ≤ |(16778240 : ℚ)|; norm_num [abs_div]
    · show (1 / 1073741824 : ℚ) ≤ |(-3 / 1073741824 : ℚ)|; norm_num [abs_div]
    · show (1 / 1073741824 : ℚ) ≤ |(-5 / 2147483648 : ℚ)|; norm_num [abs_div]
  · fin_cases i <;> rfl
  · rw [lo]; show (1 / 1073741824 : ℚ) ≤ |(16777216 : ℚ)|; norm_num
  · fin_cases i
    · show |(16778240 : ℚ)| ≤ (33554432 : ℚ); norm_num [abs_div]
    · show |(-3 / 1073741824 : ℚ)| ≤ (33554432 : ℚ); norm_num [abs_div]
    · show |(-5 / 2147483648 : ℚ)| ≤ (33554432 : ℚ); norm_num [abs_div]
  · fin_cases i <;> (show |(0 : ℚ)| ≤ (33554432 : ℚ)) <;> norm_num
  · show |(16777216 : ℚ)| ≤ (33554432 : ℚ); norm_num
  · show |(0 : ℚ)| ≤ (33554432 : ℚ); norm_num
  · show (33554432 : ℚ) ≤ (2 : ℚ) ^ (30 : ℤ); norm_num

/-- the edge from the retained vertex to `B`, divided by the radius -/
noncomputable def edge (B : Fin 3 → Q64) : R3 := fun i => ((B i).real - (P83 i).real) / 2 ^ 24

/-- The states of the infinite run: the simplex is the retained vertex and `b`, the direction is `d`. -/
def Orb (b d : V3 Q64) : Prop := ∃ B D, Vec (fun i => C83 i = 0 ∧ Z3 i = 0) (-146) 35 b B ∧
  Vec (fun i => C83 i = 0 ∧ Z3 i = 0) (-438) 115 d D ∧ (∀ i, |D i| ≤ pq 88) ∧ 2 ^ 72 ≤ euc (toR BinQ.real D) ∧
  (∀ i, |edge B i| ≤ 3) ∧ |edge B ⬝ᵥ edge B - 2 * edge B 0| ≤ 1 / 1000000 ∧ |edge B 0 - 2 / 3| ≤ 1 / 20 + 1 / 1000000 ∧
  |(D 0).real / euc (toR BinQ.real D) + 1 / 3| ≤ 1 / 20 ∧ |toR BinQ.real D ⬝ᵥ edge B| ≤ 1 / 2000000 * euc (toR BinQ.real D)

theorem vec_p83 : Vec (fun i => C83 i = 0 ∧ Z3 i = 0) (-146) 35 p83 P83 := by
  have h : p83.Holds P83 := mk_holds (k := P83) ⟨rfl, .inr (by decide +kernel)⟩ ⟨rfl, .inr (by decide +kernel)⟩ ⟨rfl, .inr (by decide +kernel)⟩
  refine ⟨h, fun i => le_pq ?_, fun i => ?_, fun i hi => absurd hi.1 (c83_ne i)⟩
  · have := congrFun P83_real i
    have e : (P83 i).real = toR BinQ.real P83 i := rfl
    rw [e, this]
    fin_cases i
    · show |(1024 : ℝ)| ≤ _; norm_num
    · show |(-3 / 1073741824 : ℝ)| ≤ _; norm_num [abs_div]
    · show |(-5 / 2147483648 : ℝ)| ≤ _; norm_num [abs_div]
  · have : Gr (-31) (P83 i).q := by
      fin_cases i
      · exact ⟨1024 * 2 ^ 31, by show (1024 : ℚ) = _; rw [pow2_eq]; norm_num⟩
      · exact ⟨-6, by show (-3 / 1073741824 : ℚ) = _; rw [pow2_eq]; norm_num⟩
      · exact ⟨-5, by show (-5 / 2147483648 : ℚ) = _; rw [pow2_eq]; norm_num⟩
    exact this.mono (by norm_num)

/-- the computed tests and the next state, from the real estimates -/
theorem edge_eq (B X : Fin 3 → Q64) : toR BinQ.real B - toR BinQ.real X = (2 ^ 24 : ℝ) • (edge B - edge X) ∧
    toR BinQ.real P83 - toR BinQ.real X = (-(2 ^ 24) : ℝ) • edge X := by
  constructor <;> funext i
  · show (B i).real - (X i).real = 2 ^ 24 * (((B i).real - (P83 i).real) / 2 ^ 24 - ((X i).real - (P83 i).real) / 2 ^ 24)
    ring
  · show (P83 i).real - (X i).real = -(2 ^ 24) * (((X i).real - (P83 i).real) / 2 ^ 24)
    ring

theorem P83_small (i : Fin 3) : |toR BinQ.real P83 i| ≤ 1024 := by
  rw [P83_real]
  fin_cases i
  · show |(1024 : ℝ)| ≤ _; norm_num
  · show |(-3 / 1073741824 : ℝ)| ≤ _; norm_num [abs_div]
  · show |(-5 / 2147483648 : ℝ)| ≤ _; norm_num [abs_div]

theorem edge_bound {B : Fin 3 → Q64} (h : ∀ i, |edge B i| ≤ 3) (i : Fin 3) : |B i| ≤ pq 26 := by
  refine le_pq ?_
  have h1 := abs_le.mp (h i)
  have h2 := abs_le.mp (P83_small i)
  have e : (B i).real = 2 ^ 24 * edge B i + toR BinQ.real P83 i := by
    show _ = 2 ^ 24 * (((B i).real - (P83 i).real) / 2 ^ 24) + (P83 i).real
    ring
  rw [e, abs_le]
  norm_num
  constructor <;> linarith [h1.1, h1.2, h2.1, h2.2]

theorem toR_neg (X : Fin 3 → Q64) : toR BinQ.real (-X) = -toR BinQ.real X := by funext i; exact map_neg BinQ.real _

theorem toR_edge (X : Fin 3 → Q64) : toR BinQ.real X = toR BinQ.real P83 + (2 ^ 24 : ℝ) • edge X := by
  funext i
  show (X i).real = (P83 i).real + 2 ^ 24 * (((X i).real - (P83 i).real) / 2 ^ 24)
  ring

section step
variable {s t : Sphere Q64} (hs : Sphere.init l83 x83 = .ok s) (ht : Sphere.init [0, 0, 0] 0 = .ok t)
include hs ht

theorem orb_step {b d : V3 Q64} (h : Orb b d) : ∃ x, support (.sphere s) (.sphere t) d = .ok (some x) ∧ Fl.lt 0 (V3.dotp x d) = true ∧
    Fl.lt 0 (V3.dotp (V3.crs (V3.crs (V3.sub p83 x) (V3.sub b x)) (V3.sub b x)) (V3.scl x (-1))) ≠ true ∧
    Fl.lt 0 (V3.dotp (V3.crs (V3.crs (V3.sub b x) (V3.sub p83 x)) (V3.sub p83 x)) (V3.scl x (-1))) = true ∧
    Orb x (V3.crs (V3.crs (V3.sub b x) (V3.sub p83 x)) (V3.sub p83 x)) := by
  obtain ⟨B, D, hB, hD, bD, lD, bB, hbb, hb0, hn0, hnb⟩ := h
  have hEpos : 0 < euc (toR BinQ.real D) := lt_of_lt_of_le (by norm_num) lD
  have h0 : D ≠ 0 := by
    rintro rfl
    have : toR BinQ.real (0 : Fin 3 → Q64) = 0 := by funext i; exact map_zero BinQ.real
    rw [this, (euc_eq_zero _).mpr rfl] at hEpos
    exact lt_irrefl _ hEpos
  obtain ⟨x, X, ex, hX, eX, -, -⟩ := gjk_support pair_83 hC83 hR83 hs lZ3 holdsZ ht hD h0
  set n : R3 := fun i => (D i).real / euc (toR BinQ.real D) with hn
  set A := edge X with hA
  set β := edge B with hβ
  have nn : n ⬝ᵥ n = 1 := by
    have := euc_sq (toR BinQ.real D)
    rw [dot3] at this ⊢
    rw [hn]
    field_simp
    have h' : euc (toR BinQ.real D) * euc (toR BinQ.real D) = (D 0).real * (D 0).real + (D 1).real * (D 1).real + (D 2).real * (D 2).real := this
    linear_combination -h'
  have hnβ : |n ⬝ᵥ β| ≤ 1 / 2000000 := by
    have e : n ⬝ᵥ β = (toR BinQ.real D ⬝ᵥ β) / euc (toR BinQ.real D) := by
      rw [dot3, dot3, hn]
      show (D 0).real / _ * _ + (D 1).real / _ * _ + (D 2).real / _ * _ = ((D 0).real * _ + (D 1).real * _ + (D 2).real * _) / _
      field_simp
    rw [e, abs_div, abs_of_pos hEpos, div_le_iff₀ hEpos]
    exact hnb
  have he (i : Fin 3) : |A i - (![1, 0, 0] : R3) i - n i| ≤ 1 / 100000000 := by
    have := eX i
    have e0 : (Z3 i).real = 0 := congrFun toR_Z3 i
    have ec : (C83 i).real = (P83 i).real + 2 ^ 24 * (![1, 0, 0] : R3) i := by
      have h1 := congrFun real_c83 i
      have h2 := congrFun P83_real i
      have e1 : (C83 i).real = toR BinQ.real C83 i := rfl
      have e2 : (P83 i).real = toR BinQ.real P83 i := rfl
      rw [e1, e2, h1, h2]
      fin_cases i
      · show (16778240 : ℝ) = 1024 + 2 ^ 24 * 1; norm_num
      · show (-3 / 1073741824 : ℝ) = -3 / 1073741824 + 2 ^ 24 * 0; norm_num
      · show (-5 / 2147483648 : ℝ) = -5 / 2147483648 + 2 ^ 24 * 0; norm_num
    have er : BinQ.real ((0 : ℚ) : Q64) = 0 := map_zero (BinQ.real : Q64 →+* ℝ)
    rw [e0, ec, R83_real, er, ru, real_pq] at this
    have e : A i - (![1, 0, 0] : R3) i - n i = ((X i).real - ((P83 i).real + 2 ^ 24 * (![1, 0, 0] : R3) i - 0 +
        (2 ^ 24 + 0) * ((D i).real / euc (toR BinQ.real D)))) / 2 ^ 24 := by
      show ((X i).real - (P83 i).real) / 2 ^ 24 - _ - (D i).real / euc (toR BinQ.real D) = _
      ring
    rw [e, abs_div, div_le_iff₀ (by positivity)]
    refine this.trans ?_
    rw [← zpow_add₀ (by norm_num : (2 : ℝ) ≠ 0)]; norm_num
  obtain ⟨hAA, hA0, hAb, hA1, hAn⟩ := edge_real (A := A) (e := fun i => A i - (![1, 0, 0] : R3) i - n i) (fun i => by ring) he nn hn0 hnβ
    (fun i => (bB i).trans (by norm_num))
  have bX3 (i : Fin 3) : |edge X i| ≤ 3 := (hA1 i).trans (by norm_num)
  have bX := edge_bound bX3
  have bB' := edge_bound bB
  have hXn := hX.negate (by norm_num)
  have bXn (i : Fin 3) : |(-X) i| ≤ pq 26 := by rw [Pi.neg_apply, abs_neg]; exact bX i
  have bP (i : Fin 3) : |P83 i| ≤ pq 26 := le_pq ((P83_small i).trans (by norm_num))
  obtain ⟨F, hF, bF, eF⟩ := triple_real vec_p83.holds hB.holds hX.holds bP bB' bX
  obtain ⟨G, hG, bG, eG⟩ := triple_real hB.holds vec_p83.holds hX.holds bB' bP bX
  obtain ⟨e1, e2⟩ := edge_eq B X
  rw [e1, e2] at eF eG
  have bXr (i : Fin 3) : |toR BinQ.real X i| ≤ 2 ^ 26 := by
    have := real_le (bX i); norm_num at this ⊢; exact this
  have hG' (i : Fin 3) : |((fun i => (G i).real / 2 ^ 72) : R3) i - ((A ⬝ᵥ β) • A - (A ⬝ᵥ A) • β) i| ≤ 1 / 100000000 := by
    have := eG i
    rw [cross_id, Pi.smul_apply, smul_eq_mul] at this
    have e : (G i).real / 2 ^ 72 - ((A ⬝ᵥ β) • A - (A ⬝ᵥ A) • β) i =
        ((G i).real - (2 ^ 24) ^ 3 * ((A ⬝ᵥ β) • A - (A ⬝ᵥ A) • β) i) / 2 ^ 72 := by ring
    show |(G i).real / 2 ^ 72 - _| ≤ _
    rw [e, abs_div, div_le_iff₀ (by positivity)]
    exact this.trans (by norm_num)
  obtain ⟨g0, g1, g2, g3, g4, g5⟩ := turn_real hbb hb0 hAA hA0 hAb hA1 (fun i => (bB i).trans (by norm_num)) hG'
  set g : R3 := fun i => (G i).real / 2 ^ 72 with hg
  replace g0 : g 0 < -1 / 3 := g0
  replace g2 : |g 0 / euc g + 1 / 3| ≤ 1 / 20 := g2
  replace g5 : ∀ i, |g i| ≤ 16 := g5
  have eg : toR BinQ.real G = (2 ^ 72 : ℝ) • g := by
    funext i; show (G i).real = 2 ^ 72 * ((G i).real / 2 ^ 72); ring
  have eucG : euc (toR BinQ.real G) = 2 ^ 72 * euc g := by
    rw [eg, euc_smul, abs_of_pos (by positivity)]
  refine ⟨x, ex, ?_, ?_, ?_, ?_⟩
  · obtain ⟨y, hy, ey⟩ := dot_real hX.holds hD.holds bX bD (by norm_num) (by norm_num)
    refine (Fl.Is.klt (show (0 : Fl Q64).Is 0 from rfl) hy).mpr ?_
    rw [← BinQ.real_strictMono.lt_iff_lt, map_zero]
    have eδ : toR BinQ.real D = euc (toR BinQ.real D) • n := by
      funext i
      show (D i).real = euc (toR BinQ.real D) * ((D i).real / euc (toR BinQ.real D))
      field_simp
    have n1 (i : Fin 3) : |toR BinQ.real D i| ≤ euc (toR BinQ.real D) := euc_coord _ i
    have k1 : A ⬝ᵥ toR BinQ.real D = euc (toR BinQ.real D) * (A ⬝ᵥ n) := by
      conv_lhs => rw [eδ]
      rw [dotProduct_smul, smul_eq_mul]
    have k2 := abs_le.mp (dot3_le P83_small n1)
    have k3 : toR BinQ.real X ⬝ᵥ toR BinQ.real D = toR BinQ.real P83 ⬝ᵥ toR BinQ.real D + 2 ^ 24 * (A ⬝ᵥ toR BinQ.real D) := by
      rw [toR_edge X, add_dotProduct, smul_dotProduct, smul_eq_mul]
    have k4 := mul_le_mul_of_nonneg_left hAn hEpos.le
    rw [← k1] at k4
    have k5 := abs_le.mp ey
    norm_num at k5
    linarith [k5.1, k2.1]
  · obtain ⟨y, hy, ey⟩ := dot_real hF hXn.holds bF bXn (by norm_num) (by norm_num)
    intro hlt
    have hlt := (Fl.Is.klt (show (0 : Fl Q64).Is 0 from rfl) hy).mp hlt
    rw [← BinQ.real_strictMono.lt_iff_lt, map_zero] at hlt
    set F0 : R3 := (((-(2 ^ 24) : ℝ) • A) ⨯₃ ((2 ^ 24 : ℝ) • (β - A))) ⨯₃ ((2 ^ 24 : ℝ) • (β - A)) with hF0
    have c1 (i : Fin 3) : |((-(2 ^ 24) : ℝ) • A) i| ≤ 3 * 2 ^ 24 := by
      have := abs_le.mp (bX3 i)
      rw [Pi.smul_apply, smul_eq_mul, abs_le]; constructor <;> linarith [this.1, this.2]
    have c2 (i : Fin 3) : |((2 ^ 24 : ℝ) • (β - A)) i| ≤ 6 * 2 ^ 24 := by
      have h1 := abs_le.mp (bX3 i)
      have h2 := abs_le.mp (bB i)
      rw [Pi.smul_apply, smul_eq_mul, Pi.sub_apply, abs_le]; constructor <;> linarith [h1.1, h1.2, h2.1, h2.2]
    have c3 (i : Fin 3) : |F0 i| ≤ _ := cross_bound (cross_bound c1 c2) c2 i
    have c4 := abs_le.mp (dot3_le c3 P83_small)
    have c5 : F0 ⬝ᵥ A = (2 ^ 24) ^ 3 * (A ⬝ᵥ A * (β ⬝ᵥ β) - A ⬝ᵥ β * (A ⬝ᵥ β)) := cross_id2 _ _ _
    have c6 : F0 ⬝ᵥ toR BinQ.real X = F0 ⬝ᵥ toR BinQ.real P83 + 2 ^ 24 * (F0 ⬝ᵥ A) := by
      rw [toR_edge X, dotProduct_add, dotProduct_smul, smul_eq_mul]
    have c7 (i : Fin 3) : |(toR BinQ.real F - F0) i| ≤ 2 ^ 38 := eF i
    have c8 := abs_le.mp (dot3_le c7 bXr)
    have c9 : toR BinQ.real F ⬝ᵥ toR BinQ.real (-X) = -((toR BinQ.real F - F0) ⬝ᵥ toR BinQ.real X) - F0 ⬝ᵥ toR BinQ.real X := by
      rw [toR_neg, dotProduct_neg, sub_dotProduct]; ring
    rw [c9, c6, c5] at ey
    have c10 := abs_le.mp ey
    norm_num at c4 c8 c10
    linarith [c4.1, c8.1, c10.2]
  · obtain ⟨y, hy, ey⟩ := dot_real hG hXn.holds bG bXn (by norm_num) (by norm_num)
    refine (Fl.Is.klt (show (0 : Fl Q64).Is 0 from rfl) hy).mpr ?_
    rw [← BinQ.real_strictMono.lt_iff_lt, map_zero]
    have c9 : toR BinQ.real G ⬝ᵥ toR BinQ.real (-X) = -(2 ^ 72 * (g ⬝ᵥ toR BinQ.real P83 + 2 ^ 24 * (g ⬝ᵥ A))) := by
      rw [toR_neg, dotProduct_neg, eg, smul_dotProduct, smul_eq_mul, toR_edge X, dotProduct_add, dotProduct_smul, smul_eq_mul]
    have c1 : g ⬝ᵥ toR BinQ.real P83 = g 0 * 1024 + g 1 * (-3 / 1073741824) + g 2 * (-5 / 2147483648) := by
      rw [P83_real, dot3]; rfl
    rw [c9, c1] at ey
    have c10 := abs_le.mp ey
    have h1 := abs_le.mp (g5 1)
    have h2 := abs_le.mp (g5 2)
    have h3 := abs_le.mp g3
    norm_num at c10
    linarith [c10.1, h1.1, h1.2, h2.1, h2.2, h3.1, h3.2]
  · have up {p : V3 Q64} {P : Fin 3 → Q64} (h : Vec (fun i => C83 i = 0 ∧ Z3 i = 0) (-146) 35 p P) :
        Vec (fun i => C83 i = 0 ∧ Z3 i = 0) (-146) 37 p P :=
      ⟨h.holds, fun i => le_trans (h.le i) (show pq 35 ≤ pq 37 from pow2_le.mpr (by norm_num)), h.gr, h.zero⟩
    obtain ⟨U, hU⟩ := hB.sub hX (by norm_num)
    obtain ⟨W, hW⟩ := vec_p83.sub hX (by norm_num)
    obtain ⟨G', hG''⟩ := hU.triple hW hW (by norm_num) (by norm_num)
    have eGG : G' = G := by
      funext i; exact (hG''.holds i).1.kunique (hG i).1
    rw [eGG] at hG''
    refine ⟨X, G, hX, hG'', bG, ?_, bX3, hAA, hA0, ?_, ?_⟩
    · rw [eucG]; linarith
    · have e : (G 0).real = 2 ^ 72 * g 0 := congrFun eg 0
      rw [eucG, e, mul_div_mul_left _ _ (by positivity)]
      exact g2
    · rw [eucG, eg, smul_dotProduct, smul_eq_mul, abs_mul, abs_of_pos (by positivity)]
      linarith

theorem orb_loop (n : ℕ) : ∀ b d : V3 Q64, Orb b d → queryLoop (.sphere s) (.sphere t) n [p83, b] d = .error .diverge := by
  induction n with
  | zero => intro b d _; rfl
  | succ n ih =>
    intro b d h
    obtain ⟨x, e, h1, h2, h3, h4⟩ := orb_step hs ht h
    rw [queryLoop_succ _ _ n _ (by simp) d x e, if_pos h1, List.cons_append, List.singleton_append, contains3, if_neg h2, if_pos h3]
    exact ih _ _ h4
end step

/-- one turn of the loop, if it goes on -/
def turn (a b : Shape Q64) (s : List (V3 Q64) × V3 Q64) : Option (List (V3 Q64) × V3 Q64) :=
  if s.1.length ≤ 2 then
    match support a b s.2 with
    | .ok (some x) =>
      if Fl.lt 0 (V3.dotp x s.2) = true then
        match containsMinkowskiOrigin (s.1 ++ [x]) s.2 with
        | .ok (false, l, d) => some (l, d)
        | _ => none
      else none
    | _ => none
  else none

def turns (a b : Shape Q64) : ℕ → List (V3 Q64) × V3 Q64 → Option (List (V3 Q64) × V3 Q64)
  | 0, s => some s
  | k + 1, s => (turn a b s).bind (turns a b k)

theorem turn_loop {a b : Shape Q64} {s s' : List (V3 Q64) × V3 Q64} (h : turn a b s = some s') (n : ℕ) :
    queryLoop a b (n + 1) s.1 s.2 = queryLoop a b n s'.1 s'.2 := by
  unfold turn at h
  split_ifs at h with hl
  split at h
  · rename_i x hx
    split_ifs at h with hp
    split at h
    · rename_i l d hc
      obtain rfl := Option.some.inj h
      rw [queryLoop_succ _ _ n _ hl _ x hx, if_pos hp, hc]
      rfl
    · exact absurd h (by simp)
  · exact absurd h (by simp)

theorem turns_loop {a b : Shape Q64} : ∀ (k : ℕ) {s s' : List (V3 Q64) × V3 Q64}, turns a b k s = some s' →
    (∀ n, queryLoop a b n s'.1 s'.2 = .error .diverge) → ∀ n, queryLoop a b n s.1 s.2 = .error .diverge := by
  intro k
  induction k with
  | zero => intro s s' h; obtain rfl := Option.some.inj h; exact id
  | succ k ih =>
    intro s s' h hd n
    obtain ⟨m, hm, h⟩ := Option.bind_eq_some_iff.mp h
    cases n with
    | zero => rfl
    | succ n => rw [turn_loop hm]; exact ih h hd n

/-- the state after fourteen turns -/
def b83 : V3 Q64 := ⟨#v[.fin (2815325948094305 / 268435456 : ℚ), .fin (4174481544156605 / 268435456 : ℚ), .fin (4487861072129709 / 17179869184 : ℚ)]⟩
def d83 : V3 Q64 := ⟨#v[.fin (-1677577739701348728832 : ℚ), .fin (1217438847958767894528 : ℚ), .fin (-5129698763031311286272 : ℚ)]⟩

theorem run_83 : ∃ s t, Sphere.init l83 x83 = .ok s ∧ Sphere.init [0, 0, 0] 0 = .ok t ∧
    support (.sphere s) (.sphere t) ⟨#v[-1, 0, 0]⟩ = .ok (some p83) ∧
    turns (.sphere s) (.sphere t) 14 ([p83], V3.scl ⟨#v[-1, 0, 0]⟩ (-1)) = some ([p83, b83], d83) :=
  ⟨_, _, rfl, rfl, by decide +kernel, by decide +kernel⟩

def B83 : Fin 3 → Q64 := ![(2815325948094305 / 268435456 : ℚ), (4174481544156605 / 268435456 : ℚ), (4487861072129709 / 17179869184 : ℚ)]
def D83 : Fin 3 → Q64 := ![(-1677577739701348728832 : ℚ), (1217438847958767894528 : ℚ), (-5129698763031311286272 : ℚ)]

theorem B83_real : toR BinQ.real B83 = ![2815325948094305 / 268435456, 4174481544156605 / 268435456, 4487861072129709 / 17179869184] := by
  ext i
  fin_cases i
  · show ((2815325948094305 / 268435456 : ℚ) : ℝ) = 2815325948094305 / 268435456; norm_num
  · show ((4174481544156605 / 268435456 : ℚ) : ℝ) = 4174481544156605 / 268435456; norm_num
  · show ((4487861072129709 / 17179869184 : ℚ) : ℝ) = 4487861072129709 / 17179869184; norm_num
theorem D83_real : toR BinQ.real D83 = ![-1677577739701348728832, 1217438847958767894528, -5129698763031311286272] := by
  ext i
  fin_cases i
  · show ((-1677577739701348728832 : ℚ) : ℝ) = -1677577739701348728832; norm_num
  · show ((1217438847958767894528 : ℚ) : ℝ) = 1217438847958767894528; norm_num
  · show ((-5129698763031311286272 : ℚ) : ℝ) = -5129698763031311286272; norm_num

theorem edge_83 : edge B83 = ![2815051070187361 / 4503599627370496, 16697926176626423 / 18014398509481984, 4487861072129749 / 288230376151711744] := by
  funext i
  have e1 := congrFun B83_real i
  have e2 := congrFun P83_real i
  show (toR BinQ.real B83 i - toR BinQ.real P83 i) / 2 ^ 24 = _
  rw [e1, e2]
  fin_cases i
  · show (2815325948094305 / 268435456 - 1024) / 2 ^ 24 = (2815051070187361 / 4503599627370496 : ℝ); norm_num
  · show (4174481544156605 / 268435456 - -3 / 1073741824) / 2 ^ 24 = (16697926176626423 / 18014398509481984 : ℝ); norm_num
  · show (4487861072129709 / 17179869184 - -5 / 2147483648) / 2 ^ 24 = (4487861072129749 / 288230376151711744 : ℝ); norm_num

theorem euc_83 : 5532651608469995033775 ≤ euc (toR BinQ.real D83) ∧ euc (toR BinQ.real D83) ≤ 5532651608469995033776 := by
  have h := euc_sq (toR BinQ.real D83)
  have h0 := euc_nonneg (toR BinQ.real D83)
  rw [dot3, D83_real] at h
  have h' : euc (![-1677577739701348728832, 1217438847958767894528, -5129698763031311286272] : R3) * euc (![-1677577739701348728832, 1217438847958767894528, -5129698763031311286272] : R3) =
    (-1677577739701348728832) * (-1677577739701348728832) + 1217438847958767894528 * 1217438847958767894528 + (-5129698763031311286272) * (-5129698763031311286272) := h
  rw [D83_real] at h0 ⊢
  constructor <;> nlinarith

theorem orb_83 : Orb b83 d83 := by
  have hB : b83.Holds B83 := mk_holds (k := B83) ⟨rfl, .inr (by decide +kernel)⟩ ⟨rfl, .inr (by decide +kernel)⟩ ⟨rfl, .inr (by decide +kernel)⟩
  have hD : d83.Holds D83 := mk_holds (k := D83) ⟨rfl, .inr (by decide +kernel)⟩ ⟨rfl, .inr (by decide +kernel)⟩ ⟨rfl, .inr (by decide +kernel)⟩
  have bB (i : Fin 3) : |(B83 i).real| ≤ 2 ^ 26 := by
    have e : (B83 i).real = toR BinQ.real B83 i := rfl
    rw [e, B83_real]
    fin_cases i
    · show |(2815325948094305 / 268435456 : ℝ)| ≤ _; norm_num [abs_div]
    · show |(4174481544156605 / 268435456 : ℝ)| ≤ _; norm_num [abs_div]
    · show |(4487861072129709 / 17179869184 : ℝ)| ≤ _; norm_num [abs_div]
  have bD (i : Fin 3) : |(D83 i).real| ≤ 2 ^ 88 := by
    have e : (D83 i).real = toR BinQ.real D83 i := rfl
    rw [e, D83_real]
    fin_cases i
    · show |(-1677577739701348728832 : ℝ)| ≤ _; norm_num
    · show |(1217438847958767894528 : ℝ)| ≤ _; norm_num
    · show |(-5129698763031311286272 : ℝ)| ≤ _; norm_num
  have gB (i : Fin 3) : Gr (-34) (B83 i).q := by
    fin_cases i
    · exact ⟨180180860678035520, by show (2815325948094305 / 268435456 : ℚ) = _; rw [pow2_eq]; norm_num⟩
    · exact ⟨267166818826022720, by show (4174481544156605 / 268435456 : ℚ) = _; rw [pow2_eq]; norm_num⟩
    · exact ⟨4487861072129709, by show (4487861072129709 / 17179869184 : ℚ) = _; rw [pow2_eq]; norm_num⟩
  have gD (i : Fin 3) : Gr 0 (D83 i).q := by
    fin_cases i
    · exact ⟨-1677577739701348728832, by show (-1677577739701348728832 : ℚ) = _; rw [pow2_zero]; norm_num⟩
    · exact ⟨1217438847958767894528, by show (1217438847958767894528 : ℚ) = _; rw [pow2_zero]; norm_num⟩
    · exact ⟨-5129698763031311286272, by show (-5129698763031311286272 : ℚ) = _; rw [pow2_zero]; norm_num⟩
  obtain ⟨l, h⟩ := euc_83
  have pos : 0 < euc (toR BinQ.real D83) := by linarith
  have e0 : (D83 0).real = -1677577739701348728832 := congrFun D83_real 0
  refine ⟨B83, D83, ⟨hB, fun i => le_pq ((bB i).trans (by norm_num)), fun i => (gB i).mono (by norm_num), fun i hi => absurd hi.1 (c83_ne i)⟩,
    ⟨hD, fun i => le_pq ((bD i).trans (by norm_num)), fun i => (gD i).mono (by norm_num), fun i hi => absurd hi.1 (c83_ne i)⟩,
    fun i => le_pq ((bD i).trans (by norm_num)), ?_, fun i => ?_, ?_, ?_, ?_, ?_⟩
  · linarith
  · rw [edge_83]
    fin_cases i
    · show |(2815051070187361 / 4503599627370496 : ℝ)| ≤ 3; norm_num [abs_div]
    · show |(16697926176626423 / 18014398509481984 : ℝ)| ≤ 3; norm_num [abs_div]
    · show |(4487861072129749 / 288230376151711744 : ℝ)| ≤ 3; norm_num [abs_div]
  · rw [edge_83, dot3, abs_le]
    simp only [cons_val_zero, cons_val_one, cons_val]
    norm_num
  · rw [edge_83, abs_le]
    simp only [cons_val_zero]
    norm_num
  · rw [e0, abs_le]
    have k : (-1677577739701348728832 : ℝ) / euc (toR BinQ.real D83) * euc (toR BinQ.real D83) = -1677577739701348728832 := div_mul_cancel₀ _ pos.ne'
    constructor
    · rw [neg_le_iff_add_nonneg, add_assoc, ← sub_neg_eq_add, sub_nonneg, le_div_iff₀ pos]; linarith
    · rw [← le_sub_iff_add_le, div_le_iff₀ pos]; linarith
  · rw [edge_83, D83_real, dot3]
    simp only [cons_val_zero, cons_val_one, cons_val]
    rw [D83_real] at l
    rw [abs_le]
    constructor <;> linarith

end Gjk

open Gjk Bin

/-- The GJK query on two disjoint spheres need not end: for a sphere of radius `2^24` and the point sphere at the origin, `1024` or more
apart, the loop goes on for every number of turns. The inputs are in the range of C82. -/
theorem C83_terminates_false : ∃ s t : Sphere Q64, Sphere.init l83 x83 = .ok s ∧ Sphere.init [0, 0, 0] 0 = .ok t ∧
    SphPair C83 Z3 R83 ((0 : ℚ) : Q64) (pq 25) ∧ R83.real + 1024 ≤ euc (toR BinQ.real C83 - toR BinQ.real Z3) ∧
    ∀ n, queryIntersect n (.sphere s) (.sphere t) = .error .diverge := by
  obtain ⟨s, t, hs, ht, h1, h2⟩ := run_83
  refine ⟨s, t, hs, ht, pair_83, ?_, fun n => ?_⟩
  · rw [toR_Z3, sub_zero, R83_real]
    refine le_trans ?_ (le_trans (le_abs_self _) (euc_coord _ 0))
    rw [real_c83]
    show (2 ^ 24 + 1024 : ℝ) ≤ 16778240
    norm_num
  · have hq : queryIntersect n (.sphere s) (.sphere t) = queryLoop (.sphere s) (.sphere t) n [p83] (V3.scl ⟨#v[-1, 0, 0]⟩ (-1)) := by
      unfold queryIntersect
      show (support (.sphere s) (.sphere t) ⟨#v[-1, 0, 0]⟩ >>= _) = _
      rw [h1]
      simp only [Res.ok_bind, unwrap_some, V3.scale_eq]
    rw [hq]
    exact turns_loop 14 h2 (fun n => orb_loop hs ht n b83 d83 orb_83) n

/-- in exact arithmetic the same query ends with the answer that the spheres are disjoint -/
theorem C83_exact (s t : Sphere ℝ) (hs : s.Made (toR BinQ.real C83) R83.real) (ht : t.Made (toR BinQ.real Z3) 0) :
    ∃ n, ∀ k, n ≤ k → queryIntersect k (.sphere s) (.sphere t) = .ok (some false) := by
  refine (C52_terminates s t _ _ _ _ hs ht ?_ ?_).2 ?_
  · rw [R83_real]; norm_num
  · rw [toR_Z3, real_c83]
    rintro ⟨h, -⟩
    have : (-3 / 1073741824 : ℝ) = 0 := h
    norm_num at this
  · rw [toR_Z3, sub_zero, R83_real, add_zero]
    refine lt_of_lt_of_le ?_ (le_trans (le_abs_self _) (euc_coord _ 0))
    rw [real_c83]
    show (2 ^ 24 : ℝ) < 16778240
    norm_num

/-- concrete case: these spheres exist -/
example := C83_exact _ _ (mkSphere_made (toR BinQ.real C83) R83.real 0) (mkSphere_made (toR BinQ.real Z3) 0 0)

theorem rndQ_mono {v w : ℚ} (h : v ≤ w) : rndQ 53 (-1074) v ≤ rndQ 53 (-1074) w := by
  rcases lt_trichotomy v 0 with hv | rfl | hv
  · rcases le_or_gt 0 w with hw | hw
    · have h1 := rndQ_nonneg (p := 53) (emin := -1074) (neg_nonneg.mpr hv.le)
      rw [rndQ_neg] at h1
      exact (neg_nonneg.mp h1).trans (rndQ_nonneg hw)
    · have h1 := rndQ_mono_pos (p := 53) (emin := -1074) (by norm_num) (neg_pos.mpr hw) (neg_le_neg h)
      rw [rndQ_neg, rndQ_neg] at h1
      exact neg_le_neg_iff.mp h1
  · rw [rndQ_zero]; exact rndQ_nonneg h
  · exact rndQ_mono_pos (by norm_num) hv h

section left
variable {c1 c2 : Fin 3 → Q64} {r1 r2 M : Q64} {l1 l2 : List (Fl Q64)} {x1 x2 : Fl Q64} {s t : Sphere Q64}

/-- What remains of termination: if a plane across the first axis separates the spheres in the order first, second, the query ends
after one turn with the right answer, however small the gap. Missing: every other pair of disjoint spheres, see
`C83_terminates_false`. -/
theorem C83_left_partial (H : SphPair c1 c2 r1 r2 M) (hl1 : ListIn l1 c1) (hx1 : x1.Holds r1) (hs : Sphere.init l1 x1 = .ok s)
    (hl2 : ListIn l2 c2) (hx2 : x2.Holds r2) (ht : Sphere.init l2 x2 = .ok t) (h : c1 0 + r1 ≤ c2 0 - r2) (n : ℕ) :
    queryIntersect (n + 1) (.sphere s) (.sphere t) = .ok (some false) := by
  have hd := first_dir H hl1 hx1 hs hl2 hx2 ht
  obtain ⟨x, e, hx, -⟩ := gjk_step H hl1 hx1 hs hl2 hx2 ht hd
  have hq : queryIntersect (n + 1) (.sphere s) (.sphere t) = queryLoop (.sphere s) (.sphere t) (n + 1) [x] (V3.scl ⟨#v[-1, 0, 0]⟩ (-1)) := by
    unfold queryIntersect
    show (support (.sphere s) (.sphere t) ⟨#v[-1, 0, 0]⟩ >>= _) = _
    rw [e]
    simp only [Res.ok_bind, unwrap_some, V3.scale_eq]
  obtain ⟨D, hD, h0⟩ := hd
  obtain ⟨p, P, ep, hp, -, -, efp⟩ := gjk_support H hl1 hx1 hs hl2 hx2 ht (hD.negate (by norm_num)) (neg_ne_zero.mpr h0)
  rw [hq, queryLoop_succ _ _ n [x] (by simp) _ p ep, if_neg]
  obtain ⟨hc1, hρ1⟩ := Sphere.init_facts hl1 hx1 hs
  obtain ⟨hc2, hρ2⟩ := Sphere.init_facts hl2 hx2 ht
  have n1 : V3.nrm (V3.scl (⟨#v[-1, 0, 0]⟩ : V3 Q64) (-1)) = ⟨#v[1, -0, -0]⟩ := by decide +kernel
  have n2 : V3.nrm (V3.scl (V3.scl (⟨#v[-1, 0, 0]⟩ : V3 Q64) (-1)) (-1)) = ⟨#v[-1, 0, 0]⟩ := by decide +kernel
  have n3 : V3.scl (⟨#v[-1, 0, 0]⟩ : V3 Q64) (-1) = ⟨#v[1, -0, -0]⟩ := by decide +kernel
  have one : (1 : Fl Q64).Is (1 : Q64) := rfl
  have mone : (-1 : Fl Q64).Is (-1 : Q64) := one.kneg
  have zero : (-0 : Fl Q64).Is (0 : Q64) := by
    have := (show (0 : Fl Q64).Is (0 : Q64) from rfl).kneg
    rwa [neg_zero] at this
  have hP0 : (s.ori.val[0] + (1 : Fl Q64) * s.radius - (t.ori.val[0] + (-1 : Fl Q64) * t.radius)).Is (P 0) := by
    have := (hp.holds 0).1
    rw [efp, n1, n2] at this
    exact this
  have key : P 0 ≤ 0 := by
    obtain ⟨a, b, ha, hb⟩ := Fl.sub_finite hP0
    obtain ⟨_, a', ha1, ha2⟩ := Fl.add_finite ha
    obtain ⟨_, b', hb1, hb2⟩ := Fl.add_finite hb
    obtain rfl := (hc1 0).1.kunique ha1
    obtain rfl := (hc2 0).1.kunique hb1
    have e1 := Fl.mul_rndQ one hρ1.1 ha2
    have e2 := Fl.mul_rndQ mone hρ2.1 hb2
    have e3 := Fl.add_rndQ (hc1 0).1 ha2 ha
    have e4 := Fl.add_rndQ (hc2 0).1 hb2 hb
    have e5 := Fl.sub_rndQ ha hb hP0
    rw [show (1 : Q64).q * r1.q = r1.q from one_mul r1.q, rep_rnd (v := r1.q) (emax := 1024) (hρ1.1.wf_rep hρ1.2)] at e1
    rw [show (-1 : Q64).q * r2.q = -r2.q from neg_one_mul r2.q, rndQ_neg, rep_rnd (v := r2.q) (emax := 1024) (hρ2.1.wf_rep hρ2.2)] at e2
    rw [e1] at e3
    rw [e2] at e4
    have h' : (c1 0).q + r1.q ≤ (c2 0).q + -r2.q := by rw [← sub_eq_add_neg]; exact h
    have h1 := rndQ_mono h'
    rw [← e3, ← e4] at h1
    have h2 := rndQ_mono (show a.q + -b.q ≤ 0 by linarith)
    rw [rndQ_zero, ← e5] at h2
    exact h2
  rw [n3]
  intro hlt
  have fin : ∃ y, (V3.dotp p ⟨#v[1, -0, -0]⟩).Is y := by
    have hz : (⟨#v[1, -0, -0]⟩ : V3 Q64).Holds (-D) := by rw [← n3]; exact (hD.negate (by norm_num)).holds
    obtain ⟨y, hy, -⟩ := dot_real hp.holds hz hp.le (hD.negate (by norm_num)).le (by norm_num) (by norm_num)
    exact ⟨y, hy⟩
  obtain ⟨y, hy⟩ := fin
  have hy0 := (Fl.Is.klt (show (0 : Fl Q64).Is 0 from rfl) hy).mp hlt
  obtain ⟨a, b, ha, hb⟩ := Fl.add_finite hy
  obtain ⟨a0, a1, ha0, ha1⟩ := Fl.add_finite ha
  have e0 := Fl.mul_rndQ (hp.holds 0).1 one ha0
  have e1 := Fl.mul_rndQ (hp.holds 1).1 zero ha1
  have e2 := Fl.mul_rndQ (hp.holds 2).1 zero hb
  have e3 := Fl.add_rndQ ha0 ha1 ha
  have e4 := Fl.add_rndQ ha hb hy
  rw [show (P 0).q * (1 : Q64).q = (P 0).q from mul_one _, rep_rnd (v := (P 0).q) (emax := 1024) ((hp.holds 0).1.wf_rep (hp.holds 0).2)] at e0
  rw [BinQ.q_zero, mul_zero, rndQ_zero] at e1 e2
  rw [e1, add_zero] at e3
  rw [e2, add_zero] at e4
  have h1 := rndQ_mono (show a0.q ≤ 0 by rw [e0]; exact key)
  rw [rndQ_zero, ← e3] at h1
  have h2 := rndQ_mono h1
  rw [rndQ_zero, ← e4] at h2
  exact absurd hy0 (not_lt.mpr h2)

end left

/-- concrete case: the sphere at the origin with radius 2 and the sphere at `(3, 0, 6)` with radius 1 touch the plane `x = 2` from both
sides; C82 has the pair in the other order -/
example : ∃ s t : Sphere Q64, Sphere.init [0, 0, 0] (.fin 2) = .ok s ∧ Sphere.init [.fin 3, 0, .fin 6] 1 = .ok t ∧
    ∀ n, queryIntersect (n + 1) (.sphere s) (.sphere t) = .ok (some false) := by
  have H : SphPair Z3 O306 ((2 : ℚ) : Q64) ((1 : ℚ) : Q64) eightQ := by
    refine ⟨fun i => .inl ?_, fun i => ?_, .inr ?_, .inr ?_, Z3_eight, O306_eight, eight_of 2 (by norm_num), eight_of 1 (by norm_num), ?_, .inr ?_⟩
    · fin_cases i <;> rfl
    · exact pair_306.lo1 i
    · show ((2 : ℚ) ^ (-30 : ℤ) : ℚ) ≤ |(2 : ℚ)|; norm_num
    · show ((2 : ℚ) ^ (-30 : ℤ) : ℚ) ≤ |(1 : ℚ)|; norm_num
    · exact pair_306.le
    · exact (pair_306.first.resolve_right (fun h => h rfl))
  exact ⟨_, _, rfl, rfl, fun n => C83_left_partial H lZ3 holds2 rfl lO306 holds1 rfl (show (0 + 2 : ℚ) ≤ 3 - 1 by norm_num) n⟩

end Mazth
