import Verif.Props.RayQueries2

/-!
# Prism-point (C49) and prism-segment (C50) queries, in exact arithmetic
-/

set_option linter.unusedSectionVars false
set_option autoImplicit false

namespace Mazth

open Matrix

/-! ## The solid prism as an intersection of five half spaces -/

/-- coordinates with respect to two edges and their cross product -/
theorem cross_basis (A B P : R3) : ((A ⨯₃ B) ⬝ᵥ (A ⨯₃ B)) • P =
    (P ⬝ᵥ (B ⨯₃ (A ⨯₃ B))) • A + (-(P ⬝ᵥ (A ⨯₃ (A ⨯₃ B)))) • B + (P ⬝ᵥ (A ⨯₃ B)) • (A ⨯₃ B) := by
  ext i
  fin_cases i <;> simp [cross_apply, dotProduct, Fin.sum_univ_three] <;> ring

/-- the five inequalities, with an outward normal of any positive length -/
def InHalves (v0 v1 v2 n p : R3) : Prop :=
  0 ≤ (p - v0) ⬝ᵥ n ∧ (p - v0) ⬝ᵥ n ≤ n ⬝ᵥ n ∧ (p - v0) ⬝ᵥ ((v1 - v0) ⨯₃ n) ≤ 0 ∧ (p - v1) ⬝ᵥ ((v2 - v1) ⨯₃ n) ≤ 0 ∧
    (p - v2) ⬝ᵥ ((v0 - v2) ⨯₃ n) ≤ 0

/-- barycentric form: `p = v0 + α(v1-v0) + β(v2-v0) + γ n` -/
theorem halves_iff {v0 v1 v2 : R3} (hN : (v1 - v0) ⨯₃ (v2 - v0) ≠ 0) {c : ℝ} (hc : 0 < c) (p : R3) :
    InHalves v0 v1 v2 (c • ((v1 - v0) ⨯₃ (v2 - v0))) p ↔
    ∃ α β γ : ℝ, 0 ≤ α ∧ 0 ≤ β ∧ α + β ≤ 1 ∧ 0 ≤ γ ∧ γ ≤ 1 ∧
      p = v0 + α • (v1 - v0) + β • (v2 - v0) + (γ * c) • ((v1 - v0) ⨯₃ (v2 - v0)) := by
  have hb := cross_basis (v1 - v0) (v2 - v0)
  unfold InHalves
  rw [show v2 - v1 = (v2 - v0) - (v1 - v0) by abel, show v0 - v2 = -(v2 - v0) by abel,
    show p - v1 = (p - v0) - (v1 - v0) by abel, show p - v2 = (p - v0) - (v2 - v0) by abel]
  have hp (q : R3) : p = v0 + q ↔ p - v0 = q := by rw [sub_eq_iff_eq_add']
  simp only [add_assoc, hp]
  generalize hA : v1 - v0 = A at *
  generalize hB : v2 - v0 = B at *
  generalize p - v0 = P at *
  have hNN : 0 < (A ⨯₃ B) ⬝ᵥ (A ⨯₃ B) := by
    rw [← euc_sq]; exact mul_pos (euc_pos hN) (euc_pos hN)
  have d1 : A ⬝ᵥ (A ⨯₃ B) = 0 := dot_self_cross A B
  have d2 : B ⬝ᵥ (A ⨯₃ B) = 0 := dot_cross_self A B
  have d3 : A ⬝ᵥ (B ⨯₃ (A ⨯₃ B)) = (A ⨯₃ B) ⬝ᵥ (A ⨯₃ B) := by
    simp [cross_apply, dotProduct, Fin.sum_univ_three]; ring
  have d4 : B ⬝ᵥ (A ⨯₃ (A ⨯₃ B)) = -((A ⨯₃ B) ⬝ᵥ (A ⨯₃ B)) := by
    simp [cross_apply, dotProduct, Fin.sum_univ_three]; ring
  have d5 : A ⬝ᵥ (A ⨯₃ (A ⨯₃ B)) = 0 := dot_self_cross _ _
  have d6 : B ⬝ᵥ (B ⨯₃ (A ⨯₃ B)) = 0 := dot_self_cross _ _
  have d7 : (A ⨯₃ B) ⬝ᵥ (A ⨯₃ (A ⨯₃ B)) = 0 := dot_cross_self _ _
  have d8 : (A ⨯₃ B) ⬝ᵥ (B ⨯₃ (A ⨯₃ B)) = 0 := dot_cross_self _ _
  have hb := hb P
  generalize A ⨯₃ B = N at *
  generalize hQ : N ⬝ᵥ N = Q at *
  have n3 : P ⬝ᵥ (A ⨯₃ (c • N)) = c * (P ⬝ᵥ (A ⨯₃ N)) := by rw [map_smul, dotProduct_smul, smul_eq_mul]
  have n4 : (P - A) ⬝ᵥ ((B - A) ⨯₃ (c • N)) = c * (P ⬝ᵥ (B ⨯₃ N) - P ⬝ᵥ (A ⨯₃ N) - Q) := by
    rw [map_smul, dotProduct_smul, smul_eq_mul, map_sub, LinearMap.sub_apply, dotProduct_sub, sub_dotProduct, sub_dotProduct, d3, d5]
    ring
  have n5 : (P - B) ⬝ᵥ ((-B) ⨯₃ (c • N)) = c * (-(P ⬝ᵥ (B ⨯₃ N))) := by
    rw [map_smul, dotProduct_smul, smul_eq_mul, map_neg, LinearMap.neg_apply, dotProduct_neg, sub_dotProduct, d6, sub_zero]
  have n1 : P ⬝ᵥ (c • N) = c * (P ⬝ᵥ N) := by rw [dotProduct_smul, smul_eq_mul]
  have n2 : (c • N) ⬝ᵥ (c • N) = c * (c * Q) := by rw [dotProduct_smul, smul_dotProduct, hQ]; rfl
  rw [n1, n2, n3, n4, n5]
  have cancel (x : ℝ) : c * x ≤ 0 ↔ x ≤ 0 := by
    constructor
    · intro h; by_contra h'; push Not at h'; linarith [mul_pos hc h']
    · intro h; exact mul_nonpos_of_nonneg_of_nonpos hc.le h
  rw [cancel, cancel, cancel, mul_le_mul_iff_right₀ hc, mul_nonneg_iff_of_pos_left hc]
  constructor
  · rintro ⟨h1, h2, h3, h4, h5⟩
    refine ⟨(P ⬝ᵥ (B ⨯₃ N)) / Q, -(P ⬝ᵥ (A ⨯₃ N)) / Q, (P ⬝ᵥ N) / (c * Q), div_nonneg (by linarith) hNN.le,
      div_nonneg (by linarith) hNN.le, ?_, div_nonneg h1 (by positivity), ?_, ?_⟩
    · rw [← add_div, div_le_one hNN]; linarith
    · rw [div_le_one (by positivity)]; exact h2
    · rw [show P ⬝ᵥ N / (c * Q) * c = P ⬝ᵥ N / Q by field_simp]
      have e : P = Q⁻¹ • (Q • P) := by rw [smul_smul, inv_mul_cancel₀ hNN.ne', one_smul]
      rw [hb] at e
      refine e.trans ?_
      simp only [smul_add, smul_smul, div_eq_inv_mul, add_assoc]
  · rintro ⟨α, β, γ, hα, hβ, hab, hγ, hγ', rfl⟩
    have m1 : (α • A + (β • B + (γ * c) • N)) ⬝ᵥ N = γ * c * Q := by
      rw [add_dotProduct, add_dotProduct, smul_dotProduct, smul_dotProduct, smul_dotProduct, d1, d2, hQ]; simp
    have m2 : (α • A + (β • B + (γ * c) • N)) ⬝ᵥ (A ⨯₃ N) = -(β * Q) := by
      rw [add_dotProduct, add_dotProduct, smul_dotProduct, smul_dotProduct, smul_dotProduct, d5, d4, d7]; simp
    have m3 : (α • A + (β • B + (γ * c) • N)) ⬝ᵥ (B ⨯₃ N) = α * Q := by
      rw [add_dotProduct, add_dotProduct, smul_dotProduct, smul_dotProduct, smul_dotProduct, d3, d6, d8]; simp
    rw [m1, m2, m3]
    refine ⟨by positivity, ?_, ?_, ?_, ?_⟩
    · nlinarith [mul_nonneg (mul_nonneg (sub_nonneg.mpr hγ') hc.le) hNN.le]
    · have := mul_nonneg hβ hNN.le; linarith
    · nlinarith [mul_nonneg (sub_nonneg.mpr hab) hNN.le]
    · have := mul_nonneg hα hNN.le; linarith

/-- the solid prism in coordinates -/
theorem prism_coords (v0 v1 v2 : R3) (h : ℝ) (p : R3) :
    p ∈ prismPts v0 v1 v2 h ↔ ∃ α β γ : ℝ, 0 ≤ α ∧ 0 ≤ β ∧ α + β ≤ 1 ∧ 0 ≤ γ ∧ γ ≤ 1 ∧
      p = v0 + α • (v1 - v0) + β • (v2 - v0) + γ • (h • triNormal v0 v1 v2) := by
  unfold prismPts prismVerts
  generalize h • triNormal v0 v1 v2 = n
  constructor
  · intro hp
    have hconv : Convex ℝ {p : R3 | ∃ α β γ : ℝ, 0 ≤ α ∧ 0 ≤ β ∧ α + β ≤ 1 ∧ 0 ≤ γ ∧ γ ≤ 1 ∧
        p = v0 + α • (v1 - v0) + β • (v2 - v0) + γ • n} := by
      rintro x ⟨α, β, γ, a1, a2, a3, a4, a5, rfl⟩ y ⟨α', β', γ', b1, b2, b3, b4, b5, rfl⟩ s t hs ht hst
      refine ⟨s * α + t * α', s * β + t * β', s * γ + t * γ', by positivity, by positivity, ?_, by positivity, ?_, ?_⟩
      · nlinarith
      · nlinarith
      · have : t = 1 - s := by linarith
        subst this
        module
    refine convexHull_min ?_ hconv hp
    intro q hq
    simp only [Set.mem_insert_iff, Set.mem_singleton_iff] at hq
    rcases hq with rfl | rfl | rfl | rfl | rfl | rfl
    · exact ⟨0, 0, 0, by norm_num, by norm_num, by norm_num, by norm_num, by norm_num, by simp⟩
    · exact ⟨1, 0, 0, by norm_num, by norm_num, by norm_num, by norm_num, by norm_num, by simp⟩
    · exact ⟨0, 1, 0, by norm_num, by norm_num, by norm_num, by norm_num, by norm_num, by simp⟩
    · exact ⟨0, 0, 1, by norm_num, by norm_num, by norm_num, by norm_num, by norm_num, by simp⟩
    · exact ⟨1, 0, 1, by norm_num, by norm_num, by norm_num, by norm_num, by norm_num, by simp⟩
    · exact ⟨0, 1, 1, by norm_num, by norm_num, by norm_num, by norm_num, by norm_num, by simp⟩
  · rintro ⟨α, β, γ, hα, hβ, hab, hγ, hγ', rfl⟩
    have hc := convex_convexHull ℝ ({v0, v1, v2, v0 + n, v1 + n, v2 + n} : Set R3)
    have mem : ∀ q ∈ ({v0, v1, v2, v0 + n, v1 + n, v2 + n} : Set R3),
        q ∈ convexHull ℝ ({v0, v1, v2, v0 + n, v1 + n, v2 + n} : Set R3) := fun q hq => subset_convexHull ℝ _ hq
    generalize convexHull ℝ ({v0, v1, v2, v0 + n, v1 + n, v2 + n} : Set R3) = S at *
    have tri : ∀ w0 w1 w2 : R3, w0 ∈ S → w1 ∈ S → w2 ∈ S → (1 - α - β) • w0 + α • w1 + β • w2 ∈ S := by
      intro w0 w1 w2 h0 h1 h2
      have := hc.sum_mem (t := Finset.univ) (w := ![1 - α - β, α, β]) (z := ![w0, w1, w2])
        (by intro i _; fin_cases i <;> simp <;> linarith) (by simp [Fin.sum_univ_three]; ring)
        (by intro i _; fin_cases i <;> simp <;> assumption)
      simpa [Fin.sum_univ_three] using this
    have q0 := tri v0 v1 v2 (mem _ (by simp)) (mem _ (by simp)) (mem _ (by simp))
    have q1 := tri (v0 + n) (v1 + n) (v2 + n) (mem _ (by simp)) (mem _ (by simp)) (mem _ (by simp))
    have := hc q0 q1 (sub_nonneg.mpr hγ') hγ (by ring)
    convert this using 1
    module

/-- the solid prism as five half spaces -/
theorem prism_halves {v0 v1 v2 : R3} (hN : (v1 - v0) ⨯₃ (v2 - v0) ≠ 0) {h : ℝ} (hh : 0 < h) (p : R3) :
    InHalves v0 v1 v2 (h • triNormal v0 v1 v2) p ↔ p ∈ prismPts v0 v1 v2 h := by
  rw [prism_coords, triNormal, smul_smul, halves_iff hN (mul_pos hh (inv_pos.mpr (euc_pos hN)))]
  simp only [smul_smul]

/-! ## C49 -/

/-- the inside test on real numbers -/
theorem inside_real {s : TriPrism ℝ} {v0 v1 v2 : R3} {h : ℝ} (hs : s.Made v0 v1 v2 h) {x : V3 ℝ} {p : R3} (hx : x.IsR p) :
    s.inside x = true ↔ InHalves v0 v1 v2 (h • triNormal v0 v1 v2) p := by
  obtain ⟨⟨b0, b1, b2⟩, ⟨c0, _, _⟩, hn, _⟩ := hs.facts
  generalize h • triNormal v0 v1 v2 = n at *
  have t1 := (Fl.is_zero).lt (V3.is_dotp (V3.isR_sub hx b0) (V3.isR_scl hn Fl.is_one.neg))
  have t2 := (Fl.is_zero).lt (V3.is_dotp (V3.isR_sub hx c0) hn)
  have t3 := (Fl.is_zero).lt (V3.is_dotp (V3.isR_sub hx b0) (V3.isR_crs (V3.isR_sub b1 b0) hn))
  have t4 := (Fl.is_zero).lt (V3.is_dotp (V3.isR_sub hx b1) (V3.isR_crs (V3.isR_sub b2 b1) hn))
  have t5 := (Fl.is_zero).lt (V3.is_dotp (V3.isR_sub hx b2) (V3.isR_crs (V3.isR_sub b0 b2) hn))
  unfold TriPrism.inside TriPrism.testsP
  simp only [List.all_cons, List.all_nil, Bool.and_true]
  rw [t1, t2, t3, t4, t5]
  simp only [Bool.and_eq_true, Bool.not_eq_true', decide_eq_false_iff_not, not_lt]
  unfold InHalves
  rw [dotProduct_smul, show p - (v0 + n) = (p - v0) - n by abel, sub_dotProduct (p - v0) n n]
  refine and_congr ?_ (and_congr ?_ Iff.rfl)
  · simp
  · rw [sub_nonpos]

/-- C49: for a non-degenerate base and a positive height the answer is true, with the point itself as location, exactly
when the point lies in the solid prism (the convex hull of the six vertices). -/
theorem C49_prismPoint (s : TriPrism ℝ) (t : Point3 ℝ) (v0 v1 v2 p : R3) (h : ℝ) (hs : s.Made v0 v1 v2 h) (ht : t.Made p)
    (hh : 0 < h) :
    (p ∈ prismPts v0 v1 v2 h → Shape.Finds (.triPrism s) (.point t) p) ∧
    (p ∉ prismPts v0 v1 v2 h → Shape.Misses (.triPrism s) (.point t)) := by
  have hp := ht.facts.1
  have hin := (inside_real hs hp).trans (prism_halves hs.1 hh p)
  have hcore : core (.triPrism s) (.point t) = .ok (if s.inside t.ori then (true, some t.ori) else (false, none)) :=
    prismPoint_eq s t
  constructor
  · intro h
    exact ⟨t.ori, by rw [query_meet (.triPrism hs) (.point ht) ⟨p, h, rfl⟩, hcore, hin.mpr h]; rfl, hp⟩
  · intro h
    unfold Shape.Misses
    rcases query_cases (.triPrism s) (.point t) with hq | hq
    · rw [hq, hcore, Bool.eq_false_of_not_eq_true (fun h' => h (hin.mp h'))]; rfl
    · exact hq

/-- C49: with a negative height the prism is built on the other side, but the side normals then point inwards and no point
is ever reported. -/
theorem C49_negative_false (s : TriPrism ℝ) (t : Point3 ℝ) (v0 v1 v2 p : R3) (h : ℝ) (hs : s.Made v0 v1 v2 h) (ht : t.Made p)
    (hh : h < 0) : (prismPts v0 v1 v2 h).Nonempty ∧ Shape.Misses (.triPrism s) (.point t) := by
  refine ⟨⟨v0, subset_convexHull ℝ _ (by simp [prismVerts])⟩, ?_⟩
  have hp := ht.facts.1
  have hcore : core (.triPrism s) (.point t) = .ok (if s.inside t.ori then (true, some t.ori) else (false, none)) :=
    prismPoint_eq s t
  have hno : ¬ s.inside t.ori = true := by
    rw [inside_real hs hp, triNormal, smul_smul]
    have hc : h * (euc ((v1 - v0) ⨯₃ (v2 - v0)))⁻¹ < 0 := mul_neg_of_neg_of_pos hh (inv_pos.mpr (euc_pos hs.1))
    generalize h * (euc ((v1 - v0) ⨯₃ (v2 - v0)))⁻¹ = c at hc
    rintro ⟨_, _, h3, h4, h5⟩
    have hNN : 0 < ((v1 - v0) ⨯₃ (v2 - v0)) ⬝ᵥ ((v1 - v0) ⨯₃ (v2 - v0)) := by
      rw [← euc_sq]; exact mul_pos (euc_pos hs.1) (euc_pos hs.1)
    have key : (p - v0) ⬝ᵥ ((v1 - v0) ⨯₃ (c • ((v1 - v0) ⨯₃ (v2 - v0)))) +
        (p - v1) ⬝ᵥ ((v2 - v1) ⨯₃ (c • ((v1 - v0) ⨯₃ (v2 - v0)))) + (p - v2) ⬝ᵥ ((v0 - v2) ⨯₃ (c • ((v1 - v0) ⨯₃ (v2 - v0)))) =
        -(c * (((v1 - v0) ⨯₃ (v2 - v0)) ⬝ᵥ ((v1 - v0) ⨯₃ (v2 - v0)))) := by
      simp [cross_apply, dotProduct, Fin.sum_univ_three]; ring
    nlinarith
  unfold Shape.Misses
  rcases query_cases (.triPrism s) (.point t) with hq | hq
  · rw [hq, hcore, Bool.eq_false_of_not_eq_true hno]; rfl
  · exact hq

/-- concrete case: a prism of height `-2` -/
example := C49_negative_false _ _ _ _ _ _ _ (TriPrism.exists_made 0 ![1, 0, 0] ![0, 1, 0] (-2) corner_ne 0).choose_spec.1
  (mkPoint_made ![1 / 4, 1 / 4, -1] 0) (by norm_num)

/-- C49: with height zero every point of the bounding box is reported. Witness in binary64: the point `(1,1,0)` outside the
triangle `(0,0,0) (1,0,0) (0,1,0)`. -/
theorem C49_zero_false : ∃ (s : TriPrism Q64) (t : Point3 Q64),
    TriPrism.init [0, 0, 0, 1, 0, 0, 0, 1, 0] 0 = .ok s ∧ Point3.init [1, 1, 0] = .ok t ∧
    Shape.getIntersect 2 (.triPrism s) (.point t) = .ok (true, some ⟨#v[1, 1, 0]⟩) :=
  ⟨_, _, rfl, rfl, by decide +kernel⟩

/-- the base triangle used in the examples -/
theorem prism_example : ((![1, 0, 0] : R3) - 0) ⨯₃ ((![0, 1, 0] : R3) - 0) ≠ 0 ∧
    triNormal 0 ![1, 0, 0] ![0, 1, 0] = ![0, 0, 1] := by
  have hN : ((![1, 0, 0] : R3) - 0) ⨯₃ ((![0, 1, 0] : R3) - 0) = ![0, 0, 1] := by
    rw [cross_apply]; simp
  constructor
  · rw [hN]; intro h; simpa using congrFun h 2
  · rw [triNormal, hN]
    have : euc (![0, 0, 1] : R3) = 1 := by rw [euc_eq, Fin.sum_univ_three]; simp
    rw [this]; simp

/-- C49, non-vacuity: one point inside and one outside, in exact arithmetic and in binary64. -/
example : ∃ s t t', TriPrism.Made s 0 ![1, 0, 0] ![0, 1, 0] 2 ∧ Point3.Made t ![1 / 4, 1 / 4, 1] ∧ Point3.Made t' ![1, 1, 1] ∧
    Shape.Finds (.triPrism s) (.point t) ![1 / 4, 1 / 4, 1] ∧ Shape.Misses (.triPrism s) (.point t') := by
  obtain ⟨hN', hn⟩ := prism_example
  obtain ⟨s, hs, _⟩ := TriPrism.exists_made 0 ![1, 0, 0] ![0, 1, 0] 2 hN' 0
  obtain ⟨t, ht, _⟩ := Point3.exists_made ![1 / 4, 1 / 4, 1] 0
  obtain ⟨t', ht', _⟩ := Point3.exists_made ![1, 1, 1] 0
  refine ⟨s, t, t', hs, ht, ht', (C49_prismPoint _ _ _ _ _ _ _ hs ht (by norm_num)).1 ?_,
    (C49_prismPoint _ _ _ _ _ _ _ hs ht' (by norm_num)).2 ?_⟩
  · rw [prism_coords, hn]
    refine ⟨1 / 4, 1 / 4, 1 / 2, by norm_num, by norm_num, by norm_num, by norm_num, by norm_num, ?_⟩
    ext i; fin_cases i <;> simp
  · rw [prism_coords, hn]
    rintro ⟨α, β, γ, _, _, h, _, _, e⟩
    have e0 := congrFun e 0
    have e1 := congrFun e 1
    simp at e0 e1
    linarith
example : ∃ (s : TriPrism Q64) (t t' : Point3 Q64), TriPrism.init [0, 0, 0, 1, 0, 0, 0, 1, 0] (.fin 2) = .ok s ∧
    Point3.init [.fin (1 / 4), .fin (1 / 4), 1] = .ok t ∧ Point3.init [1, 1, 1] = .ok t' ∧
    Shape.getIntersect 2 (.triPrism s) (.point t) = .ok (true, some ⟨#v[.fin (1 / 4), .fin (1 / 4), 1]⟩) ∧
    Shape.getIntersect 2 (.triPrism s) (.point t') = .ok (false, none) :=
  ⟨_, _, _, rfl, rfl, rfl, by decide +kernel, by decide +kernel⟩

/-! ## C50 -/

/-- the five half spaces as a list of (point, outward normal) -/
def halves (v0 v1 v2 n : R3) : List (R3 × R3) :=
  [(v0, (-1 : ℝ) • n), (v0 + n, n), (v0, (v1 - v0) ⨯₃ n), (v1, (v2 - v1) ⨯₃ n), (v2, (v0 - v2) ⨯₃ n)]

theorem halves_list (v0 v1 v2 n p : R3) : InHalves v0 v1 v2 n p ↔ ∀ h ∈ halves v0 v1 v2 n, (p - h.1) ⬝ᵥ h.2 ≤ 0 := by
  unfold halves InHalves
  simp only [List.forall_mem_cons, List.not_mem_nil, false_implies, implies_true, and_true]
  rw [dotProduct_smul, show p - (v0 + n) = (p - v0) - n by abel, sub_dotProduct (p - v0) n n, sub_nonpos]
  simp

/-- entering a finite intersection of half spaces: from a point outside, on the way to a point inside, there is a first
point inside, and it lies on a plane that was crossed inwards -/
theorem entry (L : List (R3 × R3)) (a q : R3) (hq : ∀ h ∈ L, (q - h.1) ⬝ᵥ h.2 ≤ 0) (ha : ∃ h ∈ L, 0 < (a - h.1) ⬝ᵥ h.2) :
    ∃ h ∈ L, ∃ t : ℝ, 0 ≤ t ∧ t ≤ 1 ∧ 0 < (a - h.1) ⬝ᵥ h.2 ∧ (a + t • (q - a) - h.1) ⬝ᵥ h.2 = 0 ∧
      ∀ k ∈ L, (a + t • (q - a) - k.1) ⬝ᵥ k.2 ≤ 0 := by
  classical
  let T := L.toFinset.filter fun h => 0 < (a - h.1) ⬝ᵥ h.2
  obtain ⟨h0, m0, p0⟩ := ha
  have hT : T.Nonempty := ⟨h0, Finset.mem_filter.mpr ⟨List.mem_toFinset.mpr m0, p0⟩⟩
  obtain ⟨h, hm, hmax⟩ := T.exists_max_image (fun h => (a - h.1) ⬝ᵥ h.2 / ((a - h.1) ⬝ᵥ h.2 - (q - h.1) ⬝ᵥ h.2)) hT
  simp only [T, Finset.mem_filter, List.mem_toFinset] at hm hmax
  obtain ⟨hmem, hpos⟩ := hm
  have hqh := hq h hmem
  have line (k : R3 × R3) (t : ℝ) : (a + t • (q - a) - k.1) ⬝ᵥ k.2 =
      (a - k.1) ⬝ᵥ k.2 + t * ((q - k.1) ⬝ᵥ k.2 - (a - k.1) ⬝ᵥ k.2) := by
    rw [show a + t • (q - a) - k.1 = (a - k.1) + t • ((q - k.1) - (a - k.1)) by module, add_dotProduct, smul_dotProduct,
      sub_dotProduct (q - k.1) (a - k.1), smul_eq_mul]
  have hd : 0 < (a - h.1) ⬝ᵥ h.2 - (q - h.1) ⬝ᵥ h.2 := by linarith
  have t0 : 0 ≤ (a - h.1) ⬝ᵥ h.2 / ((a - h.1) ⬝ᵥ h.2 - (q - h.1) ⬝ᵥ h.2) := div_nonneg hpos.le hd.le
  have t1 : (a - h.1) ⬝ᵥ h.2 / ((a - h.1) ⬝ᵥ h.2 - (q - h.1) ⬝ᵥ h.2) ≤ 1 := by rw [div_le_one hd]; linarith
  refine ⟨h, hmem, _, t0, t1, hpos, ?_, ?_⟩
  · rw [line]; field_simp; ring
  · intro k hk
    rw [line]
    rcases lt_or_ge 0 ((a - k.1) ⬝ᵥ k.2) with hkp | hkn
    · have hqk := hq k hk
      have hdk : 0 < (a - k.1) ⬝ᵥ k.2 - (q - k.1) ⬝ᵥ k.2 := by linarith
      have hle := hmax k ⟨hk, hkp⟩
      have := mul_le_mul_of_nonneg_right hle hdk.le
      rw [div_mul_cancel₀ _ hdk.ne'] at this
      linarith
    · have hqk := hq k hk
      generalize (a - h.1) ⬝ᵥ h.2 / ((a - h.1) ⬝ᵥ h.2 - (q - h.1) ⬝ᵥ h.2) = t at *
      nlinarith [mul_nonneg t0 (neg_nonneg.mpr hqk), mul_nonneg (sub_nonneg.mpr t1) (neg_nonneg.mpr hkn)]

theorem listR_toList {x : V3 ℝ} {u : R3} (h : x.IsR u) : ListR (TriPrism.toList x) u := by
  obtain ⟨h0, h1, h2⟩ := Mat3x1.isR_iff.mp h
  exact ⟨_, _, _, rfl, h0, h1, h2⟩

theorem ray_getIntersect (r : Ray3 ℝ) (f : Plane ℝ) : r.getIntersect (.plane f) = Shape.getIntersect 2 (.ray r) (.plane f) := rfl

/-- what the loop over the facets does: it returns a hit of one of the facets that is in `S` and near enough, or answers
false and there is none -/
def LoopOut (s : TriPrism ℝ) (r : Ray3 ℝ) (x : V3 ℝ) (a : R3) (m : Fl ℝ) (M : ℝ) (S : Set R3) (fs : List (Plane ℝ))
    (hs : List (R3 × R3)) : Prop :=
  (∃ h ∈ hs, ∃ f loc p, TriPrism.facetLoop r s.testsP x m fs = .ok (true, some loc) ∧ loc.IsR p ∧ p ∈ S ∧ euc (p - a) ≤ M ∧
      Plane.Made f h.1 h.2 ∧ Shape.Finds (.ray r) (.plane f) p) ∨
    (TriPrism.facetLoop r s.testsP x m fs = .ok (false, none) ∧
      ∀ h ∈ hs, ∃ f, Plane.Made f h.1 h.2 ∧ ∀ p ∈ S, Shape.Finds (.ray r) (.plane f) p → M < euc (p - a))

/-- the loop over the facets on real numbers -/
theorem facetLoop_real (s : TriPrism ℝ) (r : Ray3 ℝ) (x : V3 ℝ) (a d : R3) (hr : r.Made a d) (hx : x.IsR a) (m : Fl ℝ) (M : ℝ)
    (hm : m.Is M) (S : Set R3) (hS : ∀ (y : V3 ℝ) (p : R3), y.IsR p → (s.inside y = true ↔ p ∈ S))
    (fs : List (Plane ℝ)) (hs : List (R3 × R3)) (hf : List.Forall₂ (fun f h => Plane.Made f h.1 h.2) fs hs) :
    LoopOut s r x a m M S fs hs := by
  induction hf with
  | nil => exact .inr ⟨rfl, by simp⟩
  | @cons f h fs hs hfh _ ih =>
    have hcases : (∃ p, Shape.Finds (.ray r) (.plane f) p) ∨ Shape.Misses (.ray r) (.plane f) := by
      by_cases hc : d ⬝ᵥ h.2 ≤ 0 ∧ (rayPts a d ∩ planePts h.1 h.2).Nonempty
      · obtain ⟨p, _, hp⟩ := (C43_rayPlane r f a d h.1 h.2 hr hfh).1 hc
        exact .inl ⟨p, hp⟩
      · exact .inr ((C43_rayPlane r f a d h.1 h.2 hr hfh).2 hc)
    have skip (e : TriPrism.facetLoop r s.testsP x m (f :: fs) = TriPrism.facetLoop r s.testsP x m fs)
        (hno : ∀ p ∈ S, Shape.Finds (.ray r) (.plane f) p → M < euc (p - a)) : LoopOut s r x a m M S (f :: fs) (h :: hs) := by
      rcases ih with ⟨k, hk, f', loc, p, e', rest⟩ | ⟨e', rest⟩
      · exact .inl ⟨k, List.mem_cons_of_mem _ hk, f', loc, p, e.trans e', rest⟩
      · refine .inr ⟨e.trans e', fun k hk => ?_⟩
        rcases List.mem_cons.mp hk with rfl | hk
        · exact ⟨f, hfh, hno⟩
        · exact rest k hk
    rcases hcases with ⟨p, hp⟩ | hno
    · obtain ⟨loc, e, hl⟩ := hp
      have hmag := V3.is_mag (V3.isR_sub hl hx)
      have step : TriPrism.facetLoop r s.testsP x m (f :: fs) =
          if !s.inside loc || Fl.lt m (V3.mag (V3.sub loc x)) then TriPrism.facetLoop r s.testsP x m fs else .ok (true, some loc) := by
        rw [TriPrism.facetLoop, ray_getIntersect, e]
        simp only [Res.ok_bind, unwrap_some, V3.minus_eq, V3.magnitude_eq, allInside_ok, if_true]
        rfl
      rw [hm.lt hmag] at step
      by_cases hin : p ∈ S ∧ euc (p - a) ≤ M
      · left
        rw [(hS loc p hl).mpr hin.1, decide_eq_false (not_lt.mpr hin.2)] at step
        exact ⟨h, by simp, f, loc, p, step, hl, hin.1, hin.2, hfh, loc, e, hl⟩
      · refine skip ?_ fun q hq hfq => ?_
        · rw [step, if_pos]
          rw [Bool.or_eq_true, Bool.not_eq_true', decide_eq_true_eq]
          by_cases h1 : p ∈ S
          · exact .inr (not_le.mp fun h2 => hin ⟨h1, h2⟩)
          · exact .inl (Bool.eq_false_of_not_eq_true fun h2 => h1 ((hS loc p hl).mp h2))
        · have : q = p := hfq.unique ⟨loc, e, hl⟩
          subst this
          exact not_le.mp fun h2 => hin ⟨hq, h2⟩
    · refine skip ?_ fun q hq hfq => absurd hno hfq.not_misses
      rw [TriPrism.facetLoop, ray_getIntersect, hno]
      rfl

theorem cross_ne_zero {A n : R3} (hA : A ≠ 0) (hn : n ≠ 0) (h : A ⬝ᵥ n = 0) : A ⨯₃ n ≠ 0 := by
  intro hc
  have := cross_dot_cross A n A n
  rw [hc, h, dotProduct_comm n A, h, zero_dotProduct, ← euc_sq, ← euc_sq] at this
  nlinarith [mul_pos (mul_pos (euc_pos hA) (euc_pos hA)) (mul_pos (euc_pos hn) (euc_pos hn))]

/-- the facets of a constructed prism of positive height -/
theorem facets_made {s : TriPrism ℝ} {v0 v1 v2 : R3} {h : ℝ} (hs : s.Made v0 v1 v2 h) (hh : h ≠ 0) :
    ∃ fs, s.facets = .ok fs ∧
      List.Forall₂ (fun f k => Plane.Made f k.1 k.2) fs (halves v0 v1 v2 (h • triNormal v0 v1 v2)) := by
  obtain ⟨⟨b0, b1, b2⟩, ⟨c0, _, _⟩, hn, _⟩ := hs.facts
  have hN := hs.1
  have hd1 : (v1 - v0) ⬝ᵥ ((v1 - v0) ⨯₃ (v2 - v0)) = 0 := dot_self_cross _ _
  have hd2 : (v2 - v0) ⬝ᵥ ((v1 - v0) ⨯₃ (v2 - v0)) = 0 := dot_cross_self _ _
  have hc : h * (euc ((v1 - v0) ⨯₃ (v2 - v0)))⁻¹ ≠ 0 := mul_ne_zero hh (inv_pos.mpr (euc_pos hN)).ne'
  have e : h • triNormal v0 v1 v2 = (h * (euc ((v1 - v0) ⨯₃ (v2 - v0)))⁻¹) • ((v1 - v0) ⨯₃ (v2 - v0)) := by
    rw [triNormal, smul_smul]
  have hn0 : h • triNormal v0 v1 v2 ≠ 0 := by rw [e]; exact smul_ne_zero hc hN
  have e1 : (v1 - v0) ⬝ᵥ (h • triNormal v0 v1 v2) = 0 := by rw [e, dotProduct_smul, hd1, smul_zero]
  have e2 : (v2 - v0) ⬝ᵥ (h • triNormal v0 v1 v2) = 0 := by rw [e, dotProduct_smul, hd2, smul_zero]
  have n1 : v1 - v0 ≠ 0 := by intro h; rw [h] at hN; simp at hN
  have n2 : v0 - v2 ≠ 0 := by
    intro h; rw [← neg_sub, neg_eq_zero] at h; rw [h] at hN; simp at hN
  have n3 : v2 - v1 ≠ 0 := by
    intro h; rw [show v2 - v0 = v1 - v0 by rw [sub_eq_zero] at h; rw [h]] at hN; simp at hN
  generalize h • triNormal v0 v1 v2 = n at *
  have made {x y : V3 ℝ} {u w : R3} (hx : x.IsR u) (hy : y.IsR w) (hw : w ≠ 0) {f : Plane ℝ}
      (hf : Plane.init (TriPrism.toList x) (TriPrism.toList y) = .ok f) : Plane.Made f u w :=
    ⟨hw, _, _, f, f.vicinity, listR_toList hx, listR_toList hy, hf, rfl⟩
  have hx1 := cross_ne_zero n1 hn0 e1
  have hx2 := cross_ne_zero n2 hn0 (by rw [show v0 - v2 = -(v2 - v0) by abel, neg_dotProduct, e2, neg_zero])
  have hx3 := cross_ne_zero n3 hn0 (by rw [show v2 - v1 = (v2 - v0) - (v1 - v0) by abel, sub_dotProduct, e1, e2, sub_zero])
  refine ⟨_, rfl, .cons (made b0 (V3.isR_scl hn Fl.is_one.neg) (smul_ne_zero (by norm_num) hn0) rfl)
    (.cons (made c0 hn hn0 rfl)
    (.cons (made b0 (V3.isR_crs (V3.isR_sub b1 b0) hn) hx1 rfl)
    (.cons (made b1 (V3.isR_crs (V3.isR_sub b2 b1) hn) hx3 rfl)
    (.cons (made b2 (V3.isR_crs (V3.isR_sub b0 b2) hn) hx2 rfl) .nil))))⟩

/-- everything about one query with a proper segment -/
theorem prismLine_core (s : TriPrism ℝ) (t : Line3 ℝ) (v0 v1 v2 a b : R3) (h : ℝ) (hs : s.Made v0 v1 v2 h) (ht : t.Made a b)
    (hh : 0 < h) (hab : a ≠ b) :
    (a ∈ prismPts v0 v1 v2 h → ∃ loc, core (.triPrism s) (.line t) = .ok (true, some loc) ∧ loc.IsR a) ∧
    (a ∉ prismPts v0 v1 v2 h → b ∈ prismPts v0 v1 v2 h → ∃ loc, core (.triPrism s) (.line t) = .ok (true, some loc) ∧ loc.IsR b) ∧
    (a ∉ prismPts v0 v1 v2 h → b ∉ prismPts v0 v1 v2 h → (prismPts v0 v1 v2 h ∩ segment ℝ a b).Nonempty →
      ∃ loc p, core (.triPrism s) (.line t) = .ok (true, some loc) ∧ loc.IsR p ∧ p ∈ prismPts v0 v1 v2 h ∩ segment ℝ a b ∧
        ∀ q ∈ prismPts v0 v1 v2 h ∩ segment ℝ a b, euc (p - a) ≤ euc (q - a)) ∧
    (prismPts v0 v1 v2 h ∩ segment ℝ a b = ∅ → core (.triPrism s) (.line t) = .ok (false, none)) := by
  obtain ⟨ha, hb, _⟩ := ht.facts
  have hin {y : V3 ℝ} {p : R3} (hy : y.IsR p) := (inside_real hs hy).trans (prism_halves hs.1 hh p)
  obtain ⟨fs, hfs, hfm⟩ := facets_made hs hh.ne'
  obtain ⟨r, hri⟩ := ray_init_ok t.a (V3.sub t.b t.a)
  have hd : b - a ≠ 0 := sub_ne_zero.mpr (Ne.symm hab)
  have hr : r.Made a (b - a) := ⟨hd, _, _, r, r.vicinity, listR_toList ha, listR_toList (V3.isR_sub hb ha), hri, rfl⟩
  have hcore : core (.triPrism s) (.line t) =
      if s.inside t.a then .ok (true, some t.a) else if s.inside t.b then .ok (true, some t.b)
      else TriPrism.facetLoop r s.testsP t.a (V3.mag (V3.sub t.b t.a)) fs := by
    show TriPrism.intersectLine _ _ = _
    unfold TriPrism.intersectLine
    simp only [vecAt_line0, vecAt_line3, Res.ok_bind, TriPrism.tests_eq, allInside_ok, Res.pure_eq, V3.minus_eq,
      V3.magnitude_eq, unwrap_some, hfs, hri]
    rfl
  have seg {p : R3} : p ∈ segment ℝ a b ↔ ∃ τ : ℝ, 0 ≤ τ ∧ τ ≤ 1 ∧ p = a + τ • (b - a) := by
    rw [segment_eq_image']
    constructor
    · rintro ⟨τ, ⟨h1, h2⟩, rfl⟩; exact ⟨τ, h1, h2, rfl⟩
    · rintro ⟨τ, h1, h2, rfl⟩; exact ⟨τ, ⟨h1, h2⟩, rfl⟩
  have dist {τ : ℝ} (hτ : 0 ≤ τ) : euc (a + τ • (b - a) - a) = τ * euc (b - a) := by
    rw [add_sub_cancel_left, euc_smul, abs_of_nonneg hτ]
  have onseg {p : R3} (hp : p ∈ rayPts a (b - a)) (hd' : euc (p - a) ≤ euc (b - a)) : p ∈ segment ℝ a b := by
    obtain ⟨τ, hτ, rfl⟩ := hp
    rw [dist hτ] at hd'
    refine seg.mpr ⟨τ, hτ, ?_, rfl⟩
    have := euc_pos hd
    by_contra hc
    push Not at hc
    nlinarith
  have loop := facetLoop_real s r t.a a (b - a) hr ha _ _ (V3.is_mag (V3.isR_sub hb ha)) (prismPts v0 v1 v2 h)
    (fun y p hy => hin hy) fs _ hfm
  have hmemP (p : R3) := (prism_halves hs.1 hh p).symm.trans (halves_list v0 v1 v2 (h • triNormal v0 v1 v2) p)
  refine ⟨?_, ?_, ?_, ?_⟩
  · intro h1
    exact ⟨t.a, by rw [hcore, (hin ha).mpr h1]; rfl, ha⟩
  · intro h1 h2
    exact ⟨t.b, by rw [hcore, Bool.eq_false_of_not_eq_true (fun h' => h1 ((hin ha).mp h')), (hin hb).mpr h2]; rfl, hb⟩
  · rintro h1 h2 ⟨q, hq, hqs⟩
    have hcore' : core (.triPrism s) (.line t) = TriPrism.facetLoop r s.testsP t.a (V3.mag (V3.sub t.b t.a)) fs := by
      rw [hcore, Bool.eq_false_of_not_eq_true (fun h' => h1 ((hin ha).mp h')),
        Bool.eq_false_of_not_eq_true (fun h' => h2 ((hin hb).mp h'))]; rfl
    have hout : ∃ k ∈ halves v0 v1 v2 (h • triNormal v0 v1 v2), 0 < (a - k.1) ⬝ᵥ k.2 := by
      by_contra hc
      push Not at hc
      exact h1 ((hmemP a).mpr hc)
    -- a hit of a facet in the prism is the first point in the prism
    have first {k : R3 × R3} (hk : k ∈ halves v0 v1 v2 (h • triNormal v0 v1 v2)) {f : Plane ℝ} (hf : Plane.Made f k.1 k.2) {p : R3}
        (hp : p ∈ prismPts v0 v1 v2 h) (hfp : Shape.Finds (.ray r) (.plane f) p) :
        ∀ q ∈ prismPts v0 v1 v2 h ∩ segment ℝ a b, euc (p - a) ≤ euc (q - a) := by
      rintro q ⟨hq, hqs⟩
      have hle : (b - a) ⬝ᵥ k.2 ≤ 0 := by
        by_contra hc
        exact hfp.not_misses ((C43_rayPlane r f a (b - a) k.1 k.2 hr hf).2 fun h' => hc h'.1)
      obtain ⟨⟨τ, hτ, rfl⟩, hpl⟩ := C43_sound r f a (b - a) k.1 k.2 hr hf p hfp
      obtain ⟨σ, hσ, _, rfl⟩ := seg.mp hqs
      rw [dist hτ, dist hσ]
      refine mul_le_mul_of_nonneg_right ?_ (euc_nonneg _)
      have line (x : ℝ) : (a + x • (b - a) - k.1) ⬝ᵥ k.2 = (a - k.1) ⬝ᵥ k.2 + x * ((b - a) ⬝ᵥ k.2) := by
        rw [show a + x • (b - a) - k.1 = (a - k.1) + x • (b - a) by abel, add_dotProduct, smul_dotProduct, smul_eq_mul]
      have e1 : (a + τ • (b - a) - k.1) ⬝ᵥ k.2 = 0 := hpl
      have e2 := (hmemP _).mp hq k hk
      rw [line] at e1 e2
      rcases hle.lt_or_eq with hlt | heq
      · nlinarith
      · -- the segment is parallel to the facet: the hit is the origin of the ray
        exfalso
        have horig : Shape.Finds (.ray r) (.plane f) a := by
          refine (rayPlane_core r f a (b - a) k.1 k.2 hr hf).1 ⟨?_, ?_⟩
          · obtain ⟨c, _, hc⟩ := sign_dot hd hf.1
            rw [hc, heq, mul_zero]
          · rw [heq, mul_zero, add_zero] at e1
            show (k.1 - a) ⬝ᵥ ((euc k.2)⁻¹ • k.2) = 0
            rw [dotProduct_smul, show k.1 - a = -(a - k.1) by abel, neg_dotProduct, e1, neg_zero, smul_zero]
        rw [← hfp.unique horig] at h1
        exact h1 hp
    rcases loop with ⟨k, hk, f, loc, p, e, hl, hpS, hpM, hf, hfp⟩ | ⟨_, hno⟩
    · refine ⟨loc, p, hcore'.trans e, hl, ⟨hpS, ?_⟩, first hk hf hpS hfp⟩
      exact onseg (C43_sound r f a (b - a) k.1 k.2 hr hf p hfp).1 hpM
    · exfalso
      obtain ⟨σ, hσ, hσ1, rfl⟩ := seg.mp hqs
      obtain ⟨k, hk, τ, hτ, hτ1, hpos, hz, hall⟩ := entry _ a _ ((hmemP _).mp hq) hout
      rw [add_sub_cancel_left, smul_smul] at hz hall
      obtain ⟨f, hf, hfno⟩ := hno k hk
      have line (x : ℝ) : (a + x • (b - a) - k.1) ⬝ᵥ k.2 = (a - k.1) ⬝ᵥ k.2 + x * ((b - a) ⬝ᵥ k.2) := by
        rw [show a + x • (b - a) - k.1 = (a - k.1) + x • (b - a) by abel, add_dotProduct, smul_dotProduct, smul_eq_mul]
      have hneg : (b - a) ⬝ᵥ k.2 < 0 := by
        rw [line] at hz
        by_contra hc
        push Not at hc
        nlinarith [mul_nonneg (mul_nonneg hτ hσ) hc]
      obtain ⟨p, hp, hfp⟩ := (C43_rayPlane r f a (b - a) k.1 k.2 hr hf).1
        ⟨hneg.le, _, ⟨τ * σ, mul_nonneg hτ hσ, rfl⟩, hz⟩
      have hpe : p = a + (τ * σ) • (b - a) := by
        obtain ⟨⟨x, hx, rfl⟩, hpl⟩ := hp
        have e1 : (a + x • (b - a) - k.1) ⬝ᵥ k.2 = 0 := hpl
        rw [line] at e1 hz
        have : x = τ * σ := mul_right_cancel₀ hneg.ne (by linarith)
        rw [this]
      subst hpe
      have := hfno _ ((hmemP _).mpr hall) hfp
      rw [dist (mul_nonneg hτ hσ)] at this
      nlinarith [euc_nonneg (b - a), mul_le_one₀ hτ1 hσ hσ1]
  · intro hemp
    have h1 : a ∉ prismPts v0 v1 v2 h := fun h' => by
      have : a ∈ prismPts v0 v1 v2 h ∩ segment ℝ a b := ⟨h', left_mem_segment ℝ a b⟩
      rw [hemp] at this; exact this
    have h2 : b ∉ prismPts v0 v1 v2 h := fun h' => by
      have : b ∈ prismPts v0 v1 v2 h ∩ segment ℝ a b := ⟨h', right_mem_segment ℝ a b⟩
      rw [hemp] at this; exact this
    rw [hcore, Bool.eq_false_of_not_eq_true (fun h' => h1 ((hin ha).mp h')),
      Bool.eq_false_of_not_eq_true (fun h' => h2 ((hin hb).mp h'))]
    rcases loop with ⟨k, hk, f, loc, p, e, hl, hpS, hpM, hf, hfp⟩ | ⟨e, _⟩
    · exfalso
      have : p ∈ prismPts v0 v1 v2 h ∩ segment ℝ a b := ⟨hpS, onseg (C43_sound r f a (b - a) k.1 k.2 hr hf p hfp).1 hpM⟩
      rw [hemp] at this; exact this
    · exact e

/-- C50: for a non-degenerate base, a positive height and a proper segment, the answer is true exactly when the segment
meets the solid prism, and the location is a common point. -/
theorem C50_prismLine (s : TriPrism ℝ) (t : Line3 ℝ) (v0 v1 v2 a b : R3) (h : ℝ) (hs : s.Made v0 v1 v2 h) (ht : t.Made a b)
    (hh : 0 < h) (hab : a ≠ b) :
    ((prismPts v0 v1 v2 h ∩ segment ℝ a b).Nonempty →
      ∃ p ∈ prismPts v0 v1 v2 h ∩ segment ℝ a b, Shape.Finds (.triPrism s) (.line t) p) ∧
    (prismPts v0 v1 v2 h ∩ segment ℝ a b = ∅ → Shape.Misses (.triPrism s) (.line t)) := by
  obtain ⟨c1, c2, c3, c4⟩ := prismLine_core s t v0 v1 v2 a b h hs ht hh hab
  constructor
  · intro hne
    have hq := query_meet (.triPrism hs) (.line ht) hne
    by_cases h1 : a ∈ prismPts v0 v1 v2 h
    · obtain ⟨loc, e, hl⟩ := c1 h1
      exact ⟨a, ⟨h1, left_mem_segment ℝ a b⟩, loc, hq.trans e, hl⟩
    by_cases h2 : b ∈ prismPts v0 v1 v2 h
    · obtain ⟨loc, e, hl⟩ := c2 h1 h2
      exact ⟨b, ⟨h2, right_mem_segment ℝ a b⟩, loc, hq.trans e, hl⟩
    obtain ⟨loc, p, e, hl, hp, _⟩ := c3 h1 h2 hne
    exact ⟨p, hp, loc, hq.trans e, hl⟩
  · intro hemp
    unfold Shape.Misses
    rcases query_cases (.triPrism s) (.line t) with hq | hq
    · exact hq.trans (c4 hemp)
    · exact hq

/-- C50: unless only the end point `b` is inside, the location is the first common point seen from `a`; if `b` is inside
and `a` is not, it is `b`. -/
theorem C50_location (s : TriPrism ℝ) (t : Line3 ℝ) (v0 v1 v2 a b : R3) (h : ℝ) (hs : s.Made v0 v1 v2 h) (ht : t.Made a b)
    (hh : 0 < h) (hab : a ≠ b) (p : R3) (hp : Shape.Finds (.triPrism s) (.line t) p) :
    (a ∈ prismPts v0 v1 v2 h ∨ b ∉ prismPts v0 v1 v2 h →
      ∀ q ∈ prismPts v0 v1 v2 h ∩ segment ℝ a b, euc (p - a) ≤ euc (q - a)) ∧
    (a ∉ prismPts v0 v1 v2 h → b ∈ prismPts v0 v1 v2 h → p = b) := by
  obtain ⟨c1, c2, c3, c4⟩ := prismLine_core s t v0 v1 v2 a b h hs ht hh hab
  have hne : (prismPts v0 v1 v2 h ∩ segment ℝ a b).Nonempty := by
    rw [Set.nonempty_iff_ne_empty]
    exact fun he => hp.not_misses ((C50_prismLine s t v0 v1 v2 a b h hs ht hh hab).2 he)
  have hq := query_meet (.triPrism hs) (.line ht) hne
  constructor
  · intro hor q hqm
    by_cases h1 : a ∈ prismPts v0 v1 v2 h
    · obtain ⟨loc, e, hl⟩ := c1 h1
      rw [hp.unique ⟨loc, hq.trans e, hl⟩, sub_self, (euc_eq_zero _).mpr rfl]
      exact euc_nonneg _
    · obtain ⟨loc, p', e, hl, _, hf⟩ := c3 h1 (hor.resolve_left h1) hne
      rw [hp.unique ⟨loc, hq.trans e, hl⟩]
      exact hf q hqm
  · intro h1 h2
    obtain ⟨loc, e, hl⟩ := c2 h1 h2
    exact hp.unique ⟨loc, hq.trans e, hl⟩

/-- C50: for every prism of positive height, a zero-length segment at a point of the prism is found there; at a point outside
the prism it is wrongly reported, with NaN coordinates, as soon as the bounding boxes overlap. -/
theorem C50_zero_length (s : TriPrism ℝ) (t : Line3 ℝ) (v0 v1 v2 a : R3) (h : ℝ) (hs : s.Made v0 v1 v2 h) (ht : t.Made a a)
    (hh : 0 < h) :
    (a ∈ prismPts v0 v1 v2 h → Shape.Finds (.triPrism s) (.line t) a) ∧
    (a ∉ prismPts v0 v1 v2 h → (Shape.triPrism s).getBound.intersect (Shape.line t).getBound = .ok true →
      Shape.getIntersect 2 (.triPrism s) (.line t) = .ok (true, some ⟨#v[.nan, .nan, .nan]⟩)) := by
  obtain ⟨ha, hb, _⟩ := ht.facts
  have hin {y : V3 ℝ} {p : R3} (hy : y.IsR p) := (inside_real hs hy).trans (prism_halves hs.1 hh p)
  obtain ⟨fs, hfs, hfm⟩ := facets_made hs hh.ne'
  have hcore : core (.triPrism s) (.line t) =
      if s.inside t.a then .ok (true, some t.a) else if s.inside t.b then .ok (true, some t.b)
      else (Ray3.init (TriPrism.toList t.a) (TriPrism.toList (V3.sub t.b t.a)) >>= fun r =>
        TriPrism.facetLoop r s.testsP t.a (V3.mag (V3.sub t.b t.a)) fs) := by
    show TriPrism.intersectLine _ _ = _
    unfold TriPrism.intersectLine
    simp only [vecAt_line0, vecAt_line3, Res.ok_bind, TriPrism.tests_eq, allInside_ok, Res.pure_eq, V3.minus_eq,
      V3.magnitude_eq, unwrap_some, hfs]
    rfl
  constructor
  · intro h1
    refine ⟨t.a, ?_, ha⟩
    rw [query_meet (.triPrism hs) (.line ht) ⟨a, h1, left_mem_segment ℝ a a⟩, hcore, (hin ha).mpr h1]; rfl
  · intro h1 hbd
    rw [Shape.getBound_eq, Shape.getBound_eq, AABB.intersect_eq] at hbd
    rw [getIntersect_eq 0, Except.ok.inj hbd, if_pos rfl, hcore, Bool.eq_false_of_not_eq_true (fun h' => h1 ((hin ha).mp h')),
      Bool.eq_false_of_not_eq_true (fun h' => h1 ((hin hb).mp h'))]
    have hv := V3.isR_sub hb ha
    rw [sub_self] at hv
    obtain ⟨a0, a1, a2⟩ := Mat3x1.isR_iff.mp ha
    have hmag : (V3.mag (V3.sub t.b t.a)).Is 0 := (V3.is_mag hv).cast ((euc_eq_zero _).mpr rfl)
    generalize V3.sub t.b t.a = v at *
    obtain ⟨z0, z1, z2⟩ := Mat3x1.isR_iff.mp hv
    have hmv : v = ⟨#v[v.val[0], v.val[1], v.val[2]]⟩ := (V3.eta v).symm
    have hdir : V3.nrm v = ⟨#v[.nan, .nan, .nan]⟩ := by
      unfold V3.nrm
      rw [z0.div_zero_zero hmag, z1.div_zero_zero hmag, z2.div_zero_zero hmag]
    -- the ray
    obtain ⟨r, hr, ho, hd, hbnd⟩ : ∃ r, Ray3.init (TriPrism.toList t.a) (TriPrism.toList v) = .ok r ∧ r.ori = t.a ∧
        r.dir = V3.nrm v ∧ r.bound.HasR a := by
      refine ⟨_, rfl, (V3.eta t.a), ?_, ?_⟩
      · rw [hmv]; rfl
      · intro i
        fin_cases i
        · simpa using rayBound_has a0 z0 (le_refl 0)
        · simpa using rayBound_has a1 z1 (le_refl 0)
        · simpa using rayBound_has a2 z2 (le_refl 0)
    rw [hr]
    show TriPrism.facetLoop r s.testsP t.a (V3.mag v) fs = _
    rw [hdir] at hd
    cases hfm with
    | @cons f k fs ks hf _ =>
      have mn (x : Fl ℝ) : x * Fl.nan = Fl.nan := by cases x <;> rfl
      have an (x : Fl ℝ) : x + Fl.nan = Fl.nan := by cases x <;> rfl
      have na (x : Fl ℝ) : Fl.nan + x = Fl.nan := by cases x <;> rfl
      have nm (x : Fl ℝ) : Fl.nan * x = Fl.nan := by cases x <;> rfl
      have dn (x : Fl ℝ) : x / Fl.nan = Fl.nan := by cases x <;> rfl
      have sn (x : Fl ℝ) : Fl.nan - x = Fl.nan := by rw [Fl.sub_eq, na]
      have hden : V3.dotp f.normal r.dir = .nan := by rw [hd]; simp [V3.dotp, mn, an]
      have e : Shape.getIntersect 2 (.ray r) (.plane f) = .ok (true, some ⟨#v[.nan, .nan, .nan]⟩) := by
        rw [getIntersect_eq 0, if_pos]
        · show Ray3.intersectPlane _ _ = _
          unfold Ray3.intersectPlane
          simp only [vecAt_plane0, vecAt_plane3, Res.ok_bind, V3.dot_eq, V3.scale_eq, V3.plus_eq, unwrap_some, Res.pure_eq, hden, dn]
          simp [Fl.feq, Fl.lt, hd, V3.scl, V3.add, nm, na]
        · show AABB.overlap r.bound f.bound = true
          rw [hf.facts.2.2]
          exact AABB.overlap_of_has _ _ hbnd (AABB.default_hasR a)
      have hins : s.inside ⟨#v[.nan, .nan, .nan]⟩ = true := by
        unfold TriPrism.inside
        rw [List.all_eq_true]
        intro x _
        simp [V3.dotp, V3.sub, sn, nm, na, Fl.lt]
      rw [TriPrism.facetLoop, ray_getIntersect, e]
      simp only [Res.ok_bind, unwrap_some, V3.minus_eq, V3.magnitude_eq, allInside_ok, if_true]
      rw [show (s.testsP.all fun vn => !Fl.lt 0 (V3.dotp (V3.sub ⟨#v[.nan, .nan, .nan]⟩ vn.1) vn.2)) = true from hins,
        if_neg]
      have : V3.mag (V3.sub ⟨#v[.nan, .nan, .nan]⟩ t.a) = .nan := by
        simp [V3.mag, V3.sub, sn, Fl.powi2, nm, na, Fl.sqrt]
      rw [this]
      cases V3.mag v <;> simp [Fl.lt]

/-- concrete case -/
example := C50_zero_length _ _ _ _ _ _ _ (mkPrism_made 0) (mkLine_made ![1 / 4, 1 / 4, 1] ![1 / 4, 1 / 4, 1] 0) (by norm_num)

/-- C50: a zero-length segment outside the prism but inside its bounding box is reported, with a NaN location. Witness in
binary64: prism over `(0,0,0) (1,0,0) (1,1,0)` of height 1 and the segment from `(1/4,3/4,1/2)` to itself. -/
theorem C50_degenerate_false : ∃ (s : TriPrism Q64) (t : Line3 Q64) (p : Point3 Q64),
    TriPrism.init [0, 0, 0, 1, 0, 0, 1, 1, 0] 1 = .ok s ∧
    Line3.init [.fin (1 / 4), .fin (3 / 4), .fin (1 / 2)] [.fin (1 / 4), .fin (3 / 4), .fin (1 / 2)] = .ok t ∧
    Point3.init [.fin (1 / 4), .fin (3 / 4), .fin (1 / 2)] = .ok p ∧
    Shape.getIntersect 2 (.triPrism s) (.point p) = .ok (false, none) ∧
    Shape.getIntersect 2 (.triPrism s) (.line t) = .ok (true, some ⟨#v[.nan, .nan, .nan]⟩) :=
  ⟨_, _, _, rfl, rfl, rfl, by decide +kernel, by decide +kernel⟩

/-- C50, non-vacuity: a segment that passes through the prism with both ends outside, and one that misses it. -/
example : ∃ s t t', TriPrism.Made s 0 ![1, 0, 0] ![0, 1, 0] 2 ∧ Line3.Made t ![1 / 4, 1 / 4, 5] ![1 / 4, 1 / 4, -5] ∧
    Line3.Made t' ![1, 1, 5] ![1, 1, -5] ∧ Shape.Finds (.triPrism s) (.line t) ![1 / 4, 1 / 4, 2] ∧
    Shape.Misses (.triPrism s) (.line t') := by
  obtain ⟨hN', hn⟩ := prism_example
  obtain ⟨s, hs, _⟩ := TriPrism.exists_made 0 ![1, 0, 0] ![0, 1, 0] 2 hN' 0
  obtain ⟨t, ht, _⟩ := Line3.exists_made ![1 / 4, 1 / 4, 5] ![1 / 4, 1 / 4, -5] 0
  obtain ⟨t', ht', _⟩ := Line3.exists_made ![1, 1, 5] ![1, 1, -5] 0
  have hc := fun p => prism_coords 0 ![1, 0, 0] ![0, 1, 0] 2 p
  rw [hn] at hc
  have ne1 : (![1 / 4, 1 / 4, 5] : R3) ≠ ![1 / 4, 1 / 4, -5] := fun h => by
    have : (5 : ℝ) = -5 := congrFun h 2
    norm_num at this
  have ne2 : (![1, 1, 5] : R3) ≠ ![1, 1, -5] := fun h => by
    have : (5 : ℝ) = -5 := congrFun h 2
    norm_num at this
  have hq : (![1 / 4, 1 / 4, 2] : R3) ∈ prismPts 0 ![1, 0, 0] ![0, 1, 0] 2 ∩ segment ℝ ![1 / 4, 1 / 4, 5] ![1 / 4, 1 / 4, -5] := by
    constructor
    · rw [hc]
      refine ⟨1 / 4, 1 / 4, 1, by norm_num, by norm_num, by norm_num, by norm_num, by norm_num, ?_⟩
      ext i; fin_cases i <;> simp
    · rw [segment_eq_image']
      refine ⟨3 / 10, by constructor <;> norm_num, ?_⟩
      ext i; fin_cases i <;> simp; norm_num
  have hb : (![1 / 4, 1 / 4, -5] : R3) ∉ prismPts 0 ![1, 0, 0] ![0, 1, 0] 2 := by
    rw [hc]
    rintro ⟨α, β, γ, _, _, _, _, _, e⟩
    have := congrFun e 2
    simp at this
    linarith
  refine ⟨s, t, t', hs, ht, ht', ?_, (C50_prismLine _ _ _ _ _ _ _ _ hs ht' (by norm_num) ne2).2 ?_⟩
  · obtain ⟨p, ⟨hp, hps⟩, hf⟩ := (C50_prismLine _ _ _ _ _ _ _ _ hs ht (by norm_num) ne1).1 ⟨_, hq⟩
    have hfirst := (C50_location _ _ _ _ _ _ _ _ hs ht (by norm_num) ne1 p hf).1 (.inr hb) _ hq
    rw [segment_eq_image'] at hps
    obtain ⟨τ, ⟨h0, h1⟩, rfl⟩ := hps
    have e1 : euc ((![1 / 4, 1 / 4, 2] : R3) - ![1 / 4, 1 / 4, 5]) = 3 := by
      have := euc_single 2 (-3)
      rw [show (Pi.single 2 (-3) : R3) = ![1 / 4, 1 / 4, 2] - ![1 / 4, 1 / 4, 5] by ext i; fin_cases i <;> simp; norm_num] at this
      rw [this]; norm_num
    have e2 := euc_coord_le ((fun θ : ℝ => ![1 / 4, 1 / 4, 5] + θ • (![1 / 4, 1 / 4, -5] - ![1 / 4, 1 / 4, 5] : R3)) τ - ![1 / 4, 1 / 4, 5]) 2
    rw [e1] at hfirst
    have e3 := (abs_le.mp (e2.trans hfirst)).1
    rw [hc] at hp
    obtain ⟨α, β, γ, _, _, _, _, hγ, e⟩ := hp
    have e4 := congrFun e 2
    simp at e3 e4
    have : τ = 3 / 10 := by linarith
    subst this
    convert hf using 1
    ext i; fin_cases i <;> simp; norm_num
  · ext p
    simp only [Set.mem_inter_iff, Set.mem_empty_iff_false, iff_false, not_and]
    rw [hc, segment_eq_image']
    rintro ⟨α, β, γ, _, _, h, _, _, e⟩ ⟨τ, _, e'⟩
    rw [← e'] at e
    have e0 := congrFun e 0
    have e1 := congrFun e 1
    simp at e0 e1
    linarith
example : ∃ (s : TriPrism Q64) (t t' : Line3 Q64), TriPrism.init [0, 0, 0, 1, 0, 0, 0, 1, 0] (.fin 2) = .ok s ∧
    Line3.init [.fin (1 / 4), .fin (1 / 4), .fin 5] [.fin (1 / 4), .fin (1 / 4), .fin (-5)] = .ok t ∧
    Line3.init [1, 1, .fin 5] [1, 1, .fin (-5)] = .ok t' ∧
    Shape.getIntersect 2 (.triPrism s) (.line t) = .ok (true, some ⟨#v[.fin (1 / 4), .fin (1 / 4), .fin 2]⟩) ∧
    Shape.getIntersect 2 (.triPrism s) (.line t') = .ok (false, none) :=
  ⟨_, _, _, rfl, rfl, rfl, by decide +kernel, by decide +kernel⟩

end Mazth
