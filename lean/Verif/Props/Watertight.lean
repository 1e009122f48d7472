import Verif.Props.PrismQueries
import Verif.Props.FloatPrismPoint

/-!
# C111: a convex quadrilateral split into two prisms
-/

set_option linter.unusedSectionVars false
set_option autoImplicit false

namespace Mazth

open Matrix

/-- the solid slab over the quadrilateral `v0 v1 v2 v3`, spanned by the vector `n` -/
noncomputable def slabPts (v0 v1 v2 v3 n : R3) : Set R3 :=
  convexHull ℝ {v0, v1, v2, v3, v0 + n, v1 + n, v2 + n, v3 + n}

/-- `v0 v1 v2 v3` is a convex quadrilateral: its diagonals cross -/
def Crossing (v0 v1 v2 v3 : R3) : Prop := (segment ℝ v0 v2 ∩ openSegment ℝ v1 v3).Nonempty

/-- both halves of the quadrilateral have the same unit normal -/
theorem crossing_normal {v0 v1 v2 v3 : R3} (hc : Crossing v0 v1 v2 v3) (hN : (v1 - v0) ⨯₃ (v2 - v0) ≠ 0) :
    triNormal v0 v2 v3 = triNormal v0 v1 v2 := by
  obtain ⟨c, ⟨a, b, ha, hb, hab, e1⟩, ⟨x, y, hx, hy, hxy, e2⟩⟩ := hc
  have key : (v2 - v0) ⨯₃ (v3 - v0) = (x / y) • ((v1 - v0) ⨯₃ (v2 - v0)) := by
    have hr : ∀ i, a * v0 i + b * v2 i = x * v1 i + y * v3 i := fun i => by
      simpa using congrFun (e1.trans e2.symm) i
    have h3 : ∀ i, v3 i - v0 i = (b / y) * (v2 i - v0 i) - (x / y) * (v1 i - v0 i) := by
      intro i
      have := hr i
      field_simp
      have ea : a = 1 - b := by linarith
      have ey : y = 1 - x := by linarith
      subst ea; subst ey
      linarith
    have h0 := h3 0; have h1 := h3 1; have h2 := h3 2
    funext i
    fin_cases i <;> simp only [cross_apply, Pi.smul_apply, Pi.sub_apply, smul_eq_mul] <;> simp [h0, h1, h2] <;> ring
  have hpos : 0 < x / y := div_pos hx hy
  have hE := euc_pos hN
  have he : euc ((v2 - v0) ⨯₃ (v3 - v0)) = x / y * euc ((v1 - v0) ⨯₃ (v2 - v0)) := by
    rw [key, euc_smul, abs_of_pos hpos]
  rw [triNormal, triNormal, he, key, smul_smul]
  congr 1
  field_simp

/-- the slab is the union of its two halves -/
theorem slab_union {v0 v1 v2 v3 : R3} (h : ℝ) (hc : Crossing v0 v1 v2 v3) (hN : (v1 - v0) ⨯₃ (v2 - v0) ≠ 0) :
    slabPts v0 v1 v2 v3 (h • triNormal v0 v1 v2) = prismPts v0 v1 v2 h ∪ prismPts v0 v2 v3 h := by
  have hn := crossing_normal hc hN
  apply Set.Subset.antisymm
  · intro p hp
    have hconv : Convex ℝ {p : R3 | ∃ c0 c1 c2 c3 γ : ℝ, 0 ≤ c0 ∧ 0 ≤ c1 ∧ 0 ≤ c2 ∧ 0 ≤ c3 ∧ c0 + c1 + c2 + c3 = 1 ∧ 0 ≤ γ ∧ γ ≤ 1 ∧
        p = c0 • v0 + c1 • v1 + c2 • v2 + c3 • v3 + γ • (h • triNormal v0 v1 v2)} := by
      rintro x ⟨a0, a1, a2, a3, γ, k0, k1, k2, k3, ks, g0, g1, rfl⟩ y ⟨b0, b1, b2, b3, γ', l0, l1, l2, l3, ls, g0', g1', rfl⟩ s t hs ht hst
      refine ⟨s * a0 + t * b0, s * a1 + t * b1, s * a2 + t * b2, s * a3 + t * b3, s * γ + t * γ', by positivity, by positivity,
        by positivity, by positivity, ?_, by positivity, ?_, ?_⟩
      · linear_combination s * ks + t * ls + hst
      · nlinarith
      · module
    obtain ⟨c0, c1, c2, c3, γ, k0, k1, k2, k3, ks, g0, g1, rfl⟩ := convexHull_min (by
      rintro q (rfl | rfl | rfl | rfl | rfl | rfl | rfl | rfl)
      · exact ⟨1, 0, 0, 0, 0, by norm_num, by norm_num, by norm_num, by norm_num, by norm_num, by norm_num, by norm_num, by module⟩
      · exact ⟨0, 1, 0, 0, 0, by norm_num, by norm_num, by norm_num, by norm_num, by norm_num, by norm_num, by norm_num, by module⟩
      · exact ⟨0, 0, 1, 0, 0, by norm_num, by norm_num, by norm_num, by norm_num, by norm_num, by norm_num, by norm_num, by module⟩
      · exact ⟨0, 0, 0, 1, 0, by norm_num, by norm_num, by norm_num, by norm_num, by norm_num, by norm_num, by norm_num, by module⟩
      · exact ⟨1, 0, 0, 0, 1, by norm_num, by norm_num, by norm_num, by norm_num, by norm_num, by norm_num, by norm_num, by module⟩
      · exact ⟨0, 1, 0, 0, 1, by norm_num, by norm_num, by norm_num, by norm_num, by norm_num, by norm_num, by norm_num, by module⟩
      · exact ⟨0, 0, 1, 0, 1, by norm_num, by norm_num, by norm_num, by norm_num, by norm_num, by norm_num, by norm_num, by module⟩
      · exact ⟨0, 0, 0, 1, 1, by norm_num, by norm_num, by norm_num, by norm_num, by norm_num, by norm_num, by norm_num, by module⟩)
      hconv hp
    obtain ⟨c, ⟨a, b, ha, hb, hab, e1⟩, ⟨x, y, hx, hy, hxy, e2⟩⟩ := hc
    have hr : ∀ i, a * v0 i + b * v2 i = x * v1 i + y * v3 i := fun i => by
      simpa using congrFun (e1.trans e2.symm) i
    rcases le_total (c1 * y) (c3 * x) with hle | hle
    · right
      rw [prism_coords, hn]
      obtain ⟨l, hl⟩ : ∃ l, l = c1 / x := ⟨_, rfl⟩
      have hl0 : 0 ≤ l := hl ▸ div_nonneg k1 hx.le
      have hlx : l * x = c1 := by rw [hl]; field_simp
      have h3 : 0 ≤ c3 - l * y := by
        have : l * y ≤ c3 := by rw [hl, div_mul_eq_mul_div, div_le_iff₀ hx]; exact hle
        linarith
      refine ⟨c2 + l * b, c3 - l * y, γ, by positivity, h3, ?_, g0, g1, ?_⟩
      · have := mul_nonneg hl0 ha
        nlinarith
      · funext i
        simp only [Pi.add_apply, Pi.smul_apply, Pi.sub_apply, smul_eq_mul]
        linear_combination (-l) * hr i + v0 i * ks - v1 i * hlx + l * v0 i * hab - l * v0 i * hxy + v0 i * hlx
    · left
      rw [prism_coords]
      obtain ⟨l, hl⟩ : ∃ l, l = c3 / y := ⟨_, rfl⟩
      have hl0 : 0 ≤ l := hl ▸ div_nonneg k3 hy.le
      have hlx : l * y = c3 := by rw [hl]; field_simp
      have h3 : 0 ≤ c1 - l * x := by
        have : l * x ≤ c1 := by rw [hl, div_mul_eq_mul_div, div_le_iff₀ hy]; exact hle
        linarith
      refine ⟨c1 - l * x, c2 + l * b, γ, h3, by positivity, ?_, g0, g1, ?_⟩
      · have := mul_nonneg hl0 ha
        nlinarith
      · funext i
        simp only [Pi.add_apply, Pi.smul_apply, Pi.sub_apply, smul_eq_mul]
        linear_combination (-l) * hr i + v0 i * ks - v3 i * hlx + l * v0 i * hab - l * v0 i * hxy + v0 i * hlx
  · rintro p (hp | hp)
    · exact convexHull_mono (by unfold prismVerts; rintro q (rfl | rfl | rfl | rfl | rfl | rfl) <;> simp) hp
    · exact convexHull_mono (by unfold prismVerts; rw [hn]; rintro q (rfl | rfl | rfl | rfl | rfl | rfl) <;> simp) hp

/-- C111: in exact arithmetic two prisms over the halves of a convex quadrilateral have no gap and no excess: a point is found by at
least one of the two queries exactly when it lies in the slab over the quadrilateral. -/
theorem C111_point (s1 s2 : TriPrism ℝ) (t : Point3 ℝ) (v0 v1 v2 v3 p : R3) (h : ℝ) (h1 : s1.Made v0 v1 v2 h) (h2 : s2.Made v0 v2 v3 h)
    (ht : t.Made p) (hh : 0 < h) (hc : Crossing v0 v1 v2 v3) :
    (p ∈ slabPts v0 v1 v2 v3 (h • triNormal v0 v1 v2) →
      Shape.Finds (.triPrism s1) (.point t) p ∨ Shape.Finds (.triPrism s2) (.point t) p) ∧
    (p ∉ slabPts v0 v1 v2 v3 (h • triNormal v0 v1 v2) →
      Shape.Misses (.triPrism s1) (.point t) ∧ Shape.Misses (.triPrism s2) (.point t)) := by
  rw [slab_union h hc h1.1]
  have k1 := C49_prismPoint s1 t v0 v1 v2 p h h1 ht hh
  have k2 := C49_prismPoint s2 t v0 v2 v3 p h h2 ht hh
  exact ⟨Or.imp k1.1 k2.1, fun hn => ⟨k1.2 fun hp => hn (.inl hp), k2.2 fun hp => hn (.inr hp)⟩⟩

/-- C111: the same for a segment: if it meets the slab, one of the two queries reports a point it shares with the slab; if it does not,
neither reports anything. -/
theorem C111_line (s1 s2 : TriPrism ℝ) (t : Line3 ℝ) (v0 v1 v2 v3 a b : R3) (h : ℝ) (h1 : s1.Made v0 v1 v2 h) (h2 : s2.Made v0 v2 v3 h)
    (ht : t.Made a b) (hh : 0 < h) (hab : a ≠ b) (hc : Crossing v0 v1 v2 v3) :
    ((slabPts v0 v1 v2 v3 (h • triNormal v0 v1 v2) ∩ segment ℝ a b).Nonempty →
      ∃ p ∈ slabPts v0 v1 v2 v3 (h • triNormal v0 v1 v2) ∩ segment ℝ a b,
        Shape.Finds (.triPrism s1) (.line t) p ∨ Shape.Finds (.triPrism s2) (.line t) p) ∧
    (slabPts v0 v1 v2 v3 (h • triNormal v0 v1 v2) ∩ segment ℝ a b = ∅ →
      Shape.Misses (.triPrism s1) (.line t) ∧ Shape.Misses (.triPrism s2) (.line t)) := by
  rw [slab_union h hc h1.1]
  have k1 := C50_prismLine s1 t v0 v1 v2 a b h h1 ht hh hab
  have k2 := C50_prismLine s2 t v0 v2 v3 a b h h2 ht hh hab
  constructor
  · rintro ⟨q, hq | hq, hs⟩
    · obtain ⟨p, ⟨m, hm⟩, hp⟩ := k1.1 ⟨q, hq, hs⟩
      exact ⟨p, ⟨.inl m, hm⟩, .inl hp⟩
    · obtain ⟨p, ⟨m, hm⟩, hp⟩ := k2.1 ⟨q, hq, hs⟩
      exact ⟨p, ⟨.inr m, hm⟩, .inr hp⟩
  · intro he
    rw [Set.union_inter_distrib_right, Set.union_empty_iff] at he
    exact ⟨k1.2 he.1, k2.2 he.2⟩

/-- the quadrilateral `(0,0) (2,-2) (3,1) (1,3)` -/
theorem quad_crossing : Crossing 0 ![2, -2, 0] ![3, 1, 0] ![1, 3, 0] := by
  refine ⟨![3 / 2, 1 / 2, 0], ⟨1 / 2, 1 / 2, by norm_num, by norm_num, by norm_num, ?_⟩,
    ⟨1 / 2, 1 / 2, by norm_num, by norm_num, by norm_num, ?_⟩⟩ <;> funext i <;> fin_cases i <;> norm_num

theorem quad_ne1 : (![2, -2, 0] - 0 : R3) ⨯₃ (![3, 1, 0] - 0) ≠ 0 := fun h => by
  have := congrFun h 2
  simp [cross_apply] at this
  norm_num at this

theorem quad_ne2 : (![3, 1, 0] - 0 : R3) ⨯₃ (![1, 3, 0] - 0) ≠ 0 := fun h => by
  have := congrFun h 2
  simp [cross_apply] at this
  norm_num at this

/-- the unit normal of the quadrilateral -/
theorem quad_normal : triNormal 0 ![2, -2, 0] ![3, 1, 0] = ![0, 0, 1] := by
  have hx : (![2, -2, 0] - 0 : R3) ⨯₃ (![3, 1, 0] - 0) = ![0, 0, 8] := by
    funext i; fin_cases i <;> simp [cross_apply]; norm_num
  have he : euc ![0, 0, 8] = 8 := by
    rw [euc, EuclideanSpace.norm_eq, show ∑ i : Fin 3, ‖(!₂[0, 0, 8] : EuclideanSpace ℝ (Fin 3)) i‖ ^ 2 = 8 ^ 2 by simp [Fin.sum_univ_three]]
    exact Real.sqrt_sq (by norm_num)
  rw [triNormal, hx, he]
  funext i; fin_cases i <;> simp

/-- concrete case: a point exactly on the shared diagonal, half-way up, is found by one of the two prisms; a point left of the
quadrilateral by neither -/
example : ∃ (s1 s2 : TriPrism ℝ) (t t' : Point3 ℝ),
    (Shape.Finds (.triPrism s1) (.point t) ![3 / 2, 1 / 2, 1] ∨ Shape.Finds (.triPrism s2) (.point t) ![3 / 2, 1 / 2, 1]) ∧
    Shape.Misses (.triPrism s1) (.point t') ∧ Shape.Misses (.triPrism s2) (.point t') := by
  obtain ⟨s1, h1, -⟩ := TriPrism.exists_made 0 ![2, -2, 0] ![3, 1, 0] 2 quad_ne1 0
  obtain ⟨s2, h2, -⟩ := TriPrism.exists_made 0 ![3, 1, 0] ![1, 3, 0] 2 quad_ne2 0
  obtain ⟨t, ht, -⟩ := Point3.exists_made ![3 / 2, 1 / 2, 1] 0
  obtain ⟨t', ht', -⟩ := Point3.exists_made ![-1, 0, 1] 0
  refine ⟨s1, s2, t, t', (C111_point s1 s2 t _ _ _ _ _ _ h1 h2 ht (by norm_num) quad_crossing).1 ?_,
    (C111_point s1 s2 t' _ _ _ _ _ _ h1 h2 ht' (by norm_num) quad_crossing).2 ?_⟩
  · rw [slab_union 2 quad_crossing quad_ne1]
    left
    rw [prism_coords, quad_normal]
    exact ⟨0, 1 / 2, 1 / 2, by norm_num, by norm_num, by norm_num, by norm_num, by norm_num, by
      funext i; fin_cases i <;> norm_num⟩
  · rw [slab_union 2 quad_crossing quad_ne1]
    rintro (h | h)
    · rw [prism_coords] at h
      obtain ⟨α, β, γ, h1, h2, -, -, -, e⟩ := h
      rw [quad_normal] at e
      have e0 := congrFun e 0
      simp at e0
      linarith
    · rw [prism_coords] at h
      obtain ⟨α, β, γ, h1, h2, -, -, -, e⟩ := h
      rw [crossing_normal quad_crossing quad_ne1, quad_normal] at e
      have e0 := congrFun e 0
      simp at e0
      linarith

/-- concrete case: a vertical segment that passes through both solids only along the shared wall is found by one of them -/
example : ∃ (s1 s2 : TriPrism ℝ) (t : Line3 ℝ) (p : R3), p ∈ segment ℝ (![3 / 2, 1 / 2, -1] : R3) ![3 / 2, 1 / 2, 3] ∧
    (Shape.Finds (.triPrism s1) (.line t) p ∨ Shape.Finds (.triPrism s2) (.line t) p) := by
  obtain ⟨s1, h1, -⟩ := TriPrism.exists_made 0 ![2, -2, 0] ![3, 1, 0] 2 quad_ne1 0
  obtain ⟨s2, h2, -⟩ := TriPrism.exists_made 0 ![3, 1, 0] ![1, 3, 0] 2 quad_ne2 0
  obtain ⟨t, ht, -⟩ := Line3.exists_made ![3 / 2, 1 / 2, -1] ![3 / 2, 1 / 2, 3] 0
  obtain ⟨p, ⟨-, hp⟩, hf⟩ := (C111_line s1 s2 t _ _ _ _ _ _ _ h1 h2 ht (by norm_num)
    (fun h => by have := congrFun h 2; simp at this; norm_num at this) quad_crossing).1 ⟨![3 / 2, 1 / 2, 1], by
      rw [slab_union 2 quad_crossing quad_ne1]
      left
      rw [prism_coords, quad_normal]
      exact ⟨0, 1 / 2, 1 / 2, by norm_num, by norm_num, by norm_num, by norm_num, by norm_num, by
        funext i; fin_cases i <;> norm_num⟩,
      1 / 2, 1 / 2, by norm_num, by norm_num, by norm_num, by funext i; fin_cases i <;> norm_num⟩
  exact ⟨s1, s2, t, p, hp, hf⟩

/-- the f64 nearest to `0.9` -/
def nineTenths : Q64 := (8106479329266893 / 2 ^ 53 : ℚ)
/-- an f64 next to `0.3` -/
def threeTenths : Q64 := (5404319552844595 / 2 ^ 54 : ℚ)

/-- C111: in f64 the shared wall leaks: the point `(0.9, 0.3, 1)` (rounded to f64) lies well inside the slab over the quadrilateral
`(0,0) (2,-2) (3,1) (1,3)`, together with every point closer than `1/10` to it, and both prisms report a miss. -/
theorem C111_leak_false : ∃ (s1 s2 : TriPrism Q64) (t : Point3 Q64) (P : Fin 3 → Q64),
    TriPrism.init [0, 0, 0, .fin 2, .fin (-2), 0, .fin 3, 1, 0] (.fin 2) = .ok s1 ∧
    TriPrism.init [0, 0, 0, .fin 3, 1, 0, 1, .fin 3, 0] (.fin 2) = .ok s2 ∧
    Point3.init [.fin nineTenths, .fin threeTenths, 1] = .ok t ∧ (⟨#v[.fin nineTenths, .fin threeTenths, 1]⟩ : V3 Q64).Holds P ∧
    Shape.getIntersect 2 (.triPrism s1) (.point t) = .ok (false, none) ∧
    Shape.getIntersect 2 (.triPrism s2) (.point t) = .ok (false, none) ∧
    ∀ q : R3, (∀ i, |q i - toR BinQ.real P i| ≤ 1 / 10) →
      q ∈ slabPts 0 ![2, -2, 0] ![3, 1, 0] ![1, 3, 0] ((2 : ℝ) • triNormal 0 ![2, -2, 0] ![3, 1, 0]) := by
  refine ⟨_, _, _, ![nineTenths, threeTenths, (1 : ℚ)], rfl, rfl, rfl,
    mk_holds ⟨rfl, .inr (by decide +kernel)⟩ ⟨rfl, .inr (by decide +kernel)⟩ ⟨rfl, .inr (by decide +kernel)⟩,
    by decide +kernel, by decide +kernel, ?_⟩
  intro q hq
  have q0 : |q 0 - ((8106479329266893 / 2 ^ 53 : ℚ) : ℝ)| ≤ 1 / 10 := hq 0
  have q1 : |q 1 - ((5404319552844595 / 2 ^ 54 : ℚ) : ℝ)| ≤ 1 / 10 := hq 1
  have q2 : |q 2 - ((1 : ℚ) : ℝ)| ≤ 1 / 10 := hq 2
  rw [abs_le] at q0 q1 q2
  norm_num at q0 q1 q2
  rw [slab_union 2 quad_crossing quad_ne1]
  rcases le_total (3 * q 1) (q 0) with hle | hle
  · left
    rw [prism_coords, quad_normal]
    refine ⟨(q 0 - 3 * q 1) / 8, (q 0 + q 1) / 4, q 2 / 2, by linarith, by linarith, by linarith, by linarith, by linarith, ?_⟩
    funext i; fin_cases i <;> simp <;> ring
  · right
    rw [prism_coords, crossing_normal quad_crossing quad_ne1, quad_normal]
    refine ⟨(3 * q 0 - q 1) / 8, (3 * q 1 - q 0) / 8, q 2 / 2, by linarith, by linarith, by linarith, by linarith, by linarith, ?_⟩
    funext i; fin_cases i <;> simp <;> ring

end Mazth
