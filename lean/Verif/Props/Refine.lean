import Verif.Props.Watertight

/-!
# C114: cutting a prism into smaller prisms

A client refines a prism: the base triangle is cut into three at a point inside it, or the prism is cut into two of smaller height.
-/

set_option linter.unusedSectionVars false
set_option autoImplicit false

namespace Mazth

open Matrix

/-- triangles with positively proportional edge products have the same unit normal -/
theorem normal_smul {a b c x y z : R3} {k : ℝ} (hk : 0 < k) (hN : (b - a) ⨯₃ (c - a) ≠ 0)
    (h : (y - x) ⨯₃ (z - x) = k • ((b - a) ⨯₃ (c - a))) : triNormal x y z = triNormal a b c := by
  have hE := euc_pos hN
  rw [triNormal, triNormal, h, euc_smul, abs_of_pos hk, smul_smul]
  congr 1
  field_simp

/-- `w` is the point of the open triangle `v0 v1 v2` with weights `a b c` -/
structure Inner (v0 v1 v2 w : R3) (a b c : ℝ) : Prop where
  ha : 0 < a
  hb : 0 < b
  hc : 0 < c
  sum : a + b + c = 1
  eq : w = a • v0 + b • v1 + c • v2

theorem Inner.rot {v0 v1 v2 w : R3} {a b c : ℝ} (h : Inner v0 v1 v2 w a b c) : Inner v1 v2 v0 w b c a :=
  ⟨h.hb, h.hc, h.ha, by linarith [h.sum], by rw [h.eq]; module⟩

theorem cross_rot (v0 v1 v2 : R3) : (v2 - v1) ⨯₃ (v0 - v1) = (v1 - v0) ⨯₃ (v2 - v0) := by
  funext i; fin_cases i <;> simp [cross_apply] <;> ring

theorem Inner.cross {v0 v1 v2 w : R3} {a b c : ℝ} (h : Inner v0 v1 v2 w a b c) :
    (v1 - v0) ⨯₃ (w - v0) = c • ((v1 - v0) ⨯₃ (v2 - v0)) := by
  obtain ⟨-, -, -, hs, rfl⟩ := h
  obtain rfl : a = 1 - b - c := by linarith
  funext i; fin_cases i <;> simp [cross_apply] <;> ring

/-- the prism by weights of its base vertices -/
theorem prism_weights {v0 v1 v2 p : R3} {h : ℝ} : p ∈ prismPts v0 v1 v2 h ↔ ∃ x y z γ : ℝ, 0 ≤ x ∧ 0 ≤ y ∧ 0 ≤ z ∧ x + y + z = 1 ∧
    0 ≤ γ ∧ γ ≤ 1 ∧ p = x • v0 + y • v1 + z • v2 + γ • (h • triNormal v0 v1 v2) := by
  rw [prism_coords]
  constructor
  · rintro ⟨α, β, γ, h1, h2, h3, h4, h5, rfl⟩
    exact ⟨1 - α - β, α, β, γ, by linarith, h1, h2, by ring, h4, h5, by module⟩
  · rintro ⟨x, y, z, γ, h1, h2, h3, hs, h4, h5, rfl⟩
    obtain rfl : x = 1 - y - z := by linarith
    exact ⟨y, z, γ, h2, h3, by linarith, h4, h5, by module⟩

theorem prism_rot {v0 v1 v2 : R3} {h : ℝ} (hN : (v1 - v0) ⨯₃ (v2 - v0) ≠ 0) : prismPts v1 v2 v0 h = prismPts v0 v1 v2 h := by
  have hn : triNormal v1 v2 v0 = triNormal v0 v1 v2 := normal_smul one_pos hN (by rw [one_smul, cross_rot])
  ext p
  rw [prism_weights, prism_weights, hn]
  constructor
  · rintro ⟨x, y, z, γ, h1, h2, h3, hs, h4, h5, rfl⟩
    exact ⟨z, x, y, γ, h3, h1, h2, by linarith, h4, h5, by module⟩
  · rintro ⟨x, y, z, γ, h1, h2, h3, hs, h4, h5, rfl⟩
    exact ⟨y, z, x, γ, h2, h3, h1, by linarith, h4, h5, by module⟩

section
variable {v0 v1 v2 w : R3} {a b c : ℝ} (hI : Inner v0 v1 v2 w a b c) (hN : (v1 - v0) ⨯₃ (v2 - v0) ≠ 0)
include hI hN

theorem Inner.normal : triNormal v0 v1 w = triNormal v0 v1 v2 := normal_smul hI.hc hN hI.cross

/-- a part lies in the whole -/
theorem Inner.part_sub (h : ℝ) : prismPts v0 v1 w h ⊆ prismPts v0 v1 v2 h := by
  intro p
  rw [prism_weights, prism_weights, hI.normal hN]
  rintro ⟨x, y, z, γ, h1, h2, h3, hs, h4, h5, rfl⟩
  obtain ⟨ha, hb, hc, hsum, rfl⟩ := hI
  refine ⟨x + z * a, y + z * b, z * c, γ, by positivity, by positivity, by positivity, ?_, h4, h5, by module⟩
  linear_combination hs + z * hsum

/-- points whose third weight is relatively smallest lie in the first part -/
theorem Inner.mem_part {h x y z γ : ℝ} (hz : 0 ≤ z) (hs : x + y + z = 1) (h4 : 0 ≤ γ) (h5 : γ ≤ 1)
    (k1 : z * a ≤ x * c) (k2 : z * b ≤ y * c) :
    x • v0 + y • v1 + z • v2 + γ • (h • triNormal v0 v1 v2) ∈ prismPts v0 v1 w h := by
  rw [prism_weights, hI.normal hN]
  obtain ⟨ha, hb, hc, hsum, rfl⟩ := hI
  obtain ⟨l, hl⟩ : ∃ l, l = z / c := ⟨_, rfl⟩
  have hlc : l * c = z := by rw [hl]; field_simp
  have hl0 : 0 ≤ l := hl ▸ div_nonneg hz hc.le
  have q1 : l * a ≤ x := by rw [hl, div_mul_eq_mul_div, div_le_iff₀ hc]; exact k1
  have q2 : l * b ≤ y := by rw [hl, div_mul_eq_mul_div, div_le_iff₀ hc]; exact k2
  refine ⟨x - l * a, y - l * b, l, γ, by linarith, by linarith, hl0, ?_, h4, h5, ?_⟩
  · linear_combination hs - l * hsum + hlc
  · rw [← hlc]; module

end

/-- the prism is the union of the three prisms over the parts of its base -/
theorem fan_union {v0 v1 v2 w : R3} {a b c : ℝ} (h : ℝ) (hI : Inner v0 v1 v2 w a b c) (hN : (v1 - v0) ⨯₃ (v2 - v0) ≠ 0) :
    prismPts v0 v1 v2 h = prismPts v0 v1 w h ∪ (prismPts v1 v2 w h ∪ prismPts v2 v0 w h) := by
  have hN1 : (v2 - v1) ⨯₃ (v0 - v1) ≠ 0 := by rw [cross_rot]; exact hN
  have hN2 : (v0 - v2) ⨯₃ (v1 - v2) ≠ 0 := by rw [cross_rot]; exact hN1
  have r1 := prism_rot (h := h) hN
  have r2 := prism_rot (h := h) hN1
  have n1 : triNormal v1 v2 v0 = triNormal v0 v1 v2 := normal_smul one_pos hN (by rw [one_smul, cross_rot])
  have n2 : triNormal v2 v0 v1 = triNormal v1 v2 v0 := normal_smul one_pos hN1 (by rw [one_smul, cross_rot])
  apply Set.Subset.antisymm
  · intro p hp
    rw [prism_weights] at hp
    obtain ⟨x, y, z, γ, h1, h2, h3, hs, h4, h5, rfl⟩ := hp
    have ha := hI.ha; have hb := hI.hb; have hc := hI.hc
    have conv {s t u v : ℝ} (hu : 0 < u) (hv : 0 < v) : s * v ≤ t * u ↔ s / u ≤ t / v := (div_le_div_iff₀ hu hv).symm
    by_cases m1 : z / c ≤ x / a ∧ z / c ≤ y / b
    · exact .inl (hI.mem_part hN h3 hs h4 h5 ((conv hc ha).mpr m1.1) ((conv hc hb).mpr m1.2))
    by_cases m2 : x / a ≤ y / b ∧ x / a ≤ z / c
    · refine .inr (.inl ?_)
      have := hI.rot.mem_part hN1 (h := h) h1 (show y + z + x = 1 by linarith) h4 h5 ((conv ha hb).mpr m2.1) ((conv ha hc).mpr m2.2)
      rw [n1] at this
      convert this using 1; module
    · refine .inr (.inr ?_)
      have m3 : y / b ≤ z / c ∧ y / b ≤ x / a := by
        rw [not_and_or, not_le, not_le] at m1 m2
        rcases m1 with m1 | m1 <;> rcases m2 with m2 | m2 <;> constructor <;> linarith
      have := hI.rot.rot.mem_part hN2 (h := h) h2 (show z + x + y = 1 by linarith) h4 h5 ((conv hb hc).mpr m3.1) ((conv hb ha).mpr m3.2)
      rw [n2, n1] at this
      convert this using 1; module
  · rintro p (hp | hp | hp)
    · exact hI.part_sub hN h hp
    · rw [← r1]; exact hI.rot.part_sub hN1 h hp
    · rw [← r1, ← r2]; exact hI.rot.rot.part_sub hN2 h hp

/-- the prism of height `h + h'` is the prism of height `h` with one of height `h'` on top -/
theorem stack_union {v0 v1 v2 : R3} {h h' : ℝ} (hh : 0 < h) (hh' : 0 < h') (hN : (v1 - v0) ⨯₃ (v2 - v0) ≠ 0) :
    prismPts v0 v1 v2 (h + h') = prismPts v0 v1 v2 h ∪
      prismPts (v0 + h • triNormal v0 v1 v2) (v1 + h • triNormal v0 v1 v2) (v2 + h • triNormal v0 v1 v2) h' := by
  have hn : triNormal (v0 + h • triNormal v0 v1 v2) (v1 + h • triNormal v0 v1 v2) (v2 + h • triNormal v0 v1 v2) = triNormal v0 v1 v2 :=
    normal_smul one_pos hN (by rw [one_smul, add_sub_add_right_eq_sub, add_sub_add_right_eq_sub])
  have hp : 0 < h + h' := by linarith
  ext p
  rw [Set.mem_union, prism_weights, prism_weights, prism_weights, hn]
  generalize triNormal v0 v1 v2 = n
  constructor
  · rintro ⟨x, y, z, γ, h1, h2, h3, hs, h4, h5, rfl⟩
    rcases le_total (γ * (h + h')) h with hc | hc
    · refine .inl ⟨x, y, z, γ * (h + h') / h, h1, h2, h3, hs, by positivity, (div_le_one hh).mpr hc, ?_⟩
      rw [smul_smul, smul_smul, div_mul_cancel₀ _ hh.ne']
    · refine .inr ⟨x, y, z, (γ * (h + h') - h) / h', h1, h2, h3, hs, div_nonneg (by linarith) hh'.le,
        (div_le_one hh').mpr (by nlinarith), ?_⟩
      rw [smul_smul, smul_smul _ h', div_mul_cancel₀ _ hh'.ne']
      obtain rfl : x = 1 - y - z := by linarith
      module
  · rintro (⟨x, y, z, γ, h1, h2, h3, hs, h4, h5, rfl⟩ | ⟨x, y, z, γ, h1, h2, h3, hs, h4, h5, rfl⟩)
    · refine ⟨x, y, z, γ * h / (h + h'), h1, h2, h3, hs, by positivity, (div_le_one hp).mpr (by nlinarith), ?_⟩
      rw [smul_smul, smul_smul, div_mul_cancel₀ _ hp.ne']
    · refine ⟨x, y, z, (h + γ * h') / (h + h'), h1, h2, h3, hs, by positivity, (div_le_one hp).mpr (by nlinarith), ?_⟩
      rw [smul_smul _ (h + h'), div_mul_cancel₀ _ hp.ne']
      obtain rfl : x = 1 - y - z := by linarith
      module

/-- what a point query answers about `S`, in terms of an exact query -/
theorem prism_point_iff {s : TriPrism ℝ} {t : Point3 ℝ} {v0 v1 v2 p : R3} {h : ℝ} (hs : s.Made v0 v1 v2 h) (ht : t.Made p) (hh : 0 < h) :
    Shape.Finds (.triPrism s) (.point t) p ↔ p ∈ prismPts v0 v1 v2 h := by
  have k := C49_prismPoint s t v0 v1 v2 p h hs ht hh
  exact ⟨fun hf => by by_contra hc; exact hf.not_misses (k.2 hc), k.1⟩

theorem prism_line_iff {s : TriPrism ℝ} {t : Line3 ℝ} {v0 v1 v2 a b : R3} {h : ℝ} (hs : s.Made v0 v1 v2 h) (ht : t.Made a b) (hh : 0 < h)
    (hab : a ≠ b) : (∃ p, Shape.Finds (.triPrism s) (.line t) p) ↔ (prismPts v0 v1 v2 h ∩ segment ℝ a b).Nonempty := by
  have k := C50_prismLine s t v0 v1 v2 a b h hs ht hh hab
  constructor
  · rintro ⟨p, hf⟩
    by_contra hc
    exact hf.not_misses (k.2 (Set.not_nonempty_iff_eq_empty.mp hc))
  · intro hne
    obtain ⟨p, -, hp⟩ := k.1 hne
    exact ⟨p, hp⟩

/-- C114, cutting the base at an inner point `w` into three: a point is found by the query of the whole prism exactly when it is found
by the query of one of the parts. -/
theorem C114_fan_point (s s1 s2 s3 : TriPrism ℝ) (t : Point3 ℝ) (v0 v1 v2 w p : R3) (a b c h : ℝ) (hs : s.Made v0 v1 v2 h)
    (h1 : s1.Made v0 v1 w h) (h2 : s2.Made v1 v2 w h) (h3 : s3.Made v2 v0 w h) (ht : t.Made p) (hh : 0 < h)
    (hI : Inner v0 v1 v2 w a b c) :
    Shape.Finds (.triPrism s) (.point t) p ↔ Shape.Finds (.triPrism s1) (.point t) p ∨ Shape.Finds (.triPrism s2) (.point t) p ∨
      Shape.Finds (.triPrism s3) (.point t) p := by
  rw [prism_point_iff hs ht hh, prism_point_iff h1 ht hh, prism_point_iff h2 ht hh, prism_point_iff h3 ht hh, fan_union h hI hs.1]
  rfl

/-- C114: the same for a segment. -/
theorem C114_fan_line (s s1 s2 s3 : TriPrism ℝ) (t : Line3 ℝ) (v0 v1 v2 w e f : R3) (a b c h : ℝ) (hs : s.Made v0 v1 v2 h)
    (h1 : s1.Made v0 v1 w h) (h2 : s2.Made v1 v2 w h) (h3 : s3.Made v2 v0 w h) (ht : t.Made e f) (hef : e ≠ f) (hh : 0 < h)
    (hI : Inner v0 v1 v2 w a b c) :
    (∃ p, Shape.Finds (.triPrism s) (.line t) p) ↔ (∃ p, Shape.Finds (.triPrism s1) (.line t) p) ∨
      (∃ p, Shape.Finds (.triPrism s2) (.line t) p) ∨ (∃ p, Shape.Finds (.triPrism s3) (.line t) p) := by
  rw [prism_line_iff hs ht hh hef, prism_line_iff h1 ht hh hef, prism_line_iff h2 ht hh hef, prism_line_iff h3 ht hh hef,
    fan_union h hI hs.1, Set.union_inter_distrib_right, Set.union_inter_distrib_right, Set.union_nonempty, Set.union_nonempty]

/-- C114, cutting the height: the prism of height `h + h'` finds exactly what the prism of height `h` or the one of height `h'` over its
top finds, for points and for segments. -/
theorem C114_stack (s s1 s2 : TriPrism ℝ) (t : Point3 ℝ) (l : Line3 ℝ) (v0 v1 v2 p e f : R3) (h h' : ℝ) (hs : s.Made v0 v1 v2 (h + h'))
    (h1 : s1.Made v0 v1 v2 h)
    (h2 : s2.Made (v0 + h • triNormal v0 v1 v2) (v1 + h • triNormal v0 v1 v2) (v2 + h • triNormal v0 v1 v2) h')
    (ht : t.Made p) (hl : l.Made e f) (hef : e ≠ f) (hh : 0 < h) (hh' : 0 < h') :
    (Shape.Finds (.triPrism s) (.point t) p ↔ Shape.Finds (.triPrism s1) (.point t) p ∨ Shape.Finds (.triPrism s2) (.point t) p) ∧
    ((∃ q, Shape.Finds (.triPrism s) (.line l) q) ↔ (∃ q, Shape.Finds (.triPrism s1) (.line l) q) ∨
      (∃ q, Shape.Finds (.triPrism s2) (.line l) q)) := by
  have hp : 0 < h + h' := by linarith
  constructor
  · rw [prism_point_iff hs ht hp, prism_point_iff h1 ht hh, prism_point_iff h2 ht hh', stack_union hh hh' hs.1]; rfl
  · rw [prism_line_iff hs hl hp hef, prism_line_iff h1 hl hh hef, prism_line_iff h2 hl hh' hef, stack_union hh hh' hs.1,
      Set.union_inter_distrib_right, Set.union_nonempty]

/-- the triangle `(0,0) (6,-2) (3,5)` with its centroid `(3,1)` -/
theorem fan_inner : Inner 0 ![6, -2, 0] ![3, 5, 0] ![3, 1, 0] (1 / 3) (1 / 3) (1 / 3) :=
  ⟨by norm_num, by norm_num, by norm_num, by norm_num, by funext i; fin_cases i <;> norm_num⟩

theorem fan_ne : (![6, -2, 0] - 0 : R3) ⨯₃ (![3, 5, 0] - 0) ≠ 0 := fun h => by
  have := congrFun h 2
  simp [cross_apply] at this
  norm_num at this

theorem fan_ne1 : (![6, -2, 0] - 0 : R3) ⨯₃ (![3, 1, 0] - 0) ≠ 0 := fun h => by
  have := congrFun h 2
  simp [cross_apply] at this
  norm_num at this

theorem fan_ne2 : (![3, 5, 0] - ![6, -2, 0] : R3) ⨯₃ (![3, 1, 0] - ![6, -2, 0]) ≠ 0 := fun h => by
  have := congrFun h 2
  simp [cross_apply] at this
  norm_num at this

theorem fan_ne3 : (0 - ![3, 5, 0] : R3) ⨯₃ (![3, 1, 0] - ![3, 5, 0]) ≠ 0 := fun h => by
  have := congrFun h 2
  simp [cross_apply] at this
  norm_num at this

/-- concrete case: the point above the inner corner is found by the whole prism, hence by one of the parts, and so is a segment through it -/
example : ∃ (s1 s2 s3 : TriPrism ℝ) (t : Point3 ℝ) (l : Line3 ℝ),
    (Shape.Finds (.triPrism s1) (.point t) ![3, 1, 0] ∨ Shape.Finds (.triPrism s2) (.point t) ![3, 1, 0] ∨
      Shape.Finds (.triPrism s3) (.point t) ![3, 1, 0]) ∧
    ((∃ p, Shape.Finds (.triPrism s1) (.line l) p) ∨ (∃ p, Shape.Finds (.triPrism s2) (.line l) p) ∨
      (∃ p, Shape.Finds (.triPrism s3) (.line l) p)) := by
  obtain ⟨s, hs, -⟩ := TriPrism.exists_made 0 ![6, -2, 0] ![3, 5, 0] 2 fan_ne 0
  obtain ⟨s1, h1, -⟩ := TriPrism.exists_made 0 ![6, -2, 0] ![3, 1, 0] 2 fan_ne1 0
  obtain ⟨s2, h2, -⟩ := TriPrism.exists_made ![6, -2, 0] ![3, 5, 0] ![3, 1, 0] 2 fan_ne2 0
  obtain ⟨s3, h3, -⟩ := TriPrism.exists_made ![3, 5, 0] 0 ![3, 1, 0] 2 fan_ne3 0
  obtain ⟨t, ht, -⟩ := Point3.exists_made ![3, 1, 0] 0
  obtain ⟨l, hl, -⟩ := Line3.exists_made ![3, 1, 0] ![3, 1, 7] 0
  have hm : (![3, 1, 0] : R3) ∈ prismPts 0 ![6, -2, 0] ![3, 5, 0] 2 := by
    rw [prism_weights]
    exact ⟨1 / 3, 1 / 3, 1 / 3, 0, by norm_num, by norm_num, by norm_num, by norm_num, le_rfl, by norm_num, by
      rw [zero_smul, add_zero]; exact fan_inner.eq⟩
  have hef : (![3, 1, 0] : R3) ≠ ![3, 1, 7] := fun h => by have := congrFun h 2; simp at this
  exact ⟨s1, s2, s3, t, l,
    (C114_fan_point s s1 s2 s3 t _ _ _ _ _ _ _ _ _ hs h1 h2 h3 ht (by norm_num) fan_inner).mp
      ((prism_point_iff hs ht (by norm_num)).mpr hm),
    (C114_fan_line s s1 s2 s3 l _ _ _ _ _ _ _ _ _ _ hs h1 h2 h3 hl hef (by norm_num) fan_inner).mp
      ((prism_line_iff hs hl (by norm_num) hef).mpr ⟨_, hm, left_mem_segment ℝ _ _⟩)⟩

/-- concrete case: a base point, and a segment from it, of a prism cut in its height -/
example : ∃ (s1 s2 : TriPrism ℝ) (t : Point3 ℝ) (l : Line3 ℝ),
    (Shape.Finds (.triPrism s1) (.point t) 0 ∨ Shape.Finds (.triPrism s2) (.point t) 0) ∧
    ((∃ p, Shape.Finds (.triPrism s1) (.line l) p) ∨ (∃ p, Shape.Finds (.triPrism s2) (.line l) p)) := by
  obtain ⟨s, hs, -⟩ := TriPrism.exists_made 0 ![6, -2, 0] ![3, 5, 0] (2 + 1) fan_ne 0
  obtain ⟨s1, h1, -⟩ := TriPrism.exists_made 0 ![6, -2, 0] ![3, 5, 0] 2 fan_ne 0
  obtain ⟨s2, h2, -⟩ := TriPrism.exists_made (0 + (2 : ℝ) • triNormal 0 ![6, -2, 0] ![3, 5, 0])
    (![6, -2, 0] + (2 : ℝ) • triNormal 0 ![6, -2, 0] ![3, 5, 0]) (![3, 5, 0] + (2 : ℝ) • triNormal 0 ![6, -2, 0] ![3, 5, 0]) 1
    (by rw [add_sub_add_right_eq_sub, add_sub_add_right_eq_sub]; exact fan_ne) 0
  obtain ⟨t, ht, -⟩ := Point3.exists_made 0 0
  obtain ⟨l, hl, -⟩ := Line3.exists_made 0 ![3, 1, 7] 0
  have hm : (0 : R3) ∈ prismPts 0 ![6, -2, 0] ![3, 5, 0] (2 + 1) := subset_convexHull ℝ _ (by simp [prismVerts])
  have hef : (0 : R3) ≠ ![3, 1, 7] := fun h => by have := congrFun h 2; simp at this
  have k := C114_stack s s1 s2 t l _ _ _ _ _ _ 2 1 hs h1 h2 ht hl hef (by norm_num) (by norm_num)
  exact ⟨s1, s2, t, l, k.1.mp ((prism_point_iff hs ht (by norm_num)).mpr hm),
    k.2.mp ((prism_line_iff hs hl (by norm_num) hef).mpr ⟨_, hm, left_mem_segment ℝ _ _⟩)⟩

/-- C114 in binary64: the cut leaks: the point `(0.9, 0.3, 1)` (rounded to f64) is found by the whole prism over `(0,0) (6,-2) (3,5)`, and
by none of the three prisms over the parts of its base cut at `(3,1)`. -/
theorem C114_fan_false : ∃ (s s1 s2 s3 : TriPrism Q64) (t : Point3 Q64),
    TriPrism.init [0, 0, 0, .fin 6, .fin (-2), 0, .fin 3, .fin 5, 0] (.fin 2) = .ok s ∧
    TriPrism.init [0, 0, 0, .fin 6, .fin (-2), 0, .fin 3, 1, 0] (.fin 2) = .ok s1 ∧
    TriPrism.init [.fin 6, .fin (-2), 0, .fin 3, .fin 5, 0, .fin 3, 1, 0] (.fin 2) = .ok s2 ∧
    TriPrism.init [.fin 3, .fin 5, 0, 0, 0, 0, .fin 3, 1, 0] (.fin 2) = .ok s3 ∧
    Point3.init [.fin nineTenths, .fin threeTenths, 1] = .ok t ∧
    (Shape.getIntersect 2 (.triPrism s) (.point t)).map Prod.fst = .ok true ∧
    Shape.getIntersect 2 (.triPrism s1) (.point t) = .ok (false, none) ∧
    Shape.getIntersect 2 (.triPrism s2) (.point t) = .ok (false, none) ∧
    Shape.getIntersect 2 (.triPrism s3) (.point t) = .ok (false, none) :=
  ⟨_, _, _, _, _, rfl, rfl, rfl, rfl, rfl, by decide +kernel, by decide +kernel, by decide +kernel, by decide +kernel⟩

end Mazth
