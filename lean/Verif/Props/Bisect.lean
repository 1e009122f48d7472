import Verif.Props.Refine

/-!
# C115: cutting a segment, and bisection

A client cuts a segment in two before it queries a prism, or bisects the segment to find where it enters the prism.
-/

set_option linter.unusedSectionVars false
set_option autoImplicit false

namespace Mazth

open Matrix

/-- the point of the segment from `a` to `b` with parameter `x` -/
noncomputable def along (a b : R3) (x : ℝ) : R3 := a + x • (b - a)

theorem mem_segment_along {a b q : R3} : q ∈ segment ℝ a b ↔ ∃ x : ℝ, 0 ≤ x ∧ x ≤ 1 ∧ q = along a b x := by
  rw [segment_eq_image']
  constructor
  · rintro ⟨x, ⟨h0, h1⟩, rfl⟩; exact ⟨x, h0, h1, rfl⟩
  · rintro ⟨x, h0, h1, rfl⟩; exact ⟨x, ⟨h0, h1⟩, rfl⟩

/-- the part of a segment between two of its points -/
theorem mem_part_along {a b q : R3} {x y : ℝ} (hxy : x < y) :
    q ∈ segment ℝ (along a b x) (along a b y) ↔ ∃ z : ℝ, x ≤ z ∧ z ≤ y ∧ q = along a b z := by
  rw [mem_segment_along]
  have h0 : 0 < y - x := by linarith
  constructor
  · rintro ⟨z, h1, h2, rfl⟩
    refine ⟨x + z * (y - x), by nlinarith, by nlinarith, ?_⟩
    unfold along; module
  · rintro ⟨z, h1, h2, rfl⟩
    refine ⟨(z - x) / (y - x), div_nonneg (by linarith) h0.le, (div_le_one h0).mpr (by linarith), ?_⟩
    have : (z - x) / (y - x) * (y - x) = z - x := div_mul_cancel₀ _ h0.ne'
    unfold along
    rw [show a + y • (b - a) - (a + x • (b - a)) = (y - x) • (b - a) by module, smul_smul, this]
    module

theorem along_zero (a b : R3) : along a b 0 = a := by unfold along; module
theorem along_one (a b : R3) : along a b 1 = b := by unfold along; module

theorem along_inj {a b : R3} (hab : a ≠ b) {x y : ℝ} (h : along a b x = along a b y) : x = y := by
  have h' : (x - y) • (b - a) = 0 := by
    rw [show (x - y) • (b - a) = along a b x - along a b y by unfold along; module, h, sub_self]
  rcases smul_eq_zero.mp h' with h' | h'
  · linarith
  · exact absurd (sub_eq_zero.mp h').symm hab

/-- C115: cutting a segment at a point between its ends: a prism is hit by the whole exactly when it is hit by one of the halves. -/
theorem C115_cut (s : TriPrism ℝ) (l l1 l2 : Line3 ℝ) (v0 v1 v2 a b m : R3) (h : ℝ) (hs : s.Made v0 v1 v2 h) (hl : l.Made a b)
    (h1 : l1.Made a m) (h2 : l2.Made m b) (hh : 0 < h) (hm : m ∈ openSegment ℝ a b) (hab : a ≠ b) :
    (∃ p, Shape.Finds (.triPrism s) (.line l) p) ↔
      (∃ p, Shape.Finds (.triPrism s) (.line l1) p) ∨ (∃ p, Shape.Finds (.triPrism s) (.line l2) p) := by
  rw [openSegment_eq_image'] at hm
  obtain ⟨x, ⟨hx0, hx1⟩, rfl⟩ := hm
  have e1 : a ≠ along a b x := fun h => hx0.ne (along_inj hab (by rw [along_zero]; exact h))
  have e2 : along a b x ≠ b := fun h => hx1.ne (along_inj hab (by rw [along_one]; exact h))
  rw [prism_line_iff hs hl hh hab, prism_line_iff hs h1 hh e1, prism_line_iff hs h2 hh e2, ← Set.union_nonempty,
    ← Set.inter_union_distrib_left]
  have : segment ℝ a b = segment ℝ a (a + x • (b - a)) ∪ segment ℝ (a + x • (b - a)) b := by
    ext q
    have k1 := mem_part_along (a := a) (b := b) (q := q) hx0
    have k2 := mem_part_along (a := a) (b := b) (q := q) hx1
    rw [along_zero] at k1
    rw [along_one] at k2
    rw [Set.mem_union, mem_segment_along, show a + x • (b - a) = along a b x from rfl, k1, k2]
    constructor
    · rintro ⟨z, h0, h1, rfl⟩
      rcases le_total z x with hz | hz
      · exact .inl ⟨z, h0, hz, rfl⟩
      · exact .inr ⟨z, hz, h1, rfl⟩
    · rintro (⟨z, h0, h1, rfl⟩ | ⟨z, h0, h1, rfl⟩)
      · exact ⟨z, h0, by linarith, rfl⟩
      · exact ⟨z, by linarith, h1, rfl⟩
  rw [this]

/-- the bisecting client: `Bisect s a b n c d` says that after `n` queries the segment from `a` to `b` is narrowed to the one from `c`
to `d`. Each turn queries the first half and keeps it if it is hit, otherwise the second. -/
inductive Bisect (s : TriPrism ℝ) (a b : R3) : ℕ → R3 → R3 → Prop
  | start : Bisect s a b 0 a b
  | first {n : ℕ} {c d p : R3} (l : Line3 ℝ) : Bisect s a b n c d → l.Made c (midpoint ℝ c d) →
      Shape.Finds (.triPrism s) (.line l) p → Bisect s a b (n + 1) c (midpoint ℝ c d)
  | second {n : ℕ} {c d : R3} (l : Line3 ℝ) : Bisect s a b n c d → l.Made c (midpoint ℝ c d) →
      Shape.Misses (.triPrism s) (.line l) → Bisect s a b (n + 1) (midpoint ℝ c d) d

theorem midpoint_along (a b : R3) (x y : ℝ) : midpoint ℝ (along a b x) (along a b y) = along a b ((x + y) / 2) := by
  rw [midpoint_eq_smul_add]
  unfold along
  simp only [invOf_eq_inv]
  module

/-- the parameters of the narrowed segment, and a first point stays within -/
theorem bisect_core {s : TriPrism ℝ} {v0 v1 v2 a b e : R3} {h : ℝ} (hs : s.Made v0 v1 v2 h) (hh : 0 < h) (hab : a ≠ b)
    (he : e ∈ prismPts v0 v1 v2 h ∩ segment ℝ a b)
    (hf : ∀ q ∈ prismPts v0 v1 v2 h ∩ segment ℝ a b, euc (e - a) ≤ euc (q - a)) {n : ℕ} {c d : R3} (hb : Bisect s a b n c d) :
    ∃ x y z : ℝ, 0 ≤ x ∧ y ≤ 1 ∧ y - x = (1 / 2) ^ n ∧ c = along a b x ∧ d = along a b y ∧ x ≤ z ∧ z ≤ y ∧ e = along a b z := by
  have hE : 0 < euc (b - a) := euc_pos (sub_ne_zero.mpr hab.symm)
  have len {z : ℝ} (hz : 0 ≤ z) : euc (along a b z - a) = z * euc (b - a) := by
    unfold along
    rw [add_sub_cancel_left, euc_smul, abs_of_nonneg hz]
  have query {l : Line3 ℝ} {x y : ℝ} (hxy : x < y) (hl : l.Made (along a b x) (along a b y)) :=
    C50_prismLine s l v0 v1 v2 _ _ h hs hl hh (fun hc => hxy.ne (along_inj hab hc))
  induction hb with
  | start =>
    obtain ⟨z, h0, h1, rfl⟩ := mem_segment_along.mp he.2
    exact ⟨0, 1, z, le_rfl, le_rfl, by norm_num, (along_zero a b).symm, (along_one a b).symm, h0, h1, rfl⟩
  | @first n c d p l _ hl hp ih =>
    obtain ⟨x, y, z, hx, hy, hxy, rfl, rfl, h0, h1, rfl⟩ := ih
    have hpos : (0 : ℝ) < (1 / 2) ^ n := by positivity
    rw [midpoint_along] at hl ⊢
    have hlt : x < (x + y) / 2 := by linarith
    refine ⟨x, (x + y) / 2, z, hx, by linarith, by rw [pow_succ]; linarith, rfl, rfl, h0, ?_, rfl⟩
    have hne : (prismPts v0 v1 v2 h ∩ segment ℝ (along a b x) (along a b ((x + y) / 2))).Nonempty := by
      by_contra hc
      exact hp.not_misses ((query hlt hl).2 (Set.not_nonempty_iff_eq_empty.mp hc))
    obtain ⟨q, hq, hq'⟩ := hne
    obtain ⟨w, w0, w1, rfl⟩ := (mem_part_along hlt).mp hq'
    have := hf _ ⟨hq, mem_segment_along.mpr ⟨w, by linarith, by linarith, rfl⟩⟩
    rw [len (by linarith), len (by linarith)] at this
    linarith [le_of_mul_le_mul_right this hE]
  | @second n c d l _ hl hmiss ih =>
    obtain ⟨x, y, z, hx, hy, hxy, rfl, rfl, h0, h1, rfl⟩ := ih
    have hpos : (0 : ℝ) < (1 / 2) ^ n := by positivity
    rw [midpoint_along] at hl ⊢
    have hlt : x < (x + y) / 2 := by linarith
    refine ⟨(x + y) / 2, y, z, by linarith, hy, by rw [pow_succ]; linarith, rfl, rfl, ?_, h1, rfl⟩
    by_contra hc
    obtain ⟨q, -, hq⟩ := (query hlt hl).1 ⟨_, he.1, (mem_part_along hlt).mpr ⟨z, h0, (not_le.mp hc).le, rfl⟩⟩
    exact hq.not_misses hmiss

/-- C115: bisection closes in on the reported location: if the query of the whole segment reports `p`, and the segment starts inside or
ends outside, then after `n` turns the narrowed segment contains `p` and has the `2^n`-th part of the length. -/
theorem C115_bisect (s : TriPrism ℝ) (l : Line3 ℝ) (v0 v1 v2 a b p c d : R3) (h : ℝ) (n : ℕ) (hs : s.Made v0 v1 v2 h) (hl : l.Made a b)
    (hh : 0 < h) (hab : a ≠ b) (hp : Shape.Finds (.triPrism s) (.line l) p) (hc : a ∈ prismPts v0 v1 v2 h ∨ b ∉ prismPts v0 v1 v2 h)
    (hb : Bisect s a b n c d) :
    p ∈ segment ℝ c d ∧ euc (d - c) = euc (b - a) / 2 ^ n ∧ euc (p - d) ≤ euc (b - a) / 2 ^ n := by
  have hne : (prismPts v0 v1 v2 h ∩ segment ℝ a b).Nonempty := (prism_line_iff hs hl hh hab).mp ⟨p, hp⟩
  obtain ⟨p', hm, hp'⟩ := (C50_prismLine s l v0 v1 v2 a b h hs hl hh hab).1 hne
  obtain rfl := hp.unique hp'
  obtain ⟨x, y, z, hx, hy, hxy, rfl, rfl, h0, h1, rfl⟩ := bisect_core hs hh hab hm
    ((C50_location s l v0 v1 v2 a b h hs hl hh hab p hp).1 hc) hb
  have hpos : (0 : ℝ) < (1 / 2) ^ n := by positivity
  have e : euc (b - a) / 2 ^ n = (y - x) * euc (b - a) := by rw [hxy, one_div, inv_pow]; ring
  have hd (x y : ℝ) (h : x ≤ y) : euc (along a b y - along a b x) = (y - x) * euc (b - a) := by
    rw [show along a b y - along a b x = (y - x) • (b - a) by unfold along; module, euc_smul, abs_of_nonneg (by linarith)]
  refine ⟨(mem_part_along (by linarith)).mpr ⟨z, h0, h1, rfl⟩, by rw [e, hd _ _ (by linarith)], ?_⟩
  rw [e, euc_sub_comm, hd _ _ h1]
  exact mul_le_mul_of_nonneg_right (by linarith) (euc_nonneg _)

/-- C115: the client never gets stuck: every number of turns is possible. -/
theorem C115_total (s : TriPrism ℝ) (v0 v1 v2 a b : R3) (h : ℝ) (hs : s.Made v0 v1 v2 h) (hh : 0 < h) (hab : a ≠ b) (n : ℕ) :
    ∃ c d, c ≠ d ∧ Bisect s a b n c d := by
  induction n with
  | zero => exact ⟨a, b, hab, .start⟩
  | succ n ih =>
    obtain ⟨c, d, hcd, hb⟩ := ih
    have hm : c ≠ midpoint ℝ c d := fun h => hcd (by simpa using h)
    have hm' : midpoint ℝ c d ≠ d := fun h => hcd (by simpa using h)
    obtain ⟨l, hl, -⟩ := Line3.exists_made c (midpoint ℝ c d) 0
    have k := C50_prismLine s l v0 v1 v2 _ _ h hs hl hh hm
    by_cases hne : (prismPts v0 v1 v2 h ∩ segment ℝ c (midpoint ℝ c d)).Nonempty
    · obtain ⟨p, -, hp⟩ := k.1 hne
      exact ⟨_, _, hm, .first l hb hl hp⟩
    · exact ⟨_, _, hm', .second l hb hl (k.2 (Set.not_nonempty_iff_eq_empty.mp hne))⟩

/-- concrete case: the segment from `(3,1,-4)` to `(3,1,7)` through the prism of height 2 over `(0,0) (6,-2) (3,5)`; ten turns -/
example : ∃ (s : TriPrism ℝ) (l : Line3 ℝ) (p c d : R3), Shape.Finds (.triPrism s) (.line l) p ∧
    Bisect s ![3, 1, -4] ![3, 1, 7] 10 c d ∧ p ∈ segment ℝ c d := by
  obtain ⟨s, hs, -⟩ := TriPrism.exists_made 0 ![6, -2, 0] ![3, 5, 0] 2 fan_ne 0
  obtain ⟨l, hl, -⟩ := Line3.exists_made ![3, 1, -4] ![3, 1, 7] 0
  have hab : (![3, 1, -4] : R3) ≠ ![3, 1, 7] := fun h => by have := congrFun h 2; simp at this; norm_num at this
  have hm : (![3, 1, 0] : R3) ∈ prismPts 0 ![6, -2, 0] ![3, 5, 0] 2 := by
    rw [prism_weights]
    exact ⟨1 / 3, 1 / 3, 1 / 3, 0, by norm_num, by norm_num, by norm_num, by norm_num, le_rfl, by norm_num, by
      rw [zero_smul, add_zero]; exact fan_inner.eq⟩
  obtain ⟨p, hp⟩ := (prism_line_iff hs hl (by norm_num) hab).mpr ⟨_, hm, mem_segment_along.mpr ⟨4 / 11, by norm_num, by norm_num, by
    unfold along; funext i; fin_cases i <;> norm_num⟩⟩
  obtain ⟨c, d, -, hb⟩ := C115_total s _ _ _ _ _ _ hs (by norm_num) hab 10
  refine ⟨s, l, p, c, d, hp, hb, (C115_bisect s l _ _ _ _ _ p c d _ _ hs hl (by norm_num) hab hp (.inr ?_) hb).1⟩
  have hn : triNormal 0 ![6, -2, 0] ![3, 5, 0] = ![0, 0, 1] := by
    have hx : (![6, -2, 0] - 0 : R3) ⨯₃ (![3, 5, 0] - 0) = ![0, 0, 36] := by
      funext i; fin_cases i <;> simp [cross_apply]; norm_num
    have he : euc ![0, 0, 36] = 36 := by
      rw [euc_eq, show (36 : ℝ) = √(36 * 36) by rw [Real.sqrt_mul_self (by norm_num)]]
      congr 1; simp [Fin.sum_univ_three]
    rw [triNormal, hx, he]
    funext i; fin_cases i <;> simp
  rw [prism_weights, hn]
  rintro ⟨x, y, z, γ, -, -, -, -, -, hγ, e⟩
  have := congrFun e 2
  simp at this
  linarith

/-- concrete case of the cut: the same segment, cut at `(3,1,0)` -/
example : ∃ (s : TriPrism ℝ) (l1 l2 : Line3 ℝ), (∃ p, Shape.Finds (.triPrism s) (.line l1) p) ∨ (∃ p, Shape.Finds (.triPrism s) (.line l2) p) := by
  obtain ⟨s, hs, -⟩ := TriPrism.exists_made 0 ![6, -2, 0] ![3, 5, 0] 2 fan_ne 0
  obtain ⟨l, hl, -⟩ := Line3.exists_made ![3, 1, -4] ![3, 1, 7] 0
  obtain ⟨l1, hl1, -⟩ := Line3.exists_made ![3, 1, -4] ![3, 1, 0] 0
  obtain ⟨l2, hl2, -⟩ := Line3.exists_made ![3, 1, 0] ![3, 1, 7] 0
  have hab : (![3, 1, -4] : R3) ≠ ![3, 1, 7] := fun h => by have := congrFun h 2; simp at this; norm_num at this
  have hm : (![3, 1, 0] : R3) ∈ prismPts 0 ![6, -2, 0] ![3, 5, 0] 2 := by
    rw [prism_weights]
    exact ⟨1 / 3, 1 / 3, 1 / 3, 0, by norm_num, by norm_num, by norm_num, by norm_num, le_rfl, by norm_num, by
      rw [zero_smul, add_zero]; exact fan_inner.eq⟩
  have ho : (![3, 1, 0] : R3) ∈ openSegment ℝ ![3, 1, -4] ![3, 1, 7] :=
    ⟨7 / 11, 4 / 11, by norm_num, by norm_num, by norm_num, by funext i; fin_cases i <;> norm_num⟩
  exact ⟨s, l1, l2, (C115_cut s l l1 l2 _ _ _ _ _ _ _ hs hl hl1 hl2 (by norm_num) ho hab).mp
    ((prism_line_iff hs hl (by norm_num) hab).mpr ⟨_, hm, openSegment_subset_segment ℝ _ _ ho⟩)⟩

end Mazth
