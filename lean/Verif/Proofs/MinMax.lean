import Verif.Proofs.ShapeBasic

/-! `min_by` / `max_by` with `partial_cmp(..).unwrap_or(Equal)` on NaN-free lists, and the shapes built with them. -/

set_option linter.unusedSectionVars false
set_option autoImplicit false

namespace Mazth

open Matrix

section generic
variable {K : Type} [Field K] [LinearOrder K] [IsStrictOrderedRing K] [Fmt K]

theorem cmpOrEqual_gt {a b : Fl K} (ha : a ≠ .nan) (hb : b ≠ .nan) : cmpOrEqual a b = .gt ↔ Fl.le a b = false := by
  unfold cmpOrEqual Fl.partialCmp
  rw [Fl.lt_eq_not_le ha hb, Fl.lt_eq_not_le hb ha]
  rcases Fl.le_total ha hb with h | h <;> cases h1 : Fl.le a b <;> cases h2 : Fl.le b a <;> simp_all [Fl.feq]

theorem foldl_min (l : List (Fl K)) {x : Fl K} (hx : x ≠ .nan) (hl : ∀ y ∈ l, y ≠ Fl.nan) :
    let m := l.foldl (fun acc y => if cmpOrEqual acc y = .gt then y else acc) x
    (m = x ∨ m ∈ l) ∧ Fl.le m x = true ∧ ∀ y ∈ l, Fl.le m y = true := by
  induction l generalizing x with
  | nil => exact ⟨.inl rfl, Fl.le_refl hx, by simp⟩
  | cons z l ih =>
    have hz := hl z (by simp)
    have hl' : ∀ y ∈ l, y ≠ Fl.nan := fun y hy => hl y (List.mem_cons_of_mem _ hy)
    simp only [List.foldl_cons]
    by_cases hc : cmpOrEqual x z = .gt
    · rw [if_pos hc]
      obtain ⟨i1, i2, i3⟩ := ih hz hl'
      have hzx : Fl.le z x = true := (Fl.le_total hz hx).resolve_right (by rw [(cmpOrEqual_gt hx hz).mp hc]; simp)
      refine ⟨.inr ?_, Fl.le_trans i2 hzx, ?_⟩
      · rcases i1 with h | h
        · rw [h]; simp
        · exact List.mem_cons_of_mem _ h
      · intro y hy
        rcases List.mem_cons.mp hy with rfl | hy
        · exact i2
        · exact i3 y hy
    · rw [if_neg hc]
      obtain ⟨i1, i2, i3⟩ := ih hx hl'
      have hxz : Fl.le x z = true := by
        by_contra h
        exact hc ((cmpOrEqual_gt hx hz).mpr (by simpa using h))
      refine ⟨i1.imp id (List.mem_cons_of_mem _), i2, ?_⟩
      intro y hy
      rcases List.mem_cons.mp hy with rfl | hy
      · exact Fl.le_trans i2 hxz
      · exact i3 y hy

theorem foldl_max (l : List (Fl K)) {x : Fl K} (hx : x ≠ .nan) (hl : ∀ y ∈ l, y ≠ Fl.nan) :
    let m := l.foldl (fun acc y => if cmpOrEqual acc y = .gt then acc else y) x
    (m = x ∨ m ∈ l) ∧ Fl.le x m = true ∧ ∀ y ∈ l, Fl.le y m = true := by
  induction l generalizing x with
  | nil => exact ⟨.inl rfl, Fl.le_refl hx, by simp⟩
  | cons z l ih =>
    have hz := hl z (by simp)
    have hl' : ∀ y ∈ l, y ≠ Fl.nan := fun y hy => hl y (List.mem_cons_of_mem _ hy)
    simp only [List.foldl_cons]
    by_cases hc : cmpOrEqual x z = .gt
    · rw [if_pos hc]
      obtain ⟨i1, i2, i3⟩ := ih hx hl'
      have hzx : Fl.le z x = true := (Fl.le_total hz hx).resolve_right (by rw [(cmpOrEqual_gt hx hz).mp hc]; simp)
      refine ⟨i1.imp id (List.mem_cons_of_mem _), i2, ?_⟩
      intro y hy
      rcases List.mem_cons.mp hy with rfl | hy
      · exact Fl.le_trans hzx i2
      · exact i3 y hy
    · rw [if_neg hc]
      obtain ⟨i1, i2, i3⟩ := ih hz hl'
      have hxz : Fl.le x z = true := by
        by_contra h
        exact hc ((cmpOrEqual_gt hx hz).mpr (by simpa using h))
      refine ⟨.inr ?_, Fl.le_trans hxz i2, ?_⟩
      · rcases i1 with h | h
        · rw [h]; simp
        · exact List.mem_cons_of_mem _ h
      · intro y hy
        rcases List.mem_cons.mp hy with rfl | hy
        · exact i2
        · exact i3 y hy

theorem minOf_spec {l : List (Fl K)} (h0 : l ≠ []) (hl : ∀ y ∈ l, y ≠ Fl.nan) :
    ∃ m, minOf l = .ok m ∧ m ∈ l ∧ ∀ y ∈ l, Fl.le m y = true := by
  cases l with
  | nil => exact absurd rfl h0
  | cons x l =>
    obtain ⟨h1, h2, h3⟩ := foldl_min l (hl x (by simp)) fun y hy => hl y (List.mem_cons_of_mem _ hy)
    refine ⟨_, rfl, ?_, ?_⟩
    · rcases h1 with h | h
      · rw [h]; simp
      · exact List.mem_cons_of_mem _ h
    · intro y hy
      rcases List.mem_cons.mp hy with rfl | hy
      · exact h2
      · exact h3 y hy

theorem maxOf_spec {l : List (Fl K)} (h0 : l ≠ []) (hl : ∀ y ∈ l, y ≠ Fl.nan) :
    ∃ m, maxOf l = .ok m ∧ m ∈ l ∧ ∀ y ∈ l, Fl.le y m = true := by
  cases l with
  | nil => exact absurd rfl h0
  | cons x l =>
    obtain ⟨h1, h2, h3⟩ := foldl_max l (hl x (by simp)) fun y hy => hl y (List.mem_cons_of_mem _ hy)
    refine ⟨_, rfl, ?_, ?_⟩
    · rcases h1 with h | h
      · rw [h]; simp
      · exact List.mem_cons_of_mem _ h
    · intro y hy
      rcases List.mem_cons.mp hy with rfl | hy
      · exact h2
      · exact h3 y hy

end generic

/-- the least of finitely many reals -/
theorem minOf_real {l : List (Fl ℝ)} {rs : List ℝ} (h : List.Forall₂ Fl.Is l rs) (h0 : rs ≠ []) :
    ∃ m r, minOf l = .ok m ∧ m.Is r ∧ r ∈ rs ∧ ∀ y ∈ rs, r ≤ y := by
  have hn : ∀ y ∈ l, y ≠ Fl.nan := by
    intro y hy
    obtain ⟨r, _, hr⟩ : ∃ r ∈ rs, y.Is r := by
      clear h0
      induction h with
      | nil => simp at hy
      | cons h _ ih =>
        rcases List.mem_cons.mp hy with rfl | hy
        · exact ⟨_, by simp, h⟩
        · obtain ⟨r, h1, h2⟩ := ih hy; exact ⟨r, List.mem_cons_of_mem _ h1, h2⟩
    exact hr.ne_nan
  obtain ⟨m, h1, h2, h3⟩ := minOf_spec (l := l) (by rintro rfl; cases h; exact h0 rfl) hn
  obtain ⟨r, hr, hm⟩ : ∃ r ∈ rs, m.Is r := by
    clear h0 h1 h3 hn
    induction h with
    | nil => simp at h2
    | cons h _ ih =>
      rcases List.mem_cons.mp h2 with rfl | h2
      · exact ⟨_, by simp, h⟩
      · obtain ⟨r, h1, h2⟩ := ih h2; exact ⟨r, List.mem_cons_of_mem _ h1, h2⟩
  refine ⟨m, r, h1, hm, hr, ?_⟩
  clear h0 h1 h2 hn hr
  induction h with
  | nil => simp
  | cons h _ ih =>
    intro y hy
    rcases List.mem_cons.mp hy with rfl | hy
    · have := h3 _ (List.mem_cons_self ..)
      rw [hm.le h] at this; exact of_decide_eq_true this
    · exact ih (fun y hy => h3 y (List.mem_cons_of_mem _ hy)) y hy

theorem maxOf_real {l : List (Fl ℝ)} {rs : List ℝ} (h : List.Forall₂ Fl.Is l rs) (h0 : rs ≠ []) :
    ∃ m r, maxOf l = .ok m ∧ m.Is r ∧ r ∈ rs ∧ ∀ y ∈ rs, y ≤ r := by
  have hn : ∀ y ∈ l, y ≠ Fl.nan := by
    intro y hy
    obtain ⟨r, _, hr⟩ : ∃ r ∈ rs, y.Is r := by
      clear h0
      induction h with
      | nil => simp at hy
      | cons h _ ih =>
        rcases List.mem_cons.mp hy with rfl | hy
        · exact ⟨_, by simp, h⟩
        · obtain ⟨r, h1, h2⟩ := ih hy; exact ⟨r, List.mem_cons_of_mem _ h1, h2⟩
    exact hr.ne_nan
  obtain ⟨m, h1, h2, h3⟩ := maxOf_spec (l := l) (by rintro rfl; cases h; exact h0 rfl) hn
  obtain ⟨r, hr, hm⟩ : ∃ r ∈ rs, m.Is r := by
    clear h0 h1 h3 hn
    induction h with
    | nil => simp at h2
    | cons h _ ih =>
      rcases List.mem_cons.mp h2 with rfl | h2
      · exact ⟨_, by simp, h⟩
      · obtain ⟨r, h1, h2⟩ := ih h2; exact ⟨r, List.mem_cons_of_mem _ h1, h2⟩
  refine ⟨m, r, h1, hm, hr, ?_⟩
  clear h0 h1 h2 hn hr
  induction h with
  | nil => simp
  | cons h _ ih =>
    intro y hy
    rcases List.mem_cons.mp hy with rfl | hy
    · have := h3 _ (List.mem_cons_self ..)
      rw [h.le hm] at this; exact of_decide_eq_true this
    · exact ih (fun y hy => h3 y (List.mem_cons_of_mem _ hy)) y hy

/-- the bound of a finite set of points, with the intermediate values named -/
theorem init_rect (a b c d e f : Fl ℝ) : AABB.init .rect [a, b, c, d, e, f] = .ok ⟨#v[a, b, c], #v[d, e, f]⟩ := rfl

theorem Line3.Made.facts {s : Line3 ℝ} {a b : R3} (h : s.Made a b) :
    s.a.IsR a ∧ s.b.IsR b ∧ s.bound.IsR (fun i => min (a i) (b i)) (fun i => max (a i) (b i)) := by
  obtain ⟨l, l', s0, v, ⟨x0, x1, x2, rfl, h0, h1, h2⟩, ⟨y0, y1, y2, rfl, k0, k1, k2⟩, hi, rfl⟩ := h
  have key {x y : Fl ℝ} {p q : ℝ} (hx : x.Is p) (hy : y.Is q) :
      (∃ m, minOf [x, y] = .ok m ∧ m.Is (min p q)) ∧ ∃ m, maxOf [x, y] = .ok m ∧ m.Is (max p q) := by
    constructor
    · obtain ⟨m, r, e, hm, hr, hl⟩ := minOf_real (l := [x, y]) (rs := [p, q]) (.cons hx (.cons hy .nil)) (by simp)
      refine ⟨m, e, hm.cast ?_⟩
      apply le_antisymm
      · exact le_min (hl p (by simp)) (hl q (by simp))
      · rcases List.mem_cons.mp hr with rfl | hr
        · exact min_le_left _ _
        · rw [List.mem_singleton.mp hr]; exact min_le_right _ _
    · obtain ⟨m, r, e, hm, hr, hl⟩ := maxOf_real (l := [x, y]) (rs := [p, q]) (.cons hx (.cons hy .nil)) (by simp)
      refine ⟨m, e, hm.cast ?_⟩
      apply le_antisymm
      · rcases List.mem_cons.mp hr with rfl | hr
        · exact le_max_left _ _
        · rw [List.mem_singleton.mp hr]; exact le_max_right _ _
      · exact max_le (hl p (by simp)) (hl q (by simp))
  obtain ⟨⟨m0, e0, i0⟩, ⟨n0, f0, j0⟩⟩ := key h0 k0
  obtain ⟨⟨m1, e1, i1⟩, ⟨n1, f1, j1⟩⟩ := key h1 k1
  obtain ⟨⟨m2, e2, i2⟩, ⟨n2, f2, j2⟩⟩ := key h2 k2
  have hi : (minOf [x0, y0] >>= fun xMin => maxOf [x0, y0] >>= fun xMax => minOf [x1, y1] >>= fun yMin =>
      maxOf [x1, y1] >>= fun yMax => minOf [x2, y2] >>= fun zMin => maxOf [x2, y2] >>= fun zMax =>
      Except.ok (⟨⟨#v[x0, x1, x2]⟩, ⟨#v[y0, y1, y2]⟩, ⟨#v[xMin, yMin, zMin], #v[xMax, yMax, zMax]⟩, defaultVicinity⟩ : Line3 ℝ)) =
      Except.ok s0 := hi
  rw [e0, f0, e1, f1, e2, f2] at hi
  simp only [Res.ok_bind] at hi
  injection hi with hi
  subst hi
  exact ⟨V3.isR_mk h0 h1 h2, V3.isR_mk k0 k1 k2, AABB.isR_mk i0 i1 i2 j0 j1 j2⟩

theorem TriPrism.Made.facts {s : TriPrism ℝ} {v0 v1 v2 : R3} {h : ℝ} (hm : s.Made v0 v1 v2 h) :
    (s.triBase[0].IsR v0 ∧ s.triBase[1].IsR v1 ∧ s.triBase[2].IsR v2) ∧
    (s.triBase2[0].IsR (v0 + h • triNormal v0 v1 v2) ∧ s.triBase2[1].IsR (v1 + h • triNormal v0 v1 v2) ∧
      s.triBase2[2].IsR (v2 + h • triNormal v0 v1 v2)) ∧
    s.normalHeight.IsR (h • triNormal v0 v1 v2) ∧
    ∃ lo hi, s.bound.IsR lo hi ∧ (∀ p ∈ prismVerts v0 v1 v2 h, ∀ i, lo i ≤ p i ∧ p i ≤ hi i) ∧
      (∀ i, ∃ p ∈ prismVerts v0 v1 v2 h, p i = lo i) ∧ ∀ i, ∃ p ∈ prismVerts v0 v1 v2 h, p i = hi i := by
  obtain ⟨hc, l0, l1, l2, x, s0, v, ⟨x0, x1, x2, rfl, h0, h1, h2⟩, ⟨y0, y1, y2, rfl, k0, k1, k2⟩,
    ⟨z0, z1, z2, rfl, j0, j1, j2⟩, hx, hi, rfl⟩ := hm
  have A := V3.isR_mk h0 h1 h2
  have B := V3.isR_mk k0 k1 k2
  have C := V3.isR_mk j0 j1 j2
  have N : (V3.scl (V3.nrm (V3.crs (V3.sub ⟨#v[y0, y1, y2]⟩ ⟨#v[x0, x1, x2]⟩) (V3.sub ⟨#v[z0, z1, z2]⟩ ⟨#v[x0, x1, x2]⟩))) x).IsR
      (h • triNormal v0 v1 v2) := V3.isR_scl (V3.isR_nrm (V3.isR_crs (V3.isR_sub B A) (V3.isR_sub C A)) hc) hx
  have A' := V3.isR_add A N
  have B' := V3.isR_add B N
  have C' := V3.isR_add C N
  generalize hn : V3.scl (V3.nrm (V3.crs (V3.sub ⟨#v[y0, y1, y2]⟩ ⟨#v[x0, x1, x2]⟩) (V3.sub ⟨#v[z0, z1, z2]⟩ ⟨#v[x0, x1, x2]⟩))) x
    = n at *
  obtain ⟨a0, a1, a2⟩ := Mat3x1.isR_iff.mp A'
  obtain ⟨b0, b1, b2⟩ := Mat3x1.isR_iff.mp B'
  obtain ⟨c0, c1, c2⟩ := Mat3x1.isR_iff.mp C'
  generalize hA : V3.add ⟨#v[x0, x1, x2]⟩ n = a' at *
  generalize hB : V3.add ⟨#v[y0, y1, y2]⟩ n = b' at *
  generalize hC : V3.add ⟨#v[z0, z1, z2]⟩ n = c' at *
  have hi : (minOf [x0, y0, z0, a'.val[0], b'.val[0], c'.val[0]] >>= fun xMin =>
      maxOf [x0, y0, z0, a'.val[0], b'.val[0], c'.val[0]] >>= fun xMax =>
      minOf [x1, y1, z1, a'.val[1], b'.val[1], c'.val[1]] >>= fun yMin =>
      maxOf [x1, y1, z1, a'.val[1], b'.val[1], c'.val[1]] >>= fun yMax =>
      minOf [x2, y2, z2, a'.val[2], b'.val[2], c'.val[2]] >>= fun zMin =>
      maxOf [x2, y2, z2, a'.val[2], b'.val[2], c'.val[2]] >>= fun zMax =>
      Except.ok (⟨#v[⟨#v[x0, x1, x2]⟩, ⟨#v[y0, y1, y2]⟩, ⟨#v[z0, z1, z2]⟩], #v[a', b', c'], n,
        ⟨#v[xMin, yMin, zMin], #v[xMax, yMax, zMax]⟩, defaultVicinity⟩ : TriPrism ℝ)) =
      Except.ok s0 := by
    rw [← hi, ← hA, ← hB, ← hC, ← hn]; rfl
  obtain ⟨m0, r0, e0, i0, q0, p0⟩ := minOf_real (.cons h0 (.cons k0 (.cons j0 (.cons a0 (.cons b0 (.cons c0 .nil)))))) (by simp)
  obtain ⟨m1, r1, e1, i1, q1, p1⟩ := minOf_real (.cons h1 (.cons k1 (.cons j1 (.cons a1 (.cons b1 (.cons c1 .nil)))))) (by simp)
  obtain ⟨m2, r2, e2, i2, q2, p2⟩ := minOf_real (.cons h2 (.cons k2 (.cons j2 (.cons a2 (.cons b2 (.cons c2 .nil)))))) (by simp)
  obtain ⟨n0, t0, f0, g0, w0, u0⟩ := maxOf_real (.cons h0 (.cons k0 (.cons j0 (.cons a0 (.cons b0 (.cons c0 .nil)))))) (by simp)
  obtain ⟨n1, t1, f1, g1, w1, u1⟩ := maxOf_real (.cons h1 (.cons k1 (.cons j1 (.cons a1 (.cons b1 (.cons c1 .nil)))))) (by simp)
  obtain ⟨n2, t2, f2, g2, w2, u2⟩ := maxOf_real (.cons h2 (.cons k2 (.cons j2 (.cons a2 (.cons b2 (.cons c2 .nil)))))) (by simp)
  rw [e0, f0, e1, f1, e2, f2] at hi
  simp only [Res.ok_bind] at hi
  injection hi with hi
  subst hi
  refine ⟨⟨A, B, C⟩, ⟨A', B', C'⟩, N, ![r0, r1, r2], ![t0, t1, t2], AABB.isR_mk i0 i1 i2 g0 g1 g2, ?_, ?_, ?_⟩
  · intro p hp i
    have mem (i : Fin 3) : p i ∈ [v0 i, v1 i, v2 i, (v0 + h • triNormal v0 v1 v2) i, (v1 + h • triNormal v0 v1 v2) i,
        (v2 + h • triNormal v0 v1 v2) i] := by
      rcases hp with rfl | rfl | rfl | rfl | rfl | rfl <;> simp
    fin_cases i
    · exact ⟨p0 _ (mem 0), u0 _ (mem 0)⟩
    · exact ⟨p1 _ (mem 1), u1 _ (mem 1)⟩
    · exact ⟨p2 _ (mem 2), u2 _ (mem 2)⟩
  · have mem {i : Fin 3} {r : ℝ} (hr : r ∈ [v0 i, v1 i, v2 i, (v0 + h • triNormal v0 v1 v2) i,
        (v1 + h • triNormal v0 v1 v2) i, (v2 + h • triNormal v0 v1 v2) i]) : ∃ p ∈ prismVerts v0 v1 v2 h, p i = r := by
      simp only [List.mem_cons, List.not_mem_nil, or_false] at hr
      rcases hr with rfl | rfl | rfl | rfl | rfl | rfl <;> exact ⟨_, by simp [prismVerts], rfl⟩
    intro i; fin_cases i
    · exact mem q0
    · exact mem q1
    · exact mem q2
  · have mem {i : Fin 3} {r : ℝ} (hr : r ∈ [v0 i, v1 i, v2 i, (v0 + h • triNormal v0 v1 v2) i,
        (v1 + h • triNormal v0 v1 v2) i, (v2 + h • triNormal v0 v1 v2) i]) : ∃ p ∈ prismVerts v0 v1 v2 h, p i = r := by
      simp only [List.mem_cons, List.not_mem_nil, or_false] at hr
      rcases hr with rfl | rfl | rfl | rfl | rfl | rfl <;> exact ⟨_, by simp [prismVerts], rfl⟩
    intro i; fin_cases i
    · exact mem w0
    · exact mem w1
    · exact mem w2

end Mazth
