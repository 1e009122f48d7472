import Verif.Props.Dispatch
import Verif.Props.Bounds
import Verif.Props.ShapeBounds
import Verif.Float.ExactOps
import Verif.Float.BinaryLawful

/-!
# Queries with a point: point-point (C39), sphere-point (C41), plane-point (C45), box-point (C46)
-/

set_option linter.unusedSectionVars false
set_option autoImplicit false

namespace Mazth

open Matrix

theorem Shape.Finds.unique {s t : Shape ℝ} {p q : R3} (h : s.Finds t p) (h' : s.Finds t q) : p = q := by
  obtain ⟨a, e, ha⟩ := h
  obtain ⟨b, e', hb⟩ := h'
  rw [e] at e'
  injection e' with e'
  injection e' with _ e'
  injection e' with e'
  subst e'
  obtain ⟨a0, a1, a2⟩ := Mat3x1.isR_iff.mp ha; obtain ⟨b0, b1, b2⟩ := Mat3x1.isR_iff.mp hb
  ext i; fin_cases i
  · exact a0.unique b0
  · exact a1.unique b1
  · exact a2.unique b2

theorem Shape.Finds.not_misses {s t : Shape ℝ} {p : R3} (h : s.Finds t p) : ¬ s.Misses t := by
  rintro h'
  obtain ⟨a, e, ha⟩ := h
  unfold Shape.Misses at h'
  rw [e] at h'
  simp at h'

section generic
variable {K : Type} [Field K] [LinearOrder K] [IsStrictOrderedRing K] [Fmt K]

/-! ## C39 -/

theorem Fl.abs_nonneg' {e : Fl K} (h : e ≠ .nan) : Fl.le 0 (Fl.abs e) = true := by
  cases e <;> simp_all [Fl.abs, Fl.zero_def, Fl.le]

/-- one coordinate of the point-point query: bounds first, then the tolerance -/
theorem coord_eq [LawfulFmt K] {a b v : Fl K} (ha : a.WF) (hv : v.Finite) (h0 : Fl.le 0 v = true) :
    (Fl.lt b a = false ∧ Fl.lt a b = false) ∧ withinVicinity v a b = true ↔ Fl.feq a b = true := by
  by_cases hn : a = .nan
  · subst hn; simp [Fl.feq, C53_nan v .nan b (.inr (.inl rfl))]
  by_cases hm : b = .nan
  · subst hm; simp [Fl.feq, C53_nan v a .nan (.inr (.inr rfl))]
  rw [Fl.lt_eq_not_le hm hn, Fl.lt_eq_not_le hn hm]
  unfold Fl.feq
  simp only [Bool.not_eq_false', Bool.and_eq_true]
  refine ⟨fun h => h.1, fun h => ⟨h, ?_⟩⟩
  unfold withinVicinity
  rw [Bool.and_eq_true]
  cases a with
  | nan => exact absurd rfl hn
  | inf s =>
    have hb : b = .inf s := by
      obtain ⟨h1, h2⟩ := h
      cases b <;> cases s <;> simp_all [Fl.le]
    subst hb
    obtain ⟨w, hw⟩ := hv
    rcases hw.kcases with rfl | ⟨rfl, _⟩
    · have e1 : (Fl.inf s : Fl K) + .fin w = .inf s := rfl
      have e2 : (Fl.inf s : Fl K) - .fin w = .inf s := by
        rw [Fl.sub_eq]; show Fl.add _ (if w = 0 then _ else _) = _
        split <;> rfl
      rw [e1, e2]; cases s <;> simp [Fl.le]
    · have e1 : (Fl.inf s : Fl K) + .nzero = .inf s := rfl
      have e2 : (Fl.inf s : Fl K) - .nzero = .inf s := rfl
      rw [e1, e2]; cases s <;> simp [Fl.le]
  | nzero =>
    exact ⟨Fl.le_trans h.2 (Fl.le_add_nonneg ha Fl.finite_nzero h0), Fl.le_trans (Fl.sub_nonneg_le ha Fl.finite_nzero h0) h.1⟩
  | fin x =>
    exact ⟨Fl.le_trans h.2 (Fl.le_add_nonneg ha (Fl.finite_fin x) h0),
      Fl.le_trans (Fl.sub_nonneg_le ha (Fl.finite_fin x) h0) h.1⟩

/-- C39: a query between two constructed points answers true exactly when all coordinates are equal as floats
(`==`), whatever finite tolerances have been set on them; the location is the position of the point asked. For every
rounding, and all floats (NaN and infinities included). -/
theorem C39_pointPoint [LawfulFmt K] (a0 a1 a2 b0 b1 b2 e e' : Fl K) (ha0 : a0.WF) (ha1 : a1.WF) (ha2 : a2.WF)
    (he : e.Finite) (p q : Point3 K) (hp : Point3.init [a0, a1, a2] = .ok p) (hq : Point3.init [b0, b1, b2] = .ok q) (n : ℕ) :
    Shape.getIntersect (n + 2) ((Shape.point p).setVicinity e) ((Shape.point q).setVicinity e') =
      .ok (if Fl.feq a0 b0 && Fl.feq a1 b1 && Fl.feq a2 b2 then (true, some ⟨#v[a0, a1, a2]⟩) else (false, none)) := by
  have hp : Except.ok _ = Except.ok p := hp
  have hq : Except.ok _ = Except.ok q := hq
  injection hp with hp; injection hq with hq
  subst hp; subst hq
  have hv : (Fl.abs e).Finite := by
    obtain ⟨w, hw⟩ := he
    rcases hw.kcases with rfl | ⟨rfl, _⟩
    · exact ⟨_, rfl⟩
    · exact ⟨_, rfl⟩
  have h0 := Fl.abs_nonneg' he.ne_nan
  rw [getIntersect_eq]
  have key : (Fl.feq a0 b0 && Fl.feq a1 b1 && Fl.feq a2 b2) = true ↔
      AABB.overlap (⟨#v[a0, a1, a2], #v[a0, a1, a2]⟩ : AABB (Fl K)) ⟨#v[b0, b1, b2], #v[b0, b1, b2]⟩ = true ∧
      (withinVicinity (Fl.abs e) a0 b0 = true ∧ withinVicinity (Fl.abs e) a1 b1 = true ∧
        withinVicinity (Fl.abs e) a2 b2 = true) := by
    rw [Bool.and_eq_true, Bool.and_eq_true, ← coord_eq ha0 hv h0, ← coord_eq ha1 hv h0, ← coord_eq ha2 hv h0, AABB.overlap_iff]
    rw [Fin.forall_fin_succ, Fin.forall_fin_succ, Fin.forall_fin_succ]
    simp
    tauto
  show (if AABB.overlap (⟨#v[a0, a1, a2], #v[a0, a1, a2]⟩ : AABB (Fl K)) ⟨#v[b0, b1, b2], #v[b0, b1, b2]⟩ = true then
    Except.ok (if !withinVicinity (Fl.abs e) a0 b0 || !withinVicinity (Fl.abs e) a1 b1 ||
        !withinVicinity (Fl.abs e) a2 b2 then (false, none) else (true, some (⟨#v[a0, a1, a2]⟩ : V3 K))) else _) = _
  cases hc : (Fl.feq a0 b0 && Fl.feq a1 b1 && Fl.feq a2 b2) with
  | true =>
    obtain ⟨k0, k1, k2, k3⟩ := key.mp hc
    rw [k0, k1, k2, k3]; rfl
  | false =>
    split
    · rename_i ho
      split
      · rfl
      · rename_i h
        simp only [Bool.or_eq_true, Bool.not_eq_true', not_or, Bool.not_eq_false] at h
        rw [key.mpr ⟨ho, h.1.1, h.1.2, h.2⟩] at hc
        simp at hc
    · rfl

/-- concrete case: `(0, 3, -1/2)` against `(-0, 3, -1/2)` -/
example := C39_pointPoint (K := Q64) 0 (.fin 3) (.fin (-1/2)) .nzero (.fin 3) (.fin (-1/2)) (.fin 1) .nan
  (.inl rfl) (.inr (by decide +kernel)) (.inr (by decide +kernel)) ⟨_, rfl⟩ _ _ rfl rfl 0

/-- C39: so two points whose distance is far below the tolerance of both are reported as not intersecting (witness:
`(0,0,0)` and `(2^-30,0,0)`, tolerance `1`, in binary64). -/
theorem C39_tolerance_ignored : ∃ p q : Point3 Q64, Point3.init [0, 0, 0] = .ok p ∧ Point3.init [.fin (1/2^30), 0, 0] = .ok q ∧
    withinVicinity (1 : Fl Q64) 0 (.fin (1/2^30)) = true ∧
    Shape.getIntersect 2 ((Shape.point p).setVicinity 1) ((Shape.point q).setVicinity 1) = .ok (false, none) :=
  ⟨_, _, rfl, rfl, by decide +kernel, by decide +kernel⟩

/-- C39, non-vacuity: a hit with signed zeros. -/
example : ∃ p q : Point3 Q64, Point3.init [0, .fin 3, 0] = .ok p ∧ Point3.init [.nzero, .fin 3, 0] = .ok q ∧
    Shape.getIntersect 2 (.point p) (.point q) = .ok (true, some ⟨#v[0, .fin 3, 0]⟩) :=
  ⟨_, _, rfl, rfl, by decide +kernel⟩

/-- C39, exact arithmetic: true exactly if the two points are the same, for every tolerance `≥ 0`. -/
theorem C39_exact (s t : Point3 ℝ) (p q : R3) (hs : s.Made p) (ht : t.Made q) (ε : ℝ) (h0 : 0 ≤ ε) (hv : s.vicinity.Is ε) :
    (p = q → Shape.Finds (.point s) (.point t) p) ∧ (p ≠ q → Shape.Misses (.point s) (.point t)) := by
  obtain ⟨ho, hb⟩ := hs.facts
  obtain ⟨ho', hb'⟩ := ht.facts
  unfold Shape.Finds Shape.Misses
  rw [getIntersect_eq 0]
  constructor
  · rintro rfl
    rw [if_pos (show AABB.overlap (Shape.point s).aabb (Shape.point t).aabb = true from
      (AABB.IsR.overlap hb hb').mpr fun i => ⟨le_refl _, le_refl _⟩)]
    obtain ⟨a0, a1, a2⟩ := Mat3x1.isR_iff.mp ho
    obtain ⟨b0, b1, b2⟩ := Mat3x1.isR_iff.mp ho'
    refine ⟨s.ori, ?_, ho⟩
    show Except.ok (if _ then _ else _) = _
    rw [withinVicinity_real hv a0 b0, withinVicinity_real hv a1 b1, withinVicinity_real hv a2 b2]
    simp [h0]
  · intro hne
    rw [if_neg]
    intro h
    have h := (AABB.IsR.overlap hb hb').mp h
    exact hne (funext fun i => le_antisymm (h i).1 (h i).2)

/-- concrete case: two distinct points, well within the tolerance of each other -/
example : Shape.Misses (.point (mkPoint ![1, 2, 3] (.fin 7))) (.point (mkPoint ![1, 2, 4] (.fin 7))) :=
  (C39_exact _ _ _ _ (mkPoint_made ..) (mkPoint_made ..) 7 (by norm_num) (mkPoint_vicIs ..)).2 fun h => by
    simpa using congrFun h 2

/-! ## C46 -/

/-- C46, all floats: a box and a point made by the constructors intersect exactly when no coordinate of the point is
below the rounded `o - s` or above the rounded `o + s`; the location is the point. (So a NaN coordinate never causes a
rejection.) -/
theorem C46_boxPoint (o0 o1 o2 s p0 p1 p2 : Fl K) (b : RecBox K) (p : Point3 K)
    (hb : RecBox.init [o0, o1, o2] s = .ok b) (hp : Point3.init [p0, p1, p2] = .ok p) (n : ℕ) :
    Shape.getIntersect (n + 2) (.box b) (.point p) =
      .ok (if (!Fl.lt p0 (o0 - s) && !Fl.lt (o0 + s) p0) && (!Fl.lt p1 (o1 - s) && !Fl.lt (o1 + s) p1) &&
          (!Fl.lt p2 (o2 - s) && !Fl.lt (o2 + s) p2) then (true, some ⟨#v[p0, p1, p2]⟩) else (false, none)) := by
  have hp : Except.ok _ = Except.ok p := hp
  have hb : Except.ok _ = Except.ok b := hb
  injection hp with hp; injection hb with hb
  subst hp; subst hb
  rw [getIntersect_eq]
  have key : ((!Fl.lt p0 (o0 - s) && !Fl.lt (o0 + s) p0) && (!Fl.lt p1 (o1 - s) && !Fl.lt (o1 + s) p1) &&
          (!Fl.lt p2 (o2 - s) && !Fl.lt (o2 + s) p2)) =
      AABB.overlap (⟨#v[o0 - s, o1 - s, o2 - s], #v[o0 + s, o1 + s, o2 + s]⟩ : AABB (Fl K)) ⟨#v[p0, p1, p2], #v[p0, p1, p2]⟩ := by
    rw [Bool.eq_iff_iff, AABB.overlap_iff, Fin.forall_fin_succ, Fin.forall_fin_succ, Fin.forall_fin_succ]
    simp [and_assoc]
  rw [key]
  show (if AABB.overlap (⟨#v[o0 - s, o1 - s, o2 - s], #v[o0 + s, o1 + s, o2 + s]⟩ : AABB (Fl K)) ⟨#v[p0, p1, p2], #v[p0, p1, p2]⟩ = true
    then (Except.ok (true, some ⟨#v[p0, p1, p2]⟩) : Res (Hit K)) else .ok (false, none)) = _
  split <;> rfl

/-- concrete case: a NaN coordinate counts as inside -/
example := C46_boxPoint (K := Q64) 0 0 (.fin 4) 1 (.fin (1/2)) .nan (.fin 5) _ _ rfl rfl 0

/-- one coordinate of the cube test never rejects a point of the exact interval -/
theorem cube_coord [LawfulFmt K] {o p s : Fl K} {x y r : K} (ho : o.Is x) (hp : p.Is y) (hw : p.WF) (hs : s.Is r)
    (h : |y - x| ≤ r) : Fl.lt p (o - s) = false ∧ Fl.lt (o + s) p = false := by
  have h1 := abs_le.mp h
  have hr : Fl.Rep y := Fl.Is.wf_rep hp hw
  have hpn : p ≠ .nan := Fl.Finite.ne_nan ⟨_, hp⟩
  have hon : o.Finite := ⟨_, ho⟩
  have hsn : s ≠ .nan := Fl.Finite.ne_nan ⟨_, hs⟩
  have hle (x' : Fl K) : Fl.le x' p = Fl.le x' (.fin y) := (le_fin_of_is hp).1
  have hle' (x' : Fl K) : Fl.le p x' = Fl.le (.fin y) x' := (le_fin_of_is hp).2
  rw [Fl.sub_eq, Fl.lt_eq_not_le hpn (Fl.add_ne_nan hon (Fl.neg_ne_nan hsn)), Fl.lt_eq_not_le (Fl.add_ne_nan hon hsn) hpn,
    hle, hle']
  constructor
  · rw [((le_add ho hs.kneg).2 : Fl.le _ _ = Fl.le (Fl.lit _) _), ← Fl.lit_rep hr, Fl.lit_mono (by linarith)]; rfl
  · rw [((le_add ho hs).1 : Fl.le _ _ = Fl.le _ (Fl.lit _)), ← Fl.lit_rep hr, Fl.lit_mono (by linarith)]; rfl

/-- C46, all finite floats, any rounding: a point of the exact (unrounded) cube is never rejected. -/
theorem C46_complete [LawfulFmt K] (o p : Fin 3 → Fl K) (s : Fl K) (x y : Fin 3 → K) (r : K) (b : RecBox K) (q : Point3 K)
    (hb : RecBox.init [o 0, o 1, o 2] s = .ok b) (hq : Point3.init [p 0, p 1, p 2] = .ok q)
    (ho : ∀ i, (o i).Is (x i)) (hp : ∀ i, (p i).Is (y i)) (hw : ∀ i, (p i).WF) (hs : s.Is r)
    (h : ∀ i, |y i - x i| ≤ r) (n : ℕ) :
    Shape.getIntersect (n + 2) (.box b) (.point q) = .ok (true, some ⟨#v[p 0, p 1, p 2]⟩) := by
  rw [C46_boxPoint _ _ _ _ _ _ _ _ _ hb hq]
  have key (i : Fin 3) := cube_coord (ho i) (hp i) (hw i) hs (h i)
  rw [(key 0).1, (key 0).2, (key 1).1, (key 1).2, (key 2).1, (key 2).2]; rfl

/-- concrete case: a corner of a box -/
example := C46_complete (K := Q64) ![.fin 1, .fin 2, .fin 3] ![.fin 5, .fin 6, .fin (-1)] (.fin 4) ![1, 2, 3]
  ![5, 6, -1] 4 _ _ rfl rfl (fun i => by fin_cases i <;> rfl) (fun i => by fin_cases i <;> rfl)
  (fun i => by fin_cases i <;> exact .inr (by decide +kernel)) rfl
  (fun i => by fin_cases i <;> simp <;> norm_num [abs_le]) 0

/-- C46, non-vacuity in binary64: the rounded bound of the box `0.1 ± 0.2` accepts. -/
example : ∃ (b : RecBox Q64) (p q : Point3 Q64), RecBox.init [0, 0, .fin 4] 1 = .ok b ∧ Point3.init [1, .fin (-1), .fin 5] = .ok p ∧
    Point3.init [1, .fin (-1), .fin 6] = .ok q ∧
    Shape.getIntersect 2 (.box b) (.point p) = .ok (true, some ⟨#v[1, .fin (-1), .fin 5]⟩) ∧
    Shape.getIntersect 2 (.box b) (.point q) = .ok (false, none) :=
  ⟨_, _, _, rfl, rfl, rfl, by decide +kernel, by decide +kernel⟩

end generic

/-- C46, exact arithmetic: a box (any half size, also negative) and a point intersect exactly when the point is in the
closed cube; the location is the point. -/
theorem C46_exact (b : RecBox ℝ) (t : Point3 ℝ) (o p : R3) (s : ℝ) (hb : b.Made o s) (hp : t.Made p) :
    (p ∈ cubePts o s → Shape.Finds (.box b) (.point t) p) ∧ (p ∉ cubePts o s → Shape.Misses (.box b) (.point t)) := by
  obtain ⟨ho, hs, hbb⟩ := hb.facts
  obtain ⟨ho', hb'⟩ := hp.facts
  unfold Shape.Finds Shape.Misses
  rw [getIntersect_eq 0]
  have key : AABB.overlap (Shape.box b).aabb (Shape.point t).aabb = true ↔ p ∈ cubePts o s := by
    refine (AABB.IsR.overlap hbb hb').trans ?_
    refine forall_congr' fun i => ?_
    rw [abs_le]
    constructor <;> rintro ⟨h1, h2⟩ <;> constructor <;> linarith
  constructor
  · intro h
    rw [if_pos (key.mpr h)]
    exact ⟨t.ori, rfl, ho'⟩
  · intro h
    rw [if_neg (fun h' => h (key.mp h'))]

/-- concrete case: a corner of a box -/
example : Shape.Finds (.box (mkBox ![1, 2, 3] 4 0)) (.point (mkPoint ![5, 6, -1] 0)) ![5, 6, -1] :=
  (C46_exact _ _ _ _ _ (mkBox_made ..) (mkPoint_made ..)).1 fun i => by fin_cases i <;> norm_num

/-! ## C41 -/

theorem spherePoint_core (s : Sphere ℝ) (t : Point3 ℝ) (c p : R3) (r : ℝ) (hs : s.Made c r) (hp : t.Made p) :
    core (.sphere s) (.point t) = .ok (if ∀ i, p i - c i ≤ r then (true, some t.ori) else (false, none)) := by
  obtain ⟨ho, hr, hbb⟩ := hs.facts
  obtain ⟨ho', hb'⟩ := hp.facts
  obtain ⟨d0, d1, d2⟩ := Mat3x1.isR_iff.mp (V3.isR_sub ho' ho)
  show Sphere.intersectPoint _ _ = _
  unfold Sphere.intersectPoint
  simp only [vecAt_point, Res.ok_bind, V3.minus_eq, unwrap_some, Res.pure_eq]
  have key : ((List.finRange 3).any fun i => Fl.lt s.radius (V3.sub t.ori s.ori).val[i.val]) = true ↔ ¬ ∀ i, p i - c i ≤ r := by
    rw [List.any_eq_true]
    simp only [List.mem_finRange, true_and, not_forall, not_le]
    refine exists_congr fun i => ?_
    fin_cases i
    · simp [hr.lt d0]
    · simp [hr.lt d1]
    · simp [hr.lt d2]
  by_cases h : ∀ i, p i - c i ≤ r
  · rw [if_pos h, if_neg (fun h' => key.mp h' h)]
  · rw [if_neg h, if_pos (key.mpr h)]

/-- C41, exact arithmetic: a sphere and a point intersect, for the code, exactly when the point is in the closed cube
around the sphere; the location is the point. -/
theorem C41_cube (s : Sphere ℝ) (t : Point3 ℝ) (c p : R3) (r : ℝ) (hs : s.Made c r) (hp : t.Made p) :
    (p ∈ cubePts c r → Shape.Finds (.sphere s) (.point t) p) ∧ (p ∉ cubePts c r → Shape.Misses (.sphere s) (.point t)) := by
  have hc := spherePoint_core s t c p r hs hp
  obtain ⟨ho, hr, hbb⟩ := hs.facts
  obtain ⟨ho', hb'⟩ := hp.facts
  unfold Shape.Finds Shape.Misses
  rw [getIntersect_eq 0, hc]
  have key : AABB.overlap (Shape.sphere s).aabb (Shape.point t).aabb = true ↔ p ∈ cubePts c r := by
    refine (AABB.IsR.overlap hbb hb').trans ?_
    refine forall_congr' fun i => ?_
    rw [abs_le]
    constructor <;> rintro ⟨h1, h2⟩ <;> constructor <;> linarith
  constructor
  · intro h
    rw [if_pos (key.mpr h), if_pos fun i => (abs_le.mp (h i)).2]
    exact ⟨t.ori, rfl, ho'⟩
  · intro h
    rw [if_neg (fun h' => h (key.mp h'))]

/-- concrete case: a point outside the cube around the sphere -/
example : Shape.Misses (.sphere (mkSphere ![1, 2, 3] 1 0)) (.point (mkPoint ![1, 2, 5] 0)) :=
  (C41_cube _ _ _ _ _ (mkSphere_made ..) (mkPoint_made ..)).2 fun h => by
    have h2 : |(5 : ℝ) - 3| ≤ 1 := h 2
    norm_num at h2

/-- C41: no point of the ball is missed. -/
theorem C41_complete (s : Sphere ℝ) (t : Point3 ℝ) (c p : R3) (r : ℝ) (hs : s.Made c r) (hp : t.Made p) (h : p ∈ ballPts c r) :
    Shape.Finds (.sphere s) (.point t) p :=
  (C41_cube s t c p r hs hp).1 fun i => (euc_coord_le (p - c) i).trans h

/-- concrete case: a point on the surface -/
example : Shape.Finds (.sphere (mkSphere ![1, 2, 3] 1 0)) (.point (mkPoint ![1, 2, 4] 0)) ![1, 2, 4] :=
  C41_complete _ _ _ _ _ (mkSphere_made ..) (mkPoint_made ..) (by
    show euc _ ≤ 1
    rw [euc_eq]; simp [Fin.sum_univ_three]; norm_num)

/-- C41, all finite floats, any rounding: a point of the exact cube (in particular of the exact ball) is never rejected. -/
theorem C41_float_complete {K : Type} [Field K] [LinearOrder K] [IsStrictOrderedRing K] [Fmt K] [LawfulFmt K]
    (o p : Fin 3 → Fl K) (s : Fl K) (x y : Fin 3 → K) (r : K) (b : Sphere K) (q : Point3 K)
    (hb : Sphere.init [o 0, o 1, o 2] s = .ok b) (hq : Point3.init [p 0, p 1, p 2] = .ok q)
    (ho : ∀ i, (o i).Is (x i)) (hp : ∀ i, (p i).Is (y i)) (hw : ∀ i, (p i).WF) (hws : s.WF) (hs : s.Is r)
    (h : ∀ i, |y i - x i| ≤ r) (n : ℕ) :
    Shape.getIntersect (n + 2) (.sphere b) (.point q) = .ok (true, some ⟨#v[p 0, p 1, p 2]⟩) := by
  have hq : Except.ok _ = Except.ok q := hq
  have hb : Except.ok _ = Except.ok b := hb
  injection hq with hq; injection hb with hb
  subst hq; subst hb
  have key (i : Fin 3) := cube_coord (ho i) (hp i) (hw i) hs (h i)
  have key2 (i : Fin 3) : Fl.lt s (p i - o i) = false := by
    have h1 := abs_le.mp (h i)
    have hr : Fl.Rep r := Fl.Is.wf_rep hs hws
    have hsn : s ≠ .nan := Fl.Finite.ne_nan ⟨_, hs⟩
    rw [Fl.sub_eq, Fl.lt_eq_not_le hsn (Fl.add_ne_nan ⟨_, hp i⟩ (Fl.neg_ne_nan (Fl.Finite.ne_nan ⟨_, ho i⟩))),
      ((le_fin_of_is hs).1 : Fl.le _ s = _), ((le_add (hp i) (ho i).kneg).2 : Fl.le _ _ = Fl.le (Fl.lit _) _), ← Fl.lit_rep hr,
      Fl.lit_mono (by linarith)]
    rfl
  rw [getIntersect_eq, if_pos]
  · show Sphere.intersectPoint _ _ = _
    unfold Sphere.intersectPoint
    simp only [vecAt_point, Res.ok_bind, V3.minus_eq, unwrap_some, Res.pure_eq]
    rw [if_neg]
    rw [List.any_eq_true]
    rintro ⟨i, -, hi⟩
    revert hi
    rw [imp_false, Bool.not_eq_true]
    fin_cases i
    · exact key2 0
    · exact key2 1
    · exact key2 2
  · refine (AABB.overlap_iff _ _).mpr fun i => ?_
    fin_cases i
    · exact key 0
    · exact key 1
    · exact key 2

/-- concrete case -/
example := C41_float_complete (K := Q64) ![.fin 1, .fin 2, .fin 3] ![.fin 1, .fin 6, .fin 3] (.fin 4) ![1, 2, 3]
  ![1, 6, 3] 4 _ _ rfl rfl (fun i => by fin_cases i <;> rfl) (fun i => by fin_cases i <;> rfl)
  (fun i => by fin_cases i <;> exact .inr (by decide +kernel)) (.inr (by decide +kernel)) rfl
  (fun i => by fin_cases i <;> simp <;> norm_num [abs_le]) 0

/-- C41: but the answer is not "in the ball": for every sphere of positive radius there are points outside the ball that
are reported. -/
theorem C41_ball_false (s : Sphere ℝ) (c : R3) (r : ℝ) (hs : s.Made c r) (hr : 0 < r) :
    ∃ t p, Point3.Made t p ∧ p ∉ ballPts c r ∧ Shape.Finds (.sphere s) (.point t) p := by
  obtain ⟨t, ht, _⟩ := Point3.exists_made (c + fun _ => r) 0
  refine ⟨t, _, ht, ?_, (C41_cube s t c _ r hs ht).1 fun i => by simp [abs_of_pos hr]⟩
  intro h
  have h : euc (c + (fun _ => r) - c) ≤ r := h
  have h2 := mul_le_mul h h (euc_nonneg _) hr.le
  rw [euc_sq, dot3] at h2
  simp at h2
  nlinarith

/-- concrete case -/
example := C41_ball_false _ _ _ (mkSphere_made ![1, 2, 3] 2 0) (by norm_num)

/-- the same witness in binary64 -/
example : ∃ (s : Sphere Q64) (p : Point3 Q64), Sphere.init [0, 0, 0] 1 = .ok s ∧ Point3.init [1, 1, 1] = .ok p ∧
    Shape.getIntersect 2 (.sphere s) (.point p) = .ok (true, some ⟨#v[1, 1, 1]⟩) :=
  ⟨_, _, rfl, rfl, by decide +kernel⟩

/-! ## C45 -/

/-- the distance of `p` from a plane, along the unit normal -/
theorem plane_dist {o n p : R3} (hn : n ≠ 0) {ε : ℝ} :
    (∃ q ∈ planePts o n, euc (p - q) ≤ ε) ↔ |(p - o) ⬝ᵥ ((euc n)⁻¹ • n)| ≤ ε := by
  have h0 : euc n ≠ 0 := fun h => hn ((euc_eq_zero _).mp h)
  have hu := unit_of hn
  have cs (u v : R3) (hv : v ⬝ᵥ v = 1) : |u ⬝ᵥ v| ≤ euc u := by
    have e : euc v = 1 := by
      have := euc_sq v; rw [hv] at this
      have h1 := euc_nonneg v
      nlinarith
    have := abs_real_inner_le_norm (WithLp.toLp 2 v : EuclideanSpace ℝ (Fin 3)) (WithLp.toLp 2 u)
    rw [EuclideanSpace.inner_toLp_toLp] at this
    simp only [star_trivial] at this
    calc |u ⬝ᵥ v| ≤ euc v * euc u := this
      _ = euc u := by rw [e, one_mul]
  constructor
  · rintro ⟨q, hq, h⟩
    have e : (p - o) ⬝ᵥ ((euc n)⁻¹ • n) = (p - q) ⬝ᵥ ((euc n)⁻¹ • n) := by
      have hq : (q - o) ⬝ᵥ n = 0 := hq
      have : p - o = (p - q) + (q - o) := by abel
      rw [this, add_dotProduct, dotProduct_smul _ (q - o), hq]; simp
    rw [e]; exact (cs _ _ hu).trans h
  · intro h
    refine ⟨p - ((p - o) ⬝ᵥ ((euc n)⁻¹ • n)) • ((euc n)⁻¹ • n), ?_, ?_⟩
    · show (_ - o) ⬝ᵥ n = 0
      have e : n = euc n • ((euc n)⁻¹ • n) := by rw [smul_smul, mul_inv_cancel₀ h0, one_smul]
      generalize (euc n)⁻¹ • n = m at *
      rw [e, dotProduct_smul, sub_right_comm, sub_dotProduct, smul_dotProduct, hu]; simp
    · rw [sub_sub_cancel, euc_smul, euc_smul, abs_of_nonneg (inv_nonneg.mpr (euc_nonneg n)), inv_mul_cancel₀ h0, mul_one]
      exact h

/-- C45, exact arithmetic: a plane with tolerance `ε` and a point intersect exactly when the plane has a point at
Euclidean distance at most `ε`; the location is the point. -/
theorem C45_planePoint (s : Plane ℝ) (t : Point3 ℝ) (o n p : R3) (ε : ℝ) (hs : s.Made o n) (hp : t.Made p) (hv : s.vicinity.Is ε) :
    ((∃ q ∈ planePts o n, euc (p - q) ≤ ε) → Shape.Finds (.plane s) (.point t) p) ∧
    ((¬ ∃ q ∈ planePts o n, euc (p - q) ≤ ε) → Shape.Misses (.plane s) (.point t)) := by
  have hn := hs.1
  obtain ⟨ho, hnor, hb⟩ := hs.facts
  obtain ⟨ho', hb'⟩ := hp.facts
  rw [plane_dist hn]
  unfold Shape.Finds Shape.Misses
  rw [getIntersect_eq 0, if_pos]
  · show (_ → ∃ loc, Plane.intersectPoint _ _ = _ ∧ _) ∧ (_ → Plane.intersectPoint _ _ = _)
    unfold Plane.intersectPoint
    simp only [vecAt_point, Res.ok_bind, V3.dot_eq, unwrap_some, Res.pure_eq]
    rw [withinVicinity_real hv ((V3.is_dotp hnor ho).sub (V3.is_dotp hnor ho')) Fl.is_zero]
    have e : (p - o) ⬝ᵥ ((euc n)⁻¹ • n) = -(((euc n)⁻¹ • n) ⬝ᵥ o - ((euc n)⁻¹ • n) ⬝ᵥ p - 0) := by
      rw [sub_dotProduct, dotProduct_comm p, dotProduct_comm o]; ring
    rw [e, abs_neg]
    constructor
    · intro h; exact ⟨t.ori, by rw [decide_eq_true h]; rfl, ho'⟩
    · intro h; rw [decide_eq_false h]; rfl
  · show AABB.overlap s.bound t.bound = true
    rw [hb]
    refine AABB.overlap_of_has _ _ (p := fun i => .fin (p i)) (AABB.default_hasR p) ((AABB.IsR.hasR hb').mpr fun i => ⟨le_refl _, le_refl _⟩)

/-- concrete case: a point one half above a horizontal plane, tolerance one -/
example : Shape.Finds (.plane (mkPlane 0 upZ_ne (.fin 1))) (.point (mkPoint ![7, -3, 1/2] 0)) ![7, -3, 1/2] :=
  (C45_planePoint _ _ _ _ _ 1 (mkPlane_made ..) (mkPoint_made ..) (mkPlane_vicIs ..)).1 ⟨![7, -3, 0], by
    show _ ⬝ᵥ _ = (0 : ℝ)
    simp [dotProduct, Fin.sum_univ_three], by rw [euc_eq]; simp [Fin.sum_univ_three]; norm_num⟩

/-- C45: with the default tolerance the points of the plane itself are found. -/
theorem C45_on_plane (s : Plane ℝ) (t : Point3 ℝ) (o n p : R3) (ε : ℝ) (hs : s.Made o n) (hp : t.Made p)
    (hv : s.vicinity.Is ε) (h0 : 0 ≤ ε) (h : p ∈ planePts o n) : Shape.Finds (.plane s) (.point t) p :=
  (C45_planePoint s t o n p ε hs hp hv).1 ⟨p, h, by rw [sub_self, show euc (0 : R3) = 0 from (euc_eq_zero _).mpr rfl]; exact h0⟩

/-- C45, non-vacuity, exact arithmetic and binary64. -/
example : ∃ s t, Plane.Made s ![0, 0, 0] ![0, 0, 2] ∧ Point3.Made t ![5, 5, 0] ∧ s.vicinity.Is 0 := by
  obtain ⟨s, hs, e⟩ := Plane.exists_made ![0, 0, 0] (n := ![0, 0, 2]) (fun h => by simpa using congrFun h 2) 0
  obtain ⟨t, ht, _⟩ := Point3.exists_made ![5, 5, 0] 0
  exact ⟨s, t, hs, ht, e ▸ Fl.is_zero⟩
example : ∃ (s : Plane Q64) (p q : Point3 Q64), Plane.init [0, 0, 0] [0, 0, .fin 2] = .ok s ∧
    Point3.init [.fin 5, .fin 5, .fin (1/2^20)] = .ok p ∧ Point3.init [.fin 5, .fin 5, .fin (-1/2^19)] = .ok q ∧
    Shape.getIntersect 2 (.plane s) (.point p) = .ok (true, some ⟨#v[.fin 5, .fin 5, .fin (1/2^20)]⟩) ∧
    Shape.getIntersect 2 (.plane s) (.point q) = .ok (false, none) :=
  ⟨_, _, _, rfl, rfl, rfl, by decide +kernel, by decide +kernel⟩

end Mazth
