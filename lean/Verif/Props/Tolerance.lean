import Verif.Props.Dispatch
import Verif.Props.ShapeBounds

/-!
# C72: what the tolerance of a shape influences

`set_vicinity` changes the answers of four kinds of query only, and only through the shape that does the computation.  For
those a larger tolerance never loses a hit nor moves it.
-/

set_option linter.unusedSectionVars false
set_option autoImplicit false

namespace Mazth

variable {K : Type} [Field K] [LinearOrder K] [IsStrictOrderedRing K] [Fmt K]

/-- the queries in which the tolerance of the first shape plays a role -/
def UsesTolerance : ShapeType → ShapeType → Prop
  | .point, .point | .ray, .ray | .ray, .point | .plane, .point => True
  | _, _ => False

theorem aabb_setVicinity (a : Shape K) (e : Fl K) : (a.setVicinity e).aabb = a.aabb := by cases a <;> rfl

/-- C72: the tolerance of a shape has no influence on its queries, except for a point against a point, a ray against a ray or
a point, and a plane against a point.  It does not matter which of the two is asked; of two points, and of two rays, only
the tolerance of the one that is asked counts. -/
theorem C72_irrelevant (a b : Shape K) (e : Fl K) (n : ℕ) :
    (¬ UsesTolerance a.getType b.getType →
      Shape.getIntersect (n + 2) (a.setVicinity e) b = Shape.getIntersect (n + 2) a b) ∧
    (¬ UsesTolerance b.getType a.getType ∨ a.getType = b.getType →
      Shape.getIntersect (n + 2) a (b.setVicinity e) = Shape.getIntersect (n + 2) a b) := by
  constructor
  · intro h
    rw [getIntersect_eq, getIntersect_eq, aabb_setVicinity]
    congr 1
    cases a <;> cases b <;> first | rfl | exact absurd trivial h
  · intro h
    rw [getIntersect_eq, getIntersect_eq, aabb_setVicinity]
    congr 1
    cases a <;> cases b <;> first | rfl | (exact h.elim (fun h => absurd trivial h) fun h => absurd h (by simp [Shape.getType]))

/-- concrete cases: a ball and a point -/
example := (C72_irrelevant ballQ pointQ (.inf false) 0).1 id
example := (C72_irrelevant pointQ ballQ .nan 0).2 (.inl id)

theorem finite_cases {x : Fl K} (h : x.Finite) : x = .nzero ∨ ∃ v, x = .fin v := by
  obtain ⟨a, h⟩ := h
  have h : x.val = some a := h
  cases x <;> simp_all [Fl.val]

theorem inf_within {v b : Fl K} {s : Bool} (hv : v.Finite) : withinVicinity v (.inf s) b = (Fl.le b (.inf s) && Fl.le (.inf s) b) := by
  have h1 : (.inf s : Fl K) + v = .inf s := by rcases finite_cases hv with rfl | ⟨x, rfl⟩ <;> rfl
  have h2 : (.inf s : Fl K) - v = .inf s := by
    rcases finite_cases hv with rfl | ⟨x, rfl⟩
    · rfl
    · show Fl.add (.inf s) (Fl.neg (.fin x)) = _
      simp only [Fl.neg]; split_ifs <;> rfl
  unfold withinVicinity; rw [h1, h2]

/-- a larger finite tolerance accepts more, whatever the numbers -/
theorem within_mono [LawfulFmt K] {v w a b : Fl K} (hw : w.Finite) (hvw : Fl.le v w = true)
    (h : withinVicinity v a b = true) : withinVicinity w a b = true := by
  cases a with
  | nan => rw [C53_nan v .nan b (.inr (.inl rfl))] at h; simp at h
  | nzero => exact C53_mono v w _ b ⟨_, rfl⟩ hvw h
  | fin x => exact C53_mono v w _ b ⟨_, rfl⟩ hvw h
  | inf s =>
    have hv : v = .inf true ∨ v.Finite := by
      cases v with
      | nan => simp [Fl.le] at hvw
      | nzero => exact .inr ⟨_, rfl⟩
      | fin x => exact .inr ⟨_, rfl⟩
      | inf t =>
        cases t
        · rcases finite_cases hw with rfl | ⟨x, rfl⟩ <;> exact absurd hvw (by simp [Fl.le])
        · exact .inl rfl
    rcases hv with rfl | hv
    · exfalso
      unfold withinVicinity at h
      rw [Bool.and_eq_true] at h
      cases s
      · cases b <;> exact Bool.false_ne_true h.1
      · cases b <;> exact Bool.false_ne_true h.2
    · rw [inf_within hv] at h; rw [inf_within hw]; exact h

/-! ### the four queries, as functions of the tolerance -/

variable [LawfulFmt K] {v w : Fl K}

theorem rayPoint_mono (r : Ray3 K) (p : Point3 K) (hw : w.Finite) (hvw : Fl.le v w = true) {q : Option (V3 K)}
    (h : Ray3.intersectPoint { r with vicinity := v } (Shape.point p).getShapeData = .ok (true, q)) :
    Ray3.intersectPoint { r with vicinity := w } (Shape.point p).getShapeData = .ok (true, q) := by
  unfold Ray3.intersectPoint at *
  simp only [vecAt_point, Res.ok_bind, V3.minus_eq, V3.div_eq, unwrap_some, V3.scale_eq, V3.plus_eq, Res.pure_eq] at *
  split_ifs at h with h1 h2
  · simp at h
  · rw [Bool.or_eq_true, not_or, Bool.not_eq_true', Bool.not_eq_true', Bool.not_eq_false, Bool.not_eq_false] at h1
    rw [within_mono hw hvw h1.1, within_mono hw hvw h1.2, if_pos h2]
    simpa using h
  · simp at h

theorem planePoint_mono (r : Plane K) (p : Point3 K) (hw : w.Finite) (hvw : Fl.le v w = true) {q : Option (V3 K)}
    (h : Plane.intersectPoint { r with vicinity := v } (Shape.point p).getShapeData = .ok (true, q)) :
    Plane.intersectPoint { r with vicinity := w } (Shape.point p).getShapeData = .ok (true, q) := by
  unfold Plane.intersectPoint at *
  simp only [vecAt_point, Res.ok_bind, V3.dot_eq, unwrap_some, Res.pure_eq] at *
  split_ifs at h with h1
  · simp at h
  · rw [Bool.not_eq_true', Bool.not_eq_false] at h1
    rw [within_mono hw hvw h1]
    simpa using h

theorem rayRay_mono (r t : Ray3 K) (hw : w.Finite) (hvw : Fl.le v w = true) {q : Option (V3 K)}
    (h : Ray3.intersectRay { r with vicinity := v } (Shape.ray t).getShapeData = .ok (true, q)) :
    Ray3.intersectRay { r with vicinity := w } (Shape.ray t).getShapeData = .ok (true, q) := by
  have key {a b : Fl K} : ¬ (!withinVicinity v a b) = true → (!withinVicinity w a b) = false := fun h =>
    by rw [within_mono hw hvw (by simpa using h)]; rfl
  unfold Ray3.intersectRay at *
  simp only [vecAt_ray0, vecAt_ray3, Res.ok_bind, V3.minus_eq, V3.cross_eq, V3.dot_eq, V3.magnitude_eq, V3.scale_eq, V3.plus_eq,
    unwrap_some, Res.pure_eq] at *
  by_cases h1 : (!withinVicinity v (V3.dotp (V3.crs r.dir t.dir) (V3.sub t.dir r.dir)) 0) = true
  · rw [if_pos h1] at h; simp at h
  rw [if_neg h1] at h
  rw [key h1]
  simp only [Bool.false_eq_true, if_false]
  generalize Mat3x1.isEqual (V3.crs r.dir t.dir) _ _ = e at *
  cases e with
  | none => exact h
  | some e =>
    cases e with
    | false => exact h
    | true =>
      simp only [unwrap_some, Res.ok_bind, if_true] at h ⊢
      by_cases h2 : (!withinVicinity v (V3.mag (V3.crs r.dir (V3.sub t.ori r.ori))) 0) = true
      · rw [if_pos h2] at h; simp at h
      · rw [if_neg h2] at h
        rw [key h2]
        exact h

theorem pointPoint_mono (s t : Point3 K) (hw : w.Finite) (hvw : Fl.le v w = true) {q : Option (V3 K)}
    (h : core (.point { s with vicinity := v }) (.point t) = .ok (true, q)) :
    core (.point { s with vicinity := w }) (.point t) = .ok (true, q) := by
  simp only [core] at h ⊢
  split_ifs at h with h1
  · simp at h
  simp only [Bool.or_eq_true, not_or, Bool.not_eq_true', Bool.not_eq_false] at h1
  rw [within_mono hw hvw h1.1.1, within_mono hw hvw h1.1.2, within_mono hw hvw h1.2]
  simpa using h

theorem core_mono_left (hw : (Fl.abs w).Finite) (hle : Fl.le (Fl.abs v) (Fl.abs w) = true) {q : Option (V3 K)} :
    (a b : Shape K) → UsesTolerance a.getType b.getType → core (a.setVicinity v) b = .ok (true, q) → core (a.setVicinity w) b = .ok (true, q)
  | .point s, .point t, _ => pointPoint_mono s t hw hle
  | .ray s, .point t, _ => rayPoint_mono s t hw hle
  | .plane s, .point t, _ => planePoint_mono s t hw hle
  | .ray s, .ray t, _ => rayRay_mono s t hw hle

theorem core_mono_right (hw : (Fl.abs w).Finite) (hle : Fl.le (Fl.abs v) (Fl.abs w) = true) {q : Option (V3 K)} :
    (a b : Shape K) → UsesTolerance b.getType a.getType → a.getType ≠ b.getType →
      core a (b.setVicinity v) = .ok (true, q) → core a (b.setVicinity w) = .ok (true, q)
  | .point _, .point _, _, hn => absurd rfl hn
  | .ray _, .ray _, _, hn => absurd rfl hn
  | .point s, .ray t, _, _ => rayPoint_mono t s hw hle
  | .point s, .plane t, _, _ => planePoint_mono t s hw hle

/-- C72: raising the tolerance of either shape to a larger finite one keeps every hit, at the same location. -/
theorem C72_mono (a b : Shape K) {e e' : Fl K} (he : e'.Finite) (hle : Fl.le (Fl.abs e) (Fl.abs e') = true) (n : ℕ) {q : Option (V3 K)} :
    (Shape.getIntersect (n + 2) (a.setVicinity e) b = .ok (true, q) → Shape.getIntersect (n + 2) (a.setVicinity e') b = .ok (true, q)) ∧
    (Shape.getIntersect (n + 2) a (b.setVicinity e) = .ok (true, q) → Shape.getIntersect (n + 2) a (b.setVicinity e') = .ok (true, q)) := by
  have hw : (Fl.abs e').Finite := by rcases finite_cases he with rfl | ⟨x, rfl⟩ <;> exact ⟨_, rfl⟩
  constructor
  · by_cases hu : UsesTolerance a.getType b.getType
    · simp only [getIntersect_eq, aabb_setVicinity]
      intro h
      by_cases ho : AABB.overlap a.aabb b.aabb = true
      · rw [if_pos ho] at h ⊢
        exact core_mono_left hw hle a b hu h
      · rw [if_neg ho] at h ⊢; exact h
    · rw [(C72_irrelevant a b e n).1 hu, (C72_irrelevant a b e' n).1 hu]; exact id
  · by_cases hu : ¬ UsesTolerance b.getType a.getType ∨ a.getType = b.getType
    · rw [(C72_irrelevant a b e n).2 hu, (C72_irrelevant a b e' n).2 hu]; exact id
    · simp only [not_or, not_not] at hu
      simp only [getIntersect_eq, aabb_setVicinity]
      intro h
      by_cases ho : AABB.overlap a.aabb b.aabb = true
      · rw [if_pos ho] at h ⊢
        exact core_mono_right hw hle a b hu.1 hu.2 h
      · rw [if_neg ho] at h ⊢; exact h

/-- concrete case: a ray and a point, in either order, with the tolerance raised from `1` to `2` (given as `-2`) -/
example (r : Ray3 Q64) (p : Point3 Q64) := C72_mono (.ray r) (.point p) (e := 1) (e' := .fin (-2)) ⟨_, rfl⟩ (by decide +kernel) 0 (q := some p.ori)
example (r : Ray3 Q64) (p : Point3 Q64) := C72_mono (.point p) (.ray r) (e := 1) (e' := .fin (-2)) ⟨_, rfl⟩ (by decide +kernel) 0 (q := some p.ori)

/-- the shape built by one of the constructors with coordinates in binary64 -/
def BuiltQ (s : Shape Q64) : Prop :=
  (∃ l p, Point3.init l = .ok p ∧ s = .point p) ∨ (∃ l l' p, Ray3.init l l' = .ok p ∧ s = .ray p) ∨
  (∃ l l' p, Plane.init l l' = .ok p ∧ s = .plane p)

/-- C72: each of the four dependencies is real: there are shapes as their constructors make them for which another tolerance
gives another answer (binary64). -/
theorem C72_matters (k k' : ShapeType) (h : UsesTolerance k k') : ∃ (a b : Shape Q64) (e : Fl Q64), BuiltQ a ∧ BuiltQ b ∧
    a.getType = k ∧ b.getType = k' ∧ Shape.getIntersect 2 (a.setVicinity e) b ≠ Shape.getIntersect 2 a b := by
  match k, k', h with
  | .point, .point, _ =>
    exact ⟨.point _, .point _, .nan, .inl ⟨[1, 1, 1], _, rfl, rfl⟩, .inl ⟨[1, 1, 1], _, rfl, rfl⟩, rfl, rfl, by decide +kernel⟩
  | .ray, .point, _ =>
    exact ⟨.ray _, .point _, 1, .inr (.inl ⟨[0, 0, 0], [1, 1, 1], _, rfl, rfl⟩), .inl ⟨[1, 1, .fin (3/2)], _, rfl, rfl⟩, rfl, rfl, by decide +kernel⟩
  | .plane, .point, _ =>
    exact ⟨.plane _, .point _, 1, .inr (.inr ⟨[0, 0, 0], [0, 0, 1], _, rfl, rfl⟩), .inl ⟨[0, 0, 1], _, rfl, rfl⟩, rfl, rfl, by decide +kernel⟩
  | .ray, .ray, _ =>
    exact ⟨.ray _, .ray _, 1, .inr (.inl ⟨[0, 0, 0], [1, 1, 0], _, rfl, rfl⟩), .inr (.inl ⟨[1, 0, 0], [1, 1, 0], _, rfl, rfl⟩), rfl, rfl, by decide +kernel⟩

/-- concrete case -/
example := C72_matters .ray .ray trivial

end Mazth
