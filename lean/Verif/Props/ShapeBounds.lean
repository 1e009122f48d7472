import Verif.Proofs.MinMax
import Verif.Proofs.SampleShapes
import Verif.Float.BinaryLawful

/-!
# C36, C53, C57: constructors, bounds and tolerances of the shapes
-/

set_option linter.unusedSectionVars false
set_option autoImplicit false

namespace Mazth

open Matrix

/-! ## C36: the bounds enclose the shapes -/

theorem euc_coord_le (u : R3) (i : Fin 3) : |u i| ≤ euc u := by
  rw [euc_eq, ← Real.sqrt_mul_self_eq_abs]
  exact Real.sqrt_le_sqrt (Finset.single_le_sum (f := fun j => u j * u j) (fun j _ => mul_self_nonneg _) (Finset.mem_univ i))

theorem ball_box {c p : R3} {r : ℝ} (h : p ∈ ballPts c r) (i : Fin 3) : c i - r ≤ p i ∧ p i ≤ c i + r := by
  have h1 := (euc_coord_le (p - c) i).trans h
  rw [Pi.sub_apply, abs_le] at h1
  constructor <;> linarith [h1.1, h1.2]

/-- the box between two corners is convex -/
theorem convex_box (lo hi : R3) : Convex ℝ {p : R3 | ∀ i, lo i ≤ p i ∧ p i ≤ hi i} := by
  intro p hp q hq a b ha hb hab i
  have h1 := hp i
  have h2 := hq i
  simp only [Pi.add_apply, Pi.smul_apply, smul_eq_mul]
  constructor
  · calc lo i = a * lo i + b * lo i := by rw [← add_mul, hab, one_mul]
      _ ≤ a * p i + b * q i := add_le_add (mul_le_mul_of_nonneg_left h1.1 ha) (mul_le_mul_of_nonneg_left h2.1 hb)
  · calc a * p i + b * q i ≤ a * hi i + b * hi i :=
          add_le_add (mul_le_mul_of_nonneg_left h1.2 ha) (mul_le_mul_of_nonneg_left h2.2 hb)
      _ = hi i := by rw [← add_mul, hab, one_mul]

theorem prism_box {v0 v1 v2 lo hi p : R3} {r : ℝ} (h : ∀ p ∈ prismVerts v0 v1 v2 r, ∀ i, lo i ≤ p i ∧ p i ≤ hi i)
    (hp : p ∈ prismPts v0 v1 v2 r) : ∀ i, lo i ≤ p i ∧ p i ≤ hi i :=
  convexHull_min (s := prismVerts v0 v1 v2 r) (fun q hq => h q hq) (convex_box lo hi) hp

/-- C36: the bound of a constructed shape contains every point of the shape (point, ray, sphere, plane, box, segment,
prism). -/
theorem C36_encloses (s : Shape ℝ) (S : Set R3) (h : s.MadeOf S) :
    ∃ b, s.getBound = .aabb b ∧ ∀ p ∈ S, b.HasR p := by
  refine ⟨_, Shape.getBound_eq s, ?_⟩
  cases h with
  | point h => rintro p rfl; exact h.facts.2.hasR.mpr fun i => ⟨le_refl _, le_refl _⟩
  | ray h => exact h.facts.2.2
  | sphere h => intro p hp; exact h.facts.2.2.hasR.mpr (ball_box hp)
  | plane h => intro p _; show AABB.HasR (Plane.bound _) p; rw [h.facts.2.2]; exact AABB.default_hasR p
  | box h =>
    intro p hp
    refine h.facts.2.2.hasR.mpr fun i => ?_
    have := abs_le.mp (hp i)
    constructor <;> linarith [this.1, this.2]
  | @line s a b h =>
    intro p hp
    refine h.facts.2.2.hasR.mpr ?_
    exact (convex_box (fun i => min (a i) (b i)) (fun i => max (a i) (b i))).segment_subset
      (fun i => ⟨min_le_left _ _, le_max_left _ _⟩) (fun i => ⟨min_le_right _ _, le_max_right _ _⟩) hp
  | triPrism h =>
    intro p hp
    obtain ⟨lo, hi, hb, hv, _⟩ := h.facts.2.2.2
    exact hb.hasR.mpr (prism_box hv hp)

/-- concrete case: a prism -/
example := C36_encloses _ _ (.triPrism (mkPrism_made 0))

/-- C36: hence the bounding pre-test never causes a false negative: the bounds of two constructed shapes with a common
point overlap. -/
theorem C36_pretest (s t : Shape ℝ) (S T : Set R3) (hs : s.MadeOf S) (ht : t.MadeOf T) (h : (S ∩ T).Nonempty) :
    s.getBound.intersect t.getBound = .ok true := by
  obtain ⟨b, e, hb⟩ := C36_encloses s S hs
  obtain ⟨c, f, hc⟩ := C36_encloses t T ht
  obtain ⟨p, h1, h2⟩ := h
  rw [e, f, AABB.intersect_eq, AABB.overlap_of_has b c (hb p h1) (hc p h2)]

/-- concrete case: a sphere and a point on its surface -/
example : (Shape.sphere (mkSphere 0 1 0)).getBound.intersect (Shape.point (mkPoint ![1, 0, 0] 0)).getBound = .ok true :=
  C36_pretest _ _ _ _ (.sphere (mkSphere_made ..)) (.point (mkPoint_made ..)) ⟨![1, 0, 0], by
    show euc _ ≤ 1
    rw [euc_eq]; simp [Fin.sum_univ_three], rfl⟩

theorem euc_single (i : Fin 3) (r : ℝ) : euc (Pi.single i r : R3) = |r| := by
  rw [euc_eq, ← Real.sqrt_mul_self_eq_abs]
  congr 1
  rw [Finset.sum_eq_single i]
  · simp
  · intro j _ hj; simp [hj]
  · simp

/-- C36, tightness: the bound of a point, a sphere or box of non-negative size, a segment or a prism is the least box
around it: it lies within every real box that contains the shape. -/
theorem C36_tight (s : Shape ℝ) (S : Set R3) (h : s.MadeOf S) (hk : s.getType ≠ .ray ∧ s.getType ≠ .plane)
    (hne : S.Nonempty) (lo hi : R3) (hS : ∀ p ∈ S, ∀ i, lo i ≤ p i ∧ p i ≤ hi i) :
    ∃ b l u, s.getBound = .aabb b ∧ b.IsR l u ∧ ∀ i, lo i ≤ l i ∧ u i ≤ hi i := by
  refine ⟨s.aabb, ?_⟩
  cases h with
  | @point s p h => exact ⟨p, p, rfl, h.facts.2, hS p rfl⟩
  | ray h => exact absurd rfl hk.1
  | @sphere s c r h =>
    refine ⟨_, _, rfl, h.facts.2.2, fun i => ?_⟩
    have hr : 0 ≤ r := by obtain ⟨p, hp⟩ := hne; exact (euc_nonneg _).trans hp
    have h1 := hS (c - Pi.single i r) (by
      show euc _ ≤ r
      rw [sub_sub_cancel_left, ← neg_one_smul ℝ, euc_smul, euc_single]; simp [abs_of_nonneg hr]) i
    have h2 := hS (c + Pi.single i r) (by
      show euc _ ≤ r
      rw [add_sub_cancel_left, euc_single, abs_of_nonneg hr]) i
    simp at h1 h2
    exact ⟨h1.1, h2.2⟩
  | plane h => exact absurd rfl hk.2
  | @box s c r h =>
    refine ⟨_, _, rfl, h.facts.2.2, fun i => ?_⟩
    have hr : 0 ≤ r := by obtain ⟨p, hp⟩ := hne; exact (abs_nonneg _).trans (hp 0)
    have h1 := hS (fun i => c i - r) (fun j => by simp [abs_of_nonneg hr]) i
    have h2 := hS (fun i => c i + r) (fun j => by simp [abs_of_nonneg hr]) i
    exact ⟨h1.1, h2.2⟩
  | @line s a b h =>
    refine ⟨_, _, rfl, h.facts.2.2, fun i => ?_⟩
    have h1 := hS a (left_mem_segment ℝ a b) i
    have h2 := hS b (right_mem_segment ℝ a b) i
    exact ⟨le_min h1.1 h2.1, max_le h1.2 h2.2⟩
  | @triPrism s v0 v1 v2 r h =>
    obtain ⟨l, u, hb, _, hl, hu⟩ := h.facts.2.2.2
    refine ⟨l, u, rfl, hb, fun i => ⟨?_, ?_⟩⟩
    · obtain ⟨p, hp, e⟩ := hl i
      rw [← e]; exact (hS p (subset_convexHull ℝ _ hp) i).1
    · obtain ⟨p, hp, e⟩ := hu i
      rw [← e]; exact (hS p (subset_convexHull ℝ _ hp) i).2

/-- concrete case: the bound of a segment lies in any box that holds the segment's points -/
example (lo hi : R3) (h : ∀ p ∈ segment ℝ (0 : R3) ![1, -2, 3], ∀ i, lo i ≤ p i ∧ p i ≤ hi i) :=
  C36_tight _ _ (.line (mkLine_made 0 ![1, -2, 3] 0)) ⟨by simp [Shape.getType], by simp [Shape.getType]⟩ ⟨0, left_mem_segment ..⟩ lo hi h

/-- Non-vacuity of C36: a sphere and a box that share a point. -/
example : ∃ s t : Shape ℝ, s.MadeOf (ballPts 0 1) ∧ t.MadeOf (cubePts ![1, 0, 0] 0) ∧
    (ballPts 0 1 ∩ cubePts ![1, 0, 0] 0).Nonempty := by
  obtain ⟨s, hs, _⟩ := Sphere.exists_made 0 1 0
  obtain ⟨t, ht, _⟩ := RecBox.exists_made ![1, 0, 0] 0 0
  refine ⟨_, _, .sphere hs, .box ht, ![1, 0, 0], ?_, ?_⟩
  · show euc _ ≤ 1
    rw [euc_eq]; simp [Fin.sum_univ_three]
  · intro i; simp

section generic
variable {K : Type} [Field K] [LinearOrder K] [IsStrictOrderedRing K] [Fmt K]

/-! ## C53: tolerances -/

/-- C53: `set_vicinity(e)` stores `|e|` and changes nothing else (all shapes, all floats). -/
theorem C53_setVicinity (s : Shape K) (e : Fl K) :
    (s.setVicinity e).vicinity = Fl.abs e ∧ (s.setVicinity e).getType = s.getType ∧
    (s.setVicinity e).getShapeData = s.getShapeData ∧ (s.setVicinity e).getBound = s.getBound := by
  cases s <;> exact ⟨rfl, rfl, rfl, rfl⟩

/-- concrete case: a negative tolerance is stored as its absolute value -/
example := C53_setVicinity (Shape.point (mkPoint ![1, 2, 3] 0)) (.fin (-2))

/-- C53: so a tolerance set this way is never negative: it is NaN (if `e` is) or at least `0`. -/
theorem C53_nonneg (s : Shape K) (e : Fl K) :
    (s.setVicinity e).vicinity = .nan ∨ Fl.le 0 (s.setVicinity e).vicinity = true := by
  rw [(C53_setVicinity s e).1]
  cases e with
  | nan => exact .inl rfl
  | inf s => right; simp [Fl.abs, Fl.zero_def, Fl.le]
  | nzero => right; simp [Fl.abs, Fl.zero_def, Fl.le]
  | fin v => right; simp [Fl.abs, Fl.zero_def, Fl.le]

/-- concrete case -/
example := C53_nonneg (Shape.sphere (mkSphere ![1, 2, 3] 2 0)) (.inf true)

/-- C53: setting the tolerance twice is setting it once. -/
theorem C53_last (s : Shape K) (e e' : Fl K) : (s.setVicinity e).setVicinity e' = s.setVicinity e' := by
  cases s <;> rfl

/-- concrete case -/
example := C53_last (Shape.box (mkBox ![1, 2, 3] 2 0)) .nan (.fin (-2))

/-- C53, exact arithmetic: `within_vicinity(a, b)` is `|a - b| ≤ tolerance`. -/
theorem C53_within (v a b : Fl ℝ) (ε x y : ℝ) (hv : v.Is ε) (ha : a.Is x) (hb : b.Is y) :
    withinVicinity v a b = true ↔ |x - y| ≤ ε := by
  rw [withinVicinity_real hv ha hb]; simp

/-- concrete case: a difference equal to the tolerance is within -/
example : withinVicinity (.fin 2 : Fl ℝ) (.fin 3) (.fin 5) = true :=
  (C53_within (.fin 2) (.fin 3) (.fin 5) 2 3 5 rfl rfl rfl).mpr (by norm_num)

/-- C53, any rounding: `within_vicinity` is reflexive on all finite data, for every non-negative tolerance (also
infinite). -/
theorem C53_refl [LawfulFmt K] (v a : Fl K) (hw : a.WF) (ha : a.Finite) (hv : Fl.le 0 v = true) :
    withinVicinity v a a = true := by
  unfold withinVicinity
  rw [Fl.le_add_nonneg hw ha hv, Fl.sub_nonneg_le hw ha hv]; rfl

/-- concrete case: tolerance zero -/
example := C53_refl (K := Q64) 0 (.fin (-3/2)) (.inr (by decide +kernel)) ⟨_, rfl⟩ (by decide +kernel)

/-- C53: `within_vicinity` is false if one of the numbers, or the tolerance, is NaN. -/
theorem C53_nan (v a b : Fl K) (h : v = .nan ∨ a = .nan ∨ b = .nan) : withinVicinity v a b = false := by
  unfold withinVicinity
  have hadd (x : Fl K) : x + .nan = .nan := by cases x <;> rfl
  have hadd' (x : Fl K) : .nan + x = (.nan : Fl K) := rfl
  rcases h with rfl | rfl | rfl
  · rw [hadd]; simp
  · rw [hadd']; simp
  · simp

/-- concrete case -/
example := C53_nan (K := Q64) (.inf false) .nan 1 (.inr (.inl rfl))

/-- C53: a larger tolerance accepts more (finite `a`, any rounding). -/
theorem C53_mono [LawfulFmt K] (v w a b : Fl K) (ha : a.Finite) (hvw : Fl.le v w = true)
    (h : withinVicinity v a b = true) : withinVicinity w a b = true := by
  unfold withinVicinity at *
  rw [Bool.and_eq_true] at *
  exact ⟨Fl.le_trans h.1 (Fl.add_mono_left ha hvw), Fl.le_trans (Fl.sub_mono_right ha hvw) h.2⟩

/-- concrete case -/
example := C53_mono (K := Q64) 1 (.inf false) (.fin 3) (.fin (5/2)) ⟨_, rfl⟩ (by decide +kernel) (by decide +kernel)

/-- Non-vacuity of C53 in binary64: `1` is within `2^-60` of itself although `1 + 2^-60` is rounded to `1`. -/
example : withinVicinity (.fin (1/2^60) : Fl Q64) 1 1 = true ∧ withinVicinity (.fin (1/2^60) : Fl Q64) 1 (.fin 2) = false ∧
    ((Shape.sphere ⟨⟨#v[0, 0, 0]⟩, 1, AABB.default, 0⟩ : Shape Q64).setVicinity (.fin (-3))).vicinity = .fin 3 := by
  refine ⟨?_, ?_, ?_⟩ <;> decide +kernel

/-! ## C57: constructors -/

/-- `l` and `l'` have the right lengths, or the constructor fails its assertion -/
theorem list_three {l : List (Fl K)} (h : l.length = 3) : ∃ x y z, l = [x, y, z] := by
  rcases l with _ | ⟨x, _ | ⟨y, _ | ⟨z, _ | _⟩⟩⟩ <;> simp at h
  exact ⟨x, y, z, rfl⟩

/-- C57, points: the constructor panics exactly on slices of the wrong length; otherwise `get_shape_data` returns the
arguments, the kind is `Point`, and the tolerance is the literal `0.000001`. -/
theorem C57_point (l : List (Fl K)) :
    (l.length ≠ 3 → Point3.init l = .error .assertFailed) ∧
    (l.length = 3 → ∃ s, Point3.init l = .ok s ∧ (Shape.point s).getShapeData = l ∧
      (Shape.point s).getType = .point ∧ s.vicinity = Fl.lit (1 / 1000000)) := by
  constructor
  · intro h; unfold Point3.init; rw [show (l.length == 3) = false by simpa using h]; rfl
  · intro h
    obtain ⟨x, y, z, rfl⟩ := list_three h
    exact ⟨_, rfl, rfl, rfl, rfl⟩

/-- concrete case: three numbers are accepted, two are not -/
example := And.intro ((C57_point (K := Q64) [1, .nan, .fin 3]).2 rfl) ((C57_point (K := Q64) [1, .fin 3]).1 (by decide))

/-- C57, spheres. -/
theorem C57_sphere (l : List (Fl K)) (r : Fl K) :
    (l.length ≠ 3 → Sphere.init l r = .error .assertFailed) ∧
    (l.length = 3 → ∃ s, Sphere.init l r = .ok s ∧ (Shape.sphere s).getShapeData = l ++ [r] ∧
      (Shape.sphere s).getType = .sphere ∧ s.vicinity = Fl.lit (1 / 1000000)) := by
  constructor
  · intro h; unfold Sphere.init; rw [show (l.length == 3) = false by simpa using h]; rfl
  · intro h
    obtain ⟨x, y, z, rfl⟩ := list_three h
    exact ⟨_, rfl, rfl, rfl, rfl⟩

/-- concrete case: a negative radius is accepted -/
example := And.intro ((C57_sphere (K := Q64) [1, 0, .fin 3] (.fin (-1))).2 rfl) ((C57_sphere (K := Q64) [] 1).1 (by decide))

/-- C57, boxes. -/
theorem C57_box (l : List (Fl K)) (r : Fl K) :
    (l.length ≠ 3 → RecBox.init l r = .error .assertFailed) ∧
    (l.length = 3 → ∃ s, RecBox.init l r = .ok s ∧ (Shape.box s).getShapeData = l ++ [r] ∧
      (Shape.box s).getType = .box ∧ s.vicinity = Fl.lit (1 / 1000000)) := by
  constructor
  · intro h; unfold RecBox.init; rw [show (l.length == 3) = false by simpa using h]; rfl
  · intro h
    obtain ⟨x, y, z, rfl⟩ := list_three h
    exact ⟨_, rfl, rfl, rfl, rfl⟩

/-- concrete case: a NaN size is accepted -/
example := And.intro ((C57_box (K := Q64) [1, 0, .fin 3] .nan).2 rfl) ((C57_box (K := Q64) [1, 1, 1, 1] 1).1 (by decide))

/-- C57, rays: the stored direction is the normalised argument. -/
theorem C57_ray (l l' : List (Fl K)) :
    (l.length ≠ 3 ∨ l'.length ≠ 3 → Ray3.init l l' = .error .assertFailed) ∧
    (l.length = 3 → ∀ x y z, l' = [x, y, z] → ∃ s d, Ray3.init l l' = .ok s ∧
      Mat3x1.normalize ⟨#v[x, y, z]⟩ = some d ∧ (Shape.ray s).getShapeData = l ++ [d.val[0], d.val[1], d.val[2]] ∧
      (Shape.ray s).getType = .ray ∧ s.vicinity = Fl.lit (1 / 1000000)) := by
  constructor
  · intro h; unfold Ray3.init
    by_cases h3 : l.length = 3
    · have h' := h.resolve_left (not_not.mpr h3)
      rw [show (l.length == 3) = true by simpa using h3, show (l'.length == 3) = false by simpa using h']; rfl
    · rw [show (l.length == 3) = false by simpa using h3]; rfl
  · rintro h x y z rfl
    obtain ⟨x', y', z', rfl⟩ := list_three h
    exact ⟨_, _, rfl, rfl, rfl, rfl, rfl⟩

/-- concrete case: the direction `(0, 3, 4)` -/
example := And.intro ((C57_ray (K := Q64) [1, 0, .fin 3] [0, .fin 3, .fin 4]).2 rfl _ _ _ rfl) ((C57_ray (K := Q64) [1, 0, 0] []).1 (by decide))

/-- C57, planes: the stored normal is the normalised argument. -/
theorem C57_plane (l l' : List (Fl K)) :
    (l.length ≠ 3 ∨ l'.length ≠ 3 → Plane.init l l' = .error .assertFailed) ∧
    (l.length = 3 → ∀ x y z, l' = [x, y, z] → ∃ s d, Plane.init l l' = .ok s ∧
      Mat3x1.normalize ⟨#v[x, y, z]⟩ = some d ∧ (Shape.plane s).getShapeData = l ++ [d.val[0], d.val[1], d.val[2]] ∧
      (Shape.plane s).getType = .plane ∧ s.vicinity = Fl.lit (1 / 1000000)) := by
  constructor
  · intro h; unfold Plane.init
    by_cases h3 : l.length = 3
    · have h' := h.resolve_left (not_not.mpr h3)
      rw [show (l.length == 3) = true by simpa using h3, show (l'.length == 3) = false by simpa using h']; rfl
    · rw [show (l.length == 3) = false by simpa using h3]; rfl
  · rintro h x y z rfl
    obtain ⟨x', y', z', rfl⟩ := list_three h
    exact ⟨_, _, rfl, rfl, rfl, rfl, rfl⟩

/-- concrete case: the zero normal is accepted -/
example := And.intro ((C57_plane (K := Q64) [1, 0, .fin 3] [0, 0, 0]).2 rfl _ _ _ rfl) ((C57_plane (K := Q64) [1, 0] [0, 1, 0]).1 (by decide))

/-- C57, segments. -/
theorem C57_line (l l' : List (Fl K)) :
    (l.length ≠ 3 ∨ l'.length ≠ 3 → Line3.init l l' = .error .assertFailed) ∧
    (l.length = 3 → l'.length = 3 → ∃ s, Line3.init l l' = .ok s ∧ (Shape.line s).getShapeData = l ++ l' ∧
      (Shape.line s).getType = .line ∧ s.vicinity = Fl.lit (1 / 1000000)) := by
  constructor
  · intro h; unfold Line3.init
    by_cases h3 : l.length = 3
    · have h' := h.resolve_left (not_not.mpr h3)
      rw [show (l.length == 3) = true by simpa using h3, show (l'.length == 3) = false by simpa using h']; rfl
    · rw [show (l.length == 3) = false by simpa using h3]; rfl
  · intro h h'
    obtain ⟨x, y, z, rfl⟩ := list_three h
    obtain ⟨x', y', z', rfl⟩ := list_three h'
    exact ⟨_, rfl, rfl, rfl, rfl⟩

/-- concrete case -/
example := And.intro ((C57_line (K := Q64) [1, 0, .fin 3] [0, 0, .inf true]).2 rfl rfl) ((C57_line (K := Q64) [1, 0] [0]).1 (by decide))

/-- C57, prisms: the shape data are the base triangle and the height vector `height · (d1 × d2)/|d1 × d2|`. -/
theorem C57_prism (l : List (Fl K)) (h : Fl K) :
    (l.length ≠ 9 → TriPrism.init l h = .error .assertFailed) ∧
    (l.length = 9 → ∃ s n, TriPrism.init l h = .ok s ∧
      (Shape.triPrism s).getShapeData = l ++ [n.val[0], n.val[1], n.val[2]] ∧ s.normalHeight = n ∧
      (∀ i : Fin 3, s.triBase[i].plus n = some s.triBase2[i]) ∧
      (∃ d1 d2 c m, s.triBase[1].minus s.triBase[0] = some d1 ∧ s.triBase[2].minus s.triBase[0] = some d2 ∧
        d1.cross d2 = some c ∧ c.normalize = some m ∧ m.scale h = some n) ∧
      (Shape.triPrism s).getType = .triPrism ∧ s.vicinity = Fl.lit (1 / 1000000)) := by
  constructor
  · intro h; unfold TriPrism.init; rw [show (l.length == 9) = false by simpa using h]; rfl
  · intro hl
    rcases l with _ | ⟨x0, _ | ⟨x1, _ | ⟨x2, _ | ⟨x3, _ | ⟨x4, _ | ⟨x5, _ | ⟨x6, _ | ⟨x7, _ | ⟨x8, _ | _⟩⟩⟩⟩⟩⟩⟩⟩⟩ <;> simp at hl
    refine ⟨_, _, rfl, rfl, rfl, ?_, ⟨_, _, _, _, rfl, rfl, rfl, rfl, rfl⟩, rfl, rfl⟩
    intro i; fin_cases i <;> rfl

/-- concrete case -/
example := And.intro ((C57_prism (K := Q64) [0, 0, 0, 1, 0, 0, 0, 1, 0] (.fin 2)).2 rfl) ((C57_prism (K := Q64) [0, 1, 0] 1).1 (by decide))

end generic

end Mazth
