import Verif.Proofs.BoundBasic
import Verif.Float.BinaryLawful
import Verif.Float.ExactOps
import Mathlib.Tactic.NormNum
import Mathlib.LinearAlgebra.AffineSpace.Midpoint

/-!
# Axis-aligned boxes (C32–C35)

Boxes are read through their public fields `lower`, `upper` (`AABB.Has`, `Valid`, `Within`, …, Spec/Geom.lean).
-/

set_option linter.unusedSectionVars false
set_option autoImplicit false

namespace Mazth

/-! Boxes for the examples. -/

/-- the unit cube -/
def boxA : AABB (Fl Q64) := ⟨#v[0, 0, 0], #v[1, 1, 1]⟩
/-- a box that is unbounded along `z` -/
def boxB : AABB (Fl Q64) := ⟨#v[.fin 1, .fin (-1), .inf true], #v[.fin 2, 0, .inf false]⟩
/-- a box with a NaN bound -/
def boxN : AABB (Fl Q64) := ⟨#v[.fin (-1), .nan, .fin (1/2)], #v[.fin 1, .fin 4, .fin 3]⟩

theorem boxA_valid : boxA.Valid := fun i => by fin_cases i <;> decide +kernel
theorem boxB_valid : boxB.Valid := fun i => by fin_cases i <;> decide +kernel

variable {K : Type} [Field K] [LinearOrder K] [IsStrictOrderedRing K] [Fmt K]

/-! ## C32: overlap -/

/-- C32: the overlap test is symmetric, for all bounds and all floats (also for the unimplemented sphere bound). -/
theorem C32_symm (a b : IBound (Fl K)) : a.intersect b = b.intersect a := by
  cases a <;> cases b <;> try rfl
  rw [AABB.intersect_eq, AABB.intersect_eq, AABB.overlap_comm]

/-- concrete case: a box with an infinite side and a box with a NaN bound -/
example := C32_symm (.aabb boxB) (.aabb boxN)

/-- C32: the overlap test of two boxes always answers. -/
theorem C32_answers (a b : AABB (Fl K)) : ∃ r, IBound.intersect (.aabb a) (.aabb b) = .ok r :=
  ⟨_, AABB.intersect_eq a b⟩

/-- concrete case: even a NaN bound is answered -/
example := C32_answers boxA boxN

/-- C32: for boxes with `lower ≤ upper` the test is true exactly when the two closed boxes share a point (a point may
have infinite coordinates, as the corner of an unbounded box has). -/
theorem C32_exact (a b : AABB (Fl K)) (ha : a.Valid) (hb : b.Valid) :
    IBound.intersect (.aabb a) (.aabb b) = .ok true ↔ ∃ p, a.Has p ∧ b.Has p := by
  rw [AABB.intersect_eq]
  constructor
  · intro h
    have h := (AABB.overlap_iff a b).mp (by simpa using h)
    have key (i : Fin 3) : ∃ x, (Fl.le a.lower[i] x = true ∧ Fl.le x a.upper[i] = true) ∧
        (Fl.le b.lower[i] x = true ∧ Fl.le x b.upper[i] = true) := by
      have na := Fl.le_ne_nan (ha i)
      have nb := Fl.le_ne_nan (hb i)
      have h1 : Fl.le a.lower[i] b.upper[i] = true := by
        have := (h i).1; rw [Fl.lt_eq_not_le nb.2 na.1] at this; simpa using this
      have h2 : Fl.le b.lower[i] a.upper[i] = true := by
        have := (h i).2; rw [Fl.lt_eq_not_le na.2 nb.1] at this; simpa using this
      rcases Fl.le_total na.1 nb.1 with h3 | h3
      · exact ⟨b.lower[i], ⟨h3, h2⟩, Fl.le_refl nb.1, hb i⟩
      · exact ⟨a.lower[i], ⟨Fl.le_refl na.1, ha i⟩, h3, h1⟩
    choose p hp using key
    exact ⟨p, fun i => (hp i).1, fun i => (hp i).2⟩
  · rintro ⟨p, h1, h2⟩
    rw [AABB.overlap_of_has a b h1 h2]

/-- concrete case: two boxes that touch in the point `(1, 0, 1/2)` -/
example : IBound.intersect (.aabb boxA) (.aabb boxB) = .ok true :=
  (C32_exact boxA boxB boxA_valid boxB_valid).mpr ⟨![1, 0, .fin (1/2)], fun i => by fin_cases i <;> decide +kernel,
    fun i => by fin_cases i <;> decide +kernel⟩

/-- C32, real points: if moreover no lower bound is `+∞` and no upper bound is `-∞`, the boxes share a point with real
coordinates. -/
theorem C32_exact_real (a b : AABB (Fl ℝ)) (ha : a.Valid) (hb : b.Valid)
    (ia : ∀ i : Fin 3, a.lower[i] ≠ .inf false ∧ a.upper[i] ≠ .inf true)
    (ib : ∀ i : Fin 3, b.lower[i] ≠ .inf false ∧ b.upper[i] ≠ .inf true) :
    IBound.intersect (.aabb a) (.aabb b) = .ok true ↔ ∃ p, a.HasR p ∧ b.HasR p := by
  constructor
  · intro h
    obtain ⟨p, hpa, hpb⟩ := (C32_exact a b ha hb).mp h
    have key (i : Fin 3) : ∃ x : ℝ, (Fl.le a.lower[i] (.fin x) = true ∧ Fl.le (.fin x) a.upper[i] = true) ∧
        (Fl.le b.lower[i] (.fin x) = true ∧ Fl.le (.fin x) b.upper[i] = true) := by
      have A := hpa i
      have B := hpb i
      have IA := ia i
      have IB := ib i
      revert A B IA IB
      generalize p i = x
      generalize a.lower[i] = al
      generalize a.upper[i] = au
      generalize b.lower[i] = bl
      generalize b.upper[i] = bu
      intro A B IA IB
      have fin_of {x : Fl ℝ} {r : ℝ} (hx : x.Is r) (A : Fl.le al x = true ∧ Fl.le x au = true)
          (B : Fl.le bl x = true ∧ Fl.le x bu = true) :
          ∃ x : ℝ, (Fl.le al (.fin x) = true ∧ Fl.le (.fin x) au = true) ∧
          (Fl.le bl (.fin x) = true ∧ Fl.le (.fin x) bu = true) := by
        rcases hx.cases with rfl | ⟨rfl, rfl⟩
        · exact ⟨r, A, B⟩
        · have e1 : Fl.le Fl.nzero (.fin (0 : ℝ)) = true := by simp [Fl.le]
          have e2 : Fl.le (.fin (0 : ℝ)) Fl.nzero = true := by simp [Fl.le]
          exact ⟨0, ⟨Fl.le_trans A.1 e1, Fl.le_trans e2 A.2⟩, ⟨Fl.le_trans B.1 e1, Fl.le_trans e2 B.2⟩⟩
      have val_of (x : Fl ℝ) (h : x ≠ .nan) (h1 : x ≠ .inf false) (h2 : x ≠ .inf true) : ∃ r, x.Is r := by
        cases x with
        | nan => exact absurd rfl h
        | inf s => cases s <;> simp_all
        | nzero => exact ⟨0, rfl⟩
        | fin v => exact ⟨v, rfl⟩
      cases x with
      | nan => simp at A
      | nzero => exact fin_of (x := .nzero) (r := 0) rfl A B
      | fin v => exact fin_of (x := .fin v) (r := v) rfl A B
      | inf s =>
        cases s
        · -- `x = +∞`: take the larger of the lower bounds, or anything
          have au' : au = .inf false := by cases au <;> simp_all [Fl.le]
          have bu' : bu = .inf false := by cases bu <;> simp_all [Fl.le]
          have na := Fl.le_ne_nan A.1
          have nb := Fl.le_ne_nan B.1
          rw [au', bu']
          by_cases ea : al = .inf true
          · by_cases eb : bl = .inf true
            · exact ⟨0, by rw [ea]; simp [Fl.le], by rw [eb]; simp [Fl.le]⟩
            · obtain ⟨r, hr⟩ := val_of bl nb.1 IB.1 eb
              refine ⟨r, by rw [ea]; simp [Fl.le], by rw [hr.le (Fl.is_fin r)]; simp, by simp [Fl.le]⟩
          · obtain ⟨r, hr⟩ := val_of al na.1 IA.1 ea
            by_cases eb : bl = .inf true
            · refine ⟨r, ⟨by rw [hr.le (Fl.is_fin r)]; simp, by simp [Fl.le]⟩, by rw [eb]; simp [Fl.le]⟩
            · obtain ⟨t, ht⟩ := val_of bl nb.1 IB.1 eb
              exact ⟨max r t, ⟨by rw [hr.le (Fl.is_fin _)]; simp, by simp [Fl.le]⟩,
                by rw [ht.le (Fl.is_fin _)]; simp, by simp [Fl.le]⟩
        · have al' : al = .inf true := by cases al <;> simp_all [Fl.le]
          have bl' : bl = .inf true := by cases bl <;> simp_all [Fl.le]
          have na := Fl.le_ne_nan A.2
          have nb := Fl.le_ne_nan B.2
          rw [al', bl']
          by_cases ea : au = .inf false
          · by_cases eb : bu = .inf false
            · exact ⟨0, by rw [ea]; simp [Fl.le], by rw [eb]; simp [Fl.le]⟩
            · obtain ⟨r, hr⟩ := val_of bu nb.2 eb IB.2
              exact ⟨r, by rw [ea]; simp [Fl.le], by simp [Fl.le], by rw [(Fl.is_fin r).le hr]; simp⟩
          · obtain ⟨r, hr⟩ := val_of au na.2 ea IA.2
            by_cases eb : bu = .inf false
            · exact ⟨r, ⟨by simp [Fl.le], by rw [(Fl.is_fin r).le hr]; simp⟩, by rw [eb]; simp [Fl.le]⟩
            · obtain ⟨t, ht⟩ := val_of bu nb.2 eb IB.2
              exact ⟨min r t, ⟨by simp [Fl.le], by rw [(Fl.is_fin _).le hr]; simp⟩,
                by simp [Fl.le], by rw [(Fl.is_fin _).le ht]; simp⟩
    choose p hp using key
    exact ⟨p, fun i => (hp i).1, fun i => (hp i).2⟩
  · rintro ⟨p, h1, h2⟩
    rw [AABB.intersect_eq, AABB.overlap_of_has a b h1 h2]

/-- concrete case: the unit cube and a slab -/
example := C32_exact_real ⟨#v[.fin 0, .fin 0, .fin 0], #v[.fin 1, .fin 1, .fin 1]⟩ ⟨#v[.fin 1, .inf true, .fin (-3)], #v[.fin 2, .inf false, .fin 1]⟩
  (fun i => by fin_cases i <;> norm_num [Fl.le]) (fun i => by fin_cases i <;> norm_num [Fl.le])
  (fun i => by fin_cases i <;> simp) (fun i => by fin_cases i <;> simp)

/-- C32: the sphere bound is unimplemented on either side. -/
theorem C32_sphere (a : IBound (Fl K)) : a.intersect .sphere = .error .unimplemented ∧
    IBound.intersect .sphere a = .error .unimplemented := by
  cases a <;> exact ⟨rfl, rfl⟩

/-- Non-vacuity of C32: touching boxes (one unbounded) intersect, separated ones do not. -/
example : IBound.intersect (.aabb ⟨#v[0, 0, 0], #v[1, 1, 1]⟩ : IBound (Fl Q64))
    (.aabb ⟨#v[.fin 1, .fin (-1), .inf true], #v[.fin 2, 0, .inf false]⟩) = .ok true ∧
    IBound.intersect (.aabb ⟨#v[0, 0, 0], #v[1, 1, 1]⟩ : IBound (Fl Q64))
    (.aabb ⟨#v[.fin (3/2), .fin (-1), .inf true], #v[.fin 2, 0, .inf false]⟩) = .ok false ∧
    AABB.Valid (⟨#v[.fin 1, .fin (-1), .inf true], #v[.fin 2, 0, .inf false]⟩ : AABB (Fl Q64)) := by
  refine ⟨by decide +kernel, by decide +kernel, ?_⟩
  intro i; fin_cases i <;> decide +kernel

/-! ## C33: union -/

/-- C33: `get_union` on boxes answers a box, which does not depend on the previous content of `self`. -/
theorem C33_discards (bs : List (AABB (Fl K))) :
    ∃ r, ∀ old', IBound.getUnion (.aabb old') (bs.map .aabb) = .ok (.aabb r) := by
  refine ⟨bs.foldl AABB.join ⟨#v[Fl.pinf, Fl.pinf, Fl.pinf], #v[Fl.ninf, Fl.ninf, Fl.ninf]⟩, fun old' => ?_⟩
  unfold IBound.getUnion
  simp only [AABB.foldlM_union]; rfl

/-- concrete case -/
example := C33_discards [boxA, boxB, boxN]

theorem getUnion_eq (old : AABB (Fl K)) (bs : List (AABB (Fl K))) (r : IBound (Fl K))
    (h : IBound.getUnion (.aabb old) (bs.map .aabb) = .ok r) :
    r = .aabb (bs.foldl AABB.join ⟨#v[Fl.pinf, Fl.pinf, Fl.pinf], #v[Fl.ninf, Fl.ninf, Fl.ninf]⟩) := by
  unfold IBound.getUnion at h
  simp only [AABB.foldlM_union] at h
  exact (Except.ok.inj h).symm

theorem empty_lower (i : Fin 3) :
    (⟨#v[Fl.pinf, Fl.pinf, Fl.pinf], #v[Fl.ninf, Fl.ninf, Fl.ninf]⟩ : AABB (Fl K)).lower[i] = .inf false := by
  fin_cases i <;> rfl
theorem empty_upper (i : Fin 3) :
    (⟨#v[Fl.pinf, Fl.pinf, Fl.pinf], #v[Fl.ninf, Fl.ninf, Fl.ninf]⟩ : AABB (Fl K)).upper[i] = .inf true := by
  fin_cases i <;> rfl

/-- C33: the union of the boxes `bs` has no NaN bound, and its bounds are, coordinate by coordinate, the greatest lower
bound of the (non-NaN) lower bounds and the least upper bound of the (non-NaN) upper bounds: it encloses each input, and
each of its bounds is infinite (nothing to enclose) or the bound of an input. For all floats and lists of any length. -/
theorem C33_union (old : AABB (Fl K)) (bs : List (AABB (Fl K))) (r : AABB (Fl K))
    (h : IBound.getUnion (.aabb old) (bs.map .aabb) = .ok (.aabb r)) :
    r.NoNan ∧ (∀ b ∈ bs, b.WithinNan r) ∧
    (∀ i : Fin 3, r.lower[i] = .inf false ∨ ∃ b ∈ bs, r.lower[i] = b.lower[i]) ∧
    (∀ i : Fin 3, r.upper[i] = .inf true ∨ ∃ b ∈ bs, r.upper[i] = b.upper[i]) := by
  have e := getUnion_eq old bs _ h
  injection e with e
  subst e
  have hl (i : Fin 3) := Fl.foldl_fmin (bs.map (·.lower[i])) (x := .inf false) (by simp)
  have hu (i : Fin 3) := Fl.foldl_fmax (bs.map (·.upper[i])) (x := .inf true) (by simp)
  refine ⟨?_, ?_, ?_, ?_⟩
  · intro i
    rw [AABB.foldl_lower, AABB.foldl_upper, empty_lower, empty_upper]
    exact ⟨(hl i).1, (hu i).1⟩
  · intro b hb i
    rw [AABB.foldl_lower, AABB.foldl_upper, empty_lower, empty_upper]
    exact ⟨(hl i).2.2.1 _ (List.mem_map_of_mem hb), (hu i).2.2.1 _ (List.mem_map_of_mem hb)⟩
  · intro i
    rw [AABB.foldl_lower, empty_lower]
    refine (hl i).2.2.2.imp id fun h => ?_
    obtain ⟨b, hb, e⟩ := List.mem_map.mp h
    exact ⟨b, hb, e.symm⟩
  · intro i
    rw [AABB.foldl_upper, empty_upper]
    refine (hu i).2.2.2.imp id fun h => ?_
    obtain ⟨b, hb, e⟩ := List.mem_map.mp h
    exact ⟨b, hb, e.symm⟩

/-- concrete case: the call the hypothesis speaks of answers -/
example : ∃ r, IBound.getUnion (.aabb boxB) ([boxA, boxN].map .aabb) = .ok (.aabb r) ∧ r.NoNan ∧ (∀ b ∈ [boxA, boxN], b.WithinNan r) := by
  obtain ⟨r, h⟩ := C33_discards [boxA, boxN]
  exact ⟨r, h _, (C33_union boxB _ r (h _)).1, (C33_union boxB _ r (h _)).2.1⟩

/-- C33: the union is the least box: it lies within every (NaN-free) box `c` that all the inputs lie within. -/
theorem C33_least (old : AABB (Fl K)) (bs : List (AABB (Fl K))) (r c : AABB (Fl K))
    (h : IBound.getUnion (.aabb old) (bs.map .aabb) = .ok (.aabb r)) (hc : c.NoNan)
    (hbs : ∀ b ∈ bs, b.WithinNan c) : r.Within c := by
  obtain ⟨hn, _, h3, h4⟩ := C33_union old bs r h
  intro i
  constructor
  · rcases h3 i with e | ⟨b, hb, e⟩
    · rw [e]; have := (hc i).1
      cases hx : c.lower[i] <;> simp_all [Fl.le]
    · rw [e]; exact (hbs b hb i).1 (e ▸ (hn i).1)
  · rcases h4 i with e | ⟨b, hb, e⟩
    · rw [e]; have := (hc i).2
      cases hx : c.upper[i] <;> simp_all [Fl.le]
    · rw [e]; exact (hbs b hb i).2 (e ▸ (hn i).2)

/-- concrete case: the union of `boxA` and `boxN` lies in `[-5,5]³` -/
example : ∃ r, IBound.getUnion (.aabb boxB) ([boxA, boxN].map .aabb) = .ok (.aabb r) ∧
    r.Within ⟨#v[.fin (-5), .fin (-5), .fin (-5)], #v[.fin 5, .fin 5, .fin 5]⟩ := by
  obtain ⟨r, h⟩ := C33_discards [boxA, boxN]
  refine ⟨r, h _, C33_least boxB _ r _ (h _) (fun i => by fin_cases i <;> decide +kernel) fun b hb => ?_⟩
  rcases List.mem_pair.mp hb with rfl | rfl <;> intro i <;> fin_cases i <;> decide +kernel

/-- C33: every point of every input box is a point of the union. -/
theorem C33_points (old : AABB (Fl K)) (bs : List (AABB (Fl K))) (r b : AABB (Fl K))
    (h : IBound.getUnion (.aabb old) (bs.map .aabb) = .ok (.aabb r)) (hb : b ∈ bs) (p : Fin 3 → Fl K) (hp : b.Has p) :
    r.Has p := by
  obtain ⟨_, h2, _⟩ := C33_union old bs r h
  intro i
  exact ⟨Fl.le_trans ((h2 b hb i).1 (Fl.le_ne_nan (hp i).1).1) (hp i).1,
    Fl.le_trans (hp i).2 ((h2 b hb i).2 (Fl.le_ne_nan (hp i).2).2)⟩

/-- concrete case: a point of `boxB` is in the union -/
example : ∃ r, IBound.getUnion (.aabb boxA) ([boxA, boxB].map .aabb) = .ok (.aabb r) ∧ r.Has ![.fin 2, 0, .fin 77] := by
  obtain ⟨r, h⟩ := C33_discards [boxA, boxB]
  exact ⟨r, h _, C33_points boxA _ r boxB (h _) (by simp) _ fun i => by fin_cases i <;> decide +kernel⟩

/-- C33: the order of the inputs and repetitions do not matter: two lists with the same boxes have unions with the same
bounds (as numbers; the sign of a zero bound may differ). -/
theorem C33_order (o o' : AABB (Fl K)) (bs bs' : List (AABB (Fl K))) (hm : ∀ b, b ∈ bs ↔ b ∈ bs') (r r' : AABB (Fl K))
    (h : IBound.getUnion (.aabb o) (bs.map .aabb) = .ok (.aabb r))
    (h' : IBound.getUnion (.aabb o') (bs'.map .aabb) = .ok (.aabb r')) :
    ∀ i : Fin 3, Fl.feq r.lower[i] r'.lower[i] = true ∧ Fl.feq r.upper[i] r'.upper[i] = true := by
  have u := C33_union o bs r h
  have u' := C33_union o' bs' r' h'
  have h1 := C33_least o bs r r' h u'.1 fun b hb => u'.2.1 b ((hm b).mp hb)
  have h2 := C33_least o' bs' r' r h' u.1 fun b hb => u.2.1 b ((hm b).mpr hb)
  intro i
  unfold Fl.feq
  rw [(h1 i).1, (h1 i).2, (h2 i).1, (h2 i).2]; exact ⟨rfl, rfl⟩

/-- concrete case: the boxes in two orders, once repeated -/
example := C33_order boxA boxN [boxA, boxB] [boxB, boxA, boxB] (by intro b; simp only [List.mem_cons, List.not_mem_nil, or_false]; tauto)

/-- C33: on the empty slice the result is the inverted infinite box, which contains no point. -/
theorem C33_empty (old : AABB (Fl K)) :
    IBound.getUnion (.aabb old) [] =
      .ok (.aabb ⟨#v[.inf false, .inf false, .inf false], #v[.inf true, .inf true, .inf true]⟩) ∧
    ∀ p, ¬ AABB.Has (⟨#v[.inf false, .inf false, .inf false], #v[.inf true, .inf true, .inf true]⟩ : AABB (Fl K)) p := by
  refine ⟨rfl, fun p hp => ?_⟩
  have := hp 0
  have h : Fl.le (Fl.inf false : Fl K) (.inf true) = true := Fl.le_trans this.1 this.2
  simp [Fl.le] at h

/-- concrete case -/
example := C33_empty boxA

/-- C33: `get_union` panics exactly if `self` is, or the slice contains, a sphere bound. -/
theorem C33_panics (self : IBound (Fl K)) (bs : List (IBound (Fl K))) :
    self.getUnion bs = .error .unimplemented ↔ self = .sphere ∨ IBound.sphere ∈ bs := by
  cases self with
  | sphere => simp [IBound.getUnion]
  | aabb o =>
    simp only [reduceCtorEq, false_or]
    unfold IBound.getUnion; simp only
    generalize (⟨#v[Fl.pinf, Fl.pinf, Fl.pinf], #v[Fl.ninf, Fl.ninf, Fl.ninf]⟩ : AABB (Fl K)) = s
    induction bs generalizing s with
    | nil => simp
    | cons b bs ih =>
      rw [List.foldlM_cons]
      cases b with
      | sphere => simp [IBound.unionStep, IBound.getType]
      | aabb b => rw [AABB.unionStep_eq]; simpa using ih _

/-- Non-vacuity of C33: a union of two boxes, one with a NaN bound. -/
example : IBound.getUnion (.aabb ⟨#v[.fin 7, .fin 7, .fin 7], #v[.fin 9, .fin 9, .fin 9]⟩)
    [.aabb ⟨#v[0, 0, 0], #v[1, 1, 1]⟩, .aabb ⟨#v[.fin (-1), .nan, .fin (1/2)], #v[.fin 1, .fin 4, .inf false]⟩] =
    .ok (.aabb ⟨#v[.fin (-1), 0, 0], #v[1, .fin 4, .inf false]⟩ : IBound (Fl Q64)) := by decide +kernel

/-! ## C34: longest axis -/

/-- C34 is false of the code: for the box `[0,2]×[0,1]×[0,1]` (in binary64) the answer is the Z axis with extent 1, not
the X axis with extent 2. -/
theorem C34_longestAxis_false :
    ∃ b : AABB (Fl Q64), b.Valid ∧ b.getLongestAxis = .ok (.Z, .fin 1) ∧ b.upper[0] - b.lower[0] = .fin 2 ∧
      Fl.lt (.fin 1 : Fl Q64) (.fin 2) = true := by
  refine ⟨⟨#v[0, 0, 0], #v[.fin 2, 1, 1]⟩, ?_, by decide +kernel, by decide +kernel, by decide +kernel⟩
  intro i; fin_cases i <;> decide +kernel

/-- C34, what does hold (for all boxes over any floats): the answer is always the Z axis and the Z extent. The full
property (the axis of largest extent) is false of the code, `C34_longestAxis_false`. -/
theorem C34_longestAxis_partial (b : AABB (Fl K)) : b.getLongestAxis = .ok (.Z, b.upper[2] - b.lower[2]) := by
  have hc (x y : Axis × Fl K) : AABB.longestAxisCmp x y ≠ .gt := by
    unfold AABB.longestAxisCmp
    cases Fl.lt x.2 y.2 <;> simp
  unfold AABB.getLongestAxis maxBy
  simp [unwrap, hc]

/-- concrete case: a box that is longest along `x` -/
example := C34_longestAxis_partial (⟨#v[0, 0, 0], #v[.fin 9, 1, .fin 2]⟩ : AABB (Fl Q64))

/-- C34, consequence: the answer has the largest extent exactly when no extent exceeds the Z extent. -/
theorem C34_longestAxis_right_partial (b : AABB (Fl K)) (ax : Axis) (e : Fl K) (h : b.getLongestAxis = .ok (ax, e)) :
    (∀ i : Fin 3, Fl.lt e (b.upper[i] - b.lower[i]) = false) ↔
      ∀ i : Fin 3, Fl.lt (b.upper[2] - b.lower[2]) (b.upper[i] - b.lower[i]) = false := by
  rw [C34_longestAxis_partial] at h
  simp only [Except.ok.injEq, Prod.mk.injEq] at h
  rw [h.2]

/-- concrete case: a box that is longest along `z`, so the answer is right -/
example : ∀ i : Fin 3, Fl.lt (.fin 3 : Fl Q64) ((⟨#v[0, 0, 0], #v[1, .fin 2, .fin 3]⟩ : AABB (Fl Q64)).upper[i] -
    (⟨#v[0, 0, 0], #v[1, .fin 2, .fin 3]⟩ : AABB (Fl Q64)).lower[i]) = false :=
  (C34_longestAxis_right_partial ⟨#v[0, 0, 0], #v[1, .fin 2, .fin 3]⟩ .Z (.fin 3) (by decide +kernel)).mpr
    fun i => by fin_cases i <;> decide +kernel

/-! ## C35: centroid -/

theorem getCentroid_eq (b : AABB (Fl K)) : ∃ c, (IBound.aabb b).getCentroid = .ok c ∧
    ∀ i : Fin 3, c[i] = (b.lower[i] + b.upper[i]) / Fl.lit 2 := by
  refine ⟨#v[(b.lower[0] + b.upper[0]) / Fl.lit 2, (b.lower[1] + b.upper[1]) / Fl.lit 2,
    (b.lower[2] + b.upper[2]) / Fl.lit 2], ?_, ?_⟩
  · have h0 := b.data_lower 0; have h1 := b.data_lower 1; have h2 := b.data_lower 2
    have h3 := b.data_upper 0; have h4 := b.data_upper 1; have h5 := b.data_upper 2
    simp only [Fin.val_zero, Fin.val_one, Fin.val_two, zero_add, Nat.reduceAdd] at h0 h1 h2 h3 h4 h5
    show Except.ok _ = _
    simp only [h0, h1, h2, h3, h4, h5]; rfl
  · intro i; fin_cases i <;> rfl

/-- C35, exact arithmetic: the centroid of a box with real corners is the midpoint, and lies in the box. -/
theorem C35_midpoint (b : AABB (Fl ℝ)) (lo hi : Fin 3 → ℝ) (h : b.IsR lo hi) :
    ∃ c, (IBound.aabb b).getCentroid = .ok c ∧ (∀ i : Fin 3, c[i].Is (midpoint ℝ lo hi i)) ∧
      (b.Valid → b.Has fun i => c[i]) := by
  obtain ⟨c, hc, e⟩ := getCentroid_eq b
  have hm (i : Fin 3) : c[i].Is ((lo i + hi i) / 2) := by
    rw [e]; exact ((h i).1.add (h i).2).div (Fl.is_lit 2) (by norm_num)
  refine ⟨c, hc, fun i => (hm i).cast ?_, fun hv i => ?_⟩
  · rw [midpoint_eq_smul_add]; simp; ring
  · have hv := hv i
    rw [(h i).1.le (h i).2] at hv
    have hv := of_decide_eq_true hv
    rw [(h i).1.le (hm i), (hm i).le (h i).2]
    exact ⟨decide_eq_true (by linarith), decide_eq_true (by linarith)⟩

/-- concrete case -/
example := C35_midpoint ⟨#v[.fin (-1), .fin 0, .fin 2], #v[.fin 3, .fin 1, .fin 2]⟩ ![-1, 0, 2] ![3, 1, 2]
  fun i => by fin_cases i <;> exact ⟨rfl, rfl⟩

section lawful
variable [LawfulFmt K]

/-- A float with value `w` compares like `fin w`. -/
theorem le_fin_of_is {x z : Fl K} {w : K} (h : x.Is w) : Fl.le z x = Fl.le z (.fin w) ∧ Fl.le x z = Fl.le (.fin w) z := by
  rcases h.kcases with rfl | ⟨rfl, rfl⟩
  · exact ⟨rfl, rfl⟩
  · constructor <;> cases z <;> simp [Fl.le]

theorem add_cases {x y : Fl K} {a b : K} (hx : x.Is a) (hy : y.Is b) :
    x + y = Fl.lit (a + b) ∨ x + y = .nzero ∧ a + b = 0 := by
  rcases hx.kcases with rfl | ⟨rfl, rfl⟩ <;> rcases hy.kcases with rfl | ⟨rfl, rfl⟩
  · exact .inl rfl
  · exact .inl rfl
  · exact .inl rfl
  · exact .inr ⟨rfl, by simp⟩

theorem le_add {x y z : Fl K} {a b : K} (hx : x.Is a) (hy : y.Is b) :
    Fl.le z (x + y) = Fl.le z (Fl.lit (a + b)) ∧ Fl.le (x + y) z = Fl.le (Fl.lit (a + b)) z := by
  rcases add_cases hx hy with e | ⟨e, e0⟩
  · rw [e]; exact ⟨rfl, rfl⟩
  · rw [e, e0, Fl.lit_zero]; exact le_fin_of_is (x := .nzero) rfl

theorem div_two_cases {x : Fl K} {w : K} (hx : x.Is w) :
    x / Fl.lit 2 = Fl.lit (w / 2) ∨ (x / Fl.lit 2).Is 0 ∧ w = 0 := by
  rw [Fl.lit_rep Fl.rep_two]
  rcases hx.kcases with rfl | ⟨rfl, rfl⟩
  · show Fl.divFin _ w 2 = _ ∨ (Fl.divFin _ w 2).Is 0 ∧ _
    unfold Fl.divFin
    rw [if_neg two_ne_zero]
    by_cases h : w = 0
    · rw [if_pos h]; exact .inr ⟨Fl.kzeroIs _, h⟩
    · rw [if_neg h, Fl.lit_of_ne (div_ne_zero h two_ne_zero)]; exact .inl rfl
  · right
    refine ⟨?_, rfl⟩
    show (Fl.divFin _ 0 2).Is 0
    unfold Fl.divFin
    rw [if_neg two_ne_zero, if_pos rfl]; exact Fl.kzeroIs _

theorem le_div_two {x z : Fl K} {w : K} (hx : x.Is w) :
    Fl.le z (x / Fl.lit 2) = Fl.le z (Fl.lit (w / 2)) ∧ Fl.le (x / Fl.lit 2) z = Fl.le (Fl.lit (w / 2)) z := by
  rcases div_two_cases hx with e | ⟨e, rfl⟩
  · rw [e]; exact ⟨rfl, rfl⟩
  · rw [zero_div, Fl.lit_zero]; exact le_fin_of_is e

/-- rounding a doubled value of the format is order-exact against values of the format -/
theorem two_mul_le {a w : K} (ha : Fl.Rep a) (hw : Fl.Rep w) (h : Fl.le (Fl.lit (2 * a)) (.fin w) = true) : 2 * a ≤ w := by
  rcases lt_trichotomy a 0 with h0 | h0 | h0
  · by_contra hc
    have hna : 0 < -a := neg_pos.mpr h0
    have hr : Fmt.rnd (-a) = Fl.fin (-a) := ha.neg.resolve_left hna.ne'
    have hm := Fl.lit_mono (v := 2 * (-a)) (w := -w) (by linarith)
    rw [Fl.lit_rep hw.neg, Fl.lit_of_ne (by linarith : (2 * (-a) : K) ≠ 0)] at hm
    rcases LawfulFmt.rnd_double (-a) hna hr with e | e
    · rw [show 2 * a = -(2 * (-a)) by ring, Fl.lit_neg_of_ne (by linarith), Fl.lit_of_ne (by linarith), e] at h
      have h2 : -(2 * (-a)) ≤ w := by
        have : Fl.le (Fl.neg (.fin (2 * (-a)))) (.fin w) = true := h
        rw [Fl.neg, if_neg (by linarith)] at this
        simpa [Fl.le] using this
      exact hc (by linarith)
    · rw [e] at hm; simp [Fl.le] at hm
  · rw [h0, mul_zero, Fl.lit_zero] at h
    rw [h0, mul_zero]; simpa [Fl.le] using h
  · rw [Fl.lit_of_ne (by linarith)] at h
    rcases LawfulFmt.rnd_double a h0 (ha.resolve_left h0.ne') with e | e
    · rw [e] at h; simpa [Fl.le] using h
    · rw [e] at h; simp [Fl.le] at h

theorem le_two_mul {a w : K} (ha : Fl.Rep a) (hw : Fl.Rep w) (h : Fl.le (.fin w) (Fl.lit (2 * a)) = true) : w ≤ 2 * a := by
  have h' := Fl.neg_le_neg h
  by_cases h0 : a = 0
  · rw [h0, mul_zero, Fl.lit_zero] at h
    rw [h0, mul_zero]; simpa [Fl.le] using h
  · have := two_mul_le ha.neg hw.neg (by
      rw [show 2 * (-a) = -(2 * a) by ring, Fl.lit_neg_of_ne (mul_ne_zero two_ne_zero h0)]
      by_cases hw0 : w = 0
      · rw [hw0] at h' ⊢
        exact Fl.le_trans h' (by simp [Fl.le, ← Fl.neg_def, Fl.neg])
      · have e : -(Fl.fin w) = Fl.fin (-w) := by rw [← Fl.neg_def, Fl.neg, if_neg hw0]
        rwa [e] at h')
    linarith

/-- C35, any rounding: if the bounds of a box with `lower ≤ upper` are finite data of the format and no coordinate sum
`lower + upper` overflows, the (rounded) centroid lies inside the box. -/
theorem C35_inside (b : AABB (Fl K)) (hv : b.Valid)
    (hw : ∀ i : Fin 3, b.lower[i].WF ∧ b.upper[i].WF) (hf : ∀ i : Fin 3, b.lower[i].Finite ∧ b.upper[i].Finite)
    (ho : ∀ i : Fin 3, (b.lower[i] + b.upper[i]).Finite) :
    ∃ c, (IBound.aabb b).getCentroid = .ok c ∧ b.Has fun i => c[i] := by
  obtain ⟨c, hc, e⟩ := getCentroid_eq b
  refine ⟨c, hc, fun i => ?_⟩
  simp only [e]
  obtain ⟨⟨a, ha⟩, ⟨d, hd⟩⟩ := hf i
  obtain ⟨w, hs⟩ := ho i
  have ra := Fl.Is.wf_rep ha (hw i).1
  have rd := Fl.Is.wf_rep hd (hw i).2
  have rw' := Fl.Is.wf_rep hs (Fl.wf_add _ _)
  have had : a ≤ d := by
    have := hv i
    rw [(le_fin_of_is ha).2, (le_fin_of_is hd).1] at this
    simpa [Fl.le] using this
  have h1 : 2 * a ≤ w := by
    apply two_mul_le ra rw'
    rw [← (le_fin_of_is hs).1, (le_add ha hd).1]
    exact Fl.lit_mono (by linarith)
  have h2 : w ≤ 2 * d := by
    apply le_two_mul rd rw'
    rw [← (le_fin_of_is hs).2, (le_add ha hd).2]
    exact Fl.lit_mono (by linarith)
  constructor
  · rw [(le_div_two hs).1, (le_fin_of_is ha).2, ← Fl.lit_rep ra]
    exact Fl.lit_mono (by linarith)
  · rw [(le_div_two hs).2, (le_fin_of_is hd).1, ← Fl.lit_rep rd]
    exact Fl.lit_mono (by linarith)

/-- concrete case: a box whose sides are not representable multiples of each other -/
example := C35_inside (⟨#v[0, .fin (-3), .fin (1/2)], #v[1, .fin 4, .fin (1/2 + 1/2^53)]⟩ : AABB (Fl Q64))
  (fun i => by fin_cases i <;> decide +kernel)
  (fun i => by fin_cases i <;> exact ⟨.inr (by decide +kernel), .inr (by decide +kernel)⟩)
  (fun i => by fin_cases i <;> exact ⟨⟨_, rfl⟩, ⟨_, rfl⟩⟩)
  (fun i => ⟨(1 : ℚ), by fin_cases i <;> (show Fl.val _ = some _; decide +kernel)⟩)

end lawful

/-- Non-vacuity of C35: the centroid of a binary64 box (the last coordinate is rounded). -/
example : IBound.getCentroid (.aabb ⟨#v[0, .fin (-3), .fin (1/2)], #v[1, .fin 4, .fin (1/2 + 1/2^53)]⟩ : IBound (Fl Q64)) =
    .ok #v[.fin (1/2), .fin (1/2), .fin (1/2)] := by decide +kernel

/-- C35: the no-overflow hypothesis of `C35_inside` cannot be dropped: for `lower = upper = 2^1023` in binary64 the
centroid is `+∞`, outside the box. -/
theorem C35_overflow : ∃ b : AABB (Fl Q64), b.Valid ∧ (∀ i : Fin 3, b.lower[i].Finite ∧ b.upper[i].Finite) ∧
    ∃ c, (IBound.aabb b).getCentroid = .ok c ∧ ¬ b.Has fun i => c[i] := by
  refine ⟨⟨#v[.fin (2^1023), 0, 0], #v[.fin (2^1023), 0, 0]⟩, ?_, ?_, #v[.inf false, 0, 0], by decide +kernel, ?_⟩
  · intro i; fin_cases i <;> decide +kernel
  · intro i; fin_cases i <;> exact ⟨Fl.finite_fin _, Fl.finite_fin _⟩
  · intro h
    have := (h 0).2
    exact absurd this (by decide +kernel)

end Mazth
