import Verif.Props.Bounds
import Verif.Props.FloatBounds

/-!
# C102: unions of unions, as in a bounding volume hierarchy
-/

set_option linter.unusedSectionVars false
set_option autoImplicit false

namespace Mazth

variable {K : Type} [Field K] [LinearOrder K] [IsStrictOrderedRing K] [Fmt K]

/-- `r` is got from the boxes `bs` by any number of levels of `get_union`: a single box, or the union of boxes so got -/
inductive AABB.Nest : List (AABB (Fl K)) → AABB (Fl K) → Prop where
  | leaf (b : AABB (Fl K)) : Nest [b] b
  | node (old : AABB (Fl K)) (parts : List (List (AABB (Fl K)) × AABB (Fl K))) (r : AABB (Fl K)) (h : ∀ p ∈ parts, Nest p.1 p.2)
      (hr : IBound.getUnion (.aabb old) ((parts.map Prod.snd).map .aabb) = .ok (.aabb r)) : Nest (parts.flatMap Prod.fst) r

namespace Nest

open AABB

theorem within_refl {a : AABB (Fl K)} : a.WithinNan a := fun _ => ⟨Fl.le_refl, Fl.le_refl⟩

theorem within_trans {a b c : AABB (Fl K)} (h : a.WithinNan b) (h' : b.WithinNan c) : a.WithinNan c := fun i =>
  ⟨fun n => have e := (h i).1 n; Fl.le_trans ((h' i).1 (Fl.le_ne_nan e).1) e,
    fun n => have e := (h i).2 n; Fl.le_trans e ((h' i).2 (Fl.le_ne_nan e).2)⟩

theorem within_of {a b : AABB (Fl K)} (h : a.Within b) : a.WithinNan b := fun i => ⟨fun _ => (h i).1, fun _ => (h i).2⟩

theorem encloses {bs : List (AABB (Fl K))} {r : AABB (Fl K)} (h : Nest bs r) : ∀ b ∈ bs, b.WithinNan r := by
  induction h with
  | leaf b => intro c hc; rw [List.mem_singleton.mp hc]; exact within_refl
  | node old parts r _ hr ih =>
    intro b hb
    obtain ⟨p, hp, hbp⟩ := List.mem_flatMap.mp hb
    exact within_trans (ih p hp b hbp) ((C33_union old _ r hr).2.1 _ (List.mem_map_of_mem hp))

theorem least {bs : List (AABB (Fl K))} {r c : AABB (Fl K)} (h : Nest bs r) (hc : c.NoNan) (hb : ∀ b ∈ bs, b.WithinNan c) : r.WithinNan c := by
  induction h with
  | leaf b => exact hb b (List.mem_singleton.mpr rfl)
  | node old parts r _ hr ih =>
    refine within_of (C33_least old _ r c hr hc fun b hb' => ?_)
    obtain ⟨p, hp, rfl⟩ := List.mem_map.mp hb'
    exact ih p hp fun b hbp => hb b (List.mem_flatMap.mpr ⟨p, hp, hbp⟩)

theorem noNan {bs : List (AABB (Fl K))} {r : AABB (Fl K)} (h : Nest bs r) (hb : ∀ b ∈ bs, b.NoNan) : r.NoNan := by
  cases h with
  | leaf b => exact hb _ (List.mem_singleton.mpr rfl)
  | node old parts r _ hr => exact (C33_union old _ r hr).1

theorem lt_of_le_of_lt {x y z : Fl K} (h : Fl.le x y = true) (h' : Fl.lt y z = true) : Fl.lt x z = true := by
  obtain ⟨ny, nz⟩ := Fl.lt_ne_nan h'
  rw [Fl.lt_eq_not_le (Fl.le_ne_nan h).1 nz]
  rw [Fl.lt_eq_not_le ny nz] at h'
  by_contra hc
  rw [Fl.le_trans (by simpa using hc) h] at h'
  cases h'

theorem lt_of_lt_of_le {x y z : Fl K} (h : Fl.lt x y = true) (h' : Fl.le y z = true) : Fl.lt x z = true := by
  obtain ⟨nx, ny⟩ := Fl.lt_ne_nan h
  rw [Fl.lt_eq_not_le nx (Fl.le_ne_nan h').2]
  rw [Fl.lt_eq_not_le nx ny] at h
  by_contra hc
  rw [Fl.le_trans h' (by simpa using hc)] at h
  cases h

/-- a larger box overlaps what the smaller one overlaps -/
theorem overlap_mono {a b c : AABB (Fl K)} (h : b.WithinNan c) (hn : b.NoNan) (ho : IBound.intersect (.aabb a) (.aabb b) = .ok true) :
    IBound.intersect (.aabb a) (.aabb c) = .ok true := by
  rw [AABB.intersect_eq] at ho ⊢
  have ho := (AABB.overlap_iff a b).mp (Except.ok.inj ho)
  refine congrArg _ ((AABB.overlap_iff a c).mpr fun i => ?_)
  obtain ⟨h1, h2⟩ := ho i
  have w1 := (h i).1 (hn i).1
  have w2 := (h i).2 (hn i).2
  constructor
  · by_contra hc
    rw [lt_of_le_of_lt w2 (by simpa using hc)] at h1
    cases h1
  · by_contra hc
    rw [lt_of_lt_of_le (by simpa using hc) w1] at h2
    cases h2

end Nest

open AABB

/-- C102: a union of unions, of any depth and shape, is the least box around the boxes it was made of. -/
theorem C102_least {bs : List (AABB (Fl K))} {r : AABB (Fl K)} (h : Nest bs r) :
    (∀ b ∈ bs, b.WithinNan r) ∧ ∀ c : AABB (Fl K), c.NoNan → (∀ b ∈ bs, b.WithinNan c) → r.WithinNan c :=
  ⟨Nest.encloses h, fun _ hc hb => Nest.least h hc hb⟩

/-- C102: two hierarchies over the same boxes, of any depth and shape, have the same root bounds (as numbers); a flat union is one of
them. -/
theorem C102_shape {bs bs' : List (AABB (Fl K))} {r r' : AABB (Fl K)} (h : Nest bs r) (h' : Nest bs' r') (hm : ∀ b, b ∈ bs ↔ b ∈ bs')
    (hn : ∀ b ∈ bs, b.NoNan) : ∀ i : Fin 3, Fl.feq r.lower[i] r'.lower[i] = true ∧ Fl.feq r.upper[i] r'.upper[i] = true := by
  have hr := Nest.noNan h hn
  have hr' := Nest.noNan h' fun b hb => hn b ((hm b).mpr hb)
  have h1 := Nest.least h hr' fun b hb => Nest.encloses h' b ((hm b).mp hb)
  have h2 := Nest.least h' hr fun b hb => Nest.encloses h b ((hm b).mpr hb)
  intro i
  unfold Fl.feq
  rw [(h1 i).1 (hr i).1, (h1 i).2 (hr i).2, (h2 i).1 (hr' i).1, (h2 i).2 (hr' i).2]; exact ⟨rfl, rfl⟩

/-- C102: pruning is safe: a box that overlaps a leaf overlaps every box above it.  A search that descends only into boxes overlapping
the query misses no leaf that does. -/
theorem C102_prune {bs : List (AABB (Fl K))} {r b : AABB (Fl K)} (h : Nest bs r) (hb : b ∈ bs) (hn : b.NoNan) (a : AABB (Fl K))
    (ho : IBound.intersect (.aabb a) (.aabb b) = .ok true) : IBound.intersect (.aabb a) (.aabb r) = .ok true :=
  Nest.overlap_mono (Nest.encloses h b hb) hn ho

/-- C102: every point of a leaf is in every box above it. -/
theorem C102_points {bs : List (AABB (Fl K))} {r b : AABB (Fl K)} (h : Nest bs r) (hb : b ∈ bs) (p : Fin 3 → Fl K) (hp : b.Has p) :
    r.Has p := fun i =>
  have w := Nest.encloses h b hb i
  ⟨Fl.le_trans (w.1 (Fl.le_ne_nan (hp i).1).1) (hp i).1, Fl.le_trans (hp i).2 (w.2 (Fl.le_ne_nan (hp i).2).2)⟩

section shapes

variable [LawfulFmt K] {φ : K →+* ℝ} (hφ : StrictMono φ)

include hφ

/-- C102 for shapes: if two shapes built by the constructors share a point, the bound of one overlaps every box above the bound of the
other, whatever the rounding: nothing that intersects is pruned. -/
theorem C102_shapes (s t : Shape K) (S T : Set R3) (hs : s.MadeIn φ S) (ht : t.MadeIn φ T) (hST : (S ∩ T).Nonempty) :
    ∃ a b, s.getBound = .aabb a ∧ t.getBound = .aabb b ∧ ∀ (bs : List (AABB (Fl K))) (r : AABB (Fl K)), Nest bs r → b ∈ bs →
      IBound.intersect (.aabb a) (.aabb r) = .ok true := by
  obtain ⟨a, ha, -, -⟩ := C60_valid hφ s S hs (hST.mono Set.inter_subset_left)
  obtain ⟨b, hb, -, hn⟩ := C60_valid hφ t T ht (hST.mono Set.inter_subset_right)
  have h := C60_pretest hφ s t S T hs ht hST
  rw [ha, hb] at h
  exact ⟨a, b, ha, hb, fun bs r hr hm => C102_prune hr hm hn a h⟩

end shapes

/-! ### concrete cases -/

namespace Nest

theorem pair (old a b : AABB (Fl Q64)) : ∃ r, IBound.getUnion (.aabb old) ([a, b].map .aabb) = .ok (.aabb r) ∧ AABB.Nest [a, b] r := by
  obtain ⟨r, h⟩ := C33_discards [a, b]
  exact ⟨r, h _, .node old [([a], a), ([b], b)] r (fun p hp => by
    rcases List.mem_pair.mp hp with rfl | rfl <;> exact .leaf _) (h _)⟩

/-- two levels: the union of `boxA` and the union of `boxB` and a third box -/
theorem two (c : AABB (Fl Q64)) : ∃ r, AABB.Nest [boxA, boxB, c] r := by
  obtain ⟨r, -, n⟩ := pair boxA boxB c
  obtain ⟨r', h⟩ := C33_discards [boxA, r]
  exact ⟨r', .node boxA [([boxA], boxA), ([boxB, c], r)] r' (fun p hp => by
    rcases List.mem_pair.mp hp with rfl | rfl
    · exact .leaf _
    · exact n) (h _)⟩

def boxC : AABB (Fl Q64) := ⟨#v[.fin 5, 0, 0], #v[.fin 7, 1, 1]⟩

theorem noNan_abc : ∀ b ∈ [boxA, boxB, boxC], b.NoNan := fun b hb i => by
  simp only [List.mem_cons, List.not_mem_nil, or_false] at hb
  rcases hb with rfl | rfl | rfl <;> fin_cases i <;> decide +kernel

end Nest

example := (Nest.two Nest.boxC).imp fun _ h => C102_least h
/-- other grouping and order -/
example : ∃ r r', AABB.Nest [boxA, boxB, Nest.boxC] r ∧ AABB.Nest [Nest.boxC, boxB, boxA] r' ∧
    ∀ i : Fin 3, Fl.feq r.lower[i] r'.lower[i] = true ∧ Fl.feq r.upper[i] r'.upper[i] = true := by
  obtain ⟨r, h⟩ := Nest.two Nest.boxC
  obtain ⟨r2, -, n⟩ := Nest.pair boxA Nest.boxC boxB
  obtain ⟨r', h'⟩ := C33_discards [r2, boxA]
  have h'' : AABB.Nest [Nest.boxC, boxB, boxA] r' := .node boxA [([Nest.boxC, boxB], r2), ([boxA], boxA)] r' (fun p hp => by
    rcases List.mem_pair.mp hp with rfl | rfl
    · exact n
    · exact .leaf _) (h' _)
  exact ⟨r, r', h, h'', C102_shape h h'' (by intro b; simp only [List.mem_cons, List.not_mem_nil, or_false]; tauto) Nest.noNan_abc⟩
/-- the box `[6,8] x [0,1] x [0,1]` overlaps the third leaf -/
example := (Nest.two Nest.boxC).imp fun _ h => C102_prune h (b := Nest.boxC) (by simp) (Nest.noNan_abc _ (by simp))
  ⟨#v[.fin 6, 0, 0], #v[.fin 8, 1, 1]⟩ (by decide +kernel)
example := (Nest.two Nest.boxC).imp fun _ h => C102_points h (b := Nest.boxC) (by simp) ![.fin 6, 1, 0] fun i => by
  fin_cases i <;> decide +kernel

theorem unitPoint_meets : ({toR BinQ.real (![(1 : ℚ), (0 : ℚ), (0 : ℚ)] : Fin 3 → Q64)} ∩
    ballPts (toR BinQ.real (![(1 : ℚ), (0 : ℚ), (0 : ℚ)] : Fin 3 → Q64)) ((BinQ.real : Q64 →+* ℝ) (Bin.pow2 (-60)))).Nonempty := by
  refine ⟨_, rfl, ?_⟩
  have h0 : (0 : ℝ) ≤ (BinQ.real : Q64 →+* ℝ) (Bin.pow2 (-60)) := by
    rw [← map_zero (BinQ.real : Q64 →+* ℝ)]; exact BinQ.real_strictMono.monotone (Bin.pow2_pos (-60)).le
  show euc _ ≤ _
  rw [sub_self, (euc_eq_zero _).mpr rfl]; exact h0

example := C102_shapes BinQ.real_strictMono _ _ _ _ unitPoint_made tinySphere_made unitPoint_meets

/-- C102 is false for leaves with a NaN bound: the overlap test answers `true` for them, but the union leaves the NaN out, so that the box
above need not overlap. -/
theorem C102_nan_false : ¬ ∀ (bs : List (AABB (Fl Q64))) (r b : AABB (Fl Q64)), AABB.Nest bs r → b ∈ bs → ∀ a : AABB (Fl Q64),
    IBound.intersect (.aabb a) (.aabb b) = .ok true → IBound.intersect (.aabb a) (.aabb r) = .ok true := by
  intro h
  obtain ⟨r, hr, n⟩ := Nest.pair boxA boxA ⟨#v[.nan, 0, 0], #v[.nan, 1, 1]⟩
  have e : IBound.getUnion (.aabb boxA) ([boxA, (⟨#v[.nan, 0, 0], #v[.nan, 1, 1]⟩ : AABB (Fl Q64))].map .aabb) = .ok (.aabb boxA) := by
    decide +kernel
  rw [hr] at e
  injection e with e
  injection e with e
  subst e
  have := h _ _ _ n (List.mem_cons_of_mem _ (List.mem_singleton.mpr rfl)) ⟨#v[.fin 5, 0, 0], #v[.fin 6, 1, 1]⟩ (by decide +kernel)
  revert this
  decide +kernel

end Mazth
