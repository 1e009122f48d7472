import Verif.Spec.ShapesFloat
import Verif.Proofs.MinMax
import Verif.Props.ShapeBounds
import Verif.Props.FloatAcc
import Verif.Float.ExactOps
import Verif.Float.BinaryLawful

/-!
# C60: bounds of floating-point shapes

For every format with the rounding laws (`f32`, `f64`, exact reals): the bound computed by a constructor contains every
representable point of the exact shape, and the bounding pre-test of two shapes whose exact point sets meet is passed.
Rounding is monotone; that is all that is used, so overflow to an infinite bound is covered.
-/

set_option linter.unusedSectionVars false
set_option autoImplicit false

namespace Mazth

open Matrix

section
variable {K : Type} [Field K] [LinearOrder K] [IsStrictOrderedRing K] [Fmt K] [LawfulFmt K]

namespace Fl

variable {x y z : Fl K} {a b : K}

theorem Is.kne_nan (h : x.Is a) : x ≠ nan := Finite.ne_nan ⟨a, h⟩

theorem Is.kle (h : x.Is a) (h' : y.Is b) : Fl.le x y = true ↔ a ≤ b := by
  rcases h.kcases with rfl | ⟨rfl, rfl⟩ <;> rcases h'.kcases with rfl | ⟨rfl, rfl⟩ <;> simp [Fl.le]

theorem Is.klt (h : x.Is a) (h' : y.Is b) : Fl.lt x y = true ↔ a < b := by
  rw [lt_eq_not_le h.kne_nan h'.kne_nan]
  have := h'.kle h
  rw [Bool.not_eq_true', ← not_iff_not, Bool.not_eq_false, this, not_lt]

theorem Is.add_lit (h : x.Is a) (h' : y.Is b) : Fl.le (x + y) (lit (a + b)) = true ∧ Fl.le (lit (a + b)) (x + y) = true := by
  have key : (x + y) = lit (a + b) ∨ (x + y = nzero ∧ a + b = 0) := by
    rcases h.kcases with rfl | ⟨rfl, rfl⟩ <;> rcases h'.kcases with rfl | ⟨rfl, rfl⟩
    · exact .inl rfl
    · exact .inl rfl
    · exact .inl rfl
    · exact .inr ⟨rfl, add_zero 0⟩
  rcases key with e | ⟨e, e'⟩
  · rw [e]; exact ⟨Fl.le_refl (lit_ne_nan _), Fl.le_refl (lit_ne_nan _)⟩
  · rw [e, e', lit_zero]; simp [Fl.le]

theorem Is.sub_lit (h : x.Is a) (h' : y.Is b) : Fl.le (x - y) (lit (a - b)) = true ∧ Fl.le (lit (a - b)) (x - y) = true := by
  rw [sub_eq_add_neg]; exact h.add_lit h'.kneg

end Fl

/-- an end of a bound, `l`, is at most the rounded value of a number below the coordinates `E` -/
def Below (φ : K →+* ℝ) (l : Fl K) (E : Set ℝ) : Prop :=
  l = Fl.ninf ∨ ∃ lo : K, (∀ e ∈ E, φ lo ≤ e) ∧ Fl.le l (Fl.lit lo) = true
/-- likewise for the upper end -/
def Above (φ : K →+* ℝ) (u : Fl K) (E : Set ℝ) : Prop :=
  u = Fl.pinf ∨ ∃ hi : K, (∀ e ∈ E, e ≤ φ hi) ∧ Fl.le (Fl.lit hi) u = true

theorem Below.meets {φ : K →+* ℝ} (hφ : StrictMono φ) {l u : Fl K} {E F : Set ℝ} (hl : Below φ l E) (hu : Above φ u F)
    {e : ℝ} (he : e ∈ E) (hf : e ∈ F) : Fl.le l u = true := by
  rcases hu with rfl | ⟨hi, h1, h2⟩
  · rcases hl with rfl | ⟨lo, _, h4⟩
    · rfl
    · have := (Fl.le_ne_nan h4).1
      cases l <;> simp_all [Fl.le, Fl.pinf]
  · rcases hl with rfl | ⟨lo, h3, h4⟩
    · have := (Fl.le_ne_nan h2).2
      cases u <;> simp_all [Fl.le, Fl.ninf]
    · exact Fl.le_trans h4 (Fl.le_trans (Fl.lit_mono (hφ.le_iff_le.mp ((h3 e he).trans (h1 e hf)))) h2)

section
variable {φ : K →+* ℝ} {x y : Fl K} {a b : K} {E : Set ℝ}

theorem lit_le_self (h : x.Holds a) : Fl.le (Fl.lit a) x = true := by
  rw [Fl.lit_rep (h.1.wf_rep h.2)]; exact (Fl.Is.kle (x := .fin a) rfl h.1).mpr le_rfl
theorem self_le_lit (h : x.Holds a) : Fl.le x (Fl.lit a) = true := by
  rw [Fl.lit_rep (h.1.wf_rep h.2)]; exact (Fl.Is.kle (y := .fin a) h.1 rfl).mpr le_rfl

theorem Below.self (h : x.Holds a) (hE : ∀ e ∈ E, φ a ≤ e) : Below φ x E := .inr ⟨a, hE, self_le_lit h⟩
theorem Above.self (h : x.Holds a) (hE : ∀ e ∈ E, e ≤ φ a) : Above φ x E := .inr ⟨a, hE, lit_le_self h⟩
theorem Below.sub (h : x.Holds a) (h' : y.Holds b) (hE : ∀ e ∈ E, φ a - φ b ≤ e) : Below φ (x - y) E :=
  .inr ⟨a - b, fun e he => by rw [map_sub]; exact hE e he, (h.1.sub_lit h'.1).1⟩
theorem Above.add (h : x.Holds a) (h' : y.Holds b) (hE : ∀ e ∈ E, e ≤ φ a + φ b) : Above φ (x + y) E :=
  .inr ⟨a + b, fun e he => by rw [map_add]; exact hE e he, (h.1.add_lit h'.1).2⟩

/-- one axis of the bound of a ray -/
theorem rayBound_spans (hφ : StrictMono φ) (h : x.Holds a) (h' : y.Holds b) (hE : ∀ e ∈ E, ∃ t : ℝ, 0 ≤ t ∧ e = φ a + t * φ b) :
    Below φ (AABB.rayBound x y).1 E ∧ Above φ (AABB.rayBound x y).2 E := by
  have p : Fl.lt 0 y = true ↔ 0 < b := Fl.Is.klt (x := 0) rfl h'.1
  have n : Fl.lt y 0 = true ↔ b < 0 := Fl.Is.klt (y := 0) h'.1 rfl
  have z := map_zero φ
  unfold AABB.rayBound
  split
  · next c =>
    have := hφ (p.mp c)
    refine ⟨.self h fun e he => ?_, .inl rfl⟩
    obtain ⟨t, ht, rfl⟩ := hE e he
    nlinarith
  · split
    · next c =>
      have := hφ (n.mp c)
      refine ⟨.inl rfl, .self h fun e he => ?_⟩
      obtain ⟨t, ht, rfl⟩ := hE e he
      nlinarith
    · next c d =>
      have : b = 0 := le_antisymm (not_lt.mp fun q => c (p.mpr q)) (not_lt.mp fun q => d (n.mpr q))
      refine ⟨.self h fun e he => ?_, .self h fun e he => ?_⟩ <;>
      · obtain ⟨t, ht, rfl⟩ := hE e he
        rw [this, z]; simp

/-- smallest and largest of a list of coordinates, for a set in their range -/
theorem minOf_span {l : List (Fl K)} (hφ : StrictMono φ) (h0 : l ≠ []) (hl : ∀ y ∈ l, ∃ b, y.Holds b)
    (hE : ∀ c d : ℝ, (∀ y ∈ l, ∀ b, y.Holds b → c ≤ φ b ∧ φ b ≤ d) → ∀ e ∈ E, c ≤ e ∧ e ≤ d) :
    ∃ m n, minOf l = .ok m ∧ maxOf l = .ok n ∧ Below φ m E ∧ Above φ n E := by
  obtain ⟨m, h1, h2, h3⟩ := minOf_spec h0 fun y hy => (hl y hy).choose_spec.1.kne_nan
  obtain ⟨n, k1, k2, k3⟩ := maxOf_spec h0 fun y hy => (hl y hy).choose_spec.1.kne_nan
  obtain ⟨b, hb⟩ := hl m h2
  obtain ⟨c, hc⟩ := hl n k2
  have key := hE (φ b) (φ c) fun y hy d hd =>
    ⟨hφ.monotone ((hb.1.kle hd.1).mp (h3 y hy)), hφ.monotone ((hd.1.kle hc.1).mp (k3 y hy))⟩
  exact ⟨m, n, h1, k1, .self hb fun e he => (key e he).1, .self hc fun e he => (key e he).2⟩

end

theorem convex_slab (i : Fin 3) (c d : ℝ) : Convex ℝ {p : R3 | c ≤ p i ∧ p i ≤ d} := by
  intro p hp q hq s t hs ht hst
  obtain ⟨p1, p2⟩ := hp
  obtain ⟨q1, q2⟩ := hq
  have e : (s • p + t • q) i = s * p i + t * q i := rfl
  have hs' : s = 1 - t := by linarith
  show c ≤ (s • p + t • q) i ∧ (s • p + t • q) i ≤ d
  rw [e, hs']; subst hs'
  constructor <;> nlinarith

/-- the coordinates of the stored vertices of a prism -/
def TriPrism.coords (s : TriPrism K) (i : Fin 3) : List (Fl K) :=
  [s.triBase[0].val[i], s.triBase[1].val[i], s.triBase[2].val[i], s.triBase2[0].val[i], s.triBase2[1].val[i], s.triBase2[2].val[i]]

theorem prism_init_bound {l : List (Fl K)} {x : Fl K} {s : TriPrism K} (h : TriPrism.init l x = .ok s) (i : Fin 3) :
    ∃ m n, minOf (s.coords i) = .ok m ∧ maxOf (s.coords i) = .ok n ∧ s.bound.lower[i] = m ∧ s.bound.upper[i] = n := by
  have hl : l.length = 9 := by
    by_contra hne
    simp [TriPrism.init, assert, hne] at h
  rcases l with _ | ⟨a0, _ | ⟨a1, _ | ⟨a2, _ | ⟨b0, _ | ⟨b1, _ | ⟨b2, _ | ⟨c0, _ | ⟨c1, _ | ⟨c2, _ | _⟩⟩⟩⟩⟩⟩⟩⟩⟩ <;> simp at hl
  generalize hn : V3.scl (V3.nrm (V3.crs (V3.sub ⟨#v[b0, b1, b2]⟩ ⟨#v[a0, a1, a2]⟩) (V3.sub ⟨#v[c0, c1, c2]⟩ ⟨#v[a0, a1, a2]⟩))) x = n
  generalize hA : V3.add ⟨#v[a0, a1, a2]⟩ n = a'
  generalize hB : V3.add ⟨#v[b0, b1, b2]⟩ n = b'
  generalize hC : V3.add ⟨#v[c0, c1, c2]⟩ n = c'
  have hi : (minOf [a0, b0, c0, a'.val[0], b'.val[0], c'.val[0]] >>= fun xMin =>
      maxOf [a0, b0, c0, a'.val[0], b'.val[0], c'.val[0]] >>= fun xMax =>
      minOf [a1, b1, c1, a'.val[1], b'.val[1], c'.val[1]] >>= fun yMin =>
      maxOf [a1, b1, c1, a'.val[1], b'.val[1], c'.val[1]] >>= fun yMax =>
      minOf [a2, b2, c2, a'.val[2], b'.val[2], c'.val[2]] >>= fun zMin =>
      maxOf [a2, b2, c2, a'.val[2], b'.val[2], c'.val[2]] >>= fun zMax =>
      Except.ok (⟨#v[⟨#v[a0, a1, a2]⟩, ⟨#v[b0, b1, b2]⟩, ⟨#v[c0, c1, c2]⟩], #v[a', b', c'], n,
        ⟨#v[xMin, yMin, zMin], #v[xMax, yMax, zMax]⟩, defaultVicinity⟩ : TriPrism K)) =
      Except.ok s := by
    rw [← h, ← hA, ← hB, ← hC, ← hn]; rfl
  clear h hA hB hC hn
  have tot (y : Fl K) (t : List (Fl K)) : (∃ m, minOf (y :: t) = .ok m) ∧ ∃ n, maxOf (y :: t) = .ok n := ⟨⟨_, rfl⟩, ⟨_, rfl⟩⟩
  obtain ⟨⟨m0, e0⟩, ⟨n0, f0⟩⟩ := tot a0 [b0, c0, a'.val[0], b'.val[0], c'.val[0]]
  obtain ⟨⟨m1, e1⟩, ⟨n1, f1⟩⟩ := tot a1 [b1, c1, a'.val[1], b'.val[1], c'.val[1]]
  obtain ⟨⟨m2, e2⟩, ⟨n2, f2⟩⟩ := tot a2 [b2, c2, a'.val[2], b'.val[2], c'.val[2]]
  rw [e0, f0, e1, f1, e2, f2] at hi
  simp only [Res.ok_bind] at hi
  injection hi with hi
  subst hi
  fin_cases i
  · exact ⟨m0, n0, e0, f0, rfl, rfl⟩
  · exact ⟨m1, n1, e1, f1, rfl, rfl⟩
  · exact ⟨m2, n2, e2, f2, rfl, rfl⟩

/-- the box `b` spans the set `S` -/
def AABB.Spans (φ : K →+* ℝ) (b : AABB (Fl K)) (S : Set R3) : Prop :=
  ∀ i : Fin 3, Below φ b.lower[i] ((fun p : R3 => p i) '' S) ∧ Above φ b.upper[i] ((fun p : R3 => p i) '' S)

variable {φ : K →+* ℝ}

theorem Shape.MadeIn.spans (hφ : StrictMono φ) {s : Shape K} {S : Set R3} (h : s.MadeIn φ S) : s.aabb.Spans φ S := by
  cases h with
  | @point l s v c hl h =>
    obtain ⟨x, y, z, rfl, h0, h1, h2⟩ := hl
    cases h
    intro i
    fin_cases i
    · refine ⟨Below.self h0 ?_, Above.self h0 ?_⟩ <;> · rintro e ⟨p, rfl, rfl⟩; exact le_refl _
    · refine ⟨Below.self h1 ?_, Above.self h1 ?_⟩ <;> · rintro e ⟨p, rfl, rfl⟩; exact le_refl _
    · refine ⟨Below.self h2 ?_, Above.self h2 ?_⟩ <;> · rintro e ⟨p, rfl, rfl⟩; exact le_refl _
  | @ray l l' s v o d hl hl' h =>
    obtain ⟨x, y, z, rfl, h0, h1, h2⟩ := hl
    obtain ⟨x', y', z', rfl, k0, k1, k2⟩ := hl'
    cases h
    have key (i : Fin 3) : ∀ e ∈ (fun p : R3 => p i) '' rayPts (toR φ o) (toR φ d), ∃ t : ℝ, 0 ≤ t ∧ e = φ (o i) + t * φ (d i) := by
      rintro e ⟨p, ⟨t, ht, rfl⟩, rfl⟩; exact ⟨t, ht, rfl⟩
    intro i
    fin_cases i
    · exact rayBound_spans hφ h0 k0 (key 0)
    · exact rayBound_spans hφ h1 k1 (key 1)
    · exact rayBound_spans hφ h2 k2 (key 2)
  | @sphere l x s v c r hl hx h =>
    obtain ⟨x, y, z, rfl, h0, h1, h2⟩ := hl
    cases h
    have key (i : Fin 3) : ∀ e ∈ (fun p : R3 => p i) '' ballPts (toR φ c) (φ r), φ (c i) - φ r ≤ e ∧ e ≤ φ (c i) + φ r := by
      rintro e ⟨p, hp, rfl⟩; exact ball_box hp i
    intro i
    fin_cases i
    · exact ⟨Below.sub h0 hx fun e he => (key 0 e he).1, Above.add h0 hx fun e he => (key 0 e he).2⟩
    · exact ⟨Below.sub h1 hx fun e he => (key 1 e he).1, Above.add h1 hx fun e he => (key 1 e he).2⟩
    · exact ⟨Below.sub h2 hx fun e he => (key 2 e he).1, Above.add h2 hx fun e he => (key 2 e he).2⟩
  | @plane l l' s v o n hl hl' h =>
    obtain ⟨x, y, z, rfl, h0, h1, h2⟩ := hl
    obtain ⟨x', y', z', rfl, k0, k1, k2⟩ := hl'
    cases h
    intro i
    fin_cases i <;> exact ⟨.inl rfl, .inl rfl⟩
  | @box l x s v c r hl hx h =>
    obtain ⟨x, y, z, rfl, h0, h1, h2⟩ := hl
    cases h
    have key (i : Fin 3) : ∀ e ∈ (fun p : R3 => p i) '' cubePts (toR φ c) (φ r), φ (c i) - φ r ≤ e ∧ e ≤ φ (c i) + φ r := by
      rintro e ⟨p, hp, rfl⟩
      have := abs_le.mp (hp i)
      simp only [toR] at this
      constructor <;> linarith [this.1, this.2]
    intro i
    fin_cases i
    · exact ⟨Below.sub h0 hx fun e he => (key 0 e he).1, Above.add h0 hx fun e he => (key 0 e he).2⟩
    · exact ⟨Below.sub h1 hx fun e he => (key 1 e he).1, Above.add h1 hx fun e he => (key 1 e he).2⟩
    · exact ⟨Below.sub h2 hx fun e he => (key 2 e he).1, Above.add h2 hx fun e he => (key 2 e he).2⟩
  | @line l l' s v a b hl hl' h =>
    obtain ⟨x0, x1, x2, rfl, h0, h1, h2⟩ := hl
    obtain ⟨y0, y1, y2, rfl, k0, k1, k2⟩ := hl'
    have key {x y : Fl K} (i : Fin 3) (hx : x.Holds (a i)) (hy : y.Holds (b i)) := minOf_span (φ := φ) (l := [x, y])
      (E := (fun p : R3 => p i) '' segment ℝ (toR φ a) (toR φ b)) hφ (by simp) (by simp; exact ⟨⟨_, hx⟩, ⟨_, hy⟩⟩) (by
        intro c d hcd
        have e0 := hcd x (by simp) _ hx
        have e1 := hcd y (by simp) _ hy
        rintro e ⟨p, hp, rfl⟩
        have := convex_slab i c d
        exact this.segment_subset e0 e1 hp)
    obtain ⟨m0, n0, e0, f0, i0, j0⟩ := key 0 h0 k0
    obtain ⟨m1, n1, e1, f1, i1, j1⟩ := key 1 h1 k1
    obtain ⟨m2, n2, e2, f2, i2, j2⟩ := key 2 h2 k2
    have hi : (minOf [x0, y0] >>= fun xMin => maxOf [x0, y0] >>= fun xMax => minOf [x1, y1] >>= fun yMin =>
      maxOf [x1, y1] >>= fun yMax => minOf [x2, y2] >>= fun zMin => maxOf [x2, y2] >>= fun zMax =>
      Except.ok (⟨⟨#v[x0, x1, x2]⟩, ⟨#v[y0, y1, y2]⟩, ⟨#v[xMin, yMin, zMin], #v[xMax, yMax, zMax]⟩, defaultVicinity⟩ : Line3 K)) =
      Except.ok s := h
    rw [e0, f0, e1, f1, e2, f2] at hi
    simp only [Res.ok_bind] at hi
    injection hi with hi
    subst hi
    intro i
    fin_cases i
    · exact ⟨i0, j0⟩
    · exact ⟨i1, j1⟩
    · exact ⟨i2, j2⟩
  | @triPrism l x s v A B h ha hb =>
    have key (i : Fin 3) := minOf_span (φ := φ) (l := TriPrism.coords s i)
      (E := (fun p : R3 => p i) '' convexHull ℝ ({p | ∃ j, p = toR φ (A j)} ∪ {p | ∃ j, p = toR φ (B j)})) hφ (by simp [TriPrism.coords]) (by
        simp only [TriPrism.coords, List.mem_cons, List.not_mem_nil, or_false, forall_eq_or_imp, forall_eq]
        exact ⟨⟨_, ha 0 i⟩, ⟨_, ha 1 i⟩, ⟨_, ha 2 i⟩, ⟨_, hb 0 i⟩, ⟨_, hb 1 i⟩, ⟨_, hb 2 i⟩⟩) (by
        simp only [TriPrism.coords, List.mem_cons, List.not_mem_nil, or_false, forall_eq_or_imp, forall_eq]
        rintro c d ⟨g0, g1, g2, g3, g4, g5⟩
        have : convexHull ℝ ({p | ∃ j, p = toR φ (A j)} ∪ {p | ∃ j, p = toR φ (B j)}) ⊆ {p : R3 | c ≤ p i ∧ p i ≤ d} := by
          refine convexHull_min ?_ (convex_slab i c d)
          rintro p (⟨j, rfl⟩ | ⟨j, rfl⟩)
          · fin_cases j
            · exact g0 _ (ha 0 i)
            · exact g1 _ (ha 1 i)
            · exact g2 _ (ha 2 i)
          · fin_cases j
            · exact g3 _ (hb 0 i)
            · exact g4 _ (hb 1 i)
            · exact g5 _ (hb 2 i)
        rintro e ⟨p, hp, rfl⟩
        exact this hp)
    intro i
    obtain ⟨m, n, e, f, hm, hn⟩ := key i
    obtain ⟨m', n', e', f', hs⟩ := prism_init_bound h i
    rw [e] at e'; rw [f] at f'
    cases e'; cases f'
    have q : (Shape.triPrism { s with vicinity := v }).aabb = s.bound := rfl
    rw [q, hs.1, hs.2]; exact ⟨hm, hn⟩

variable (hφ : StrictMono φ)
include hφ

/-- C60: the bound of a constructed shape contains every representable point of the exact shape.  (Points that are not
representable may lie outside: `C60_encloses_false`.) -/
theorem C60_encloses (s : Shape K) (S : Set R3) (h : s.MadeIn φ S) :
    ∃ b, s.getBound = .aabb b ∧ ∀ p : Fin 3 → K, (∀ i, Fl.Rep (p i)) → toR φ p ∈ S → b.Has fun i => .fin (p i) := by
  refine ⟨_, Shape.getBound_eq s, fun p hp hS i => ?_⟩
  have hpt : (Fl.fin (p i)).Holds (p i) := ⟨rfl, hp i⟩
  have he : toR φ p i ∈ (fun q : R3 => q i) '' S := ⟨_, hS, rfl⟩
  obtain ⟨h1, h2⟩ := h.spans hφ i
  exact ⟨h1.meets hφ (.self (E := {toR φ p i}) hpt (by rintro e rfl; exact le_refl _)) he rfl,
    Below.meets hφ (.self (E := {toR φ p i}) hpt (by rintro e rfl; exact le_refl _)) h2 rfl he⟩

/-- C60: the bounding pre-test of two constructed shapes whose exact point sets have a common point (representable or not)
is passed. -/
theorem C60_pretest (s t : Shape K) (S T : Set R3) (hs : s.MadeIn φ S) (ht : t.MadeIn φ T) (h : (S ∩ T).Nonempty) :
    s.getBound.intersect t.getBound = .ok true := by
  obtain ⟨p, h1, h2⟩ := h
  rw [Shape.getBound_eq, Shape.getBound_eq, AABB.intersect_eq]
  refine congrArg _ ((AABB.overlap_iff _ _).mpr fun i => ?_)
  have a := (hs.spans hφ i).1.meets hφ (ht.spans hφ i).2 ⟨p, h1, rfl⟩ ⟨p, h2, rfl⟩
  have b := (ht.spans hφ i).1.meets hφ (hs.spans hφ i).2 ⟨p, h2, rfl⟩ ⟨p, h1, rfl⟩
  exact ⟨by rw [Fl.lt_eq_not_le (Fl.le_ne_nan a).2 (Fl.le_ne_nan a).1, a]; rfl,
    by rw [Fl.lt_eq_not_le (Fl.le_ne_nan b).2 (Fl.le_ne_nan b).1, b]; rfl⟩

/-- C60: a constructed bound is never inverted unless the shape is empty, and never NaN. -/
theorem C60_valid (s : Shape K) (S : Set R3) (h : s.MadeIn φ S) (h0 : S.Nonempty) :
    ∃ b, s.getBound = .aabb b ∧ b.Valid ∧ b.NoNan := by
  obtain ⟨p, hp⟩ := h0
  have key (i : Fin 3) := (h.spans hφ i).1.meets hφ (h.spans hφ i).2 ⟨p, hp, rfl⟩ ⟨p, hp, rfl⟩
  exact ⟨_, Shape.getBound_eq s, key, fun i => Fl.le_ne_nan (key i)⟩

end

/-! ### f64 -/

/-- the sphere with centre (1, 0, 0) and radius `2^-60`: the upper bound `1 + 2^-60` is rounded to `1` -/
def tinySphere : Sphere Q64 :=
  { ori := ⟨#v[.fin (1 : ℚ), .fin (0 : ℚ), .fin (0 : ℚ)]⟩, radius := .fin (Bin.pow2 (-60)),
    bound := ⟨#v[.fin (1 : ℚ), .fin (-Bin.pow2 (-60)), .fin (-Bin.pow2 (-60))],
      #v[.fin (1 : ℚ), .fin (Bin.pow2 (-60)), .fin (Bin.pow2 (-60))]⟩,
    vicinity := defaultVicinity }

theorem mem_ball_axis {K : Type} [Field K] [LinearOrder K] [IsStrictOrderedRing K] {φ : K →+* ℝ} (hφ : StrictMono φ) {v : K} (h : 0 ≤ v) :
    toR φ ![1 + v, 0, 0] ∈ ballPts (toR φ ![1, 0, 0]) (φ v) := by
  have e : toR φ ![1 + v, 0, 0] - toR φ ![1, 0, 0] = Pi.single 0 (φ v) := by
    ext i
    fin_cases i <;> simp [toR]
  have h0 : 0 ≤ φ v := by rw [← map_zero φ]; exact hφ.monotone h
  show euc _ ≤ _
  rw [e, euc_single, abs_of_nonneg h0]

theorem tinySphere_made : (Shape.sphere tinySphere).MadeIn BinQ.real
    (ballPts (toR BinQ.real (![(1 : ℚ), (0 : ℚ), (0 : ℚ)] : Fin 3 → Q64)) ((BinQ.real : Q64 →+* ℝ) (Bin.pow2 (-60)))) :=
  Shape.MadeIn.sphere (K := Q64) (l := [.fin (1 : ℚ), .fin (0 : ℚ), .fin (0 : ℚ)]) (x := .fin (Bin.pow2 (-60))) (s := tinySphere)
    ⟨_, _, _, rfl, ⟨rfl, .inr (by decide +kernel)⟩, ⟨rfl, .inl rfl⟩, ⟨rfl, .inl rfl⟩⟩ ⟨rfl, .inr (by decide +kernel)⟩
    (by decide +kernel)

theorem unitPoint_made : (Shape.point ⟨⟨#v[.fin (1 : ℚ), .fin (0 : ℚ), .fin (0 : ℚ)]⟩,
      ⟨#v[.fin (1 : ℚ), .fin (0 : ℚ), .fin (0 : ℚ)], #v[.fin (1 : ℚ), .fin (0 : ℚ), .fin (0 : ℚ)]⟩, defaultVicinity⟩ : Shape Q64).MadeIn
    BinQ.real {toR BinQ.real (![(1 : ℚ), (0 : ℚ), (0 : ℚ)] : Fin 3 → Q64)} :=
  Shape.MadeIn.point (K := Q64) (c := ![(1 : ℚ), (0 : ℚ), (0 : ℚ)]) (l := [.fin (1 : ℚ), .fin (0 : ℚ), .fin (0 : ℚ)])
    ⟨_, _, _, rfl, ⟨rfl, .inr (by decide +kernel)⟩, ⟨rfl, .inl rfl⟩, ⟨rfl, .inl rfl⟩⟩ rfl

/-- concrete case of `C60_pretest`: the bounds of a point and of a sphere around it overlap -/
example : ((Shape.point ⟨⟨#v[.fin (1 : ℚ), .fin (0 : ℚ), .fin (0 : ℚ)]⟩,
      ⟨#v[.fin (1 : ℚ), .fin (0 : ℚ), .fin (0 : ℚ)], #v[.fin (1 : ℚ), .fin (0 : ℚ), .fin (0 : ℚ)]⟩, defaultVicinity⟩ : Shape Q64).getBound.intersect
    (Shape.sphere tinySphere).getBound) = .ok true := by
  refine C60_pretest BinQ.real_strictMono _ _ _ _ unitPoint_made tinySphere_made ⟨_, rfl, ?_⟩
  have h0 : (0 : ℝ) ≤ (BinQ.real : Q64 →+* ℝ) (Bin.pow2 (-60)) := by
    rw [← map_zero (BinQ.real : Q64 →+* ℝ)]; exact BinQ.real_strictMono.monotone (Bin.pow2_pos (-60)).le
  show euc _ ≤ _
  rw [sub_self, (euc_eq_zero _).mpr rfl]; exact h0

/-- concrete cases of `C60_encloses` and `C60_valid` -/
example := And.intro (C60_encloses BinQ.real_strictMono _ _ tinySphere_made) (C60_valid BinQ.real_strictMono _ _ unitPoint_made ⟨_, rfl⟩)

theorem listA : ListIn (K := Q64) [.fin 1, .fin 2, .fin 3] A123 := ⟨_, _, _, rfl, a123_holds 0, a123_holds 1, a123_holds 2⟩
theorem listB : ListIn (K := Q64) [.fin (-4), .fin 0, .fin 5] B405 := ⟨_, _, _, rfl, b405_holds 0, b405_holds 1, b405_holds 2⟩

/-- C60: the bound need not contain the points of the exact shape that are not representable (f64). -/
theorem C60_encloses_false : ¬ ∀ (s : Shape Q64) (S : Set R3), s.MadeIn BinQ.real S →
    ∃ b, s.getBound = .aabb b ∧ ∀ p : Fin 3 → Q64, toR BinQ.real p ∈ S → b.Has fun i => .fin (p i) := by
  intro h
  obtain ⟨b, hb, hp⟩ := h _ _ tinySphere_made
  cases hb
  have h0 : (0 : Q64) ≤ Bin.pow2 (-60) := (Bin.pow2_pos (-60)).le
  have := (hp ![(1 + Bin.pow2 (-60) : ℚ), (0 : ℚ), (0 : ℚ)] (mem_ball_axis BinQ.real_strictMono h0) 0).2
  have h1 : ((1 : ℚ) + Bin.pow2 (-60) ≤ 1) := of_decide_eq_true this
  linarith [Bin.pow2_pos (-60)]

end Mazth
