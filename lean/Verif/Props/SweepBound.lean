import Verif.Props.Monotone
import Verif.Props.BoundNest

/-!
# C116: the bounds of a moved ball or box, with rounding

A client moves a ball (or a box) from one position to another and discards every shape whose bounds do not meet the union of the bounds
at the two ends.
-/

set_option linter.unusedSectionVars false
set_option autoImplicit false

namespace Mazth

variable {K : Type} [Field K] [LinearOrder K] [IsStrictOrderedRing K] [Fmt K] [LawfulFmt K]

/-- `y` is between `x` and `z` -/
def Fl.Between (x y z : Fl K) : Prop := (Fl.le x y = true ∧ Fl.le y z = true) ∨ (Fl.le z y = true ∧ Fl.le y x = true)

/-- the slice `m` is in the box spanned by the slices `l` and `l'` -/
def BetweenList (l m l' : List (Fl K)) : Prop := l.length = 3 ∧ m.length = 3 ∧ l'.length = 3 ∧
  ∀ i : Fin 3, Fl.Between (l.getD i 0) (m.getD i 0) (l'.getD i 0)

theorem Fl.add_fin_ne_nan {x r : Fl K} (hx : x ≠ .nan) (hr : r.Finite) : x + r ≠ .nan := by
  intro h
  obtain ⟨v, hv⟩ := hr
  rcases Fl.add_nan_cases h with h | h | ⟨s, -, h⟩
  · exact hx h
  · subst h; simp [Fl.Is, Fl.val] at hv
  · subst h; simp [Fl.Is, Fl.val] at hv

theorem Fl.Finite.neg' {r : Fl K} (hr : r.Finite) : (-r).Finite := by
  obtain ⟨v, hv⟩ := hr
  cases r with
  | nan => simp [Fl.Is, Fl.val] at hv
  | inf s => simp [Fl.Is, Fl.val] at hv
  | nzero => exact ⟨0, rfl⟩
  | fin w =>
    show (if w = 0 then .nzero else .fin (-w) : Fl K).Finite
    split <;> exact ⟨_, rfl⟩

theorem Fl.lt_self (x : Fl K) : Fl.lt x x = false := by
  by_cases hx : x = .nan
  · subst hx; rfl
  · by_contra h
    have h := Bool.eq_true_of_not_eq_false h
    have h' := Fl.lt_eq_not_le hx hx
    rw [h, Fl.le_refl hx] at h'
    simp at h'

/-- rounding keeps the order of sums -/
theorem Fl.add_le_mono {x y r : Fl K} (h : Fl.le x y = true) (hr : r.Finite) : Fl.le (x + r) (y + r) = true := by
  have hn := Fl.le_ne_nan h
  have h1 := Fl.add_fin_ne_nan hn.1 hr
  have h2 := Fl.add_fin_ne_nan hn.2 hr
  by_contra hc
  have hlt : Fl.lt (y + r) (x + r) = true := by rw [Fl.lt_eq_not_le h2 h1, Bool.not_eq_true']; exact Bool.eq_false_of_not_eq_true hc
  rw [Fl.add_comm' y] at hlt
  have := Fl.add_lt_mono h hlt
  rw [Fl.add_comm' x, Fl.lt_self] at this
  exact Bool.false_ne_true this

theorem between_cases {x y z r lo hi : Fl K} (h : Fl.Between x y z) (hr : r.Finite)
    (h1 : x - r ≠ .nan → Fl.le lo (x - r) = true) (h2 : x + r ≠ .nan → Fl.le (x + r) hi = true)
    (h3 : z - r ≠ .nan → Fl.le lo (z - r) = true) (h4 : z + r ≠ .nan → Fl.le (z + r) hi = true) :
    Fl.le lo (y - r) = true ∧ Fl.le (y + r) hi = true := by
  have hr' := hr.neg'
  rw [Fl.sub_eq] at *
  rcases h with ⟨a, b⟩ | ⟨a, b⟩
  · exact ⟨Fl.le_trans (h1 (Fl.add_fin_ne_nan (Fl.le_ne_nan a).1 hr')) (Fl.add_le_mono a hr'),
      Fl.le_trans (Fl.add_le_mono b hr) (h4 (Fl.add_fin_ne_nan (Fl.le_ne_nan b).2 hr))⟩
  · exact ⟨Fl.le_trans (h3 (Fl.add_fin_ne_nan (Fl.le_ne_nan a).1 hr')) (Fl.add_le_mono a hr'),
      Fl.le_trans (Fl.add_le_mono b hr) (h2 (Fl.add_fin_ne_nan (Fl.le_ne_nan b).2 hr))⟩

/-- the bounds about a point between are within the union of the bounds about the ends -/
theorem swept_within {x y z x' y' z' x'' y'' z'' r : Fl K} {old U : AABB (Fl K)} (hr : r.Finite)
    (hx : Fl.Between x x' x'') (hy : Fl.Between y y' y'') (hz : Fl.Between z z' z'')
    (hU : IBound.getUnion (.aabb old) [.aabb ⟨#v[x - r, y - r, z - r], #v[x + r, y + r, z + r]⟩,
      .aabb ⟨#v[x'' - r, y'' - r, z'' - r], #v[x'' + r, y'' + r, z'' + r]⟩] = .ok (.aabb U)) :
    AABB.WithinNan ⟨#v[x' - r, y' - r, z' - r], #v[x' + r, y' + r, z' + r]⟩ U ∧
      AABB.NoNan ⟨#v[x' - r, y' - r, z' - r], #v[x' + r, y' + r, z' + r]⟩ := by
  set A : AABB (Fl K) := ⟨#v[x - r, y - r, z - r], #v[x + r, y + r, z + r]⟩ with hA
  set B : AABB (Fl K) := ⟨#v[x'' - r, y'' - r, z'' - r], #v[x'' + r, y'' + r, z'' + r]⟩ with hB
  have n : AABB.Nest [A, B] U := .node old [([A], A), ([B], B)] U (fun p hp => by
    rcases List.mem_pair.mp hp with rfl | rfl <;> exact .leaf _) hU
  have wA := Nest.encloses n A (by simp)
  have wB := Nest.encloses n B (by simp)
  have cx := between_cases hx hr (wA 0).1 (wA 0).2 (wB 0).1 (wB 0).2
  have cy := between_cases hy hr (wA 1).1 (wA 1).2 (wB 1).1 (wB 1).2
  have cz := between_cases hz hr (wA 2).1 (wA 2).2 (wB 2).1 (wB 2).2
  constructor
  · intro i
    fin_cases i
    · exact ⟨fun _ => cx.1, fun _ => cx.2⟩
    · exact ⟨fun _ => cy.1, fun _ => cy.2⟩
    · exact ⟨fun _ => cz.1, fun _ => cz.2⟩
  · intro i
    fin_cases i
    · exact ⟨(Fl.le_ne_nan cx.1).2, (Fl.le_ne_nan cx.2).1⟩
    · exact ⟨(Fl.le_ne_nan cy.1).2, (Fl.le_ne_nan cy.2).1⟩
    · exact ⟨(Fl.le_ne_nan cz.1).2, (Fl.le_ne_nan cz.2).1⟩

theorem swept_query {a t : Shape K} {U : AABB (Fl K)} {q : Option (V3 K)} {n : ℕ} (w : a.aabb.WithinNan U ∧ a.aabb.NoNan)
    (h : Shape.getIntersect (n + 2) a t = .ok (true, q)) : IBound.intersect (.aabb U) t.getBound = .ok true := by
  rw [getIntersect_eq] at h
  have ho : AABB.overlap a.aabb t.aabb = true := by
    by_contra hc
    rw [if_neg hc] at h
    simp at h
  rw [Shape.getBound_eq, AABB.intersect_eq, AABB.overlap_comm, ← AABB.intersect_eq]
  exact Nest.overlap_mono w.1 w.2 (by rw [AABB.intersect_eq, AABB.overlap_comm, ho])

theorem between_three {l m l' : List (Fl K)} {x y z x' y' z' x'' y'' z'' : Fl K} (h : BetweenList l m l') (h1 : l = [x, y, z])
    (h2 : m = [x', y', z']) (h3 : l' = [x'', y'', z'']) : Fl.Between x x' x'' ∧ Fl.Between y y' y'' ∧ Fl.Between z z' z'' := by
  subst h1 h2 h3
  exact ⟨h.2.2.2 0, h.2.2.2 1, h.2.2.2 2⟩

/-- C116, in every lawful format: if a ball of finite radius at any position in the box spanned by two ends is reported to meet a
shape, then the union of the bounds of the ball at the two ends meets the bounds of that shape. Rounding does not lose a hit. -/
theorem C116_sphere (l m l' : List (Fl K)) (r : Fl K) (s a s' : Sphere K) (t : Shape K) (old U : AABB (Fl K)) (q : Option (V3 K)) (n : ℕ)
    (hs : Sphere.init l r = .ok s) (ha : Sphere.init m r = .ok a) (hs' : Sphere.init l' r = .ok s') (hr : r.Finite)
    (hm : BetweenList l m l') (hU : IBound.getUnion (.aabb old) [(Shape.sphere s).getBound, (Shape.sphere s').getBound] = .ok (.aabb U))
    (hq : Shape.getIntersect (n + 2) (.sphere a) t = .ok (true, q)) : IBound.intersect (.aabb U) t.getBound = .ok true := by
  obtain ⟨x, y, z, e1, -, -, b1⟩ := sphere_init_eq hs
  obtain ⟨x', y', z', e2, -, -, b2⟩ := sphere_init_eq ha
  obtain ⟨x'', y'', z'', e3, -, -, b3⟩ := sphere_init_eq hs'
  obtain ⟨c1, c2, c3⟩ := between_three hm e1 e2 e3
  rw [Shape.getBound_eq, Shape.getBound_eq, show (Shape.sphere s).aabb = s.bound from rfl,
    show (Shape.sphere s').aabb = s'.bound from rfl, b1, b3] at hU
  have w := swept_within hr c1 c2 c3 hU
  rw [← b2] at w
  exact swept_query (a := .sphere a) w hq

/-- C116: the same for a box. -/
theorem C116_box (l m l' : List (Fl K)) (r : Fl K) (s a s' : RecBox K) (t : Shape K) (old U : AABB (Fl K)) (q : Option (V3 K)) (n : ℕ)
    (hs : RecBox.init l r = .ok s) (ha : RecBox.init m r = .ok a) (hs' : RecBox.init l' r = .ok s') (hr : r.Finite)
    (hm : BetweenList l m l') (hU : IBound.getUnion (.aabb old) [(Shape.box s).getBound, (Shape.box s').getBound] = .ok (.aabb U))
    (hq : Shape.getIntersect (n + 2) (.box a) t = .ok (true, q)) : IBound.intersect (.aabb U) t.getBound = .ok true := by
  obtain ⟨x, y, z, e1, -, -, b1⟩ := box_init_eq hs
  obtain ⟨x', y', z', e2, -, -, b2⟩ := box_init_eq ha
  obtain ⟨x'', y'', z'', e3, -, -, b3⟩ := box_init_eq hs'
  obtain ⟨c1, c2, c3⟩ := between_three hm e1 e2 e3
  rw [Shape.getBound_eq, Shape.getBound_eq, show (Shape.box s).aabb = s.bound from rfl,
    show (Shape.box s').aabb = s'.bound from rfl, b1, b3] at hU
  have w := swept_within hr c1 c2 c3 hU
  rw [← b2] at w
  exact swept_query (a := .box a) w hq

/-- the premises hold in binary64: the ball of radius `1/2` at `(1, 1/4, 2)`, between `(0,0,3)` and `(4,1,-1)`, meets the point
`(1, 1/8, 2)` -/
example : ∃ (s a s' : Sphere Q64) (t : Point3 Q64) (U : AABB (Fl Q64)),
    Sphere.init [0, 0, .fin 3] (.fin (1 / 2)) = .ok s ∧ Sphere.init [1, .fin (1 / 4), .fin 2] (.fin (1 / 2)) = .ok a ∧
    Sphere.init [.fin 4, 1, .fin (-1)] (.fin (1 / 2)) = .ok s' ∧ Point3.init [1, .fin (1 / 8), .fin 2] = .ok t ∧
    BetweenList (K := Q64) [0, 0, .fin 3] [1, .fin (1 / 4), .fin 2] [.fin 4, 1, .fin (-1)] ∧
    IBound.getUnion (.aabb s.bound) [(Shape.sphere s).getBound, (Shape.sphere s').getBound] = .ok (.aabb U) ∧
    (Shape.getIntersect 2 (.sphere a) (.point t)).map Prod.fst = .ok true ∧ IBound.intersect (.aabb U) (Shape.point t).getBound = .ok true := by
  refine ⟨_, _, _, _, ⟨#v[.fin (-1 / 2 : ℚ), .fin (-1 / 2 : ℚ), .fin (-3 / 2 : ℚ)], #v[.fin (9 / 2 : ℚ), .fin (3 / 2 : ℚ), .fin (7 / 2 : ℚ)]⟩,
    rfl, rfl, rfl, rfl, ⟨rfl, rfl, rfl, ?_⟩, by decide +kernel, by decide +kernel, by decide +kernel⟩
  intro i
  fin_cases i
  · exact .inl ⟨by decide +kernel, by decide +kernel⟩
  · exact .inl ⟨by decide +kernel, by decide +kernel⟩
  · exact .inr ⟨by decide +kernel, by decide +kernel⟩

/-- the premises hold for a box: the cube of half edge 1 at `(2,0,0)`, between the origin and `(5,0,0)`, meets the point `(5/2,0,0)` -/
example : ∃ (s a s' : RecBox Q64) (t : Point3 Q64) (U : AABB (Fl Q64)),
    RecBox.init [0, 0, 0] 1 = .ok s ∧ RecBox.init [.fin 2, 0, 0] 1 = .ok a ∧ RecBox.init [.fin 5, 0, 0] 1 = .ok s' ∧
    Point3.init [.fin (5 / 2), 0, 0] = .ok t ∧ BetweenList (K := Q64) [0, 0, 0] [.fin 2, 0, 0] [.fin 5, 0, 0] ∧
    IBound.getUnion (.aabb s.bound) [(Shape.box s).getBound, (Shape.box s').getBound] = .ok (.aabb U) ∧
    (Shape.getIntersect 2 (.box a) (.point t)).map Prod.fst = .ok true ∧ IBound.intersect (.aabb U) (Shape.point t).getBound = .ok true := by
  refine ⟨_, _, _, _, ⟨#v[.fin (-1 : ℚ), .fin (-1 : ℚ), .fin (-1 : ℚ)], #v[.fin (6 : ℚ), .fin (1 : ℚ), .fin (1 : ℚ)]⟩,
    rfl, rfl, rfl, rfl, ⟨rfl, rfl, rfl, ?_⟩, by decide +kernel, by decide +kernel, by decide +kernel⟩
  intro i
  fin_cases i <;> exact .inl ⟨by decide +kernel, by decide +kernel⟩

/-- `3 * 2^-54` and `2^-52` -/
def shortEnd : Q64 := (3 / 2 ^ 54 : ℚ)
def longEnd : Q64 := (1 / 2 ^ 52 : ℚ)

/-- C116: that the position is between the ends is needed, and a client that computes it does not get it for free: going from `(-1,0,0)`
the whole way to `(3 * 2^-54, 0, 0)`, as `o + 1 * (o' - o)`, arrives beyond the end, at `(2^-52, 0, 0)`; the ball of radius 0 there meets
the point there, which the union of the bounds at the two ends misses. -/
theorem C116_computed_false : ∃ (o o' d e p : V3 Q64) (s a s' : Sphere Q64) (t : Point3 Q64) (U : AABB (Fl Q64)),
    o = ⟨#v[.fin (-1 : ℚ), 0, 0]⟩ ∧ o' = ⟨#v[.fin shortEnd, 0, 0]⟩ ∧ o'.minus o = some d ∧ d.scale 1 = some e ∧ e.plus o = some p ∧
    Sphere.init [o.val[0], o.val[1], o.val[2]] 0 = .ok s ∧ Sphere.init [p.val[0], p.val[1], p.val[2]] 0 = .ok a ∧
    Sphere.init [o'.val[0], o'.val[1], o'.val[2]] 0 = .ok s' ∧ Point3.init [.fin longEnd, 0, 0] = .ok t ∧
    IBound.getUnion (.aabb s.bound) [(Shape.sphere s).getBound, (Shape.sphere s').getBound] = .ok (.aabb U) ∧
    (Shape.getIntersect 2 (.sphere a) (.point t)).map Prod.fst = .ok true ∧
    IBound.intersect (.aabb U) (Shape.point t).getBound = .ok false := by
  refine ⟨_, _, _, _, _, _, _, _, _, ⟨#v[.fin (-1 : ℚ), 0, 0], #v[.fin shortEnd, 0, 0]⟩, rfl, rfl, rfl, rfl, rfl, rfl, rfl, rfl, rfl,
    by decide +kernel, by decide +kernel, by decide +kernel⟩

end Mazth
