import Verif.Props.GjkScale
import Verif.Props.Mirror

/-!
# C96: the collision query of mirrored spheres

The GJK query starts along the first axis, in the negative direction.  Mirroring two spheres in the other two axes gives the same
answer after the same number of turns.  Mirroring in the first axis does so if the two spheres change places as well, but not alone.
-/

set_option linter.unusedSectionVars false
set_option autoImplicit false

namespace Mazth

open Bin Gjk
open Fl (Same flip)

namespace GjkMirror

open GjkScale (WFv sup support_eq wfv_scl wfv_crs none_bind step_no step_yes)

variable {τ : Fin 3 → Bool}

/-- for mirrored directions the support points of the two pairs are mirrored -/
def SupMir (τ : Fin 3 → Bool) (a b a' b' : Shape Q64) : Prop := ∀ {d d' : V3 Q64}, V3.Mir τ d d' → WFv d → WFv d' →
  (support a b d = .ok none ∧ support a' b' d' = .ok none) ∨
    ∃ x x', support a b d = .ok (some x) ∧ support a' b' d' = .ok (some x') ∧ V3.Mir τ x x'

theorem tri_mir {u v u' v' : V3 Q64} (h : V3.Mir τ u u') (k : V3.Mir τ v v') :
    V3.Mir τ (V3.crs (V3.crs u v) v) (V3.crs (V3.crs u' v') v') := by
  have h1 := h.crs k
  have m {i j l : Fin 3} (e : ((V3.odd τ ^^ τ i) ^^ τ j) = τ l) (e' : ((V3.odd τ ^^ τ j) ^^ τ i) = τ l) {x x' y y' z z' w w' : Fl Q64}
      (h : Same x' (flip (V3.odd τ ^^ τ i) x)) (k : Same y' (flip (τ j) y))
      (h' : Same z' (flip (V3.odd τ ^^ τ j) z)) (k' : Same w' (flip (τ i) w)) : Same (x' * y' - z' * w') (flip (τ l) (x * y - z * w)) := by
    refine ((h.mul k).sub (h'.mul k')).trans ?_
    rw [Fl.flip_mul, Fl.flip_mul, e, e']; exact Fl.flip_sub _ _
  refine ⟨m (i := 1) (j := 2) (l := 0) ?_ ?_ h1.2.1 k.2.2 h1.2.2 k.2.1, m (i := 2) (j := 0) (l := 1) ?_ ?_ h1.2.2 k.1 h1.1 k.2.2,
    m (i := 0) (j := 1) (l := 2) ?_ ?_ h1.1 k.2.1 h1.2.1 k.1⟩ <;> unfold V3.odd <;> cases τ 0 <;> cases τ 1 <;> cases τ 2 <;> rfl

theorem loop_mir {a b a' b' : Shape Q64} (H : SupMir τ a b a' b') (n : ℕ) : ∀ {l l' : List (V3 Q64)} {d d' : V3 Q64},
    l.length = 1 ∨ l.length = 2 → List.Forall₂ (V3.Mir τ) l l' → V3.Mir τ d d' → WFv d → WFv d' →
    queryLoop a' b' n l' d' = queryLoop a b n l d := by
  induction n with
  | zero => intros; rfl
  | succ n ih =>
    intro l l' d d' hl hp hd w w'
    have hll := hp.length_eq
    rcases H hd w w' with ⟨e, e'⟩ | ⟨x, x', e, e', hs⟩
    · rw [queryLoop, queryLoop, e, e', Res.ok_bind, Res.ok_bind, none_bind, none_bind]
    · rw [queryLoop_succ _ _ n l (by omega) d x e, queryLoop_succ _ _ n l' (by omega) d' x' e', Fl.lt_same (.refl _) (hs.dot hd)]
      cases Fl.lt 0 (V3.dotp x d)
      · rw [if_neg Bool.false_ne_true, if_neg Bool.false_ne_true]
      · rw [if_pos rfl, if_pos rfl]
        have ho := hs.scl (.refl (-1 : Fl Q64))
        rcases hl with hl | hl
        · obtain ⟨p, rfl⟩ := List.length_eq_one_iff.mp hl
          obtain ⟨p', rfl⟩ := List.length_eq_one_iff.mp (hll ▸ hl)
          cases hp with
          | cons hp _ =>
          rw [List.singleton_append, List.singleton_append, contains2, contains2]
          have hD := tri_mir (hp.sub hs) ho
          rw [hD.mag]
          cases Fl.feq (V3.mag (V3.crs (V3.crs (V3.sub p x) (V3.scl x (-1))) (V3.scl x (-1)))) 0
          · rw [if_neg Bool.false_ne_true, if_neg Bool.false_ne_true, step_no, step_no]
            exact ih (.inr rfl) (.cons hp (.cons hs .nil)) hD (wfv_crs _ _) (wfv_crs _ _)
          · rw [if_pos rfl, if_pos rfl, step_yes, step_yes]
        · obtain ⟨p, q, rfl⟩ := List.length_eq_two.mp hl
          obtain ⟨p', q', rfl⟩ := List.length_eq_two.mp (hll ▸ hl)
          cases hp with
          | cons hp hq =>
          cases hq with
          | cons hq _ =>
          rw [List.cons_append, List.singleton_append, List.cons_append, List.singleton_append, contains3, contains3]
          have hD1 := tri_mir (hp.sub hs) (hq.sub hs)
          have hD2 := tri_mir (hq.sub hs) (hp.sub hs)
          rw [Fl.lt_same (.refl _) (hD1.dot ho), Fl.lt_same (.refl _) (hD2.dot ho)]
          cases Fl.lt 0 (V3.dotp (V3.crs (V3.crs (V3.sub p x) (V3.sub q x)) (V3.sub q x)) (V3.scl x (-1)))
          · cases Fl.lt 0 (V3.dotp (V3.crs (V3.crs (V3.sub q x) (V3.sub p x)) (V3.sub p x)) (V3.scl x (-1)))
            · rw [if_neg Bool.false_ne_true, if_neg Bool.false_ne_true, if_neg Bool.false_ne_true, if_neg Bool.false_ne_true, step_yes, step_yes]
            · rw [if_neg Bool.false_ne_true, if_neg Bool.false_ne_true, if_pos rfl, if_pos rfl, step_no, step_no]
              exact ih (.inr rfl) (.cons hp (.cons hs .nil)) hD2 (wfv_crs _ _) (wfv_crs _ _)
          · rw [if_pos rfl, if_pos rfl, step_no, step_no]
            exact ih (.inr rfl) (.cons hq (.cons hs .nil)) hD1 (wfv_crs _ _) (wfv_crs _ _)

/-- the support points of mirrored balls -/
theorem balls_mir {s t s' t' : Sphere Q64} (hs : V3.Mir τ s.ori s'.ori) (rs : s'.radius = s.radius) (ht : V3.Mir τ t.ori t'.ori)
    (rt : t'.radius = t.radius) : SupMir τ (.sphere s) (.sphere t) (.sphere s') (.sphere t') := by
  intro d d' hd w w'
  rw [support_eq s t w, support_eq s' t' w', hd.mag]
  cases Fl.feq (V3.mag d) 0
  · right
    refine ⟨_, _, rfl, rfl, ?_⟩
    have hn := hd.nrm
    have m {b : Bool} {p p' q q' n n' : Fl Q64} (r r' : Fl Q64) (hp : Same p' (flip b p)) (hq : Same q' (flip b q)) (hn : Same n' (flip b n)) :
        Same ((p' + n' * r) - (q' + -n' * r')) (flip b ((p + n * r) - (q + -n * r'))) := by
      have h1 : Same (n' * r) (flip b (n * r)) := by
        refine (hn.mul (.refl r)).trans ?_
        rw [Fl.flip_mul_left]; exact .refl _
      have h2 : Same (-n' * r') (flip b (-n * r')) := by
        refine ((hn.neg).mul (.refl r')).trans ?_
        rw [← Fl.flip_mul_left]
        cases b <;> exact .refl _
      exact (((hp.add h1).trans (Fl.flip_add _ _)).sub ((hq.add h2).trans (Fl.flip_add _ _))).trans (Fl.flip_sub _ _)
    unfold sup
    rw [rs, rt]
    exact ⟨m _ _ hs.1 ht.1 hn.1, m _ _ hs.2.1 ht.2.1 hn.2.1, m _ _ hs.2.2 ht.2.2 hn.2.2⟩
  · exact .inl ⟨rfl, rfl⟩

/-- the support points of mirrored balls that have changed places: mirrored in the other axes -/
theorem balls_swap {σ : Fin 3 → Bool} {s t s' t' : Sphere Q64} (hs : V3.Mir σ s.ori s'.ori) (rs : s'.radius = s.radius) (ht : V3.Mir σ t.ori t'.ori)
    (rt : t'.radius = t.radius) : SupMir (fun i => !σ i) (.sphere s) (.sphere t) (.sphere t') (.sphere s') := by
  intro d d' hd w w'
  rw [support_eq s t w, support_eq t' s' w', hd.mag]
  cases Fl.feq (V3.mag d) 0
  · right
    refine ⟨_, _, rfl, rfl, ?_⟩
    have hn := hd.nrm
    have m {b : Bool} {p p' q q' n n' : Fl Q64} (r r' : Fl Q64) (hp : Same p' (flip b p)) (hq : Same q' (flip b q)) (hn : Same n' (flip (!b) n)) :
        Same ((q' + n' * r') - (p' + -n' * r)) (flip (!b) ((p + n * r) - (q + -n * r'))) := by
      have h1 : Same (n' * r') (flip b (-n * r')) := by
        refine (hn.mul (.refl r')).trans ?_
        rw [← Fl.flip_mul_left]
        cases b
        · exact .refl _
        · show Same (n * r') (- -n * r')
          rw [Fl.neg_neg']; exact .refl _
      have h2 : Same (-n' * r) (flip b (n * r)) := by
        refine ((hn.neg).mul (.refl r)).trans ?_
        rw [← Fl.flip_mul_left]
        cases b
        · show Same (- -n * r) (n * r)
          rw [Fl.neg_neg']; exact .refl _
        · exact .refl _
      refine ((((hq.add h1).trans (Fl.flip_add _ _)).sub ((hp.add h2).trans (Fl.flip_add _ _))).trans (Fl.flip_sub _ _)).trans ?_
      refine ((Fl.sub_swap _ _).flip (b := b)).trans ?_
      cases b
      · exact .refl _
      · show Same (- - _) _
        rw [Fl.neg_neg']; exact .refl _
    unfold sup
    rw [rs, rt]
    exact ⟨m _ _ hs.1 ht.1 hn.1, m _ _ hs.2.1 ht.2.1 hn.2.1, m _ _ hs.2.2 ht.2.2 hn.2.2⟩
  · exact .inl ⟨rfl, rfl⟩

theorem start_mir {a b a' b' : Shape Q64} (H : SupMir τ a b a' b') (n : ℕ) {d : V3 Q64} (hd : V3.Mir τ d d) (w : WFv d) :
    (do let x ← unwrap (← support a' b' d); let d ← unwrap (d.scale (-1)); queryLoop a' b' n [x] d) =
    (do let x ← unwrap (← support a b d); let d ← unwrap (d.scale (-1)); queryLoop a b n [x] d) := by
  rcases H hd w w with ⟨e, e'⟩ | ⟨x, x', e, e', hs⟩
  · rw [e, e']; simp only [Res.ok_bind, none_bind]
  · rw [e, e']; simp only [Res.ok_bind, unwrap_some, V3.scale_eq]
    exact loop_mir H n (.inl rfl) (.cons hs .nil) (hd.scl (.refl _)) (wfv_scl _ _) (wfv_scl _ _)

theorem first_mir (h : τ 0 = false) : V3.Mir τ (⟨#v[-1, 0, 0]⟩ : V3 Q64) ⟨#v[-1, 0, 0]⟩ := by
  have z (b : Bool) : Same (0 : Fl Q64) (flip b 0) := by
    cases b
    · exact .refl _
    · exact .inr ⟨rfl, by decide +kernel⟩
  refine ⟨?_, z _, z _⟩
  rw [h]; exact .refl _

theorem query_mir {s t s' t' : Sphere Q64} (h : τ 0 = false) (H : SupMir τ (.sphere s) (.sphere t) (.sphere s') (.sphere t')) (n : ℕ) :
    queryIntersect n (.sphere s') (.sphere t') = queryIntersect n (.sphere s) (.sphere t) := by
  have wm : (-1 : Fl Q64).WF := by right; decide +kernel
  exact start_mir H n (d := ⟨#v[-1, 0, 0]⟩) (first_mir h) ⟨wm, .inl rfl, .inl rfl⟩

end GjkMirror

/-! ## C96 -/

/-- C96: mirroring two spheres in the second or third axis (or both) leaves the answer of the collision query and the number of turns of
its loop unchanged, for all floats. -/
theorem C96_other_axes (σ : Fin 3 → Bool) (h : σ 0 = false) {o o' : List (Fl Q64)} {r r' : Fl Q64} {s t : Sphere Q64}
    (es : Sphere.init o r = .ok s) (et : Sphere.init o' r' = .ok t) :
    ∃ s' t', Sphere.init (flipList σ o) r = .ok s' ∧ Sphere.init (flipList σ o') r' = .ok t' ∧
      ∀ turns, queryIntersect turns (.sphere s') (.sphere t') = queryIntersect turns (.sphere s) (.sphere t) := by
  obtain ⟨s', e1, h1, h2, -⟩ := sphere_mir σ es
  obtain ⟨t', e2, g1, g2, -⟩ := sphere_mir σ et
  exact ⟨s', t', e1, e2, GjkMirror.query_mir h (GjkMirror.balls_mir (h1 ▸ V3.flip_mir σ _) h2 (g1 ▸ V3.flip_mir σ _) g2)⟩

/-- C96: mirroring two spheres in the first axis (and in any others) and exchanging them leaves the answer of the collision query and the
number of turns of its loop unchanged, for all floats. -/
theorem C96_first_axis (σ : Fin 3 → Bool) (h : σ 0 = true) {o o' : List (Fl Q64)} {r r' : Fl Q64} {s t : Sphere Q64}
    (es : Sphere.init o r = .ok s) (et : Sphere.init o' r' = .ok t) :
    ∃ s' t', Sphere.init (flipList σ o) r = .ok s' ∧ Sphere.init (flipList σ o') r' = .ok t' ∧
      ∀ turns, queryIntersect turns (.sphere t') (.sphere s') = queryIntersect turns (.sphere s) (.sphere t) := by
  obtain ⟨s', e1, h1, h2, -⟩ := sphere_mir σ es
  obtain ⟨t', e2, g1, g2, -⟩ := sphere_mir σ et
  exact ⟨s', t', e1, e2, GjkMirror.query_mir (show (!σ 0) = false by rw [h]; rfl)
    (GjkMirror.balls_swap (h1 ▸ V3.flip_mir σ _) h2 (g1 ▸ V3.flip_mir σ _) g2)⟩

/-- concrete case: two balls apart off the axes, mirrored in `y` -/
example : ∃ s t s' t' : Sphere Q64, Sphere.init [1, 0, 0] 1 = .ok s ∧ Sphere.init [.fin (3 / 2), .fin 5, 0] 1 = .ok t ∧
    Sphere.init (flipList ![false, true, false] [1, 0, 0]) 1 = .ok s' ∧ Sphere.init (flipList ![false, true, false] [.fin (3 / 2), .fin 5, 0]) 1 = .ok t' ∧
    queryIntersect 5 (.sphere s) (.sphere t) = .ok (some false) ∧ queryIntersect 5 (.sphere s') (.sphere t') = .ok (some false) :=
  ⟨_, _, _, _, rfl, rfl, rfl, rfl, by decide +kernel, by decide +kernel⟩

/-- concrete case: the same, mirrored in all axes and exchanged -/
example : ∃ s' t' : Sphere Q64,
    Sphere.init (flipList ![true, true, true] [1, 0, 0]) 1 = .ok s' ∧ Sphere.init (flipList ![true, true, true] [.fin (3 / 2), .fin 5, 0]) 1 = .ok t' ∧
    queryIntersect 5 (.sphere t') (.sphere s') = .ok (some false) :=
  ⟨_, _, rfl, rfl, by decide +kernel⟩

/-- C96 fails for mirroring in the first axis alone: the balls of radius `4` around `(3, -2, 0)` and of radius `1` around `(-4, -2, 0)` are
apart, and reported as intersecting; the mirrored balls are not. -/
theorem C96_first_axis_false : ∃ s t s' t' : Sphere Q64, Sphere.init [.fin 3, .fin (-2), 0] (.fin 4) = .ok s ∧
    Sphere.init [.fin (-4), .fin (-2), 0] 1 = .ok t ∧ Sphere.init (flipList ![true, false, false] [.fin 3, .fin (-2), 0]) (.fin 4) = .ok s' ∧
    Sphere.init (flipList ![true, false, false] [.fin (-4), .fin (-2), 0]) 1 = .ok t' ∧
    queryIntersect 5 (.sphere s) (.sphere t) = .ok (some true) ∧ queryIntersect 5 (.sphere s') (.sphere t') = .ok (some false) :=
  ⟨_, _, _, _, rfl, rfl, rfl, rfl, by decide +kernel, by decide +kernel⟩

/-- C96: the query is not symmetric in its two arguments: the same balls, exchanged. -/
theorem C96_exchange_false : ∃ s t : Sphere Q64, Sphere.init [.fin 3, .fin (-2), 0] (.fin 4) = .ok s ∧
    Sphere.init [.fin (-4), .fin (-2), 0] 1 = .ok t ∧
    queryIntersect 5 (.sphere s) (.sphere t) = .ok (some true) ∧ queryIntersect 5 (.sphere t) (.sphere s) = .ok (some false) :=
  ⟨_, _, rfl, rfl, by decide +kernel, by decide +kernel⟩

/-- C96 is not about exchanging the second and the third axis: the order of the sums changes, and of the touching balls of radius `2` around
the origin and of radius `1` around `(-2, 1, 2)` or `(-2, 2, 1)` only the second pair is found. -/
theorem C96_y_z_false : ∃ s t t' : Sphere Q64, Sphere.init [0, 0, 0] (.fin 2) = .ok s ∧
    Sphere.init [.fin (-2), 1, .fin 2] 1 = .ok t ∧ Sphere.init [.fin (-2), .fin 2, 1] 1 = .ok t' ∧
    queryIntersect 30 (.sphere s) (.sphere t) = .ok (some false) ∧ queryIntersect 30 (.sphere s) (.sphere t') = .ok (some true) :=
  ⟨_, _, _, rfl, rfl, rfl, by decide +kernel, by decide +kernel⟩

end Mazth
