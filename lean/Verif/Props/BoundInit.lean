import Verif.Props.Bounds

/-!
# C62: building and reading bounds

`AxisAlignedBBox::init` as a function of the kind and the slice, the 32-slot array of `get_bound_data`, the default box and the
operations that are left unimplemented.
-/

set_option linter.unusedSectionVars false
set_option autoImplicit false

namespace Mazth

variable {K : Type} [Field K] [LinearOrder K] [IsStrictOrderedRing K] [Fmt K]

/-- number of values a kind of shape needs for its bound; `none`: there is no bound for that kind -/
def boundArity : ShapeType → Option ℕ
  | .point => some 3
  | .sphere | .box => some 4
  | .ray | .plane | .rect => some 6
  | .trig | .triPrism | .line | .frustum | .complex => none

theorem list_of_three {α : Type} {l : List α} (h : l.length = 3) : ∃ a b c, l = [a, b, c] := by
  rcases l with _ | ⟨a, _ | ⟨b, _ | ⟨c, _ | _⟩⟩⟩ <;> simp at h
  exact ⟨a, b, c, rfl⟩

theorem list_of_four {α : Type} {l : List α} (h : l.length = 4) : ∃ a b c d, l = [a, b, c, d] := by
  rcases l with _ | ⟨a, _ | ⟨b, _ | ⟨c, _ | ⟨d, _ | _⟩⟩⟩⟩ <;> simp at h
  exact ⟨a, b, c, d, rfl⟩

theorem list_of_six {α : Type} {l : List α} (h : l.length = 6) : ∃ a b c d e f, l = [a, b, c, d, e, f] := by
  rcases l with _ | ⟨a, _ | ⟨b, _ | ⟨c, _ | ⟨d, _ | ⟨e, _ | ⟨f, _ | _⟩⟩⟩⟩⟩⟩ <;> simp at h
  exact ⟨a, b, c, d, e, f, rfl⟩

/-- C62: `init` panics with `unimplemented!` exactly for the kinds without a bound, with a failed assertion exactly for a
slice of the wrong length, and answers otherwise; it never indexes out of bounds. -/
theorem C62_init_answers (t : ShapeType) (l : List (Fl K)) :
    (AABB.init t l = .error .unimplemented ↔ boundArity t = none) ∧
    (AABB.init t l = .error .assertFailed ↔ ∃ n, boundArity t = some n ∧ l.length ≠ n) ∧
    ((∃ b, AABB.init t l = .ok b) ↔ boundArity t = some l.length) := by
  have bad {n : ℕ} (h : l.length ≠ n) : (l.length == n) = false := by simpa using h
  have fin {n : ℕ} (ht : boundArity t = some n) (h1 : l.length = n → ∃ b, AABB.init t l = .ok b)
      (h2 : l.length ≠ n → AABB.init t l = .error .assertFailed) :
      (AABB.init t l = .error .unimplemented ↔ boundArity t = none) ∧
      (AABB.init t l = .error .assertFailed ↔ ∃ n, boundArity t = some n ∧ l.length ≠ n) ∧
      ((∃ b, AABB.init t l = .ok b) ↔ boundArity t = some l.length) := by
    rw [ht]
    by_cases h : l.length = n
    · obtain ⟨b, hb⟩ := h1 h
      rw [hb]; simp [h]
    · rw [h2 h]; simp [h, Ne.symm h]
  have none' (ht : boundArity t = none) (h : AABB.init t l = .error .unimplemented) :
      (AABB.init t l = .error .unimplemented ↔ boundArity t = none) ∧
      (AABB.init t l = .error .assertFailed ↔ ∃ n, boundArity t = some n ∧ l.length ≠ n) ∧
      ((∃ b, AABB.init t l = .ok b) ↔ boundArity t = some l.length) := by
    rw [h, ht]; simp
  cases t
  case point =>
    exact fin rfl (fun h => by obtain ⟨a, b, c, rfl⟩ := list_of_three h; exact ⟨_, rfl⟩)
      (fun h => by unfold AABB.init; simp only [bad h]; rfl)
  case ray =>
    exact fin rfl (fun h => by obtain ⟨a, b, c, d, e, f, rfl⟩ := list_of_six h; exact ⟨_, rfl⟩)
      (fun h => by unfold AABB.init; simp only [bad h]; rfl)
  case sphere =>
    exact fin rfl (fun h => by obtain ⟨a, b, c, d, rfl⟩ := list_of_four h; exact ⟨_, rfl⟩)
      (fun h => by unfold AABB.init; simp only [bad h]; rfl)
  case plane =>
    exact fin rfl (fun h => by obtain ⟨a, b, c, d, e, f, rfl⟩ := list_of_six h; exact ⟨_, rfl⟩)
      (fun h => by unfold AABB.init; simp only [bad h]; rfl)
  case box =>
    exact fin rfl (fun h => by obtain ⟨a, b, c, d, rfl⟩ := list_of_four h; exact ⟨_, rfl⟩)
      (fun h => by unfold AABB.init; simp only [bad h]; rfl)
  case rect =>
    exact fin rfl (fun h => by obtain ⟨a, b, c, d, e, f, rfl⟩ := list_of_six h; exact ⟨_, rfl⟩)
      (fun h => by unfold AABB.init; simp only [bad h]; rfl)
  all_goals exact none' rfl rfl

/-- concrete case: a sphere needs four numbers -/
example : AABB.init (K := Q64) .sphere [0, 1, .fin 2] = .error .assertFailed :=
  (C62_init_answers (K := Q64) .sphere [0, 1, .fin 2]).2.1.mpr ⟨4, rfl, by decide⟩

/-- C62: the corners, kind by kind and axis by axis, on all floats: a point is its own bound, a sphere or box spans
`o - r .. o + r`, a rect is its two corners, a plane is unbounded, a ray is bounded on the side it leaves. -/
theorem C62_init_values (o d : Fin 3 → Fl K) (r : Fl K) (i : Fin 3) :
    (∀ b, AABB.init .point [o 0, o 1, o 2] = .ok b → b.lower[i] = o i ∧ b.upper[i] = o i) ∧
    (∀ t ∈ [ShapeType.sphere, .box], ∀ b, AABB.init t [o 0, o 1, o 2, r] = .ok b → b.lower[i] = o i - r ∧ b.upper[i] = o i + r) ∧
    (∀ b, AABB.init .rect [o 0, o 1, o 2, d 0, d 1, d 2] = .ok b → b.lower[i] = o i ∧ b.upper[i] = d i) ∧
    (∀ b, AABB.init .plane [o 0, o 1, o 2, d 0, d 1, d 2] = .ok b → b.lower[i] = .inf true ∧ b.upper[i] = .inf false) ∧
    (∀ b, AABB.init .ray [o 0, o 1, o 2, d 0, d 1, d 2] = .ok b →
      (Fl.lt 0 (d i) = true → b.lower[i] = o i ∧ b.upper[i] = .inf false) ∧
      (Fl.lt (d i) 0 = true → b.lower[i] = .inf true ∧ b.upper[i] = o i) ∧
      (Fl.lt 0 (d i) = false → Fl.lt (d i) 0 = false → b.lower[i] = o i ∧ b.upper[i] = o i)) := by
  refine ⟨?_, ?_, ?_, ?_, ?_⟩
  · rintro b h; cases h; fin_cases i <;> exact ⟨rfl, rfl⟩
  · intro t ht b h
    simp only [List.mem_cons, List.not_mem_nil, or_false] at ht
    rcases ht with rfl | rfl <;> cases h <;> fin_cases i <;> exact ⟨rfl, rfl⟩
  · rintro b h; cases h; fin_cases i <;> exact ⟨rfl, rfl⟩
  · rintro b h; cases h; fin_cases i <;> exact ⟨rfl, rfl⟩
  · rintro b h
    cases h
    have key : ((#v[(AABB.rayBound (o 0) (d 0)).1, (AABB.rayBound (o 1) (d 1)).1, (AABB.rayBound (o 2) (d 2)).1] : Vector (Fl K) 3)[i] =
        (AABB.rayBound (o i) (d i)).1) ∧ ((#v[(AABB.rayBound (o 0) (d 0)).2, (AABB.rayBound (o 1) (d 1)).2,
        (AABB.rayBound (o 2) (d 2)).2] : Vector (Fl K) 3)[i] = (AABB.rayBound (o i) (d i)).2) := by
      fin_cases i <;> exact ⟨rfl, rfl⟩
    refine ⟨fun h => ?_, fun h => ?_, fun h h' => ?_⟩
    · exact ⟨key.1.trans (by simp [AABB.rayBound, h]), key.2.trans (by simp [AABB.rayBound, h]; rfl)⟩
    · have h0 : Fl.lt 0 (d i) = false := by
        cases hd : Fl.lt 0 (d i) with
        | false => rfl
        | true =>
          exfalso
          revert h hd
          cases d i with
          | nan => intro h; cases h
          | inf n => cases n <;> simp [Fl.lt]
          | nzero => intro h hd; simp [Fl.lt] at h
          | fin v =>
            intro h hd
            have h1 : v < 0 := of_decide_eq_true h
            have h2 : (0 : K) < v := of_decide_eq_true hd
            exact lt_asymm h1 h2
      exact ⟨key.1.trans (by simp [AABB.rayBound, h, h0]; rfl), key.2.trans (by simp [AABB.rayBound, h, h0])⟩
    · exact ⟨key.1.trans (by simp [AABB.rayBound, h, h']), key.2.trans (by simp [AABB.rayBound, h, h'])⟩

/-- C62, non-vacuity: a ray going up in x, down in y and staying in z. -/
example : AABB.init (K := Q64) .ray [0, 1, 0, 1, .fin (-1), 0] =
    .ok ⟨#v[0, .inf true, 0], #v[.inf false, 1, 0]⟩ := rfl

/-- C62: `get_bound_data` of a box holds the lower corner in slots 0..2, the upper corner in slots 3..5 and `+0` in the
remaining 26; reading it back as a `rect` rebuilds the box bit for bit. -/
theorem C62_data (b : AABB (Fl K)) : ∃ d, (IBound.aabb b).getBoundData = .ok d ∧
    (∀ i : Fin 3, d[i.val] = b.lower[i] ∧ d[i.val + 3] = b.upper[i]) ∧ (∀ j (h : j < 32), 6 ≤ j → d[j] = .fin 0) ∧
    AABB.init .rect (d.toList.take 6) = .ok b := by
  refine ⟨_, rfl, fun i => ⟨AABB.data_lower b i, AABB.data_upper b i⟩, ?_, ?_⟩
  · intro j h hj
    obtain ⟨k, rfl⟩ := Nat.exists_eq_add_of_le hj
    have hk : k < 26 := by omega
    unfold AABB.getBoundData loop
    simp [List.finRange, show ¬ 3 = 6 + k by omega, show ¬ 4 = 6 + k by omega, show ¬ 5 = 6 + k by omega,
      show ¬ 0 = 6 + k by omega, show ¬ 1 = 6 + k by omega, show ¬ 2 = 6 + k by omega]
    rfl
  · obtain ⟨⟨⟨al⟩, h⟩, ⟨⟨au⟩, h'⟩⟩ := b
    rcases al with _ | ⟨x0, _ | ⟨x1, _ | ⟨x2, _ | _⟩⟩⟩ <;> simp at h
    rcases au with _ | ⟨y0, _ | ⟨y1, _ | ⟨y2, _ | _⟩⟩⟩ <;> simp at h'
    kernel_rfl

/-- C62, non-vacuity. -/
example : ∃ d, (IBound.aabb (α := Fl Q64) ⟨#v[0, 1, 0], #v[1, .nan, .inf false]⟩).getBoundData = .ok d ∧ d[4] = .nan ∧ d[31] = 0 :=
  ⟨_, rfl, rfl, rfl⟩

/-- C62: the default box contains every NaN-free point and so overlaps every box that has a point. -/
theorem C62_default : (∀ p : Fin 3 → Fl K, (∀ i, p i ≠ .nan) → AABB.default.Has p) ∧
    (∀ b : AABB (Fl K), (∃ p, b.Has p) → IBound.intersect (.aabb AABB.default) (.aabb b) = .ok true) := by
  have h (p : Fin 3 → Fl K) (hp : ∀ i, p i ≠ .nan) : AABB.default.Has p := by
    intro i
    have e : (AABB.default : AABB (Fl K)).lower[i] = .inf true ∧ (AABB.default : AABB (Fl K)).upper[i] = .inf false := by
      fin_cases i <;> exact ⟨rfl, rfl⟩
    rw [e.1, e.2]
    have := hp i
    revert this
    cases p i with
    | nan => intro h; exact absurd rfl h
    | inf n => intro _; cases n <;> exact ⟨rfl, rfl⟩
    | nzero => intro _; exact ⟨rfl, rfl⟩
    | fin v => intro _; exact ⟨rfl, rfl⟩
  refine ⟨h, fun b ⟨p, hb⟩ => ?_⟩
  rw [AABB.intersect_eq, AABB.overlap_of_has _ _ (h p fun i => (Fl.le_ne_nan (hb i).1).2) hb]

/-- C62, non-vacuity: the default box against a half-unbounded one. -/
example : IBound.intersect (.aabb AABB.default) (.aabb ⟨#v[0, .inf true, 0], #v[.inf false, 1, 0]⟩ : IBound (Fl Q64)) = .ok true := by
  decide +kernel

/-- C62: everything that is not written yet panics with `unimplemented!` and does nothing else: separation of any two
bounds, and every operation of or with a sphere bound. -/
theorem C62_unimplemented (a b : IBound (Fl K)) (t : ShapeType) (l : List (Fl K)) (bs : List (IBound (Fl K))) :
    a.getShortestSeparation b = .error .unimplemented ∧ (BoundSphere.default : Res (IBound (Fl K))) = .error .unimplemented ∧
    (BoundSphere.init t l).getType = .sphere ∧ (BoundSphere.init t l).intersect a = .error .unimplemented ∧
    a.intersect (BoundSphere.init t l) = .error .unimplemented ∧ (BoundSphere.init t l).getBoundData = .error .unimplemented ∧
    (BoundSphere.init t l).getCentroid = .error .unimplemented ∧ (BoundSphere.init t l).getUnion bs = .error .unimplemented ∧
    ((IBound.sphere : IBound (Fl K)) ∈ bs → a.getUnion bs = .error .unimplemented) := by
  refine ⟨rfl, rfl, rfl, rfl, by cases a <;> rfl, rfl, rfl, rfl, fun h => ?_⟩
  exact (C33_panics a bs).2 (.inr h)

/-- concrete case -/
example := C62_unimplemented (.aabb boxA) .sphere .sphere [0, 1] [.aabb boxB, .sphere]

end Mazth
