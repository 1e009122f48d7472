import Verif.Props.BoundNest
import Verif.Props.Dispatch

/-!
# C108: searching through a hierarchy of bounds

A program built on the library: a tree whose leaves are shapes and whose inner nodes carry the `get_union` of the bounds below, searched
with `intersect` on the bounds and `get_intersect` at the leaves.
-/

set_option linter.unusedSectionVars false
set_option autoImplicit false

namespace Mazth

variable {K : Type} [Field K] [LinearOrder K] [IsStrictOrderedRing K] [Fmt K]

/-- a hierarchy: a shape, or two hierarchies under one box -/
inductive Hier (K : Type) where
  | leaf (s : Shape K)
  | node (b : AABB (Fl K)) (l r : Hier K)

namespace Hier

/-- the bound stored at the root -/
def bound : Hier K → IBound (Fl K)
  | leaf s => s.getBound
  | node b _ _ => .aabb b

/-- the shapes, from left to right -/
def leaves : Hier K → List (Shape K)
  | leaf s => [s]
  | node _ l r => l.leaves ++ r.leaves

/-- every inner box was computed by `get_union` (called on any box `old`) from the bounds of the two parts -/
def Built : Hier K → Prop
  | leaf _ => True
  | node b l r => l.Built ∧ r.Built ∧ ∃ old, IBound.getUnion (.aabb old) [l.bound, r.bound] = .ok (.aabb b)

/-- the search: skip a node whose box does not overlap the bound of `q` -/
def search (q : Shape K) : Hier K → Res (List (Shape K × Hit K))
  | leaf s => do
    let h ← Shape.getIntersect 2 q s
    return if h.1 then [(s, h)] else []
  | node b l r => do
    if ← q.getBound.intersect (.aabb b) then
      let x ← l.search q
      let y ← r.search q
      return x ++ y
    else return []

end Hier

/-- every shape of the list is queried -/
def scan (q : Shape K) : List (Shape K) → Res (List (Shape K × Hit K))
  | [] => return []
  | s :: ss => do
    let h ← Shape.getIntersect 2 q s
    let rest ← scan q ss
    return (if h.1 then [(s, h)] else []) ++ rest

namespace Hier

theorem scan_append (q : Shape K) (a b : List (Shape K)) : scan q (a ++ b) = (do let x ← scan q a; let y ← scan q b; return x ++ y) := by
  induction a with
  | nil =>
    show scan q b = _
    cases h : scan q b <;> simp [scan, bind, Except.bind, pure, Except.pure]
  | cons s ss ih =>
    rw [List.cons_append]
    simp only [scan, ih]
    cases Shape.getIntersect 2 q s <;> cases scan q ss <;> cases scan q b <;> simp [bind, Except.bind, pure, Except.pure]

theorem scan_none (q : Shape K) (ss : List (Shape K)) (h : ∀ s ∈ ss, AABB.overlap q.aabb s.aabb = false) : scan q ss = .ok [] := by
  induction ss with
  | nil => rfl
  | cons s ss ih =>
    have e := getIntersect_eq 0 q s
    rw [h s (by simp), if_neg (by simp)] at e
    simp only [scan, e, ih fun t ht => h t (by simp [ht])]
    rfl

/-- the boxes of the leaves make up the box of the root -/
theorem nest {t : Hier K} (h : t.Built) : ∃ r, t.bound = .aabb r ∧ AABB.Nest (t.leaves.map Shape.aabb) r := by
  induction t with
  | leaf s => exact ⟨_, Shape.getBound_eq s, .leaf _⟩
  | node b l r ihl ihr =>
    obtain ⟨h1, h2, old, hu⟩ := h
    obtain ⟨x, ex, nx⟩ := ihl h1
    obtain ⟨y, ey, ny⟩ := ihr h2
    rw [ex, ey] at hu
    refine ⟨b, rfl, ?_⟩
    have := AABB.Nest.node old [(_, x), (_, y)] b (by
      intro p hp
      rcases List.mem_pair.mp hp with rfl | rfl
      · exact nx
      · exact ny) hu
    simpa [leaves] using this

end Hier

/-- C108, in every format: the search through a hierarchy returns exactly what querying every shape returns: the same shapes in the same order with
bit for bit the same locations, and the same panic if there is one.  The bounds of the leaves must be free of NaN. -/
theorem C108_search (q : Shape K) (t : Hier K) (ht : t.Built) (hn : ∀ s ∈ t.leaves, ∀ b, s.getBound = .aabb b → b.NoNan) :
    t.search q = scan q t.leaves := by
  induction t with
  | leaf s =>
    simp only [Hier.search, Hier.leaves, scan]
    cases Shape.getIntersect 2 q s <;> simp [bind, Except.bind, pure, Except.pure]
  | node b l r ihl ihr =>
    obtain ⟨r', e, nest⟩ := Hier.nest ht
    injection e with e
    subst e
    have hq : q.getBound.intersect (.aabb b) = .ok (AABB.overlap q.aabb b) := by rw [Shape.getBound_eq, AABB.intersect_eq]
    have il := ihl ht.1 fun s hs => hn s (List.mem_append_left _ hs)
    have ir := ihr ht.2.1 fun s hs => hn s (List.mem_append_right _ hs)
    simp only [Hier.search, hq, Hier.leaves]
    cases ho : AABB.overlap q.aabb b
    · refine (Hier.scan_none q (l.leaves ++ r.leaves) fun s hs => ?_).symm
      by_contra hc
      have := C102_prune nest (b := s.aabb) (List.mem_map_of_mem hs) (hn s hs _ (Shape.getBound_eq s)) q.aabb (by
        rw [AABB.intersect_eq]; simpa using hc)
      rw [AABB.intersect_eq, ho] at this
      simp at this
    · rw [Hier.scan_append, ← il, ← ir]
      rfl

/-- C108: how the shapes are arranged does not matter: two hierarchies over the same shapes (in any order, with repetitions) return the same
hits up to order. -/
theorem C108_arrangement (q : Shape K) (t t' : Hier K) (ht : t.Built) (ht' : t'.Built) (hn : ∀ s ∈ t.leaves, ∀ b, s.getBound = .aabb b → b.NoNan)
    (hp : t.leaves.Perm t'.leaves) (l : List (Shape K × Hit K)) (hl : t.search q = .ok l) : ∃ l', t'.search q = .ok l' ∧ l.Perm l' := by
  rw [C108_search q t ht hn] at hl
  rw [C108_search q t' ht' fun s hs => hn s (hp.mem_iff.mpr hs)]
  generalize t.leaves = a at hp hl
  generalize t'.leaves = b at hp
  clear hn ht ht'
  induction hp generalizing l with
  | nil => exact ⟨l, hl, .refl _⟩
  | @cons s a b _ ih =>
    simp only [scan] at hl ⊢
    cases h : Shape.getIntersect 2 q s with
    | error e => rw [h] at hl; cases hl
    | ok x =>
      rw [h] at hl
      cases h' : scan q a with
      | error e => rw [h'] at hl; cases hl
      | ok y =>
        rw [h'] at hl
        obtain ⟨y', e, p⟩ := ih y h'
        rw [e]
        injection hl with hl
        subst hl
        exact ⟨_, rfl, p.append_left _⟩
  | swap s s' a =>
    simp only [scan] at hl ⊢
    cases h : Shape.getIntersect 2 q s with
    | error e =>
      rw [h] at hl
      cases h2 : Shape.getIntersect 2 q s' with
      | error e => rw [h2] at hl; cases hl
      | ok x => rw [h2] at hl; cases hl
    | ok x =>
      rw [h] at hl
      cases h2 : Shape.getIntersect 2 q s' with
      | error e => rw [h2] at hl; cases hl
      | ok x' =>
        rw [h2] at hl
        cases h3 : scan q a with
        | error e => rw [h3] at hl; cases hl
        | ok y =>
          rw [h3] at hl
          injection hl with hl
          subst hl
          refine ⟨_, rfl, ?_⟩
          rw [← List.append_assoc, ← List.append_assoc]
          exact (List.perm_append_comm).append_right _
  | trans _ _ ih1 ih2 =>
    obtain ⟨l1, e1, p1⟩ := ih1 l hl
    obtain ⟨l2, e2, p2⟩ := ih2 l1 e1
    exact ⟨l2, e2, p1.trans p2⟩

/-- C108: every shape for which `get_intersect` reports a location is in the result, with that location. -/
theorem C108_found (q s : Shape K) (t : Hier K) (ht : t.Built) (hn : ∀ s ∈ t.leaves, ∀ b, s.getBound = .aabb b → b.NoNan) (hs : s ∈ t.leaves)
    (loc : V3 K) (hit : Shape.getIntersect 2 q s = .ok (true, some loc)) (l : List (Shape K × Hit K)) (hl : t.search q = .ok l) :
    (s, (true, some loc)) ∈ l := by
  rw [C108_search q t ht hn] at hl
  generalize t.leaves = a at hs hl
  clear hn ht
  induction a generalizing l with
  | nil => cases hs
  | cons s' a ih =>
    simp only [scan] at hl
    cases h : Shape.getIntersect 2 q s' with
    | error e => rw [h] at hl; cases hl
    | ok x =>
      rw [h] at hl
      cases h' : scan q a with
      | error e => rw [h'] at hl; cases hl
      | ok y =>
        rw [h'] at hl
        injection hl with hl
        subst hl
        rcases List.mem_cons.mp hs with rfl | hs
        · rw [hit] at h
          injection h with h
          subst h
          simp
        · exact List.mem_append_right _ (ih y hs h')

/-! ### concrete cases -/

namespace Hier

/-- the sphere of radius one about `(x, 0, 0)` in binary64 -/
def ballX (x : Fl Q64) : Sphere Q64 :=
  { ori := ⟨#v[x, 0, 0]⟩, radius := 1, bound := ⟨#v[x - 1, 0 - 1, 0 - 1], #v[x + 1, 0 + 1, 0 + 1]⟩, vicinity := defaultVicinity }

theorem ballX_init (x : Fl Q64) : Sphere.init [x, 0, 0] 1 = .ok (ballX x) := rfl

/-- a hierarchy over two shapes and one over three -/
theorem two (s t : Shape Q64) : ∃ b, (node b (leaf s) (leaf t)).Built := by
  obtain ⟨b, h⟩ := C33_discards [s.aabb, t.aabb]
  exact ⟨b, trivial, trivial, s.aabb, by show IBound.getUnion _ [s.getBound, t.getBound] = _; rw [Shape.getBound_eq, Shape.getBound_eq]; exact h _⟩

theorem three (s t v : Shape Q64) : ∃ b b', (node b' (node b (leaf s) (leaf t)) (leaf v)).Built := by
  obtain ⟨b, hb⟩ := two s t
  obtain ⟨b', h⟩ := C33_discards [b, v.aabb]
  exact ⟨b, b', hb, trivial, b, by show IBound.getUnion _ [.aabb b, v.getBound] = _; rw [Shape.getBound_eq]; exact h _⟩

theorem noNan_three : ∀ s ∈ [Shape.sphere (ballX (.fin 1)), .sphere (ballX (.fin 9)), .sphere (ballX (.fin (-20)))], ∀ b, s.getBound = .aabb b → b.NoNan := by
  intro s hs b hb i
  simp only [List.mem_cons, List.not_mem_nil, or_false] at hs
  rcases hs with rfl | rfl | rfl <;> cases hb <;> fin_cases i <;> decide +kernel

end Hier

/-- spheres about `(1, 0, 0)`, `(9, 0, 0)`, `(-20, 0, 0)`, searched with the sphere about `(0, 0, 0)` -/
example := (Hier.three (.sphere (Hier.ballX (.fin 1))) (.sphere (Hier.ballX (.fin 9))) (.sphere (Hier.ballX (.fin (-20))))).imp fun _ h => h.imp fun _ h =>
  C108_search (.sphere (Hier.ballX (.fin 0))) _ h (by exact Hier.noNan_three)

/-- and the same arranged the other way -/
example : ∃ t t' : Hier Q64, t.Built ∧ t'.Built ∧ t.leaves.Perm t'.leaves ∧ ∃ l l', t.search (.sphere (Hier.ballX (.fin 0))) = .ok l ∧
    t'.search (.sphere (Hier.ballX (.fin 0))) = .ok l' ∧ l.Perm l' := by
  obtain ⟨b, b', h⟩ := Hier.three (.sphere (Hier.ballX (.fin 1))) (.sphere (Hier.ballX (.fin 9))) (.sphere (Hier.ballX (.fin (-20))))
  obtain ⟨d, d', k⟩ := Hier.three (.sphere (Hier.ballX (.fin (-20)))) (.sphere (Hier.ballX (.fin 9))) (.sphere (Hier.ballX (.fin 1)))
  have hp : (Hier.node b' (.node b (.leaf (.sphere (Hier.ballX (.fin 1)))) (.leaf (.sphere (Hier.ballX (.fin 9))))) (.leaf (.sphere (Hier.ballX (.fin (-20)))))).leaves.Perm
      (Hier.node d' (.node d (.leaf (.sphere (Hier.ballX (.fin (-20))))) (.leaf (.sphere (Hier.ballX (.fin 9))))) (.leaf (.sphere (Hier.ballX (.fin 1))))).leaves :=
    (List.reverse_perm [Shape.sphere (Hier.ballX (.fin 1)), .sphere (Hier.ballX (.fin 9)), .sphere (Hier.ballX (.fin (-20)))]).symm
  refine ⟨_, _, h, k, hp, ?_⟩
  have ex : ∃ l, scan (.sphere (Hier.ballX (.fin 0))) [Shape.sphere (Hier.ballX (.fin 1)), .sphere (Hier.ballX (.fin 9)), .sphere (Hier.ballX (.fin (-20)))] = .ok l := by
    have e : (scan (.sphere (Hier.ballX (.fin 0))) [Shape.sphere (Hier.ballX (.fin 1)), .sphere (Hier.ballX (.fin 9)), .sphere (Hier.ballX (.fin (-20)))]).map List.length = .ok 1 := by
      decide +kernel
    revert e
    cases scan (.sphere (Hier.ballX (.fin 0))) [Shape.sphere (Hier.ballX (.fin 1)), .sphere (Hier.ballX (.fin 9)), .sphere (Hier.ballX (.fin (-20)))] with
    | error e => intro h; cases h
    | ok l => exact fun _ => ⟨l, rfl⟩
  obtain ⟨l, hl⟩ := ex
  have hs := (C108_search (.sphere (Hier.ballX (.fin 0))) _ h (by exact Hier.noNan_three)).trans hl
  obtain ⟨l', h1, h2⟩ := C108_arrangement _ _ _ h k Hier.noNan_three hp l hs
  exact ⟨l, l', hs, h1, h2⟩

/-- the first of the three is found -/
example := (Hier.three (.sphere (Hier.ballX (.fin 1))) (.sphere (Hier.ballX (.fin 9))) (.sphere (Hier.ballX (.fin (-20))))).imp fun _ h => h.imp fun _ h =>
  C108_found (.sphere (Hier.ballX (.fin 0))) (.sphere (Hier.ballX (.fin 1))) _ h (by exact Hier.noNan_three) (by simp [Hier.leaves]) ⟨#v[.fin (1 / 2 : ℚ), 0, 0]⟩ (by decide +kernel)

/-- C108 fails for a leaf with a NaN bound: a sphere with NaN centre is reported by `get_intersect` as meeting every sphere, but under
the union with a distant sphere it is skipped. -/
theorem C108_nan_false : ∃ b : AABB (Fl Q64), (Hier.node b (.leaf (.sphere (Hier.ballX (.fin 9)))) (.leaf (.sphere (Hier.ballX .nan)))).Built ∧
    ((Hier.node b (.leaf (.sphere (Hier.ballX (.fin 9)))) (.leaf (.sphere (Hier.ballX .nan)))).search (.sphere (Hier.ballX 0))).map List.length = .ok 0 ∧
    (scan (.sphere (Hier.ballX 0)) [.sphere (Hier.ballX (.fin 9)), .sphere (Hier.ballX .nan)]).map List.length = .ok 1 := by
  refine ⟨⟨#v[.fin 8, .fin (-1), .fin (-1)], #v[.fin 10, .fin 1, .fin 1]⟩, ⟨trivial, trivial, boxA, ?_⟩, ?_, ?_⟩
  all_goals decide +kernel

end Mazth
