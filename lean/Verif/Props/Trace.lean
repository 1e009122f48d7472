import Verif.Props.Search
import Verif.Props.RayQueries
import Verif.Proofs.SampleShapes

/-!
# C109: following a ray through a scene

A program built on the library: put a ray to every shape of a scene with `get_intersect` and keep the reported location nearest to the
origin of the ray, comparing distances computed with `minus` and `magnitude`.
-/

set_option linter.unusedSectionVars false
set_option autoImplicit false

namespace Mazth

open Matrix

section program

variable {K : Type} [Field K] [LinearOrder K] [IsStrictOrderedRing K] [Fmt K]

/-- of the reported locations the one nearest to `o` (the first of several equally near) -/
def nearest (o : V3 K) : List (Shape K × Hit K) → Option (Shape K × V3 K) → Option (Shape K × V3 K)
  | [], best => best
  | (_, (_, none)) :: l, best => nearest o l best
  | (s, (_, some p)) :: l, none => nearest o l (some (s, p))
  | (s, (_, some p)) :: l, some b =>
    nearest o l (if Fl.lt (V3.mag (V3.sub p o)) (V3.mag (V3.sub b.2 o)) then some (s, p) else some b)

/-- what the ray meets first, by querying every shape -/
def trace (r : Ray3 K) (scene : List (Shape K)) : Res (Option (Shape K × V3 K)) := do
  let l ← scan (.ray r) scene
  return nearest r.ori l none

/-- what the ray meets first, by searching a hierarchy of bounds -/
def Hier.trace (r : Ray3 K) (t : Hier K) : Res (Option (Shape K × V3 K)) := do
  let l ← t.search (.ray r)
  return nearest r.ori l none

end program

/-- the surfaces that a ray from `o` can see: spheres, seen from inside or outside, and planes seen from the side their normal points to -/
inductive Surface (o : R3) : Shape ℝ → Set R3 → Prop
  | sphere {t : Sphere ℝ} {c : R3} {r : ℝ} (h : t.Made c r) (hr : 0 ≤ r) : Surface o (.sphere t) {p | euc (p - c) = r}
  | plane {t : Plane ℝ} {a n : R3} (h : t.Made a n) (hf : 0 < (o - a) ⬝ᵥ n) : Surface o (.plane t) (planePts a n)

namespace Tracing

theorem isR_unique {a : V3 ℝ} {p q : R3} (h : a.IsR p) (h' : a.IsR q) : p = q := by
  obtain ⟨a0, a1, a2⟩ := Mat3x1.isR_iff.mp h; obtain ⟨b0, b1, b2⟩ := Mat3x1.isR_iff.mp h'
  ext i; fin_cases i
  · exact a0.unique b0
  · exact a1.unique b1
  · exact a2.unique b2

theorem euc_smul' {k : ℝ} {u : R3} (hk : 0 ≤ k) : euc (k • u) = k * euc u := by
  have h : euc (k • u) * euc (k • u) = (k * euc u) * (k * euc u) := by
    rw [euc_sq, show k * euc u * (k * euc u) = k * k * (euc u * euc u) by ring, euc_sq]
    simp only [smul_dotProduct, dotProduct_smul, smul_eq_mul]
    ring
  exact (mul_self_inj (euc_nonneg _) (mul_nonneg hk (euc_nonneg _))).mp h

theorem dist_ray {o d : R3} (hd : d ≠ 0) {t : ℝ} (ht : 0 ≤ t) : euc (o + t • unit d - o) = t := by
  rw [add_sub_cancel_left, euc_smul' ht, euc_unit hd, mul_one]

/-- from inside, a ray meets the sphere in one point only -/
theorem inside_unique {o d c : R3} {r : ℝ} (hd : d ≠ 0) (hi : euc (o - c) < r) {p q : R3} (hp : p ∈ rayPts o d) (hq : q ∈ rayPts o d)
    (ep : euc (p - c) = r) (eq : euc (q - c) = r) : p = q := by
  obtain ⟨t, ht, rfl⟩ := (rayPts_unit hd).mp hp
  obtain ⟨t', ht', rfl⟩ := (rayPts_unit hd).mp hq
  have hu := unit_of hd
  have key (t : ℝ) (e : euc (o + t • unit d - c) = r) :
      t * t + 2 * t * ((o - c) ⬝ᵥ unit d) + ((o - c) ⬝ᵥ (o - c) - r * r) = 0 := by
    have e1 : o + t • unit d - c = (o - c) + t • unit d := by abel
    have := congrArg (fun x => x * x) e
    simp only [euc_sq] at this
    rw [e1, dot_expand, hu] at this
    linarith
  have h1 := key t ep
  have h2 := key t' eq
  have hk : (o - c) ⬝ᵥ (o - c) - r * r < 0 := by
    have := mul_self_lt_mul_self (euc_nonneg _) hi
    rw [euc_sq] at this
    linarith
  generalize (o - c) ⬝ᵥ unit d = b at h1 h2
  generalize (o - c) ⬝ᵥ (o - c) - r * r = k at h1 h2 hk
  have h3 : (t - t') * (t + t' + 2 * b) = 0 := by linarith
  rcases mul_eq_zero.mp h3 with h | h
  · rw [show t = t' by linarith]
  · exfalso
    have : t * t' = k := by
      have hb : 2 * b = -(t + t') := by linarith
      have : t * t + t * (2 * b) + k = 0 := by linarith
      rw [hb] at this
      linarith
    have := mul_nonneg ht ht'
    linarith

/-- one query: the first point of the surface on the ray -/
theorem first {q : Ray3 ℝ} {o d : R3} (hq : q.Made o d) {s : Shape ℝ} {S : Set R3} (h : Surface o s S) :
    (∃ p, Shape.Finds (.ray q) s p ∧ p ∈ rayPts o d ∩ S ∧ ∀ y ∈ rayPts o d ∩ S, euc (p - o) ≤ euc (y - o)) ∨
      (Shape.Misses (.ray q) s ∧ rayPts o d ∩ S = ∅) := by
  cases h with
  | @sphere t c r ht hr =>
    obtain ⟨hy, hn⟩ := C42_raySphere q t o d c r hq ht hr
    by_cases hm : (rayPts o d ∩ ballPts c r).Nonempty
    · obtain ⟨p, h1, h2, h3, h4⟩ := hy hm
      refine .inl ⟨p, h1, ⟨h2, h3⟩, fun y hy' => ?_⟩
      by_cases ho : r ≤ euc (o - c)
      · exact h4 ho y ⟨hy'.1, le_of_eq hy'.2⟩
      · rw [inside_unique hq.1 (not_le.mp ho) h2 hy'.1 h3 hy'.2]
    · refine .inr ⟨hn hm, ?_⟩
      rw [Set.eq_empty_iff_forall_notMem]
      rintro y ⟨h1, h2⟩
      exact hm ⟨y, h1, le_of_eq h2⟩
  | @plane t a n ht hf =>
    obtain ⟨hy, hn⟩ := C43_rayPlane q t o d a n hq ht
    have uniq : ∀ p ∈ rayPts o d ∩ planePts a n, ∃ k, 0 ≤ k ∧ p = o + k • d ∧ (o - a) ⬝ᵥ n + k * (d ⬝ᵥ n) = 0 := by
      rintro p ⟨⟨k, hk, rfl⟩, h2⟩
      refine ⟨k, hk, rfl, ?_⟩
      have h2 : (o + k • d - a) ⬝ᵥ n = 0 := h2
      rw [show o + k • d - a = (o - a) + k • d by abel, add_dotProduct, smul_dotProduct, smul_eq_mul] at h2
      exact h2
    by_cases hm : (rayPts o d ∩ planePts a n).Nonempty
    · have hdn : d ⬝ᵥ n < 0 := by
        obtain ⟨y, hy⟩ := hm
        obtain ⟨k, hk, -, e⟩ := uniq y hy
        by_contra hc
        have := mul_nonneg hk (not_lt.mp hc)
        linarith
      obtain ⟨p, hp, hf'⟩ := hy ⟨hdn.le, hm⟩
      refine .inl ⟨p, hf', hp, fun y hy => ?_⟩
      obtain ⟨k, -, rfl, e⟩ := uniq p hp
      obtain ⟨k', -, rfl, e'⟩ := uniq y hy
      have : k = k' := mul_right_cancel₀ hdn.ne (by linarith)
      rw [this]
    · exact .inr ⟨hn fun h => hm h.2, Set.not_nonempty_iff_eq_empty.mp hm⟩

theorem main {q : Ray3 ℝ} {o d : R3} (hq : q.Made o d) (ss : List (Shape ℝ × Set R3)) (hss : ∀ x ∈ ss, Surface o x.1 x.2) :
    ∃ l, scan (.ray q) (ss.map Prod.fst) = .ok l ∧ ∀ best : Option (Shape ℝ × V3 ℝ),
      (∀ b, best = some b → ∃ p, b.2.IsR p) →
      (nearest q.ori l best = none ∧ best = none ∧ ∀ x ∈ ss, rayPts o d ∩ x.2 = ∅) ∨
      ∃ s loc p, nearest q.ori l best = some (s, loc) ∧ loc.IsR p ∧
        (best = some (s, loc) ∨ ∃ S, (s, S) ∈ ss ∧ Shape.Finds (.ray q) s p ∧ p ∈ rayPts o d ∩ S) ∧
        (∀ b p0, best = some b → b.2.IsR p0 → euc (p - o) ≤ euc (p0 - o)) ∧
        ∀ x ∈ ss, ∀ y ∈ rayPts o d ∩ x.2, euc (p - o) ≤ euc (y - o) := by
  induction ss with
  | nil =>
    refine ⟨[], rfl, fun best hb => ?_⟩
    cases best with
    | none => exact .inl ⟨rfl, rfl, by simp⟩
    | some b =>
      obtain ⟨p, hp⟩ := hb b rfl
      refine .inr ⟨b.1, b.2, p, rfl, hp, .inl rfl, ?_, by simp⟩
      rintro b' p0 e h0
      injection e with e
      subst e
      rw [Tracing.isR_unique hp h0]
  | cons x ss ih =>
    obtain ⟨l, hl, ih⟩ := ih fun y hy => hss y (List.mem_cons_of_mem _ hy)
    rcases first hq (hss x (by simp)) with ⟨p, ⟨loc, hf, hloc⟩, hp, hmin⟩ | ⟨hm, hemp⟩
    · refine ⟨(x.1, (true, some loc)) :: l, ?_, fun best hb => ?_⟩
      · simp only [List.map_cons, scan, hf, hl]
        rfl
      · -- the state after this shape
        have step : ∃ b1 p1, nearest q.ori ((x.1, (true, some loc)) :: l) best = nearest q.ori l (some b1) ∧ b1.2.IsR p1 ∧
            (best = some b1 ∨ (b1 = (x.1, loc) ∧ p1 = p)) ∧ (∀ b p0, best = some b → b.2.IsR p0 → euc (p1 - o) ≤ euc (p0 - o)) ∧
            euc (p1 - o) ≤ euc (p - o) := by
          cases best with
          | none => exact ⟨(x.1, loc), p, rfl, hloc, .inr ⟨rfl, rfl⟩, by simp, le_rfl⟩
          | some b =>
            obtain ⟨p0, hp0⟩ := hb b rfl
            have ho := hq.facts.1
            have e : nearest q.ori ((x.1, (true, some loc)) :: l) (some b) =
                nearest q.ori l (if euc (p - o) < euc (p0 - o) then some (x.1, loc) else some b) := by
              simp only [nearest]
              rw [Fl.Is.lt (V3.is_mag (V3.isR_sub hloc ho)) (V3.is_mag (V3.isR_sub hp0 ho))]
              simp only [decide_eq_true_eq]
            by_cases hlt : euc (p - o) < euc (p0 - o)
            · refine ⟨(x.1, loc), p, by rw [e, if_pos hlt], hloc, .inr ⟨rfl, rfl⟩, ?_, le_rfl⟩
              rintro b' p0' e' h0
              injection e' with e'
              subst e'
              rw [Tracing.isR_unique h0 hp0]
              exact hlt.le
            · refine ⟨b, p0, by rw [e, if_neg hlt], hp0, .inl rfl, ?_, not_lt.mp hlt⟩
              rintro b' p0' e' h0
              injection e' with e'
              subst e'
              rw [Tracing.isR_unique h0 hp0]
        obtain ⟨b1, p1, e1, h1, hor, hle, hle'⟩ := step
        rcases ih (some b1) (by rintro b e; injection e with e; subst e; exact ⟨p1, h1⟩) with ⟨-, h, -⟩ | ⟨s, loc', p', r1, r2, r3, r4, r5⟩
        · cases h
        · refine .inr ⟨s, loc', p', by rw [e1, r1], r2, ?_, ?_, ?_⟩
          · rcases r3 with r3 | ⟨S, hS, h⟩
            · injection r3 with r3
              rcases hor with h | ⟨h, h'⟩
              · exact .inl (by rw [h, r3])
              · right
                rw [r3] at h
                injection h with ha hb
                subst ha hb
                have : p' = p := Tracing.isR_unique r2 hloc
                subst this
                exact ⟨x.2, by simp, ⟨loc', hf, hloc⟩, hp⟩
            · exact .inr ⟨S, List.mem_cons_of_mem _ hS, h⟩
          · exact fun b p0 e h0 => (r4 b1 p1 rfl h1).trans (hle b p0 e h0)
          · intro y hy z hz
            rcases List.mem_cons.mp hy with rfl | hy
            · exact ((r4 b1 p1 rfl h1).trans hle').trans (hmin z hz)
            · exact r5 y hy z hz
    · refine ⟨l, ?_, fun best hb => ?_⟩
      · simp only [List.map_cons, scan, show Shape.getIntersect 2 (.ray q) x.1 = .ok (false, none) from hm, hl]
        rfl
      · rcases ih best hb with ⟨a, b, c⟩ | ⟨s, loc', p', r1, r2, r3, r4, r5⟩
        · refine .inl ⟨a, b, fun y hy => ?_⟩
          rcases List.mem_cons.mp hy with rfl | hy
          · exact hemp
          · exact c y hy
        · refine .inr ⟨s, loc', p', r1, r2, ?_, r4, ?_⟩
          · exact r3.imp_right fun ⟨S, hS, h⟩ => ⟨S, List.mem_cons_of_mem _ hS, h⟩
          · intro y hy z hz
            rcases List.mem_cons.mp hy with rfl | hy
            · rw [hemp] at hz; exact hz.elim
            · exact r5 y hy z hz

end Tracing

/-- C109, exact arithmetic: the program never panics; it answers with nothing exactly when the ray meets none of the surfaces; otherwise with
a point of the ray on the surface of the shape it names, and no surface of the scene is met earlier. -/
theorem C109_trace (q : Ray3 ℝ) (o d : R3) (hq : q.Made o d) (ss : List (Shape ℝ × Set R3)) (hss : ∀ x ∈ ss, Surface o x.1 x.2) :
    ((∀ x ∈ ss, rayPts o d ∩ x.2 = ∅) → trace q (ss.map Prod.fst) = .ok none) ∧
    ((∃ x ∈ ss, (rayPts o d ∩ x.2).Nonempty) → ∃ s S loc p, trace q (ss.map Prod.fst) = .ok (some (s, loc)) ∧ loc.IsR p ∧ (s, S) ∈ ss ∧
      p ∈ rayPts o d ∩ S ∧ ∀ x ∈ ss, ∀ y ∈ rayPts o d ∩ x.2, euc (p - o) ≤ euc (y - o)) := by
  obtain ⟨l, hl, h⟩ := Tracing.main hq ss hss
  have ht : trace q (ss.map Prod.fst) = .ok (nearest q.ori l none) := by simp only [trace, hl]; rfl
  rw [ht]
  rcases h none (by simp) with ⟨e, -, hemp⟩ | ⟨s, loc, p, e, hp, hor, -, hmin⟩
  · rw [e]
    refine ⟨fun _ => rfl, ?_⟩
    rintro ⟨x, hx, hne⟩
    rw [hemp x hx] at hne
    exact absurd hne (by simp)
  · rw [e]
    rcases hor with hor | ⟨S, hS, -, hpS⟩
    · cases hor
    · refine ⟨fun hemp => ?_, fun _ => ⟨s, S, loc, p, rfl, hp, hS, hpS, hmin⟩⟩
      have := hemp _ hS
      rw [this] at hpS
      exact hpS.elim

/-- C109: the way to the reported point is free: the segment from the origin of the ray to it meets the surfaces of the scene there only. -/
theorem C109_free (q : Ray3 ℝ) (o d : R3) (hq : q.Made o d) (ss : List (Shape ℝ × Set R3)) (hss : ∀ x ∈ ss, Surface o x.1 x.2) (s : Shape ℝ)
    (loc : V3 ℝ) (p : R3) (ht : trace q (ss.map Prod.fst) = .ok (some (s, loc))) (hp : loc.IsR p) :
    ∀ x ∈ ss, segment ℝ o p ∩ x.2 ⊆ {p} := by
  obtain ⟨hn, hy⟩ := C109_trace q o d hq ss hss
  have hne : ∃ x ∈ ss, (rayPts o d ∩ x.2).Nonempty := by
    by_contra hc
    push Not at hc
    rw [hn hc] at ht
    cases ht
  obtain ⟨s', S, loc', p', e, hp', -, hS, hmin⟩ := hy hne
  rw [ht] at e
  injection e with e
  injection e with e
  injection e with e1 e2
  subst e1 e2
  rw [Tracing.isR_unique hp' hp] at hS hmin
  intro x hx y hyy
  obtain ⟨hseg, hyx⟩ := hyy
  obtain ⟨k, hk, rfl⟩ := (rayPts_unit hq.1).mp hS.1
  rw [segment_eq_image'] at hseg
  obtain ⟨θ, ⟨h0, h1⟩, rfl⟩ := hseg
  have ey : o + θ • (o + k • unit d - o) = o + (θ * k) • unit d := by rw [add_sub_cancel_left, smul_smul]
  simp only [ey] at hyx ⊢
  have hθ := mul_nonneg h0 hk
  have := hmin x hx _ ⟨(rayPts_unit hq.1).mpr ⟨θ * k, hθ, rfl⟩, hyx⟩
  rw [Tracing.dist_ray hq.1 hk, Tracing.dist_ray hq.1 hθ] at this
  have e : θ * k = k := le_antisymm (by nlinarith) this
  rw [e]
  rfl

/-- C109: the reported point does not depend on the order of the scene, nor on shapes being listed repeatedly. -/
theorem C109_order (q : Ray3 ℝ) (o d : R3) (hq : q.Made o d) (ss ss' : List (Shape ℝ × Set R3)) (hss : ∀ x ∈ ss, Surface o x.1 x.2)
    (hm : ∀ x, x ∈ ss ↔ x ∈ ss') :
    (trace q (ss.map Prod.fst) = .ok none ∧ trace q (ss'.map Prod.fst) = .ok none) ∨
    ∃ s loc s' loc' p, trace q (ss.map Prod.fst) = .ok (some (s, loc)) ∧ trace q (ss'.map Prod.fst) = .ok (some (s', loc')) ∧ loc.IsR p ∧ loc'.IsR p := by
  obtain ⟨hn, hy⟩ := C109_trace q o d hq ss hss
  obtain ⟨hn', hy'⟩ := C109_trace q o d hq ss' fun x hx => hss x ((hm x).mpr hx)
  by_cases hne : ∃ x ∈ ss, (rayPts o d ∩ x.2).Nonempty
  · obtain ⟨s, S, loc, p, e, hp, hs, hS, hmin⟩ := hy hne
    obtain ⟨x, hx, hx'⟩ := hne
    obtain ⟨s', S', loc', p', e', hp', hs', hS', hmin'⟩ := hy' ⟨x, (hm x).mp hx, hx'⟩
    right
    refine ⟨s, loc, s', loc', p, e, e', hp, ?_⟩
    have h1 := hmin _ ((hm _).mpr hs') p' hS'
    have h2 := hmin' _ ((hm _).mp hs) p hS
    obtain ⟨k, hk, rfl⟩ := (rayPts_unit hq.1).mp hS.1
    obtain ⟨k', hk', rfl⟩ := (rayPts_unit hq.1).mp hS'.1
    rw [Tracing.dist_ray hq.1 hk, Tracing.dist_ray hq.1 hk'] at h1 h2
    rw [le_antisymm h1 h2]
    exact hp'
  · left
    push Not at hne
    exact ⟨hn hne, hn' fun x hx => hne x ((hm x).mpr hx)⟩

/-- C109: the same through a hierarchy of bounds. -/
theorem C109_tree (q : Ray3 ℝ) (o : R3) (ss : List (Shape ℝ × Set R3)) (hss : ∀ x ∈ ss, Surface o x.1 x.2)
    (t : Hier ℝ) (ht : t.Built) (hl : t.leaves = ss.map Prod.fst) : t.trace q = trace q (ss.map Prod.fst) := by
  unfold Hier.trace trace
  rw [C108_search (.ray q) t ht ?_, hl]
  intro s hs b hb i
  rw [hl] at hs
  obtain ⟨x, hx, rfl⟩ := List.mem_map.mp hs
  have := hss x hx
  cases x with
  | mk s S =>
    cases this with
    | sphere h hr =>
      cases hb
      have := h.facts.2.2 i
      constructor
      · intro hn; have := this.1; rw [hn] at this; exact this.ne_nan rfl
      · intro hn; have := this.2; rw [hn] at this; exact this.ne_nan rfl
    | plane h hf =>
      cases hb
      rw [h.facts.2.2]
      fin_cases i <;> exact ⟨by simp [AABB.default, Fl.ninf], by simp [AABB.default, Fl.pinf]⟩

/-! ### concrete cases -/

namespace Tracing

theorem e1_ne : (![1, 0, 0] : R3) ≠ 0 := fun h => by simpa using congrFun h 0

/-- a ray along the first axis, two spheres in its way, and a plane behind them facing the ray -/
noncomputable def scene : List (Shape ℝ × Set R3) :=
  [(.plane (mkPlane ![20, 0, 0] (n := -![1, 0, 0]) (neg_ne_zero.mpr e1_ne) defaultVicinity), planePts ![20, 0, 0] (-![1, 0, 0])),
   (.sphere (mkSphere ![9, 0, 0] 1 defaultVicinity), {p | euc (p - ![9, 0, 0]) = 1}),
   (.sphere (mkSphere ![5, 0, 0] 1 defaultVicinity), {p | euc (p - ![5, 0, 0]) = 1})]

theorem scene_surface : ∀ x ∈ scene, Surface 0 x.1 x.2 := by
  intro x hx
  simp only [scene, List.mem_cons, List.not_mem_nil, or_false] at hx
  rcases hx with rfl | rfl | rfl
  · exact .plane (mkPlane_made _ _ _) (by simp)
  · exact .sphere (mkSphere_made _ _ _) zero_le_one
  · exact .sphere (mkSphere_made _ _ _) zero_le_one

theorem scene_met : ∃ x ∈ scene, (rayPts 0 ![1, 0, 0] ∩ x.2).Nonempty :=
  ⟨_, List.mem_cons_self .., 20 • ![1, 0, 0], ⟨20, by norm_num, by simp⟩, by simp [planePts]⟩

end Tracing

example := (C109_trace _ _ _ (mkRay_made 0 Tracing.e1_ne defaultVicinity) Tracing.scene Tracing.scene_surface).2 Tracing.scene_met

/-- the point reported for it, with a free way -/
example : ∃ s loc p, trace (mkRay 0 Tracing.e1_ne defaultVicinity) (Tracing.scene.map Prod.fst) = .ok (some (s, loc)) ∧ loc.IsR p ∧
    ∀ x ∈ Tracing.scene, segment ℝ 0 p ∩ x.2 ⊆ {p} := by
  obtain ⟨s, -, loc, p, h, hp, -⟩ := (C109_trace _ _ _ (mkRay_made 0 Tracing.e1_ne defaultVicinity) Tracing.scene Tracing.scene_surface).2 Tracing.scene_met
  exact ⟨s, loc, p, h, hp, C109_free _ _ _ (mkRay_made 0 Tracing.e1_ne defaultVicinity) _ Tracing.scene_surface s loc p h hp⟩

/-- the scene listed backwards -/
example := C109_order _ _ _ (mkRay_made 0 Tracing.e1_ne defaultVicinity) Tracing.scene Tracing.scene.reverse Tracing.scene_surface
  (by exact fun x => List.mem_reverse.symm)

/-- a hierarchy over the three -/
theorem Tracing.scene_tree : ∃ t : Hier ℝ, t.Built ∧ t.leaves = Tracing.scene.map Prod.fst := by
  obtain ⟨b, h⟩ := C33_discards [(Tracing.scene.map Prod.fst)[1].aabb, (Tracing.scene.map Prod.fst)[2].aabb]
  obtain ⟨b', h'⟩ := C33_discards [(Tracing.scene.map Prod.fst)[0].aabb, b]
  refine ⟨.node b' (.leaf (Tracing.scene.map Prod.fst)[0]) (.node b (.leaf (Tracing.scene.map Prod.fst)[1]) (.leaf (Tracing.scene.map Prod.fst)[2])),
    ⟨trivial, ⟨trivial, trivial, b, ?_⟩, b, ?_⟩, rfl⟩
  · simp only [Hier.bound, Shape.getBound_eq]; exact h _
  · simp only [Hier.bound, Shape.getBound_eq]; exact h' _

example := Tracing.scene_tree.imp fun t h => C109_tree (mkRay 0 Tracing.e1_ne defaultVicinity) 0 _ Tracing.scene_surface t h.1 h.2

/-- C109 fails for planes seen from behind, also in binary64: the ray from `(0, 0, -1)` upwards passes the plane `z = 0` (normal upwards)
unnoticed and reports the sphere behind it; with the normal turned round the plane is reported. -/
theorem C109_behind_false : ∃ (q : Ray3 Q64) (a a' : Plane Q64) (b : Sphere Q64), Ray3.init [0, 0, .fin (-1)] [0, 0, 1] = .ok q ∧
    Plane.init [0, 0, 0] [0, 0, 1] = .ok a ∧ Plane.init [0, 0, 0] [0, 0, .fin (-1)] = .ok a' ∧ Sphere.init [0, 0, .fin 5] 1 = .ok b ∧
    trace q [.plane a, .sphere b] = .ok (some (.sphere b, ⟨#v[0, 0, .fin 4]⟩)) ∧
    trace q [.plane a', .sphere b] = .ok (some (.plane a', ⟨#v[0, 0, 0]⟩)) :=
  ⟨_, _, _, _, rfl, rfl, rfl, rfl, by decide +kernel, by decide +kernel⟩

end Mazth
