import Verif.Proofs.GjkGeom

/-!
# C52: the GJK query on two spheres
-/

set_option linter.unusedSectionVars false
set_option autoImplicit false

namespace Mazth

open Matrix Gjk

section generic
variable {K : Type} [Field K] [LinearOrder K] [IsStrictOrderedRing K] [Fmt K]

/-- C52: any pair of kinds other than sphere–sphere panics. -/
theorem C52_unsupported (fuel : ℕ) (a b : Shape K) (h : ¬(a.getType = .sphere ∧ b.getType = .sphere)) :
    queryIntersect fuel a b = .error .explicit := by
  cases a <;> cases b <;> first | rfl | exact absurd ⟨rfl, rfl⟩ h

/-- concrete case: a sphere against a point -/
example := C52_unsupported 5 (.sphere (mkSphere ![1, 2, 3] 1 0)) (.point (mkPoint 0 0)) (by simp [Shape.getType])

/-- the sphere's support function does not panic -/
theorem sphere_support (s : Sphere K) (v : V3 K) : ∃ o, (Shape.sphere s).getSupport v = .ok o := by
  show ∃ o, s.getSupport v = .ok o
  unfold Sphere.getSupport
  cases magnitudeNonzero v
  · exact ⟨none, rfl⟩
  · exact ⟨_, by simp [V3.normalize_eq, V3.scale_eq, V3.plus_eq]; rfl⟩

theorem spheres_support (s t : Sphere K) (v : V3 K) : ∃ o, support (.sphere s) (.sphere t) v = .ok o := by
  unfold support
  obtain ⟨o, e⟩ := sphere_support s v
  rw [e, Res.ok_bind]
  cases o with
  | none => exact ⟨none, rfl⟩
  | some p =>
    simp only [V3.scale_eq, unwrap_some, Res.ok_bind]
    obtain ⟨o, e⟩ := sphere_support t (V3.scl v (-1))
    rw [e, Res.ok_bind]
    cases o with
    | none => exact ⟨none, rfl⟩
    | some q => exact ⟨_, by simp only [V3.minus_eq, unwrap_some, Res.ok_bind]; rfl⟩

theorem contains3 (p q s d : V3 K) : containsMinkowskiOrigin [p, q, s] d =
    .ok (if Fl.lt 0 (V3.dotp (V3.crs (V3.crs (V3.sub p s) (V3.sub q s)) (V3.sub q s)) (V3.scl s (-1))) = true then
        (false, [q, s], V3.crs (V3.crs (V3.sub p s) (V3.sub q s)) (V3.sub q s))
      else if Fl.lt 0 (V3.dotp (V3.crs (V3.crs (V3.sub q s) (V3.sub p s)) (V3.sub p s)) (V3.scl s (-1))) = true then
        (false, [p, s], V3.crs (V3.crs (V3.sub q s) (V3.sub p s)) (V3.sub p s))
      else (true, [p, q, s], d)) := by
  unfold containsMinkowskiOrigin last
  simp only [List.getLast?_cons_cons, List.getLast?_singleton, unwrap_some, Res.ok_bind, V3.scale_eq, V3.minus_eq, V3.cross_eq,
    V3.dot_eq, sliceGet, List.getElem?_cons_zero, List.getElem?_cons_succ]
  rw [if_pos (show ([p, q, s].length == 3) = true from rfl)]
  split_ifs <;> rfl

theorem contains2 (p s d : V3 K) : containsMinkowskiOrigin [p, s] d =
    .ok (if Fl.feq (V3.mag (V3.crs (V3.crs (V3.sub p s) (V3.scl s (-1))) (V3.scl s (-1)))) 0 = true then (true, [p, s], d)
      else (false, [p, s], V3.crs (V3.crs (V3.sub p s) (V3.scl s (-1))) (V3.scl s (-1)))) := by
  unfold containsMinkowskiOrigin last
  simp only [List.getLast?_cons_cons, List.getLast?_singleton, unwrap_some, Res.ok_bind, V3.scale_eq, V3.minus_eq, V3.cross_eq,
    V3.magnitude_eq, sliceGet, List.getElem?_cons_zero, List.getElem?_cons_succ]
  rw [if_neg (by simp)]
  split_ifs <;> rfl

/-- one turn of the loop -/
theorem queryLoop_succ (a b : Shape K) (n : ℕ) (l : List (V3 K)) (hl : l.length ≤ 2) (d s : V3 K) (hs : support a b d = .ok (some s)) :
    queryLoop a b (n + 1) l d =
    if Fl.lt 0 (V3.dotp s d) = true then
      containsMinkowskiOrigin (l ++ [s]) d >>= fun r => if r.1 then .ok (some true) else queryLoop a b n r.2.1 r.2.2
    else .ok (some false) := by
  rw [queryLoop, hs]
  simp only [Res.ok_bind, unwrap_some, last, List.getLast?_concat, passMinkowskiOrigin, V3.dot_eq]
  rw [show decide ((l ++ [s]).length ≤ 3) = true by simp; omega]
  show (Except.ok () >>= fun _ => _) = _
  rw [Res.ok_bind]
  cases Fl.lt 0 (V3.dotp s d)
  · rfl
  · rfl

/-- C52: on two spheres the query answers `Some(true)` or `Some(false)`, runs for ever, or panics unwrapping the support
point of a direction of magnitude zero; in particular the assertion on the simplex size never fails, no index is out of
range and `None` is never answered (all floats). -/
theorem C52_panics (fuel : ℕ) (s t : Sphere K) : (∃ r, queryIntersect fuel (.sphere s) (.sphere t) = .ok (some r)) ∨
    queryIntersect fuel (.sphere s) (.sphere t) = .error .diverge ∨
    queryIntersect fuel (.sphere s) (.sphere t) = .error .unwrapNone := by
  have hloop : ∀ (n : ℕ) (l : List (V3 K)) (d : V3 K), l.length = 1 ∨ l.length = 2 →
      (∃ r, queryLoop (.sphere s) (.sphere t) n l d = .ok (some r)) ∨ queryLoop (.sphere s) (.sphere t) n l d = .error .diverge ∨
      queryLoop (.sphere s) (.sphere t) n l d = .error .unwrapNone := by
    intro n
    induction n with
    | zero => intro l d _; exact .inr (.inl rfl)
    | succ n ih =>
      intro l d hl
      obtain ⟨o, e⟩ := spheres_support s t d
      cases o with
      | none => right; right; rw [queryLoop, e]; rfl
      | some x =>
        rw [queryLoop_succ _ _ n l (by omega) d x e]
        split_ifs
        · rcases hl with hl | hl
          · obtain ⟨p, rfl⟩ := List.length_eq_one_iff.mp hl
            rw [List.singleton_append, contains2]
            split_ifs
            · exact .inl ⟨true, rfl⟩
            · exact ih _ _ (.inr rfl)
          · obtain ⟨p, q, rfl⟩ := List.length_eq_two.mp hl
            rw [List.cons_append, List.singleton_append, contains3]
            split_ifs
            · exact ih _ _ (.inr rfl)
            · exact ih _ _ (.inr rfl)
            · exact .inl ⟨true, rfl⟩
        · exact .inl ⟨false, rfl⟩
  unfold queryIntersect
  obtain ⟨o, e⟩ := spheres_support s t ⟨#v[-1, 0, 0]⟩
  show (∃ r, (support (.sphere s) (.sphere t) ⟨#v[-1, 0, 0]⟩ >>= _) = _) ∨ (support (.sphere s) (.sphere t) ⟨#v[-1, 0, 0]⟩ >>= _) = _ ∨
    (support (.sphere s) (.sphere t) ⟨#v[-1, 0, 0]⟩ >>= _) = _
  rw [e]
  cases o with
  | none => exact .inr (.inr rfl)
  | some x =>
    simp only [Res.ok_bind, unwrap_some, V3.scale_eq]
    exact hloop _ _ _ (.inl rfl)

/-- concrete case: spheres with NaN fields -/
example := C52_panics (K := Q64) 5 ⟨⟨#v[.nan, 0, 1]⟩, .nan, AABB.default, 0⟩ ⟨⟨#v[0, 0, 1]⟩, 1, AABB.default, 0⟩

/-- C52: an answer does not depend on how long the loop is allowed to run. -/
theorem C52_fuel (n k : ℕ) (a b : Shape K) (h : queryIntersect n a b ≠ .error .diverge) :
    queryIntersect (n + k) a b = queryIntersect n a b := by
  have hloop : ∀ (n : ℕ) (l : List (V3 K)) (d : V3 K), queryLoop a b n l d ≠ .error .diverge →
      queryLoop a b (n + k) l d = queryLoop a b n l d := by
    intro n
    induction n with
    | zero => intro l d h; exact absurd rfl h
    | succ n ih =>
      intro l d h
      rw [Nat.succ_add]
      rw [queryLoop] at h ⊢
      rw [queryLoop]
      cases h1 : support a b d with
      | error e => rfl
      | ok o =>
        simp only [h1, Res.ok_bind] at h ⊢
        cases h2 : unwrap o with
        | error e => rfl
        | ok s =>
          simp only [h2, Res.ok_bind] at h ⊢
          cases h3 : assert (decide ((l ++ [s]).length ≤ 3)) with
          | error e => rfl
          | ok u =>
            simp only [h3, Res.ok_bind] at h ⊢
            cases h4 : last (l ++ [s]) with
            | error e => rfl
            | ok z =>
              simp only [h4, Res.ok_bind] at h ⊢
              cases h5 : passMinkowskiOrigin z d with
              | error e => rfl
              | ok c =>
                simp only [h5, Res.ok_bind] at h ⊢
                cases c with
                | false => rfl
                | true =>
                  cases h6 : containsMinkowskiOrigin (l ++ [s]) d with
                  | error e => rfl
                  | ok r =>
                    obtain ⟨f, l', d'⟩ := r
                    simp only [h6, Res.ok_bind] at h ⊢
                    cases f with
                    | true => rfl
                    | false => exact ih l' d' h
  by_cases ht : a.getType = .sphere ∧ b.getType = .sphere
  · unfold queryIntersect at h ⊢
    rw [ht.1, ht.2] at h ⊢
    simp only at h ⊢
    cases h1 : support a b ⟨#v[-1, 0, 0]⟩ with
    | error e => rfl
    | ok o =>
      rw [h1] at h
      cases h2 : unwrap o with
      | error e => simp only [Res.ok_bind, h2]; rfl
      | ok s =>
        simp only [Res.ok_bind, h2, V3.scale_eq, unwrap_some] at h ⊢
        exact hloop _ _ _ h
  · rw [C52_unsupported _ _ _ ht, C52_unsupported _ _ _ ht]

/-- concrete case: once a call has returned, more fuel does not change the answer -/
example (a b : Sphere Q64) (ha : Sphere.init [.fin 2, 1, 0] 1 = .ok a) (hb : Sphere.init [0, 0, 0] (.fin 2) = .ok b) :
    queryIntersect 12 (.sphere a) (.sphere b) = queryIntersect 5 (.sphere a) (.sphere b) :=
  C52_fuel 5 7 _ _ (by cases ha; cases hb; decide +kernel)

end generic

/-! ## Exact arithmetic -/

open GjkGeom

theorem unit_neg' (u : R3) : unit (-u) = -unit u := by
  rw [unit, unit, show -u = (-1 : ℝ) • u by simp, euc_smul]; simp

theorem isR_neg {v : V3 ℝ} {u : R3} (hv : v.IsR u) : (V3.scl v (-1)).IsR (-u) := by
  have := V3.isR_scl hv (Fl.is_one.neg)
  simpa using this

section
variable {s t : Sphere ℝ} {ca cb : R3} {ra rb : ℝ}

theorem support_real (hs : s.Made ca ra) (ht : t.Made cb rb) {d : V3 ℝ} {u : R3} (hd : d.IsR u) (hu : u ≠ 0) :
    ∃ p, support (.sphere s) (.sphere t) d = .ok (some p) ∧ p.IsR (sup (ca - cb) (ra + rb) u) := by
  obtain ⟨ho, hrad, _⟩ := hs.facts
  obtain ⟨ho', hrad', _⟩ := ht.facts
  have hn : (-u) ≠ 0 := neg_ne_zero.mpr hu
  have key (s : Sphere ℝ) (v : V3 ℝ) (w : R3) (hv : v.IsR w) (hw : w ≠ 0) :
      (Shape.sphere s).getSupport v = .ok (some (V3.add s.ori (V3.scl (V3.nrm v) s.radius))) := by
    show Sphere.getSupport s v = _
    unfold Sphere.getSupport
    rw [(magnitudeNonzero_real hv).mpr hw]
    simp [V3.normalize_eq, V3.scale_eq, V3.plus_eq]
  have e : support (.sphere s) (.sphere t) d = .ok (some (V3.sub (V3.add s.ori (V3.scl (V3.nrm d) s.radius))
      (V3.add t.ori (V3.scl (V3.nrm (V3.scl d (-1))) t.radius)))) := by
    unfold support
    rw [key s d u hd hu]
    simp only [Res.ok_bind, V3.scale_eq, unwrap_some]
    rw [key t _ _ (isR_neg hd) hn]
    simp only [Res.ok_bind, V3.minus_eq, unwrap_some]
  refine ⟨_, e, ?_⟩
  have h := V3.isR_sub (V3.isR_add ho (V3.isR_scl (V3.isR_nrm hd hu) hrad))
    (V3.isR_add ho' (V3.isR_scl (V3.isR_nrm (isR_neg hd) hn) hrad'))
  have e2 : ca + ra • (euc u)⁻¹ • u - (cb + rb • (euc (-u))⁻¹ • (-u)) = sup (ca - cb) (ra + rb) u := by
    have := unit_neg' u
    rw [unit, unit] at this
    rw [this]
    unfold sup
    rw [unit]; module
  rw [e2] at h
  exact h

/-- what one turn of the loop does from a two-point simplex -/
theorem loop_real (hs : s.Made ca ra) (ht : t.Made cb rb) (n : ℕ) {p q d : V3 ℝ} {P Q D m : R3}
    (hp : p.IsR P) (hq : q.IsR Q) (hd : d.IsR D) (hI : GjkGeom.Inv (ca - cb) m (ra + rb) P Q D) :
    (sup (ca - cb) (ra + rb) D ⬝ᵥ D ≤ 0 ∧ queryLoop (.sphere s) (.sphere t) (n + 1) [p, q] d = .ok (some false)) ∨
    (0 < sup (ca - cb) (ra + rb) D ⬝ᵥ D ∧ ∃ (x d' : V3 ℝ) (A B : R3) (a : V3 ℝ), (A = P ∧ B = Q ∨ A = Q ∧ B = P) ∧ a.IsR A ∧
      x.IsR (sup (ca - cb) (ra + rb) D) ∧ d'.IsR (out (sup (ca - cb) (ra + rb) D) A B) ∧
      0 < out (sup (ca - cb) (ra + rb) D) A B ⬝ᵥ (-sup (ca - cb) (ra + rb) D) ∧
      queryLoop (.sphere s) (.sphere t) (n + 1) [p, q] d = queryLoop (.sphere s) (.sphere t) n [a, x] d') ∨
    (0 < sup (ca - cb) (ra + rb) D ⬝ᵥ D ∧ out (sup (ca - cb) (ra + rb) D) Q P ⬝ᵥ (-sup (ca - cb) (ra + rb) D) ≤ 0 ∧
      out (sup (ca - cb) (ra + rb) D) P Q ⬝ᵥ (-sup (ca - cb) (ra + rb) D) ≤ 0 ∧
      queryLoop (.sphere s) (.sphere t) (n + 1) [p, q] d = .ok (some true)) := by
  obtain ⟨x, ex, hx⟩ := support_real hs ht hd hI.d0
  rw [queryLoop_succ _ _ n [p, q] (by simp) d x ex]
  generalize sup (ca - cb) (ra + rb) D = S at *
  have hab : Mat3x1.IsR _ (out S Q P) := V3.isR_crs (V3.isR_crs (V3.isR_sub hp hx) (V3.isR_sub hq hx)) (V3.isR_sub hq hx)
  have hac : Mat3x1.IsR _ (out S P Q) := V3.isR_crs (V3.isR_crs (V3.isR_sub hq hx) (V3.isR_sub hp hx)) (V3.isR_sub hp hx)
  have hx' := isR_neg hx
  rw [Fl.is_zero.lt (V3.is_dotp hx hd)]
  by_cases h0 : 0 < S ⬝ᵥ D
  · right
    rw [if_pos (decide_eq_true h0), List.cons_append, List.singleton_append, contains3,
      Fl.is_zero.lt (V3.is_dotp hab hx'), Fl.is_zero.lt (V3.is_dotp hac hx')]
    by_cases h1 : 0 < out S Q P ⬝ᵥ (-S)
    · left
      refine ⟨h0, x, _, Q, P, q, .inr ⟨rfl, rfl⟩, hq, hx, hab, h1, ?_⟩
      rw [if_pos (decide_eq_true h1)]; rfl
    · by_cases h2 : 0 < out S P Q ⬝ᵥ (-S)
      · left
        refine ⟨h0, x, _, P, Q, p, .inl ⟨rfl, rfl⟩, hp, hx, hac, h2, ?_⟩
        rw [if_neg (mt of_decide_eq_true h1), if_pos (decide_eq_true h2)]; rfl
      · right
        refine ⟨h0, not_lt.mp h1, not_lt.mp h2, ?_⟩
        rw [if_neg (mt of_decide_eq_true h1), if_neg (mt of_decide_eq_true h2)]; rfl
  · left
    exact ⟨not_lt.mp h0, by rw [if_neg (by simpa using h0)]⟩

/-- a correct answer for centre difference `c` and radius sum `R` -/
def Answers (r : Res (Option Bool)) (c : R3) (R : ℝ) : Prop :=
  (r = .ok (some false) ∧ R ≤ euc c) ∨ (r = .ok (some true) ∧ euc c ≤ R)

theorem loop_sound (hs : s.Made ca ra) (ht : t.Made cb rb) (hR : 0 ≤ ra + rb) {m : R3} (hm : m ≠ 0) (hc : (ca - cb) ⬝ᵥ m = 0) (n : ℕ) :
    ∀ {p q d : V3 ℝ} {P Q D : R3}, p.IsR P → q.IsR Q → d.IsR D → GjkGeom.Inv (ca - cb) m (ra + rb) P Q D →
    queryLoop (.sphere s) (.sphere t) n [p, q] d = .error .diverge ∨
    Answers (queryLoop (.sphere s) (.sphere t) n [p, q] d) (ca - cb) (ra + rb) := by
  induction n with
  | zero => intros; exact .inl rfl
  | succ n ih =>
    intro p q d P Q D hp hq hd hI
    rcases loop_real hs ht n hp hq hd hI with ⟨h, e⟩ | ⟨h0, x, d', A, B, a, hAB, ha, hx, hd', ho, e⟩ | ⟨h0, h1, h2, e⟩
    · exact .inr (.inl ⟨e, far_of_not_pass hI.d0 h⟩)
    · rw [e]
      rcases hAB with ⟨rfl, rfl⟩ | ⟨rfl, rfl⟩
      · exact ih ha hx hd' (hI.symm.next hc h0 ho).toInv
      · exact ih ha hx hd' (hI.next hc h0 ho).toInv
    · exact .inr (.inr ⟨e, hI.inside hm hR hc h0 h1 h2⟩)

/-- the loop stops from an edge whose segment is small enough relative to the number of turns allowed -/
theorem loop_stops (hs : s.Made ca ra) (ht : t.Made cb rb) (hR : 0 < ra + rb) {m : R3} (hm : m ≠ 0) (hc : (ca - cb) ⬝ᵥ m = 0)
    (hne : euc (ca - cb) ≠ ra + rb) :
    ∃ β : ℝ, 0 < β ∧ min (ra + rb) (|euc (ca - cb) - (ra + rb)| / 2) ≤ β ∧
      ∀ (n : ℕ) {p q d : V3 ℝ} {P Q D : R3}, p.IsR P → q.IsR Q → d.IsR D → Edge (ca - cb) m (ra + rb) P Q D →
      sag (ca - cb) (ra + rb) P D ≤ β * 2 ^ n → queryLoop (.sphere s) (.sphere t) (n + 2) [p, q] d ≠ .error .diverge := by
  have step : ∀ (β : ℝ), (∀ {p q d : V3 ℝ} {P Q D : R3}, p.IsR P → q.IsR Q → d.IsR D → Edge (ca - cb) m (ra + rb) P Q D →
      sag (ca - cb) (ra + rb) P D ≤ β → queryLoop (.sphere s) (.sphere t) 2 [p, q] d ≠ .error .diverge) →
      ∀ (n : ℕ) {p q d : V3 ℝ} {P Q D : R3}, p.IsR P → q.IsR Q → d.IsR D → Edge (ca - cb) m (ra + rb) P Q D →
      sag (ca - cb) (ra + rb) P D ≤ β * 2 ^ n → queryLoop (.sphere s) (.sphere t) (n + 2) [p, q] d ≠ .error .diverge := by
    intro β hβ n
    induction n with
    | zero => intro p q d P Q D hp hq hd hE h; exact hβ hp hq hd hE (by simpa using h)
    | succ n ih =>
      intro p q d P Q D hp hq hd hE h
      rcases loop_real hs ht (n + 2) hp hq hd hE.toInv with ⟨_, e⟩ | ⟨h0, x, d', A, B, a, hAB, ha, hx, hd', ho, e⟩ | ⟨_, _, _, e⟩
      · rw [show n + 1 + 2 = n + 2 + 1 from rfl, e]; simp
      · rw [show n + 1 + 2 = n + 2 + 1 from rfl, e]
        rw [pow_succ] at h
        rcases hAB with ⟨rfl, rfl⟩ | ⟨rfl, rfl⟩
        · have h1 := hE.symm.halve hm hR hc h0 ho
          have h2 : sag (ca - cb) (ra + rb) B D = sag (ca - cb) (ra + rb) A D := by
            unfold sag; rw [sub_dotProduct B, sub_dotProduct A, hE.unit_eq]
          exact ih ha hx hd' (hE.symm.toInv.next hc h0 ho) (by linarith)
        · have h1 := hE.halve hm hR hc h0 ho
          exact ih ha hx hd' (hE.toInv.next hc h0 ho) (by linarith)
      · rw [show n + 1 + 2 = n + 2 + 1 from rfl, e]; simp
  rcases lt_or_gt_of_ne hne with h | h
  · refine ⟨ra + rb - euc (ca - cb), by linarith, (min_le_right _ _).trans ?_, step _ ?_⟩
    · rw [abs_of_neg (by linarith)]; linarith
    intro p q d P Q D _ _ _ hE hsag
    exact absurd hE.sag_gt (not_lt.mpr hsag)
  · have hL : 0 < euc (ca - cb) ^ 2 - (ra + rb) ^ 2 := by nlinarith
    refine ⟨min (ra + rb) ((euc (ca - cb) ^ 2 - (ra + rb) ^ 2) / (4 * (ra + rb))), lt_min hR (by positivity),
      min_le_min le_rfl ?_, step _ ?_⟩
    · rw [abs_of_pos (by linarith), le_div_iff₀ (by positivity)]
      nlinarith [mul_nonneg (sub_nonneg.mpr h.le) (sub_nonneg.mpr h.le)]
    intro p q d P Q D hp hq hd hE hsag
    have hs1 := hsag.trans (min_le_left _ _)
    have hs2 : 4 * (ra + rb) * sag (ca - cb) (ra + rb) P D ≤ euc (ca - cb) ^ 2 - (ra + rb) ^ 2 := by
      have := hsag.trans (min_le_right _ _)
      rw [le_div_iff₀ (by positivity)] at this
      linarith
    -- the second pass test fails
    have fin : ∀ {P Q : R3}, Edge (ca - cb) m (ra + rb) P Q D → sag (ca - cb) (ra + rb) P D ≤ ra + rb →
        4 * (ra + rb) * sag (ca - cb) (ra + rb) P D ≤ euc (ca - cb) ^ 2 - (ra + rb) ^ 2 →
        0 < sup (ca - cb) (ra + rb) D ⬝ᵥ D → 0 < out (sup (ca - cb) (ra + rb) D) Q P ⬝ᵥ (-sup (ca - cb) (ra + rb) D) →
        ¬0 < sup (ca - cb) (ra + rb) (out (sup (ca - cb) (ra + rb) D) Q P) ⬝ᵥ out (sup (ca - cb) (ra + rb) D) Q P := by
      intro P Q hE h1 h2 h0 ho hs'
      have h3 := hE.twice hm hR hc h0 ho hs' h1
      obtain ⟨_, _, _, _, _, _, hpos⟩ := hE.turn hm hR hc h0 ho
      have := mul_pos hR hpos
      linarith
    rcases loop_real hs ht 1 hp hq hd hE.toInv with ⟨_, e⟩ | ⟨h0, x, d', A, B, a, hAB, ha, hx, hd', ho, e⟩ | ⟨_, _, _, e⟩
    · rw [e]; simp
    · rw [e]
      have hE' : Edge (ca - cb) m (ra + rb) A (sup (ca - cb) (ra + rb) D) (out (sup (ca - cb) (ra + rb) D) A B) ∧
          ¬0 < sup (ca - cb) (ra + rb) (out (sup (ca - cb) (ra + rb) D) A B) ⬝ᵥ out (sup (ca - cb) (ra + rb) D) A B := by
        rcases hAB with ⟨rfl, rfl⟩ | ⟨rfl, rfl⟩
        · have h2 : sag (ca - cb) (ra + rb) B D = sag (ca - cb) (ra + rb) A D := by
            unfold sag; rw [sub_dotProduct B, sub_dotProduct A, hE.unit_eq]
          exact ⟨hE.symm.toInv.next hc h0 ho, fin hE.symm (h2 ▸ hs1) (h2 ▸ hs2) h0 ho⟩
        · exact ⟨hE.toInv.next hc h0 ho, fin hE hs1 hs2 h0 ho⟩
      rcases loop_real hs ht 0 ha hx hd' hE'.1.toInv with ⟨_, e⟩ | ⟨h0', _⟩ | ⟨h0', _⟩
      · rw [e]; simp
      · exact absurd h0' hE'.2
      · exact absurd h0' hE'.2
    · rw [e]; simp

/-- the first turn: `e = (1, 0, 0)` -/
theorem query_real (hs : s.Made ca ra) (ht : t.Made cb rb) (n : ℕ) :
    ∃ (p q : V3 ℝ), p.IsR (ca - cb + (ra + rb) • (-![1, 0, 0])) ∧ q.IsR (ca - cb + (ra + rb) • ![1, 0, 0]) ∧
    queryIntersect (n + 1) (.sphere s) (.sphere t) =
      if 0 < (ca - cb) 0 + (ra + rb) then
        if Fl.feq (V3.mag (V3.crs (V3.crs (V3.sub p q) (V3.scl q (-1))) (V3.scl q (-1)))) 0 = true then .ok (some true)
        else queryLoop (.sphere s) (.sphere t) n [p, q] (V3.crs (V3.crs (V3.sub p q) (V3.scl q (-1))) (V3.scl q (-1)))
      else .ok (some false) := by
  have hd : (⟨#v[-1, 0, 0]⟩ : V3 ℝ).IsR (-![1, 0, 0]) := by
    have e : -![(1 : ℝ), 0, 0] = ![-1, 0, 0] := by ext i; fin_cases i <;> simp
    rw [e]; exact V3.isR_mk Fl.is_one.neg Fl.is_zero Fl.is_zero
  have hd' := isR_neg hd
  rw [neg_neg] at hd'
  have he : euc ![(1 : ℝ), 0, 0] = 1 := by rw [euc_eq]; simp [Fin.sum_univ_three]
  have he' : euc (-![(1 : ℝ), 0, 0]) = 1 := by rw [show -![(1 : ℝ), 0, 0] = (-1 : ℝ) • ![1, 0, 0] by simp, euc_smul, he]; simp
  have h0 : ![(1 : ℝ), 0, 0] ≠ 0 := fun h => by rw [h, (euc_eq_zero _).mpr rfl] at he; exact zero_ne_one he
  obtain ⟨p, ep, hp⟩ := support_real hs ht hd (neg_ne_zero.mpr h0)
  obtain ⟨q, eq, hq⟩ := support_real hs ht hd' h0
  unfold sup unit at hp hq
  rw [he', inv_one, one_smul] at hp
  rw [he, inv_one, one_smul] at hq
  refine ⟨p, q, hp, hq, ?_⟩
  show (support (.sphere s) (.sphere t) ⟨#v[-1, 0, 0]⟩ >>= _) = _
  rw [ep]
  simp only [Res.ok_bind, unwrap_some, V3.scale_eq]
  rw [queryLoop_succ _ _ n [p] (by simp) _ q eq, List.singleton_append, contains2]
  have hdot : (V3.dotp q (V3.scl ⟨#v[-1, 0, 0]⟩ (-1))).Is ((ca - cb) 0 + (ra + rb)) :=
    (V3.is_dotp hq hd').cast (by rw [dot3]; simp)
  rw [Fl.is_zero.lt hdot]
  simp only [decide_eq_true_eq, Res.ok_bind]
  split_ifs <;> first | rfl | simp_all

theorem diam_cross (c e : R3) (R : ℝ) : (c + R • (-e) - (c + R • e)) ⨯₃ (-(c + R • e)) = (-2 * R) • (c ⨯₃ e) := by
  ext i
  fin_cases i <;> simp [cross_apply] <;> ring

theorem diam_cross' (c e : R3) (R : ℝ) : (c + R • e) ⨯₃ (c + R • (-e)) = (-2 * R) • (c ⨯₃ e) := by
  ext i
  fin_cases i <;> simp [cross_apply] <;> ring

/-- C52 on the line parallel to the first axis (and for two points): the answer comes at once and only compares
`0 < x_a - x_b + r_a + r_b`. -/
theorem C52_axis (s t : Sphere ℝ) (ca cb : R3) (ra rb : ℝ) (hs : s.Made ca ra) (ht : t.Made cb rb)
    (h : ca 1 = cb 1 ∧ ca 2 = cb 2 ∨ ra + rb = 0) (n : ℕ) :
    (0 < ca 0 - cb 0 + (ra + rb) → queryIntersect (n + 1) (.sphere s) (.sphere t) = .ok (some true)) ∧
    (ca 0 - cb 0 + (ra + rb) ≤ 0 → queryIntersect (n + 1) (.sphere s) (.sphere t) = .ok (some false)) := by
  obtain ⟨p, q, hp, hq, e⟩ := query_real hs ht n
  rw [e]
  constructor
  · intro hpos
    rw [if_pos (by simpa using hpos), if_pos]
    rw [(V3.is_mag (V3.isR_crs (V3.isR_crs (V3.isR_sub hp hq) (isR_neg hq)) (isR_neg hq))).feq Fl.is_zero, decide_eq_true_eq,
      euc_eq_zero]
    have hz : (ca - cb + (ra + rb) • (-![1, 0, 0]) - (ca - cb + (ra + rb) • ![1, 0, 0])) ⨯₃ (-(ca - cb + (ra + rb) • ![1, 0, 0])) = 0 := by
      rw [diam_cross]
      rcases h with ⟨h1, h2⟩ | h1
      · have e1 : (ca - cb) 1 = 0 := sub_eq_zero.mpr h1
        have e2 : (ca - cb) 2 = 0 := sub_eq_zero.mpr h2
        have : (ca - cb) ⨯₃ ![1, 0, 0] = 0 := by rw [cross_apply, e1, e2]; ext i; fin_cases i <;> simp
        rw [this, smul_zero]
      · rw [h1]; simp
    rw [hz]; simp
  · intro hneg
    rw [if_neg (by simpa using hneg)]

/-- concrete case: centres on a line parallel to the `x` axis -/
example := C52_axis _ _ _ _ _ _ (mkSphere_made ![5, 2, 3] 1 0) (mkSphere_made ![0, 2, 3] 2 0) (.inl ⟨rfl, rfl⟩) 0

theorem not_axis (hR : ra + rb ≠ 0) (h : ¬(ca 1 = cb 1 ∧ ca 2 = cb 2)) :
    (ca - cb) ⨯₃ ![1, 0, 0] ≠ 0 ∧ (ca - cb + (ra + rb) • ![1, 0, 0]) ⨯₃ (ca - cb + (ra + rb) • (-![1, 0, 0])) ≠ 0 := by
  have h1 : (ca - cb) ⨯₃ ![1, 0, 0] ≠ 0 := by
    intro e
    apply h
    generalize hc : ca - cb = c at e
    have e1 : (ca - cb) 2 = 0 := by
      have := congrFun e 1
      rw [cross_apply] at this
      rw [hc]; simpa using this
    have e2 : (ca - cb) 1 = 0 := by
      have := congrFun e 2
      rw [cross_apply] at this
      rw [hc]; simpa using this
    exact ⟨sub_eq_zero.mp e2, sub_eq_zero.mp e1⟩
  refine ⟨h1, fun e => h1 ?_⟩
  rw [diam_cross'] at e
  exact (smul_eq_zero.mp e).resolve_left (by simpa using hR)

/-- off the axis the first turn leads to the invariant -/
theorem first_inv' (hs : s.Made ca ra) (ht : t.Made cb rb) (hR : 0 < ra + rb) (h : ¬(ca 1 = cb 1 ∧ ca 2 = cb 2)) (n : ℕ) :
    ((ca - cb) 0 + (ra + rb) ≤ 0 ∧ queryIntersect (n + 1) (.sphere s) (.sphere t) = .ok (some false)) ∨
    ∃ (p q d : V3 ℝ) (P Q D : R3), p.IsR P ∧ q.IsR Q ∧ d.IsR D ∧ GjkGeom.Inv (ca - cb) ((ca - cb) ⨯₃ ![1, 0, 0]) (ra + rb) P Q D ∧
      queryIntersect (n + 1) (.sphere s) (.sphere t) = queryLoop (.sphere s) (.sphere t) n [p, q] d ∧
      P = ca - cb + (ra + rb) • (-![1, 0, 0]) ∧ Q = ca - cb + (ra + rb) • ![1, 0, 0] ∧ D = (Q ⬝ᵥ P) • Q - (Q ⬝ᵥ Q) • P := by
  obtain ⟨p, q, hp, hq, e⟩ := query_real hs ht n
  by_cases hpos : 0 < (ca - cb) 0 + (ra + rb)
  · right
    rw [if_pos hpos] at e
    have hD := V3.isR_crs (V3.isR_crs (V3.isR_sub hp hq) (isR_neg hq)) (isR_neg hq)
    obtain ⟨hm, hcr⟩ := not_axis hR.ne' h
    have hpm : (ca - cb + (ra + rb) • (-![1, 0, 0])) ⬝ᵥ ((ca - cb) ⨯₃ ![1, 0, 0]) = 0 := by
      rw [add_dotProduct, smul_dotProduct, neg_dotProduct, dot_self_cross, dot_cross_self]; simp
    have hqm : (ca - cb + (ra + rb) • ![1, 0, 0]) ⬝ᵥ ((ca - cb) ⨯₃ ![1, 0, 0]) = 0 := by
      rw [add_dotProduct, smul_dotProduct, dot_self_cross, dot_cross_self]; simp
    have hee : ![(1 : ℝ), 0, 0] ⬝ᵥ ![1, 0, 0] = 1 := by rw [dot3]; simp
    have hon : (ca - cb + (ra + rb) • ![1, 0, 0] - (ca - cb)) ⬝ᵥ (ca - cb + (ra + rb) • ![1, 0, 0] - (ca - cb)) = (ra + rb) ^ 2 := by
      rw [add_sub_cancel_left, smul_dotProduct, dotProduct_smul, hee]; simp [sq]
    have hon' : (ca - cb + (ra + rb) • (-![1, 0, 0]) - (ca - cb)) ⬝ᵥ (ca - cb + (ra + rb) • (-![1, 0, 0]) - (ca - cb)) = (ra + rb) ^ 2 := by
      rw [add_sub_cancel_left, smul_dotProduct, dotProduct_smul, neg_dotProduct_neg, hee]; simp [sq]
    have hne : ca - cb + (ra + rb) • (-![1, 0, 0]) ≠ ca - cb + (ra + rb) • ![1, 0, 0] := by
      intro e; rw [e] at hcr; exact hcr (cross_self _)
    generalize hP : ca - cb + (ra + rb) • (-![1, 0, 0]) = P at *
    generalize hQ : ca - cb + (ra + rb) • ![1, 0, 0] = Q at *
    have eD : ((P - Q) ⨯₃ (-Q)) ⨯₃ (-Q) = (Q ⬝ᵥ P) • Q - (Q ⬝ᵥ Q) • P := by
      ext i
      fin_cases i <;> simp [cross_apply, dotProduct, Fin.sum_univ_three] <;> ring
    rw [eD] at hD
    have hD0 : (Q ⬝ᵥ P) • Q - (Q ⬝ᵥ Q) • P ≠ 0 := by
      intro e0
      have h1 : (Q ⬝ᵥ Q) • (Q ⨯₃ P) = 0 := by
        have := congrArg (fun z => Q ⨯₃ z) e0
        simpa using this
      rcases smul_eq_zero.mp h1 with h2 | h2
      · rw [dot_self_eq_zero h2] at hcr; exact hcr (by simp)
      · exact hcr h2
    rw [if_neg (by rw [(V3.is_mag hD).feq Fl.is_zero, decide_eq_true_eq, euc_eq_zero]; exact hD0)] at e
    refine ⟨p, q, _, P, Q, _, hp, hq, hD, ⟨hon', hon, hne, hpm, hqm, ?_, hD0, ?_, ?_⟩, e, rfl, rfl, rfl⟩
    · rw [sub_dotProduct, smul_dotProduct, smul_dotProduct, hpm, hqm]; simp
    · have := abs_dot_le P Q
      have h2 := euc_sq P
      have h3 := euc_sq Q
      have h4 : (P ⬝ᵥ Q) ^ 2 ≤ (P ⬝ᵥ P) * (Q ⬝ᵥ Q) := by
        rw [← h2, ← h3, ← sq_abs, show euc P * euc P * (euc Q * euc Q) = (euc P * euc Q) ^ 2 by ring]
        exact pow_le_pow_left₀ (abs_nonneg _) this 2
      rw [dotProduct_sub, dotProduct_smul, dotProduct_smul, dotProduct_comm Q P]
      simp only [smul_eq_mul]
      nlinarith
    · rw [dotProduct_sub, dotProduct_smul, dotProduct_smul]
      simp only [smul_eq_mul]
      exact le_of_eq (by ring)
  · left
    rw [if_neg hpos] at e
    exact ⟨not_lt.mp hpos, e⟩

theorem first_inv (hs : s.Made ca ra) (ht : t.Made cb rb) (hR : 0 < ra + rb) (h : ¬(ca 1 = cb 1 ∧ ca 2 = cb 2)) (n : ℕ) :
    ((ca - cb) 0 + (ra + rb) ≤ 0 ∧ queryIntersect (n + 1) (.sphere s) (.sphere t) = .ok (some false)) ∨
    ∃ (p q d : V3 ℝ) (P Q D : R3), p.IsR P ∧ q.IsR Q ∧ d.IsR D ∧ GjkGeom.Inv (ca - cb) ((ca - cb) ⨯₃ ![1, 0, 0]) (ra + rb) P Q D ∧
      queryIntersect (n + 1) (.sphere s) (.sphere t) = queryLoop (.sphere s) (.sphere t) n [p, q] d := by
  rcases first_inv' hs ht hR h n with h1 | ⟨p, q, d, P, Q, D, hp, hq, hd, hI, e, -⟩
  · exact .inl h1
  · exact .inr ⟨p, q, d, P, Q, D, hp, hq, hd, hI, e⟩

/-- the first coordinate is at most the length -/
theorem far_first {c : R3} {R : ℝ} (h : c 0 + R ≤ 0) : R ≤ euc c := by
  have := abs_le.mp (euc_coord_le c 0)
  linarith

theorem query_zero (hs : s.Made ca ra) (ht : t.Made cb rb) : queryIntersect 0 (.sphere s) (.sphere t) = .error .diverge := by
  obtain ⟨p, ep, _⟩ := support_real hs ht (d := ⟨#v[-1, 0, 0]⟩) (u := ![-1, 0, 0])
    (V3.isR_mk Fl.is_one.neg Fl.is_zero Fl.is_zero) (fun e => by
      have : (-1 : ℝ) = 0 := congrFun e 0
      norm_num at this)
  show (support (.sphere s) (.sphere t) ⟨#v[-1, 0, 0]⟩ >>= _) = _
  rw [ep]
  simp only [Res.ok_bind, unwrap_some, V3.scale_eq]
  rfl

theorem query_answers (hs : s.Made ca ra) (ht : t.Made cb rb) (hR : 0 < ra + rb) (h : ¬(ca 1 = cb 1 ∧ ca 2 = cb 2)) (n : ℕ) :
    queryIntersect n (.sphere s) (.sphere t) = .error .diverge ∨
    Answers (queryIntersect n (.sphere s) (.sphere t)) (ca - cb) (ra + rb) := by
  cases n with
  | zero => exact .inl (query_zero hs ht)
  | succ n =>
    rcases first_inv hs ht hR h n with ⟨h1, e⟩ | ⟨p, q, d, P, Q, D, hp, hq, hd, hI, e⟩
    · exact .inr (.inl ⟨e, far_first h1⟩)
    · rw [e]
      exact loop_sound hs ht hR.le (not_axis hR.ne' h).1 (dot_self_cross _ _) n hp hq hd hI

end

/-- open balls whose centres are at least the sum of the radii apart are disjoint -/
theorem open_disjoint {ca cb : R3} {ra rb : ℝ} (hd : ra + rb ≤ euc (ca - cb)) (p : R3) : ¬(euc (p - ca) < ra ∧ euc (p - cb) < rb) := by
  rintro ⟨h1, h2⟩
  have := euc_add_le (ca - p) (p - cb)
  rw [sub_add_sub_cancel, euc_sub_comm ca p] at this
  linarith

/-- C52: off the axis and for a positive radius sum, whenever the query answers it is right: `Some(false)` only if the open
balls are disjoint, `Some(true)` only if the closed balls share a point; and it cannot panic. -/
theorem C52_sound (s t : Sphere ℝ) (ca cb : R3) (ra rb : ℝ) (hs : s.Made ca ra) (ht : t.Made cb rb) (hra : 0 ≤ ra) (hrb : 0 ≤ rb)
    (hR : 0 < ra + rb) (h : ¬(ca 1 = cb 1 ∧ ca 2 = cb 2)) (n : ℕ) :
    queryIntersect n (.sphere s) (.sphere t) = .error .diverge ∨
    (queryIntersect n (.sphere s) (.sphere t) = .ok (some false) ∧ ∀ p, ¬(euc (p - ca) < ra ∧ euc (p - cb) < rb)) ∨
    (queryIntersect n (.sphere s) (.sphere t) = .ok (some true) ∧ (ballPts ca ra ∩ ballPts cb rb).Nonempty) := by
  rcases query_answers hs ht hR h n with e | ⟨e, hd⟩ | ⟨e, hd⟩
  · exact .inl e
  · exact .inr (.inl ⟨e, open_disjoint hd⟩)
  · exact .inr (.inr ⟨e, (balls_meet hra hrb).mpr (by rw [euc_sub_comm] at hd; linarith)⟩)

/-- concrete case -/
example := C52_sound _ _ _ _ _ _ (mkSphere_made ![2, 1, 0] 1 0) (mkSphere_made ![0, 0, 0] 2 0) (by norm_num) (by norm_num) (by norm_num)
  (by simp) 9

/-- C52: for *all* centres and non-negative radii, `Some(false)` is answered only if the open balls are disjoint. -/
theorem C52_negative (s t : Sphere ℝ) (ca cb : R3) (ra rb : ℝ) (hs : s.Made ca ra) (ht : t.Made cb rb) (hra : 0 ≤ ra) (hrb : 0 ≤ rb)
    (n : ℕ) (hn : queryIntersect n (.sphere s) (.sphere t) = .ok (some false)) (p : R3) :
    ¬(euc (p - ca) < ra ∧ euc (p - cb) < rb) := by
  rcases (add_nonneg hra hrb).lt_or_eq with hR | hR
  · by_cases h : ca 1 = cb 1 ∧ ca 2 = cb 2
    · cases n with
      | zero => rw [query_zero hs ht] at hn; simp at hn
      | succ n =>
        obtain ⟨h1, _⟩ := C52_axis s t ca cb ra rb hs ht (.inl h) n
        have : ca 0 - cb 0 + (ra + rb) ≤ 0 := by
          by_contra hc
          rw [h1 (not_le.mp hc)] at hn; simp at hn
        exact open_disjoint (far_first this) p
    · rcases C52_sound s t ca cb ra rb hs ht hra hrb hR h n with e | ⟨_, e⟩ | ⟨e, _⟩
      · rw [e] at hn; simp at hn
      · exact e p
      · rw [e] at hn; simp at hn
  · rintro ⟨h2, _⟩
    have := euc_nonneg (p - ca)
    linarith

/-- C52: off the axis the loop terminates, with the right answer, unless the balls exactly touch. -/
theorem C52_terminates (s t : Sphere ℝ) (ca cb : R3) (ra rb : ℝ) (hs : s.Made ca ra) (ht : t.Made cb rb)
    (hR : 0 < ra + rb) (h : ¬(ca 1 = cb 1 ∧ ca 2 = cb 2)) :
    (euc (ca - cb) < ra + rb → ∃ n, ∀ k, n ≤ k → queryIntersect k (.sphere s) (.sphere t) = .ok (some true)) ∧
    (ra + rb < euc (ca - cb) → ∃ n, ∀ k, n ≤ k → queryIntersect k (.sphere s) (.sphere t) = .ok (some false)) := by
  have key (hne : euc (ca - cb) ≠ ra + rb) : ∃ n, queryIntersect n (.sphere s) (.sphere t) ≠ .error .diverge := by
    have hm := (not_axis hR.ne' h).1
    have hc : (ca - cb) ⬝ᵥ ((ca - cb) ⨯₃ ![1, 0, 0]) = 0 := dot_self_cross _ _
    obtain ⟨β, hβ, _, hstop⟩ := loop_stops hs ht hR hm hc hne
    obtain ⟨k, hk⟩ : ∃ k : ℕ, 2 * (ra + rb) / β < 2 ^ k := pow_unbounded_of_one_lt _ one_lt_two
    rw [div_lt_iff₀ hβ] at hk
    refine ⟨k + 2 + 1 + 1, ?_⟩
    rcases first_inv hs ht hR h (k + 2 + 1) with ⟨_, e⟩ | ⟨p, q, d, P, Q, D, hp, hq, hd, hI, e⟩
    · rw [e]; simp
    · rw [e]
      rcases loop_real hs ht (k + 2) hp hq hd hI with ⟨_, e⟩ | ⟨h0, x, d', A, B, a, hAB, ha, hx, hd', ho, e⟩ | ⟨_, _, _, e⟩
      · rw [e]; simp
      · rw [e]
        rcases hAB with ⟨rfl, rfl⟩ | ⟨rfl, rfl⟩
        · have hE := hI.symm.next hc h0 ho
          exact hstop k ha hx hd' hE ((hE.toInv.sag_le hR.le).trans (by linarith))
        · have hE := hI.next hc h0 ho
          exact hstop k ha hx hd' hE ((hE.toInv.sag_le hR.le).trans (by linarith))
      · rw [e]; simp
  have fuel {n : ℕ} (hn : queryIntersect n (.sphere s) (.sphere t) ≠ .error .diverge) (k : ℕ) (hk : n ≤ k) :
      queryIntersect k (.sphere s) (.sphere t) = queryIntersect n (.sphere s) (.sphere t) := by
    obtain ⟨j, rfl⟩ := Nat.exists_eq_add_of_le hk
    exact C52_fuel n j _ _ hn
  constructor
  · intro hlt
    obtain ⟨n, hn⟩ := key hlt.ne
    refine ⟨n, fun k hk => (fuel hn k hk).trans ?_⟩
    rcases query_answers hs ht hR h n with e | ⟨e, hd⟩ | ⟨e, _⟩
    · exact absurd e hn
    · linarith
    · exact e
  · intro hlt
    obtain ⟨n, hn⟩ := key hlt.ne'
    refine ⟨n, fun k hk => (fuel hn k hk).trans ?_⟩
    rcases query_answers hs ht hR h n with e | ⟨e, _⟩ | ⟨e, hd⟩
    · exact absurd e hn
    · exact e
    · linarith

/-- concrete case: two apart spheres are told apart, and then `C52_negative` applies -/
example (p : R3) : ¬(euc (p - ![2, 4, 0]) < 1 ∧ euc (p - ![0, 0, 0]) < 2) := by
  have hs := mkSphere_made ![2, 4, 0] 1 0
  have ht := mkSphere_made ![0, 0, 0] 2 0
  obtain ⟨n, hn⟩ := (C52_terminates _ _ _ _ _ _ hs ht (by norm_num) (by simp)).2 (by
    rw [euc_eq, Real.lt_sqrt (by norm_num)]
    simp [Fin.sum_univ_three]; norm_num)
  exact C52_negative _ _ _ _ _ _ hs ht (by norm_num) (by norm_num) n (hn n le_rfl) p

/-- C52: on the axis disjoint balls are reported as intersecting: whenever the first sphere lies to the right of the second
(all real numbers). -/
theorem C52_axis_false (s t : Sphere ℝ) (ca cb : R3) (ra rb : ℝ) (hs : s.Made ca ra) (ht : t.Made cb rb) (hra : 0 ≤ ra) (hrb : 0 ≤ rb)
    (h : ca 1 = cb 1 ∧ ca 2 = cb 2) (hx : cb 0 + rb < ca 0 - ra) (n : ℕ) :
    queryIntersect (n + 1) (.sphere s) (.sphere t) = .ok (some true) ∧ ballPts ca ra ∩ ballPts cb rb = ∅ := by
  refine ⟨(C52_axis s t ca cb ra rb hs ht (.inl h) n).1 (by linarith), ?_⟩
  rw [Set.eq_empty_iff_forall_notMem]
  intro p hp
  have := (balls_meet hra hrb).mp ⟨p, hp⟩
  have h2 := abs_le.mp (euc_coord_le (cb - ca) 0)
  have h3 : (cb - ca) 0 = cb 0 - ca 0 := rfl
  linarith

/-- concrete case -/
example := C52_axis_false _ _ _ _ _ _ (mkSphere_made ![5, 2, 3] 1 0) (mkSphere_made ![0, 2, 3] 2 0) (by norm_num) (by norm_num) ⟨rfl, rfl⟩
  (by simp; norm_num) 0

/-- C52: the same in binary64, with the answers compared with the sphere–sphere query of `get_intersect`; and for two
different spheres of radius zero. -/
theorem C52_f64_false : ∃ (a b c d : Sphere Q64),
    Sphere.init [0, .fin 3, .fin (-3)] (.fin (1 / 2)) = .ok a ∧ Sphere.init [.fin (-4), .fin 3, .fin (-3)] 1 = .ok b ∧
    Sphere.init [.fin 2, 1, 0] 0 = .ok c ∧ Sphere.init [0, 0, 0] 0 = .ok d ∧
    queryIntersect 1 (.sphere a) (.sphere b) = .ok (some true) ∧ (Shape.sphere a).getIntersect 10 (.sphere b) = .ok (false, none) ∧
    queryIntersect 1 (.sphere c) (.sphere d) = .ok (some true) ∧ (Shape.sphere c).getIntersect 10 (.sphere d) = .ok (false, none) :=
  ⟨_, _, _, _, rfl, rfl, rfl, rfl, by decide +kernel, by decide +kernel, by decide +kernel, by decide +kernel⟩

/-- C52, non-vacuity: an overlapping and a disjoint pair off the axis, in binary64. -/
example : ∃ (a b c : Sphere Q64), Sphere.init [.fin 2, 1, 0] 1 = .ok a ∧ Sphere.init [0, 0, 0] (.fin 2) = .ok b ∧
    Sphere.init [.fin 2, .fin 4, 0] 1 = .ok c ∧ queryIntersect 5 (.sphere a) (.sphere b) = .ok (some true) ∧
    queryIntersect 5 (.sphere c) (.sphere b) = .ok (some false) :=
  ⟨_, _, _, rfl, rfl, rfl, by decide +kernel, by decide +kernel⟩

/-- C52, non-vacuity of the hypotheses of `C52_terminates` (both cases) and of `C52_axis_false`. -/
example : ∃ (s t u v : Sphere ℝ), s.Made ![2, 1, 0] 1 ∧ t.Made ![0, 0, 0] 2 ∧ u.Made ![2, 4, 0] 1 ∧ v.Made ![9, 0, 0] 1 ∧
    euc (![2, 1, 0] - ![0, 0, 0]) < 1 + 2 ∧ 1 + 2 < euc (![2, 4, 0] - ![0, 0, 0]) := by
  obtain ⟨s, hs, -⟩ := Sphere.exists_made ![2, 1, 0] 1 0
  obtain ⟨t, ht, -⟩ := Sphere.exists_made ![0, 0, 0] 2 0
  obtain ⟨u, hu, -⟩ := Sphere.exists_made ![2, 4, 0] 1 0
  obtain ⟨v, hv, -⟩ := Sphere.exists_made ![9, 0, 0] 1 0
  refine ⟨s, t, u, v, hs, ht, hu, hv, ?_, ?_⟩
  · rw [euc_eq, Real.sqrt_lt' (by norm_num)]
    simp [Fin.sum_univ_three]; norm_num
  · rw [euc_eq, Real.lt_sqrt (by norm_num)]
    simp [Fin.sum_univ_three]; norm_num

end Mazth
