import Verif.Props.Support
import Verif.Props.FloatRayPlane

/-!
# C77: support points in floating point

`get_support` picks a vertex by comparing rounded inner products, so it may pick one that is not furthest.  Here: what it returns
is furthest up to an explicit rounding error, for the sphere, the box and the prism.
-/

set_option linter.unusedSectionVars false
set_option autoImplicit false

namespace Mazth

open RndErr Matrix

section generic

variable {K : Type} [Field K] [LinearOrder K] [IsStrictOrderedRing K] [Fmt K] [LawfulFmt K]

theorem kpartialCmp {x y : Fl K} {a b : K} (h : x.Is a) (h' : y.Is b) : Fl.partialCmp x y = some (compare a b) := by
  unfold Fl.partialCmp Fl.feq
  rcases lt_trichotomy a b with hh | hh | hh
  · rw [if_pos ((h.klt h').mpr hh), compare_lt_iff_lt.mpr hh]
  · subst hh
    rw [if_neg (fun e => lt_irrefl _ ((h.klt h').mp e)), if_neg (fun e => lt_irrefl _ ((h'.klt h).mp e)), (h.kle h').mpr le_rfl,
      (h'.kle h).mpr le_rfl]
    simp
  · rw [if_neg (fun e => lt_asymm hh ((h.klt h').mp e)), if_pos ((h'.klt h).mpr hh), compare_gt_iff_gt.mpr hh]

/-- the fold of `max_by` over a list of finite numbers with positions -/
theorem maxFold (l : List (Fl K × ℕ)) (hl : ∀ x ∈ l, ∃ r, x.1.Is r) (x : Fl K × ℕ) (r : K) (hx : x.1.Is r) :
    ∃ y ry, l.foldlM (fun acc y => do if (← unwrap (Fl.partialCmp acc.1 y.1)) = .gt then .ok acc else .ok y) x = (.ok y : Res _) ∧
      (y = x ∨ y ∈ l) ∧ y.1.Is ry ∧ r ≤ ry ∧ ∀ z ∈ l, ∀ rz, z.1.Is rz → rz ≤ ry := by
  induction l generalizing x r with
  | nil => exact ⟨x, r, rfl, .inl rfl, hx, le_rfl, by simp⟩
  | cons z l ih =>
    obtain ⟨rz, hz⟩ := hl z (by simp)
    have hl' : ∀ x ∈ l, ∃ r, x.1.Is r := fun y hy => hl y (List.mem_cons_of_mem _ hy)
    rw [List.foldlM_cons, kpartialCmp hx hz]
    simp only [unwrap_some, Res.ok_bind]
    by_cases hc : compare r rz = .gt
    · rw [if_pos hc]
      obtain ⟨y, ry, e, hm, hy, hr, hmax⟩ := ih hl' x r hx
      refine ⟨y, ry, e, hm.imp id (List.mem_cons_of_mem _), hy, hr, ?_⟩
      intro w hw rw hrw
      rcases List.mem_cons.mp hw with rfl | hw
      · rw [hrw.kunique hz]
        exact (compare_gt_iff_gt.mp hc).le.trans hr
      · exact hmax w hw rw hrw
    · rw [if_neg hc]
      obtain ⟨y, ry, e, hm, hy, hr, hmax⟩ := ih hl' z rz hz
      refine ⟨y, ry, e, .inr ?_, hy, (not_lt.mp fun h => hc (compare_gt_iff_gt.mpr h)).trans hr, ?_⟩
      · rcases hm with rfl | hm
        · simp
        · exact List.mem_cons_of_mem _ hm
      · intro w hw rw hrw
        rcases List.mem_cons.mp hw with rfl | hw
        · rw [hrw.kunique hz]; exact hr
        · exact hmax w hw rw hrw

/-- `furthest` returns one of the points, with the largest computed inner product -/
theorem furthest_spec {ps : List (V3 K)} (h0 : ps ≠ []) {v : V3 K} (hf : ∀ p ∈ ps, ∃ r, (V3.dotp p v).Is r) :
    ∃ p ∈ ps, furthest ps v = .ok p ∧ ∀ q ∈ ps, ∀ a b, (V3.dotp q v).Is a → (V3.dotp p v).Is b → a ≤ b := by
  have hd : (ps.mapM fun x => unwrap (x.dot v) : Res (List (Fl K))) = .ok (ps.map fun x => V3.dotp x v) := by
    clear hf h0
    induction ps with
    | nil => rfl
    | cons p ps ih =>
      rw [List.mapM_cons, ih, V3.dot_eq]; rfl
  have hmem : ∀ x ∈ (ps.map fun x => V3.dotp x v).zipIdx, ∃ p ∈ ps, ps[x.2]? = some p ∧ x.1 = V3.dotp p v := by
    intro x hx
    rw [List.mem_zipIdx_iff_getElem?, List.getElem?_map, Option.map_eq_some_iff] at hx
    obtain ⟨p, hp, e⟩ := hx
    exact ⟨p, List.mem_of_getElem? hp, hp, e.symm⟩
  unfold furthest
  rw [hd]
  simp only [Res.ok_bind]
  generalize hz : (ps.map fun x => V3.dotp x v).zipIdx = zs at hmem
  have hlen : ∀ p ∈ ps, ∃ i, (V3.dotp p v, i) ∈ zs := by
    intro p hp
    obtain ⟨i, hi⟩ := List.getElem?_of_mem hp
    refine ⟨i, ?_⟩
    rw [← hz, List.mem_zipIdx_iff_getElem?, List.getElem?_map, hi]; rfl
  cases zs with
  | nil =>
    exfalso
    rcases ps with _ | ⟨p, ps⟩
    · exact h0 rfl
    · obtain ⟨i, hi⟩ := hlen p (by simp)
      simp at hi
  | cons z zs =>
    obtain ⟨p0, hp0, _, e0⟩ := hmem z (by simp)
    obtain ⟨r0, hz0⟩ := hf p0 hp0
    rw [← e0] at hz0
    obtain ⟨y, ry, e, hy, hyr, hr, hmax⟩ := maxFold zs (fun x hx => by
      obtain ⟨p, hp, _, h⟩ := hmem x (List.mem_cons_of_mem _ hx)
      rw [h]; exact hf p hp) z r0 hz0
    have hy' : y ∈ z :: zs := by
      rcases hy with rfl | hy
      · simp
      · exact List.mem_cons_of_mem _ hy
    obtain ⟨p, hp, hpy, hyp⟩ := hmem y hy'
    refine ⟨p, hp, ?_, ?_⟩
    · unfold maxByM
      simp only [e, Res.ok_bind, unwrap_some]
      unfold sliceGet
      rw [hpy]
    · intro q hq a b ha hb
      obtain ⟨i, hin⟩ := hlen q hq
      rw [← hyp] at hb
      rw [← hyr.kunique hb]
      rcases List.mem_cons.mp hin with h | h
      · rw [← h] at hz0
        rw [ha.kunique hz0]; exact hr
      · exact hmax _ h _ ha

end generic

variable {K : Type} [Field K] [LinearOrder K] [IsStrictOrderedRing K] [Fmt K] [LawfulFmt K] [RndErr K]

/-- the `1`-norm of a direction -/
def norm1 (V : Fin 3 → K) : K := |V 0| + |V 1| + |V 2|

theorem norm1_nonneg (V : Fin 3 → K) : 0 ≤ norm1 V := by unfold norm1; positivity

theorem dotp_range {p v : V3 K} {P V : Fin 3 → K} (hp : p.Holds P) (hv : v.Holds V) {R B : K} (hR : ∀ i, |P i| ≤ R) (hB : ∀ i, |V i| ≤ B)
    (he : (eta : K) ≤ 1) (ho : 4 * (R * B + 1) ≤ omega) : ∃ r, (V3.dotp p v).Is r := by
  have := Lim.dot3 (.leaf (hp 0) (hR 0)) (.leaf (hp 1) (hR 1)) (.leaf (hp 2) (hR 2)) (.leaf (hv 0) (hB 0)) (.leaf (hv 1) (hB 1))
    (.leaf (hv 2) (hB 2)) he ho
  exact this.fin

theorem dotp_err {p v : V3 K} {P V : Fin 3 → K} (hp : p.Holds P) (hv : v.Holds V) {R : K} (hR : ∀ i, |P i| ≤ R) {c : K}
    (hc : (V3.dotp p v).Is c) : |c - P ⬝ᵥ V| ≤ 7 / 2 * u * (R * norm1 V) + 4 * eta := by
  obtain ⟨d, hd, h⟩ := C55_dot p v P V hp hv
  rw [V3.dot_eq, Option.some.injEq] at hd
  subst hd
  have h1 := h c hc
  have e : P ⬝ᵥ V = P 0 * V 0 + P 1 * V 1 + P 2 * V 2 := by simp [dotProduct, Fin.sum_univ_three]
  rw [e]
  refine h1.trans ?_
  have hu := u_pos (K := K)
  have hl := u_le (K := K)
  have het := eta_pos (K := K)
  have s : |P 0 * V 0| + |P 1 * V 1| + |P 2 * V 2| ≤ R * norm1 V := by
    unfold norm1
    rw [abs_mul, abs_mul, abs_mul]
    have := mul_le_mul_of_nonneg_right (hR 0) (abs_nonneg (V 0))
    have := mul_le_mul_of_nonneg_right (hR 1) (abs_nonneg (V 1))
    have := mul_le_mul_of_nonneg_right (hR 2) (abs_nonneg (V 2))
    linarith
  have c1 : (1 + u : K) ^ 3 - 1 ≤ 7 / 2 * u := by nlinarith [mul_pos hu hu]
  have c0 : 0 ≤ (1 + u : K) ^ 3 - 1 := by nlinarith [mul_pos hu hu, mul_pos hu (mul_pos hu hu)]
  have c2 : 3 * (1 + u : K) ^ 2 ≤ 4 := by nlinarith
  have s0 : 0 ≤ |P 0 * V 0| + |P 1 * V 1| + |P 2 * V 2| := by positivity
  have := mul_le_mul c1 s s0 (by linarith)
  have := mul_le_mul_of_nonneg_right c2 het.le
  linarith

/-- the picked point is furthest up to `7u·R·‖V‖₁ + 8 eta` -/
theorem furthest_float {ps : List (V3 K)} (h0 : ps ≠ []) {v : V3 K} {V : Fin 3 → K} (hv : v.Holds V) {R B : K}
    (hp : ∀ p ∈ ps, ∃ P, p.Holds P ∧ ∀ i, |P i| ≤ R) (hB : ∀ i, |V i| ≤ B) (he : (eta : K) ≤ 1) (ho : 4 * (R * B + 1) ≤ omega) :
    ∃ p ∈ ps, furthest ps v = .ok p ∧ ∀ q ∈ ps, ∀ P Q : Fin 3 → K, p.Holds P → q.Holds Q → Q ⬝ᵥ V ≤ P ⬝ᵥ V + (7 * u * (R * norm1 V) + 8 * eta) := by
  obtain ⟨p, hm, e, hmax⟩ := furthest_spec h0 (v := v) fun p hm => by
    obtain ⟨P, hP, hR⟩ := hp p hm
    exact dotp_range hP hv hR hB he ho
  refine ⟨p, hm, e, fun q hq P Q hP hQ => ?_⟩
  have uniq {x : V3 K} {X Y : Fin 3 → K} (hX : x.Holds X) (hY : x.Holds Y) : X = Y := funext fun i => (hX i).1.kunique (hY i).1
  obtain ⟨P', hP', hPR⟩ := hp p hm
  obtain ⟨Q', hQ', hQR⟩ := hp q hq
  obtain rfl := uniq hP hP'
  obtain rfl := uniq hQ hQ'
  obtain ⟨a, ha⟩ := dotp_range hQ hv hQR hB he ho
  obtain ⟨b, hb⟩ := dotp_range hP hv hPR hB he ho
  have h1 := hmax q hq a b ha hb
  have h2 := (abs_le.mp (dotp_err hQ hv hQR ha)).1
  have h3 := (abs_le.mp (dotp_err hP hv hPR hb)).2
  linarith

section real

variable (φ : K →+* ℝ) (hφ : StrictMono φ)

include hφ in
theorem magnitudeNonzero_float {v : V3 K} {V : Fin 3 → K} (hv : v.Holds V) (hn : ∀ i, V i = 0 ∨ nu ≤ V i * V i)
    (hM : ∀ i, 8 * (V i * V i) ≤ omega) (h0 : V ≠ 0) : magnitudeNonzero v = true := by
  obtain ⟨x, hx, m, hm⟩ := C55_finite v V hv hn hM
  obtain ⟨x', hx', h⟩ := C55_magnitude φ hφ v V hv hn
  obtain rfl : x' = x := Option.some.inj (hx'.symm.trans hx)
  obtain ⟨_, h⟩ := h m hm
  rw [magnitudeNonzero_eq]
  rw [V3.magnitude_eq, Option.some.injEq] at hx
  rw [hx, Bool.not_eq_true', ← Bool.not_eq_true, kfeq_zero hm]
  rintro rfl
  have hr : 0 < euc (fun i => φ (V i)) := euc_pos (by
    intro h; apply h0; funext i
    exact hφ.injective ((congrFun h i).trans (map_zero φ).symm))
  have hul : φ u ≤ 1 / 64 := by have := hφ.monotone (u_le (K := K)); rwa [map_div₀, map_one, map_ofNat] at this
  rw [map_zero, zero_sub, abs_neg, abs_of_pos hr] at h
  nlinarith

theorem toR_dot (P V : Fin 3 → K) : toR φ P ⬝ᵥ toR φ V = φ (P ⬝ᵥ V) := by
  simp [dotProduct, Fin.sum_univ_three, toR]

include hφ in
/-- a linear functional on the cube is largest at the corner with the signs of the direction -/
theorem cube_corner (c V : Fin 3 → K) (r : K) {q : R3} (hq : q ∈ cubePts (toR φ c) (φ r)) :
    ∃ s : Fin 3 → K, (∀ i, s i = r ∨ s i = -r) ∧ q ⬝ᵥ toR φ V ≤ φ (c ⬝ᵥ V) + φ (s ⬝ᵥ V) := by
  have key (i : Fin 3) : ∃ s : K, (s = r ∨ s = -r) ∧ q i * φ (V i) ≤ φ (c i) * φ (V i) + φ s * φ (V i) := by
    have h : |q i - φ (c i)| ≤ φ r := hq i
    obtain ⟨h1, h2⟩ := abs_le.mp h
    rcases le_total 0 (V i) with hv | hv
    · have hv' : 0 ≤ φ (V i) := by have := hφ.monotone hv; rwa [map_zero] at this
      exact ⟨r, .inl rfl, by nlinarith⟩
    · have hv' : φ (V i) ≤ 0 := by have := hφ.monotone hv; rwa [map_zero] at this
      exact ⟨-r, .inr rfl, by rw [map_neg]; nlinarith⟩
  choose s hs h using key
  refine ⟨s, hs, ?_⟩
  simp only [dotProduct, Fin.sum_univ_three, toR, map_add, map_mul]
  linarith [h 0, h 1, h 2]

theorem RecBox.init_facts {l : List (Fl K)} {x : Fl K} {s : RecBox K} {c : Fin 3 → K} {r : K} (hl : ListIn l c) (hx : x.Holds r)
    (h : RecBox.init l x = .ok s) : s.ori.Holds c ∧ s.size.Holds r := by
  obtain ⟨x, y, z, rfl, h0, h1, h2⟩ := hl
  cases h
  refine ⟨fun i => ?_, hx⟩
  fin_cases i
  · exact h0
  · exact h1
  · exact h2

theorem mk_holds {x y z : Fl K} {k : Fin 3 → K} (hx : x.Holds (k 0)) (hy : y.Holds (k 1)) (hz : z.Holds (k 2)) :
    (⟨#v[x, y, z]⟩ : V3 K).Holds k := fun i => by
  fin_cases i
  · exact hx
  · exact hy
  · exact hz

theorem corners_mem (s : RecBox K) {r : K} (hs : s.size.Holds r) (k : Fin 3 → K) (hk : ∀ i, k i = r ∨ k i = -r) :
    ∃ p ∈ s.corners, p.Holds k := by
  have hneg : (-s.size).Holds (-r) := ⟨hs.1.kneg, hs.2.neg⟩
  have pick (i : Fin 3) : ∃ x : Fl K, (x = s.size ∨ x = -s.size) ∧ x.Holds (k i) := by
    rcases hk i with h | h <;> rw [h]
    · exact ⟨_, .inl rfl, hs⟩
    · exact ⟨_, .inr rfl, hneg⟩
  obtain ⟨x, hx, hx'⟩ := pick 0
  obtain ⟨y, hy, hy'⟩ := pick 1
  obtain ⟨z, hz, hz'⟩ := pick 2
  refine ⟨⟨#v[x, y, z]⟩, ?_, mk_holds hx' hy' hz'⟩
  rcases hx with rfl | rfl <;> rcases hy with rfl | rfl <;> rcases hz with rfl | rfl <;> simp [RecBox.corners]

theorem corners_holds (s : RecBox K) {r : K} (hs : s.size.Holds r) : ∀ p ∈ s.corners, ∃ k, p.Holds k ∧ ∀ i, k i = r ∨ k i = -r := by
  have hneg : (-s.size).Holds (-r) := ⟨hs.1.kneg, hs.2.neg⟩
  have key {x y z : Fl K} {a b c : K} (hx : x.Holds a) (hy : y.Holds b) (hz : z.Holds c) (ha : a = r ∨ a = -r) (hb : b = r ∨ b = -r)
      (hc : c = r ∨ c = -r) : ∃ k, (⟨#v[x, y, z]⟩ : V3 K).Holds k ∧ ∀ i, k i = r ∨ k i = -r := by
    refine ⟨![a, b, c], mk_holds hx hy hz, fun i => ?_⟩
    fin_cases i
    · exact ha
    · exact hb
    · exact hc
  intro p hp
  simp only [RecBox.corners, List.mem_cons, List.not_mem_nil, or_false] at hp
  rcases hp with rfl | rfl | rfl | rfl | rfl | rfl | rfl | rfl
  · exact key hs hs hs (.inl rfl) (.inl rfl) (.inl rfl)
  · exact key hneg hs hs (.inr rfl) (.inl rfl) (.inl rfl)
  · exact key hs hneg hs (.inl rfl) (.inr rfl) (.inl rfl)
  · exact key hneg hneg hs (.inr rfl) (.inr rfl) (.inl rfl)
  · exact key hs hs hneg (.inl rfl) (.inl rfl) (.inr rfl)
  · exact key hneg hs hneg (.inr rfl) (.inl rfl) (.inr rfl)
  · exact key hs hneg hneg (.inl rfl) (.inr rfl) (.inr rfl)
  · exact key hneg hneg hneg (.inr rfl) (.inr rfl) (.inr rfl)

/-- moving the three components of a vector by at most `d` each changes an inner product by at most `d‖V‖₁` -/
theorem dot_shift (P Q V : Fin 3 → K) {d : K} (h : ∀ i, |P i - Q i| ≤ d) : Q ⬝ᵥ V ≤ P ⬝ᵥ V + d * norm1 V := by
  have key (i : Fin 3) : Q i * V i ≤ P i * V i + d * |V i| := by
    have h1 := mul_le_mul_of_nonneg_right (h i) (abs_nonneg (V i))
    rw [← abs_mul] at h1
    have := (abs_le.mp h1).1
    linarith
  simp only [dotProduct, Fin.sum_univ_three, norm1]
  linarith [key 0, key 1, key 2]

include hφ in
/-- C77, box: the answer is a corner of the exact cube up to one rounding per coordinate, and its inner product with the
direction is at most `8u(M+r)‖V‖₁ + 8 eta` below the largest over the exact cube. -/
theorem C77_box {l : List (Fl K)} {x : Fl K} {s : RecBox K} {c : Fin 3 → K} {r : K} (hl : ListIn l c) (hx : x.Holds r)
    (hs : RecBox.init l x = .ok s) (hr : 0 ≤ r) {v : V3 K} {V : Fin 3 → K} (hv : v.Holds V)
    (hn : ∀ i, V i = 0 ∨ nu ≤ V i * V i) (hV : ∀ i, 8 * (V i * V i) ≤ omega) (h0 : V ≠ 0)
    {M B : K} (hM : ∀ i, |c i| ≤ M) (hB : ∀ i, |V i| ≤ B) (he : (eta : K) ≤ 1) (ho : 4 * (r * B + 1) ≤ omega) (ho' : M + r ≤ omega) :
    ∃ p P, (Shape.box s).getSupport v = .ok (some p) ∧ p.Holds P ∧
      (∃ k : Fin 3 → K, (∀ i, k i = r ∨ k i = -r) ∧ ∀ i, |P i - (c i + k i)| ≤ u * |c i + k i|) ∧
      ∀ q ∈ cubePts (toR φ c) (φ r), q ⬝ᵥ toR φ V ≤ toR φ P ⬝ᵥ toR φ V + φ (8 * u * ((M + r) * norm1 V) + 8 * eta) := by
  obtain ⟨hc, hsz⟩ := RecBox.init_facts hl hx hs
  have hu := u_pos (K := K)
  have habs {k : Fin 3 → K} (hk : ∀ i, k i = r ∨ k i = -r) (i : Fin 3) : |k i| = r := by
    rcases hk i with h | h <;> rw [h]
    · exact abs_of_nonneg hr
    · rw [abs_neg]; exact abs_of_nonneg hr
  obtain ⟨p, hm, e, hmax⟩ := furthest_float (ps := s.corners) (by simp [RecBox.corners]) hv (R := r) (fun p hp => by
    obtain ⟨k, h1, h2⟩ := corners_holds s hsz p hp
    exact ⟨k, h1, fun i => (habs h2 i).le⟩) hB he ho
  obtain ⟨k, hk, hkr⟩ := corners_holds s hsz p hm
  have hck (i : Fin 3) : |c i + k i| ≤ M + r := (abs_add_le _ _).trans (by rw [habs hkr i]; linarith [hM i])
  have hsum (i : Fin 3) : ∃ d, (s.ori.val[i] + p.val[i]).Is d := Fl.add_fin (hc i).1 (hk i).1 ((hck i).trans ho')
  choose P hP using hsum
  have hPe (i : Fin 3) : |P i - (c i + k i)| ≤ u * |c i + k i| := Fl.add_err (hc i).1 (hk i).1 (hc i).2 (hk i).2 (hP i)
  refine ⟨V3.add s.ori p, P, ?_, ?_, ⟨k, hkr, hPe⟩, ?_⟩
  · show RecBox.getSupport s v = _
    unfold RecBox.getSupport
    rw [magnitudeNonzero_float φ hφ hv hn hV h0, e]
    simp [V3.plus_eq]
  · exact mk_holds ⟨hP 0, Fl.wf_add _ _⟩ ⟨hP 1, Fl.wf_add _ _⟩ ⟨hP 2, Fl.wf_add _ _⟩
  · intro q hq
    obtain ⟨k', hk', h1⟩ := cube_corner φ hφ c V r hq
    obtain ⟨p', hm', hp'⟩ := corners_mem s hsz k' hk'
    have h2 := hmax p' hm' k k' hk hp'
    have h3 := dot_shift P (c + k) V (d := u * (M + r)) fun i => (hPe i).trans (mul_le_mul_of_nonneg_left (hck i) hu.le)
    rw [add_dotProduct] at h3
    refine h1.trans ?_
    rw [toR_dot, ← map_add, ← map_add]
    apply hφ.monotone
    have hM0 : 0 ≤ M := (abs_nonneg _).trans (hM 0)
    have : 0 ≤ u * (M * norm1 V) := mul_nonneg hu.le (mul_nonneg hM0 (norm1_nonneg V))
    linarith

include hφ in
/-- C77, prism: the answer is one of the six stored vertices, and its inner product with the direction is at most
`7uM‖V‖₁ + 8 eta` below the largest over their convex hull. -/
theorem C77_prism (s : TriPrism K) (W W' : Fin 3 → Fin 3 → K) (hW : ∀ i : Fin 3, (s.triBase[i]).Holds (W i))
    (hW' : ∀ i : Fin 3, (s.triBase2[i]).Holds (W' i)) {v : V3 K} {V : Fin 3 → K} (hv : v.Holds V)
    (hn : ∀ i, V i = 0 ∨ nu ≤ V i * V i) (hV : ∀ i, 8 * (V i * V i) ≤ omega) (h0 : V ≠ 0)
    {M B : K} (hM : ∀ j i, |W j i| ≤ M) (hM' : ∀ j i, |W' j i| ≤ M) (hB : ∀ i, |V i| ≤ B) (he : (eta : K) ≤ 1)
    (ho : 4 * (M * B + 1) ≤ omega) :
    ∃ p P, (Shape.triPrism s).getSupport v = .ok (some p) ∧ p.Holds P ∧ P ∈ Set.range W ∪ Set.range W' ∧
      ∀ q ∈ convexHull ℝ (toR φ '' (Set.range W ∪ Set.range W')),
        q ⬝ᵥ toR φ V ≤ toR φ P ⬝ᵥ toR φ V + φ (7 * u * (M * norm1 V) + 8 * eta) := by
  have hall : ∀ p ∈ [s.triBase[0], s.triBase[1], s.triBase[2], s.triBase2[0], s.triBase2[1], s.triBase2[2]],
      ∃ P ∈ Set.range W ∪ Set.range W', p.Holds P := by
    intro p hp
    simp only [List.mem_cons, List.not_mem_nil, or_false] at hp
    rcases hp with rfl | rfl | rfl | rfl | rfl | rfl
    · exact ⟨W 0, .inl ⟨0, rfl⟩, hW 0⟩
    · exact ⟨W 1, .inl ⟨1, rfl⟩, hW 1⟩
    · exact ⟨W 2, .inl ⟨2, rfl⟩, hW 2⟩
    · exact ⟨W' 0, .inr ⟨0, rfl⟩, hW' 0⟩
    · exact ⟨W' 1, .inr ⟨1, rfl⟩, hW' 1⟩
    · exact ⟨W' 2, .inr ⟨2, rfl⟩, hW' 2⟩
  have hall' : ∀ P ∈ Set.range W ∪ Set.range W',
      ∃ p ∈ [s.triBase[0], s.triBase[1], s.triBase[2], s.triBase2[0], s.triBase2[1], s.triBase2[2]], p.Holds P := by
    rintro P (⟨j, rfl⟩ | ⟨j, rfl⟩)
    · refine ⟨_, ?_, hW j⟩
      fin_cases j <;> simp
    · refine ⟨_, ?_, hW' j⟩
      fin_cases j <;> simp
  obtain ⟨p, hm, e, hmax⟩ := furthest_float (ps := [s.triBase[0], s.triBase[1], s.triBase[2], s.triBase2[0], s.triBase2[1], s.triBase2[2]])
    (by simp) hv (R := M) (fun p hp => by
    obtain ⟨P, hP, h⟩ := hall p hp
    refine ⟨P, h, ?_⟩
    rcases hP with ⟨j, rfl⟩ | ⟨j, rfl⟩
    · exact hM j
    · exact hM' j) hB he ho
  obtain ⟨P, hP, hpP⟩ := hall p hm
  refine ⟨p, P, ?_, hpP, hP, ?_⟩
  · show TriPrism.getSupport s v = _
    unfold TriPrism.getSupport
    rw [magnitudeNonzero_float φ hφ hv hn hV h0, e]
    rfl
  · intro q hq
    rw [toR_dot, ← map_add]
    have hconv : Convex ℝ {q : R3 | q ⬝ᵥ toR φ V ≤ φ (P ⬝ᵥ V + (7 * u * (M * norm1 V) + 8 * eta))} := by
      intro x hx y hy a b ha hb hab
      have hx : x ⬝ᵥ toR φ V ≤ _ := hx
      have hy : y ⬝ᵥ toR φ V ≤ _ := hy
      show (a • x + b • y) ⬝ᵥ toR φ V ≤ _
      rw [add_dotProduct, smul_dotProduct, smul_dotProduct, smul_eq_mul, smul_eq_mul]
      have h1 := mul_le_mul_of_nonneg_left hx ha
      have h2 := mul_le_mul_of_nonneg_left hy hb
      refine (add_le_add h1 h2).trans (le_of_eq ?_)
      rw [← add_mul, hab, one_mul]
    refine convexHull_min ?_ hconv hq
    rintro _ ⟨Q, hQ, rfl⟩
    obtain ⟨p', hm', hp'⟩ := hall' Q hQ
    show toR φ Q ⬝ᵥ toR φ V ≤ _
    rw [toR_dot]
    exact hφ.monotone (hmax p' hm' P Q hpP hp')

/-- the rounding errors of `c + r·n` accumulate to `8u(|c|+|r|) + 2(1+|r|) eta` -/
theorem along_err {u' e' c r U N t P : ℝ} (hu : 0 < u') (hl : u' ≤ 1 / 64) (he : 0 < e') (hU : |U| ≤ 1)
    (hN : |N - U| ≤ 5 * u' * |U| + e') (ht : |t - N * r| ≤ u' * |N * r| + e') (hP : |P - (c + t)| ≤ u' * |c + t|) :
    |P - (c + r * U)| ≤ 8 * u' * (|c| + |r|) + 2 * (1 + |r|) * e' := by
  have hr := abs_nonneg r
  have hU0 := abs_nonneg U
  have a1 : |N| ≤ |U| + (5 * u' * |U| + e') := by
    have := abs_add_le U (N - U); rw [add_sub_cancel] at this; linarith
  have a2 : |N * r| ≤ |r| * (|U| + (5 * u' * |U| + e')) := by
    rw [abs_mul, mul_comm]; exact mul_le_mul_of_nonneg_left a1 hr
  have a3 : |N * r - r * U| ≤ |r| * (5 * u' * |U| + e') := by
    rw [show N * r - r * U = r * (N - U) by ring, abs_mul]; exact mul_le_mul_of_nonneg_left hN hr
  have a4 : |t - r * U| ≤ u' * |N * r| + e' + |r| * (5 * u' * |U| + e') := by
    have := abs_add_le (t - N * r) (N * r - r * U); rw [sub_add_sub_cancel] at this; linarith
  have a5 : |c + t| ≤ |c| + |r| * |U| + |t - r * U| := by
    have h1 := abs_add_le (c + r * U) (t - r * U)
    have h2 := abs_add_le c (r * U)
    rw [abs_mul] at h2
    rw [show c + r * U + (t - r * U) = c + t by ring] at h1
    linarith
  have a6 : |P - (c + r * U)| ≤ u' * |c + t| + |t - r * U| := by
    have := abs_add_le (P - (c + t)) (t - r * U)
    rw [show P - (c + t) + (t - r * U) = P - (c + r * U) by ring] at this
    linarith
  have hrU : |r| * |U| ≤ |r| := by nlinarith
  have b1 : u' * |N * r| ≤ u' * (|r| * (|U| + (5 * u' * |U| + e'))) := mul_le_mul_of_nonneg_left a2 hu.le
  have c0 := abs_nonneg c
  have m1 : 0 ≤ u' * |r| := by positivity
  have m2 : 0 ≤ e' * |r| := by positivity
  have k1 : u' * (|r| * (|U| + (5 * u' * |U| + e'))) ≤ u' * |r| * (1 + 5 / 64) + e' * |r| / 64 := by
    have : u' * (|r| * |U|) ≤ u' * |r| := mul_le_mul_of_nonneg_left hrU hu.le
    have h2 : u' * u' * (|r| * |U|) ≤ u' * |r| / 64 := by nlinarith
    have h3 : u' * (e' * |r|) ≤ e' * |r| / 64 := by nlinarith
    nlinarith
  have k2 : |r| * (5 * u' * |U| + e') ≤ 5 * (u' * |r|) + e' * |r| := by nlinarith
  have k3 : |t - r * U| ≤ (6 + 5 / 64) * (u' * |r|) + (1 + 1 / 64) * (e' * |r|) + e' := by linarith
  have k4 : u' * |c + t| ≤ u' * |c| + u' * |r| + u' * |t - r * U| := by
    have h1 := mul_le_mul_of_nonneg_left a5 hu.le
    have h2 : u' * (|r| * |U|) ≤ u' * |r| := mul_le_mul_of_nonneg_left hrU hu.le
    linarith
  have k5 : u' * |t - r * U| ≤ |t - r * U| / 64 := by nlinarith [abs_nonneg (t - r * U)]
  have m3 : 0 ≤ u' * |c| := by positivity
  linarith

include hφ in
/-- C77, sphere: the answer is within `8u(|c|+r) + 2(1+r) eta` per coordinate of the exact support point `c + rV/‖V‖`; so its
inner product with the direction is at most that times `‖V‖₁` below the largest over the exact ball. -/
theorem C77_sphere {l : List (Fl K)} {x : Fl K} {s : Sphere K} {c : Fin 3 → K} {r : K} (hl : ListIn l c) (hx : x.Holds r)
    (hs : Sphere.init l x = .ok s) {v : V3 K} {V : Fin 3 → K} (hv : v.Holds V)
    (hn : ∀ i, V i = 0 ∨ nu ≤ V i * V i) (hV : ∀ i, 8 * (V i * V i) ≤ omega) (h0 : V ≠ 0)
    {M : K} (hM : ∀ i, |c i| ≤ M) (he : (eta : K) ≤ 1 / 64) (ho : 4 * (M + |r| + 1) ≤ omega) :
    ∃ p P, (Shape.sphere s).getSupport v = .ok (some p) ∧ p.Holds P ∧
      (∀ i, |φ (P i) - (φ (c i) + φ r * (φ (V i) / euc (toR φ V)))| ≤ φ (8 * u * (|c i| + |r|) + 2 * (1 + |r|) * eta)) ∧
      (0 ≤ r → ∀ q ∈ ballPts (toR φ c) (φ r),
        q ⬝ᵥ toR φ V ≤ toR φ P ⬝ᵥ toR φ V + φ ((8 * u * (M + r) + 2 * (1 + r) * eta) * norm1 V)) := by
  obtain ⟨hc, hrad⟩ := Sphere.init_facts hl hx hs
  obtain ⟨y, hy, hyf⟩ := C55_finite v V hv hn hV
  obtain ⟨n, N, e, hN, hNe, hN1⟩ := C55_normalize φ hφ v V hv hn h0 y hy hyf
  have hu := u_pos (K := K)
  have hl := u_le (K := K)
  have het := eta_pos (K := K)
  have hu' : 0 < φ u := by have := hφ hu; rwa [map_zero] at this
  have hl' : φ u ≤ 1 / 64 := by have := hφ.monotone hl; rwa [map_div₀, map_one, map_ofNat] at this
  have het' : 0 < φ eta := by have := hφ het; rwa [map_zero] at this
  have he' : φ eta ≤ 1 / 64 := by have := hφ.monotone he; rwa [map_div₀, map_one, map_ofNat] at this
  have hMr : 0 ≤ M := (abs_nonneg _).trans (hM 0)
  have hr0 := abs_nonneg r
  have hN2 (i : Fin 3) : |N i| ≤ 2 := by
    rw [← hφ.le_iff_le, map_abs_mono φ hφ, map_ofNat]
    have h1 := euc_coord (fun i => φ (N i)) i
    have h2 := (abs_le.mp hN1).2
    linarith
  have ht (i : Fin 3) : ∃ t, (n.val[i] * s.radius).Is t := Fl.mul_fin (hN i).1 hrad.1 (by
    rw [abs_mul]
    have := mul_le_mul_of_nonneg_right (hN2 i) hr0
    linarith)
  choose t ht using ht
  have hte (i : Fin 3) : |t i - N i * r| ≤ u * |N i * r| + eta := Fl.mul_err (hN i).1 hrad.1 (ht i)
  have hP (i : Fin 3) : ∃ P, (s.ori.val[i] + n.val[i] * s.radius).Is P := Fl.add_fin (hc i).1 (ht i) (by
    have h1 : |N i * r| ≤ 2 * |r| := by rw [abs_mul]; exact mul_le_mul_of_nonneg_right (hN2 i) hr0
    have h2 : |t i| ≤ |N i * r| + (u * |N i * r| + eta) := by
      have := abs_add_le (N i * r) (t i - N i * r); rw [add_sub_cancel] at this; linarith [hte i]
    have h3 : u * |N i * r| ≤ 1 / 64 * |N i * r| := mul_le_mul_of_nonneg_right hl (abs_nonneg _)
    have := abs_add_le (c i) (t i)
    linarith [hM i])
  choose P hP using hP
  have hPe (i : Fin 3) : |P i - (c i + t i)| ≤ u * |c i + t i| := Fl.add_err (hc i).1 (ht i) (hc i).2 (Fl.wf_mul _ _) (hP i)
  have hU : euc (toR φ V) ≠ 0 := by
    rw [Ne, euc_eq_zero]
    intro h; apply h0; funext i
    exact hφ.injective ((congrFun h i).trans (map_zero φ).symm)
  have hUpos : 0 < euc (toR φ V) := lt_of_le_of_ne (euc_nonneg _) (Ne.symm hU)
  have main (i : Fin 3) : |φ (P i) - (φ (c i) + φ r * (φ (V i) / euc (toR φ V)))| ≤ φ (8 * u * (|c i| + |r|) + 2 * (1 + |r|) * eta) := by
    have key := along_err (c := φ (c i)) (r := φ r) (U := φ (V i) / euc (toR φ V)) (N := φ (N i)) (t := φ (t i)) (P := φ (P i)) hu' hl' het'
      (by
        rw [abs_div, abs_of_pos hUpos, div_le_one hUpos]
        exact euc_coord (toR φ V) i)
      (hNe i)
      (by have := hφ.monotone (hte i); simpa [map_abs_mono φ hφ] using this)
      (by have := hφ.monotone (hPe i); simpa [map_abs_mono φ hφ] using this)
    have e8 : φ 8 = 8 := map_ofNat φ 8
    have e2 : φ 2 = 2 := map_ofNat φ 2
    simpa [map_abs_mono φ hφ, e8, e2] using key
  refine ⟨V3.add s.ori (V3.scl n s.radius), P, ?_, ?_, main, ?_⟩
  · show Sphere.getSupport s v = _
    unfold Sphere.getSupport
    rw [magnitudeNonzero_float φ hφ hv hn hV h0, e]
    simp [V3.scale_eq, V3.plus_eq]
  · exact mk_holds ⟨hP 0, Fl.wf_add _ _⟩ ⟨hP 1, Fl.wf_add _ _⟩ ⟨hP 2, Fl.wf_add _ _⟩
  · intro hr q hq
    have hq : euc (q - toR φ c) ≤ φ r := hq
    have h1 : q ⬝ᵥ toR φ V = toR φ c ⬝ᵥ toR φ V + (q - toR φ c) ⬝ᵥ toR φ V := by rw [sub_dotProduct]; ring
    have h2 : (q - toR φ c) ⬝ᵥ toR φ V ≤ φ r * euc (toR φ V) :=
      (le_abs_self _).trans ((abs_dot_le _ _).trans (mul_le_mul_of_nonneg_right hq hUpos.le))
    have h3 : φ r * euc (toR φ V) = (φ r * (φ (V 0) / euc (toR φ V))) * φ (V 0) + (φ r * (φ (V 1) / euc (toR φ V))) * φ (V 1)
        + (φ r * (φ (V 2) / euc (toR φ V))) * φ (V 2) := by
      have hsq := euc_sq (toR φ V)
      simp only [dotProduct, Fin.sum_univ_three] at hsq
      have e0 : toR φ V 0 = φ (V 0) := rfl
      have e1 : toR φ V 1 = φ (V 1) := rfl
      have e2 : toR φ V 2 = φ (V 2) := rfl
      rw [e0, e1, e2] at hsq
      field_simp
      linear_combination φ r * hsq
    have hd (i : Fin 3) : (φ (c i) + φ r * (φ (V i) / euc (toR φ V))) * φ (V i) ≤
        φ (P i) * φ (V i) + φ (8 * u * (M + r) + 2 * (1 + r) * eta) * |φ (V i)| := by
      have hm : φ (8 * u * (|c i| + |r|) + 2 * (1 + |r|) * eta) ≤ φ (8 * u * (M + r) + 2 * (1 + r) * eta) := by
        apply hφ.monotone
        rw [abs_of_nonneg hr]
        have := mul_le_mul_of_nonneg_left (hM i) (show (0 : K) ≤ 8 * u by linarith)
        linarith
      have h4 := mul_le_mul_of_nonneg_right ((main i).trans hm) (abs_nonneg (φ (V i)))
      rw [← abs_mul] at h4
      have := (abs_le.mp h4).1
      linarith
    have hn1 : φ (norm1 V) = |φ (V 0)| + |φ (V 1)| + |φ (V 2)| := by simp [norm1, map_abs_mono φ hφ]
    rw [map_mul, hn1, h1]
    have hcd : toR φ c ⬝ᵥ toR φ V = φ (c 0) * φ (V 0) + φ (c 1) * φ (V 1) + φ (c 2) * φ (V 2) := by
      simp [dotProduct, Fin.sum_univ_three, toR]
    have hPd : toR φ P ⬝ᵥ toR φ V = φ (P 0) * φ (V 0) + φ (P 1) * φ (V 1) + φ (P 2) * φ (V 2) := by
      simp [dotProduct, Fin.sum_univ_three, toR]
    rw [hcd, hPd]
    linarith [hd 0, hd 1, hd 2]

end real

/-! ## binary64 -/

theorem f64_support_omega {r B : Q64} (hr0 : 0 ≤ r) (hr : r ≤ ((2 : ℚ) ^ (500 : ℤ) : ℚ)) (hB0 : 0 ≤ B) (hB : B ≤ ((2 : ℚ) ^ (510 : ℤ) : ℚ)) :
    4 * (r * B + 1) ≤ omega := by
  obtain ⟨-, -, -, co, -⟩ := C55_constants
  rw [co]
  have key (a b : ℚ) (ha0 : 0 ≤ a) (ha : a ≤ 2 ^ (500 : ℤ)) (hb0 : 0 ≤ b) (hb : b ≤ 2 ^ (510 : ℤ)) : 4 * (a * b + 1) ≤ (2 : ℚ) ^ (1023 : ℤ) := by
    have h := mul_le_mul ha hb hb0 (by positivity)
    rw [← zpow_add₀ (by norm_num)] at h
    have h1 : (1 : ℚ) ≤ 2 ^ (1010 : ℤ) := one_le_zpow₀ (by norm_num) (by norm_num)
    have e : ((2 : ℚ) ^ (1023 : ℤ) : ℚ) = 2 ^ (13 : ℤ) * 2 ^ (1010 : ℤ) := by rw [← zpow_add₀ (by norm_num)]; norm_num
    rw [e]
    rw [show (500 + 510 : ℤ) = 1010 by norm_num] at h
    clear e ha hb hr hB
    generalize (2 : ℚ) ^ (1010 : ℤ) = z at *
    norm_num
    nlinarith
  exact key r B hr0 hr hB0 hB

theorem real_u : BinQ.real (u : Q64) = 2 ^ (-53 : ℤ) := by
  rw [C55_constants.1]; show (((2 : ℚ) ^ (-53 : ℤ) : ℚ) : ℝ) = _; push_cast; rfl

theorem real_eta : BinQ.real (eta : Q64) = 2 ^ (-1075 : ℤ) := by
  rw [C55_constants.2.1]; show (((2 : ℚ) ^ (-1075 : ℤ) : ℚ) : ℝ) = _; rw [Rat.cast_zpow]; rfl

theorem real_abs (a : Q64) : BinQ.real |a| = |a.real| := map_abs_mono BinQ.real BinQ.real_strictMono a

theorem real_norm1 (V : Fin 3 → Q64) : BinQ.real (norm1 V) = norm1 (toR BinQ.real V) := by
  simp only [norm1, map_add, real_abs, toR]

/-- C77 for `f64`, the box: components of the direction zero or between `2^-511` and `2^510`, sizes up to `2^500`: the answer is
furthest up to `2^-50 (M + r)‖V‖₁ + 2^-1072`. -/
theorem C77_box_f64 {l : List (Fl Q64)} {x : Fl Q64} {s : RecBox Q64} {c : Fin 3 → Q64} {r : Q64} (hl : ListIn l c) (hx : x.Holds r)
    (hs : RecBox.init l x = .ok s) (hr : 0 ≤ r) {v : V3 Q64} {V : Fin 3 → Q64} (hv : v.Holds V) (h0 : V ≠ 0)
    (hlo : ∀ i, V i = 0 ∨ ((2 : ℚ) ^ (-511 : ℤ) : ℚ) ≤ |V i|) (hhi : ∀ i, |V i| ≤ ((2 : ℚ) ^ (510 : ℤ) : ℚ))
    {M : Q64} (hM : ∀ i, |c i| ≤ M) (hr' : r ≤ ((2 : ℚ) ^ (500 : ℤ) : ℚ)) (hM' : M ≤ ((2 : ℚ) ^ (500 : ℤ) : ℚ)) :
    ∃ p P, (Shape.box s).getSupport v = .ok (some p) ∧ p.Holds P ∧ ∀ q ∈ cubePts (toR BinQ.real c) r.real,
      q ⬝ᵥ toR BinQ.real V ≤ toR BinQ.real P ⬝ᵥ toR BinQ.real V +
        (2 ^ (-50 : ℤ) * ((M.real + r.real) * norm1 (toR BinQ.real V)) + 2 ^ (-1072 : ℤ)) := by
  obtain ⟨r1, r2, r3⟩ := f64_range hlo hhi
  have hM0 : 0 ≤ M := (abs_nonneg _).trans (hM 0)
  have ho : M + r ≤ omega := by
    have := f64_omega (M := M) (hM'.trans (zpow_le_zpow_right₀ (a := (2 : ℚ)) (by norm_num) (by norm_num)))
    have := f64_omega (M := r) (hr'.trans (zpow_le_zpow_right₀ (a := (2 : ℚ)) (by norm_num) (by norm_num)))
    linarith
  obtain ⟨p, P, e, hP, -, h⟩ := C77_box BinQ.real BinQ.real_strictMono hl hx hs hr hv r1 r2 h0 hM hhi (eta_tiny.trans (by norm_num))
    (f64_support_omega hr hr' ((abs_nonneg _).trans (hhi 0)) le_rfl) ho
  have e8 : BinQ.real (8 : Q64) = 8 := map_ofNat _ 8
  have e1 : (8 : ℝ) * 2 ^ (-53 : ℤ) = 2 ^ (-50 : ℤ) := by
    rw [show (-50 : ℤ) = 3 + (-53) by norm_num, zpow_add₀ (by norm_num)]; norm_num
  have e2 : (8 : ℝ) * 2 ^ (-1075 : ℤ) = 2 ^ (-1072 : ℤ) := by
    rw [show (-1072 : ℤ) = 3 + (-1075) by norm_num, zpow_add₀ (by norm_num)]; norm_num
  simp only [map_add, map_mul, real_u, real_eta, real_norm1, e8, e1, e2] at h
  exact ⟨p, P, e, hP, h⟩

/-- C77 for `f64`, the sphere: each coordinate of the answer is within `2^-50 (|c i| + r) + 2^-1074 (1 + r)` of the exact one. -/
theorem C77_sphere_f64 {l : List (Fl Q64)} {x : Fl Q64} {s : Sphere Q64} {c : Fin 3 → Q64} {r : Q64} (hl : ListIn l c) (hx : x.Holds r)
    (hs : Sphere.init l x = .ok s) (hr : 0 ≤ r) {v : V3 Q64} {V : Fin 3 → Q64} (hv : v.Holds V) (h0 : V ≠ 0)
    (hlo : ∀ i, V i = 0 ∨ ((2 : ℚ) ^ (-511 : ℤ) : ℚ) ≤ |V i|) (hhi : ∀ i, |V i| ≤ ((2 : ℚ) ^ (510 : ℤ) : ℚ))
    {M : Q64} (hM : ∀ i, |c i| ≤ M) (hr' : r ≤ ((2 : ℚ) ^ (1000 : ℤ) : ℚ)) (hM' : M ≤ ((2 : ℚ) ^ (1000 : ℤ) : ℚ)) :
    ∃ p P, (Shape.sphere s).getSupport v = .ok (some p) ∧ p.Holds P ∧
      ∀ i, |(P i).real - ((c i).real + r.real * ((V i).real / euc (toR BinQ.real V)))| ≤
        2 ^ (-50 : ℤ) * (|(c i).real| + r.real) + 2 ^ (-1074 : ℤ) * (1 + r.real) := by
  obtain ⟨r1, r2, -⟩ := f64_range hlo hhi
  have ho : 4 * (M + |r| + 1) ≤ omega := by
    have := f64_omega hM'
    have := f64_omega hr'
    have hM0 : 0 ≤ M := (abs_nonneg _).trans (hM 0)
    rw [abs_of_nonneg hr]
    linarith
  obtain ⟨p, P, e, hP, h, -⟩ := C77_sphere BinQ.real BinQ.real_strictMono hl hx hs hv r1 r2 h0 hM eta_tiny ho
  refine ⟨p, P, e, hP, fun i => ?_⟩
  have h := h i
  have e8 : BinQ.real (8 : Q64) = 8 := map_ofNat _ 8
  have e2' : BinQ.real (2 : Q64) = 2 := map_ofNat _ 2
  have e1 : (8 : ℝ) * 2 ^ (-53 : ℤ) = 2 ^ (-50 : ℤ) := by
    rw [show (-50 : ℤ) = 3 + (-53) by norm_num, zpow_add₀ (by norm_num)]; norm_num
  have e2 : (2 : ℝ) * (1 + r.real) * 2 ^ (-1075 : ℤ) = 2 ^ (-1074 : ℤ) * (1 + r.real) := by
    rw [show (-1074 : ℤ) = 1 + (-1075) by norm_num, zpow_add₀ (by norm_num)]; rw [zpow_one]; ring
  simp only [abs_of_nonneg hr, map_add, map_mul, map_one, real_u, real_eta, real_abs, e8, e2', e1, e2] at h
  exact h

/-- concrete cases: the box and the sphere of size `1` around `(1, 2, 3)`, direction `(-4, 0, 5)` -/
example := C77_box_f64 listA one64_holds rfl zero_le_one b405_holds B405_ne (B405_lo64 (by norm_num)) (B405_hi64 (by norm_num))
  (M := 5) A123_five ((by norm_num : (1 : Q64) ≤ 5).trans (five_le (by norm_num))) (five_le (by norm_num))
example := C77_sphere_f64 listA one64_holds rfl zero_le_one b405_holds B405_ne (B405_lo64 (by norm_num)) (B405_hi64 (by norm_num))
  (M := 5) A123_five ((by norm_num : (1 : Q64) ≤ 5).trans (five_le (by norm_num))) (five_le (by norm_num))

theorem int_holds {x : Fl Q64} {a : ℚ} (hx : x = .fin a) (h : a = 0 ∨ a = 1 ∨ a = 2) : x.Holds (a : Q64) := by
  subst hx
  rcases h with rfl | rfl | rfl
  · exact ⟨rfl, .inl rfl⟩
  · exact ⟨rfl, .inr (by decide +kernel)⟩
  · exact ⟨rfl, .inr (by decide +kernel)⟩

def prismW : Fin 3 → Fin 3 → Q64 := ![![(0 : ℚ), (0 : ℚ), (0 : ℚ)], ![(1 : ℚ), (0 : ℚ), (0 : ℚ)], ![(0 : ℚ), (1 : ℚ), (0 : ℚ)]]
def prismW' : Fin 3 → Fin 3 → Q64 := ![![(0 : ℚ), (0 : ℚ), (2 : ℚ)], ![(1 : ℚ), (0 : ℚ), (2 : ℚ)], ![(0 : ℚ), (1 : ℚ), (2 : ℚ)]]

/-- concrete case: a prism with vertices `(0,0,0), (1,0,0), (0,1,0)` and `(0,0,2), (1,0,2), (0,1,2)`, direction `(-4, 0, 5)` -/
example (t : TriPrism Q64) : ∃ p P, (Shape.triPrism (K := Q64) { t with
      triBase := #v[⟨#v[.fin (0 : ℚ), .fin (0 : ℚ), .fin (0 : ℚ)]⟩, ⟨#v[.fin (1 : ℚ), .fin (0 : ℚ), .fin (0 : ℚ)]⟩, ⟨#v[.fin (0 : ℚ), .fin (1 : ℚ), .fin (0 : ℚ)]⟩],
      triBase2 := #v[⟨#v[.fin (0 : ℚ), .fin (0 : ℚ), .fin (2 : ℚ)]⟩, ⟨#v[.fin (1 : ℚ), .fin (0 : ℚ), .fin (2 : ℚ)]⟩, ⟨#v[.fin (0 : ℚ), .fin (1 : ℚ), .fin (2 : ℚ)]⟩]
      }).getSupport b405 = .ok (some p) ∧ p.Holds P ∧ P ∈ Set.range prismW ∪ Set.range prismW' ∧
    ∀ q ∈ convexHull ℝ (toR BinQ.real '' (Set.range prismW ∪ Set.range prismW')),
      q ⬝ᵥ toR BinQ.real B405 ≤ toR BinQ.real P ⬝ᵥ toR BinQ.real B405 + BinQ.real (7 * u * (5 * norm1 B405) + 8 * eta) := by
  have bd (a : ℚ) (h : a = 0 ∨ a = 1 ∨ a = 2) : |a| ≤ 5 := by rcases h with rfl | rfl | rfl <;> norm_num
  refine C77_prism BinQ.real BinQ.real_strictMono _ prismW prismW' ?_ ?_ b405_holds B405_lo B405_hi B405_ne (M := 5) (B := 5) ?_ ?_ B405_five
    (eta_tiny.trans (by norm_num)) (by have := omega_big; linarith)
  · intro i; fin_cases i <;> exact mk_holds (int_holds rfl (by first | exact .inl rfl | exact .inr (.inl rfl) | exact .inr (.inr rfl))) (int_holds rfl (by first | exact .inl rfl | exact .inr (.inl rfl) | exact .inr (.inr rfl))) (int_holds rfl (by first | exact .inl rfl | exact .inr (.inl rfl) | exact .inr (.inr rfl)))
  · intro i; fin_cases i <;> exact mk_holds (int_holds rfl (by first | exact .inl rfl | exact .inr (.inl rfl) | exact .inr (.inr rfl))) (int_holds rfl (by first | exact .inl rfl | exact .inr (.inl rfl) | exact .inr (.inr rfl))) (int_holds rfl (by first | exact .inl rfl | exact .inr (.inl rfl) | exact .inr (.inr rfl)))
  · intro j i; fin_cases j <;> fin_cases i <;> exact bd _ (by first | exact .inl rfl | exact .inr (.inl rfl) | exact .inr (.inr rfl))
  · intro j i; fin_cases j <;> fin_cases i <;> exact bd _ (by first | exact .inl rfl | exact .inr (.inl rfl) | exact .inr (.inr rfl))

/-- C77: some error is unavoidable: for the unit box and the direction `(1, 2^-60, 2^-60)` the four corners with `x = 1` tie after
rounding and the last of them wins, although `(1, 1, 1)` is further. -/
theorem C77_exact_false : ∃ (s : RecBox Q64) (p : V3 Q64) (P V q : Fin 3 → Q64), RecBox.init [0, 0, 0] 1 = .ok s ∧ p.Holds P ∧
    (Shape.box s).getSupport ⟨#v[1, .fin (1 / 2 ^ 60), .fin (1 / 2 ^ 60)]⟩ = .ok (some p) ∧
    (⟨#v[1, .fin (1 / 2 ^ 60), .fin (1 / 2 ^ 60)]⟩ : V3 Q64).Holds V ∧ (∀ i, |q i - 0| ≤ 1) ∧ P ⬝ᵥ V < q ⬝ᵥ V := by
  refine ⟨_, ⟨#v[.fin (1 : ℚ), .fin (-1 : ℚ), .fin (-1 : ℚ)]⟩, ![(1 : ℚ), (-1 : ℚ), (-1 : ℚ)], ![(1 : ℚ), (1 / 2 ^ 60 : ℚ), (1 / 2 ^ 60 : ℚ)],
    ![(1 : ℚ), (1 : ℚ), (1 : ℚ)], rfl, ?_, by decide +kernel, ?_, ?_, ?_⟩
  · exact mk_holds ⟨rfl, .inr (by decide +kernel)⟩ ⟨rfl, .inr (by decide +kernel)⟩ ⟨rfl, .inr (by decide +kernel)⟩
  · exact mk_holds ⟨rfl, .inr (by decide +kernel)⟩ ⟨rfl, .inr (by decide +kernel)⟩ ⟨rfl, .inr (by decide +kernel)⟩
  · intro i; fin_cases i <;> exact (by norm_num : |(1 : ℚ) - 0| ≤ 1)
  · simp only [dotProduct, Fin.sum_univ_three]
    exact (by norm_num : (1 * 1 + -1 * (1 / 2 ^ 60) + -1 * (1 / 2 ^ 60) : ℚ) < 1 * 1 + 1 * (1 / 2 ^ 60) + 1 * (1 / 2 ^ 60))

end Mazth
