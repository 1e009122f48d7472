import Verif.Props.FloatPrismPoint
import Verif.Props.FloatRayPlane
import Verif.Props.FloatVec

/-!
# C79: prism against segment in floating point

The query first tests the two end points and then intersects the line with the five facet planes, keeping a hit if it passes the same
five half-space tests again (/repo/lib/triprism.rs:206-365).  With rounding this last test is a coin toss for the hit on the facet itself:
segments that cross the prism are missed (`C79_crossing_false`).  What survives: end points clearly inside are found (`C79_ends`), and a
finite location is close to the prism and to the segment (`C79_sound_partial`).
-/

set_option autoImplicit false
set_option linter.unusedSectionVars false

namespace Mazth

open RndErr Matrix

section shape

variable {K : Type} [Field K] [LinearOrder K] [IsStrictOrderedRing K] [Fmt K] [LawfulFmt K] [RndErr K]

theorem prismLine_eq (s : TriPrism K) (t : Line3 K) : ∃ r fs, Ray3.init (TriPrism.toList t.a) (TriPrism.toList (V3.sub t.b t.a)) = .ok r ∧
    s.facets = .ok fs ∧ s.intersectLine (Shape.line t).getShapeData =
      if s.inside t.a then .ok (true, some t.a) else if s.inside t.b then .ok (true, some t.b)
      else TriPrism.facetLoop r s.testsP t.a (V3.mag (V3.sub t.b t.a)) fs := by
  obtain ⟨fs, hfs⟩ := facets_ok s
  obtain ⟨r, hri⟩ := ray_init_ok t.a (V3.sub t.b t.a)
  refine ⟨r, fs, hri, hfs, ?_⟩
  unfold TriPrism.intersectLine
  simp only [vecAt_line0, vecAt_line3, Res.ok_bind, TriPrism.tests_eq, allInside_ok, Res.pure_eq, V3.minus_eq,
    V3.magnitude_eq, unwrap_some, hfs, hri]
  rfl

/-- a hit of the loop over the facets is a hit of one facet plane which passes the two checks -/
theorem facetLoop_hit {s : TriPrism K} {r : Ray3 K} {a : V3 K} {m : Fl K} {fs : List (Plane K)} {loc : V3 K}
    (h : TriPrism.facetLoop r s.testsP a m fs = .ok (true, some loc)) :
    ∃ f, r.getIntersect (.plane f) = .ok (true, some loc) ∧ s.inside loc = true ∧ Fl.lt m (V3.mag (V3.sub loc a)) = false := by
  induction fs with
  | nil => cases h
  | cons f fs ih =>
    rw [TriPrism.facetLoop] at h
    cases hr : r.getIntersect (.plane f) with
    | error e => rw [hr] at h; cases h
    | ok res =>
      obtain ⟨b, o⟩ := res
      rw [hr] at h
      cases b with
      | false => exact ih h
      | true =>
        cases o with
        | none => cases h
        | some p =>
          simp only [Res.ok_bind, unwrap_some, V3.minus_eq, V3.magnitude_eq, allInside_ok, if_true] at h
          change (if (!s.inside p || Fl.lt m (V3.mag (V3.sub p a))) = true then TriPrism.facetLoop r s.testsP a m fs else .ok (true, some p)) = _ at h
          split at h
          · exact ih h
          · rename_i hn
            simp only [Bool.or_eq_true, Bool.not_eq_true', not_or, Bool.not_eq_true, Bool.not_eq_false] at hn
            cases h
            exact ⟨f, hr, hn.1, hn.2⟩

/-- a hit of a plane is the origin of the ray or a point with a parameter that is not negative -/
theorem rayPlane_shape {r : Ray3 K} {f : Plane K} {loc : V3 K} (h : r.getIntersect (.plane f) = .ok (true, some loc)) :
    loc = r.ori ∨ ∃ t, Fl.lt t 0 = false ∧ loc = V3.add (V3.scl r.dir t) r.ori := by
  have e : r.getIntersect (.plane f) = Shape.getIntersect 2 (.ray r) (.plane f) := rfl
  rw [e, getIntersect_eq 0] at h
  split at h
  · change Ray3.intersectPlane r _ = _ at h
    unfold Ray3.intersectPlane at h
    simp only [vecAt_plane0, vecAt_plane3, Res.ok_bind, V3.dot_eq, V3.scale_eq, V3.plus_eq, unwrap_some, Res.pure_eq] at h
    split at h
    · split at h
      · cases h; exact .inl rfl
      · cases h
    · split at h
      · cases h
      · split at h
        · cases h
        · rename_i hn
          cases h
          exact .inr ⟨_, Bool.eq_false_of_not_eq_true hn, rfl⟩
  · cases h

theorem line_has {l l' : List (Fl K)} {t : Line3 K} {A B : Fin 3 → K} (hl : ListIn l A) (hl' : ListIn l' B) (h : Line3.init l l' = .ok t) :
    t.a.Holds A ∧ t.b.Holds B ∧ t.bound.Has (fun i => t.a.val[i]) ∧ t.bound.Has (fun i => t.b.val[i]) := by
  obtain ⟨x0, x1, x2, rfl, h0, h1, h2⟩ := hl
  obtain ⟨y0, y1, y2, rfl, k0, k1, k2⟩ := hl'
  have key {x y : Fl K} {a b : K} (hx : x.Holds a) (hy : y.Holds b) : ∃ m n, minOf [x, y] = .ok m ∧ maxOf [x, y] = .ok n ∧
      (Fl.le m x = true ∧ Fl.le x n = true) ∧ (Fl.le m y = true ∧ Fl.le y n = true) := by
    have hn : ∀ z ∈ [x, y], z ≠ Fl.nan := by
      simp only [List.forall_mem_cons, List.not_mem_nil, false_implies, implies_true, and_true]
      exact ⟨hx.1.kne_nan, hy.1.kne_nan⟩
    obtain ⟨m, e, -, hm⟩ := minOf_spec (by simp) hn
    obtain ⟨n, e', -, hn'⟩ := maxOf_spec (by simp) hn
    exact ⟨m, n, e, e', ⟨hm x (by simp), hn' x (by simp)⟩, ⟨hm y (by simp), hn' y (by simp)⟩⟩
  obtain ⟨m0, n0, e0, f0, i0, j0⟩ := key h0 k0
  obtain ⟨m1, n1, e1, f1, i1, j1⟩ := key h1 k1
  obtain ⟨m2, n2, e2, f2, i2, j2⟩ := key h2 k2
  have hi : (minOf [x0, y0] >>= fun xMin => maxOf [x0, y0] >>= fun xMax => minOf [x1, y1] >>= fun yMin =>
    maxOf [x1, y1] >>= fun yMax => minOf [x2, y2] >>= fun zMin => maxOf [x2, y2] >>= fun zMax =>
    Except.ok (⟨⟨#v[x0, x1, x2]⟩, ⟨#v[y0, y1, y2]⟩, ⟨#v[xMin, yMin, zMin], #v[xMax, yMax, zMax]⟩, defaultVicinity⟩ : Line3 K)) =
    Except.ok t := h
  rw [e0, f0, e1, f1, e2, f2] at hi
  simp only [Res.ok_bind] at hi
  injection hi with hi
  subst hi
  refine ⟨mk_holds h0 h1 h2, mk_holds k0 k1 k2, ?_, ?_⟩ <;> intro i <;> fin_cases i
  exacts [i0, i1, i2, j0, j1, j2]

theorem Fl.PosNum.sqrt {x : Fl K} (h : x.PosNum) : (Fl.sqrt x).PosNum := by
  rcases h with rfl | ⟨v, hv, rfl⟩
  · exact .inl rfl
  · simp only [Fl.sqrt, if_neg (not_lt.mpr hv)]
    split
    · exact .inr ⟨0, (_root_.le_refl 0), rfl⟩
    · rcases LawfulFmt.rsqrt_pos v (lt_of_le_of_ne hv (Ne.symm ‹_›)) with e | ⟨w, hw, e, _⟩ <;> rw [e]
      · exact .inl rfl
      · exact .inr ⟨w, hw, rfl⟩

/-- the magnitude of a vector without NaN that is not larger than a finite number is finite -/
theorem mag_le_finite {x : V3 K} {m : Fl K} {M : K} (hm : m.Is M) (hx : ∀ i : Fin 3, x.val[i] ≠ .nan) (h : Fl.lt m (V3.mag x) = false) :
    ∃ c, (V3.mag x).Is c ∧ c ≤ M := by
  have hp : (V3.mag x).PosNum := (((Fl.posNum_sq (hx 0)).add (Fl.posNum_sq (hx 1))).add (Fl.posNum_sq (hx 2))).sqrt
  rcases hp with e | ⟨c, -, e⟩
  · rw [e] at h
    rcases hm.kcases with rfl | ⟨rfl, rfl⟩ <;> simp [Fl.lt] at h
  · rw [e] at h ⊢
    refine ⟨c, rfl, not_lt.mp fun hlt => ?_⟩
    rw [(hm.klt (y := .fin c) rfl).mpr hlt] at h
    cases h

/-- the parameter of a finite hit is finite and not negative -/
theorem hit_finite {d o loc : V3 K} {t : Fl K} {P : Fin 3 → K} (hl : loc.Holds P) (ht : Fl.lt t 0 = false) (e : loc = V3.add (V3.scl d t) o) :
    ∃ T, t.Is T ∧ 0 ≤ T := by
  subst e
  obtain ⟨g, b, hg, -⟩ := Fl.add_finite (hl 0).1
  obtain ⟨c, T, -, hT⟩ := Fl.mul_finite hg
  refine ⟨T, hT, not_lt.mp fun h => ?_⟩
  have h0 : (0 : Fl K).Is 0 := rfl
  rw [(hT.klt h0).mpr h] at ht
  cases ht

end shape

section real

/-- one coordinate of the computed point -/
theorem hit_coord {E e a T g P t h M : ℝ} (ht : 0 < t) (htl : t ≤ 1 / 600) (hh : 0 < h) (e1 : h ≤ t) (e2 : h ≤ t * M) (he : |e| ≤ 1)
    (ha : |a| ≤ M) (hE : |E - e| ≤ 5 * t * |e| + h) (hT : 0 ≤ T) (hg : |g - E * T| ≤ t * |E * T| + h)
    (hP : |P - (g + a)| ≤ t * |g + a|) : |P - a - T * e| ≤ 9 * (t * T) + 3 * (t * M) := by
  have hE1 : |E - e| ≤ 6 * t := hE.trans (by nlinarith)
  have hE2 : |E| ≤ 101 / 100 := by
    have := abs_add_le (E - e) e; rw [sub_add_cancel] at this; linarith
  have k1 : |E * T| ≤ 101 / 100 * T := by rw [abs_mul, abs_of_nonneg hT]; gcongr
  have k2 : |E * T - T * e| ≤ 6 * t * T := by
    rw [show E * T - T * e = (E - e) * T by ring, abs_mul, abs_of_nonneg hT]; gcongr
  have k3 : t * |E * T| ≤ t * (101 / 100 * T) := by gcongr
  have k4 : |g + a| ≤ 11 / 10 * T + 11 / 10 * M := by
    have a1 := abs_add_le (g - E * T) (E * T + a)
    have a2 := abs_add_le (E * T) a
    rw [show g - E * T + (E * T + a) = g + a by ring] at a1
    have : t * (101 / 100 * T) ≤ 1 / 600 * (101 / 100 * T) := by gcongr
    have hM : 0 ≤ M := (abs_nonneg _).trans ha
    have : t * M ≤ 1 / 600 * M := by gcongr
    linarith
  have k5 : t * |g + a| ≤ t * (11 / 10 * T + 11 / 10 * M) := by gcongr
  have a1 := abs_add_le (P - (g + a)) (g - E * T + (E * T - T * e))
  have a2 := abs_add_le (g - E * T) (E * T - T * e)
  rw [show P - (g + a) + (g - E * T + (E * T - T * e)) = P - a - T * e by ring] at a1
  have := mul_nonneg ht.le hT
  linarith

/-- the real content of `C79_sound_partial`: `W` the computed `B - A`, `E` its computed unit vector, `T` the parameter, `P` the computed
`T E + A`, whose distance from `A` passed the comparison with `|W|` -/
theorem seg_real {A B W E P g : R3} {T t h M : ℝ} (ht : 0 < t) (htl : t ≤ 1 / 600) (hh : 0 < h) (hM : 0 < M) (e1 : h ≤ t) (e2 : √h ≤ t * M)
    (hA : ∀ i, |A i| ≤ M) (hB : ∀ i, |B i| ≤ M) (hW : ∀ i, |W i - (B i - A i)| ≤ t * |B i - A i|) (hW0 : W ≠ 0)
    (hE : ∀ i, |E i - unit W i| ≤ 5 * t * |unit W i| + h) (hT : 0 ≤ T) (hg : ∀ i, |g i - E i * T| ≤ t * |E i * T| + h)
    (hP : ∀ i, |P i - (g i + A i)| ≤ t * |g i + A i|) (hd : euc (P - A) ≤ (1 + 8 * t) * euc W + 3 * √h) :
    ∃ q ∈ segment ℝ A B, ∀ i, |P i - q i| ≤ 160 * t * M := by
  have hL : 0 < euc W := euc_pos hW0
  have hu1 := euc_unit hW0
  have he (i : Fin 3) : |unit W i| ≤ 1 := (euc_coord _ i).trans hu1.le
  have hWu (i : Fin 3) : W i = euc W * unit W i := by
    show W i = euc W * ((euc W)⁻¹ * W i); field_simp
  have hD (i : Fin 3) : |B i - A i| ≤ 2 * M := by
    have := abs_sub (B i) (A i); linarith [hA i, hB i]
  have tM : t * M ≤ 1 / 600 * M := by gcongr
  have hWD (i : Fin 3) : |W i - (B i - A i)| ≤ 2 * (t * M) := (hW i).trans (by nlinarith [hD i])
  have hL2 : euc W ≤ 36 / 10 * M := by
    refine (euc_le_of (ε := 2 * M + 2 * (t * M)) fun i => ?_).trans (by linarith)
    have := abs_add_le (W i - (B i - A i)) (B i - A i)
    rw [sub_add_cancel] at this
    linarith [hWD i, hD i]
  have hs1 : √h ≤ 1 := by rw [Real.sqrt_le_left (by norm_num)]; linarith
  have hs2 : h ≤ t * M := by
    have h1 : √h * √h = h := Real.mul_self_sqrt hh.le
    have := mul_le_mul_of_nonneg_left hs1 (Real.sqrt_nonneg h)
    linarith
  have hr (i : Fin 3) := hit_coord ht htl hh e1 hs2 (he i) (hA i) (hE i) hT (hg i) (hP i)
  have hr2 : euc (P - A - T • unit W) ≤ 7 / 4 * (9 * (t * T) + 3 * (t * M)) := euc_le_of fun i => hr i
  have hT1 : T ≤ euc (P - A) + euc (P - A - T • unit W) := by
    have h1 := euc_add_le (P - A) (-(P - A - T • unit W))
    have h2 : euc (-(P - A - T • unit W)) = euc (P - A - T • unit W) := by
      have := euc_smul (-1) (P - A - T • unit W); rwa [neg_one_smul, abs_neg, abs_one, one_mul] at this
    rw [h2, show P - A + -(P - A - T • unit W) = T • unit W by abel, euc_smul, hu1, abs_of_nonneg hT, mul_one] at h1
    exact h1
  have tT : t * T ≤ 1 / 600 * T := by gcongr
  have tL : t * euc W ≤ t * (36 / 10 * M) := by gcongr
  have hT2 : T ≤ 4 * M := by linarith
  have tT2 : t * T ≤ t * (4 * M) := by gcongr
  have hT3 : T - euc W ≤ 107 * (t * M) := by linarith
  have tm0 : 0 ≤ t * M := by positivity
  rcases le_total T (euc W) with hc | hc
  · refine ⟨A + (T / euc W) • (B - A), ?_, fun i => ?_⟩
    · rw [segment_eq_image']
      exact ⟨T / euc W, ⟨by positivity, (div_le_one hL).mpr hc⟩, rfl⟩
    · have h1 : |T / euc W * (W i - (B i - A i))| ≤ 1 * (2 * (t * M)) := by
        rw [abs_mul, abs_of_nonneg (by positivity)]
        exact mul_le_mul ((div_le_one hL).mpr hc) (hWD i) (abs_nonneg _) zero_le_one
      have h2 : T * unit W i = T / euc W * W i := by rw [hWu i]; field_simp
      have h3 := abs_add_le (P i - A i - T * unit W i) (T / euc W * (W i - (B i - A i)))
      rw [show P i - A i - T * unit W i + T / euc W * (W i - (B i - A i)) = P i - (A + (T / euc W) • (B - A)) i by
        rw [h2]; simp; ring] at h3
      linarith [hr i]
  · refine ⟨B, right_mem_segment ℝ A B, fun i => ?_⟩
    have h1 : |(T - euc W) * unit W i| ≤ 107 * (t * M) * 1 := by
      rw [abs_mul, abs_of_nonneg (by linarith)]
      exact mul_le_mul hT3 (he i) (abs_nonneg _) (by positivity)
    have h3 := abs_add_le (P i - A i - T * unit W i) ((T - euc W) * unit W i + (W i - (B i - A i)))
    have h4 := abs_add_le ((T - euc W) * unit W i) (W i - (B i - A i))
    rw [show P i - A i - T * unit W i + ((T - euc W) * unit W i + (W i - (B i - A i))) = P i - B i by
      have := hWu i; linear_combination this] at h3
    linarith [hr i, hWD i]

/-- componentwise relative errors -/
theorem euc_rel {a b : R3} {t : ℝ} (ht : 0 ≤ t) (h : ∀ i, |a i| ≤ t * |b i|) : euc a ≤ t * euc b := by
  have q (i : Fin 3) : a i * a i ≤ t * t * (b i * b i) := by
    rw [← abs_mul_abs_self (a i), ← abs_mul_abs_self (b i)]
    have := mul_le_mul (h i) (h i) (abs_nonneg _) (by positivity)
    linarith
  have hb : euc b * euc b = b 0 * b 0 + b 1 * b 1 + b 2 * b 2 := by
    rw [euc_sq, dotProduct, Fin.sum_univ_three]
  rw [euc_eq a, Fin.sum_univ_three]
  refine Real.sqrt_le_iff.mpr ⟨mul_nonneg ht (euc_nonneg _), ?_⟩
  rw [mul_pow, sq (euc b), hb, sq]
  linarith [q 0, q 1, q 2]

theorem length_real {d x c m L w t : ℝ} (ht : 0 < t) (htl : t ≤ 1 / 600) (hL : 0 ≤ L) (hw : 0 ≤ w) (hd : d ≤ x + t * d)
    (hm : |m - L| ≤ 3 * t * L) (hc : |c - x| ≤ 3 * t * x + 2 * w) (hcm : c ≤ m) : d ≤ (1 + 8 * t) * L + 3 * w := by
  have h1 := (abs_le.mp hm).2
  have h2 := (abs_le.mp hc).1
  have h3 : x * (1 - 3 * t) ≤ (1 + 3 * t) * L + 2 * w := by linarith
  have h4 : d * ((1 - t) * (1 - 3 * t)) ≤ (1 + 3 * t) * L + 2 * w := by
    refine le_trans ?_ h3
    rw [← mul_assoc]
    exact mul_le_mul_of_nonneg_right (by linarith) (by linarith)
  have tt : t * t ≤ 1 / 600 * t := by gcongr
  have h5 : (1 + 3 * t) * L ≤ (1 + 8 * t) * ((1 - t) * (1 - 3 * t)) * L := by
    refine mul_le_mul_of_nonneg_right ?_ hL
    nlinarith [mul_pos (mul_pos ht ht) ht]
  have h6 : 2 * w ≤ 3 * ((1 - t) * (1 - 3 * t)) * w := by
    refine mul_le_mul_of_nonneg_right ?_ hw
    nlinarith [mul_pos ht ht]
  have h7 : 0 < (1 - t) * (1 - 3 * t) := mul_pos (by linarith) (by linarith)
  refine le_of_mul_le_mul_right (h4.trans ?_) h7
  linarith

end real


section floats

variable {K : Type} [Field K] [LinearOrder K] [IsStrictOrderedRing K] [Fmt K] [LawfulFmt K] [RndErr K]
variable (φ : K →+* ℝ) (hφ : StrictMono φ)

theorem sub_ne_nan' {x y : Fl K} {a b : K} (hx : x.Is a) (hy : y.Is b) : x - y ≠ .nan := by
  have := (Fl.le_ne_nan (hx.add_lit hy.kneg).1).1
  exact this

theorem toList_in {a : V3 K} {A : Fin 3 → K} (h : a.Holds A) : ListIn (TriPrism.toList a) A := ⟨_, _, _, rfl, h 0, h 1, h 2⟩

theorem V3.sub_get (a b : V3 K) (i : Fin 3) : (V3.sub a b).val[i] = a.val[i] - b.val[i] := by fin_cases i <;> rfl

include hφ

/-- a finite hit that passed the length check is close to the segment -/
theorem seg_hit {a b loc : V3 K} {A B P : Fin 3 → K} (ha : a.Holds A) (hb : b.Holds B) (hl : loc.Holds P) {r : Ray3 K}
    (hr : Ray3.init (TriPrism.toList a) (TriPrism.toList (V3.sub b a)) = .ok r) {t : Fl K} (ht : Fl.lt t 0 = false)
    (e : loc = V3.add (V3.scl r.dir t) r.ori) (hm : Fl.lt (V3.mag (V3.sub b a)) (V3.mag (V3.sub loc a)) = false) {M : K}
    (hA : ∀ i, |A i| ≤ M) (hB : ∀ i, |B i| ≤ M) (hAB : A ≠ B) (hlo : ∀ i, A i = B i ∨ 2 * nu ≤ (B i - A i) * (B i - A i))
    (hM : 0 < M) (e0 : 600 * (u : K) ≤ 1) (e1 : (eta : K) ≤ u) (e2 : (eta : K) ≤ (u * M) * (u * M)) (e3 : 72 * (M * M) + 2 * M ≤ (omega : K)) :
    ∃ q ∈ segment ℝ (toR φ A) (toR φ B), ∀ i, |φ (P i) - q i| ≤ 160 * φ u * φ M := by
  obtain ⟨hu0, hul, heta⟩ := phi_u φ hφ
  have hu := u_pos (K := K)
  have hM' : 0 < φ M := by have := hφ hM; rwa [map_zero] at this
  have abs_le' {x y : K} (h : |x| ≤ y) : |φ x| ≤ φ y := by have := hφ.monotone h; rwa [map_abs_mono φ hφ] at this
  have hD (i : Fin 3) : |B i - A i| ≤ 2 * M := by
    have := abs_sub (B i) (A i); linarith [hA i, hB i]
  -- the computed difference
  have hV (i : Fin 3) : ∃ c, (V3.sub b a).val[i].Holds c ∧ |c - (B i - A i)| ≤ u * |B i - A i| := by
    rw [V3.sub_get]
    obtain ⟨c, hc⟩ := Fl.sub_fin (hb i).1 (ha i).1 ((hD i).trans (by nlinarith [mul_pos hM hM]))
    exact ⟨c, ⟨hc, Fl.wf_sub _ _⟩, Fl.sub_err (hb i).1 (ha i).1 (hb i).2 (ha i).2 hc⟩
  choose V hVh hVe using hV
  have hVh : (V3.sub b a).Holds V := hVh
  have hV2 (i : Fin 3) : |V i| ≤ 3 * M := by
    have h1 := abs_add_le (V i - (B i - A i)) (B i - A i)
    rw [sub_add_cancel] at h1
    have h2 : u * |B i - A i| ≤ 1 / 600 * (2 * M) := mul_le_mul (by linarith) (hD i) (abs_nonneg _) (by norm_num)
    linarith [hVe i, hD i]
  have hV3 (i : Fin 3) : 599 / 600 * |B i - A i| ≤ |V i| := by
    have h1 := abs_add_le (V i) (-(V i - (B i - A i)))
    rw [abs_neg, show V i + -(V i - (B i - A i)) = B i - A i by ring] at h1
    have h2 : u * |B i - A i| ≤ 1 / 600 * |B i - A i| := mul_le_mul_of_nonneg_right (by linarith) (abs_nonneg _)
    linarith [hVe i]
  have hn (i : Fin 3) : V i = 0 ∨ nu ≤ V i * V i := by
    rcases hlo i with h | h
    · left
      have := hVe i
      rw [h, sub_self, abs_zero, mul_zero, sub_zero] at this
      exact abs_nonpos_iff.mp this
    · right
      have h3 := mul_le_mul (hV3 i) (hV3 i) (by positivity) (abs_nonneg _)
      rw [abs_mul_abs_self] at h3
      have h4 : 599 / 600 * |B i - A i| * (599 / 600 * |B i - A i|) = 599 / 600 * (599 / 600) * ((B i - A i) * (B i - A i)) := by
        rw [← abs_mul_abs_self (B i - A i)]; ring
      rw [h4] at h3
      have h5 : (0 : K) < nu := nu_pos
      nlinarith
  have hV0 : V ≠ 0 := by
    intro h0
    apply hAB
    funext i
    have := hV3 i
    rw [congrFun h0 i, Pi.zero_apply, abs_zero] at this
    have : |B i - A i| ≤ 0 := by linarith
    have := abs_nonpos_iff.mp this
    linarith
  have hom (i : Fin 3) : 8 * (V i * V i) ≤ omega := by
    rw [← abs_mul_abs_self]
    have := mul_le_mul (hV2 i) (hV2 i) (abs_nonneg _) (by linarith)
    nlinarith
  obtain ⟨hori, E, hE, hcE⟩ := Ray3.init_facts φ hφ (toList_in ha) (toList_in hVh) hr hV0 hn hom
  obtain ⟨T, hT, hT0⟩ := hit_finite hl ht e
  subst e
  -- the coordinates of the hit
  have hg (i : Fin 3) : ∃ g, |g - E i * T| ≤ u * |E i * T| + eta ∧ |P i - (g + A i)| ≤ u * |g + A i| := by
    have e : (V3.add (V3.scl r.dir t) r.ori).val[i] = r.dir.val[i] * t + r.ori.val[i] := by fin_cases i <;> rfl
    have h := (hl i).1
    rw [e] at h
    obtain ⟨g, -, hg, -⟩ := Fl.add_finite h
    exact ⟨g, Fl.mul_err (hE i).1 hT hg, Fl.add_err hg (hori i).1 (Fl.wf_mul _ _) (hori i).2 h⟩
  choose g hg1 hg2 using hg
  -- the length check
  obtain ⟨m, hmf⟩ := C55_finite _ V hVh hn hom
  obtain ⟨rfl, m', hm'⟩ : m = V3.mag (V3.sub b a) ∧ m.Finite := ⟨(Option.some.inj hmf.1).symm, hmf.2⟩
  obtain ⟨x, hx, hacc⟩ := C55_magnitude φ hφ _ V hVh hn
  obtain rfl : V3.mag (V3.sub b a) = x := Option.some.inj hx
  obtain ⟨-, hmr⟩ := hacc m' hm'
  obtain ⟨c, hc, hcm⟩ := mag_le_finite hm' (fun i => by rw [V3.sub_get]; exact sub_ne_nan' (hl i).1 (ha i).1) hm
  have hX : ∃ X, (V3.sub (V3.add (V3.scl r.dir t) r.ori) a).Holds X := by
    obtain ⟨z, -, hz⟩ := Fl.sqrt_finite hc
    obtain ⟨p, q, hp, hq⟩ := Fl.add_finite hz
    obtain ⟨p', p'', hp', hp''⟩ := Fl.add_finite hp
    obtain ⟨x0, -, h0, -⟩ := Fl.mul_finite hp'
    obtain ⟨x1, -, h1, -⟩ := Fl.mul_finite hp''
    obtain ⟨x2, -, h2, -⟩ := Fl.mul_finite hq
    refine ⟨![x0, x1, x2], fun i => ?_⟩
    fin_cases i
    · exact ⟨h0, Fl.wf_sub _ _⟩
    · exact ⟨h1, Fl.wf_sub _ _⟩
    · exact ⟨h2, Fl.wf_sub _ _⟩
  obtain ⟨X, hX⟩ := hX
  have hXe (i : Fin 3) : |X i - (P i - A i)| ≤ u * |P i - A i| := by
    have h := (hX i).1
    rw [V3.sub_get] at h
    exact Fl.sub_err (hl i).1 (ha i).1 (hl i).2 (ha i).2 h
  obtain ⟨y, hy, hacc2⟩ := C55_magnitude_abs φ hφ _ X hX
  obtain rfl : V3.mag (V3.sub (V3.add (V3.scl r.dir t) r.ori) a) = y := Option.some.inj hy
  obtain ⟨-, hcr⟩ := hacc2 c hc
  have hcm' : φ c ≤ φ m' := hφ.monotone hcm
  have htl : φ u ≤ 1 / 600 := by
    have := hφ.monotone e0; rw [map_mul, map_ofNat, map_one] at this; linarith
  have ms {x y z : K} (h : |x - y| ≤ u * |z|) : |φ x - φ y| ≤ φ u * |φ z| := by
    have := hφ.monotone h
    rwa [map_abs_mono φ hφ, map_sub, map_mul, map_abs_mono φ hφ] at this
  have hdist : euc (toR φ P - toR φ A) ≤ (1 + 8 * φ u) * euc (toR φ V) + 3 * √(φ eta) := by
    refine length_real hu0 htl (euc_nonneg _) (Real.sqrt_nonneg _) ?_ hmr hcr hcm'
    have h1 := euc_rel (a := toR φ X - (toR φ P - toR φ A)) (b := toR φ P - toR φ A) hu0.le fun i => by
      have := ms (hXe i); rwa [map_sub] at this
    have h2 := euc_add_le (toR φ X) (-(toR φ X - (toR φ P - toR φ A)))
    have h3 : euc (-(toR φ X - (toR φ P - toR φ A))) = euc (toR φ X - (toR φ P - toR φ A)) := by
      have := euc_smul (-1) (toR φ X - (toR φ P - toR φ A)); rwa [neg_one_smul, abs_neg, abs_one, one_mul] at this
    rw [h3, show toR φ X + -(toR φ X - (toR φ P - toR φ A)) = toR φ P - toR φ A by abel] at h2
    have h4 : euc (fun i => φ (X i)) = euc (toR φ X) := rfl
    linarith
  refine seg_real (W := toR φ V) (E := toR φ E) (P := toR φ P) (g := toR φ g) (T := φ T) hu0 htl heta hM' (hφ.monotone e1) ?_
    (fun i => abs_le' (hA i)) (fun i => abs_le' (hB i)) (fun i => ?_) (unit_of_ne φ hφ hV0) hcE ?_ (fun i => ?_) (fun i => ?_) hdist
  · rw [Real.sqrt_le_left (by positivity), sq]
    have := hφ.monotone e2; rwa [map_mul, map_mul] at this
  · have := ms (hVe i); rwa [map_sub] at this
  · have := hφ.monotone hT0; rwa [map_zero] at this
  · have := hφ.monotone (hg1 i)
    rwa [map_abs_mono φ hφ, map_sub, map_add, map_mul, map_mul, map_abs_mono φ hφ, map_mul] at this
  · have := ms (hg2 i); rwa [map_add] at this

omit hφ in
theorem prismLine_core' (s : TriPrism K) (t : Line3 K) : core (.triPrism s) (.line t) = s.intersectLine (Shape.line t).getShapeData ∧
    core (.line t) (.triPrism s) = s.intersectLine (Shape.line t).getShapeData := ⟨rfl, rfl⟩

/-- C79: an end point at least `prismMargin` inside all five facets is found.  If it is the first one, the location is that point; if it
is the second one, the location is one of the two, and the second one if the first is clearly outside. -/
theorem C79_ends {l0 l1 l2 la lb : List (Fl K)} {x : Fl K} {s : TriPrism K} {t : Line3 K} {V0 V1 V2 A B : Fin 3 → K} {h M : K} {κ : ℝ}
    (h0 : ListIn l0 V0) (h1 : ListIn l1 V1) (h2 : ListIn l2 V2) (hx : x.Holds h) (hs : TriPrism.init (l0 ++ l1 ++ l2) x = .ok s)
    (hla : ListIn la A) (hlb : ListIn lb B) (ht : Line3.init la lb = .ok t) (D : PrismData φ V0 V1 V2 h M κ)
    (hA : ∀ i, |A i| ≤ M) (hB : ∀ i, |B i| ≤ M) :
    ((∀ j, facetDist (toR φ V0) (toR φ V1) (toR φ V2) (φ h) (toR φ A) j ≤ -prismMargin φ M κ) →
      ∃ loc : V3 K, loc.Holds A ∧ Shape.getIntersect 2 (.triPrism s) (.line t) = .ok (true, some loc) ∧
        Shape.getIntersect 2 (.line t) (.triPrism s) = .ok (true, some loc)) ∧
    ((∀ j, facetDist (toR φ V0) (toR φ V1) (toR φ V2) (φ h) (toR φ B) j ≤ -prismMargin φ M κ) →
      ∃ loc : V3 K, (loc.Holds A ∨ loc.Holds B) ∧
        ((∃ j, prismMargin φ M κ < facetDist (toR φ V0) (toR φ V1) (toR φ V2) (φ h) (toR φ A) j) → loc.Holds B) ∧
        Shape.getIntersect 2 (.triPrism s) (.line t) = .ok (true, some loc) ∧
        Shape.getIntersect 2 (.line t) (.triPrism s) = .ok (true, some loc)) := by
  obtain ⟨a, b, c, ha, hb, hc, hs'⟩ := prism_init_data h0 h1 h2 hs
  obtain ⟨hta, htb, hba, hbb⟩ := line_has hla hlb ht
  obtain ⟨a1, a2⟩ := D.inside_margin hφ ha hb hc hx hta hA hs'
  obtain ⟨b1, -⟩ := D.inside_margin hφ ha hb hc hx htb hB hs'
  obtain ⟨r, fs, -, -, hcore⟩ := prismLine_eq s t
  obtain ⟨c1, c2⟩ := prismLine_core' s t
  have fin (hov : AABB.overlap (Shape.triPrism s).aabb (Shape.line t).aabb = true) {R : Res (Hit K)}
      (e : s.intersectLine (Shape.line t).getShapeData = R) :
      Shape.getIntersect 2 (.triPrism s) (.line t) = R ∧ Shape.getIntersect 2 (.line t) (.triPrism s) = R := by
    constructor
    · rw [getIntersect_eq 0, if_pos hov, c1, e]
    · rw [getIntersect_eq 0, if_pos (by rw [AABB.overlap_comm]; exact hov), c2, e]
  constructor
  · intro hall
    have hov : AABB.overlap (Shape.triPrism s).aabb (Shape.line t).aabb = true :=
      AABB.overlap_of_has _ _ (p := fun i => t.a.val[i]) (D.in_box hφ ha hb hc hx hta hs hs' hall) hba
    exact ⟨t.a, hta, fin hov (by rw [hcore, a1 hall]; rfl)⟩
  · intro hall
    have hov : AABB.overlap (Shape.triPrism s).aabb (Shape.line t).aabb = true :=
      AABB.overlap_of_has _ _ (p := fun i => t.b.val[i]) (D.in_box hφ ha hb hc hx htb hs hs' hall) hbb
    cases hin : s.inside t.a with
    | true =>
      refine ⟨t.a, .inl hta, ?_, fin hov (by rw [hcore, hin]; rfl)⟩
      rintro ⟨j, hj⟩
      rw [a2 j hj] at hin
      cases hin
    | false => exact ⟨t.b, .inr htb, fun _ => htb, fin hov (by rw [hcore, hin, b1 hall]; rfl)⟩

/-- C79 (partial: soundness only, see `C79_crossing_false` for the other half): a finite location is within `80 u M` per coordinate of a
point `q` of the segment, passes the five half-space tests up to `prismMargin`, and so `q` is within `prismMargin + 140 u M` of the prism's
five half spaces. -/
theorem C79_sound_partial {l0 l1 l2 la lb : List (Fl K)} {x : Fl K} {s : TriPrism K} {t : Line3 K} {V0 V1 V2 A B : Fin 3 → K} {h M : K} {κ : ℝ}
    (h0 : ListIn l0 V0) (h1 : ListIn l1 V1) (h2 : ListIn l2 V2) (hx : x.Holds h) (hs : TriPrism.init (l0 ++ l1 ++ l2) x = .ok s)
    (hla : ListIn la A) (hlb : ListIn lb B) (ht : Line3.init la lb = .ok t) (D : PrismData φ V0 V1 V2 h M κ)
    (hA : ∀ i, 2 * |A i| ≤ M) (hB : ∀ i, 2 * |B i| ≤ M) (hAB : A ≠ B) (hlo : ∀ i, A i = B i ∨ 2 * nu ≤ (B i - A i) * (B i - A i))
    (he : 4 * (eta : K) ≤ (u * M) * (u * M)) {loc : V3 K} {P : Fin 3 → K} (hl : loc.Holds P)
    (hr : Shape.getIntersect 2 (.triPrism s) (.line t) = .ok (true, some loc) ∨
      Shape.getIntersect 2 (.line t) (.triPrism s) = .ok (true, some loc)) :
    (∀ j, facetDist (toR φ V0) (toR φ V1) (toR φ V2) (φ h) (toR φ P) j ≤ prismMargin φ M κ) ∧
    ∃ q ∈ segment ℝ (toR φ A) (toR φ B), (∀ i, |φ (P i) - q i| ≤ 80 * φ u * φ M) ∧
      ∀ j, facetDist (toR φ V0) (toR φ V1) (toR φ V2) (φ h) q j ≤ prismMargin φ M κ + 140 * φ u * φ M := by
  obtain ⟨a, b, c, ha, hb, hc, hs'⟩ := prism_init_data h0 h1 h2 hs
  obtain ⟨hta, htb, -, -⟩ := line_has hla hlb ht
  obtain ⟨r, fs, hri, -, hcore⟩ := prismLine_eq s t
  obtain ⟨c1, c2⟩ := prismLine_core' s t
  obtain ⟨hu0, hul, heta⟩ := phi_u φ hφ
  have hM := D.Mpos
  have hM' : 0 < φ M := by have := hφ hM; rwa [map_zero] at this
  have hpos : 0 < φ h := by have := hφ D.pos; rwa [map_zero] at this
  have h600 : 600 * φ u ≤ 1 := by
    have := mul_le_mul_of_nonneg_left D.one (by positivity : (0 : ℝ) ≤ 600 * φ u)
    linarith [D.small]
  have hrun : s.intersectLine (Shape.line t).getShapeData = .ok (true, some loc) := by
    rcases hr with hr | hr <;> rw [getIntersect_eq 0] at hr <;> split at hr
    · exact c1 ▸ hr
    · cases hr
    · exact c2 ▸ hr
    · cases hr
  -- the location passes the tests and is near the segment
  have key : s.inside loc = true ∧ ∃ q ∈ segment ℝ (toR φ A) (toR φ B), ∀ i, |φ (P i) - q i| ≤ 80 * φ u * φ M := by
    have self {v : V3 K} {V : Fin 3 → K} (hv : v.Holds V) (e : loc = v) (i : Fin 3) : |φ (P i) - toR φ V i| ≤ 80 * φ u * φ M := by
      subst e
      rw [(hl i).1.kunique (hv i).1]
      show |φ (V i) - φ (V i)| ≤ _
      rw [sub_self, abs_zero]; positivity
    rw [hcore] at hrun
    split at hrun
    · rename_i hin
      cases hrun
      exact ⟨hin, _, left_mem_segment ℝ _ _, self hta rfl⟩
    split at hrun
    · rename_i hin
      cases hrun
      exact ⟨hin, _, right_mem_segment ℝ _ _, self htb rfl⟩
    obtain ⟨f, hf, hin, hlen⟩ := facetLoop_hit hrun
    refine ⟨hin, ?_⟩
    rcases rayPlane_shape hf with e | ⟨τ, hτ, e⟩
    · refine ⟨_, left_mem_segment ℝ _ _, self hta (e.trans ?_)⟩
      cases hri
      exact V3.eta t.a
    · obtain ⟨q, hq, hqe⟩ := seg_hit φ hφ hta htb hl hri hτ e hlen (M := M / 2) (fun i => by linarith [hA i]) (fun i => by linarith [hB i])
        hAB hlo (by linarith) (by rw [← hφ.le_iff_le, map_mul, map_ofNat, map_one]; exact h600) D.e1 (by linarith) (by
          have h3 := D.top
          have h4 : (M + 1) ^ 2 ≤ (M + 1) ^ 4 := pow_le_pow_right₀ (by linarith) (by norm_num)
          nlinarith)
      refine ⟨q, hq, fun i => (hqe i).trans (le_of_eq ?_)⟩
      rw [map_div₀, map_ofNat]; ring
  obtain ⟨hin, q, hq, hqe⟩ := key
  have abs_le' {x y : K} (h : 2 * |x| ≤ y) : 2 * |φ x| ≤ φ y := by
    have := hφ.monotone h; rwa [map_mul, map_ofNat, map_abs_mono φ hφ] at this
  have hPM (i : Fin 3) : |P i| ≤ M := by
    have h3 : |q i| ≤ φ M / 2 := by
      have hc := (convex_slab i (-(φ M / 2)) (φ M / 2)).segment_subset (x := toR φ A) (y := toR φ B)
        (abs_le.mp (by have := abs_le' (hA i); show |φ (A i)| ≤ _; linarith))
        (abs_le.mp (by have := abs_le' (hB i); show |φ (B i)| ≤ _; linarith)) hq
      exact abs_le.mpr hc
    have h4 := abs_add_le (φ (P i) - q i) (q i)
    rw [sub_add_cancel] at h4
    have h5 : 80 * φ u * φ M ≤ 1 / 2 * φ M := mul_le_mul_of_nonneg_right (by linarith) hM'.le
    rw [← hφ.le_iff_le, map_abs_mono φ hφ]
    linarith [hqe i]
  have hP : ∀ j, facetDist (toR φ V0) (toR φ V1) (toR φ V2) (φ h) (toR φ P) j ≤ prismMargin φ M κ := by
    intro j
    by_contra hc'
    rw [(D.inside_margin hφ ha hb hc hx hl hPM hs').2 j (not_le.mp hc')] at hin
    cases hin
  refine ⟨hP, q, hq, hqe, fun j => ?_⟩
  obtain ⟨-, f, hf1, hf⟩ := C78_facets (D.ne hφ) hpos
  have h3 := hf q (toR φ P) j
  have h4 := abs_dot_le (q - toR φ P) (f j)
  have h5 : euc (q - toR φ P) ≤ 7 / 4 * (80 * φ u * φ M) := euc_le_of fun i => by
    rw [Pi.sub_apply, abs_sub_comm]; exact hqe i
  rw [hf1, mul_one, ← h3] at h4
  linarith [(abs_le.mp h4).2, hP j]

end floats

/-! ## binary64 -/

theorem prismMargin_f64 (M : Q64) (κ : ℝ) : prismMargin BinQ.real M κ = 2 ^ (-39 : ℤ) * κ ^ 2 * M.real := by
  have e2 : (2 : ℝ) ^ (-39 : ℤ) = 2 ^ 14 * 2 ^ (-53 : ℤ) := by rw [show (-39 : ℤ) = 14 + (-53) by norm_num, zpow_add₀ (by norm_num)]; norm_num
  rw [prismMargin, real_u, e2]; ring

/-- C79 for `f64`, the two ends: ranges as in `C78_prismPoint_f64`, margin `2^-39 κ² M`. -/
theorem C79_ends_f64 {l0 l1 l2 la lb : List (Fl Q64)} {x : Fl Q64} {s : TriPrism Q64} {t : Line3 Q64} {V0 V1 V2 A B : Fin 3 → Q64} {h M : Q64}
    {κ : ℝ} (h0 : ListIn l0 V0) (h1 : ListIn l1 V1) (h2 : ListIn l2 V2) (hx : x.Holds h) (hs : TriPrism.init (l0 ++ l1 ++ l2) x = .ok s)
    (hla : ListIn la A) (hlb : ListIn lb B) (ht : Line3.init la lb = .ok t)
    (b0 : ∀ i, |V0 i| ≤ M) (b1 : ∀ i, |V1 i| ≤ M) (b2 : ∀ i, |V2 i| ≤ M)
    (hlo : ((2 : ℚ) ^ (-200 : ℤ) : ℚ) ≤ h) (hle : h ≤ M) (hhi : M ≤ ((2 : ℚ) ^ (200 : ℤ) : ℚ))
    (cond : M.real * M.real ≤ κ * euc ((toR BinQ.real V1 - toR BinQ.real V0) ⨯₃ (toR BinQ.real V2 - toR BinQ.real V0)))
    (one : 1 ≤ κ) (hκ : κ ≤ 2 ^ (40 : ℤ)) (hA : ∀ i, |A i| ≤ M) (hB : ∀ i, |B i| ≤ M) :
    ((∀ j, facetDist (toR BinQ.real V0) (toR BinQ.real V1) (toR BinQ.real V2) h.real (toR BinQ.real A) j ≤ -(2 ^ (-39 : ℤ) * κ ^ 2 * M.real)) →
      ∃ loc : V3 Q64, loc.Holds A ∧ Shape.getIntersect 2 (.triPrism s) (.line t) = .ok (true, some loc) ∧
        Shape.getIntersect 2 (.line t) (.triPrism s) = .ok (true, some loc)) ∧
    ((∀ j, facetDist (toR BinQ.real V0) (toR BinQ.real V1) (toR BinQ.real V2) h.real (toR BinQ.real B) j ≤ -(2 ^ (-39 : ℤ) * κ ^ 2 * M.real)) →
      ∃ loc : V3 Q64, (loc.Holds A ∨ loc.Holds B) ∧
        ((∃ j, 2 ^ (-39 : ℤ) * κ ^ 2 * M.real <
          facetDist (toR BinQ.real V0) (toR BinQ.real V1) (toR BinQ.real V2) h.real (toR BinQ.real A) j) → loc.Holds B) ∧
        Shape.getIntersect 2 (.triPrism s) (.line t) = .ok (true, some loc) ∧
        Shape.getIntersect 2 (.line t) (.triPrism s) = .ok (true, some loc)) := by
  have := C79_ends BinQ.real BinQ.real_strictMono h0 h1 h2 hx hs hla hlb ht
    (prismData_f64 b0 b1 b2 hlo hle hhi cond one hκ) hA hB
  rwa [prismMargin_f64] at this

/-- C79 for `f64`, soundness of a finite location: coordinates of the segment at most `M / 2`, and the two ends differ by at least
`2^-510` in each coordinate in which they differ. -/
theorem C79_sound_f64_partial {l0 l1 l2 la lb : List (Fl Q64)} {x : Fl Q64} {s : TriPrism Q64} {t : Line3 Q64} {V0 V1 V2 A B : Fin 3 → Q64}
    {h M : Q64} {κ : ℝ} (h0 : ListIn l0 V0) (h1 : ListIn l1 V1) (h2 : ListIn l2 V2) (hx : x.Holds h)
    (hs : TriPrism.init (l0 ++ l1 ++ l2) x = .ok s) (hla : ListIn la A) (hlb : ListIn lb B) (ht : Line3.init la lb = .ok t)
    (b0 : ∀ i, |V0 i| ≤ M) (b1 : ∀ i, |V1 i| ≤ M) (b2 : ∀ i, |V2 i| ≤ M)
    (hlo : ((2 : ℚ) ^ (-200 : ℤ) : ℚ) ≤ h) (hle : h ≤ M) (hhi : M ≤ ((2 : ℚ) ^ (200 : ℤ) : ℚ))
    (cond : M.real * M.real ≤ κ * euc ((toR BinQ.real V1 - toR BinQ.real V0) ⨯₃ (toR BinQ.real V2 - toR BinQ.real V0)))
    (one : 1 ≤ κ) (hκ : κ ≤ 2 ^ (40 : ℤ)) (hA : ∀ i, 2 * |A i| ≤ M) (hB : ∀ i, 2 * |B i| ≤ M) (hAB : A ≠ B)
    (hsep : ∀ i, A i = B i ∨ ((2 : ℚ) ^ (-510 : ℤ) : ℚ) ≤ |B i - A i|) {loc : V3 Q64} {P : Fin 3 → Q64} (hl : loc.Holds P)
    (hr : Shape.getIntersect 2 (.triPrism s) (.line t) = .ok (true, some loc) ∨
      Shape.getIntersect 2 (.line t) (.triPrism s) = .ok (true, some loc)) :
    (∀ j, facetDist (toR BinQ.real V0) (toR BinQ.real V1) (toR BinQ.real V2) h.real (toR BinQ.real P) j ≤ 2 ^ (-39 : ℤ) * κ ^ 2 * M.real) ∧
    ∃ q ∈ segment ℝ (toR BinQ.real A) (toR BinQ.real B), (∀ i, |(P i).real - q i| ≤ 80 * 2 ^ (-53 : ℤ) * M.real) ∧
      ∀ j, facetDist (toR BinQ.real V0) (toR BinQ.real V1) (toR BinQ.real V2) h.real q j ≤
        2 ^ (-39 : ℤ) * κ ^ 2 * M.real + 140 * 2 ^ (-53 : ℤ) * M.real := by
  obtain ⟨cu, ce, cn, co, -⟩ := C55_constants
  have k1 (a b : ℚ) (h : (2 : ℚ) ^ (-510 : ℤ) ≤ |b - a|) : 2 * (2 : ℚ) ^ (-1022 : ℤ) ≤ (b - a) * (b - a) := by
    calc 2 * (2 : ℚ) ^ (-1022 : ℤ) = (2 : ℚ) ^ (-1021 : ℤ) := by rw [mul_comm, ← zpow_add_one₀ (by norm_num)]; norm_num
      _ ≤ (2 : ℚ) ^ (-1020 : ℤ) := zpow_le_zpow_right₀ (by norm_num) (by norm_num)
      _ = (2 : ℚ) ^ (-510 : ℤ) * (2 : ℚ) ^ (-510 : ℤ) := by rw [← zpow_add₀ (by norm_num)]; norm_num
      _ ≤ |b - a| * |b - a| := by gcongr
      _ = _ := abs_mul_abs_self _
  have k2 (m : ℚ) (h : (2 : ℚ) ^ (-200 : ℤ) ≤ m) : 4 * (2 : ℚ) ^ (-1075 : ℤ) ≤ ((2 : ℚ) ^ (-53 : ℤ) * m) * ((2 : ℚ) ^ (-53 : ℤ) * m) := by
    calc 4 * (2 : ℚ) ^ (-1075 : ℤ) = (2 : ℚ) ^ (-1073 : ℤ) := by
          rw [show (4 : ℚ) = 2 ^ (2 : ℤ) by norm_num, ← zpow_add₀ (by norm_num)]; norm_num
      _ ≤ (2 : ℚ) ^ (-506 : ℤ) := zpow_le_zpow_right₀ (by norm_num) (by norm_num)
      _ = ((2 : ℚ) ^ (-53 : ℤ) * (2 : ℚ) ^ (-200 : ℤ)) * ((2 : ℚ) ^ (-53 : ℤ) * (2 : ℚ) ^ (-200 : ℤ)) := by
          simp only [← zpow_add₀ (by norm_num : (2 : ℚ) ≠ 0)]; norm_num
      _ ≤ _ := by gcongr
  have := C79_sound_partial BinQ.real BinQ.real_strictMono h0 h1 h2 hx hs hla hlb ht
    (prismData_f64 b0 b1 b2 hlo hle hhi cond one hκ) hA hB hAB (fun i => (hsep i).imp id fun hh => by rw [cn]; exact k1 _ _ hh)
    (by rw [ce, cu]; exact k2 _ (le_trans hlo hle)) hl hr
  rwa [prismMargin_f64, real_u] at this

/-! ### concrete segments -/

def eight64 : Q64 := (8 : ℚ)
def Lo1 : Fin 3 → Q64 := ![(1 / 4 : ℚ), (1 / 4 : ℚ), (-1 : ℚ)]
def Hi1 : Fin 3 → Q64 := ![(1 / 4 : ℚ), (1 / 4 : ℚ), (3 : ℚ)]

theorem toR_In1 : toR BinQ.real In1 = ![1 / 4, 1 / 4, 1] := by
  ext i; fin_cases i
  · exact (by norm_num : (((1 / 4 : ℚ) : ℚ) : ℝ) = 1 / 4)
  · exact (by norm_num : (((1 / 4 : ℚ) : ℚ) : ℝ) = 1 / 4)
  · exact Rat.cast_one

theorem eight_bound {a : ℚ} (h : 2 * |a| ≤ 8) : 2 * |(a : Q64)| ≤ eight64 := h

/-- concrete case for `C79_ends_f64`: prism over `(0,0,0), (1,0,0), (0,1,0)` of height `2`, segment from `(1/4, 1/4, 1)` to `(1/4, 1/4, 3)`
and back; `M = 8`, `κ = 64` -/
example (s : TriPrism Q64) (t t' : Line3 Q64)
    (hs : TriPrism.init (K := Q64) ([.fin (0 : ℚ), .fin (0 : ℚ), .fin (0 : ℚ)] ++ [.fin (1 : ℚ), .fin (0 : ℚ), .fin (0 : ℚ)] ++
      [.fin (0 : ℚ), .fin (1 : ℚ), .fin (0 : ℚ)]) (.fin (2 : ℚ)) = .ok s)
    (ht : Line3.init (K := Q64) [.fin (1 / 4 : ℚ), .fin (1 / 4 : ℚ), .fin (1 : ℚ)] [.fin (1 / 4 : ℚ), .fin (1 / 4 : ℚ), .fin (3 : ℚ)] = .ok t)
    (ht' : Line3.init (K := Q64) [.fin (1 / 4 : ℚ), .fin (1 / 4 : ℚ), .fin (3 : ℚ)] [.fin (1 / 4 : ℚ), .fin (1 / 4 : ℚ), .fin (1 : ℚ)] = .ok t') :
    (∃ loc : V3 Q64, loc.Holds In1 ∧ Shape.getIntersect 2 (.triPrism s) (.line t) = .ok (true, some loc) ∧
      Shape.getIntersect 2 (.line t) (.triPrism s) = .ok (true, some loc)) ∧
    (∃ loc : V3 Q64, loc.Holds In1 ∧ Shape.getIntersect 2 (.triPrism s) (.line t') = .ok (true, some loc) ∧
      Shape.getIntersect 2 (.line t') (.triPrism s) = .ok (true, some loc)) := by
  have two : BinQ.real two64 = 2 := Rat.cast_ofNat 2
  have eight : BinQ.real eight64 = 8 := Rat.cast_ofNat 8
  have hlo : ((2 : ℚ) ^ (-200 : ℤ) : ℚ) ≤ (2 : ℚ) :=
    (zpow_le_zpow_right₀ (by norm_num) (by norm_num : (-200 : ℤ) ≤ 1)).trans (by norm_num)
  have hle : (2 : ℚ) ≤ (8 : ℚ) := by norm_num
  have hhi : (8 : ℚ) ≤ ((2 : ℚ) ^ (200 : ℤ) : ℚ) :=
    (by norm_num : (8 : ℚ) ≤ 2 ^ (3 : ℤ)).trans (zpow_le_zpow_right₀ (by norm_num) (by norm_num : (3 : ℤ) ≤ 200))
  have cond : BinQ.real eight64 * BinQ.real eight64 ≤
      64 * euc ((toR BinQ.real T1 - toR BinQ.real T0) ⨯₃ (toR BinQ.real T2 - toR BinQ.real T0)) := by
    rw [T_cross, eight]; norm_num
  have h14 : (Fl.fin (1 / 4 : ℚ) : Fl Q64).Holds ((1 / 4 : ℚ) : Q64) := ⟨rfl, .inr (by decide +kernel)⟩
  have h1 : (Fl.fin (1 : ℚ) : Fl Q64).Holds ((1 : ℚ) : Q64) := int_holds rfl (.inr (.inl rfl))
  have h3 : (Fl.fin (3 : ℚ) : Fl Q64).Holds ((3 : ℚ) : Q64) := ⟨rfl, .inr (by decide +kernel)⟩
  have hI : ListIn (K := Q64) [.fin (1 / 4 : ℚ), .fin (1 / 4 : ℚ), .fin (1 : ℚ)] In1 := ⟨_, _, _, rfl, h14, h14, h1⟩
  have hH : ListIn (K := Q64) [.fin (1 / 4 : ℚ), .fin (1 / 4 : ℚ), .fin (3 : ℚ)] Hi1 := ⟨_, _, _, rfl, h14, h14, h3⟩
  have bnd (V : Fin 3 → Q64) (hv : ∀ i, |V i| ≤ two64) (i : Fin 3) : |V i| ≤ eight64 := (hv i).trans hle
  have qb (a : ℚ) (h : |a| ≤ 8) : |(a : Q64)| ≤ eight64 := h
  have hIb (i : Fin 3) : |In1 i| ≤ eight64 := by
    fin_cases i
    · exact qb (1 / 4) (by norm_num [abs_of_pos])
    · exact qb (1 / 4) (by norm_num [abs_of_pos])
    · exact qb 1 (by norm_num [abs_of_pos])
  have hHb (i : Fin 3) : |Hi1 i| ≤ eight64 := by
    fin_cases i
    · exact qb (1 / 4) (by norm_num [abs_of_pos])
    · exact qb (1 / 4) (by norm_num [abs_of_pos])
    · exact qb 3 (by norm_num [abs_of_pos])
  have s0 : 0 < √(2 : ℝ) := by positivity
  have s2 : √(2 : ℝ) ≤ 2 := by rw [Real.sqrt_le_left (by norm_num)]; norm_num
  have hin : ∀ j, facetDist (toR BinQ.real T0) (toR BinQ.real T1) (toR BinQ.real T2) (BinQ.real two64) (toR BinQ.real In1) j ≤
      -(2 ^ (-39 : ℤ) * 64 ^ 2 * BinQ.real eight64) := by
    rw [two, T_facets, toR_In1, eight]
    have h4 : (1 / 4 - 1 + 1 / 4) / √2 ≤ (-(1 / 4) : ℝ) := by rw [div_le_iff₀ s0]; linarith
    intro j; fin_cases j
    · show -(1 : ℝ) ≤ _; norm_num
    · show (1 - 2 : ℝ) ≤ _; norm_num
    · show -(1 / 4 : ℝ) ≤ _; norm_num
    · exact h4.trans (by norm_num)
    · show -(1 / 4 : ℝ) ≤ _; norm_num
  have hout : ∃ j, 2 ^ (-39 : ℤ) * 64 ^ 2 * BinQ.real eight64 <
      facetDist (toR BinQ.real T0) (toR BinQ.real T1) (toR BinQ.real T2) (BinQ.real two64) (toR BinQ.real Hi1) j := by
    refine ⟨1, ?_⟩
    rw [two, T_facets, eight]
    have e : toR BinQ.real Hi1 2 = 3 := Rat.cast_ofNat 3
    show _ < toR BinQ.real Hi1 2 - 2
    rw [e]; norm_num
  constructor
  · exact (C79_ends_f64 (h := two64) (M := eight64) (κ := 64) T_list.1 T_list.2.1 T_list.2.2 (int_holds rfl (.inr (.inr rfl))) hs hI hH ht
      (bnd _ T_bounds.1) (bnd _ T_bounds.2.1) (bnd _ T_bounds.2.2) hlo hle hhi cond (by norm_num) (by norm_num) hIb hHb).1 hin
  · obtain ⟨loc, -, h, h'⟩ := (C79_ends_f64 (h := two64) (M := eight64) (κ := 64) T_list.1 T_list.2.1 T_list.2.2
      (int_holds rfl (.inr (.inr rfl))) hs hH hI ht'
      (bnd _ T_bounds.1) (bnd _ T_bounds.2.1) (bnd _ T_bounds.2.2) hlo hle hhi cond (by norm_num) (by norm_num) hHb hIb).2 hin
    exact ⟨loc, h hout, h'⟩

/-- concrete case for `C79_sound_f64_partial`: the vertical segment from `(1/4, 1/4, -1)` to `(1/4, 1/4, 3)` meets the hypotheses, and the
query does report a finite location, the point `(1/4, 1/4, 0)` of the base -/
example : ∃ (s : TriPrism Q64) (t : Line3 Q64) (loc : V3 Q64) (P : Fin 3 → Q64),
    TriPrism.init (K := Q64) ([.fin (0 : ℚ), .fin (0 : ℚ), .fin (0 : ℚ)] ++ [.fin (1 : ℚ), .fin (0 : ℚ), .fin (0 : ℚ)] ++
      [.fin (0 : ℚ), .fin (1 : ℚ), .fin (0 : ℚ)]) (.fin (2 : ℚ)) = .ok s ∧
    Line3.init (K := Q64) [.fin (1 / 4 : ℚ), .fin (1 / 4 : ℚ), .fin (-1 : ℚ)] [.fin (1 / 4 : ℚ), .fin (1 / 4 : ℚ), .fin (3 : ℚ)] = .ok t ∧
    loc.Holds P ∧ Shape.getIntersect 2 (.triPrism s) (.line t) = .ok (true, some loc) ∧
    ListIn (K := Q64) [.fin (1 / 4 : ℚ), .fin (1 / 4 : ℚ), .fin (-1 : ℚ)] Lo1 ∧
    ListIn (K := Q64) [.fin (1 / 4 : ℚ), .fin (1 / 4 : ℚ), .fin (3 : ℚ)] Hi1 ∧
    (∀ i, 2 * |Lo1 i| ≤ eight64) ∧ (∀ i, 2 * |Hi1 i| ≤ eight64) ∧ Lo1 ≠ Hi1 ∧
    (∀ i, Lo1 i = Hi1 i ∨ ((2 : ℚ) ^ (-510 : ℤ) : ℚ) ≤ |Hi1 i - Lo1 i|) := by
  have h14 : (Fl.fin (1 / 4 : ℚ) : Fl Q64).Holds ((1 / 4 : ℚ) : Q64) := ⟨rfl, .inr (by decide +kernel)⟩
  have hm1 : (Fl.fin (-1 : ℚ) : Fl Q64).Holds ((-1 : ℚ) : Q64) := ⟨rfl, .inr (by decide +kernel)⟩
  have h3 : (Fl.fin (3 : ℚ) : Fl Q64).Holds ((3 : ℚ) : Q64) := ⟨rfl, .inr (by decide +kernel)⟩
  refine ⟨_, _, ⟨#v[.fin (1 / 4 : ℚ), .fin (1 / 4 : ℚ), 0]⟩, ![(1 / 4 : ℚ), (1 / 4 : ℚ), (0 : ℚ)], rfl, rfl,
    mk_holds h14 h14 ⟨rfl, .inr (by decide +kernel)⟩, by decide +kernel, ⟨_, _, _, rfl, h14, h14, hm1⟩, ⟨_, _, _, rfl, h14, h14, h3⟩, ?_, ?_, ?_, ?_⟩
  · intro i; fin_cases i
    · exact eight_bound (a := 1 / 4) (by norm_num [abs_of_pos])
    · exact eight_bound (a := 1 / 4) (by norm_num [abs_of_pos])
    · exact eight_bound (a := -1) (by norm_num)
  · intro i; fin_cases i
    · exact eight_bound (a := 1 / 4) (by norm_num [abs_of_pos])
    · exact eight_bound (a := 1 / 4) (by norm_num [abs_of_pos])
    · exact eight_bound (a := 3) (by norm_num [abs_of_pos])
  · intro h
    have : (-1 : ℚ) = 3 := congrFun h 2
    norm_num at this
  · intro i; fin_cases i
    · exact .inl rfl
    · exact .inl rfl
    · refine .inr ?_
      have : (2 : ℚ) ^ (-510 : ℤ) ≤ |(3 : ℚ) - (-1)| := by
        calc (2 : ℚ) ^ (-510 : ℤ) ≤ (2 : ℚ) ^ (0 : ℤ) := zpow_le_zpow_right₀ (by norm_num) (by norm_num)
          _ ≤ _ := by norm_num
      exact this

/-! ## what does not survive -/

/-- C79: crossings are missed.  The segment from `(4, 4, 1)` to `(-4, -4, 1)` passes through `(1/4, 1/4, 1)`, at least `1/4` inside every
facet of the prism over `(0,0,0), (1,0,0), (0,1,0)` of height `2`.  The hit on the slanted facet rounds to a point just outside it, the hits
on the other two fail likewise, and the answer is "no intersection". -/
theorem C79_crossing_false : ∃ (s : TriPrism Q64) (t : Line3 Q64),
    TriPrism.init [0, 0, 0, 1, 0, 0, 0, 1, 0] (.fin 2) = .ok s ∧ Line3.init [.fin 4, .fin 4, 1] [.fin (-4), .fin (-4), 1] = .ok t ∧
    Shape.getIntersect 2 (.triPrism s) (.line t) = .ok (false, none) ∧ Shape.getIntersect 2 (.line t) (.triPrism s) = .ok (false, none) ∧
    ∃ q ∈ segment ℝ (![4, 4, 1] : R3) ![-4, -4, 1], ∀ j, facetDist 0 ![1, 0, 0] ![0, 1, 0] 2 q j ≤ -(1 / 4) := by
  refine ⟨_, _, rfl, rfl, by decide +kernel, by decide +kernel, ![1 / 4, 1 / 4, 1], ⟨17 / 32, 15 / 32, by norm_num, by norm_num, by norm_num, ?_⟩, ?_⟩
  · ext i; fin_cases i <;> simp <;> norm_num
  · have s0 : 0 < √(2 : ℝ) := by positivity
    have s2 : √(2 : ℝ) ≤ 2 := by rw [Real.sqrt_le_left (by norm_num)]; norm_num
    have h4 : (1 / 4 - 1 + 1 / 4) / √2 ≤ (-(1 / 4) : ℝ) := by rw [div_le_iff₀ s0]; linarith
    rw [← toR_T0, ← toR_T1, ← toR_T2, T_facets]
    intro j; fin_cases j
    · show -(1 : ℝ) ≤ _; norm_num
    · show (1 - 2 : ℝ) ≤ _; norm_num
    · show -(1 / 4 : ℝ) ≤ _; norm_num
    · exact h4
    · show -(1 / 4 : ℝ) ≤ _; norm_num

/-- C79: the location need not be a number.  Prism over `(0,1,0), (0,1,1), (0,0,1)` of height `1`, segment from `(-1/2, 1/4, 0)` to
`(1/2, 1/4, 2^-1074)`, which stays in `y + z < 1` and misses the prism (`y + z ≥ 1`).  It is all but parallel to the slanted facet, the
parameter of the hit overflows, and the location `(inf, NaN, inf)` passes every check, since comparisons with NaN are false. -/
theorem C79_nan_false : ∃ (s : TriPrism Q64) (t : Line3 Q64),
    TriPrism.init [0, 1, 0, 0, 1, 1, 0, 0, 1] 1 = .ok s ∧
    Line3.init [.fin (-1 / 2), .fin (1 / 4), 0] [.fin (1 / 2), .fin (1 / 4), .fin (1 / 2 ^ 1074)] = .ok t ∧
    Shape.getIntersect 2 (.triPrism s) (.line t) = .ok (true, some ⟨#v[.inf false, .nan, .inf false]⟩) ∧
    Disjoint (segment ℝ (![-1 / 2, 1 / 4, 0] : R3) ![1 / 2, 1 / 4, 1 / 2 ^ 1074]) (prismPts ![0, 1, 0] ![0, 1, 1] ![0, 0, 1] 1) := by
  refine ⟨_, _, rfl, rfl, by decide +kernel, Set.disjoint_left.mpr ?_⟩
  have h3 : (1 : ℝ) / 2 ^ 1074 ≤ 1 / 2 := one_div_le_one_div_of_le (by norm_num) (le_self_pow₀ (by norm_num) (by norm_num))
  generalize (1 : ℝ) / 2 ^ 1074 = z at h3
  rintro q ⟨x, y, hx, hy, hxy, rfl⟩ hq
  rw [prism_coords] at hq
  obtain ⟨α, β, γ, hα, hβ, hab, -, -, e⟩ := hq
  have hN : (![0, 1, 1] - ![0, 1, 0] : R3) ⨯₃ (![0, 0, 1] - ![0, 1, 0]) = ![1, 0, 0] := by rw [cross_apply]; simp
  have e1 := congrFun e 1
  have e2 := congrFun e 2
  rw [triNormal, hN] at e1 e2
  simp at e1 e2
  have h4 := mul_le_mul_of_nonneg_left h3 hy
  linarith

end Mazth
