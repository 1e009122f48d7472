import Verif.Props.FloatSphere
import Verif.Props.FloatAcc2
import Verif.Proofs.Lim

/-!
# C63: the plane-point and sphere-plane queries in floating point

The computed signed distance from a plane is within `40 u M + 8 (1 + M) eta` of the exact one, `M` being a bound on the
coordinates.  So the queries answer right outside that margin, and the reported location is that close to the exact foot.
-/

set_option linter.unusedSectionVars false
set_option autoImplicit false

namespace Mazth

open Matrix RndErr

/-! ### real computations -/

/-- the components of a unit vector -/
theorem unit_abs_sum {n : R3} (h : n ⬝ᵥ n = 1) : |n 0| + |n 1| + |n 2| ≤ 7 / 4 := by
  rw [dotProduct, Fin.sum_univ_three, ← abs_mul_abs_self (n 0), ← abs_mul_abs_self (n 1), ← abs_mul_abs_self (n 2)] at h
  have a0 := abs_nonneg (n 0); have a1 := abs_nonneg (n 1); have a2 := abs_nonneg (n 2)
  generalize |n 0| = a at *; generalize |n 1| = b at *; generalize |n 2| = c at *
  nlinarith [sq_nonneg (a - b), sq_nonneg (b - c), sq_nonneg (a - c)]

theorem unit_abs_le {n : R3} (h : n ⬝ᵥ n = 1) (i : Fin 3) : |n i| ≤ 1 := by
  have := euc_coord n i
  have e := euc_sq n
  rw [h] at e
  nlinarith [euc_nonneg n]

/-- from the computed to the exact signed distance -/
theorem signed_real {N O P n : R3} {t e M d : ℝ} (ht : 0 < t) (htl : t ≤ 1 / 64) (he : 0 < e) (het : e ≤ 1 / 64) (hM : 0 ≤ M)
    (hn : n ⬝ᵥ n = 1) (hN : ∀ i, |N i - n i| ≤ 5 * t * |n i| + e) (hO : ∀ i, |O i| ≤ M) (hP : ∀ i, |P i| ≤ M)
    (hd : |d - (P - O) ⬝ᵥ N| ≤ 5 * t * (2 * M * (|N 0| + |N 1| + |N 2|)) + 7 * e) :
    |d - (P - O) ⬝ᵥ n| ≤ 40 * t * M + 8 * (1 + M) * e := by
  have hs := unit_abs_sum hn
  have hNn (i : Fin 3) : |N i| ≤ |n i| + (5 * t * |n i| + e) := by
    have := abs_add_le (N i - n i) (n i); rw [sub_add_cancel] at this; linarith [hN i]
  have hsN : |N 0| + |N 1| + |N 2| ≤ 2 := by
    have h5 : 5 * t * (|n 0| + |n 1| + |n 2|) ≤ 5 * (1 / 64) * (7 / 4) := by gcongr
    linarith [hNn 0, hNn 1, hNn 2]
  have h1 : 5 * t * (2 * M * (|N 0| + |N 1| + |N 2|)) ≤ 5 * t * (2 * M * 2) := by gcongr
  have hPO (i : Fin 3) : |(P - O) i| ≤ 2 * M := by
    have := abs_sub (P i) (O i); show |P i - O i| ≤ _; linarith [hO i, hP i]
  have hterm (i : Fin 3) : |(P - O) i * (N i - n i)| ≤ 2 * M * (5 * t * |n i| + e) := by
    rw [abs_mul]; exact mul_le_mul (hPO i) (hN i) (abs_nonneg _) (by linarith)
  have h2 : |(P - O) ⬝ᵥ N - (P - O) ⬝ᵥ n| ≤ 2 * M * (5 * t * (7 / 4) + 3 * e) := by
    rw [← dotProduct_sub, dotProduct, Fin.sum_univ_three]
    have h3 := abs_add_le ((P - O) 0 * (N - n) 0 + (P - O) 1 * (N - n) 1) ((P - O) 2 * (N - n) 2)
    have h4 := abs_add_le ((P - O) 0 * (N - n) 0) ((P - O) 1 * (N - n) 1)
    have k0 := hterm 0; have k1 := hterm 1; have k2 := hterm 2
    have h5 : 2 * M * (5 * t * (|n 0| + |n 1| + |n 2|) + 3 * e) ≤ 2 * M * (5 * t * (7 / 4) + 3 * e) := by gcongr
    simp only [Pi.sub_apply] at *
    linarith
  have h3 := abs_add_le (d - (P - O) ⬝ᵥ N) ((P - O) ⬝ᵥ N - (P - O) ⬝ᵥ n)
  rw [sub_add_sub_cancel] at h3
  have : 0 ≤ t * M := by positivity
  have : 0 ≤ M * e := by positivity
  linarith

section
variable {K : Type} [Field K] [LinearOrder K] [IsStrictOrderedRing K] [Fmt K] [LawfulFmt K] [RndErr K]

theorem pow4_le : (1 + u : K) ^ 4 - 1 ≤ 5 * u := by
  have hu := u_pos (K := K)
  have hl := u_le (K := K)
  set t : K := u
  have t2 : t * t ≤ t * (1 / 64) := by gcongr
  have t3 : t * t * t ≤ t * (1 / 64) * (1 / 64) := by gcongr
  have t4 : t * t * t * t ≤ t * (1 / 64) * (1 / 64) * (1 / 64) := by gcongr
  rw [show (1 + t) ^ 4 - 1 = 4 * t + 6 * (t * t) + 4 * (t * t * t) + t * t * t * t by ring]
  linarith

/-- the computed difference of two dot products with the same vector -/
theorem dot_diff_appr {n a b : V3 K} {N A B : Fin 3 → K} (hn : n.Holds N) (ha : a.Holds A) (hb : b.Holds B) {M : K}
    (hA : ∀ i, |A i| ≤ M) (hB : ∀ i, |B i| ≤ M) (d : K) (hd : (V3.dotp n a - V3.dotp n b).Is d) :
    |d - ((A 0 - B 0) * N 0 + (A 1 - B 1) * N 1 + (A 2 - B 2) * N 2)| ≤ 5 * u * (2 * M * (|N 0| + |N 1| + |N 2|)) + 7 * eta := by
  have hu := u_pos (K := K)
  have hl := u_le (K := K)
  have he := eta_pos (K := K)
  have hM : 0 ≤ M := (abs_nonneg _).trans (hA 0)
  have h := ((dot3_appr (hn 0) (hn 1) (hn 2) (ha 0) (ha 1) (ha 2)).sub
    (dot3_appr (hn 0) (hn 1) (hn 2) (hb 0) (hb 1) (hb 2))).err d hd
  have k (i : Fin 3) : |N i * A i| + |N i * B i| ≤ 2 * M * |N i| := by
    rw [abs_mul, abs_mul, ← mul_add, mul_comm]
    exact mul_le_mul_of_nonneg_right (by linarith [hA i, hB i]) (abs_nonneg _)
  have h1 : ((1 + u : K) ^ (3 + 1) - 1) * (|N 0 * A 0| + |N 1 * A 1| + |N 2 * A 2| + (|N 0 * B 0| + |N 1 * B 1| + |N 2 * B 2|)) ≤
      5 * u * (2 * M * (|N 0| + |N 1| + |N 2|)) :=
    mul_le_mul pow4_le (by linarith [k 0, k 1, k 2]) (by positivity) (by positivity)
  have h2 : (1 + u : K) * (3 * (1 + u) ^ 2 * eta + 3 * (1 + u) ^ 2 * eta) ≤ 7 * eta := by
    have : (1 + u : K) * ((1 + u) * (1 + u)) ≤ 65 / 64 * (65 / 64 * (65 / 64)) := by
      have : (1 + u : K) ≤ 65 / 64 := by linarith
      gcongr
    have := mul_le_mul_of_nonneg_right this he.le
    rw [show (1 + u : K) * (3 * (1 + u) ^ 2 * eta + 3 * (1 + u) ^ 2 * eta) = 6 * ((1 + u) * ((1 + u) * (1 + u)) * eta) by ring]
    linarith
  have e : (N 0 * A 0 + N 1 * A 1 + N 2 * A 2 - (N 0 * B 0 + N 1 * B 1 + N 2 * B 2)) =
    (A 0 - B 0) * N 0 + (A 1 - B 1) * N 1 + (A 2 - B 2) * N 2 := by ring
  rw [e] at h
  linarith

/-- it is finite within range -/
theorem dot_diff_lim {n a b : V3 K} {N A B : Fin 3 → K} (hn : n.Holds N) (ha : a.Holds A) (hb : b.Holds B) {M : K}
    (hN : ∀ i, |N i| ≤ 2) (hA : ∀ i, |A i| ≤ M) (hB : ∀ i, |B i| ≤ M) (he : (eta : K) ≤ 1) (ho : 64 * (M + 1) ≤ omega) :
    Lim (V3.dotp n a - V3.dotp n b) (18 * M + 9) := by
  have hM : 0 ≤ M := (abs_nonneg _).trans (hA 0)
  have l1 : Lim (V3.dotp n a) (4 * (2 * M + 1)) := Lim.dot3 ⟨_, hn 0, hN 0⟩ ⟨_, hn 1, hN 1⟩ ⟨_, hn 2, hN 2⟩
    ⟨_, ha 0, hA 0⟩ ⟨_, ha 1, hA 1⟩ ⟨_, ha 2, hA 2⟩ he (by linarith)
  have l2 : Lim (V3.dotp n b) (4 * (2 * M + 1)) := Lim.dot3 ⟨_, hn 0, hN 0⟩ ⟨_, hn 1, hN 1⟩ ⟨_, hn 2, hN 2⟩
    ⟨_, hb 0, hB 0⟩ ⟨_, hb 1, hB 1⟩ ⟨_, hb 2, hB 2⟩ he (by linarith)
  exact (l1.sub l2 (by linarith)).mono (by linarith)

/-- the sign of a sum is computed exactly -/
theorem sum_nonneg {x y : Fl K} {a b : K} (hx : x.Holds a) (hy : y.Holds b) : Fl.le 0 (x + y) = true ↔ 0 ≤ a + b := by
  obtain ⟨h1, h2⟩ := hx.1.add_lit hy.1
  refine ⟨fun h => ?_, fun h => Fl.le_trans (Fl.lit_nonneg_le h) h2⟩
  by_contra hn
  have hn := not_le.mp hn
  have h3 := Fl.le_trans h1 (Fl.lit_nonpos_le hn.le)
  have hu := u_le (K := K)
  have hs (c : K) (hc : (x + y).Is c) : c < 0 := by
    have := Fl.add_err hx.1 hy.1 hx.2 hy.2 hc
    rw [abs_of_neg hn] at this
    have h4 := (abs_le.mp this).2
    nlinarith
  generalize x + y = z at *
  cases z with
  | nan => simp [Fl.le] at h
  | inf s => cases s <;> simp_all [Fl.le]
  | nzero => exact lt_irrefl _ (hs 0 rfl)
  | fin c =>
    have := hs c rfl
    have h4 : (0 : K) ≤ c := of_decide_eq_true h
    exact absurd h4 (not_le.mpr this)

theorem sum_nonpos {x y : Fl K} {a b : K} (hx : x.Holds a) (hy : y.Holds b) : Fl.le (x + y) 0 = true ↔ a + b ≤ 0 := by
  obtain ⟨h1, h2⟩ := hx.1.add_lit hy.1
  refine ⟨fun h => ?_, fun h => Fl.le_trans h1 (Fl.lit_nonpos_le h)⟩
  by_contra hn
  have hn := not_le.mp hn
  have h3 := Fl.le_trans (Fl.lit_nonneg_le hn.le) h2
  have hu := u_le (K := K)
  have hs (c : K) (hc : (x + y).Is c) : 0 < c := by
    have := Fl.add_err hx.1 hy.1 hx.2 hy.2 hc
    rw [abs_of_pos hn] at this
    have h4 := (abs_le.mp this).1
    nlinarith
  generalize x + y = z at *
  cases z with
  | nan => simp [Fl.le] at h
  | inf s => cases s <;> simp_all [Fl.le]
  | nzero => exact lt_irrefl _ (hs 0 rfl)
  | fin c =>
    have := hs c rfl
    have h4 : c ≤ (0 : K) := of_decide_eq_true h
    exact absurd h4 (not_le.mpr this)

/-- the comparison with the tolerance is exact: no rounding error changes the sign of a sum -/
theorem withinVicinity_zero {v x : Fl K} {ε d : K} (hv : v.Holds ε) (hx : x.Holds d) :
    withinVicinity v x 0 = true ↔ |d| ≤ ε := by
  have h2 : Fl.le (x - v) 0 = true ↔ d + -ε ≤ 0 := sum_nonpos hx ⟨hv.1.kneg, hv.2.neg⟩
  unfold withinVicinity
  rw [Bool.and_eq_true, sum_nonneg hx hv, h2, abs_le]
  constructor
  · rintro ⟨h, h'⟩; constructor <;> linarith
  · rintro ⟨h, h'⟩; constructor <;> linarith

/-- the data of a constructed plane -/
theorem Plane.init_facts (φ : K →+* ℝ) (hφ : StrictMono φ) {l l' : List (Fl K)} {s : Plane K} {o n : Fin 3 → K} (hl : ListIn l o)
    (hl' : ListIn l' n) (h : Plane.init l l' = .ok s) (h0 : n ≠ 0) (hn : ∀ i, n i = 0 ∨ nu ≤ n i * n i)
    (hM : ∀ i, 8 * (n i * n i) ≤ omega) :
    s.offset.Holds o ∧ s.bound = AABB.default ∧ ∃ N, s.normal.Holds N ∧
      ∀ i, |φ (N i) - ((euc (toR φ n))⁻¹ • toR φ n) i| ≤ 5 * φ u * |((euc (toR φ n))⁻¹ • toR φ n) i| + φ eta := by
  obtain ⟨x, y, z, rfl, h0', h1, h2⟩ := hl
  obtain ⟨x', y', z', rfl, g0, g1, g2⟩ := hl'
  have hv : (⟨#v[x', y', z']⟩ : V3 K).Holds n := by
    intro i; fin_cases i
    · exact g0
    · exact g1
    · exact g2
  obtain ⟨m, hm, hfin⟩ := C55_finite _ n hv hn hM
  obtain ⟨w, N, hw, hN, hc, -⟩ := C55_normalize φ hφ _ n hv hn h0 m hm hfin
  cases h
  refine ⟨?_, rfl, N, ?_, fun i => ?_⟩
  · intro i; fin_cases i
    · exact h0'
    · exact h1
    · exact h2
  · have e := Option.some.inj hw
    exact e ▸ hN
  · have := hc i
    rw [show ((euc (toR φ n))⁻¹ • toR φ n) i = φ (n i) / euc (fun i => φ (n i)) by
      show (euc (toR φ n))⁻¹ * φ (n i) = _; rw [div_eq_inv_mul]; rfl]
    exact this

variable (φ : K →+* ℝ) (hφ : StrictMono φ)

include hφ

theorem phi_le {a M : K} (h : |a| ≤ M) : |φ a| ≤ φ M := by
  have := hφ.monotone h; rwa [map_abs_mono φ hφ] at this

/-- the components of a stored normal -/
theorem normal_le_two {N : Fin 3 → K} {m : R3} (hm : m ⬝ᵥ m = 1) (hN : ∀ i, |φ (N i) - m i| ≤ 5 * φ u * |m i| + φ eta)
    (he : (eta : K) ≤ 1 / 64) (i : Fin 3) : |N i| ≤ 2 := by
  obtain ⟨hu, hul, heta⟩ := phi_u φ hφ
  have he' : φ eta ≤ 1 / 64 := by have := hφ.monotone he; rwa [map_div₀, map_one, map_ofNat] at this
  rw [← hφ.le_iff_le, map_abs_mono φ hφ, map_ofNat]
  have h1 := abs_add_le (φ (N i) - m i) (m i)
  rw [sub_add_cancel] at h1
  have h2 := unit_abs_le hm i
  have h3 : 5 * φ u * |m i| ≤ 5 * (1 / 64) * 1 := by gcongr
  linarith [hN i]

/-- the computed signed distance, for a stored normal close to the unit vector `m` -/
theorem signed_float {n a b : V3 K} {N A B : Fin 3 → K} (hn : n.Holds N) (ha : a.Holds A) (hb : b.Holds B) {m : R3}
    (hm : m ⬝ᵥ m = 1) (hN : ∀ i, |φ (N i) - m i| ≤ 5 * φ u * |m i| + φ eta) {M : K}
    (hA : ∀ i, |A i| ≤ M) (hB : ∀ i, |B i| ≤ M) (he : (eta : K) ≤ 1 / 64) (ho : 64 * (M + 1) ≤ omega) :
    ∃ d, (V3.dotp n a - V3.dotp n b).Holds d ∧
      |φ d - (toR φ A - toR φ B) ⬝ᵥ m| ≤ 40 * φ u * φ M + 8 * (1 + φ M) * φ eta := by
  obtain ⟨hu, hul, heta⟩ := phi_u φ hφ
  have he' : φ eta ≤ 1 / 64 := by have := hφ.monotone he; rwa [map_div₀, map_one, map_ofNat] at this
  have hM : 0 ≤ M := (abs_nonneg _).trans (hA 0)
  have hM' : 0 ≤ φ M := by have := hφ.monotone hM; rwa [map_zero] at this
  have hN2 := normal_le_two φ hφ hm hN he
  obtain ⟨d, hd, -⟩ := dot_diff_lim hn ha hb hN2 hA hB (he.trans (by norm_num)) ho
  refine ⟨d, hd, ?_⟩
  refine signed_real (N := toR φ N) hu hul heta he' hM' hm hN (fun i => phi_le φ hφ (hB i)) (fun i => phi_le φ hφ (hA i)) ?_
  have := hφ.monotone (dot_diff_appr hn ha hb hA hB d hd.1)
  rw [map_abs_mono φ hφ] at this
  rw [dotProduct, Fin.sum_univ_three]
  simp only [map_add, map_sub, map_mul, map_ofNat, map_abs_mono φ hφ] at this
  exact this

/-- margin of the signed distance: coordinates up to `M` -/
noncomputable def planeMargin (M : K) : ℝ := 40 * φ u * φ M + 8 * (1 + φ M) * φ eta

theorem unit_of_ne {n : Fin 3 → K} (h0 : n ≠ 0) : toR φ n ≠ 0 := fun h => h0 (funext fun i => hφ.injective (by
  rw [Pi.zero_apply, map_zero]; exact congrFun h i))

omit hφ [LawfulFmt K] [RndErr K] in
/-- a plane passes every bounding pre-test -/
theorem default_overlap (b : AABB (Fl K)) : AABB.overlap AABB.default b = true := by
  rw [AABB.overlap_iff]
  intro i
  have e : (AABB.default : AABB (Fl K)).lower[i] = .inf true ∧ (AABB.default : AABB (Fl K)).upper[i] = .inf false := by
    fin_cases i <;> exact ⟨rfl, rfl⟩
  rw [e.1, e.2]
  constructor
  · generalize b.upper[i] = x; cases x with
    | inf s => cases s <;> rfl
    | _ => rfl
  · generalize b.lower[i] = x; cases x with
    | inf s => cases s <;> rfl
    | _ => rfl

/-- C63: a plane constructed from a point `o` and a normal `n`, and a point `p`, all finite and within range.  If the exact
distance of `p` from the exact plane is at most the tolerance less the margin, the point is reported as lying on the plane; if
it is more than the tolerance plus the margin, it is not. -/
theorem C63_planePoint {l l' l'' : List (Fl K)} {s : Plane K} {t : Point3 K} {o n p : Fin 3 → K} {v w : Fl K} {ε : K}
    (hl : ListIn l o) (hl' : ListIn l' n) (hs : Plane.init l l' = .ok s) (hl'' : ListIn l'' p) (ht : Point3.init l'' = .ok t)
    (hv : v.Holds ε) (h0 : n ≠ 0) (hn : ∀ i, n i = 0 ∨ nu ≤ n i * n i) (hn' : ∀ i, 8 * (n i * n i) ≤ omega)
    {M : K} (hoM : ∀ i, |o i| ≤ M) (hpM : ∀ i, |p i| ≤ M) (he : (eta : K) ≤ 1 / 64) (hM : 64 * (M + 1) ≤ omega) :
    ((∃ q ∈ planePts (toR φ o) (toR φ n), euc (toR φ p - q) ≤ φ ε - planeMargin φ M) →
      ∃ loc, Shape.getIntersect 2 (.plane { s with vicinity := v }) (.point { t with vicinity := w }) = .ok (true, some loc) ∧
        loc.Holds p) ∧
    ((¬ ∃ q ∈ planePts (toR φ o) (toR φ n), euc (toR φ p - q) ≤ φ ε + planeMargin φ M) →
      Shape.getIntersect 2 (.plane { s with vicinity := v }) (.point { t with vicinity := w }) = .ok (false, none)) := by
  obtain ⟨hoff, hb, N, hN, hc⟩ := Plane.init_facts φ hφ hl hl' hs h0 hn hn'
  have hne := unit_of_ne φ hφ h0
  have hu := unit_of hne
  obtain ⟨x, y, z, rfl, p0, p1, p2⟩ := hl''
  cases ht
  have hp : (⟨#v[x, y, z]⟩ : V3 K).Holds p := by
    intro i; fin_cases i
    · exact p0
    · exact p1
    · exact p2
  obtain ⟨d, hd, hde⟩ := signed_float φ hφ hN hoff hp hu hc hoM hpM he hM
  rw [plane_dist hne, plane_dist hne, getIntersect_eq 0, if_pos]
  · have e : (toR φ p - toR φ o) ⬝ᵥ ((euc (toR φ n))⁻¹ • toR φ n) = -((toR φ o - toR φ p) ⬝ᵥ ((euc (toR φ n))⁻¹ • toR φ n)) := by
      rw [← neg_dotProduct, neg_sub]
    rw [e, abs_neg]
    set D := (toR φ o - toR φ p) ⬝ᵥ ((euc (toR φ n))⁻¹ • toR φ n)
    have hw := withinVicinity_zero hv hd
    rw [← hφ.le_iff_le, map_abs_mono φ hφ] at hw
    have h1 := abs_sub_abs_le_abs_sub (φ d) D
    have h2 := abs_sub_abs_le_abs_sub D (φ d)
    rw [abs_sub_comm D] at h2
    show (_ → ∃ loc, Plane.intersectPoint _ _ = _ ∧ _) ∧ (_ → Plane.intersectPoint _ _ = _)
    unfold Plane.intersectPoint
    simp only [vecAt_point, Res.ok_bind, V3.dot_eq, unwrap_some, Res.pure_eq]
    constructor
    · intro h
      rw [hw.mpr (by unfold planeMargin at h; linarith)]
      exact ⟨_, rfl, hp⟩
    · intro h
      have : withinVicinity v (V3.dotp s.normal s.offset - V3.dotp s.normal ⟨#v[x, y, z]⟩) 0 = false := by
        rw [← Bool.not_eq_true, hw, not_le]
        unfold planeMargin at h; linarith
      rw [this]; rfl
  · show AABB.overlap s.bound _ = true
    rw [hb]
    exact default_overlap _

/-- concrete case: the plane through `(-4, 0, 5)` with normal `(1, 2, 3)`, tolerance 1 -/
example := C63_planePoint BinQ.real BinQ.real_strictMono (w := .nan) listB listA rfl listA rfl one64_holds A123_ne A123_lo A123_hi
  (M := 5) B405_five A123_five eta_tiny (by linarith [omega_big])

omit [Field K] [LinearOrder K] [IsStrictOrderedRing K] [Fmt K] [LawfulFmt K] [RndErr K] hφ in
/-- one coordinate of the computed foot of the perpendicular -/
theorem foot_real {N m x D g P c t e M μ : ℝ} (ht : 0 < t) (htl : t ≤ 1 / 64) (he : 0 < e) (hel : e ≤ 1 / 64) (hM : 0 ≤ M)
    (hμ : μ = 40 * t * M + 8 * (1 + M) * e) (hm : |m| ≤ 1) (hN : |N - m| ≤ 5 * t * |m| + e) (hD : |D| ≤ 7 / 2 * M) (hc : |c| ≤ M)
    (hx : |x - D| ≤ μ) (hg : |g - N * -x| ≤ t * |N * -x| + e) (hP : |P - (g + c)| ≤ t * |g + c|) :
    |P - (c - D * m)| ≤ 2 * μ := by
  have hμ0 : 0 ≤ μ := (abs_nonneg _).trans hx
  have hN' : |N - m| ≤ 5 * t + e := hN.trans (by nlinarith)
  have hN1 : |N| ≤ 11 / 10 := by
    have := abs_add_le (N - m) m; rw [sub_add_cancel] at this; linarith
  have hx1 : |x| ≤ 7 / 2 * M + μ := by
    have := abs_add_le (x - D) D; rw [sub_add_cancel] at this; linarith
  have hNx : |N * -x| ≤ 11 / 10 * (7 / 2 * M + μ) := by
    rw [abs_mul, abs_neg]; exact mul_le_mul hN1 hx1 (abs_nonneg _) (by norm_num)
  have h1 : t * |N * -x| ≤ t * (11 / 10 * (7 / 2 * M + μ)) := by gcongr
  have h1' : t * (11 / 10 * (7 / 2 * M + μ)) ≤ 1 / 64 * (11 / 10 * (7 / 2 * M + μ)) := by gcongr
  have hg1 : |g| ≤ 113 / 100 * (7 / 2 * M + μ) + e := by
    have := abs_add_le (g - N * -x) (N * -x); rw [sub_add_cancel] at this; linarith
  have hgc : |g + c| ≤ 5 * M + 113 / 100 * μ + e := by have := abs_add_le g c; linarith
  have h2 : t * |g + c| ≤ t * (5 * M + 113 / 100 * μ + e) := by gcongr
  have h3 : |N * -x - -(D * m)| ≤ 11 / 10 * μ + (5 * t + e) * (7 / 2 * M) := by
    rw [show N * -x - -(D * m) = -(N * (x - D) + (N - m) * D) by ring, abs_neg]
    refine (abs_add_le _ _).trans (add_le_add ?_ ?_)
    · rw [abs_mul]; exact mul_le_mul hN1 hx (abs_nonneg _) (by norm_num)
    · rw [abs_mul]; exact mul_le_mul hN' hD (abs_nonneg _) (by positivity)
  have h4 : |P - (c - D * m)| ≤ |P - (g + c)| + |g - N * -x| + |N * -x - -(D * m)| := by
    have a1 := abs_add_le (P - (g + c) + (g - N * -x)) (N * -x - -(D * m))
    have a2 := abs_add_le (P - (g + c)) (g - N * -x)
    rw [show P - (g + c) + (g - N * -x) + (N * -x - -(D * m)) = P - (c - D * m) by ring] at a1
    linarith
  have h5 : t * μ ≤ 1 / 64 * μ := by gcongr
  have h6 : t * e ≤ 1 / 64 * e := by gcongr
  have h7 : 0 ≤ t * M := by positivity
  have h8 : 0 ≤ M * e := by positivity
  have h9 : 9 / 10 * μ = 36 * (t * M) + 36 / 5 * e + 36 / 5 * (M * e) := by rw [hμ]; ring
  nlinarith

omit [Field K] [LinearOrder K] [IsStrictOrderedRing K] [Fmt K] [LawfulFmt K] [RndErr K] hφ in
theorem signed_le {m A B : R3} {M : ℝ} (hm : m ⬝ᵥ m = 1) (hM : 0 ≤ M) (hA : ∀ i, |A i| ≤ M) (hB : ∀ i, |B i| ≤ M) :
    |(A - B) ⬝ᵥ m| ≤ 7 / 2 * M := by
  have hs := unit_abs_sum hm
  have k (i : Fin 3) : |(A - B) i * m i| ≤ 2 * M * |m i| := by
    rw [abs_mul]
    refine mul_le_mul_of_nonneg_right ?_ (abs_nonneg _)
    have := abs_sub (A i) (B i); show |A i - B i| ≤ _; linarith [hA i, hB i]
  rw [dotProduct, Fin.sum_univ_three]
  have h3 := abs_add_le ((A - B) 0 * m 0 + (A - B) 1 * m 1) ((A - B) 2 * m 2)
  have h4 := abs_add_le ((A - B) 0 * m 0) ((A - B) 1 * m 1)
  have h5 : 2 * M * (|m 0| + |m 1| + |m 2|) ≤ 2 * M * (7 / 4) := by gcongr
  linarith [k 0, k 1, k 2]

/-- C63: a constructed sphere and a constructed plane, within range.  What C44 says of exact arithmetic holds up to the
margin: if the signed distance of the centre is at most the radius less the margin, the query answers true; if it is more than
the radius plus the margin, false; and whenever it answers true, the location is within twice the margin, in each
coordinate, of the foot of the perpendicular from the centre to the exact plane. -/
theorem C63_spherePlane {l l' l'' : List (Fl K)} {x : Fl K} {s : Sphere K} {t : Plane K} {c o n : Fin 3 → K} {r : K}
    (hl'' : ListIn l'' c) (hx : x.Holds r) (hs : Sphere.init l'' x = .ok s)
    (hl : ListIn l o) (hl' : ListIn l' n) (ht : Plane.init l l' = .ok t)
    (h0 : n ≠ 0) (hn : ∀ i, n i = 0 ∨ nu ≤ n i * n i) (hn' : ∀ i, 8 * (n i * n i) ≤ omega)
    {M : K} (hoM : ∀ i, |o i| ≤ M) (hcM : ∀ i, |c i| ≤ M) (he : (eta : K) ≤ 1 / 64) (hM : 64 * (M + 1) ≤ omega) :
    (signedDist (toR φ o) (toR φ n) (toR φ c) ≤ φ r - planeMargin φ M →
      ∃ loc, Shape.getIntersect 2 (.sphere s) (.plane t) = .ok (true, some loc)) ∧
    (φ r + planeMargin φ M < signedDist (toR φ o) (toR φ n) (toR φ c) →
      Shape.getIntersect 2 (.sphere s) (.plane t) = .ok (false, none)) ∧
    (∀ loc, Shape.getIntersect 2 (.sphere s) (.plane t) = .ok (true, some loc) → ∃ P, loc.Holds P ∧
      ∀ i, |φ (P i) - foot (toR φ o) (toR φ n) (toR φ c) i| ≤ 2 * planeMargin φ M) := by
  obtain ⟨hoff, hb, N, hN, hc⟩ := Plane.init_facts φ hφ hl hl' ht h0 hn hn'
  obtain ⟨hori, hrad⟩ := Sphere.init_facts hl'' hx hs
  have hne := unit_of_ne φ hφ h0
  have hu := unit_of hne
  obtain ⟨hu0, hul, heta⟩ := phi_u φ hφ
  have he' : φ eta ≤ 1 / 64 := by have := hφ.monotone he; rwa [map_div₀, map_one, map_ofNat] at this
  have hM0 : 0 ≤ M := (abs_nonneg _).trans (hoM 0)
  have hM' : 0 ≤ φ M := by have := hφ.monotone hM0; rwa [map_zero] at this
  obtain ⟨d, hd, hde⟩ := signed_float φ hφ hN hori hoff hu hc hcM hoM he hM
  have hD := signed_le hu hM' (fun i => phi_le φ hφ (hcM i)) (fun i => phi_le φ hφ (hoM i)) (A := toR φ c) (B := toR φ o)
  have hov : AABB.overlap (Shape.sphere s).aabb (Shape.plane t).aabb = true := by
    rw [AABB.overlap_comm]; show AABB.overlap t.bound _ = true
    rw [hb]; exact default_overlap _
  have hcore : core (.sphere s) (.plane t) = .ok (if Fl.lt s.radius (V3.dotp t.normal s.ori - V3.dotp t.normal t.offset) then
      (false, none) else (true, some (V3.add (V3.scl t.normal (-(V3.dotp t.normal s.ori - V3.dotp t.normal t.offset))) s.ori))) := by
    show Sphere.intersectPlane _ _ = _
    unfold Sphere.intersectPlane
    simp only [vecAt_plane0, vecAt_plane3, Res.ok_bind, V3.dot_eq, V3.scale_eq, V3.plus_eq, unwrap_some, Res.pure_eq]
    split <;> rfl
  have hlt := hrad.1.klt hd.1
  rw [← hφ.lt_iff_lt] at hlt
  have hN2 := normal_le_two φ hφ hu hc he
  have hlim := dot_diff_lim hN hori hoff hN2 hcM hoM (he.trans (by norm_num)) hM
  have hdM : |d| ≤ 18 * M + 9 := hlim.is_le hd.1
  obtain ⟨d1, d2⟩ := abs_le.mp hde
  rw [getIntersect_eq 0, hov, if_pos rfl, hcore]
  refine ⟨fun h => ?_, fun h => ?_, fun loc h => ?_⟩
  · have : Fl.lt s.radius (V3.dotp t.normal s.ori - V3.dotp t.normal t.offset) = false := by
      rw [← Bool.not_eq_true, hlt, not_lt]
      unfold planeMargin signedDist at h; linarith
    rw [this]; exact ⟨_, rfl⟩
  · have : Fl.lt s.radius (V3.dotp t.normal s.ori - V3.dotp t.normal t.offset) = true := by
      rw [hlt]
      unfold planeMargin signedDist at h; linarith
    rw [this]; rfl
  · split at h
    · simp at h
    · simp only [Except.ok.injEq, Prod.mk.injEq, Option.some.injEq, true_and] at h
      subst h
      have key (i : Fin 3) : ∃ P, (t.normal.val[i] * -(V3.dotp t.normal s.ori - V3.dotp t.normal t.offset) + s.ori.val[i]).Holds P ∧
          |φ P - foot (toR φ o) (toR φ n) (toR φ c) i| ≤ 2 * planeMargin φ M := by
        have lm : Lim (t.normal.val[i] * -(V3.dotp t.normal s.ori - V3.dotp t.normal t.offset)) _ :=
          Lim.mul ⟨_, hN i, hN2 i⟩ hlim.neg (by linarith)
        obtain ⟨g, hg, -⟩ := id lm
        obtain ⟨P, hP, -⟩ := Lim.add lm ⟨_, hori i, hcM i⟩ (by linarith)
        refine ⟨P, hP, ?_⟩
        have e1 := hφ.monotone (Fl.mul_err (hN i).1 hd.1.kneg hg.1)
        have e2 := hφ.monotone (Fl.add_err hg.1 (hori i).1 hg.2 (hori i).2 hP.1)
        simp only [map_add, map_sub, map_mul, map_neg, map_abs_mono φ hφ] at e1 e2
        exact foot_real hu0 hul heta he' hM' rfl (unit_abs_le hu i) (hc i) hD (phi_le φ hφ (hcM i)) hde e1 e2
      choose P hP hPe using key
      refine ⟨P, fun i => ?_, hPe⟩
      have := hP i
      fin_cases i <;> exact this

/-- concrete case -/
example := C63_spherePlane BinQ.real BinQ.real_strictMono listA one64_holds rfl listB listA rfl A123_ne A123_lo A123_hi
  (M := 5) B405_five A123_five eta_tiny (by linarith [omega_big])

end

/-! ### f64 -/

theorem f64_planeMargin (M : Q64) (hM : 0 ≤ M) : planeMargin BinQ.real M ≤ 2 ^ (-47 : ℤ) * M.real + 2 ^ (-1072 : ℤ) := by
  obtain ⟨cu, ce, -⟩ := C55_constants
  have e : (u : Q64).real = 2 ^ (-53 : ℤ) := by
    rw [cu]; show (((2 : ℚ) ^ (-53 : ℤ) : ℚ) : ℝ) = _; push_cast; rfl
  have e' : (eta : Q64).real = 2 ^ (-1075 : ℤ) := by
    rw [ce]; exact (Rat.cast_zpow 2 (-1075)).trans (by rw [Rat.cast_ofNat])
  have hM' : (0 : ℝ) ≤ M.real := by have := BinQ.real_strictMono.monotone hM; rwa [map_zero] at this
  unfold planeMargin
  show 40 * (u : Q64).real * M.real + 8 * (1 + M.real) * (eta : Q64).real ≤ _
  rw [e, e', show (-47 : ℤ) = 6 + -53 by norm_num, show (-1072 : ℤ) = 3 + -1075 by norm_num, zpow_add₀ (by norm_num),
    zpow_add₀ (by norm_num)]
  have h1 : (2 : ℝ) ^ (-1075 : ℤ) ≤ 2 ^ (-53 : ℤ) := zpow_le_zpow_right₀ (by norm_num) (by norm_num)
  have h2 : (0 : ℝ) < 2 ^ (-1075 : ℤ) := by positivity
  have h3 : (0 : ℝ) < 2 ^ (-53 : ℤ) := by positivity
  generalize (2 : ℝ) ^ (-1075 : ℤ) = a at *
  generalize (2 : ℝ) ^ (-53 : ℤ) = b at *
  have h4 : M.real * a ≤ M.real * b := by gcongr
  have h5 : 0 ≤ M.real * b := by positivity
  norm_num
  linarith

theorem range_of {K : Type} [Field K] [LinearOrder K] [IsStrictOrderedRing K] [Fmt K] [LawfulFmt K] [RndErr K] {n : Fin 3 → K}
    {lo hi : K} (l0 : 0 ≤ lo) (l1 : nu ≤ lo * lo) (h1 : 8 * (hi * hi) ≤ omega) (hlo : ∀ i, n i = 0 ∨ lo ≤ |n i|)
    (hhi : ∀ i, |n i| ≤ hi) : (∀ i, n i = 0 ∨ nu ≤ n i * n i) ∧ (∀ i, 8 * (n i * n i) ≤ omega) := by
  refine ⟨fun i => (hlo i).imp_right fun h => ?_, fun i => ?_⟩
  · rw [← abs_mul_abs_self]; exact l1.trans (mul_le_mul h h l0 (abs_nonneg _))
  · rw [← abs_mul_abs_self]
    have := mul_le_mul (hhi i) (hhi i) (abs_nonneg _) ((abs_nonneg _).trans (hhi i))
    linarith

theorem f64_range {n : Fin 3 → Q64} (hlo : ∀ i, n i = 0 ∨ ((2 : ℚ) ^ (-511 : ℤ) : ℚ) ≤ |n i|)
    (hhi : ∀ i, |n i| ≤ ((2 : ℚ) ^ (510 : ℤ) : ℚ)) :
    (∀ i, n i = 0 ∨ nu ≤ n i * n i) ∧ (∀ i, 8 * (n i * n i) ≤ omega) ∧ (eta : Q64) ≤ 1 / 64 := by
  obtain ⟨-, ce, cn, co, -⟩ := C55_constants
  obtain ⟨h1, h2⟩ := range_of (K := Q64) (lo := ((2 : ℚ) ^ (-511 : ℤ) : ℚ)) (hi := ((2 : ℚ) ^ (510 : ℤ) : ℚ))
    (by show (0 : ℚ) ≤ 2 ^ (-511 : ℤ); positivity)
    (by
      rw [cn]
      show (2 : ℚ) ^ (-1022 : ℤ) ≤ (2 : ℚ) ^ (-511 : ℤ) * (2 : ℚ) ^ (-511 : ℤ)
      rw [← zpow_add₀ (by norm_num)]; norm_num)
    (by
      rw [co]
      show 8 * ((2 : ℚ) ^ (510 : ℤ) * (2 : ℚ) ^ (510 : ℤ)) ≤ (2 : ℚ) ^ (1023 : ℤ)
      rw [← zpow_add₀ (by norm_num), show (8 : ℚ) = 2 ^ (3 : ℤ) by norm_num, ← zpow_add₀ (by norm_num)]; norm_num) hlo hhi
  refine ⟨h1, h2, ?_⟩
  rw [ce]
  show ((2 : ℚ) ^ (-1075 : ℤ) : ℚ) ≤ 1 / 64
  calc ((2 : ℚ) ^ (-1075 : ℤ) : ℚ) ≤ 2 ^ (-6 : ℤ) := zpow_le_zpow_right₀ (by norm_num) (by norm_num)
    _ = 1 / 64 := by norm_num

theorem f64_omega {M : Q64} (hM : M ≤ ((2 : ℚ) ^ (1000 : ℤ) : ℚ)) : 64 * (M + 1) ≤ omega := by
  obtain ⟨-, -, -, co, -⟩ := C55_constants
  rw [co]
  have key (m : ℚ) (h : m ≤ 2 ^ (1000 : ℤ)) : 64 * (m + 1) ≤ (2 : ℚ) ^ (1023 : ℤ) := by
    have h1 : (1 : ℚ) ≤ 2 ^ (1000 : ℤ) := one_le_zpow₀ (by norm_num) (by norm_num)
    have e : ((2 : ℚ) ^ (1023 : ℤ) : ℚ) = 2 ^ (23 : ℤ) * 2 ^ (1000 : ℤ) := by rw [← zpow_add₀ (by norm_num)]; norm_num
    rw [e]
    clear e hM
    generalize (2 : ℚ) ^ (1000 : ℤ) = a at *
    norm_num
    nlinarith
  exact key M hM

/-- C63 for `f64`: normal components `0` or between `2^-511` and `2^510`, coordinates up to `M ≤ 2^1000`: the margin is
`2^-47 M + 2^-1072`. -/
theorem C63_planePoint_f64 {l l' l'' : List (Fl Q64)} {s : Plane Q64} {t : Point3 Q64} {o n p : Fin 3 → Q64} {v w : Fl Q64} {ε : Q64}
    (hl : ListIn l o) (hl' : ListIn l' n) (hs : Plane.init l l' = .ok s) (hl'' : ListIn l'' p) (ht : Point3.init l'' = .ok t)
    (hv : v.Holds ε) (h0 : n ≠ 0) (hlo : ∀ i, n i = 0 ∨ ((2 : ℚ) ^ (-511 : ℤ) : ℚ) ≤ |n i|)
    (hhi : ∀ i, |n i| ≤ ((2 : ℚ) ^ (510 : ℤ) : ℚ))
    {M : Q64} (hoM : ∀ i, |o i| ≤ M) (hpM : ∀ i, |p i| ≤ M) (hM : M ≤ ((2 : ℚ) ^ (1000 : ℤ) : ℚ)) :
    ((∃ q ∈ planePts (toR BinQ.real o) (toR BinQ.real n), euc (toR BinQ.real p - q) ≤ ε.real - (2 ^ (-47 : ℤ) * M.real + 2 ^ (-1072 : ℤ))) →
      ∃ loc, Shape.getIntersect 2 (.plane { s with vicinity := v }) (.point { t with vicinity := w }) = .ok (true, some loc) ∧
        loc.Holds p) ∧
    ((¬ ∃ q ∈ planePts (toR BinQ.real o) (toR BinQ.real n), euc (toR BinQ.real p - q) ≤ ε.real + (2 ^ (-47 : ℤ) * M.real + 2 ^ (-1072 : ℤ))) →
      Shape.getIntersect 2 (.plane { s with vicinity := v }) (.point { t with vicinity := w }) = .ok (false, none)) := by
  obtain ⟨r1, r2, r3⟩ := f64_range hlo hhi
  have hm := f64_planeMargin M ((abs_nonneg _).trans (hoM 0))
  obtain ⟨h1, h2⟩ := C63_planePoint BinQ.real BinQ.real_strictMono hl hl' hs hl'' ht hv (w := w) h0 r1 r2 hoM hpM r3 (f64_omega hM)
  exact ⟨fun ⟨q, hq, h⟩ => h1 ⟨q, hq, h.trans (sub_le_sub_left hm _)⟩,
    fun h => h2 fun ⟨q, hq, h'⟩ => h ⟨q, hq, h'.trans (add_le_add_right hm _)⟩⟩

/-- concrete case -/
example := C63_planePoint_f64 (w := .nan) listB listA rfl listA rfl one64_holds A123_ne (A123_lo64 (by norm_num)) (A123_hi64 (by norm_num))
  (M := 5) B405_five A123_five (five_le (by norm_num))

/-- C63 for `f64`, the sphere-plane query. -/
theorem C63_spherePlane_f64 {l l' l'' : List (Fl Q64)} {x : Fl Q64} {s : Sphere Q64} {t : Plane Q64} {c o n : Fin 3 → Q64} {r : Q64}
    (hl'' : ListIn l'' c) (hx : x.Holds r) (hs : Sphere.init l'' x = .ok s)
    (hl : ListIn l o) (hl' : ListIn l' n) (ht : Plane.init l l' = .ok t)
    (h0 : n ≠ 0) (hlo : ∀ i, n i = 0 ∨ ((2 : ℚ) ^ (-511 : ℤ) : ℚ) ≤ |n i|) (hhi : ∀ i, |n i| ≤ ((2 : ℚ) ^ (510 : ℤ) : ℚ))
    {M : Q64} (hoM : ∀ i, |o i| ≤ M) (hcM : ∀ i, |c i| ≤ M) (hM : M ≤ ((2 : ℚ) ^ (1000 : ℤ) : ℚ)) :
    (signedDist (toR BinQ.real o) (toR BinQ.real n) (toR BinQ.real c) ≤ r.real - (2 ^ (-47 : ℤ) * M.real + 2 ^ (-1072 : ℤ)) →
      ∃ loc, Shape.getIntersect 2 (.sphere s) (.plane t) = .ok (true, some loc)) ∧
    (r.real + (2 ^ (-47 : ℤ) * M.real + 2 ^ (-1072 : ℤ)) < signedDist (toR BinQ.real o) (toR BinQ.real n) (toR BinQ.real c) →
      Shape.getIntersect 2 (.sphere s) (.plane t) = .ok (false, none)) ∧
    (∀ loc, Shape.getIntersect 2 (.sphere s) (.plane t) = .ok (true, some loc) → ∃ P, loc.Holds P ∧
      ∀ i, |(P i).real - foot (toR BinQ.real o) (toR BinQ.real n) (toR BinQ.real c) i| ≤ 2 * (2 ^ (-47 : ℤ) * M.real + 2 ^ (-1072 : ℤ))) := by
  obtain ⟨r1, r2, r3⟩ := f64_range hlo hhi
  have hm := f64_planeMargin M ((abs_nonneg _).trans (hoM 0))
  obtain ⟨h1, h2, h3⟩ := C63_spherePlane BinQ.real BinQ.real_strictMono hl'' hx hs hl hl' ht h0 r1 r2 hoM hcM r3 (f64_omega hM)
  refine ⟨fun h => h1 (h.trans (sub_le_sub_left hm _)), fun h => h2 (lt_of_le_of_lt (add_le_add_right hm _) h), fun loc h => ?_⟩
  obtain ⟨P, hP, h'⟩ := h3 loc h
  exact ⟨P, hP, fun i => (h' i).trans (mul_le_mul_of_nonneg_left hm (by norm_num))⟩

/-- concrete case -/
example := C63_spherePlane_f64 listA one64_holds rfl listB listA rfl A123_ne (A123_lo64 (by norm_num)) (A123_hi64 (by norm_num))
  (M := 5) B405_five A123_five (five_le (by norm_num))

/-- C63, non-vacuity: the plane through the origin with normal `(1,1,1)` (whose unit vector is not representable), a point within
the default tolerance and a point outside. -/
example : ∃ (s : Plane Q64) (p q : Point3 Q64), Plane.init [0, 0, 0] [1, 1, 1] = .ok s ∧
    Point3.init [.fin 3, .fin (-1), .fin (-2)] = .ok p ∧ Point3.init [.fin 3, .fin (-1), .fin (-1)] = .ok q ∧
    Shape.getIntersect 2 (.plane s) (.point p) = .ok (true, some ⟨#v[.fin 3, .fin (-1), .fin (-2)]⟩) ∧
    Shape.getIntersect 2 (.plane s) (.point q) = .ok (false, none) :=
  ⟨_, _, _, rfl, rfl, rfl, by decide +kernel, by decide +kernel⟩

/-- the normal `(1,1,1)` and the numbers `a b c` in a slice -/
theorem ListIn.of_rep {K : Type} [Field K] [LinearOrder K] [IsStrictOrderedRing K] [Fmt K] {a b c : K} (ha : Fl.Rep a) (hb : Fl.Rep b)
    (hc : Fl.Rep c) : ListIn [.fin a, .fin b, .fin c] ![a, b, c] :=
  ⟨_, _, _, rfl, ⟨rfl, ha⟩, ⟨rfl, hb⟩, ⟨rfl, hc⟩⟩

/-- the plane through the origin with normal `(1, 1, 1)` -/
def skewPlane : Plane Q64 :=
  ⟨⟨#v[.fin (0 : ℚ), .fin (0 : ℚ), .fin (0 : ℚ)]⟩, ⟨#v[.fin (5200308914369309 / 9007199254740992 : ℚ),
      .fin (5200308914369309 / 9007199254740992 : ℚ), .fin (5200308914369309 / 9007199254740992 : ℚ)]⟩, AABB.default, defaultVicinity⟩

/-- the point with the given coordinates -/
def pointAt (a b c : ℚ) : Point3 Q64 :=
  ⟨⟨#v[.fin a, .fin b, .fin c]⟩, ⟨#v[.fin a, .fin b, .fin c], #v[.fin a, .fin b, .fin c]⟩, defaultVicinity⟩

theorem pointAt_made {a b c : ℚ} (ha : Fl.Rep (K := Q64) a) (hb : Fl.Rep (K := Q64) b) (hc : Fl.Rep (K := Q64) c) :
    (Shape.point (pointAt a b c)).MadeIn BinQ.real {toR BinQ.real (![a, b, c] : Fin 3 → Q64)} :=
  Shape.MadeIn.point (K := Q64) (s := pointAt a b c) (v := defaultVicinity) (ListIn.of_rep ha hb hc) rfl

/-- C63: a margin is needed on both sides, and it has to grow with the coordinates.  The point
`(2^40 + 1, 2^41 + 3, -(2^40 + 2^41 + 4))` lies exactly on the plane through the origin with normal `(1,1,1)` and is reported as
not on it; the point `(2^60, 1, -2^60)` is at distance `1/√3` from that plane and is reported as on it; tolerance `10^-6`. -/
theorem C63_exact_false : ∃ (s : Plane Q64) (a b : Point3 Q64) (o n p q : Fin 3 → Q64) (loc : V3 Q64),
    (Shape.plane s).MadeIn BinQ.real (planePts (toR BinQ.real o) (toR BinQ.real n)) ∧ s.vicinity = defaultVicinity ∧
    (Shape.point a).MadeIn BinQ.real {toR BinQ.real p} ∧ (Shape.point b).MadeIn BinQ.real {toR BinQ.real q} ∧
    toR BinQ.real p ∈ planePts (toR BinQ.real o) (toR BinQ.real n) ∧ Shape.getIntersect 2 (.plane s) (.point a) = .ok (false, none) ∧
    (¬ ∃ r ∈ planePts (toR BinQ.real o) (toR BinQ.real n), euc (toR BinQ.real q - r) ≤ 1 / 2) ∧
    Shape.getIntersect 2 (.plane s) (.point b) = .ok (true, some loc) := by
  have r1 : Fl.Rep (K := Q64) (1 : ℚ) := .inr (by decide +kernel)
  have r0 : Fl.Rep (K := Q64) (0 : ℚ) := .inl rfl
  have e0 (a b c : ℚ) : toR BinQ.real (![a, b, c] : Fin 3 → Q64) = ![(a : ℝ), (b : ℝ), (c : ℝ)] := by
    funext i; fin_cases i <;> rfl
  refine ⟨skewPlane, pointAt 1099511627777 2199023255555 (-3298534883332), pointAt 1152921504606846976 1 (-1152921504606846976),
    ![(0 : ℚ), (0 : ℚ), (0 : ℚ)], ![(1 : ℚ), (1 : ℚ), (1 : ℚ)], ![(1099511627777 : ℚ), (2199023255555 : ℚ), (-3298534883332 : ℚ)],
    ![(1152921504606846976 : ℚ), (1 : ℚ), (-1152921504606846976 : ℚ)],
    ⟨#v[.fin (1152921504606846976 : ℚ), .fin (1 : ℚ), .fin (-1152921504606846976 : ℚ)]⟩, ?_, rfl, ?_, ?_, ?_, ?_, ?_, ?_⟩
  · exact Shape.MadeIn.plane (K := Q64) (s := skewPlane) (v := defaultVicinity) (ListIn.of_rep r0 r0 r0) (ListIn.of_rep r1 r1 r1)
      (by decide +kernel)
  · exact pointAt_made (.inr (by decide +kernel)) (.inr (by decide +kernel)) (.inr (by decide +kernel))
  · exact pointAt_made (.inr (by decide +kernel)) (.inr (by decide +kernel)) (.inr (by decide +kernel))
  · rw [e0, e0, e0]
    show (_ - _) ⬝ᵥ _ = 0
    simp [dotProduct, Fin.sum_univ_three]
    norm_num
  · decide +kernel
  · rw [e0, e0, e0, plane_dist (fun h => by have := congrFun h 0; simp at this), dotProduct_smul, smul_eq_mul]
    have h3 : euc ![((1 : ℚ) : ℝ), ((1 : ℚ) : ℝ), ((1 : ℚ) : ℝ)] ^ 2 = 3 := by
      rw [sq, euc_sq]; simp [dotProduct, Fin.sum_univ_three]; norm_num
    have h4 := euc_nonneg ![((1 : ℚ) : ℝ), ((1 : ℚ) : ℝ), ((1 : ℚ) : ℝ)]
    have e : (![((1152921504606846976 : ℚ) : ℝ), ((1 : ℚ) : ℝ), ((-1152921504606846976 : ℚ) : ℝ)] - ![((0 : ℚ) : ℝ), ((0 : ℚ) : ℝ), ((0 : ℚ) : ℝ)]) ⬝ᵥ
        ![((1 : ℚ) : ℝ), ((1 : ℚ) : ℝ), ((1 : ℚ) : ℝ)] = 1 := by
      simp [dotProduct, Fin.sum_univ_three]
    rw [e, mul_one]
    generalize euc ![((1 : ℚ) : ℝ), ((1 : ℚ) : ℝ), ((1 : ℚ) : ℝ)] = m at *
    rw [abs_of_nonneg (inv_nonneg.mpr h4), not_le, lt_inv_comm₀ (by norm_num) (by nlinarith)]
    nlinarith
  · decide +kernel

end Mazth
