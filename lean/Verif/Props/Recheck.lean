import Verif.Props.PointQueries
import Verif.Props.RayQueries2
import Verif.Props.SphereQueries
import Verif.Props.PrismQueries
import Verif.Props.FloatRayPlane
import Verif.Props.FloatRayPoint
import Verif.Props.FloatPrismPoint

/-!
# C104: putting the location reported by one query to another query
-/

set_option linter.unusedSectionVars false
set_option autoImplicit false

namespace Mazth

open Matrix

/-- C104: the location reported for a ray and a sphere is accepted as a point of the sphere, and, if no component of the direction is
zero, as a point of the ray. -/
theorem C104_raySphere (s : Ray3 ℝ) (t : Sphere ℝ) (v : Point3 ℝ) (o d c p : R3) (r ε : ℝ) (hs : s.Made o d) (ht : t.Made c r) (hv : v.Made p)
    (hr : 0 ≤ r) (h : Shape.Finds (.ray s) (.sphere t) p) :
    Shape.Finds (.sphere t) (.point v) p ∧ (s.vicinity.Is ε → 0 ≤ ε → (∀ i, d i ≠ 0) → Shape.Finds (.ray s) (.point v) p) := by
  obtain ⟨h1, h2⟩ := C42_raySphere s t o d c r hs ht hr
  obtain ⟨q, hq, k1, k2, -⟩ := h1 (by by_contra hc; exact h.not_misses (h2 hc))
  obtain rfl := h.unique hq
  exact ⟨C41_complete t v c p r ht hv k2.le, fun hε h0 hd => C47_on_ray s v o d p hs hv ε hε h0 hd k1⟩

/-- concrete case: the diagonal ray through the centre of the unit ball -/
example : ∃ p, Shape.Finds (.sphere (mkSphere 0 1 0)) (.point (mkPoint p 0)) p ∧
    Shape.Finds (.ray (mkRay ![-2, -4, -4] diag_ne (.fin 1))) (.point (mkPoint p 0)) p := by
  obtain ⟨p, hp, -⟩ := (C42_raySphere _ _ _ _ _ _ (mkRay_made ![-2, -4, -4] diag_ne (.fin 1)) (mkSphere_made 0 1 0) zero_le_one).1
    ⟨0, ⟨2, by norm_num, by ext i; fin_cases i <;> norm_num⟩, by simp [ballPts, euc_eq]⟩
  obtain ⟨h1, h2⟩ := C104_raySphere _ _ _ _ _ _ p 1 1 (mkRay_made ![-2, -4, -4] diag_ne (.fin 1)) (mkSphere_made 0 1 0) (mkPoint_made p 0)
    zero_le_one hp
  exact ⟨p, h1, h2 (mkRay_vicIs _ _ _) zero_le_one (by intro i; fin_cases i <;> simp)⟩

/-- C104: the location reported for a ray and a plane is accepted as a point of the plane, and, if no component of the direction is zero,
as a point of the ray. -/
theorem C104_rayPlane (s : Ray3 ℝ) (t : Plane ℝ) (v : Point3 ℝ) (o d a n p : R3) (ε δ : ℝ) (hs : s.Made o d) (ht : t.Made a n) (hv : v.Made p)
    (hδ : t.vicinity.Is δ) (h0 : 0 ≤ δ) (h : Shape.Finds (.ray s) (.plane t) p) :
    Shape.Finds (.plane t) (.point v) p ∧ (s.vicinity.Is ε → 0 ≤ ε → (∀ i, d i ≠ 0) → Shape.Finds (.ray s) (.point v) p) := by
  obtain ⟨k1, k2⟩ := C43_sound s t o d a n hs ht p h
  exact ⟨C45_on_plane t v a n p δ ht hv hδ h0 k2, fun hε h0 hd => C47_on_ray s v o d p hs hv ε hε h0 hd k1⟩

/-- concrete case: the diagonal ray that comes down on the plane `z = 0` from below its front, normal `(0, 0, -2)` -/
example : ∃ p, Shape.Finds (.plane (mkPlane 0 (neg_ne_zero.mpr upZ_ne) (.fin 1))) (.point (mkPoint p 0)) p ∧
    Shape.Finds (.ray (mkRay ![-2, -4, -4] diag_ne (.fin 1))) (.point (mkPoint p 0)) p := by
  obtain ⟨p, -, hp⟩ := (C43_rayPlane _ _ _ _ _ _ (mkRay_made ![-2, -4, -4] diag_ne (.fin 1))
    (mkPlane_made 0 (neg_ne_zero.mpr upZ_ne) (.fin 1))).1 ⟨by simp [dotProduct, Fin.sum_univ_three],
    0, ⟨2, by norm_num, by ext i; fin_cases i <;> norm_num⟩, by simp [planePts]⟩
  obtain ⟨h1, h2⟩ := C104_rayPlane _ _ _ _ _ _ _ p 1 1 (mkRay_made ![-2, -4, -4] diag_ne (.fin 1))
    (mkPlane_made 0 (neg_ne_zero.mpr upZ_ne) (.fin 1)) (mkPoint_made p 0) (mkPlane_vicIs _ _ _) zero_le_one hp
  exact ⟨p, h1, h2 (mkRay_vicIs _ _ _) zero_le_one (by intro i; fin_cases i <;> simp)⟩

/-- C104: the location reported for two spheres that are not both points is accepted as a point of each. -/
theorem C104_sphereSphere (s t : Sphere ℝ) (v : Point3 ℝ) (c c' p : R3) (r r' : ℝ) (hs : s.Made c r) (ht : t.Made c' r') (hv : v.Made p)
    (hr : 0 ≤ r) (hr' : 0 ≤ r') (h0 : 0 < r + r') (h : Shape.Finds (.sphere s) (.sphere t) p) :
    Shape.Finds (.sphere s) (.point v) p ∧ Shape.Finds (.sphere t) (.point v) p := by
  obtain ⟨h1, h2⟩ := C40_sphereSphere s t c c' r r' hs ht hr hr' h0
  obtain ⟨q, ⟨k1, k2⟩, -, hq⟩ := h1 (by by_contra hc; exact h.not_misses (h2 hc))
  obtain rfl := h.unique hq
  exact ⟨C41_complete s v c p r hs hv k1, C41_complete t v c' p r' ht hv k2⟩

/-- concrete case: two unit balls whose centres are 1 apart -/
example : ∃ p, Shape.Finds (.sphere (mkSphere 0 1 0)) (.point (mkPoint p 0)) p ∧ Shape.Finds (.sphere (mkSphere ![1, 0, 0] 1 0)) (.point (mkPoint p 0)) p := by
  obtain ⟨p, -, -, hp⟩ := (C40_sphereSphere _ _ _ _ _ _ (mkSphere_made 0 1 0) (mkSphere_made ![1, 0, 0] 1 0) zero_le_one zero_le_one (by norm_num)).1
    ⟨0, by simp [ballPts, euc_eq], by simp [ballPts, euc_eq, Fin.sum_univ_three]⟩
  exact ⟨p, C104_sphereSphere _ _ _ _ _ p 1 1 (mkSphere_made 0 1 0) (mkSphere_made ![1, 0, 0] 1 0) (mkPoint_made p 0) zero_le_one zero_le_one
    (by norm_num) hp⟩

/-- C104: the location reported for a sphere and a plane is accepted as a point of the plane; as a point of the sphere if they really
meet. -/
theorem C104_spherePlane (s : Sphere ℝ) (t : Plane ℝ) (v : Point3 ℝ) (c o n p : R3) (r δ : ℝ) (hs : s.Made c r) (ht : t.Made o n) (hv : v.Made p)
    (hδ : t.vicinity.Is δ) (h0 : 0 ≤ δ) (h : Shape.Finds (.sphere s) (.plane t) p) :
    Shape.Finds (.plane t) (.point v) p ∧ ((ballPts c r ∩ planePts o n).Nonempty → Shape.Finds (.sphere s) (.point v) p) := by
  obtain ⟨h1, h2⟩ := C44_spherePlane s t c o n r hs ht
  obtain rfl := h.unique (h1 (by by_contra hc; exact h.not_misses (h2 (not_le.mp hc))))
  exact ⟨C45_on_plane t v o n _ δ ht hv hδ h0 (foot_mem ht.1), fun hne => C41_complete s v c _ r hs hv ((C44_location c o n r ht.1).mpr hne)⟩

/-- concrete case: a ball of radius 5 around `(1, 2, 3)` and the plane `z = 0` -/
example : ∃ p, Shape.Finds (.plane (mkPlane 0 upZ_ne (.fin 1))) (.point (mkPoint p 0)) p ∧
    Shape.Finds (.sphere (mkSphere ![1, 2, 3] 5 0)) (.point (mkPoint p 0)) p := by
  have hne : (ballPts ![1, 2, 3] 5 ∩ planePts 0 ![0, 0, 2]).Nonempty := by
    refine ⟨![1, 2, 0], ?_, by simp [planePts, dotProduct, Fin.sum_univ_three]⟩
    show euc _ ≤ 5
    rw [euc_eq, Fin.sum_univ_three]
    exact Real.sqrt_le_iff.mpr ⟨by norm_num, by simp; norm_num⟩
  have hp := (C44_spherePlane _ _ _ _ _ _ (mkSphere_made ![1, 2, 3] 5 0) (mkPlane_made 0 upZ_ne (.fin 1))).1
    ((le_abs_self _).trans ((meet_plane upZ_ne).mp hne))
  obtain ⟨h1, h2⟩ := C104_spherePlane _ _ _ _ _ _ _ 5 1 (mkSphere_made ![1, 2, 3] 5 0) (mkPlane_made 0 upZ_ne (.fin 1)) (mkPoint_made _ 0)
    (mkPlane_vicIs _ _ _) zero_le_one hp
  exact ⟨_, h1, h2 hne⟩

/-- C104: the location reported for a prism and a segment is accepted as a point of the prism. -/
theorem C104_prismLine (s : TriPrism ℝ) (t : Line3 ℝ) (v : Point3 ℝ) (v0 v1 v2 a b p : R3) (h : ℝ) (hs : s.Made v0 v1 v2 h) (ht : t.Made a b)
    (hv : v.Made p) (hh : 0 < h) (hab : a ≠ b) (hf : Shape.Finds (.triPrism s) (.line t) p) : Shape.Finds (.triPrism s) (.point v) p := by
  obtain ⟨h1, h2⟩ := C50_prismLine s t v0 v1 v2 a b h hs ht hh hab
  obtain ⟨q, ⟨k, -⟩, hq⟩ := h1 (by
    by_contra hc
    exact hf.not_misses (h2 (Set.not_nonempty_iff_eq_empty.mp hc)))
  obtain rfl := hf.unique hq
  exact (C49_prismPoint s v v0 v1 v2 p h hs hv hh).1 k

/-- concrete case: a segment that goes down through a prism -/
example : ∃ (s : TriPrism ℝ) (t : Line3 ℝ) (p : R3), Shape.Finds (.triPrism s) (.line t) p ∧ Shape.Finds (.triPrism s) (.point (mkPoint p 0)) p := by
  have hn : (![1, 0, 0] - 0 : R3) ⨯₃ (![0, 1, 0] - 0) ≠ 0 := fun h => by simpa [cross_apply] using congrFun h 2
  have ne : (![1 / 4, 1 / 4, 5] : R3) ≠ ![1 / 4, 1 / 4, -5] := fun h => by
    have := congrFun h 2
    simp at this
    norm_num at this
  obtain ⟨s, hs, -⟩ := TriPrism.exists_made 0 ![1, 0, 0] ![0, 1, 0] 2 hn 0
  obtain ⟨t, ht, -⟩ := Line3.exists_made ![1 / 4, 1 / 4, 5] ![1 / 4, 1 / 4, -5] 0
  have hq : (![1 / 4, 1 / 4, 2] : R3) ∈ prismPts 0 ![1, 0, 0] ![0, 1, 0] 2 ∩ segment ℝ ![1 / 4, 1 / 4, 5] ![1 / 4, 1 / 4, -5] := by
    constructor
    · have hc := fun p => prism_coords 0 ![1, 0, 0] ![0, 1, 0] 2 p
      rw [prism_example.2] at hc
      rw [hc]
      refine ⟨1 / 4, 1 / 4, 1, by norm_num, by norm_num, by norm_num, by norm_num, by norm_num, ?_⟩
      ext i; fin_cases i <;> simp
    · rw [segment_eq_image']
      refine ⟨3 / 10, by constructor <;> norm_num, ?_⟩
      ext i; fin_cases i <;> simp; norm_num
  obtain ⟨p, -, hp⟩ := (C50_prismLine _ _ _ _ _ _ _ _ hs ht (by norm_num) ne).1 ⟨_, hq⟩
  exact ⟨s, t, p, hp, C104_prismLine _ _ _ _ _ _ _ _ p 2 hs ht (mkPoint_made p 0) (by norm_num) ne hp⟩

/-- C104: two rays that meet, not nearly parallel, with no zero in their directions: the location is accepted as a point of each. -/
theorem C104_rayRay (s t : Ray3 ℝ) (v : Point3 ℝ) (o d o' d' p : R3) (ε δ : ℝ) (hs : s.Made o d) (ht : t.Made o' d') (hv : v.Made p)
    (hε : s.vicinity.Is ε) (h0 : 0 ≤ ε) (hδ : t.vicinity.Is δ) (h0' : 0 ≤ δ) (hcut : ∃ i, 1 / 10000 < |(unit d ⨯₃ unit d') i|)
    (hd : ∀ i, d i ≠ 0) (hd' : ∀ i, d' i ≠ 0) (hne : (rayPts o d ∩ rayPts o' d').Nonempty) (h : Shape.Finds (.ray s) (.ray t) p) :
    Shape.Finds (.ray s) (.point v) p ∧ Shape.Finds (.ray t) (.point v) p := by
  obtain ⟨q, k1, k2⟩ := hne
  obtain rfl := h.unique (C48_meet s t o d o' d' q hs ht ε hε h0 hcut k1 k2)
  exact ⟨C47_on_ray s v o d p hs hv ε hε h0 hd k1, C47_on_ray t v o' d' p ht hv δ hδ h0' hd' k2⟩

/-- concrete case: two rays that meet at `(1, 2, 2)` -/
example : Shape.Finds (.ray (mkRay 0 diag_ne (.fin 1))) (.point (mkPoint ![1, 2, 2] 0)) ![1, 2, 2] := by
  have hd' : (![-1, 2, 2] : R3) ≠ 0 := fun h => by simpa using congrFun h 1
  have e3 (x : ℝ) (hx : x * x = 1) : euc ![x, 2, 2] = 3 := by
    rw [euc_eq, Fin.sum_univ_three, Real.sqrt_eq_iff_mul_self_eq (by simp [hx]; norm_num) (by norm_num)]; simp [hx]; norm_num
  have hcut : ∃ i, 1 / 10000 < |(unit (![1, 2, 2] : R3) ⨯₃ unit ![-1, 2, 2]) i| := by
    refine ⟨2, ?_⟩
    rw [unit, unit, e3 1 (by norm_num), e3 (-1) (by norm_num), cross_apply]
    simp
    norm_num [abs_of_pos]
  have m1 : (![1, 2, 2] : R3) ∈ rayPts 0 ![1, 2, 2] := ⟨1, by norm_num, by ext i; fin_cases i <;> simp⟩
  have m2 : (![1, 2, 2] : R3) ∈ rayPts ![2, 0, 0] ![-1, 2, 2] := ⟨1, by norm_num, by ext i; fin_cases i <;> norm_num⟩
  exact (C104_rayRay _ _ _ _ _ _ _ _ 1 1 (mkRay_made 0 diag_ne (.fin 1)) (mkRay_made ![2, 0, 0] hd' (.fin 1)) (mkPoint_made _ 0)
    (mkRay_vicIs _ _ _) zero_le_one (mkRay_vicIs _ _ _) zero_le_one hcut (by intro i; fin_cases i <;> simp) (by intro i; fin_cases i <;> simp)
    ⟨_, m1, m2⟩ (C48_meet _ _ _ _ _ _ _ (mkRay_made 0 diag_ne (.fin 1)) (mkRay_made ![2, 0, 0] hd' (.fin 1)) 1 (mkRay_vicIs _ _ _) zero_le_one
      hcut m1 m2)).1

/-! ### binary64

The claim for the real shapes holds up to a tolerance only where the second query has one: the plane.  The sphere has none, so the location
of a ray on a sphere may be refused, and a ray almost parallel to a plane is given locations far off the plane. -/

namespace Recheck

theorem tol64 : ∃ e : Q64, (defaultVicinity : Fl Q64).Holds e ∧ (9 : ℝ) / 10 ^ 7 ≤ e.real := by
  obtain ⟨e, he⟩ : ∃ e : Q64, (defaultVicinity : Fl Q64) = .fin e ∧ (9 / 10 ^ 7 : ℚ) ≤ e ∧ Fmt.rnd e = .fin e :=
    ⟨(4722366482869645 / 4722366482869645213696 : ℚ), by decide +kernel, by decide +kernel, by decide +kernel⟩
  obtain ⟨h1, h, h2⟩ := he
  refine ⟨e, ?_, ?_⟩
  · rw [h1]; exact ⟨rfl, .inr h2⟩
  have := (Rat.cast_le (K := ℝ)).mpr h
  push_cast at this
  exact this

theorem pows : (2 : ℝ) ^ (-47 : ℤ) = 1 / 140737488355328 ∧ (2 : ℝ) ^ (-48 : ℤ) = 1 / 281474976710656 ∧ (0 : ℝ) ≤ 2 ^ (-1072 : ℤ) ∧
    (2 : ℝ) ^ (-1072 : ℤ) ≤ 1 / 10 ^ 9 := by
  refine ⟨by norm_num, by norm_num, by positivity, ?_⟩
  exact (zpow_le_zpow_right₀ (by norm_num) (by norm_num : (-1072 : ℤ) ≤ -30)).trans (by norm_num)

/-- a reported location that is near a point of the plane, put to the plane -/
theorem accept {k k' : List (Fl Q64)} {t : Plane Q64} {a n P : Fin 3 → Q64} {loc : V3 Q64} (hk : ListIn k a) (hk' : ListIn k' n)
    (ht : Plane.init k k' = .ok t) (hn0 : n ≠ 0) (hn : ∀ i, n i = 0 ∨ ((2 : ℚ) ^ (-511 : ℤ) : ℚ) ≤ |n i|)
    (hn' : ∀ i, |n i| ≤ ((2 : ℚ) ^ (510 : ℤ) : ℚ)) (hP : loc.Holds P) {q : R3} (hq : q ∈ planePts (toR BinQ.real a) (toR BinQ.real n))
    {M : Q64} (haM : ∀ i, |a i| ≤ M) {B : ℝ} (hM0 : M.real ≤ 10 ^ 9) (hPM : ∀ i, |(P i).real| ≤ M.real) (hB : ∀ i, |(P i).real - q i| ≤ B)
    (hb : 7 / 4 * B + M.real / 140737488355328 ≤ 8 / 10 ^ 7) (v : Point3 Q64) (hv : Point3.init [loc.val[0], loc.val[1], loc.val[2]] = .ok v) :
    ∃ loc', Shape.getIntersect 2 (.plane t) (.point v) = .ok (true, some loc') ∧ loc'.Holds P := by
  obtain ⟨e, he, he'⟩ := tol64
  obtain ⟨p1, -, p3, p4⟩ := pows
  have hM : M ≤ ((2 : ℚ) ^ (1000 : ℤ) : ℚ) := by
    have h1 : M.real ≤ ((10 ^ 9 : Q64)).real := hM0.trans_eq (by rw [map_pow, map_ofNat])
    have h2 : M ≤ (10 ^ 9 : Q64) := BinQ.real_strictMono.le_iff_le.mp h1
    refine h2.trans ?_
    show (10 ^ 9 : ℚ) ≤ (2 : ℚ) ^ (1000 : ℤ)
    exact (by norm_num : (10 ^ 9 : ℚ) ≤ (2 : ℚ) ^ (30 : ℤ)).trans (zpow_le_zpow_right₀ (by norm_num) (by norm_num))
  have hPM' : ∀ i, |P i| ≤ M := fun i => by
    refine BinQ.real_strictMono.le_iff_le.mp ?_
    rw [map_abs_mono BinQ.real BinQ.real_strictMono]; exact hPM i
  have hl : ListIn [loc.val[0], loc.val[1], loc.val[2]] P := ⟨_, _, _, rfl, hP 0, hP 1, hP 2⟩
  have hvic : t.vicinity = defaultVicinity := by
    obtain ⟨x, y, z, rfl, -⟩ := hk
    obtain ⟨x', y', z', rfl, -⟩ := hk'
    cases ht
    rfl
  have := (C63_planePoint_f64 hk hk' ht hl hv (hvic ▸ he) (w := v.vicinity) hn0 hn hn' haM hPM' hM).1 ⟨q, hq, ?_⟩
  · exact this
  · have h1 : euc (toR BinQ.real P - q) ≤ 7 / 4 * B := euc_le_of fun i => hB i
    rw [p1]
    generalize (2 : ℝ) ^ (-1072 : ℤ) = z at *
    linarith

theorem abs_le64 {x M : Q64} (h : |x| ≤ M) : |x.real| ≤ M.real := by
  rw [← map_abs_mono BinQ.real BinQ.real_strictMono]; exact BinQ.real_strictMono.monotone h

/-- the distance from a plane, of points with bounded coordinates -/
theorem signedDist_le {a n c : R3} (hn : n ≠ 0) {M : ℝ} (ha : ∀ i, |a i| ≤ M) (hc : ∀ i, |c i| ≤ M) : |signedDist a n c| ≤ 7 / 2 * M := by
  have h := abs_dot_le (c - a) (unit n)
  rw [euc_unit hn, mul_one] at h
  refine h.trans ((euc_le_of (ε := 2 * M) fun i => ?_).trans (by linarith))
  have h1 := abs_sub (c i) (a i)
  have h2 := ha i
  have h3 := hc i
  show |c i - a i| ≤ _
  linarith

theorem toR_ne {n : Fin 3 → Q64} (h : n ≠ 0) : toR BinQ.real n ≠ 0 := fun h' => h (by
  funext i
  refine BinQ.real_strictMono.injective ?_
  rw [show BinQ.real (n i) = toR BinQ.real n i from rfl, h']; simp)

end Recheck

open Recheck

/-- C104 in binary64: the location reported for a sphere and a plane, all coordinates at most 2^20, is accepted as a point of the plane. -/
theorem C104_spherePlane_f64 {l k k' : List (Fl Q64)} {x : Fl Q64} {s : Sphere Q64} {t : Plane Q64} {c a n : Fin 3 → Q64} {r : Q64}
    (hl : ListIn l c) (hx : x.Holds r) (hs : Sphere.init l x = .ok s) (hk : ListIn k a) (hk' : ListIn k' n) (ht : Plane.init k k' = .ok t)
    (hn0 : n ≠ 0) (hn : ∀ i, n i = 0 ∨ ((2 : ℚ) ^ (-511 : ℤ) : ℚ) ≤ |n i|) (hn' : ∀ i, |n i| ≤ ((2 : ℚ) ^ (510 : ℤ) : ℚ))
    (ha : ∀ i, |a i| ≤ (2 : Q64) ^ 20) (hc : ∀ i, |c i| ≤ (2 : Q64) ^ 20) (loc : V3 Q64)
    (h : Shape.getIntersect 2 (.sphere s) (.plane t) = .ok (true, some loc)) (v : Point3 Q64)
    (hv : Point3.init [loc.val[0], loc.val[1], loc.val[2]] = .ok v) :
    ∃ loc', Shape.getIntersect 2 (.plane t) (.point v) = .ok (true, some loc') ∧ ∃ P, loc.Holds P ∧ loc'.Holds P := by
  have hM : ((2 : Q64) ^ 20) ≤ ((2 : ℚ) ^ (1000 : ℤ) : ℚ) := by
    show ((2 : ℚ) ^ 20) ≤ (2 : ℚ) ^ (1000 : ℤ)
    exact (by norm_num : (2 : ℚ) ^ 20 ≤ (2 : ℚ) ^ (30 : ℤ)).trans (zpow_le_zpow_right₀ (by norm_num) (by norm_num))
  obtain ⟨P, hP, hB⟩ := (C63_spherePlane_f64 hl hx hs hk hk' ht hn0 hn hn' ha hc hM).2.2 loc h
  have hn1 := toR_ne hn0
  have e20 : BinQ.real ((2 : Q64) ^ 20) = 2 ^ 20 := by rw [map_pow, map_ofNat]
  have ha' (i : Fin 3) : |toR BinQ.real a i| ≤ 2 ^ 20 := e20 ▸ abs_le64 (ha i)
  have hc' (i : Fin 3) : |toR BinQ.real c i| ≤ 2 ^ 20 := e20 ▸ abs_le64 (hc i)
  have hsd := signedDist_le hn1 ha' hc'
  obtain ⟨p1, -, p3, p4⟩ := pows
  rw [e20, p1] at hB
  have e23 : BinQ.real ((2 : Q64) ^ 23) = 2 ^ 23 := by rw [map_pow, map_ofNat]
  generalize (2 : ℝ) ^ (-1072 : ℤ) = z at *
  have hB' (i : Fin 3) : |(P i).real - foot (toR BinQ.real a) (toR BinQ.real n) (toR BinQ.real c) i| ≤ 1 / 10 ^ 7 := (hB i).trans (by linarith)
  have hPM (i : Fin 3) : |(P i).real| ≤ BinQ.real ((2 : Q64) ^ 23) := by
    rw [e23]
    have f := euc_coord_le (foot (toR BinQ.real a) (toR BinQ.real n) (toR BinQ.real c) - toR BinQ.real c) i
    rw [foot_dist hn1] at f
    have g := abs_sub_le_iff.mp (hB' i)
    have f' := abs_le.mp (f.trans hsd)
    simp only [Pi.sub_apply] at f'
    have := abs_le.mp (hc' i)
    rw [abs_le]
    constructor <;> linarith [f'.1, f'.2, g.1, g.2, this.1, this.2]
  obtain ⟨loc', h1, h2⟩ := accept hk hk' ht hn0 hn hn' hP (foot_mem hn1) (M := (2 : Q64) ^ 23)
    (fun i => (ha i).trans (pow_le_pow_right₀ (by show (1 : ℚ) ≤ 2; norm_num) (by norm_num))) (by rw [e23]; norm_num) hPM hB' (by rw [e23]; norm_num) v hv
  exact ⟨loc', h1, P, hP, h2⟩

/-- C104 in binary64: a ray that starts clearly above a plane and descends at a cosine of at least 1/8, coordinates at most 2^16: a location
is reported, and accepted as a point of the plane. -/
theorem C104_rayPlane_f64 {l l' k k' : List (Fl Q64)} {s : Ray3 Q64} {t : Plane Q64} {o d a n : Fin 3 → Q64}
    (hl : ListIn l o) (hl' : ListIn l' d) (hs : Ray3.init l l' = .ok s) (hk : ListIn k a) (hk' : ListIn k' n)
    (ht : Plane.init k k' = .ok t) (hd0 : d ≠ 0) (hd : ∀ i, d i = 0 ∨ ((2 : ℚ) ^ (-511 : ℤ) : ℚ) ≤ |d i|)
    (hd' : ∀ i, |d i| ≤ ((2 : ℚ) ^ (510 : ℤ) : ℚ)) (hn0 : n ≠ 0) (hn : ∀ i, n i = 0 ∨ ((2 : ℚ) ^ (-511 : ℤ) : ℚ) ≤ |n i|)
    (hn' : ∀ i, |n i| ≤ ((2 : ℚ) ^ (510 : ℤ) : ℚ)) (ha : ∀ i, |a i| ≤ (2 : Q64) ^ 16) (ho : ∀ i, |o i| ≤ (2 : Q64) ^ 16)
    (hcos : unit (toR BinQ.real d) ⬝ᵥ unit (toR BinQ.real n) ≤ -(1 / 8))
    (hup : 1 / 10 ^ 8 ≤ signedDist (toR BinQ.real a) (toR BinQ.real n) (toR BinQ.real o)) :
    ∃ loc, Shape.getIntersect 2 (.ray s) (.plane t) = .ok (true, some loc) ∧
      ∀ v : Point3 Q64, Point3.init [loc.val[0], loc.val[1], loc.val[2]] = .ok v →
        ∃ loc', Shape.getIntersect 2 (.plane t) (.point v) = .ok (true, some loc') ∧ ∃ P, loc.Holds P ∧ loc'.Holds P := by
  have hM : ((2 : Q64) ^ 16) ≤ ((2 : ℚ) ^ (960 : ℤ) : ℚ) := by
    show ((2 : ℚ) ^ 16) ≤ (2 : ℚ) ^ (960 : ℤ)
    exact (by norm_num : (2 : ℚ) ^ 16 ≤ (2 : ℚ) ^ (30 : ℤ)).trans (zpow_le_zpow_right₀ (by norm_num) (by norm_num))
  have key := (C65_rayPlane_f64 hl hl' hs hk hk' ht hd0 hd hd' hn0 hn hn' ho ha hM).2.2
  have hn1 := toR_ne hn0
  have hd1 := toR_ne hd0
  have e16 : BinQ.real ((2 : Q64) ^ 16) = 2 ^ 16 := by rw [map_pow, map_ofNat]
  have ha' (i : Fin 3) : |toR BinQ.real a i| ≤ 2 ^ 16 := e16 ▸ abs_le64 (ha i)
  have ho' (i : Fin 3) : |toR BinQ.real o i| ≤ 2 ^ 16 := e16 ▸ abs_le64 (ho i)
  have hsd := signedDist_le hn1 ha' ho'
  obtain ⟨p1, p2, p3, p4⟩ := pows
  rw [e16, p1, p2] at key
  have e22 : BinQ.real ((2 : Q64) ^ 22) = 2 ^ 22 := by rw [map_pow, map_ofNat]
  generalize (2 : ℝ) ^ (-1072 : ℤ) = z at *
  obtain ⟨loc, P, h1, hP, q, ⟨⟨τ, hτ, hq⟩, hq'⟩, hB⟩ := key (by linarith) (by linarith)
  have hL : euc (q - toR BinQ.real o) ≤ 28 * 2 ^ 16 := by
    have e1 : q - toR BinQ.real o = (τ * euc (toR BinQ.real d)) • unit (toR BinQ.real d) := by
      rw [hq, add_sub_cancel_left, smul_smul, mul_assoc, mul_inv_cancel₀ (euc_pos hd1).ne', mul_one]
    have hL0 : 0 ≤ τ * euc (toR BinQ.real d) := mul_nonneg hτ (euc_nonneg _)
    have e2 : (q - toR BinQ.real a) ⬝ᵥ unit (toR BinQ.real n) = 0 := by
      rw [dotProduct_smul, show (q - toR BinQ.real a) ⬝ᵥ toR BinQ.real n = 0 from hq', smul_zero]
    have e3 : (q - toR BinQ.real o) ⬝ᵥ unit (toR BinQ.real n) = -signedDist (toR BinQ.real a) (toR BinQ.real n) (toR BinQ.real o) := by
      rw [show q - toR BinQ.real o = (q - toR BinQ.real a) - (toR BinQ.real o - toR BinQ.real a) by abel, sub_dotProduct, e2, zero_sub]; rfl
    rw [e1, smul_dotProduct, smul_eq_mul] at e3
    rw [e1, euc_smul, euc_unit hd1, mul_one, abs_of_nonneg hL0]
    have := (abs_le.mp hsd).2
    nlinarith
  have hc : (1 : ℝ) / 8 ≤ |unit (toR BinQ.real d) ⬝ᵥ unit (toR BinQ.real n)| := by
    rw [abs_of_neg (by linarith)]; linarith
  have hB' (i : Fin 3) : |(P i).real - q i| ≤ 3 / 10 ^ 7 := by
    refine (hB i).trans ?_
    have h0 : 0 ≤ euc (q - toR BinQ.real o) := euc_nonneg _
    have : (1 / 140737488355328 * 2 ^ 16 + z + 1 / 281474976710656 * euc (q - toR BinQ.real o)) /
        |unit (toR BinQ.real d) ⬝ᵥ unit (toR BinQ.real n)| ≤ 7 / 10 ^ 8 := by
      rw [div_le_iff₀ (by linarith)]
      linarith
    linarith
  refine ⟨loc, h1, fun v hv => ?_⟩
  have hPM (i : Fin 3) : |(P i).real| ≤ BinQ.real ((2 : Q64) ^ 22) := by
    rw [e22]
    have f' := abs_le.mp ((euc_coord_le (q - toR BinQ.real o) i).trans hL)
    have g := abs_sub_le_iff.mp (hB' i)
    simp only [Pi.sub_apply] at f'
    have := abs_le.mp (ho' i)
    rw [abs_le]
    constructor <;> linarith [f'.1, f'.2, g.1, g.2, this.1, this.2]
  obtain ⟨loc', h1, h2⟩ := accept hk hk' ht hn0 hn hn' hP hq' (M := (2 : Q64) ^ 22)
    (fun i => (ha i).trans (pow_le_pow_right₀ (by show (1 : ℚ) ≤ 2; norm_num) (by norm_num))) (by rw [e22]; norm_num) hPM hB' (by rw [e22]; norm_num) v hv
  exact ⟨loc', h1, P, hP, h2⟩

/-- concrete case: down from `(0, 0, 2)` along `(0, 3, -4)` to the plane `z = 0` -/
example : ∃ (s : Ray3 Q64) (t : Plane Q64) (loc : V3 Q64), Ray3.init [0, 0, .fin 2] [0, .fin 3, .fin (-4)] = .ok s ∧ Plane.init [0, 0, 0] [0, 0, 1] = .ok t ∧
    Shape.getIntersect 2 (.ray s) (.plane t) = .ok (true, some loc) := by
  have hr (a : ℚ) (h : a = 0 ∨ a = 1 ∨ a = 2 ∨ a = 3 ∨ a = -4) : Fl.Rep (K := Q64) a := by
    rcases h with rfl | rfl | rfl | rfl | rfl
    · exact .inl rfl
    all_goals exact .inr (by decide +kernel)
  have e0 (a b c : ℚ) : toR BinQ.real (![a, b, c] : Fin 3 → Q64) = ![(a : ℝ), (b : ℝ), (c : ℝ)] := by
    funext i; fin_cases i <;> rfl
  have e5 : euc (![0, 3, -4] : R3) = 5 := by
    rw [euc_eq, Fin.sum_univ_three, Real.sqrt_eq_iff_mul_self_eq (by simp; norm_num) (by norm_num)]; simp; norm_num
  have e1 : euc (![0, 0, 1] : R3) = 1 := by rw [euc_eq, Fin.sum_univ_three]; simp
  have lo (x : ℚ) (h : 1 ≤ |x|) : ((2 : ℚ) ^ (-511 : ℤ) : ℚ) ≤ |x| := (zpow_le_one_of_nonpos₀ (by norm_num) (by norm_num)).trans h
  have hi (x : ℚ) (h : |x| ≤ 2 ^ 10) : |x| ≤ ((2 : ℚ) ^ (510 : ℤ) : ℚ) :=
    h.trans ((by norm_num : (2 : ℚ) ^ 10 ≤ 2 ^ (10 : ℤ)).trans (zpow_le_zpow_right₀ (by norm_num) (by norm_num)))
  obtain ⟨loc, h, -⟩ := C104_rayPlane_f64 (o := ![(0 : ℚ), (0 : ℚ), (2 : ℚ)]) (d := ![(0 : ℚ), (3 : ℚ), (-4 : ℚ)]) (a := ![(0 : ℚ), (0 : ℚ), (0 : ℚ)])
    (n := ![(0 : ℚ), (0 : ℚ), (1 : ℚ)])
    (ListIn.of_rep (hr _ (by simp)) (hr _ (by simp)) (hr _ (by simp))) (ListIn.of_rep (hr _ (by simp)) (hr _ (by simp)) (hr _ (by simp))) rfl
    (ListIn.of_rep (hr _ (by simp)) (hr _ (by simp)) (hr _ (by simp))) (ListIn.of_rep (hr _ (by simp)) (hr _ (by simp)) (hr _ (by simp))) rfl
    (fun h => by have := congrFun h 1; revert this; decide +kernel) (fun i => by fin_cases i <;> first | exact .inl rfl | exact .inr (lo _ (by decide +kernel)))
    (fun i => by fin_cases i <;> exact hi _ (by decide +kernel)) (fun h => by have := congrFun h 2; revert this; decide +kernel)
    (fun i => by fin_cases i <;> first | exact .inl rfl | exact .inr (lo _ (by decide +kernel))) (fun i => by fin_cases i <;> exact hi _ (by decide +kernel))
    (fun i => by fin_cases i <;> decide +kernel) (fun i => by fin_cases i <;> decide +kernel)
    (by rw [e0, e0]; push_cast; rw [unit, unit, e5, e1]; simp [dotProduct, Fin.sum_univ_three]; norm_num)
    (by rw [e0, e0, e0]; push_cast; rw [signedDist, e1]; simp [dotProduct, Fin.sum_univ_three]; norm_num)
  exact ⟨_, _, loc, rfl, rfl, h⟩


/-- concrete case -/
example := C104_spherePlane_f64 listA one64_holds rfl listB listA rfl A123_ne (A123_lo64 (by norm_num)) (A123_hi64 (by norm_num))
  (fun i => (B405_five i).trans (by decide +kernel)) (fun i => (A123_five i).trans (by decide +kernel))

/-- C104, where it fails.  In binary64 a ray that enters the unit sphere is given a location that the sphere does
not accept, one unit in the last place outside. -/
theorem C104_raySphere_false : ∃ (s : Ray3 Q64) (t : Sphere Q64) (loc : V3 Q64) (v : Point3 Q64),
    Ray3.init [.fin (-2), .fin 1, .fin 3] [.fin 1, .fin (-1), .fin (-3)] = .ok s ∧ Sphere.init [0, 0, 0] 1 = .ok t ∧
    Shape.getIntersect 2 (.ray s) (.sphere t) = .ok (true, some loc) ∧ Point3.init [loc.val[0], loc.val[1], loc.val[2]] = .ok v ∧
    Shape.getIntersect 2 (.sphere t) (.point v) = .ok (false, none) :=
  ⟨_, _, ⟨#v[.fin (-2251799813685249 / 2251799813685248 : ℚ), .fin (1 / 2251799813685248 : ℚ), .fin (3 / 2251799813685248 : ℚ)]⟩, _, rfl, rfl,
    by decide +kernel, rfl, by decide +kernel⟩

/-- C104, where it fails: a ray exactly parallel to a plane is given, in binary64, a location some 10^17 away that the plane does not accept. -/
theorem C104_rayPlane_false : ∃ (s : Ray3 Q64) (t : Plane Q64) (loc : V3 Q64) (v : Point3 Q64),
    Ray3.init [.fin 1, .fin (-9), .fin (-7)] [.fin (-2), .fin 4, .fin (-5)] = .ok s ∧ Plane.init [0, 0, 0] [.fin (-1), .fin (-3), .fin (-2)] = .ok t ∧
    (![-2, 4, -5] : R3) ⬝ᵥ ![-1, -3, -2] = 0 ∧
    Shape.getIntersect 2 (.ray s) (.plane t) = .ok (true, some loc) ∧ Point3.init [loc.val[0], loc.val[1], loc.val[2]] = .ok v ∧
    Shape.getIntersect 2 (.plane t) (.point v) = .ok (false, none) :=
  ⟨_, _, ⟨#v[.fin (-57416865275956600 : ℚ), .fin (114833730551913184 : ℚ), .fin (-143542163189891504 : ℚ)]⟩, _, rfl, rfl,
    by simp [dotProduct, Fin.sum_univ_three]; norm_num, by decide +kernel, rfl, by decide +kernel⟩

/-- C104, where it fails: the location reported for a sphere behind a plane is not a point of the sphere. -/
theorem C104_spherePlane_false : ∃ (s : Sphere Q64) (t : Plane Q64) (loc : V3 Q64) (v : Point3 Q64),
    Sphere.init [0, 0, .fin (-10)] 1 = .ok s ∧ Plane.init [0, 0, 0] [0, 0, 1] = .ok t ∧
    Shape.getIntersect 2 (.sphere s) (.plane t) = .ok (true, some loc) ∧ Point3.init [loc.val[0], loc.val[1], loc.val[2]] = .ok v ∧
    Shape.getIntersect 2 (.sphere s) (.point v) = .ok (false, none) :=
  ⟨_, _, ⟨#v[0, 0, 0]⟩, _, rfl, rfl, by decide +kernel, rfl, by decide +kernel⟩

/-- C104, where it fails: the location reported for two skew rays is a point of the first only. -/
theorem C104_rayRay_false : ∃ (s t : Ray3 Q64) (loc : V3 Q64) (v : Point3 Q64),
    Ray3.init [0, 0, 0] [1, 1, 1] = .ok s ∧ Ray3.init [1, 0, 0] [1, .fin 2, .fin 3] = .ok t ∧
    Shape.getIntersect 2 (.ray s) (.ray t) = .ok (true, some loc) ∧ Point3.init [loc.val[0], loc.val[1], loc.val[2]] = .ok v ∧
    (∃ loc', Shape.getIntersect 2 (.ray s) (.point v) = .ok (true, some loc')) ∧
    Shape.getIntersect 2 (.ray t) (.point v) = .ok (false, none) :=
  ⟨_, _, ⟨#v[.fin (6629119157769903 / 4503599627370496 : ℚ), .fin (6629119157769903 / 4503599627370496 : ℚ),
    .fin (6629119157769903 / 4503599627370496 : ℚ)]⟩, _, rfl, rfl, by decide +kernel, rfl,
    ⟨⟨#v[.fin (6629119157769903 / 4503599627370496 : ℚ), .fin (6629119157769903 / 4503599627370496 : ℚ),
    .fin (6629119157769903 / 4503599627370496 : ℚ)]⟩, by decide +kernel⟩, by decide +kernel⟩

end Mazth
