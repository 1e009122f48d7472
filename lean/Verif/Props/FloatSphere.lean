import Verif.Props.FloatBounds
import Verif.Props.SphereQueries

/-!
# C61: the sphere-sphere query in floating point

With `D` the exact distance of the centres and `R` the exact sum of the radii, the answer is right whenever `D` and `R` differ by
more than a few rounding errors, and the reported location is accurate.
-/

set_option linter.unusedSectionVars false
set_option autoImplicit false

namespace Mazth

open Matrix RndErr

section
variable {K : Type} [Field K] [LinearOrder K] [IsStrictOrderedRing K] [Fmt K] [LawfulFmt K] [RndErr K]
variable (φ : K →+* ℝ) (hφ : StrictMono φ)

include hφ

theorem phi_u : 0 < φ u ∧ φ u ≤ 1 / 64 ∧ 0 < φ eta := by
  refine ⟨?_, ?_, ?_⟩
  · have := hφ (u_pos (K := K)); rwa [map_zero] at this
  · have := hφ.monotone (u_le (K := K)); rwa [map_div₀, map_one, map_ofNat] at this
  · have := hφ (eta_pos (K := K)); rwa [map_zero] at this

omit [Field K] [LinearOrder K] [IsStrictOrderedRing K] [Fmt K] [LawfulFmt K] [RndErr K] in
omit hφ in
/-- the real computation behind `C55_magnitude_abs` -/
theorem root_abs {t e S s m : ℝ} (ht : 0 < t) (htl : t ≤ 1 / 64) (he : 0 < e) (hS : 0 ≤ S) (hm0 : 0 ≤ m)
    (hs : |s - S| ≤ ((1 + t) ^ 3 - 1) * S + 3 * (1 + t) ^ 2 * e) (h1 : (1 - t) ^ 2 * s ≤ m ^ 2) (h2 : m ^ 2 ≤ (1 + t) ^ 2 * s) :
    |m - √S| ≤ 3 * t * √S + 2 * √e := by
  obtain ⟨s1, s2⟩ := abs_le.mp hs
  have hq : √S * √S = S := Real.mul_self_sqrt hS
  have hq' : √e * √e = e := Real.mul_self_sqrt he.le
  have hp : 0 ≤ √S := Real.sqrt_nonneg _
  have hp' : 0 ≤ √e := Real.sqrt_nonneg _
  set a := √S
  set b := √e
  have t2 : t * t ≤ t * (1 / 64) := by gcongr
  have t3 : t * t * t ≤ t * (1 / 64) * (1 / 64) := by gcongr
  have t4 : t * t * t * t ≤ t * (1 / 64) * (1 / 64) * (1 / 64) := by gcongr
  have t5 : t * t * t * t * t ≤ t * (1 / 64) * (1 / 64) * (1 / 64) * (1 / 64) := by gcongr
  have p2 : 0 < t * t := by positivity
  have p3 : 0 < t * t * t := by positivity
  have p4 : 0 < t * t * t * t := by positivity
  have p5 : 0 < t * t * t * t * t := by positivity
  have c1 : (1 + t) ^ 2 * (1 + t) ^ 3 ≤ (1 + 3 * t) ^ 2 := by
    rw [show (1 + t) ^ 2 * (1 + t) ^ 3 = 1 + 5 * t + 10 * (t * t) + 10 * (t * t * t) + 5 * (t * t * t * t) + t * t * t * t * t by ring,
      show (1 + 3 * t) ^ 2 = 1 + 6 * t + 9 * (t * t) by ring]
    linarith
  have c2 : (1 - 3 * t) ^ 2 ≤ (1 - t) ^ 2 * (2 - (1 + t) ^ 3) := by
    rw [show (1 - t) ^ 2 * (2 - (1 + t) ^ 3) = 1 - 5 * t + 4 * (t * t) + 2 * (t * t * t) - (t * t * t * t) - t * t * t * t * t by ring,
      show (1 - 3 * t) ^ 2 = 1 - 6 * t + 9 * (t * t) by ring]
    linarith
  have c3 : 3 * (1 + t) ^ 2 * (1 + t) ^ 2 ≤ 4 := by
    rw [show 3 * (1 + t) ^ 2 * (1 + t) ^ 2 = 3 + 12 * t + 18 * (t * t) + 12 * (t * t * t) + 3 * (t * t * t * t) by ring]
    linarith
  have c4 : 3 * (1 - t) ^ 2 * (1 + t) ^ 2 ≤ 4 := by
    rw [show 3 * (1 - t) ^ 2 * (1 + t) ^ 2 = 3 - 6 * (t * t) + 3 * (t * t * t * t) by ring]
    linarith
  have u1 : m ≤ (1 + 3 * t) * a + 2 * b := by
    refine (pow_le_pow_iff_left₀ hm0 (by positivity) two_ne_zero).mp ?_
    calc m ^ 2 ≤ (1 + t) ^ 2 * s := h2
      _ ≤ (1 + t) ^ 2 * ((1 + t) ^ 3 * S + 3 * (1 + t) ^ 2 * e) := by gcongr; linarith
      _ = (1 + t) ^ 2 * (1 + t) ^ 3 * (a * a) + 3 * (1 + t) ^ 2 * (1 + t) ^ 2 * (b * b) := by rw [hq, hq']; ring
      _ ≤ (1 + 3 * t) ^ 2 * (a * a) + 4 * (b * b) := by gcongr
      _ ≤ ((1 + 3 * t) * a + 2 * b) ^ 2 := by nlinarith [mul_nonneg (mul_nonneg (show 0 ≤ 1 + 3 * t by linarith) hp) hp']
  have u2 : (1 - 3 * t) * a ≤ m + 2 * b := by
    refine (pow_le_pow_iff_left₀ (mul_nonneg (by linarith) hp) (by positivity) two_ne_zero).mp ?_
    calc ((1 - 3 * t) * a) ^ 2 = (1 - 3 * t) ^ 2 * (a * a) := by ring
      _ ≤ (1 - t) ^ 2 * (2 - (1 + t) ^ 3) * (a * a) := by gcongr
      _ = (1 - t) ^ 2 * ((2 - (1 + t) ^ 3) * S) := by rw [hq]; ring
      _ ≤ (1 - t) ^ 2 * (s + 3 * (1 + t) ^ 2 * e) := by gcongr; linarith
      _ = (1 - t) ^ 2 * s + 3 * (1 - t) ^ 2 * (1 + t) ^ 2 * (b * b) := by rw [hq']; ring
      _ ≤ m ^ 2 + 4 * (b * b) := by gcongr
      _ ≤ (m + 2 * b) ^ 2 := by nlinarith [mul_nonneg hm0 hp']
  rw [abs_le]; constructor <;> linarith

/-- C55: without any assumption about underflow, a finite magnitude is within `3u ‖a‖ + 2 √eta` of the Euclidean norm. -/
theorem C55_magnitude_abs (a : Mat3x1 (Fl K)) (A : Fin 3 → K) (ha : a.Holds A) :
    ∃ x, a.magnitude = some x ∧ ∀ m, x.Is m →
      0 ≤ φ m ∧ |φ m - euc (fun i => φ (A i))| ≤ 3 * φ u * euc (fun i => φ (A i)) + 2 * √(φ eta) := by
  refine ⟨_, rfl, fun m hm => ?_⟩
  obtain ⟨s, -, hs⟩ := Fl.sqrt_finite hm
  obtain ⟨d, e, hd⟩ := C55_dot a a A A ha ha
  cases e
  have hd := hd s hs
  obtain ⟨m0, m1, m2⟩ := Fl.sqrt_err hs (Fl.wf_add _ _) hm
  have hnn : 0 ≤ A 0 * A 0 + A 1 * A 1 + A 2 * A 2 := by
    linarith [mul_self_nonneg (A 0), mul_self_nonneg (A 1), mul_self_nonneg (A 2)]
  obtain ⟨hu, hul, he⟩ := phi_u φ hφ
  have hm0' : 0 ≤ φ m := by have := hφ.monotone m0; rwa [map_zero] at this
  refine ⟨hm0', ?_⟩
  rw [euc_map φ hφ]
  rw [abs_of_nonneg (mul_self_nonneg (A 0)), abs_of_nonneg (mul_self_nonneg (A 1)), abs_of_nonneg (mul_self_nonneg (A 2))] at hd
  refine root_abs (s := φ s) hu hul he (by have := hφ.monotone hnn; rwa [map_zero] at this) hm0' ?_ (by have := hφ.monotone m1; simpa using this)
    (by have := hφ.monotone m2; simpa using this)
  have := hφ.monotone hd
  rw [map_abs_mono φ hφ, map_sub] at this
  refine this.trans (le_of_eq ?_)
  simp only [map_add, map_mul, map_sub, map_pow, map_one, map_ofNat]

/-- concrete case: a vector whose length underflows -/
example := C55_magnitude_abs BinQ.real BinQ.real_strictMono (⟨#v[.fin (Bin.pow2 (-600)), .fin 0, .fin 0]⟩ : Mat3x1 (Fl Q64))
  ![Bin.pow2 (-600), 0, 0] (holds_vec (K := Q64) (v := Bin.pow2 (-600)) (.inr (by decide +kernel)))

/-- the computed distance of two points -/
theorem dist_close (a b : V3 K) (A B : Fin 3 → K) (ha : a.Holds A) (hb : b.Holds B) (m : K) (hm : (V3.mag (V3.sub b a)).Is m) :
    |φ m - euc (toR φ B - toR φ A)| ≤ 5 * φ u * euc (toR φ B - toR φ A) + 2 * √(φ eta) := by
  obtain ⟨hu, hul, he⟩ := phi_u φ hφ
  -- the components of the difference are finite
  obtain ⟨s, _, hs⟩ := Fl.sqrt_finite hm
  obtain ⟨s1, s2, h1, h2⟩ := Fl.add_finite hs
  obtain ⟨s3, s4, h3, h4⟩ := Fl.add_finite h1
  obtain ⟨c2, _, hc2, _⟩ := Fl.mul_finite h2
  obtain ⟨c0, _, hc0, _⟩ := Fl.mul_finite h3
  obtain ⟨c1, _, hc1, _⟩ := Fl.mul_finite h4
  have hC : (V3.sub b a).Holds ![c0, c1, c2] := by
    intro i
    fin_cases i
    · exact ⟨hc0, Fl.wf_sub _ _⟩
    · exact ⟨hc1, Fl.wf_sub _ _⟩
    · exact ⟨hc2, Fl.wf_sub _ _⟩
  generalize ![c0, c1, c2] = C at hC
  have hd : ∀ i, |φ (C i) - (toR φ B - toR φ A) i| ≤ φ u * |(toR φ B - toR φ A) i| := by
    have (i : Fin 3) : |C i - (B i - A i)| ≤ u * |B i - A i| := by
      have := hC i
      fin_cases i
      · exact Fl.sub_err (hb 0).1 (ha 0).1 (hb 0).2 (ha 0).2 this.1
      · exact Fl.sub_err (hb 1).1 (ha 1).1 (hb 1).2 (ha 1).2 this.1
      · exact Fl.sub_err (hb 2).1 (ha 2).1 (hb 2).2 (ha 2).2 this.1
    intro i
    have := hφ.monotone (this i)
    rw [map_mul, map_abs_mono φ hφ, map_abs_mono φ hφ, map_sub, map_sub] at this
    exact this
  obtain ⟨x, e, hx⟩ := C55_magnitude_abs φ hφ _ _ hC
  cases e
  obtain ⟨-, hx⟩ := hx m hm
  set d := toR φ B - toR φ A
  set D : Fin 3 → ℝ := (fun i => φ (C i)) - d with hD
  have e1 : euc D ≤ φ u * euc d := by
    have := euc_mono (f := D) (g := φ u • fun i => |d i|) fun i => by simpa [hD] using hd i
    rwa [euc_smul, euc_abs, abs_of_pos hu] at this
  have e2 : euc (fun i => φ (C i)) ≤ euc d + euc D := by
    have := euc_add_le d D; rwa [show d + D = fun i => φ (C i) by simp [hD]] at this
  have e3 : euc d ≤ euc (fun i => φ (C i)) + euc D := by
    have := euc_add_le (fun i => φ (C i)) ((-1 : ℝ) • D)
    rwa [euc_smul, abs_neg, abs_one, one_mul, show (fun i => φ (C i)) + (-1 : ℝ) • D = d by simp [hD]] at this
  have hd0 := euc_nonneg d
  have hc0 := euc_nonneg (fun i => φ (C i))
  obtain ⟨g1, g2⟩ := abs_le.mp hx
  have e4 : φ u * euc (fun i => φ (C i)) ≤ φ u * (euc d + φ u * euc d) := by gcongr; linarith
  have e5 : φ u * φ u * euc d ≤ φ u * (1 / 64) * euc d := by gcongr
  have e6 : 0 ≤ φ u * euc d := by positivity
  rw [abs_le]; constructor <;> linarith

omit hφ in
/-- the magnitude is finite within range -/
theorem mag_fin (v : V3 K) (C : Fin 3 → K) (hv : v.Holds C) {N : K} (hN : 1 ≤ N) (hNo : 8 * (N * N) ≤ omega) (he : (eta : K) ≤ 1)
    (hC : ∀ i, |C i| ≤ N) : ∃ m, (V3.mag v).Is m := by
  have hl := u_le (K := K)
  have hu := u_pos (K := K)
  have hN1 : 1 ≤ N * N := by nlinarith
  have hsq : ∀ i : Fin 3, ∃ p, (v.val[i] * v.val[i]).Is p ∧ |p| ≤ 65 / 64 * (N * N) + 1 := fun i => by
    have h0 : |C i * C i| ≤ N * N := by rw [abs_mul]; exact mul_le_mul (hC i) (hC i) (abs_nonneg _) (by linarith)
    obtain ⟨p, hp⟩ := Fl.mul_fin (hv i).1 (hv i).1 (by linarith)
    refine ⟨p, hp, ?_⟩
    have h1 := Fl.mul_err (hv i).1 (hv i).1 hp
    have h2 := abs_add_le (p - C i * C i) (C i * C i)
    rw [sub_add_cancel] at h2
    have : u * |C i * C i| ≤ 1 / 64 * (N * N) := mul_le_mul hl h0 (abs_nonneg _) (by norm_num)
    linarith
  obtain ⟨p, hp, p1⟩ := hsq 0
  obtain ⟨q, hq, q1⟩ := hsq 1
  obtain ⟨r, hr, r1⟩ := hsq 2
  have h1 := abs_add_le p q
  obtain ⟨s, hs⟩ := Fl.add_fin hp hq (by linarith)
  have hs' := Fl.add_err hp hq (Fl.wf_mul _ _) (Fl.wf_mul _ _) hs
  have h2 := abs_add_le (s - (p + q)) (p + q)
  rw [sub_add_cancel] at h2
  have h3 : u * |p + q| ≤ 1 / 64 * (2 * (65 / 64 * (N * N) + 1)) := mul_le_mul hl (by linarith) (abs_nonneg _) (by norm_num)
  have h4 := abs_add_le s r
  obtain ⟨t, ht⟩ := Fl.add_fin hs hr (by linarith)
  have ht' := Fl.add_err hs hr (Fl.wf_add _ _) (Fl.wf_mul _ _) ht
  have h5 := abs_add_le (t - (s + r)) (s + r)
  rw [sub_add_cancel] at h5
  have h6 : u * |s + r| ≤ 1 / 64 * (4 * (65 / 64 * (N * N) + 1)) := mul_le_mul hl (by linarith) (abs_nonneg _) (by norm_num)
  have t0 : 0 ≤ t := by
    have hnn := ((Fl.nonNeg_sq v.val[0]).add (Fl.nonNeg_sq v.val[1])).add (Fl.nonNeg_sq v.val[2])
    have ht : (v.val[0] * v.val[0] + v.val[1] * v.val[1] + v.val[2] * v.val[2]).Is t := ht
    generalize (v.val[0] * v.val[0] + v.val[1] * v.val[1] + v.val[2] * v.val[2]) = z at hnn ht
    rcases hnn with rfl | rfl | ⟨w, hw, rfl⟩
    · exact absurd ht (by simp [Fl.Is, Fl.val])
    · exact absurd ht (by simp [Fl.Is, Fl.val])
    · exact (show w = t from Option.some.inj ht) ▸ hw
  exact Fl.sqrt_fin ht t0 (by linarith [le_abs_self t])

omit hφ in
theorem Sphere.init_facts {l : List (Fl K)} {x : Fl K} {s : Sphere K} {c : Fin 3 → K} {r : K} (hl : ListIn l c) (hx : x.Holds r)
    (h : Sphere.init l x = .ok s) : s.ori.Holds c ∧ s.radius.Holds r := by
  obtain ⟨x, y, z, rfl, h0, h1, h2⟩ := hl
  cases h
  refine ⟨fun i => ?_, hx⟩
  fin_cases i
  · exact h0
  · exact h1
  · exact h2

omit hφ in
theorem sphereSphere_float_core (s t : Sphere K) : core (.sphere s) (.sphere t) =
    .ok (if Fl.lt (t.radius + s.radius) (V3.mag (V3.sub t.ori s.ori)) then (false, none) else
      (true, some (V3.add s.ori (V3.scl (V3.sub t.ori s.ori) (s.radius / (s.radius + t.radius)))))) := by
  show Sphere.intersectSphere _ _ = _
  unfold Sphere.intersectSphere
  simp only [vecAt_sphere, sliceGet_sphere, Res.ok_bind, V3.minus_eq, V3.magnitude_eq, V3.scale_eq, V3.plus_eq, unwrap_some, Res.pure_eq]
  split <;> rfl

omit hφ in
/-- the fraction `r / (r + r')` -/
theorem frac_appr {x y : Fl K} {r r' : K} (hx : x.Holds r) (hy : y.Holds r') (hr : 0 ≤ r) (hr' : 0 ≤ r') (h0 : 0 < r + r')
    (hR : r + r' ≤ omega) : Appr (x / (x + y)) 3 (r / (r + r')) (r / (r + r')) eta ∧ ∃ f, (x / (x + y)).Is f := by
  have hl := u_le (K := K)
  have hu := u_pos (K := K)
  obtain ⟨R, hRi⟩ := Fl.add_fin hx.1 hy.1 (by rw [abs_of_pos h0]; exact hR)
  have he := Fl.add_err hx.1 hy.1 hx.2 hy.2 hRi
  rw [abs_of_pos h0] at he
  obtain ⟨e1, e2⟩ := abs_le.mp he
  have hR0 : 0 < R := by nlinarith
  have hF0 : 0 ≤ r / (r + r') := by positivity
  have hq : r / R ≤ r / (r + r') * (1 / (1 - u)) := by
    rw [div_mul_div_comm, mul_one]
    apply div_le_div_of_nonneg_left hr
    · apply mul_pos h0; linarith
    · linarith
  have hq' : r / (r + r') * (1 / (1 + u)) ≤ r / R := by
    rw [div_mul_div_comm, mul_one]
    apply div_le_div_of_nonneg_left hr hR0
    linarith
  have i1 : 1 / (1 - u) ≤ (1 + u : K) ^ 2 := by
    rw [div_le_iff₀ (by linarith)]
    have : u * u ≤ u * (1 / 64 : K) := by gcongr
    have : u * u * u ≤ u * (1 / 64 : K) * (1 / 64) := by gcongr
    nlinarith
  have i2 : 1 - u ≤ 1 / (1 + u : K) := by
    rw [le_div_iff₀ (by linarith)]; nlinarith
  have g1 : r / R ≤ r / (r + r') * (1 + u) ^ 2 := hq.trans (by gcongr)
  have g2 : r / (r + r') * (1 - u) ≤ r / R := le_trans (by gcongr) hq'
  have hF1 : r / (r + r') ≤ 1 := by rw [div_le_one h0]; linarith
  have hrR0 : 0 ≤ r / R := by positivity
  have hrR : r / R ≤ 4 := by
    have : (1 + u : K) ^ 2 ≤ 4 := by nlinarith
    nlinarith
  refine ⟨⟨Fl.wf_div _ _, by rw [abs_of_nonneg hF0], eta_pos.le, fun f hf => ?_⟩, ?_⟩
  · have h1 := Fl.div_err hx.1 hRi hR0.ne' hf
    rw [abs_of_nonneg hrR0] at h1
    obtain ⟨h2, h3⟩ := abs_le.mp h1
    set F := r / (r + r')
    have k1 : r / R * (1 + u) ≤ F * (1 + u) ^ 2 * (1 + u) := by gcongr
    have k2 : F * (1 - u) * (1 - u) ≤ r / R * (1 - u) := by
      have : (0 : K) ≤ 1 - u := by linarith
      gcongr
    have k3 : 2 - (1 + u : K) ^ 3 ≤ (1 - u) * (1 - u) := by
      have : 0 ≤ u * u * (u : K) := by positivity
      nlinarith
    have k4 := mul_le_mul_of_nonneg_left k3 hF0
    rw [abs_le]; constructor <;> nlinarith
  · exact Fl.div_fin hx.1 hRi hR0.ne' (by rw [abs_of_nonneg hrR0]; exact hrR.trans four_le)

omit hφ in
/-- the difference of two inputs -/
theorem diff_appr {x y : Fl K} {a b : K} (hx : x.Holds a) (hy : y.Holds b) : Appr (x - y) 1 (a - b) |a - b| 0 :=
  ⟨Fl.wf_sub _ _, le_rfl, le_rfl, fun c hc => by
    have := Fl.sub_err hx.1 hy.1 hx.2 hy.2 hc
    rw [pow_one]; linarith⟩

omit hφ in
theorem pow6_le : (1 + u : K) ^ 6 - 1 ≤ 7 * u := by
  have hu := u_pos (K := K)
  have hl := u_le (K := K)
  set t : K := u
  have t2 : t * t ≤ t * (1 / 64) := by gcongr
  have t3 : t * t * t ≤ t * (1 / 64) * (1 / 64) := by gcongr
  have t4 : t * t * t * t ≤ t * (1 / 64) * (1 / 64) * (1 / 64) := by gcongr
  have t5 : t * t * t * t * t ≤ t * (1 / 64) * (1 / 64) * (1 / 64) * (1 / 64) := by gcongr
  have t6 : t * t * t * t * t * t ≤ t * (1 / 64) * (1 / 64) * (1 / 64) * (1 / 64) * (1 / 64) := by gcongr
  rw [show (1 + t) ^ 6 - 1 = 6 * t + 15 * (t * t) + 20 * (t * t * t) + 15 * (t * t * t * t) + 6 * (t * t * t * t * t) +
    t * t * t * t * t * t by ring]
  linarith

omit hφ in
/-- one coordinate of the reported location -/
theorem location_appr {x y z : Fl K} {a b f F : K} (hx : x.Holds a) (hy : y.Holds b) (hz : Appr z 3 F F eta) (hf : z.Is f)
    (hF : F ≤ 1) {M : K} (hM : 1 ≤ M) (hMo : 64 * (M * M) ≤ omega) (he : (eta : K) ≤ 1) (ha : |a| ≤ M) (hb : |b| ≤ M) :
    ∃ P, (x + (y - x) * z).Holds P ∧ |P - (a + (b - a) * F)| ≤ 7 * u * (|a| + |b - a|) + 2 * (1 + |b - a|) * eta := by
  have hl := u_le (K := K)
  have hu := u_pos (K := K)
  have heta := eta_pos (K := K)
  have hF0 : 0 ≤ F := hz.T_nonneg
  have hM1 : M ≤ M * M := by nlinarith
  have hd : |b - a| ≤ 2 * M := by
    have := abs_sub a b; rw [abs_sub_comm]; linarith
  obtain ⟨C, hC⟩ := Fl.sub_fin hy.1 hx.1 (by linarith)
  have hA := (Appr.leaf hx).mono (l := 5) (by norm_num) le_rfl
  have hC' := diff_appr hy hx
  have hP := hC'.mul hz
  -- the product is finite
  have bC : |C| ≤ 3 * M := by
    have h1 := hC'.err C hC
    have h2 := abs_add_le (C - (b - a)) (b - a)
    rw [sub_add_cancel] at h2
    have : u * |b - a| ≤ 1 / 64 * (2 * M) := mul_le_mul hl hd (abs_nonneg _) (by norm_num)
    rw [pow_one] at h1; linarith
  have bf : |f| ≤ 3 := by
    have h1 := hz.err f hf
    have h2 := abs_add_le (f - F) F
    rw [sub_add_cancel, abs_of_nonneg hF0] at h2
    have h3 : ((1 + u : K) ^ 3 - 1) * F ≤ 7 * u * 1 := by
      have h4 : (1 + u : K) ^ 3 - 1 ≤ 7 * u := by
        have := grow_mono (K := K) (j := 3) (k := 6) (by norm_num); linarith [pow6_le (K := K)]
      exact mul_le_mul h4 hF hF0 (by positivity)
    linarith
  have bCf : |C * f| ≤ 9 * M := by
    rw [abs_mul]
    calc |C| * |f| ≤ 3 * M * 3 := mul_le_mul bC bf (abs_nonneg _) (by linarith)
      _ = 9 * M := by ring
  obtain ⟨g, hg⟩ := Fl.mul_fin hC hf (by linarith)
  have bg : |g| ≤ 11 * M := by
    have h1 := Fl.mul_err hC hf hg
    have h2 := abs_add_le (g - C * f) (C * f)
    rw [sub_add_cancel] at h2
    have : u * |C * f| ≤ 1 / 64 * (9 * M) := mul_le_mul hl bCf (abs_nonneg _) (by norm_num)
    linarith
  obtain ⟨P, hPi⟩ := Fl.add_fin hx.1 hg (by
    have := abs_add_le a g; linarith)
  refine ⟨P, ⟨hPi, Fl.wf_add _ _⟩, ?_⟩
  have h1 := (hA.add hP).err P hPi
  have h2 : |b - a| * F ≤ |b - a| := mul_le_of_le_one_right (abs_nonneg _) hF
  have h3 : ((1 + u : K) ^ (5 + 1) - 1) * (|a| + |b - a| * F) ≤ 7 * u * (|a| + |b - a|) :=
    mul_le_mul pow6_le (by linarith) (by positivity) (by positivity)
  have h4 : (1 + u : K) ≤ 65 / 64 := by linarith
  have h5 : (1 + u : K) * (0 + ((1 + u) * ((1 + u) ^ 1 * |b - a| * eta + (1 + u) ^ 3 * F * 0 + 0 * eta) + eta)) ≤ 2 * (1 + |b - a|) * eta := by
    have e : (1 + u : K) * (0 + ((1 + u) * ((1 + u) ^ 1 * |b - a| * eta + (1 + u) ^ 3 * F * 0 + 0 * eta) + eta)) =
      (1 + u) * ((1 + u) * (1 + u)) * (|b - a| * eta) + (1 + u) * eta := by ring
    rw [e]
    have h6 : (1 + u : K) * ((1 + u) * (1 + u)) ≤ 65 / 64 * (65 / 64 * (65 / 64)) := by gcongr
    have h7 : 0 ≤ |b - a| * eta := by positivity
    nlinarith
  exact h1.trans (add_le_add h3 h5)

/-- C61: two spheres of finite centres and non-negative radii (all within range).  If the exact distance `D` of the centres is
less than the exact sum `R` of the radii by `6u R + 3 √eta`, the spheres are reported as intersecting, at a location close to a
point of both exact balls; if `D` exceeds `R` by `7u R + 3 √eta`, they are reported as disjoint. -/
theorem C61_sphereSphere {l l' : List (Fl K)} {x x' : Fl K} {s t : Sphere K} {c c' : Fin 3 → K} {r r' : K}
    (hl : ListIn l c) (hx : x.Holds r) (hs : Sphere.init l x = .ok s)
    (hl' : ListIn l' c') (hx' : x'.Holds r') (ht : Sphere.init l' x' = .ok t) (hr : 0 ≤ r) (hr' : 0 ≤ r')
    {M : K} (hM : 1 ≤ M) (hMo : 64 * (M * M) ≤ omega) (he : (eta : K) ≤ 1) (hc : ∀ i, |c i| ≤ M) (hc' : ∀ i, |c' i| ≤ M)
    (hrM : r ≤ M) (hrM' : r' ≤ M) :
    (euc (toR φ c' - toR φ c) ≤ (1 - 6 * φ u) * (φ r + φ r') - 3 * √(φ eta) →
      ∃ loc P, Shape.getIntersect 2 (.sphere s) (.sphere t) = .ok (true, some loc) ∧ loc.Holds P ∧
        ∃ p ∈ ballPts (toR φ c) (φ r) ∩ ballPts (toR φ c') (φ r'), ∀ i,
          |φ (P i) - p i| ≤ 7 * φ u * (|φ (c i)| + |φ (c' i) - φ (c i)|) + 2 * (1 + |φ (c' i) - φ (c i)|) * φ eta) ∧
    ((1 + 7 * φ u) * (φ r + φ r') + 3 * √(φ eta) ≤ euc (toR φ c' - toR φ c) →
      Shape.getIntersect 2 (.sphere s) (.sphere t) = .ok (false, none)) := by
  obtain ⟨ho, hrad⟩ := Sphere.init_facts hl hx hs
  obtain ⟨ho', hrad'⟩ := Sphere.init_facts hl' hx' ht
  obtain ⟨hu, hul, heta⟩ := phi_u φ hφ
  have hl0 := u_le (K := K)
  have hu0 := u_pos (K := K)
  have hM1 : M ≤ M * M := by nlinarith
  -- the computed distance and sum of radii
  obtain ⟨R, hR⟩ := Fl.add_fin hrad'.1 hrad.1 (by rw [abs_of_nonneg (by linarith)]; linarith)
  have eR := Fl.add_err hrad'.1 hrad.1 hrad'.2 hrad.2 hR
  rw [abs_of_nonneg (show 0 ≤ r' + r by linarith)] at eR
  have eR' : |φ R - (φ r + φ r')| ≤ φ u * (φ r + φ r') := by
    have := hφ.monotone eR
    rw [map_mul, map_abs_mono φ hφ, map_sub, map_add, add_comm (φ r')] at this
    exact this
  have hdiff (i : Fin 3) : ∃ C, ((V3.sub t.ori s.ori).val[i]).Holds C ∧ |C| ≤ 9 / 4 * M := by
    have key {x y : Fl K} {a b : K} (hx : x.Holds a) (hy : y.Holds b) (ha : |a| ≤ M) (hb : |b| ≤ M) : ∃ C, (x - y).Holds C ∧ |C| ≤ 9 / 4 * M := by
      have hd : |a - b| ≤ 2 * M := by have := abs_sub a b; linarith
      obtain ⟨C, hC⟩ := Fl.sub_fin hx.1 hy.1 (by linarith)
      refine ⟨C, ⟨hC, Fl.wf_sub _ _⟩, ?_⟩
      have h1 := Fl.sub_err hx.1 hy.1 hx.2 hy.2 hC
      have h2 := abs_add_le (C - (a - b)) (a - b)
      rw [sub_add_cancel] at h2
      have : u * |a - b| ≤ 1 / 64 * (2 * M) := mul_le_mul hl0 hd (abs_nonneg _) (by norm_num)
      linarith
    fin_cases i
    · exact key (ho' 0) (ho 0) (hc' 0) (hc 0)
    · exact key (ho' 1) (ho 1) (hc' 1) (hc 1)
    · exact key (ho' 2) (ho 2) (hc' 2) (hc 2)
  choose C hC hCM using hdiff
  obtain ⟨m, hm⟩ := mag_fin (V3.sub t.ori s.ori) C hC (N := 9 / 4 * M) (by linarith) (by nlinarith) he hCM
  have hdist := dist_close φ hφ s.ori t.ori c c' ho ho' m hm
  obtain ⟨d1, d2⟩ := abs_le.mp hdist
  obtain ⟨r1, r2⟩ := abs_le.mp eR'
  have hφr : 0 ≤ φ r := by have := hφ.monotone hr; rwa [map_zero] at this
  have hφr' : 0 ≤ φ r' := by have := hφ.monotone hr'; rwa [map_zero] at this
  have hse : 0 < √(φ eta) := Real.sqrt_pos.mpr heta
  have hlt := hR.klt hm
  set D := euc (toR φ c' - toR φ c) with hD
  have hD0 : 0 ≤ D := euc_nonneg _
  have cf := sphereSphere_float_core s t
  constructor
  · intro h
    have hpos : 0 < φ r + φ r' := by
      by_contra hn
      have : φ r + φ r' = 0 := by linarith
      rw [this] at h; linarith
    have h0 : 0 < r + r' := by rw [← hφ.lt_iff_lt, map_zero, map_add]; exact hpos
    have hmeet : (ballPts (toR φ c) (φ r) ∩ ballPts (toR φ c') (φ r')).Nonempty := by
      rw [balls_meet hφr hφr']
      have : 0 ≤ φ u * (φ r + φ r') := by positivity
      rw [← hD]; linarith
    have hno : Fl.lt (t.radius + s.radius) (V3.mag (V3.sub t.ori s.ori)) = false := by
      rw [← Bool.not_eq_true, hlt, not_lt, ← hφ.le_iff_le]
      have k1 : φ u * D ≤ φ u * ((1 - 6 * φ u) * (φ r + φ r')) := by gcongr; linarith
      have k2 : 0 ≤ φ u * φ u * (φ r + φ r') := by positivity
      linarith [show φ u * ((1 - 6 * φ u) * (φ r + φ r')) = φ u * (φ r + φ r') - 6 * (φ u * φ u * (φ r + φ r')) by ring]
    have hpre := C60_pretest hφ (.sphere s) (.sphere t) _ _ (.sphere (v := s.vicinity) hl hx hs) (.sphere (v := t.vicinity) hl' hx' ht) hmeet
    rw [Shape.getBound_eq, Shape.getBound_eq, AABB.intersect_eq] at hpre
    obtain ⟨hF, f, hf⟩ := frac_appr hrad hrad' hr hr' h0 (by linarith)
    have hF1 : r / (r + r') ≤ 1 := by rw [div_le_one h0]; linarith
    have hloc (i : Fin 3) : ∃ P, ((V3.add s.ori (V3.scl (V3.sub t.ori s.ori) (s.radius / (s.radius + t.radius)))).val[i]).Holds P ∧
        |P - (c i + (c' i - c i) * (r / (r + r')))| ≤ 7 * u * (|c i| + |c' i - c i|) + 2 * (1 + |c' i - c i|) * eta := by
      fin_cases i
      · exact location_appr (ho 0) (ho' 0) hF hf hF1 hM hMo he (hc 0) (hc' 0)
      · exact location_appr (ho 1) (ho' 1) hF hf hF1 hM hMo he (hc 1) (hc' 1)
      · exact location_appr (ho 2) (ho' 2) hF hf hF1 hM hMo he (hc 2) (hc' 2)
    choose P hP hPe using hloc
    refine ⟨_, P, ?_, hP, toR φ c + (φ r / (φ r + φ r')) • (toR φ c' - toR φ c), ?_, ?_⟩
    · rw [getIntersect_eq 0, Except.ok.inj hpre, if_pos rfl, cf, hno]; rfl
    · have hDR : D ≤ φ r + φ r' := (balls_meet hφr hφr').mp hmeet
      constructor
      · show euc _ ≤ φ r
        rw [add_sub_cancel_left, euc_smul, abs_of_nonneg (by positivity)]
        calc _ ≤ φ r / (φ r + φ r') * (φ r + φ r') := by gcongr
          _ = φ r := by field_simp
      · show euc _ ≤ φ r'
        have e : toR φ c + (φ r / (φ r + φ r')) • (toR φ c' - toR φ c) - toR φ c' = (-(φ r' / (φ r + φ r'))) • (toR φ c' - toR φ c) := by
          have : φ r / (φ r + φ r') = 1 - φ r' / (φ r + φ r') := by field_simp; ring
          rw [this]; module
        rw [e, euc_smul, abs_neg, abs_of_nonneg (by positivity)]
        calc _ ≤ φ r' / (φ r + φ r') * (φ r + φ r') := by gcongr
          _ = φ r' := by field_simp
    · intro i
      have := hφ.monotone (hPe i)
      rw [map_abs_mono φ hφ] at this
      simp only [map_sub, map_add, map_mul, map_div₀, map_abs_mono φ hφ, map_ofNat, map_one] at this
      have e : (toR φ c + (φ r / (φ r + φ r')) • (toR φ c' - toR φ c)) i =
          φ (c i) + (φ (c' i) - φ (c i)) * (φ r / (φ r + φ r')) := by
        show φ (c i) + (φ r / (φ r + φ r')) * (φ (c' i) - φ (c i)) = _
        ring
      rw [e]; exact this
  · intro h
    have hyes : Fl.lt (t.radius + s.radius) (V3.mag (V3.sub t.ori s.ori)) = true := by
      rw [hlt, ← hφ.lt_iff_lt]
      have k1 : (1 - 5 * φ u) * ((1 + 7 * φ u) * (φ r + φ r') + 3 * √(φ eta)) ≤ (1 - 5 * φ u) * D := by
        have : 0 ≤ 1 - 5 * φ u := by linarith
        gcongr
      have k2 : φ u * √(φ eta) ≤ 1 / 64 * √(φ eta) := by gcongr
      have k3 : φ u * (φ u * (φ r + φ r')) ≤ 1 / 64 * (φ u * (φ r + φ r')) := by gcongr
      have k4 : 0 ≤ φ u * (φ r + φ r') := by positivity
      linarith
    rw [getIntersect_eq 0, cf, hyes]
    simp

/-- concrete case -/
example := C61_sphereSphere BinQ.real BinQ.real_strictMono listA one64_holds rfl listB one64_holds rfl zero_le_one zero_le_one
  (M := 5) (by norm_num) (by linarith [omega_big]) (eta_tiny.trans (by norm_num)) A123_five B405_five (by norm_num) (by norm_num)

end

/-! ### f64 -/

theorem f64_margins : (1 - 2 ^ (-50 : ℤ) : ℝ) ≤ 1 - 6 * (u : Q64).real ∧ 1 + 7 * (u : Q64).real ≤ 1 + 2 ^ (-50 : ℤ) ∧
    3 * √(eta : Q64).real ≤ 2 ^ (-535 : ℤ) := by
  obtain ⟨cu, ce, -⟩ := C55_constants
  have e : (u : Q64).real = 2 ^ (-53 : ℤ) := by
    rw [cu]; show (((2 : ℚ) ^ (-53 : ℤ) : ℚ) : ℝ) = _; push_cast; rfl
  have e' : (eta : Q64).real = 2 ^ (-1075 : ℤ) := by
    rw [ce]; exact (Rat.cast_zpow 2 (-1075)).trans (by rw [Rat.cast_ofNat])
  have h : (2 : ℝ) ^ (-50 : ℤ) = 8 * 2 ^ (-53 : ℤ) := by
    rw [show (-50 : ℤ) = 3 + (-53) by norm_num, zpow_add₀ (by norm_num)]; norm_num
  have h0 : (0 : ℝ) < 2 ^ (-53 : ℤ) := by positivity
  have h1 : √((2 : ℝ) ^ (-1075 : ℤ)) ≤ 2 ^ (-537 : ℤ) := by
    rw [Real.sqrt_le_left (by positivity), sq, ← zpow_add₀ (by norm_num)]
    exact zpow_le_zpow_right₀ (by norm_num) (by norm_num)
  have h2 : (2 : ℝ) ^ (-535 : ℤ) = 4 * 2 ^ (-537 : ℤ) := by
    rw [show (-535 : ℤ) = 2 + (-537) by norm_num, zpow_add₀ (by norm_num)]; norm_num
  have h3 : (0 : ℝ) < 2 ^ (-537 : ℤ) := by positivity
  rw [e, e', h, h2]
  refine ⟨by linarith, by linarith, by linarith⟩

/-- C61 for `f64`: centres and radii up to `2^500`, relative margin `2^-50`, absolute margin `2^-535`. -/
theorem C61_sphereSphere_f64 {l l' : List (Fl Q64)} {x x' : Fl Q64} {s t : Sphere Q64} {c c' : Fin 3 → Q64} {r r' : Q64}
    (hl : ListIn l c) (hx : x.Holds r) (hs : Sphere.init l x = .ok s)
    (hl' : ListIn l' c') (hx' : x'.Holds r') (ht : Sphere.init l' x' = .ok t) (hr : 0 ≤ r) (hr' : 0 ≤ r')
    (hc : ∀ i, |c i| ≤ ((2 : ℚ) ^ (500 : ℤ) : ℚ)) (hc' : ∀ i, |c' i| ≤ ((2 : ℚ) ^ (500 : ℤ) : ℚ))
    (hrM : r ≤ ((2 : ℚ) ^ (500 : ℤ) : ℚ)) (hrM' : r' ≤ ((2 : ℚ) ^ (500 : ℤ) : ℚ)) :
    (euc (toR BinQ.real c' - toR BinQ.real c) ≤ (1 - 2 ^ (-50 : ℤ)) * (r.real + r'.real) - 2 ^ (-535 : ℤ) →
      ∃ loc P, Shape.getIntersect 2 (.sphere s) (.sphere t) = .ok (true, some loc) ∧ loc.Holds P) ∧
    ((1 + 2 ^ (-50 : ℤ)) * (r.real + r'.real) + 2 ^ (-535 : ℤ) ≤ euc (toR BinQ.real c' - toR BinQ.real c) →
      Shape.getIntersect 2 (.sphere s) (.sphere t) = .ok (false, none)) := by
  obtain ⟨-, ce, -, co, -⟩ := C55_constants
  obtain ⟨m1, m2, m3⟩ := f64_margins
  have h0 : (0 : ℝ) ≤ r.real := by
    have := BinQ.real_strictMono.monotone hr; rwa [map_zero] at this
  have h0' : (0 : ℝ) ≤ r'.real := by
    have := BinQ.real_strictMono.monotone hr'; rwa [map_zero] at this
  obtain ⟨h1, h2⟩ := C61_sphereSphere BinQ.real BinQ.real_strictMono hl hx hs hl' hx' ht hr hr' (M := ((2 : ℚ) ^ (500 : ℤ) : ℚ))
    (by show (1 : ℚ) ≤ _; exact one_le_zpow₀ (by norm_num) (by norm_num))
    (by
      rw [co]
      show (64 : ℚ) * (2 ^ (500 : ℤ) * 2 ^ (500 : ℤ)) ≤ 2 ^ (1023 : ℤ)
      rw [← zpow_add₀ (by norm_num), show (64 : ℚ) = 2 ^ (6 : ℤ) by norm_num, ← zpow_add₀ (by norm_num)]
      exact zpow_le_zpow_right₀ (by norm_num) (by norm_num))
    (by rw [ce]; show (2 : ℚ) ^ (-1075 : ℤ) ≤ 1; exact zpow_le_one_of_nonpos₀ (by norm_num) (by norm_num)) hc hc' hrM hrM'
  have hR : 0 ≤ r.real + r'.real := by linarith
  constructor
  · intro h
    obtain ⟨loc, P, a, b, -⟩ := h1 (h.trans (by
      have := mul_le_mul_of_nonneg_right m1 hR
      exact sub_le_sub this m3))
    exact ⟨loc, P, a, b⟩
  · intro h
    refine h2 (le_trans ?_ h)
    have := mul_le_mul_of_nonneg_right m2 hR
    exact add_le_add this m3

/-- concrete case -/
example := C61_sphereSphere_f64 listA one64_holds rfl listB one64_holds rfl zero_le_one zero_le_one (A123_hi64 (by norm_num))
  (B405_hi64 (by norm_num)) (le_trans (by norm_num) (five_le (by norm_num))) (le_trans (by norm_num) (five_le (by norm_num)))

/-- centre `0`, radius `1 - 2^-53` -/
def nearA : Sphere Q64 :=
  ⟨⟨#v[.fin (0 : ℚ), .fin (0 : ℚ), .fin (0 : ℚ)]⟩, .fin ((9007199254740991 / 9007199254740992 : ℚ)),
      ⟨#v[.fin (-(9007199254740991 / 9007199254740992) : ℚ), .fin (-(9007199254740991 / 9007199254740992) : ℚ), .fin (-(9007199254740991 / 9007199254740992) : ℚ)],
       #v[.fin (9007199254740991 / 9007199254740992 : ℚ), .fin (9007199254740991 / 9007199254740992 : ℚ), .fin (9007199254740991 / 9007199254740992 : ℚ)]⟩,
      defaultVicinity⟩

/-- centre `(1, 0, 0)`, radius `3·2^-55` -/
def nearB : Sphere Q64 :=
  ⟨⟨#v[.fin (1 : ℚ), .fin (0 : ℚ), .fin (0 : ℚ)]⟩, .fin ((3 / 36028797018963968 : ℚ)),
      ⟨#v[.fin (9007199254740991 / 9007199254740992 : ℚ), .fin (-(3 / 36028797018963968) : ℚ), .fin (-(3 / 36028797018963968) : ℚ)],
       #v[.fin (1 : ℚ), .fin (3 / 36028797018963968 : ℚ), .fin (3 / 36028797018963968 : ℚ)]⟩,
      defaultVicinity⟩

/-- C61: some margin is needed: the spheres with centres `0`, `(1, 0, 0)` and radii `1 - 2^-53`, `3·2^-55` are disjoint, but the sum
of the radii rounds to `1`, the distance, and an intersection is reported. -/
theorem C61_exact_false : ∃ (s t : Sphere Q64) (c c' : Fin 3 → Q64) (r r' : Q64) (loc : V3 Q64),
    (Shape.sphere s).MadeIn BinQ.real (ballPts (toR BinQ.real c) r.real) ∧
    (Shape.sphere t).MadeIn BinQ.real (ballPts (toR BinQ.real c') r'.real) ∧ 0 ≤ r ∧ 0 ≤ r' ∧
    ¬ (ballPts (toR BinQ.real c) r.real ∩ ballPts (toR BinQ.real c') r'.real).Nonempty ∧
    Shape.getIntersect 2 (.sphere s) (.sphere t) = .ok (true, some loc) := by
  refine ⟨nearA, nearB, ![(0 : ℚ), (0 : ℚ), (0 : ℚ)], ![(1 : ℚ), (0 : ℚ), (0 : ℚ)], (9007199254740991 / 9007199254740992 : ℚ), (3 / 36028797018963968 : ℚ),
    ⟨#v[.fin (9007199254740991 / 9007199254740992 : ℚ), .fin (0 : ℚ), .fin (0 : ℚ)]⟩, ?_, ?_, ?_, ?_, ?_, ?_⟩
  · exact Shape.MadeIn.sphere (K := Q64) (s := nearA) (v := nearA.vicinity) (c := ![(0 : ℚ), (0 : ℚ), (0 : ℚ)]) (l := [.fin (0 : ℚ), .fin (0 : ℚ), .fin (0 : ℚ)]) (x := .fin (9007199254740991 / 9007199254740992 : ℚ))
      ⟨_, _, _, rfl, ⟨rfl, .inl rfl⟩, ⟨rfl, .inl rfl⟩, ⟨rfl, .inl rfl⟩⟩ ⟨rfl, .inr (by decide +kernel)⟩ (by decide +kernel)
  · exact Shape.MadeIn.sphere (K := Q64) (s := nearB) (v := nearB.vicinity) (c := ![(1 : ℚ), (0 : ℚ), (0 : ℚ)]) (l := [.fin (1 : ℚ), .fin (0 : ℚ), .fin (0 : ℚ)]) (x := .fin (3 / 36028797018963968 : ℚ))
      ⟨_, _, _, rfl, ⟨rfl, .inr (by decide +kernel)⟩, ⟨rfl, .inl rfl⟩, ⟨rfl, .inl rfl⟩⟩ ⟨rfl, .inr (by decide +kernel)⟩ (by decide +kernel)
  · show (0 : ℚ) ≤ _; norm_num
  · show (0 : ℚ) ≤ _; norm_num
  · have e1 : BinQ.real (p := 53) (emin := -1074) (emax := 1024) (9007199254740991 / 9007199254740992 : ℚ) = 9007199254740991 / 9007199254740992 := by
      show (((9007199254740991 / 9007199254740992 : ℚ) : ℚ) : ℝ) = _; push_cast; rfl
    have e2 : BinQ.real (p := 53) (emin := -1074) (emax := 1024) (3 / 36028797018963968 : ℚ) = 3 / 36028797018963968 := by
      show (((3 / 36028797018963968 : ℚ) : ℚ) : ℝ) = _; push_cast; rfl
    have e3 : toR BinQ.real (![(1 : ℚ), (0 : ℚ), (0 : ℚ)] : Fin 3 → Q64) - toR BinQ.real (![(0 : ℚ), (0 : ℚ), (0 : ℚ)] : Fin 3 → Q64) =
        Pi.single 0 1 := by
      funext i
      fin_cases i
      · show ((1 : ℚ) : ℝ) - ((0 : ℚ) : ℝ) = _; simp
      · show ((0 : ℚ) : ℝ) - ((0 : ℚ) : ℝ) = _; simp
      · show ((0 : ℚ) : ℝ) - ((0 : ℚ) : ℝ) = _; simp
    rw [e1, e2, balls_meet (by norm_num) (by norm_num), e3, euc_single]
    norm_num
  · decide +kernel

/-- The hypotheses of C61 are met by unit spheres at distance 1 (hit) and 3 (miss). -/
example : ListIn (K := Q64) [.fin (0 : ℚ), .fin (0 : ℚ), .fin (0 : ℚ)] ![(0 : ℚ), (0 : ℚ), (0 : ℚ)] ∧
    ListIn (K := Q64) [.fin (3 : ℚ), .fin (0 : ℚ), .fin (0 : ℚ)] ![(3 : ℚ), (0 : ℚ), (0 : ℚ)] ∧ (Fl.fin (1 : ℚ) : Fl Q64).Holds (1 : ℚ) ∧
    (1 + 2 ^ (-50 : ℤ)) * (1 + 1 : ℝ) + 2 ^ (-535 : ℤ) ≤ 3 ∧ (1 : ℝ) ≤ (1 - 2 ^ (-50 : ℤ)) * (1 + 1 : ℝ) - 2 ^ (-535 : ℤ) := by
  have h : (2 : ℝ) ^ (-535 : ℤ) ≤ 2 ^ (-50 : ℤ) := zpow_le_zpow_right₀ (by norm_num) (by norm_num)
  have h' : (2 : ℝ) ^ (-50 : ℤ) ≤ 1 / 4 := by norm_num
  refine ⟨⟨_, _, _, rfl, ⟨rfl, .inl rfl⟩, ⟨rfl, .inl rfl⟩, ⟨rfl, .inl rfl⟩⟩,
    ⟨_, _, _, rfl, ⟨rfl, .inr (by decide +kernel)⟩, ⟨rfl, .inl rfl⟩, ⟨rfl, .inl rfl⟩⟩, ⟨rfl, .inr (by decide +kernel)⟩, ?_, ?_⟩
  all_goals
    generalize (2 : ℝ) ^ (-535 : ℤ) = a at *
    generalize (2 : ℝ) ^ (-50 : ℤ) = b at *
    linarith

end Mazth
