import Verif.Props.FloatPlane
import Verif.Props.RayQueries

/-!
# C65: the ray-plane query in floating point

Let `S` be the exact signed distance of the origin of the ray from the exact plane and `δ` the exact cosine between the direction
and the normal.  Outside the margins `μ` of `S` (C63) and `ν = 16 u + 8 eta` of `δ` the query answers as C43 says for exact
arithmetic, and the location is within `4 (μ + ν T) / |δ|` of the exact intersection point, `T` being its distance from the origin.
-/

set_option linter.unusedSectionVars false
set_option autoImplicit false

namespace Mazth

open Matrix RndErr

/-! ### real computations -/

theorem unit_abs_dot {n e : R3} (hn : n ⬝ᵥ n = 1) (he : e ⬝ᵥ e = 1) : |n 0| * |e 0| + |n 1| * |e 1| + |n 2| * |e 2| ≤ 1 := by
  rw [dotProduct, Fin.sum_univ_three, ← abs_mul_abs_self (n 0), ← abs_mul_abs_self (n 1), ← abs_mul_abs_self (n 2)] at hn
  rw [dotProduct, Fin.sum_univ_three, ← abs_mul_abs_self (e 0), ← abs_mul_abs_self (e 1), ← abs_mul_abs_self (e 2)] at he
  nlinarith [sq_nonneg (|n 0| - |e 0|), sq_nonneg (|n 1| - |e 1|), sq_nonneg (|n 2| - |e 2|)]

theorem abs_dot_le_one {n e : R3} (hn : n ⬝ᵥ n = 1) (he : e ⬝ᵥ e = 1) : |n ⬝ᵥ e| ≤ 1 := by
  refine le_trans ?_ (unit_abs_dot hn he)
  rw [dotProduct, Fin.sum_univ_three, ← abs_mul, ← abs_mul, ← abs_mul]
  exact (abs_add_le _ _).trans (add_le_add (abs_add_le _ _) le_rfl)

/-- the computed cosine of two approximate unit vectors -/
theorem cos_real {N E n e : R3} {t h d : ℝ} (ht : 0 < t) (htl : t ≤ 1 / 64) (hh : 0 < h) (hhl : h ≤ 1 / 64)
    (hn : n ⬝ᵥ n = 1) (he : e ⬝ᵥ e = 1) (hN : ∀ i, |N i - n i| ≤ 5 * t * |n i| + h) (hE : ∀ i, |E i - e i| ≤ 5 * t * |e i| + h)
    (hd : |d - N ⬝ᵥ E| ≤ 4 * t * (|N 0| * |E 0| + |N 1| * |E 1| + |N 2| * |E 2|) + 4 * h) :
    |d - n ⬝ᵥ e| ≤ 16 * t + 8 * h := by
  have hs := unit_abs_sum hn
  have hs' := unit_abs_sum he
  have hc := unit_abs_dot hn he
  have n0 := abs_nonneg (n 0); have n1 := abs_nonneg (n 1); have n2 := abs_nonneg (n 2)
  have e0 := abs_nonneg (e 0); have e1 := abs_nonneg (e 1); have e2 := abs_nonneg (e 2)
  have hNn (i : Fin 3) : |N i| ≤ |n i| + (5 * t * |n i| + h) := by
    have := abs_add_le (N i - n i) (n i); rw [sub_add_cancel] at this; linarith [hN i]
  have hEe (i : Fin 3) : |E i| ≤ |e i| + (5 * t * |e i| + h) := by
    have := abs_add_le (E i - e i) (e i); rw [sub_add_cancel] at this; linarith [hE i]
  have hsE : |E 0| + |E 1| + |E 2| ≤ 2 := by
    have h5 : 5 * t * (|e 0| + |e 1| + |e 2|) ≤ 5 * (1 / 64) * (7 / 4) := by gcongr
    linarith [hEe 0, hEe 1, hEe 2]
  -- sum of the products
  have p (i : Fin 3) : |n i| * |E i| ≤ |n i| * (|e i| + (5 * t * |e i| + h)) := mul_le_mul_of_nonneg_left (hEe i) (abs_nonneg _)
  have q1 : |n 0| * |E 0| + |n 1| * |E 1| + |n 2| * |E 2| ≤ 111 / 100 := by
    have a1 : (1 + 5 * t) * (|n 0| * |e 0| + |n 1| * |e 1| + |n 2| * |e 2|) ≤ (1 + 5 * (1 / 64)) * 1 := by gcongr
    have a2 : h * (|n 0| + |n 1| + |n 2|) ≤ 1 / 64 * (7 / 4) := by gcongr
    linarith [p 0, p 1, p 2]
  have p' (i : Fin 3) : |N i| * |E i| ≤ (|n i| + (5 * t * |n i| + h)) * |E i| := mul_le_mul_of_nonneg_right (hNn i) (abs_nonneg _)
  have q2 : |N 0| * |E 0| + |N 1| * |E 1| + |N 2| * |E 2| ≤ 5 / 4 := by
    have a1 : (1 + 5 * t) * (|n 0| * |E 0| + |n 1| * |E 1| + |n 2| * |E 2|) ≤ (1 + 5 * (1 / 64)) * (111 / 100) := by gcongr
    have a2 : h * (|E 0| + |E 1| + |E 2|) ≤ 1 / 64 * 2 := by gcongr
    linarith [p' 0, p' 1, p' 2]
  have h1 : 4 * t * (|N 0| * |E 0| + |N 1| * |E 1| + |N 2| * |E 2|) ≤ 4 * t * (5 / 4) := by gcongr
  -- the data
  have k (i : Fin 3) : |N i * E i - n i * e i| ≤ (5 * t * |n i| + h) * |E i| + |n i| * (5 * t * |e i| + h) := by
    rw [show N i * E i - n i * e i = (N i - n i) * E i + n i * (E i - e i) by ring]
    refine (abs_add_le _ _).trans (add_le_add ?_ ?_)
    · rw [abs_mul]; exact mul_le_mul_of_nonneg_right (hN i) (abs_nonneg _)
    · rw [abs_mul]; exact mul_le_mul_of_nonneg_left (hE i) (abs_nonneg _)
  have h2 : |N ⬝ᵥ E - n ⬝ᵥ e| ≤ 5 * t * (111 / 100) + h * 2 + 5 * t + h * (7 / 4) := by
    rw [dotProduct, dotProduct, Fin.sum_univ_three, Fin.sum_univ_three,
      show N 0 * E 0 + N 1 * E 1 + N 2 * E 2 - (n 0 * e 0 + n 1 * e 1 + n 2 * e 2) =
        (N 0 * E 0 - n 0 * e 0) + (N 1 * E 1 - n 1 * e 1) + (N 2 * E 2 - n 2 * e 2) by ring]
    have a1 := abs_add_le ((N 0 * E 0 - n 0 * e 0) + (N 1 * E 1 - n 1 * e 1)) (N 2 * E 2 - n 2 * e 2)
    have a2 := abs_add_le (N 0 * E 0 - n 0 * e 0) (N 1 * E 1 - n 1 * e 1)
    have b1 : 5 * t * (|n 0| * |E 0| + |n 1| * |E 1| + |n 2| * |E 2|) ≤ 5 * t * (111 / 100) := by gcongr
    have b2 : 5 * t * (|n 0| * |e 0| + |n 1| * |e 1| + |n 2| * |e 2|) ≤ 5 * t * 1 := by gcongr
    have b3 : h * (|E 0| + |E 1| + |E 2|) ≤ h * 2 := by gcongr
    have b4 : h * (|n 0| + |n 1| + |n 2|) ≤ h * (7 / 4) := by gcongr
    linarith [k 0, k 1, k 2]
  have h3 := abs_add_le (d - N ⬝ᵥ E) (N ⬝ᵥ E - n ⬝ᵥ e)
  rw [sub_add_sub_cancel] at h3
  linarith

/-- the quotient of a computed distance and a computed cosine; all signs turned to positive -/
theorem quot_real {s d S D μ ν : ℝ} (hS : 0 ≤ S) (hν : 0 < ν) (hD : 2 * ν ≤ D) (h1 : |s - S| ≤ μ) (h2 : |d - D| ≤ ν) :
    |s / d - S / D| ≤ 2 * ((μ + ν * (S / D)) / D) ∧ D ≤ 2 * d := by
  have hD0 : 0 < D := by linarith
  obtain ⟨a1, a2⟩ := abs_le.mp h2
  have hd : D ≤ 2 * d := by linarith
  have hd0 : 0 < d := by linarith
  have hT : 0 ≤ S / D := by positivity
  refine ⟨?_, hd⟩
  have e : s / d - S / D = ((s - S) + S / D * (D - d)) / d := by field_simp; ring
  have h3 : |(s - S) + S / D * (D - d)| ≤ μ + ν * (S / D) := by
    refine (abs_add_le _ _).trans (add_le_add h1 ?_)
    rw [abs_mul, abs_of_nonneg hT, abs_sub_comm, mul_comm]
    exact mul_le_mul_of_nonneg_right h2 hT
  rw [e, abs_div, abs_of_pos hd0, div_le_iff₀ hd0]
  have h4 : 0 ≤ (μ + ν * (S / D)) / D := div_nonneg ((abs_nonneg _).trans h3) hD0.le
  calc _ ≤ μ + ν * (S / D) := h3
    _ = (μ + ν * (S / D)) / D * D := by field_simp
    _ ≤ (μ + ν * (S / D)) / D * (2 * d) := by gcongr
    _ = _ := by ring

/-- one coordinate of the computed point `o + T e` of a ray, `W` measuring the error of the parameter -/
theorem along_real {E e o T Q q g P t h M W : ℝ} (ht : 0 < t) (htl : t ≤ 1 / 64) (hh : 0 < h) (hhl : h ≤ 1 / 64)
    (hT : 0 ≤ T) (he : |e| ≤ 1) (hE : |E - e| ≤ 5 * t * |e| + h) (ho : |o| ≤ M)
    (w1 : 16 * (t * T) ≤ W) (w2 : 8 * h ≤ W) (w3 : 40 * (t * M) ≤ W) (w4 : 8 * (h * T) ≤ W) (hQ : |Q - T| ≤ 2 * W)
    (hq : |q - Q| ≤ t * |Q| + h) (hg : |g - E * q| ≤ t * |E * q| + h) (hP : |P - (g + o)| ≤ t * |g + o|) :
    |P - (o + T * e)| ≤ 4 * W := by
  have hW : 0 ≤ W := by linarith
  have hQ1 : |Q| ≤ T + 2 * W := by
    have := abs_add_le (Q - T) T; rw [sub_add_cancel, abs_of_nonneg hT] at this; linarith
  have tW : t * W ≤ 1 / 64 * W := by gcongr
  have t1 : t * |Q| ≤ t * (T + 2 * W) := by gcongr
  have hqT : |q - T| ≤ 9 / 4 * W := by
    have := abs_add_le (q - Q) (Q - T); rw [sub_add_sub_cancel] at this
    linarith
  have hE1 : |E - e| ≤ 5 * t + h := hE.trans (by nlinarith)
  have hE2 : |E| ≤ 11 / 10 := by
    have := abs_add_le (E - e) e; rw [sub_add_cancel] at this; linarith
  have hq1 : |q| ≤ T + 9 / 4 * W := by
    have := abs_add_le (q - T) T; rw [sub_add_cancel, abs_of_nonneg hT] at this; linarith
  have hEq : |E * q| ≤ 11 / 10 * (T + 9 / 4 * W) := by
    rw [abs_mul]; exact mul_le_mul hE2 hq1 (abs_nonneg _) (by norm_num)
  have t2 : t * |E * q| ≤ t * (11 / 10 * (T + 9 / 4 * W)) := by gcongr
  have k1 : |E * q - T * e| ≤ 11 / 10 * (9 / 4 * W) + (5 * t + h) * T := by
    rw [show E * q - T * e = E * (q - T) + (E - e) * T by ring]
    refine (abs_add_le _ _).trans (add_le_add ?_ ?_)
    · rw [abs_mul]; exact mul_le_mul hE2 hqT (abs_nonneg _) (by norm_num)
    · rw [abs_mul, abs_of_nonneg hT]; exact mul_le_mul_of_nonneg_right hE1 hT
  have hg1 : |g| ≤ 11 / 10 * (T + 9 / 4 * W) + (t * (11 / 10 * (T + 9 / 4 * W)) + h) := by
    have := abs_add_le (g - E * q) (E * q); rw [sub_add_cancel] at this; linarith
  have hgo : |g + o| ≤ 11 / 10 * (T + 9 / 4 * W) + (t * (11 / 10 * (T + 9 / 4 * W)) + h) + M := by
    have := abs_add_le g o; linarith
  have t3 : t * |g + o| ≤ t * (11 / 10 * (T + 9 / 4 * W) + (t * (11 / 10 * (T + 9 / 4 * W)) + h) + M) := by gcongr
  have t4 : t * (t * (11 / 10 * (T + 9 / 4 * W)) + h) ≤ 1 / 64 * (t * (11 / 10 * (T + 9 / 4 * W)) + h) := by gcongr
  have h4 : |P - (o + T * e)| ≤ |P - (g + o)| + |g - E * q| + |E * q - T * e| := by
    have a1 := abs_add_le (P - (g + o) + (g - E * q)) (E * q - T * e)
    have a2 := abs_add_le (P - (g + o)) (g - E * q)
    rw [show P - (g + o) + (g - E * q) + (E * q - T * e) = P - (o + T * e) by ring] at a1
    linarith
  linarith

/-! ### the floats -/

section floats

variable {K : Type} [Field K] [LinearOrder K] [IsStrictOrderedRing K] [Fmt K] [LawfulFmt K] [RndErr K]

theorem pow3_le : ((1 + u : K)) ^ 3 - 1 ≤ 4 * u := by
  have hu := u_pos (K := K)
  have hl := u_le (K := K)
  have : u * u ≤ 1 / 64 * (u : K) := by gcongr
  have h3 : u * (u * u) ≤ 1 / 64 * (u * u : K) := by gcongr
  rw [show (1 + u : K) ^ 3 - 1 = 3 * u + 3 * (u * u) + u * (u * u) by ring]
  linarith

omit [LawfulFmt K] [RndErr K] in
theorem dotp_comm (a b : V3 K) : V3.dotp a b = V3.dotp b a := by
  unfold V3.dotp
  rw [Fl.mul_comm' a.val[0], Fl.mul_comm' a.val[1], Fl.mul_comm' a.val[2]]

theorem Ray3.init_facts (φ : K →+* ℝ) (hφ : StrictMono φ) {l l' : List (Fl K)} {s : Ray3 K} {o d : Fin 3 → K} (hl : ListIn l o)
    (hl' : ListIn l' d) (h : Ray3.init l l' = .ok s) (h0 : d ≠ 0) (hn : ∀ i, d i = 0 ∨ nu ≤ d i * d i)
    (hM : ∀ i, 8 * (d i * d i) ≤ omega) :
    s.ori.Holds o ∧ ∃ E, s.dir.Holds E ∧ ∀ i, |φ (E i) - unit (toR φ d) i| ≤ 5 * φ u * |unit (toR φ d) i| + φ eta := by
  obtain ⟨x, y, z, rfl, h0', h1, h2⟩ := hl
  obtain ⟨x', y', z', rfl, g0, g1, g2⟩ := hl'
  have hv : (⟨#v[x', y', z']⟩ : V3 K).Holds d := by
    intro i; fin_cases i
    · exact g0
    · exact g1
    · exact g2
  obtain ⟨m, hm, hfin⟩ := C55_finite _ d hv hn hM
  obtain ⟨w, E, hw, hE, hc, -⟩ := C55_normalize φ hφ _ d hv hn h0 m hm hfin
  cases h
  refine ⟨?_, E, ?_, fun i => ?_⟩
  · intro i; fin_cases i
    · exact h0'
    · exact h1
    · exact h2
  · have e := Option.some.inj hw
    exact e ▸ hE
  · have := hc i
    rw [show unit (toR φ d) i = φ (d i) / euc (fun i => φ (d i)) by
      show (euc (toR φ d))⁻¹ * φ (d i) = _; rw [div_eq_inv_mul]; rfl]
    exact this

variable (φ : K →+* ℝ) (hφ : StrictMono φ)

include hφ

/-- the computed cosine between two approximate unit vectors -/
theorem cos_float {n e : V3 K} {N E : Fin 3 → K} (hn : n.Holds N) (hE : e.Holds E) {m k : R3} (hm : m ⬝ᵥ m = 1) (hk : k ⬝ᵥ k = 1)
    (hN : ∀ i, |φ (N i) - m i| ≤ 5 * φ u * |m i| + φ eta) (hK : ∀ i, |φ (E i) - k i| ≤ 5 * φ u * |k i| + φ eta)
    (he : (eta : K) ≤ 1 / 64) (ho : 64 ≤ (omega : K)) :
    ∃ d, (V3.dotp n e).Holds d ∧ |φ d - m ⬝ᵥ k| ≤ 16 * φ u + 8 * φ eta := by
  obtain ⟨hu, hul, heta⟩ := phi_u φ hφ
  have he' : φ eta ≤ 1 / 64 := by have := hφ.monotone he; rwa [map_div₀, map_one, map_ofNat] at this
  have hN2 := normal_le_two φ hφ hm hN he
  have hE2 := normal_le_two φ hφ hk hK he
  obtain ⟨d, hd, -⟩ : Lim (V3.dotp n e) (4 * (2 * 2 + 1)) := Lim.dot3 ⟨_, hn 0, hN2 0⟩ ⟨_, hn 1, hN2 1⟩ ⟨_, hn 2, hN2 2⟩
    ⟨_, hE 0, hE2 0⟩ ⟨_, hE 1, hE2 1⟩ ⟨_, hE 2, hE2 2⟩ (he.trans (by norm_num)) (by linarith)
  refine ⟨d, hd, cos_real (N := toR φ N) (E := toR φ E) hu hul heta he' hm hk hN hK ?_⟩
  have h := (dot3_appr (hn 0) (hn 1) (hn 2) (hE 0) (hE 1) (hE 2)).err d hd.1
  have h' : |d - (N 0 * E 0 + N 1 * E 1 + N 2 * E 2)| ≤ 4 * u * (|N 0| * |E 0| + |N 1| * |E 1| + |N 2| * |E 2|) + 4 * eta := by
    refine h.trans (add_le_add ?_ ?_)
    · rw [abs_mul, abs_mul, abs_mul]
      exact mul_le_mul_of_nonneg_right pow3_le (by positivity)
    · have hu := u_pos (K := K)
      have hl := u_le (K := K)
      have : (1 + u : K) ^ 2 ≤ (65 / 64) ^ 2 := by gcongr; linarith
      nlinarith [eta_pos (K := K)]
  have := hφ.monotone h'
  rw [map_abs_mono φ hφ] at this
  rw [dotProduct, Fin.sum_univ_three]
  simp only [map_add, map_sub, map_mul, map_ofNat, map_abs_mono φ hφ] at this
  exact this

omit hφ in
/-- margin of the cosine between a direction and a normal -/
noncomputable def cosMargin : ℝ := 16 * φ u + 8 * φ eta

omit hφ [RndErr K] in
theorem kfeq_zero {x : Fl K} {a : K} (h : x.Is a) : Fl.feq x 0 = true ↔ a = 0 := by
  have h0 : (0 : Fl K).Is 0 := rfl
  unfold Fl.feq
  rw [Bool.and_eq_true, h.kle h0, h0.kle h, le_antisymm_iff]

omit hφ in
/-- the sign of a quotient that is not tiny -/
theorem quot_sign {x y : Fl K} {a b c : K} (hx : x.Is a) (hy : y.Is b) (hb : b < 0) (hb' : -2 ≤ b) (h : (x / y).Is c)
    (ha : 4 * (eta : K) ≤ |a|) : (0 < a → c < 0) ∧ (a < 0 → 0 < c) := by
  have he := eta_pos (K := K)
  have hu := u_pos (K := K)
  have hl := u_le (K := K)
  have h1 := Fl.div_err hx hy hb.ne h
  have h2 : 2 * eta ≤ |a / b| := by
    rw [abs_div, le_div_iff₀ (abs_pos.mpr hb.ne), abs_of_neg hb]
    nlinarith
  have h3 : u * |a / b| ≤ 1 / 64 * |a / b| := by gcongr
  obtain ⟨k1, k2⟩ := abs_le.mp h1
  constructor
  · intro h0
    have : a / b < 0 := div_neg_of_pos_of_neg h0 hb
    rw [abs_of_neg this] at *
    linarith
  · intro h0
    have : 0 < a / b := div_pos_of_neg_of_neg h0 hb
    rw [abs_of_pos this] at *
    linarith

/-- C65: a ray constructed from `o` and `d`, a plane from `a` and `n`, all finite and within range.  Let `δ` be the exact cosine
between direction and normal and `S` the exact signed distance of `o` from the plane.  A ray that clearly leaves along the normal
is reported as missing the plane.  A ray that clearly runs against the normal is reported as hitting the plane when `o` is clearly
in front of it and as missing when `o` is clearly behind it. -/
theorem C65_rayPlane {l l' k k' : List (Fl K)} {s : Ray3 K} {t : Plane K} {o d a n : Fin 3 → K}
    (hl : ListIn l o) (hl' : ListIn l' d) (hs : Ray3.init l l' = .ok s) (hk : ListIn k a) (hk' : ListIn k' n)
    (ht : Plane.init k k' = .ok t) (hd0 : d ≠ 0) (hd : ∀ i, d i = 0 ∨ nu ≤ d i * d i) (hd' : ∀ i, 8 * (d i * d i) ≤ omega)
    (hn0 : n ≠ 0) (hn : ∀ i, n i = 0 ∨ nu ≤ n i * n i) (hn' : ∀ i, 8 * (n i * n i) ≤ omega)
    {M : K} (hoM : ∀ i, |o i| ≤ M) (haM : ∀ i, |a i| ≤ M) (he : (eta : K) ≤ 1 / 64) (hM : 64 * (M + 1) ≤ u * omega) :
    (cosMargin φ < unit (toR φ d) ⬝ᵥ unit (toR φ n) → Shape.getIntersect 2 (.ray s) (.plane t) = .ok (false, none)) ∧
    (unit (toR φ d) ⬝ᵥ unit (toR φ n) ≤ -(2 * cosMargin φ) →
      signedDist (toR φ a) (toR φ n) (toR φ o) < -(2 * planeMargin φ M) →
      Shape.getIntersect 2 (.ray s) (.plane t) = .ok (false, none)) ∧
    (unit (toR φ d) ⬝ᵥ unit (toR φ n) ≤ -(2 * cosMargin φ) → 2 * planeMargin φ M < signedDist (toR φ a) (toR φ n) (toR φ o) →
      ∃ loc P, Shape.getIntersect 2 (.ray s) (.plane t) = .ok (true, some loc) ∧ loc.Holds P ∧
        ∃ q ∈ rayPts (toR φ o) (toR φ d) ∩ planePts (toR φ a) (toR φ n), ∀ i, |φ (P i) - q i| ≤
          4 * ((planeMargin φ M + cosMargin φ * euc (q - toR φ o)) / |unit (toR φ d) ⬝ᵥ unit (toR φ n)|)) := by
  obtain ⟨hoff, hb, N, hN, hcN⟩ := Plane.init_facts φ hφ hk hk' ht hn0 hn hn'
  obtain ⟨hori, E, hE, hcE⟩ := Ray3.init_facts φ hφ hl hl' hs hd0 hd hd'
  have hne := unit_of_ne φ hφ hn0
  have hde := unit_of_ne φ hφ hd0
  have hun := unit_of hne
  have hud := unit_of hde
  obtain ⟨hu0, hul, heta⟩ := phi_u φ hφ
  have hu := u_pos (K := K)
  have hul' := u_le (K := K)
  have heta' := eta_pos (K := K)
  have he' : φ eta ≤ 1 / 64 := by have := hφ.monotone he; rwa [map_div₀, map_one, map_ofNat] at this
  have hM0 : 0 ≤ M := (abs_nonneg _).trans (hoM 0)
  have hM' : 0 ≤ φ M := by have := hφ.monotone hM0; rwa [map_zero] at this
  have hom : 64 * (M + 1) ≤ (omega : K) := by
    have : (0 : K) < omega := by have := four_le (K := K); linarith
    nlinarith
  obtain ⟨num, hnum, hnum'⟩ := signed_float φ hφ hN hoff hori hun hcN haM hoM he hom
  obtain ⟨den, hden, hden'⟩ := cos_float φ hφ hN hE hun hud hcN hcE he (by linarith)
  have hov : AABB.overlap (Shape.ray s).aabb (Shape.plane t).aabb = true := by
    rw [AABB.overlap_comm]; show AABB.overlap t.bound _ = true
    rw [hb]; exact default_overlap _
  have hnumL := (dot_diff_lim hN hoff hori (normal_le_two φ hφ hun hcN he) haM hoM (he.trans (by norm_num)) hom).is_le hnum.1
  have hE2 := normal_le_two φ hφ hud hcE he
  rw [getIntersect_eq 0, hov, if_pos rfl]
  show (_ → Ray3.intersectPlane _ _ = _) ∧ (_ → _ → Ray3.intersectPlane _ _ = _) ∧
    (_ → _ → ∃ loc P, Ray3.intersectPlane _ _ = _ ∧ _)
  unfold Ray3.intersectPlane
  simp only [vecAt_plane0, vecAt_plane3, Res.ok_bind, V3.dot_eq, V3.scale_eq, V3.plus_eq, unwrap_some, Res.pure_eq,
    dotp_comm t.offset t.normal]
  rw [dotProduct_comm] at hden'
  unfold signedDist
  have eS : (toR φ o - toR φ a) ⬝ᵥ unit (toR φ n) = -((toR φ a - toR φ o) ⬝ᵥ unit (toR φ n)) := by
    rw [← neg_dotProduct, neg_sub]
  have hδ := abs_dot_le_one hud hun
  set δ := unit (toR φ d) ⬝ᵥ unit (toR φ n) with hδe
  set ν := cosMargin φ with hν
  set μ := planeMargin φ M with hμ
  have hν' : ν = 16 * φ u + 8 * φ eta := rfl
  have hμ' : μ = 40 * φ u * φ M + 8 * (1 + φ M) * φ eta := rfl
  have hν0 : 0 < ν := by rw [hν']; positivity
  have hμe : 8 * φ eta ≤ μ := by rw [hμ']; nlinarith [mul_nonneg hu0.le hM', mul_nonneg hM' heta.le]
  obtain ⟨n1, n2⟩ := abs_le.mp (hμ'.symm ▸ hnum')
  obtain ⟨c1, c2⟩ := abs_le.mp (hν'.symm ▸ hden')
  obtain ⟨δ1, δ2⟩ := abs_le.mp hδ
  have hz : (0 : Fl K).Is 0 := rfl
  -- the direction clearly runs against the normal
  have hneg (h : δ ≤ -(2 * ν)) : den < 0 ∧ -2 ≤ den ∧ 16 * u ≤ -den ∧
      Fl.feq (V3.dotp t.normal s.dir) 0 = false ∧ Fl.lt 0 (V3.dotp t.normal s.dir) = false := by
    have h1 : den < 0 := by rw [← hφ.lt_iff_lt, map_zero]; linarith
    refine ⟨h1, ?_, ?_, ?_, ?_⟩
    · rw [← hφ.le_iff_le, map_neg, map_ofNat]; linarith
    · rw [← hφ.le_iff_le, map_neg, map_mul, map_ofNat]; linarith
    · rw [← Bool.not_eq_true, kfeq_zero hden.1]; exact h1.ne
    · rw [← Bool.not_eq_true, hz.klt hden.1]; exact h1.not_gt
  have hquot (h : δ ≤ -(2 * ν)) : Lim ((V3.dotp t.normal t.offset - V3.dotp t.normal s.ori) / V3.dotp t.normal s.dir) (2 * (M + 1) / u) := by
    obtain ⟨h1, -, h3, -, -⟩ := hneg h
    have hq : |num / den| ≤ 9 / 8 * ((M + 1) / u) := by
      rw [abs_div, abs_of_neg h1, div_le_iff₀ (by linarith)]
      calc |num| ≤ 18 * M + 9 := hnumL
        _ ≤ 18 * (M + 1) := by linarith
        _ = 9 / 8 * ((M + 1) / u) * (16 * u) := by field_simp; ring
        _ ≤ _ := mul_le_mul_of_nonneg_left h3 (by positivity)
    have h64 : 64 ≤ (M + 1) / u := by rw [le_div_iff₀ hu]; linarith
    have hle : 64 * ((M + 1) / u) ≤ omega := by
      rw [← mul_div_assoc, div_le_iff₀ hu]; linarith
    obtain ⟨c, hc⟩ := Fl.div_fin hnum.1 hden.1 h1.ne (by linarith)
    refine ⟨c, ⟨hc, Fl.wf_div _ _⟩, ?_⟩
    have h5 := Fl.div_err hnum.1 hden.1 h1.ne hc
    have h6 := abs_add_le (c - num / den) (num / den)
    rw [sub_add_cancel] at h6
    have h7 : u * |num / den| ≤ 1 / 64 * |num / den| := by gcongr
    rw [mul_div_assoc]
    linarith
  refine ⟨fun h => ?_, fun h h' => ?_, fun h h' => ?_⟩
  · have h1 : 0 < den := by rw [← hφ.lt_iff_lt, map_zero]; linarith
    have h2 : Fl.feq (V3.dotp t.normal s.dir) 0 = false := by
      rw [← Bool.not_eq_true, kfeq_zero hden.1]; exact h1.ne'
    rw [h2, (hz.klt hden.1).mpr h1]; rfl
  · obtain ⟨h1, h2, h3, h4, h5⟩ := hneg h
    obtain ⟨c, hc, -⟩ := hquot h
    have hp : 0 < num := by rw [← hφ.lt_iff_lt, map_zero]; linarith
    have hsg := (quot_sign hnum.1 hden.1 h1 h2 hc.1 (by
      rw [abs_of_pos hp, ← hφ.le_iff_le, map_mul, map_ofNat]; linarith)).1 hp
    rw [h4, h5, (hc.1.klt hz).mpr hsg]; rfl
  · obtain ⟨h1, h2, h3, h4, h5⟩ := hneg h
    obtain ⟨c, hc, hcL⟩ := hquot h
    have hp : num < 0 := by rw [← hφ.lt_iff_lt, map_zero]; linarith
    have hsg := (quot_sign hnum.1 hden.1 h1 h2 hc.1 (by
      rw [abs_of_neg hp, ← hφ.le_iff_le, map_mul, map_neg, map_ofNat]; linarith)).2 hp
    have hlt : Fl.lt ((V3.dotp t.normal t.offset - V3.dotp t.normal s.ori) / V3.dotp t.normal s.dir) 0 = false := by
      rw [← Bool.not_eq_true, hc.1.klt hz]; exact hsg.not_gt
    rw [h4, h5, hlt]
    set S := (toR φ o - toR φ a) ⬝ᵥ unit (toR φ n) with hS
    have hD0 : 0 < -δ := by linarith
    have hS0 : 0 ≤ S := by linarith
    have hT : 0 ≤ S / -δ := div_nonneg hS0 hD0.le
    obtain ⟨hQ, -⟩ := quot_real (s := -φ num) (d := -φ den) (S := S) (D := -δ) (μ := μ) (ν := ν) hS0 hν0 (by linarith)
      (by rw [eS, abs_sub_comm]; rw [show -((toR φ a - toR φ o) ⬝ᵥ unit (toR φ n)) - -φ num =
            φ num - (toR φ a - toR φ o) ⬝ᵥ unit (toR φ n) by ring]; exact hnum')
      (by rw [abs_sub_comm, show -δ - -φ den = φ den - δ by ring]; exact hden')
    rw [neg_div_neg_eq] at hQ
    set T := S / -δ with hTe
    have hW : μ + ν * T ≤ (μ + ν * T) / -δ := by
      rw [le_div_iff₀ hD0]
      have : 0 ≤ μ + ν * T := by have := mul_nonneg hν0.le hT; linarith
      nlinarith
    have hνT : ν * T = 16 * (φ u * T) + 8 * (φ eta * T) := by rw [hν']; ring
    have huT := mul_nonneg hu0.le hT
    have heT := mul_nonneg heta.le hT
    have huM := mul_nonneg hu0.le hM'
    have heM := mul_nonneg hM' heta.le
    have key (i : Fin 3) : ∃ P, (s.dir.val[i] * ((V3.dotp t.normal t.offset - V3.dotp t.normal s.ori) / V3.dotp t.normal s.dir) +
        s.ori.val[i]).Holds P ∧ |φ P - (toR φ o i + T * unit (toR φ d) i)| ≤ 4 * ((μ + ν * T) / -δ) := by
      have h64 : 64 * (M + 1) ≤ (M + 1) / u := by rw [le_div_iff₀ hu]; nlinarith
      have hle : 64 * ((M + 1) / u) ≤ omega := by
        rw [← mul_div_assoc, div_le_iff₀ hu]; linarith
      have lm : Lim (s.dir.val[i] * ((V3.dotp t.normal t.offset - V3.dotp t.normal s.ori) / V3.dotp t.normal s.dir)) _ :=
        Lim.mul ⟨_, hE i, hE2 i⟩ (hquot h) (by rw [mul_div_assoc]; linarith)
      obtain ⟨g, hg, -⟩ := id lm
      obtain ⟨P, hP, -⟩ := Lim.add lm ⟨_, hori i, hoM i⟩ (by rw [mul_div_assoc]; linarith)
      refine ⟨P, hP, ?_⟩
      have e0 := hφ.monotone (Fl.div_err hnum.1 hden.1 h1.ne hc.1)
      have e1 := hφ.monotone (Fl.mul_err (hE i).1 hc.1 hg.1)
      have e2 := hφ.monotone (Fl.add_err hg.1 (hori i).1 hg.2 (hori i).2 hP.1)
      simp only [map_add, map_sub, map_mul, map_div₀, map_abs_mono φ hφ] at e0 e1 e2
      exact along_real hu0 hul heta he' hT (unit_abs_le hud i) (hcE i) (phi_le φ hφ (hoM i)) (by linarith) (by linarith)
        (by linarith) (by linarith) hQ e0 e1 e2
    obtain ⟨P0, p0, q0⟩ := key 0
    obtain ⟨P1, p1, q1⟩ := key 1
    obtain ⟨P2, p2, q2⟩ := key 2
    refine ⟨_, ![P0, P1, P2], rfl, ?_, toR φ o + T • unit (toR φ d), ⟨(rayPts_unit hde).mpr ⟨T, hT, rfl⟩, ?_⟩, fun i => ?_⟩
    · intro i; fin_cases i
      · exact p0
      · exact p1
      · exact p2
    · rw [mem_plane_iff hne, hTe, ← hδe]
      have : δ ≠ 0 := by linarith
      have eS' : (toR φ a - toR φ o) ⬝ᵥ unit (toR φ n) = -S := by rw [eS, neg_neg]
      rw [eS']; field_simp
    · have eu : euc (toR φ o + T • unit (toR φ d) - toR φ o) = T := by
        rw [add_sub_cancel_left, euc_smul, abs_of_nonneg hT, euc_unit hde, mul_one]
      rw [eu, abs_of_neg (by linarith : δ < 0)]
      fin_cases i
      · exact q0
      · exact q1
      · exact q2

/-- concrete case -/
example := C65_rayPlane BinQ.real BinQ.real_strictMono listA listB rfl listB listA rfl B405_ne B405_lo B405_hi A123_ne A123_lo A123_hi
  (M := 5) A123_five B405_five eta_tiny (by linarith [u_omega_big])

end floats

/-! ### binary64 -/

theorem f64_cosMargin : cosMargin (K := Q64) BinQ.real ≤ 2 ^ (-48 : ℤ) := by
  obtain ⟨cu, ce, -⟩ := C55_constants
  have e : (u : Q64).real = 2 ^ (-53 : ℤ) := by
    rw [cu]; show (((2 : ℚ) ^ (-53 : ℤ) : ℚ) : ℝ) = _; push_cast; rfl
  have e' : (eta : Q64).real = 2 ^ (-1075 : ℤ) := by
    rw [ce]; exact (Rat.cast_zpow 2 (-1075)).trans (by rw [Rat.cast_ofNat])
  show 16 * (u : Q64).real + 8 * (eta : Q64).real ≤ _
  rw [e, e', show (-48 : ℤ) = 5 + -53 by norm_num, zpow_add₀ (by norm_num)]
  have h1 : (2 : ℝ) ^ (-1075 : ℤ) ≤ 2 ^ (-53 : ℤ) := zpow_le_zpow_right₀ (by norm_num) (by norm_num)
  have h3 : (0 : ℝ) < 2 ^ (-53 : ℤ) := by positivity
  generalize (2 : ℝ) ^ (-1075 : ℤ) = a at *
  generalize (2 : ℝ) ^ (-53 : ℤ) = b at *
  norm_num
  linarith

theorem f64_omega' {M : Q64} (hM : M ≤ ((2 : ℚ) ^ (960 : ℤ) : ℚ)) : 64 * (M + 1) ≤ (u * omega : Q64) := by
  obtain ⟨cu, -, -, co, -⟩ := C55_constants
  rw [co, cu]
  have key (m : ℚ) (h : m ≤ 2 ^ (960 : ℤ)) : 64 * (m + 1) ≤ (2 : ℚ) ^ (-53 : ℤ) * (2 : ℚ) ^ (1023 : ℤ) := by
    have h1 : (1 : ℚ) ≤ 2 ^ (960 : ℤ) := one_le_zpow₀ (by norm_num) (by norm_num)
    have e : ((2 : ℚ) ^ (-53 : ℤ) * (2 : ℚ) ^ (1023 : ℤ) : ℚ) = 2 ^ (10 : ℤ) * 2 ^ (960 : ℤ) := by
      rw [← zpow_add₀ (by norm_num), ← zpow_add₀ (by norm_num)]; norm_num
    rw [e]
    clear e hM
    generalize (2 : ℚ) ^ (960 : ℤ) = a at *
    norm_num
    nlinarith
  exact key M hM

/-- C65 for `f64`: components of direction and normal `0` or between `2^-511` and `2^510`, coordinates up to `M ≤ 2^960`; the margin
of the cosine is `2^-48` and that of the distance `2^-47 M + 2^-1072`. -/
theorem C65_rayPlane_f64 {l l' k k' : List (Fl Q64)} {s : Ray3 Q64} {t : Plane Q64} {o d a n : Fin 3 → Q64}
    (hl : ListIn l o) (hl' : ListIn l' d) (hs : Ray3.init l l' = .ok s) (hk : ListIn k a) (hk' : ListIn k' n)
    (ht : Plane.init k k' = .ok t) (hd0 : d ≠ 0) (hd : ∀ i, d i = 0 ∨ ((2 : ℚ) ^ (-511 : ℤ) : ℚ) ≤ |d i|)
    (hd' : ∀ i, |d i| ≤ ((2 : ℚ) ^ (510 : ℤ) : ℚ)) (hn0 : n ≠ 0) (hn : ∀ i, n i = 0 ∨ ((2 : ℚ) ^ (-511 : ℤ) : ℚ) ≤ |n i|)
    (hn' : ∀ i, |n i| ≤ ((2 : ℚ) ^ (510 : ℤ) : ℚ))
    {M : Q64} (hoM : ∀ i, |o i| ≤ M) (haM : ∀ i, |a i| ≤ M) (hM : M ≤ ((2 : ℚ) ^ (960 : ℤ) : ℚ)) :
    (2 ^ (-48 : ℤ) < unit (toR BinQ.real d) ⬝ᵥ unit (toR BinQ.real n) →
      Shape.getIntersect 2 (.ray s) (.plane t) = .ok (false, none)) ∧
    (unit (toR BinQ.real d) ⬝ᵥ unit (toR BinQ.real n) ≤ -(2 * 2 ^ (-48 : ℤ)) →
      signedDist (toR BinQ.real a) (toR BinQ.real n) (toR BinQ.real o) < -(2 * (2 ^ (-47 : ℤ) * M.real + 2 ^ (-1072 : ℤ))) →
      Shape.getIntersect 2 (.ray s) (.plane t) = .ok (false, none)) ∧
    (unit (toR BinQ.real d) ⬝ᵥ unit (toR BinQ.real n) ≤ -(2 * 2 ^ (-48 : ℤ)) →
      2 * (2 ^ (-47 : ℤ) * M.real + 2 ^ (-1072 : ℤ)) < signedDist (toR BinQ.real a) (toR BinQ.real n) (toR BinQ.real o) →
      ∃ loc P, Shape.getIntersect 2 (.ray s) (.plane t) = .ok (true, some loc) ∧ loc.Holds P ∧
        ∃ q ∈ rayPts (toR BinQ.real o) (toR BinQ.real d) ∩ planePts (toR BinQ.real a) (toR BinQ.real n), ∀ i, |(P i).real - q i| ≤
          4 * ((2 ^ (-47 : ℤ) * M.real + 2 ^ (-1072 : ℤ) + 2 ^ (-48 : ℤ) * euc (q - toR BinQ.real o)) /
            |unit (toR BinQ.real d) ⬝ᵥ unit (toR BinQ.real n)|)) := by
  obtain ⟨r1, r2, r3⟩ := f64_range hn hn'
  obtain ⟨s1, s2, -⟩ := f64_range hd hd'
  have hm := f64_planeMargin M ((abs_nonneg _).trans (hoM 0))
  have hc := f64_cosMargin
  obtain ⟨h1, h2, h3⟩ := C65_rayPlane BinQ.real BinQ.real_strictMono hl hl' hs hk hk' ht hd0 s1 s2 hn0 r1 r2 hoM haM r3
    (f64_omega' hM)
  refine ⟨fun h => h1 (hc.trans_lt h), fun h h' => h2 (by linarith) (by linarith), fun h h' => ?_⟩
  obtain ⟨loc, P, e, hP, q, hq, hb⟩ := h3 (by linarith) (by linarith)
  refine ⟨loc, P, e, hP, q, hq, fun i => (hb i).trans ?_⟩
  have := euc_nonneg (q - toR BinQ.real o)
  gcongr

/-- concrete case -/
example := C65_rayPlane_f64 listA listB rfl listB listA rfl B405_ne (B405_lo64 (by norm_num)) (B405_hi64 (by norm_num)) A123_ne
  (A123_lo64 (by norm_num)) (A123_hi64 (by norm_num)) (M := 5) A123_five B405_five (five_le (by norm_num))

/-- C65, non-vacuity: `(1,1,1)` is a normal whose unit vector is not representable; hit, miss behind, miss along the normal. -/
example : ∃ (s s' s'' : Ray3 Q64) (t : Plane Q64), Ray3.init [.fin 1, .fin 3, .fin 2] [.fin (-1), .fin (-1), .fin (-1)] = .ok s ∧
    Ray3.init [.fin (-1), .fin (-3), .fin (-2)] [.fin (-1), .fin (-1), .fin (-1)] = .ok s' ∧
    Ray3.init [.fin (-1), .fin (-3), .fin (-2)] [1, 1, 1] = .ok s'' ∧ Plane.init [0, 0, 0] [1, 1, 1] = .ok t ∧
    Shape.getIntersect 2 (.ray s) (.plane t) = .ok (true, some ⟨#v[.fin (-1), .fin 1, 0]⟩) ∧
    Shape.getIntersect 2 (.ray s') (.plane t) = .ok (false, none) ∧
    Shape.getIntersect 2 (.ray s'') (.plane t) = .ok (false, none) :=
  ⟨_, _, _, _, rfl, rfl, rfl, rfl, by decide +kernel, by decide +kernel, by decide +kernel⟩

/-- C65, the hypotheses hold: that ray against that plane. -/
example : (2 : ℝ) * (2 ^ (-47 : ℤ) * 3 + 2 ^ (-1072 : ℤ)) < signedDist ![0, 0, 0] ![1, 1, 1] ![1, 3, 2] ∧
    unit ![-1, -1, -1] ⬝ᵥ unit ![1, 1, 1] ≤ -(2 * (2 : ℝ) ^ (-48 : ℤ)) := by
  have h3 : euc ![(1 : ℝ), 1, 1] ^ 2 = 3 := by rw [sq, euc_sq]; simp [dotProduct, Fin.sum_univ_three]; norm_num
  have h3' : euc ![(-1 : ℝ), -1, -1] ^ 2 = 3 := by rw [sq, euc_sq]; simp [dotProduct, Fin.sum_univ_three]; norm_num
  have h4 := euc_nonneg ![(1 : ℝ), 1, 1]
  have h4' := euc_nonneg ![(-1 : ℝ), -1, -1]
  have e : euc ![(-1 : ℝ), -1, -1] = euc ![(1 : ℝ), 1, 1] := by rw [← abs_of_nonneg h4, ← abs_of_nonneg h4', ← sq_eq_sq_iff_abs_eq_abs, h3, h3']
  have k1 : ((2 : ℝ) ^ (-47 : ℤ)) ≤ 2 ^ (-10 : ℤ) := zpow_le_zpow_right₀ (by norm_num) (by norm_num)
  have k2 : ((2 : ℝ) ^ (-1072 : ℤ)) ≤ 2 ^ (-10 : ℤ) := zpow_le_zpow_right₀ (by norm_num) (by norm_num)
  have k3 : ((2 : ℝ) ^ (-48 : ℤ)) ≤ 2 ^ (-10 : ℤ) := zpow_le_zpow_right₀ (by norm_num) (by norm_num)
  generalize (2 : ℝ) ^ (-1072 : ℤ) = a at *
  generalize (2 : ℝ) ^ (-47 : ℤ) = b at *
  generalize (2 : ℝ) ^ (-48 : ℤ) = c at *
  norm_num at k1 k2 k3
  constructor
  · have e1 : signedDist ![0, 0, 0] ![1, 1, 1] ![1, 3, 2] = 6 * (euc ![(1 : ℝ), 1, 1])⁻¹ := by
      unfold signedDist; rw [dotProduct_smul, smul_eq_mul, mul_comm]; congr 1; simp [dotProduct, Fin.sum_univ_three]; norm_num
    rw [e1]
    have : 1 / 2 < (euc ![(1 : ℝ), 1, 1])⁻¹ := by rw [one_div, inv_lt_inv₀ (by norm_num) (by nlinarith)]; nlinarith
    linarith
  · rw [dotProduct_smul, smul_dotProduct, e, smul_eq_mul, smul_eq_mul, ← mul_assoc, ← mul_inv, ← sq, h3]
    simp [dotProduct, Fin.sum_univ_three]
    linarith

/-- C65: the margin is needed on both sides.  The plane passes through the origin with normal `(1,1,1)`, both rays run against that
normal.  The first starts exactly on the plane and is reported as missing it; the second starts behind the plane at distance
`1/√3`, never meets it and is reported as hitting it. -/
theorem C65_exact_false : ∃ (s s' : Ray3 Q64) (t : Plane Q64) (loc : V3 Q64),
    Ray3.init [.fin 1099511627777, .fin 2199023255555, .fin (-3298534883332)] [.fin (-1), .fin (-1), .fin (-1)] = .ok s ∧
    Ray3.init [.fin (-1152921504606846976), .fin (-1), .fin 1152921504606846976] [.fin (-1), .fin (-1), .fin (-1)] = .ok s' ∧
    Plane.init [0, 0, 0] [1, 1, 1] = .ok t ∧
    (rayPts ![1099511627777, 2199023255555, -3298534883332] ![-1, -1, -1] ∩ planePts ![0, 0, 0] ![1, 1, 1]).Nonempty ∧
    Shape.getIntersect 2 (.ray s) (.plane t) = .ok (false, none) ∧
    (rayPts ![-1152921504606846976, -1, 1152921504606846976] ![-1, -1, -1] ∩ planePts ![0, 0, 0] ![1, 1, 1]) = ∅ ∧
    Shape.getIntersect 2 (.ray s') (.plane t) = .ok (true, some loc) := by
  refine ⟨_, _, _, ⟨#v[.fin (-1152921504606846976), .fin (-1), .fin 1152921504606846976]⟩, rfl, rfl, rfl,
    ⟨_, ⟨0, le_rfl, rfl⟩, ?_⟩, by decide +kernel, ?_, by decide +kernel⟩
  · show (_ - _) ⬝ᵥ _ = 0
    simp [dotProduct, Fin.sum_univ_three]
    norm_num
  · ext q
    simp only [Set.mem_inter_iff, Set.mem_empty_iff_false, iff_false, not_and]
    rintro ⟨τ, hτ, rfl⟩ (h : (_ - _) ⬝ᵥ _ = 0)
    simp [dotProduct, Fin.sum_univ_three] at h
    linarith

end Mazth
