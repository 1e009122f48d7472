import Verif.Proofs.Grid
import Verif.Props.Gjk
import Verif.Props.FloatSupport
import Verif.Props.FloatRayRay

/-!
# C82: the GJK query on two spheres in binary64
-/

set_option linter.unusedSectionVars false
set_option autoImplicit false

namespace Mazth

open Matrix Gjk RndErr

section generic
variable {K : Type} [Field K] [LinearOrder K] [IsStrictOrderedRing K] [Fmt K] [LawfulFmt K] [RndErr K]
variable (φ : K →+* ℝ) (hφ : StrictMono φ)

/-- the support point of a sphere, as computed -/
theorem sphere_getSupport_eq (s : Sphere K) {v : V3 K} (h : magnitudeNonzero v = true) :
    (Shape.sphere s).getSupport v = .ok (some (V3.add s.ori (V3.scl (V3.nrm v) s.radius))) := by
  show Sphere.getSupport s v = _
  unfold Sphere.getSupport
  rw [h]
  simp [V3.normalize_eq, V3.scale_eq, V3.plus_eq]

theorem norm1_le_euc (v : Fin 3 → K) (hφ : StrictMono φ) : φ (norm1 v) ≤ 7 / 4 * euc (toR φ v) := by
  unfold norm1
  rw [map_add, map_add, map_abs_mono φ hφ, map_abs_mono φ hφ, map_abs_mono φ hφ]
  have h := euc_sq (toR φ v)
  simp only [dotProduct, Fin.sum_univ_three] at h
  have e := euc_nonneg (toR φ v)
  have e0 : toR φ v 0 = φ (v 0) := rfl
  have e1 : toR φ v 1 = φ (v 1) := rfl
  have e2 : toR φ v 2 = φ (v 2) := rfl
  rw [e0, e1, e2] at h
  have a0 := abs_mul_abs_self (φ (v 0))
  have a1 := abs_mul_abs_self (φ (v 1))
  have a2 := abs_mul_abs_self (φ (v 2))
  refine abs_le_of_sq_le_sq' ?_ (by positivity) |>.2
  nlinarith [sq_nonneg (|φ (v 0)| - |φ (v 1)|), sq_nonneg (|φ (v 0)| - |φ (v 2)|), sq_nonneg (|φ (v 1)| - |φ (v 2)|)]

variable {c1 c2 : Fin 3 → K} {r1 r2 M : K} {l1 l2 : List (Fl K)} {x1 x2 : Fl K} {s t : Sphere K}

include hφ in
/-- the computed support point of the Minkowski difference of two spheres -/
theorem support_float (hl1 : ListIn l1 c1) (hx1 : x1.Holds r1) (hs : Sphere.init l1 x1 = .ok s) (hl2 : ListIn l2 c2) (hx2 : x2.Holds r2)
    (ht : Sphere.init l2 x2 = .ok t) {d : V3 K} {D : Fin 3 → K} (hd : d.Holds D) (hd' : (V3.scl d (-1)).Holds (-D))
    (hn : ∀ i, D i = 0 ∨ nu ≤ D i * D i) (hD : ∀ i, 8 * (D i * D i) ≤ omega) (h0 : D ≠ 0)
    (hc1 : ∀ i, |c1 i| ≤ M) (hc2 : ∀ i, |c2 i| ≤ M) (hr1 : |r1| ≤ M) (hr2 : |r2| ≤ M) (he : (eta : K) ≤ 1 / 64)
    (heM : 2 * (1 + M) * eta ≤ u * M) (ho : 8 * (M + 1) ≤ omega) :
    ∃ p P, support (.sphere s) (.sphere t) d = .ok (some p) ∧ p.Holds P ∧
      p = V3.sub (V3.add s.ori (V3.scl (V3.nrm d) s.radius)) (V3.add t.ori (V3.scl (V3.nrm (V3.scl d (-1))) t.radius)) ∧
      (∀ i, |φ (P i) - (φ (c1 i) - φ (c2 i) + (φ r1 + φ r2) * (φ (D i) / euc (toR φ D)))| ≤ 40 * (φ u * φ M)) ∧
      ∀ i, |P i| ≤ 5 * M := by
  have hM0 : 0 ≤ M := (abs_nonneg _).trans hr1
  have hn' : ∀ i, (-D) i = 0 ∨ nu ≤ (-D) i * (-D) i := fun i => by simpa using hn i
  have hD' : ∀ i, 8 * ((-D) i * (-D) i) ≤ omega := fun i => by simpa using hD i
  have h0' : -D ≠ 0 := neg_ne_zero.mpr h0
  obtain ⟨p, P, ep, hp, hP, -⟩ := C77_sphere φ hφ hl1 hx1 hs hd hn hD h0 hc1 he (by linarith)
  obtain ⟨q, Q, eq, hq, hQ, -⟩ := C77_sphere φ hφ hl2 hx2 ht hd' hn' hD' h0' hc2 he (by linarith)
  have e1 := sphere_getSupport_eq s (magnitudeNonzero_float φ hφ hd hn hD h0)
  have e2 := sphere_getSupport_eq t (magnitudeNonzero_float φ hφ hd' hn' hD' h0')
  have ep' : p = _ := Option.some.inj (Except.ok.inj (ep.symm.trans e1))
  have eq' : q = _ := Option.some.inj (Except.ok.inj (eq.symm.trans e2))
  obtain ⟨hu0, hul, heta⟩ := phi_u φ hφ
  have hφM : 0 ≤ φ M := by have := hφ.monotone hM0; rwa [map_zero] at this
  have hneg : toR φ (-D) = -toR φ D := by funext i; exact map_neg φ _
  have hE : euc (toR φ (-D)) = euc (toR φ D) := by
    rw [hneg, ← neg_one_smul ℝ, euc_smul]; simp
  have hEpos : 0 < euc (toR φ D) := by
    refine euc_pos fun h => h0 ?_
    funext i
    exact hφ.injective ((congrFun h i).trans (map_zero φ).symm)
  have hu1 (i : Fin 3) : |φ (D i) / euc (toR φ D)| ≤ 1 := by
    rw [abs_div, abs_of_pos hEpos, div_le_one hEpos]; exact euc_coord (toR φ D) i
  have bnd {c r : K} (hc : |c| ≤ M) (hr : |r| ≤ M) : φ (8 * u * (|c| + |r|) + 2 * (1 + |r|) * eta) ≤ 17 * (φ u * φ M) := by
    have h1 : 8 * u * (|c| + |r|) + 2 * (1 + |r|) * eta ≤ 17 * (u * M) := by
      have a1 := mul_le_mul_of_nonneg_left (add_le_add hc hr) (u_pos (K := K)).le
      have a2 := mul_le_mul_of_nonneg_right hr (eta_pos (K := K)).le
      linarith
    have := hφ.monotone h1
    rwa [map_mul φ 17, map_mul φ u M, map_ofNat] at this
  have hr1' : |φ r1| ≤ φ M := by rw [← map_abs_mono φ hφ]; exact hφ.monotone hr1
  have hr2' : |φ r2| ≤ φ M := by rw [← map_abs_mono φ hφ]; exact hφ.monotone hr2
  have hc1' (i : Fin 3) : |φ (c1 i)| ≤ φ M := by rw [← map_abs_mono φ hφ]; exact hφ.monotone (hc1 i)
  have hc2' (i : Fin 3) : |φ (c2 i)| ≤ φ M := by rw [← map_abs_mono φ hφ]; exact hφ.monotone (hc2 i)
  have hP' (i : Fin 3) : |φ (P i) - (φ (c1 i) + φ r1 * (φ (D i) / euc (toR φ D)))| ≤ 17 * (φ u * φ M) := (hP i).trans (bnd (hc1 i) hr1)
  have hQ' (i : Fin 3) : |φ (Q i) - (φ (c2 i) - φ r2 * (φ (D i) / euc (toR φ D)))| ≤ 17 * (φ u * φ M) := by
    have := (hQ i).trans (bnd (hc2 i) hr2)
    rw [hE, show (-D) i = -(D i) from rfl, map_neg] at this
    rwa [sub_eq_add_neg (φ (c2 i)), ← mul_neg, ← neg_div]
  have m1 (i : Fin 3) {r : K} (hr : |φ r| ≤ φ M) : |φ r * (φ (D i) / euc (toR φ D))| ≤ φ M := by
    rw [abs_mul]
    exact (mul_le_mul hr (hu1 i) (abs_nonneg _) hφM).trans (by rw [mul_one])
  have um : φ u * φ M ≤ 1 / 64 * φ M := mul_le_mul_of_nonneg_right hul hφM
  have kP (i : Fin 3) : |φ (P i)| ≤ 73 / 32 * φ M := by
    have h1 := abs_sub_abs_le_abs_sub (φ (P i)) (φ (c1 i) + φ r1 * (φ (D i) / euc (toR φ D)))
    have h2 := abs_add_le (φ (c1 i)) (φ r1 * (φ (D i) / euc (toR φ D)))
    linarith [hP' i, hc1' i, m1 i hr1']
  have kQ (i : Fin 3) : |φ (Q i)| ≤ 73 / 32 * φ M := by
    have h1 := abs_sub_abs_le_abs_sub (φ (Q i)) (φ (c2 i) - φ r2 * (φ (D i) / euc (toR φ D)))
    have h2 := abs_sub (φ (c2 i)) (φ r2 * (φ (D i) / euc (toR φ D)))
    linarith [hQ' i, hc2' i, m1 i hr2']
  have back {a : K} (h : |φ a| ≤ 73 / 32 * φ M) : |a| ≤ 73 / 32 * M := by
    rw [← hφ.le_iff_le, map_abs_mono φ hφ, map_mul, map_div₀, map_ofNat, map_ofNat]; exact h
  obtain ⟨R, hR, bR, eR⟩ := sub_float hp hq (fun i => back (kP i)) (fun i => back (kQ i)) (by linarith)
  refine ⟨V3.sub p q, R, ?_, hR, by rw [ep', eq'], fun i => ?_, fun i => (bR i).trans (by linarith)⟩
  · unfold support
    rw [ep, Res.ok_bind]
    simp only [V3.scale_eq, unwrap_some, Res.ok_bind]
    rw [eq, Res.ok_bind]
    simp only [V3.minus_eq, unwrap_some, Res.ok_bind]
  · have h1 := hφ.monotone (eR i)
    rw [map_abs_mono φ hφ, map_mul, map_mul, map_mul, map_div₀, map_sub, map_sub, map_ofNat, map_ofNat, map_ofNat] at h1
    have h2 := hP' i
    have h3 := hQ' i
    rw [abs_le] at h1 h2 h3 ⊢
    constructor <;> linarith [h1.1, h1.2, h2.1, h2.2, h3.1, h3.2]

include hφ in
/-- if the computed inner product of the support point with the direction is not positive, the spheres are apart up to rounding -/
theorem margin_float {p d : V3 K} {P D : Fin 3 → K} (hp : p.Holds P) (hd : d.Holds D) (h0 : D ≠ 0) (hM0 : 0 ≤ M)
    (hP : ∀ i, |φ (P i) - (φ (c1 i) - φ (c2 i) + (φ r1 + φ r2) * (φ (D i) / euc (toR φ D)))| ≤ 40 * (φ u * φ M))
    (hR : ∀ i, |P i| ≤ 5 * M) (he : 8 * eta ≤ u * M * norm1 D) {x : K} (hx : (V3.dotp p d).Is x) (hle : x ≤ 0) :
    φ r1 + φ r2 - 128 * φ u * φ M ≤ euc (toR φ c1 - toR φ c2) := by
  obtain ⟨hu0, hul, heta⟩ := phi_u φ hφ
  have hφM : 0 ≤ φ M := by have := hφ.monotone hM0; rwa [map_zero] at this
  have hEpos : 0 < euc (toR φ D) := by
    refine euc_pos fun h => h0 ?_
    funext i
    exact hφ.injective ((congrFun h i).trans (map_zero φ).symm)
  set E := euc (toR φ D) with hE
  have hN := norm1_le_euc φ D hφ
  have hN0 : 0 ≤ φ (norm1 D) := by have := hφ.monotone (norm1_nonneg D); rwa [map_zero] at this
  have h1 : P ⬝ᵥ D ≤ 18 * (u * M) * norm1 D := by
    have := (abs_le.mp (dotp_err hp hd hR hx)).1
    nlinarith
  have h1' := hφ.monotone h1
  have e1 : φ (P ⬝ᵥ D) = φ (P 0) * φ (D 0) + φ (P 1) * φ (D 1) + φ (P 2) * φ (D 2) := by
    simp [dotProduct, Fin.sum_univ_three]
  rw [e1, map_mul, map_mul, map_mul, map_ofNat] at h1'
  have key (i : Fin 3) : (φ (c1 i) - φ (c2 i)) * φ (D i) + (φ r1 + φ r2) * (φ (D i) * φ (D i)) / E - 40 * (φ u * φ M) * |φ (D i)| ≤
      φ (P i) * φ (D i) := by
    have h2 := mul_le_mul_of_nonneg_right (hP i) (abs_nonneg (φ (D i)))
    rw [← abs_mul] at h2
    have h3 := (abs_le.mp h2).1
    have : (φ (P i) - (φ (c1 i) - φ (c2 i) + (φ r1 + φ r2) * (φ (D i) / E))) * φ (D i) =
      φ (P i) * φ (D i) - ((φ (c1 i) - φ (c2 i)) * φ (D i) + (φ r1 + φ r2) * (φ (D i) * φ (D i)) / E) := by ring
    rw [this] at h3
    linarith
  have k0 := key 0
  have k1 := key 1
  have k2 := key 2
  have hsq := euc_sq (toR φ D)
  rw [← hE] at hsq
  simp only [dotProduct, Fin.sum_univ_three] at hsq
  have d0 : toR φ D 0 = φ (D 0) := rfl
  have d1 : toR φ D 1 = φ (D 1) := rfl
  have d2 : toR φ D 2 = φ (D 2) := rfl
  rw [d0, d1, d2] at hsq
  have hs : (φ r1 + φ r2) * (φ (D 0) * φ (D 0)) / E + (φ r1 + φ r2) * (φ (D 1) * φ (D 1)) / E + (φ r1 + φ r2) * (φ (D 2) * φ (D 2)) / E
      = (φ r1 + φ r2) * E := by
    field_simp
    linear_combination (-(φ r1 + φ r2)) * hsq
  have hn1 : φ (norm1 D) = |φ (D 0)| + |φ (D 1)| + |φ (D 2)| := by
    unfold norm1; rw [map_add, map_add, map_abs_mono φ hφ, map_abs_mono φ hφ, map_abs_mono φ hφ]
  have hcs := (abs_le.mp (abs_dot_le (toR φ c1 - toR φ c2) (toR φ D))).1
  rw [← hE] at hcs
  have hcd : (toR φ c1 - toR φ c2) ⬝ᵥ toR φ D = (φ (c1 0) - φ (c2 0)) * φ (D 0) + (φ (c1 1) - φ (c2 1)) * φ (D 1)
      + (φ (c1 2) - φ (c2 2)) * φ (D 2) := by
    simp [dotProduct, Fin.sum_univ_three, toR]
  rw [hcd] at hcs
  have uM0 : 0 ≤ φ u * φ M := mul_nonneg hu0.le hφM
  have t1 := mul_le_mul_of_nonneg_left hN uM0
  rw [hn1] at t1 h1'
  have tot : (φ r1 + φ r2 - 128 * φ u * φ M) * E ≤ euc (toR φ c1 - toR φ c2) * E := by
    nlinarith [mul_nonneg uM0 hEpos.le]
  exact le_of_mul_le_mul_right tot hEpos

end generic

section grid
open Bin

/-- `2^a = 2 · 2^(a-1)` -/
theorem pow2_half {a b : ℤ} (h : b + 1 = a) : pow2 a = 2 * pow2 b := by
  rw [← h, add_comm, pow2_add, pow2_one]

theorem pow2_prod {a b c : ℤ} (h : a + b = c) : pow2 a * pow2 b = pow2 c := by rw [← h, pow2_add]

/-- a sum of a multiple of `2^-83` and a value that is not small whenever the first term is zero -/
theorem Gr.one_side {a b : ℚ} (ha : Gr (-83) a) (hb : Fl.Rep (K := Q64) b) (h : a = 0 → b = 0 ∨ pow2 (-93) ≤ |b|) :
    Gr (-146) (rndQ 53 (-1074) (a + b)) := by
  rcases le_or_gt (pow2 (-94)) |b| with h1 | h1
  · exact ((ha.mono (by norm_num)).add (Gr.of_rep (p := 53) (emin := -1074) (emax := 1024) hb h1)).rnd
  · rcases ha.lower with h2 | h2
    · rcases h h2 with h3 | h3
      · rw [h2, h3, add_zero, rndQ_zero]; exact Gr.zero _
      · have := pow2_half (a := -93) (b := -94) (by norm_num)
        have := pow2_pos (-94)
        linarith
    · refine (Gr.rnd_big (k := -84) ?_).mono (by norm_num)
      have e1 := pow2_half (a := -83) (b := -84) (by norm_num)
      have e2 : pow2 (-94) ≤ pow2 (-84) := pow2_le.mpr (by norm_num)
      have h3 := abs_sub_abs_le_abs_sub a (-b)
      rw [abs_neg, sub_neg_eq_add] at h3
      linarith

/-- a product that cancels a coordinate bounds the component of the direction from below, and hence the other product -/
theorem other_big {y N r N' r' y' : ℚ} (hy : y = rndQ 53 (-1074) (N * r)) (hy' : y' = rndQ 53 (-1074) (N' * r'))
    (h : pow2 (-30) ≤ |y|) (hr : |r| ≤ pow2 30) (hr' : r' = 0 ∨ pow2 (-30) ≤ |r'|) (hN : pow2 (-61) ≤ |N| → |N| ≤ 2 * |N'|) :
    y' = 0 ∨ pow2 (-93) ≤ |y'| := by
  have t0 := pow2_pos (-1074)
  have i53 : pow2 (-53) ≤ 1 / 64 := by
    rw [show (1 / 64 : ℚ) = pow2 (-6) by rw [pow2_eq]; norm_num]; exact pow2_le.mpr (by norm_num)
  have j (v : ℚ) : |rndQ 53 (-1074) v - v| ≤ 1 / 64 * |v| + pow2 (-1074) / 2 := by
    have := rndQ_rel (p := 53) (emin := -1074) (v := v)
    have h2 := mul_le_mul_of_nonneg_right i53 (abs_nonneg v)
    have e : (-((53 : ℕ) : ℤ)) = -53 := rfl
    rw [e] at this
    linarith
  have h1 := j (N * r)
  rw [← hy] at h1
  have h2 := abs_sub_abs_le_abs_sub y (N * r)
  have a1 := pow2_half (a := -30) (b := -31) (by norm_num)
  have a2 : pow2 (-1074) ≤ pow2 (-93) := pow2_le.mpr (by norm_num)
  have a3 : pow2 (-93) ≤ pow2 (-36) := pow2_le.mpr (by norm_num)
  have a4 : pow2 (-31) = 32 * pow2 (-36) := by
    rw [show (-31 : ℤ) = 5 + -36 by norm_num, pow2_add]; congr 1
  have a5 := pow2_pos (-36)
  have h3 : pow2 (-31) ≤ |N * r| := by linarith
  have h4 : pow2 (-61) ≤ |N| := by
    by_contra hc
    rw [not_le] at hc
    rw [abs_mul, ← pow2_prod (a := -61) (b := 30) (by norm_num)] at h3
    have := mul_le_mul_of_nonneg_left hr (abs_nonneg N)
    have := mul_lt_mul_of_pos_right hc (pow2_pos 30)
    linarith
  have h5 : pow2 (-62) ≤ |N'| := by
    have := hN h4
    have := pow2_half (a := -61) (b := -62) (by norm_num)
    linarith
  rcases hr' with rfl | hr'
  · left; rw [hy', mul_zero, rndQ_zero]
  · right
    have h6 : pow2 (-92) ≤ |N' * r'| := by
      rw [abs_mul, ← pow2_prod (a := -62) (b := -30) (by norm_num)]
      exact mul_le_mul h5 hr' (pow2_pos _).le (abs_nonneg _)
    have h7 := j (N' * r')
    rw [← hy', abs_sub_comm] at h7
    have h8 := abs_sub_abs_le_abs_sub (N' * r') y'
    have b1 := pow2_half (a := -92) (b := -93) (by norm_num)
    have b2 : pow2 (-1074) ≤ pow2 (-98) := pow2_le.mpr (by norm_num)
    have b3 : pow2 (-93) = 32 * pow2 (-98) := by
      rw [show (-93 : ℤ) = 5 + -98 by norm_num, pow2_add]; congr 1
    have b4 := pow2_pos (-98)
    linarith

/-- a sum rounds to zero only if it is zero -/
theorem rndQ_sum_zero {x y : Fl Q64} {a b c : Q64} (hx : x.Holds a) (hy : y.Holds b) (h : (x + y).Is c) (h0 : c = 0) : a.q = -b.q := by
  have := Fl.add_err hx.1 hy.1 hx.2 hy.2 h
  rw [h0, zero_sub, abs_neg] at this
  have hl := u_le (K := Q64)
  have h1 : |a + b| ≤ 0 := by
    have h2 := mul_le_mul_of_nonneg_right hl (abs_nonneg (a + b))
    by_contra hc
    rw [not_le] at hc
    have h3 := this.trans h2
    have : (1 / 64 : Q64) * |a + b| < 1 * |a + b| := mul_lt_mul_of_pos_right (by norm_num) hc
    rw [one_mul] at this
    exact absurd h3 (not_le.mpr this)
  have h2 : a + b = 0 := abs_eq_zero.mp (le_antisymm h1 (abs_nonneg _))
  have : a.q + b.q = 0 := h2
  linarith

/-- one coordinate of the computed support point is a multiple of `2^-146` -/
theorem coord_gr {x1 x2 ρ1 ρ2 n n' : Fl Q64} {c1 c2 r1 r2 N N' P : Q64} (hx1 : x1.Holds c1) (hx2 : x2.Holds c2) (hρ1 : ρ1.Holds r1)
    (hρ2 : ρ2.Holds r2) (hn : n.Holds N) (hn' : n'.Holds N') (hP : (x1 + n * ρ1 - (x2 + n' * ρ2)).Is P)
    (z : c1 = 0 → c2 = 0 → N = 0 ∧ N' = 0) (b1 : c1 = 0 ∨ pow2 (-30) ≤ |c1.q|) (b2 : c2 = 0 ∨ pow2 (-30) ≤ |c2.q|)
    (g1 : r1 = 0 ∨ pow2 (-30) ≤ |r1.q|) (g2 : r2 = 0 ∨ pow2 (-30) ≤ |r2.q|) (k1 : |r1.q| ≤ pow2 30) (k2 : |r2.q| ≤ pow2 30)
    (hN : pow2 (-61) ≤ |N.q| → |N.q| ≤ 2 * |N'.q|) (hN' : pow2 (-61) ≤ |N'.q| → |N'.q| ≤ 2 * |N.q|) :
    Gr (-146) P.q ∧ (c1 = 0 → c2 = 0 → P = 0) := by
  obtain ⟨p1, p2, h1, h2⟩ := Fl.sub_finite hP
  obtain ⟨_, y1, hc1, hy1⟩ := Fl.add_finite h1
  obtain rfl := hx1.1.kunique hc1
  obtain ⟨_, y2, hc2, hy2⟩ := Fl.add_finite h2
  obtain rfl := hx2.1.kunique hc2
  have wy1 : (n * ρ1).Holds y1 := ⟨hy1, Fl.wf_mul _ _⟩
  have wy2 : (n' * ρ2).Holds y2 := ⟨hy2, Fl.wf_mul _ _⟩
  have ey1 := Fl.mul_rndQ hn.1 hρ1.1 hy1
  have ey2 := Fl.mul_rndQ hn'.1 hρ2.1 hy2
  have e1 := Fl.add_rndQ hx1.1 hy1 h1
  have e2 := Fl.add_rndQ hx2.1 hy2 h2
  have eP := Fl.sub_rndQ h1 h2 hP
  have ry1 : rndQ 53 (-1074) y1.q = y1.q := rep_rnd (emax := 1024) (wy1.1.wf_rep wy1.2)
  have ry2 : rndQ 53 (-1074) y2.q = y2.q := rep_rnd (emax := 1024) (wy2.1.wf_rep wy2.2)
  have big1 (h : pow2 (-30) ≤ |c1.q|) : Gr (-83) p1.q := Gr.fadd_big hx1 wy1 h1 h
  have big2 (h : pow2 (-30) ≤ |c2.q|) : Gr (-83) p2.q := Gr.fadd_big hx2 wy2 h2 h
  have nz {c : Q64} (h : pow2 (-30) ≤ |c.q|) : c ≠ 0 := by
    rintro rfl
    rw [BinQ.q_zero, abs_zero] at h
    exact absurd h (not_le.mpr (pow2_pos _))
  rcases b1 with b1 | b1 <;> rcases b2 with b2 | b2
  · obtain ⟨z1, z2⟩ := z b1 b2
    rw [z1, BinQ.q_zero, zero_mul, rndQ_zero] at ey1
    rw [z2, BinQ.q_zero, zero_mul, rndQ_zero] at ey2
    rw [b1, BinQ.q_zero, ey1, add_zero, rndQ_zero] at e1
    rw [b2, BinQ.q_zero, ey2, add_zero, rndQ_zero] at e2
    rw [e1, e2, neg_zero, add_zero, rndQ_zero] at eP
    exact ⟨by rw [eP]; exact Gr.zero _, fun _ _ => BinQ.q_inj eP⟩
  · refine ⟨?_, fun _ h => absurd h (nz b2)⟩
    rw [b1, BinQ.q_zero, zero_add, ry1] at e1
    rw [eP, e1, add_comm]
    refine Gr.one_side (big2 b2).neg (wy1.1.wf_rep wy1.2) fun h => ?_
    have h' : p2 = 0 := BinQ.q_inj (neg_eq_zero.mp h)
    refine other_big ey2 ey1 ?_ k2 (g1.imp (fun h => by rw [h, BinQ.q_zero]) id) hN'
    rw [← abs_neg y2.q, ← rndQ_sum_zero hx2 wy2 h2 h']
    exact b2
  · refine ⟨?_, fun h _ => absurd h (nz b1)⟩
    rw [b2, BinQ.q_zero, zero_add, ry2] at e2
    rw [eP, e2]
    have wn : Fl.Rep (K := Q64) (-y2) := (wy2.1.kneg).wf_rep wy2.2.neg
    refine Gr.one_side (big1 b1) wn fun h => ?_
    have h' : p1 = 0 := BinQ.q_inj h
    have := other_big ey1 ey2 (by rw [← abs_neg y1.q, ← rndQ_sum_zero hx1 wy1 h1 h']; exact b1) k1 (g2.imp (fun h => by rw [h, BinQ.q_zero]) id) hN
    rw [abs_neg]
    exact this.imp (fun h => by rw [h, neg_zero]) id
  · refine ⟨?_, fun h _ => absurd h (nz b1)⟩
    exact (Gr.fsub h1 h2 hP (big1 b1) (big2 b2)).mono (by norm_num)

end grid

section loop
open Bin

theorem q_u : (u : Q64).q = pow2 (-53) := by rw [pow2_eq]; exact C55_constants.1
theorem q_eta : (eta : Q64).q = pow2 (-1075) := by rw [pow2_eq]; exact C55_constants.2.1
theorem q_omega : (omega : Q64).q = pow2 1023 := by rw [pow2_eq]; exact C55_constants.2.2.2.1

/-- the power `2^b` as a datum of the format's field -/
def pq (b : ℤ) : Q64 := pow2 b
theorem q_pq (b : ℤ) : (pq b).q = pow2 b := rfl

/-- `p` is finite with coordinates `P`, at most `2^b`, multiples of `2^e`, zero on the axes `z` -/
structure Vec (z : Fin 3 → Prop) (e b : ℤ) (p : V3 Q64) (P : Fin 3 → Q64) : Prop where
  holds : p.Holds P
  le : ∀ i, |P i| ≤ pq b
  gr : ∀ i, Gr e (P i).q
  zero : ∀ i, z i → P i = 0

variable {z : Fin 3 → Prop} {e b : ℤ} {p q r : V3 Q64} {P Q R : Fin 3 → Q64}

theorem Vec.sub (hp : Vec z e b p P) (hq : Vec z e b q Q) (hb : b ≤ 1000) : ∃ R, Vec z e (b + 2) (V3.sub p q) R := by
  have ho : 2 * pq b ≤ omega := by
    rw [← BinQ.q_le, q_omega]
    show 2 * pow2 b ≤ pow2 1023
    rw [← pow2_one, ← pow2_add]
    exact pow2_le.mpr (by omega)
  obtain ⟨R, hR, hb', -⟩ := sub_float hp.holds hq.holds hp.le hq.le ho
  have key (i : Fin 3) : (p.val[i] - q.val[i]).Is (R i) := by
    fin_cases i
    · exact (hR 0).1
    · exact (hR 1).1
    · exact (hR 2).1
  refine ⟨R, hR, fun i => (hb' i).trans ?_, fun i => Gr.fsub (hp.holds i).1 (hq.holds i).1 (key i) (hp.gr i) (hq.gr i), fun i hi => ?_⟩
  · rw [← BinQ.q_le]
    show 65 / 32 * pow2 b ≤ pow2 (b + 2)
    rw [pow2_add, show pow2 2 = 4 by rw [pow2_eq]; norm_num]
    have := pow2_pos b
    linarith
  · have := Fl.sub_rndQ (hp.holds i).1 (hq.holds i).1 (key i)
    rw [hp.zero i hi, hq.zero i hi, BinQ.q_zero, neg_zero, add_zero, rndQ_zero] at this
    exact BinQ.q_inj this

theorem Vec.negate (hp : Vec z e b p P) (hb : b ≤ 1000) : Vec z e b (V3.scl p (-1)) (-P) := by
  have h1 : (-1 : Fl Q64).Is (-1 : Q64) := (show (1 : Fl Q64).Is 1 from rfl).kneg
  have key (i : Fin 3) : (p.val[i] * -1).Holds (-P i) := by
    obtain ⟨c, hc⟩ := Fl.mul_fin (hp.holds i).1 h1 (by
      rw [mul_neg_one, abs_neg]
      refine (hp.le i).trans ?_
      rw [← BinQ.q_le, q_omega]
      exact pow2_le.mpr (by omega))
    have e1 := Fl.mul_rndQ (hp.holds i).1 h1 hc
    have e2 : (P i).q * (-1 : Q64).q = -(P i).q := mul_neg_one (P i).q
    rw [e2, rndQ_neg, rep_rnd (v := (P i).q) (emax := 1024) ((hp.holds i).1.wf_rep (hp.holds i).2)] at e1
    have e3 : c = -P i := BinQ.q_inj e1
    rw [← e3]
    exact ⟨hc, Fl.wf_mul _ _⟩
  refine ⟨mk_holds (k := -P) (key 0) (key 1) (key 2), fun i => ?_, fun i => (hp.gr i).neg, fun i hi => ?_⟩
  · rw [Pi.neg_apply, abs_neg]; exact hp.le i
  · rw [Pi.neg_apply, hp.zero i hi, neg_zero]

theorem cross_range {a b : ℤ} (h0 : 0 ≤ a + b) (h1 : a + b ≤ 1000) : (eta : Q64) ≤ u * (pq a * pq b) ∧ 3 * (pq a * pq b) ≤ (omega : Q64) ∧
    3 * (pq a * pq b) ≤ pq (a + b + 2) := by
  have e : (pq a * pq b).q = pow2 (a + b) := (pow2_add a b).symm
  have h3 : 3 * (pq a * pq b) ≤ pq (a + b + 2) := by
    rw [← BinQ.q_le, q_pq]
    show 3 * (pq a * pq b).q ≤ _
    rw [e, pow2_add (a + b), show pow2 2 = 4 by rw [pow2_eq]; norm_num]
    have := pow2_pos (a + b)
    linarith
  refine ⟨?_, h3.trans ?_, h3⟩
  · rw [← BinQ.q_le, BinQ.q_mul, e, q_eta, q_u, ← pow2_add]
    exact pow2_le.mpr (by omega)
  · rw [← BinQ.q_le, q_omega]; exact pow2_le.mpr (by omega)

/-- the triple products from which the search directions are taken -/
theorem Vec.triple (hp : Vec z e b p P) (hq : Vec z e b q Q) (hr : Vec z e b r R) (h0 : 0 ≤ b) (h1 : b ≤ 300) :
    ∃ D, Vec z (e + e + e) (3 * b + 4) (V3.crs (V3.crs p q) r) D := by
  obtain ⟨n1, n2, n3⟩ := cross_range (a := b) (b := b) (by omega) (by omega)
  obtain ⟨m1, m2, m3⟩ := cross_range (a := b + b + 2) (b := b) (by omega) (by omega)
  obtain ⟨C, hC, bC, -⟩ := cross_float hp.holds hq.holds hp.le hq.le n1 n2
  obtain ⟨g0, z0⟩ := Gr.det2 (hp.holds 1).1 (hq.holds 2).1 (hp.holds 2).1 (hq.holds 1).1 (hC 0).1 (hp.gr 1) (hq.gr 2) (hp.gr 2) (hq.gr 1)
  obtain ⟨g1, z1⟩ := Gr.det2 (hp.holds 2).1 (hq.holds 0).1 (hp.holds 0).1 (hq.holds 2).1 (hC 1).1 (hp.gr 2) (hq.gr 0) (hp.gr 0) (hq.gr 2)
  obtain ⟨g2, z2⟩ := Gr.det2 (hp.holds 0).1 (hq.holds 1).1 (hp.holds 1).1 (hq.holds 0).1 (hC 2).1 (hp.gr 0) (hq.gr 1) (hp.gr 1) (hq.gr 0)
  obtain ⟨D, hD, bD, -⟩ := cross_float hC hr.holds (fun i => (bC i).trans n3) hr.le m1 m2
  obtain ⟨k0, w0⟩ := Gr.det2 (hC 1).1 (hr.holds 2).1 (hC 2).1 (hr.holds 1).1 (hD 0).1 g1 (hr.gr 2) g2 (hr.gr 1)
  obtain ⟨k1, w1⟩ := Gr.det2 (hC 2).1 (hr.holds 0).1 (hC 0).1 (hr.holds 2).1 (hD 1).1 g2 (hr.gr 0) g0 (hr.gr 2)
  obtain ⟨k2, w2⟩ := Gr.det2 (hC 0).1 (hr.holds 1).1 (hC 1).1 (hr.holds 0).1 (hD 2).1 g0 (hr.gr 1) g1 (hr.gr 0)
  refine ⟨D, hD, fun i => ?_, fun i => ?_, fun i hi => ?_⟩
  · refine ((bD i).trans m3).trans ?_
    rw [← BinQ.q_le]; exact pow2_le.mpr (by omega)
  · fin_cases i
    · exact k0
    · exact k1
    · exact k2
  · have hP := hp.zero i hi
    have hQ := hq.zero i hi
    fin_cases i
    · have hP : P 0 = 0 := hP
      have hQ : Q 0 = 0 := hQ
      have a1 : C 1 = 0 := z1 (by rw [hQ, mul_zero]) (by rw [hP, zero_mul])
      have a2 : C 2 = 0 := z2 (by rw [hP, zero_mul]) (by rw [hQ, mul_zero])
      exact w0 (by rw [a1, zero_mul]) (by rw [a2, zero_mul])
    · have hP : P 1 = 0 := hP
      have hQ : Q 1 = 0 := hQ
      have a0 : C 0 = 0 := z0 (by rw [hP, zero_mul]) (by rw [hQ, mul_zero])
      have a2 : C 2 = 0 := z2 (by rw [hQ, mul_zero]) (by rw [hP, zero_mul])
      exact w1 (by rw [a2, zero_mul]) (by rw [a0, zero_mul])
    · have hP : P 2 = 0 := hP
      have hQ : Q 2 = 0 := hQ
      have a0 : C 0 = 0 := z0 (by rw [hQ, mul_zero]) (by rw [hP, zero_mul])
      have a1 : C 1 = 0 := z1 (by rw [hP, zero_mul]) (by rw [hQ, mul_zero])
      exact w2 (by rw [a0, zero_mul]) (by rw [a1, zero_mul])

/-- two computed unit vectors of opposite directions have comparable components -/
theorem opposite_le {N N' U v h : ℝ} (hv : v ≤ 1 / 64) (h1 : |N - U| ≤ 5 * v * |U| + h) (h2 : |N' - -U| ≤ 5 * v * |U| + h)
    (hN : 8 * h ≤ |N|) (hh : 0 ≤ h) : |N| ≤ 2 * |N'| := by
  have a1 := abs_sub_abs_le_abs_sub N U
  have a2 := abs_sub_abs_le_abs_sub (-U) N'
  rw [abs_neg, abs_sub_comm] at a2
  have a3 : v * |U| ≤ 1 / 64 * |U| := mul_le_mul_of_nonneg_right hv (abs_nonneg _)
  linarith

/-- a finite value of the format at most `eta` in size is zero -/
theorem tiny_zero {x : Fl Q64} {a : Q64} (hx : x.Holds a) (h : |a| ≤ eta) : a = 0 := by
  obtain ⟨m, hm⟩ := rep_mult (p := 53) (emin := -1074) (emax := 1024) (hx.1.wf_rep hx.2)
  rcases Gr.lower (x := a.q) ⟨m, hm⟩ with h1 | h1
  · exact BinQ.q_inj h1
  · have h2 : |a.q| ≤ pow2 (-1075) := by rw [← q_eta]; exact h
    have := pow2_lt.mpr (show (-1075 : ℤ) < -1074 by norm_num)
    linarith

end loop

section main
open Bin

/-- Two spheres in range: centre coordinates and radii are zero or of size between `2^-30` and `M ≤ 2^30`, and the first
coordinates of the centres are not both zero (the search starts along the first axis). -/
structure SphPair (c1 c2 : Fin 3 → Q64) (r1 r2 M : Q64) : Prop where
  lo1 : ∀ i, c1 i = 0 ∨ ((2 : ℚ) ^ (-30 : ℤ) : ℚ) ≤ |c1 i|
  lo2 : ∀ i, c2 i = 0 ∨ ((2 : ℚ) ^ (-30 : ℤ) : ℚ) ≤ |c2 i|
  rlo1 : r1 = 0 ∨ ((2 : ℚ) ^ (-30 : ℤ) : ℚ) ≤ |r1|
  rlo2 : r2 = 0 ∨ ((2 : ℚ) ^ (-30 : ℤ) : ℚ) ≤ |r2|
  hi1 : ∀ i, |c1 i| ≤ M
  hi2 : ∀ i, |c2 i| ≤ M
  rhi1 : |r1| ≤ M
  rhi2 : |r2| ≤ M
  le : M ≤ ((2 : ℚ) ^ (30 : ℤ) : ℚ)
  first : c1 0 ≠ 0 ∨ c2 0 ≠ 0

variable {c1 c2 : Fin 3 → Q64} {r1 r2 M : Q64} {l1 l2 : List (Fl Q64)} {x1 x2 : Fl Q64} {s t : Sphere Q64}

theorem pow2_lo {a : Q64} {k : ℤ} (h : a = 0 ∨ ((2 : ℚ) ^ k : ℚ) ≤ |a|) : a = 0 ∨ pow2 k ≤ |a.q| :=
  h.imp id fun h => by rw [pow2_eq]; exact h

theorem SphPair.M_lo (H : SphPair c1 c2 r1 r2 M) : pq (-30) ≤ M := by
  rcases H.first with h | h
  · rcases pow2_lo (H.lo1 0) with h' | h'
    · exact absurd h' h
    · exact le_trans (show pq (-30) ≤ |c1 0| from h') (H.hi1 0)
  · rcases pow2_lo (H.lo2 0) with h' | h'
    · exact absurd h' h
    · exact le_trans (show pq (-30) ≤ |c2 0| from h') (H.hi2 0)

theorem SphPair.M_hi (H : SphPair c1 c2 r1 r2 M) : M ≤ pq 30 := by
  rw [← BinQ.q_le, q_pq, pow2_eq]; exact H.le

/-- a search direction: nonzero, on the grid -/
def Dir (c1 c2 : Fin 3 → Q64) (d : V3 Q64) : Prop := ∃ D, Vec (fun i => c1 i = 0 ∧ c2 i = 0) (-438) 115 d D ∧ D ≠ 0

/-- a vertex of the simplex -/
def Vtx (c1 c2 : Fin 3 → Q64) (p : V3 Q64) : Prop := ∃ P, Vec (fun i => c1 i = 0 ∧ c2 i = 0) (-146) 35 p P

theorem dir_range {z : Fin 3 → Prop} {d : V3 Q64} {D : Fin 3 → Q64} (h : Vec z (-438) 115 d D) :
    (∀ i, D i = 0 ∨ nu ≤ D i * D i) ∧ (∀ i, 8 * (D i * D i) ≤ omega) ∧ (eta : Q64) ≤ 1 / 64 := by
  refine f64_range (fun i => ?_) fun i => ?_
  · refine (h.gr i).lower.imp (fun h => BinQ.q_inj h) fun h => ?_
    have h2 : pow2 (-511) ≤ pow2 (-438) := pow2_le.mpr (by norm_num)
    rw [← pow2_eq]
    exact h2.trans h
  · have h2 : pow2 115 ≤ pow2 510 := pow2_le.mpr (by norm_num)
    rw [← pow2_eq]
    exact (show |(D i).q| ≤ pow2 115 from h.le i).trans h2

/-- the normalised search direction -/
theorem nrm_float {z : Fin 3 → Prop} {d : V3 Q64} {D : Fin 3 → Q64} (h : Vec z (-438) 115 d D) (h0 : D ≠ 0) :
    ∃ N, (V3.nrm d).Holds N ∧ (∀ i, D i = 0 → N i = 0) ∧
      ∀ i, |(N i).real - (D i).real / euc (toR BinQ.real D)| ≤
        5 * BinQ.real (u : Q64) * |(D i).real / euc (toR BinQ.real D)| + BinQ.real (eta : Q64) := by
  obtain ⟨hn, hM, -⟩ := dir_range h
  obtain ⟨y, hy, hyf⟩ := C55_finite d D h.holds hn hM
  obtain ⟨n, N, e, hN, hNe, -⟩ := C55_normalize BinQ.real BinQ.real_strictMono d D h.holds hn h0 y hy hyf
  obtain rfl : V3.nrm d = n := Option.some.inj e
  refine ⟨N, hN, fun i hi => tiny_zero (hN i) ?_, hNe⟩
  have := hNe i
  rw [hi, map_zero, zero_div, abs_zero, mul_zero, zero_add, sub_zero, ← real_abs] at this
  exact BinQ.real_strictMono.le_iff_le.mp this

theorem eta61 : 8 * BinQ.real (eta : Q64) ≤ BinQ.real (pq (-61)) := by
  have h : (8 : Q64) * eta ≤ pq (-61) := by
    rw [← BinQ.q_le, q_pq, BinQ.q_mul, q_eta]
    show (8 : ℚ) * pow2 (-1075) ≤ _
    rw [show (8 : ℚ) = pow2 3 by rw [pow2_eq]; norm_num, ← pow2_add]
    exact pow2_le.mpr (by norm_num)
  have := BinQ.real_strictMono.monotone h
  rwa [map_mul, map_ofNat] at this

theorem comparable {N N' : Q64} {U : ℝ} (h1 : |N.real - U| ≤ 5 * BinQ.real (u : Q64) * |U| + BinQ.real (eta : Q64))
    (h2 : |N'.real - -U| ≤ 5 * BinQ.real (u : Q64) * |U| + BinQ.real (eta : Q64)) (h : pow2 (-61) ≤ |N.q|) : |N.q| ≤ 2 * |N'.q| := by
  obtain ⟨hu0, hul, heta⟩ := phi_u (K := Q64) BinQ.real BinQ.real_strictMono
  have h3 : BinQ.real (pq (-61)) ≤ |N.real| := by
    rw [← real_abs]; exact BinQ.real_strictMono.monotone (show pq (-61) ≤ |N| from h)
  have h4 := opposite_le hul h1 h2 (eta61.trans h3) heta.le
  have h5 : |N| ≤ 2 * |N'| := by
    rw [← BinQ.real_strictMono.le_iff_le, real_abs, map_mul, real_abs, map_ofNat]; exact h4
  exact h5

section step
variable (H : SphPair c1 c2 r1 r2 M) (hl1 : ListIn l1 c1) (hx1 : x1.Holds r1) (hs : Sphere.init l1 x1 = .ok s)
  (hl2 : ListIn l2 c2) (hx2 : x2.Holds r2) (ht : Sphere.init l2 x2 = .ok t)

include H hl1 hx1 hs hl2 hx2 ht

/-- the vertex found by one support query -/
theorem gjk_support {d : V3 Q64} {D : Fin 3 → Q64} (hD : Vec (fun i => c1 i = 0 ∧ c2 i = 0) (-438) 115 d D) (h0 : D ≠ 0) :
    ∃ p P, support (.sphere s) (.sphere t) d = .ok (some p) ∧ Vec (fun i => c1 i = 0 ∧ c2 i = 0) (-146) 35 p P ∧
      (∀ i, |(P i).real - ((c1 i).real - (c2 i).real + (r1.real + r2.real) * ((D i).real / euc (toR BinQ.real D)))| ≤
        40 * (BinQ.real (u : Q64) * M.real)) ∧ (∀ i, |P i| ≤ 5 * M) ∧
      p = V3.sub (V3.add s.ori (V3.scl (V3.nrm d) s.radius)) (V3.add t.ori (V3.scl (V3.nrm (V3.scl d (-1))) t.radius)) := by
  obtain ⟨hn, hM, he⟩ := dir_range hD
  have hD' := hD.negate (by norm_num)
  have h0' : -D ≠ 0 := neg_ne_zero.mpr h0
  have Mlo := H.M_lo
  have Mhi := H.M_hi
  have qlo : pow2 (-30) ≤ M.q := Mlo
  have qhi : M.q ≤ pow2 30 := Mhi
  have heM : 2 * (1 + M) * eta ≤ u * M := by
    rw [← BinQ.q_le, BinQ.q_mul, BinQ.q_mul, BinQ.q_mul, q_eta, q_u]
    show 2 * (1 + M.q) * pow2 (-1075) ≤ pow2 (-53) * M.q
    have a1 : pow2 (-53) = pow2 1000 * (4 * pow2 (-1055)) := by
      rw [show (4 : ℚ) = pow2 2 by rw [pow2_eq]; norm_num, ← pow2_add, ← pow2_add]; norm_num
    have a2 : pow2 (-1075) ≤ pow2 (-1055) := pow2_le.mpr (by norm_num)
    have a3 : pow2 30 ≤ pow2 1000 := pow2_le.mpr (by norm_num)
    have a4 : 1 ≤ pow2 1000 * pow2 (-30) := by
      rw [← pow2_add, ← pow2_zero]; exact pow2_le.mpr (by norm_num)
    have a5 : 1 ≤ pow2 1000 := by rw [← pow2_zero]; exact pow2_le.mpr (by norm_num)
    have a6 := pow2_pos (-30)
    have a7 := pow2_pos (-1055)
    rw [a1]
    generalize pow2 1000 = A at *
    generalize pow2 (-1055) = B at *
    have k1 : 1 ≤ A * M.q := a4.trans (mul_le_mul_of_nonneg_left qlo (by linarith))
    have k2 : M.q ≤ A * M.q := le_mul_of_one_le_left (a6.le.trans qlo) a5
    calc 2 * (1 + M.q) * pow2 (-1075) ≤ 2 * (1 + M.q) * B := mul_le_mul_of_nonneg_left a2 (by linarith)
      _ ≤ 2 * (A * M.q + A * M.q) * B := mul_le_mul_of_nonneg_right (by linarith) a7.le
      _ = A * (4 * B) * M.q := by ring
  have ho : 8 * (M + 1) ≤ omega := by
    have := f64_omega (M := M) (by
      have h : M.q ≤ (2 : ℚ) ^ (1000 : ℤ) := by
        rw [← pow2_eq]; exact qhi.trans (pow2_le.mpr (by norm_num))
      exact h)
    have h1 : (8 : Q64) * (M + 1) ≤ 64 * (M + 1) := by
      have : (0 : Q64) ≤ M + 1 := by
        have h2 : (0 : Q64) ≤ M := le_trans (le_of_lt (show (0 : ℚ) < pow2 (-30) from pow2_pos _)) qlo
        exact add_nonneg h2 zero_le_one
      exact mul_le_mul_of_nonneg_right (by norm_num) this
    exact h1.trans this
  obtain ⟨p, P, ep, hp, efp, hP, hR⟩ := support_float BinQ.real BinQ.real_strictMono hl1 hx1 hs hl2 hx2 ht hD.holds hD'.holds hn hM h0
    H.hi1 H.hi2 H.rhi1 H.rhi2 he heM ho
  have hM0 : 0 ≤ M := le_trans (le_of_lt (show (0 : ℚ) < pow2 (-30) from pow2_pos _)) qlo
  have hP35 (i : Fin 3) : |P i| ≤ pq 35 := by
    refine (hR i).trans ?_
    rw [← BinQ.q_le]
    show 5 * M.q ≤ pow2 35
    rw [show (35 : ℤ) = 5 + 30 by norm_num, pow2_add, show pow2 5 = 32 by rw [pow2_eq]; norm_num]
    have := pow2_pos 30
    linarith
  obtain ⟨hc1, hρ1⟩ := Sphere.init_facts hl1 hx1 hs
  obtain ⟨hc2, hρ2⟩ := Sphere.init_facts hl2 hx2 ht
  obtain ⟨N, hN, zN, eN⟩ := nrm_float hD h0
  obtain ⟨N', hN', zN', eN'⟩ := nrm_float hD' h0'
  have hneg : toR BinQ.real (-D) = -toR BinQ.real D := by funext i; exact map_neg BinQ.real _
  have hE : euc (toR BinQ.real (-D)) = euc (toR BinQ.real D) := by
    rw [hneg, ← neg_one_smul ℝ, euc_smul]; simp
  have eN'' (i : Fin 3) : |(N' i).real - -((D i).real / euc (toR BinQ.real D))| ≤
      5 * BinQ.real (u : Q64) * |(D i).real / euc (toR BinQ.real D)| + BinQ.real (eta : Q64) := by
    have := eN' i
    rwa [hE, Pi.neg_apply, map_neg, neg_div, abs_neg] at this
  have eNn (i : Fin 3) : |(N i).real - -(-((D i).real / euc (toR BinQ.real D)))| ≤
      5 * BinQ.real (u : Q64) * |-((D i).real / euc (toR BinQ.real D))| + BinQ.real (eta : Q64) := by
    rw [neg_neg, abs_neg]; exact eN i
  have eNm (i : Fin 3) : |(N' i).real - -((D i).real / euc (toR BinQ.real D))| ≤
      5 * BinQ.real (u : Q64) * |-((D i).real / euc (toR BinQ.real D))| + BinQ.real (eta : Q64) := by
    rw [abs_neg]; exact eN'' i
  have hval (i : Fin 3) : (s.ori.val[i] + (V3.nrm d).val[i] * s.radius - (t.ori.val[i] + (V3.nrm (V3.scl d (-1))).val[i] * t.radius)).Is (P i) := by
    have := (hp i).1
    rw [efp] at this
    fin_cases i
    · exact this
    · exact this
    · exact this
  have k1 : |r1.q| ≤ pow2 30 := le_trans (show |r1.q| ≤ M.q from H.rhi1) qhi
  have k2 : |r2.q| ≤ pow2 30 := le_trans (show |r2.q| ≤ M.q from H.rhi2) qhi
  have G (i : Fin 3) := coord_gr (hc1 i) (hc2 i) hρ1 hρ2 (hN i) (hN' i) (hval i)
    (fun h1 h2 => ⟨zN i (hD.zero i ⟨h1, h2⟩), zN' i (hD'.zero i ⟨h1, h2⟩)⟩) (pow2_lo (H.lo1 i)) (pow2_lo (H.lo2 i)) (pow2_lo H.rlo1)
    (pow2_lo H.rlo2) k1 k2 (comparable (eN i) (eN'' i)) (comparable (eNm i) (eNn i))
  exact ⟨p, P, ep, ⟨hp, hP35, fun i => (G i).1, fun i hi => (G i).2 hi.1 hi.2⟩, hP, hR, efp⟩

/-- one support query -/
theorem gjk_step {d : V3 Q64} (hd : Dir c1 c2 d) : ∃ p, support (.sphere s) (.sphere t) d = .ok (some p) ∧ Vtx c1 c2 p ∧
    (Fl.lt 0 (V3.dotp p d) ≠ true → r1.real + r2.real - 128 * BinQ.real (u : Q64) * M.real ≤ euc (toR BinQ.real c1 - toR BinQ.real c2)) := by
  obtain ⟨D, hD, h0⟩ := hd
  obtain ⟨p, P, ep, hp, hP, hR, -⟩ := gjk_support H hl1 hx1 hs hl2 hx2 ht hD h0
  have qlo : pow2 (-30) ≤ M.q := H.M_lo
  have hM0 : 0 ≤ M := le_trans (le_of_lt (show (0 : ℚ) < pow2 (-30) from pow2_pos _)) qlo
  refine ⟨p, ep, ⟨P, hp⟩, fun hlt => ?_⟩
  obtain ⟨x, hx⟩ := dotp_range hp.holds hD.holds hp.le hD.le (le_trans (dir_range hD).2.2 (by norm_num)) (by
    rw [← BinQ.q_le, q_omega]
    show 4 * (pow2 35 * pow2 115 + 1) ≤ pow2 1023
    have h1 : 1 ≤ pow2 (35 + 115) := by rw [← pow2_zero]; exact pow2_le.mpr (by norm_num)
    have h2 : pow2 1023 = pow2 3 * pow2 1020 := by rw [← pow2_add]; norm_num
    have h3 : pow2 (35 + 115) ≤ pow2 1020 := pow2_le.mpr (by norm_num)
    rw [← pow2_add, h2, show pow2 3 = 8 by rw [pow2_eq]; norm_num]
    linarith)
  have hle : x ≤ 0 := by
    by_contra hc
    exact hlt ((Fl.Is.klt (show (0 : Fl Q64).Is 0 from rfl) hx).mpr (not_le.mp hc))
  refine margin_float BinQ.real BinQ.real_strictMono hp.holds hD.holds h0 hM0 hP hR ?_ hx hle
  have hnorm : pow2 (-438) ≤ (norm1 D).q := by
    obtain ⟨j, hj⟩ := Function.ne_iff.mp h0
    have hlow : pow2 (-438) ≤ |(D j).q| := (hD.gr j).lower.resolve_left fun h => hj (BinQ.q_inj h)
    refine hlow.trans ?_
    show |(D j).q| ≤ |(D 0).q| + |(D 1).q| + |(D 2).q|
    have a0 := abs_nonneg (D 0).q
    have a1 := abs_nonneg (D 1).q
    have a2 := abs_nonneg (D 2).q
    fin_cases j
    · show |(D 0).q| ≤ _; linarith
    · show |(D 1).q| ≤ _; linarith
    · show |(D 2).q| ≤ _; linarith
  rw [← BinQ.q_le, BinQ.q_mul, BinQ.q_mul, BinQ.q_mul, q_eta, q_u]
  show 8 * pow2 (-1075) ≤ pow2 (-53) * M.q * (norm1 D).q
  have a1 : 8 * pow2 (-1075) ≤ pow2 (-53) * pow2 (-30) * pow2 (-438) := by
    rw [show (8 : ℚ) = pow2 3 by rw [pow2_eq]; norm_num, ← pow2_add, ← pow2_add, ← pow2_add]; exact pow2_le.mpr (by norm_num)
  refine a1.trans (mul_le_mul (mul_le_mul_of_nonneg_left qlo (pow2_pos _).le) hnorm (pow2_pos _).le ?_)
  exact mul_nonneg (pow2_pos _).le ((pow2_pos _).le.trans qlo)

end step

theorem dot_zero {z : Fin 3 → Prop} {p d : V3 Q64} {P D : Fin 3 → Q64} (hp : Vec z (-146) 35 p P) (hd : Vec z (-438) 115 d D)
    (h : Fl.lt 0 (V3.dotp d p) = true) : D ≠ 0 := by
  rintro rfl
  have zero (i : Fin 3) {c : Q64} (hc : (d.val[i] * p.val[i]).Is c) : c = 0 := by
    have := Fl.mul_rndQ (hd.holds i).1 (hp.holds i).1 hc
    rw [Pi.zero_apply, BinQ.q_zero, zero_mul, rndQ_zero] at this
    exact BinQ.q_inj this
  have he : (eta : Q64) ≤ 1 := le_trans (dir_range hd).2.2 (by norm_num)
  obtain ⟨x, hx⟩ := dotp_range hd.holds hp.holds hd.le hp.le he (by
    rw [← BinQ.q_le, q_omega]
    show 4 * (pow2 115 * pow2 35 + 1) ≤ pow2 1023
    have h1 : 1 ≤ pow2 (115 + 35) := by rw [← pow2_zero]; exact pow2_le.mpr (by norm_num)
    have h2 : pow2 1023 = pow2 3 * pow2 1020 := by rw [← pow2_add]; norm_num
    have h3 : pow2 (115 + 35) ≤ pow2 1020 := pow2_le.mpr (by norm_num)
    rw [← pow2_add, h2, show pow2 3 = 8 by rw [pow2_eq]; norm_num]
    linarith)
  obtain ⟨y, w, hy, hw⟩ := Fl.add_finite hx
  obtain ⟨y0, y1, hy0, hy1⟩ := Fl.add_finite hy
  have e := Fl.add_rndQ hy hw hx
  rw [Fl.add_rndQ hy0 hy1 hy, zero 0 hy0, zero 1 hy1, zero 2 hw] at e
  simp only [BinQ.q_zero, add_zero, rndQ_zero] at e
  have hpos : 0 < x := (Fl.Is.klt (show (0 : Fl Q64).Is 0 from rfl) hx).mp h
  exact absurd hpos (by rw [show x = 0 from BinQ.q_inj e]; exact lt_irrefl _)

theorem mag_zero {z : Fin 3 → Prop} {d : V3 Q64} {D : Fin 3 → Q64} (hd : Vec z (-438) 115 d D) (h : Fl.feq (V3.mag d) 0 ≠ true) : D ≠ 0 := by
  intro h0
  obtain ⟨hn, hM, -⟩ := dir_range hd
  obtain ⟨x, hx, m, hm⟩ := C55_finite d D hd.holds hn hM
  obtain ⟨x', hx', hacc⟩ := C55_magnitude BinQ.real BinQ.real_strictMono d D hd.holds hn
  obtain rfl : x' = x := Option.some.inj (hx'.symm.trans hx)
  obtain ⟨-, h1⟩ := hacc m hm
  rw [V3.magnitude_eq, Option.some.injEq] at hx
  apply h
  rw [hx, kfeq_zero hm]
  have e0 : euc (fun i => (D i).real) = 0 := by
    rw [euc_eq_zero, h0]; funext i; exact map_zero _
  rw [e0, mul_zero, sub_zero] at h1
  exact BinQ.real_strictMono.injective ((abs_eq_zero.mp (le_antisymm h1 (abs_nonneg _))).trans (map_zero _).symm)

section step
variable (H : SphPair c1 c2 r1 r2 M) (hl1 : ListIn l1 c1) (hx1 : x1.Holds r1) (hs : Sphere.init l1 x1 = .ok s)
  (hl2 : ListIn l2 c2) (hx2 : x2.Holds r2) (ht : Sphere.init l2 x2 = .ok t)

include H hl1 hx1 hs hl2 hx2 ht

theorem gjk_loop (n : ℕ) : ∀ (l : List (V3 Q64)) (d : V3 Q64), Dir c1 c2 d →
    ((∃ p, l = [p] ∧ Vtx c1 c2 p) ∨ ∃ p q, l = [p, q] ∧ Vtx c1 c2 p ∧ Vtx c1 c2 q) →
    queryLoop (.sphere s) (.sphere t) n l d = .ok (some true) ∨
    (queryLoop (.sphere s) (.sphere t) n l d = .ok (some false) ∧
      r1.real + r2.real - 128 * BinQ.real (u : Q64) * M.real ≤ euc (toR BinQ.real c1 - toR BinQ.real c2)) ∨
    queryLoop (.sphere s) (.sphere t) n l d = .error .diverge := by
  induction n with
  | zero => intro l d _ _; exact .inr (.inr rfl)
  | succ n ih =>
    intro l d hd hl
    obtain ⟨x, e, hx, hm⟩ := gjk_step H hl1 hx1 hs hl2 hx2 ht hd
    have hlen : l.length ≤ 2 := by
      rcases hl with ⟨p, rfl, -⟩ | ⟨p, q, rfl, -⟩ <;> simp
    rw [queryLoop_succ _ _ n l hlen d x e]
    split_ifs with hlt
    · obtain ⟨X, hX⟩ := hx
      have hXn := hX.negate (by norm_num)
      have up {p : V3 Q64} {P : Fin 3 → Q64} (h : Vec (fun i => c1 i = 0 ∧ c2 i = 0) (-146) 35 p P) :
          Vec (fun i => c1 i = 0 ∧ c2 i = 0) (-146) 37 p P :=
        ⟨h.holds, fun i => le_trans (h.le i) (show pq 35 ≤ pq 37 from pow2_le.mpr (by norm_num)), h.gr, h.zero⟩
      rcases hl with ⟨p, rfl, P, hP⟩ | ⟨p, q, rfl, ⟨P, hP⟩, Q, hQ⟩
      · obtain ⟨A, hA⟩ := hP.sub hX (by norm_num)
        obtain ⟨D, hD⟩ := hA.triple (up hXn) (up hXn) (by norm_num) (by norm_num)
        rw [List.singleton_append, contains2]
        split_ifs with hz
        · exact .inl rfl
        · exact ih _ _ ⟨D, hD, mag_zero hD hz⟩ (.inr ⟨p, x, rfl, ⟨P, hP⟩, X, hX⟩)
      · obtain ⟨A, hA⟩ := hP.sub hX (by norm_num)
        obtain ⟨B, hB⟩ := hQ.sub hX (by norm_num)
        obtain ⟨D, hD⟩ := hA.triple hB hB (by norm_num) (by norm_num)
        obtain ⟨E, hE⟩ := hB.triple hA hA (by norm_num) (by norm_num)
        rw [List.cons_append, List.singleton_append, contains3]
        split_ifs with h1 h2
        · exact ih _ _ ⟨D, hD, dot_zero hXn hD h1⟩ (.inr ⟨q, x, rfl, ⟨Q, hQ⟩, X, hX⟩)
        · exact ih _ _ ⟨E, hE, dot_zero hXn hE h2⟩ (.inr ⟨p, x, rfl, ⟨P, hP⟩, X, hX⟩)
        · exact .inl rfl
    · exact .inr (.inl ⟨rfl, hm hlt⟩)

theorem first_dir : Dir c1 c2 ⟨#v[-1, 0, 0]⟩ := by
  have one : (-1 : Fl Q64).Holds (-1 : Q64) := by
    have h : (1 : Fl Q64).Holds (1 : Q64) := holds1
    exact ⟨h.1.kneg, h.2.neg⟩
  have zer : (0 : Fl Q64).Holds (0 : Q64) := holdsZ
  have le1 : (1 : Q64) ≤ pq 115 := by
    rw [← BinQ.q_le]
    show 1 ≤ pow2 115
    rw [← pow2_zero]; exact pow2_le.mpr (by norm_num)
  have g1 : Gr (-438) ((-1 : Q64).q) := Gr.mono (e := 0) ⟨-1, by rw [pow2_zero, mul_one]; rfl⟩ (by norm_num)
  refine ⟨![-1, 0, 0], ⟨mk_holds (k := ![-1, 0, 0]) one zer zer, fun i => ?_, fun i => ?_, fun i hi => ?_⟩, fun h => ?_⟩
  · fin_cases i
    · show |(-1 : Q64)| ≤ _; rw [abs_neg, abs_one]; exact le1
    · show |(0 : Q64)| ≤ _; rw [abs_zero]; exact zero_le_one.trans le1
    · show |(0 : Q64)| ≤ _; rw [abs_zero]; exact zero_le_one.trans le1
  · fin_cases i
    · exact g1
    · exact Gr.zero _
    · exact Gr.zero _
  · fin_cases i
    · exact absurd hi (by rcases H.first with h | h <;> simp [h])
    · rfl
    · rfl
  · have := congrFun h 0
    exact absurd (show (-1 : Q64) = 0 from this) (by norm_num)

/-- C82: on two spheres in range the query answers `Some(true)`, or answers `Some(false)` and the balls are then apart up to
`128 u M`, or has not finished within the given number of turns; it never panics. -/
theorem C82_query (n : ℕ) :
    queryIntersect n (.sphere s) (.sphere t) = .ok (some true) ∨
    (queryIntersect n (.sphere s) (.sphere t) = .ok (some false) ∧
      r1.real + r2.real - 128 * BinQ.real (u : Q64) * M.real ≤ euc (toR BinQ.real c1 - toR BinQ.real c2)) ∨
    queryIntersect n (.sphere s) (.sphere t) = .error .diverge := by
  have hd := first_dir H hl1 hx1 hs hl2 hx2 ht
  obtain ⟨x, e, hx, -⟩ := gjk_step H hl1 hx1 hs hl2 hx2 ht hd
  have hq : queryIntersect n (.sphere s) (.sphere t) = queryLoop (.sphere s) (.sphere t) n [x] (V3.scl ⟨#v[-1, 0, 0]⟩ (-1)) := by
    unfold queryIntersect
    show (support (.sphere s) (.sphere t) ⟨#v[-1, 0, 0]⟩ >>= _) = _
    rw [e]
    simp only [Res.ok_bind, unwrap_some, V3.scale_eq]
  rw [hq]
  obtain ⟨D, hD, h0⟩ := hd
  exact gjk_loop H hl1 hx1 hs hl2 hx2 ht n _ _ ⟨-D, hD.negate (by norm_num), neg_ne_zero.mpr h0⟩ (.inl ⟨x, rfl, hx⟩)

end step
end main

section results
open Bin

variable {c1 c2 : Fin 3 → Q64} {r1 r2 M : Q64} {l1 l2 : List (Fl Q64)} {x1 x2 : Fl Q64} {s t : Sphere Q64}

theorem margin_real (M : Q64) : 128 * BinQ.real (u : Q64) * M.real = 2 ^ (-46 : ℤ) * M.real := by
  rw [real_u]; congr 1
  rw [show (-46 : ℤ) = 7 + -53 by norm_num, zpow_add₀ (by norm_num)]; norm_num

/-- C82: in binary64, on two spheres whose coordinates and radii are zero or between `2^-30` and `2^30`, the query never
panics: it answers `Some(true)` or `Some(false)`, or has not finished within the given number of turns. -/
theorem C82_no_panic_f64 (H : SphPair c1 c2 r1 r2 M) (hl1 : ListIn l1 c1) (hx1 : x1.Holds r1) (hs : Sphere.init l1 x1 = .ok s)
    (hl2 : ListIn l2 c2) (hx2 : x2.Holds r2) (ht : Sphere.init l2 x2 = .ok t) (n : ℕ) :
    (∃ b, queryIntersect n (.sphere s) (.sphere t) = .ok (some b)) ∨ queryIntersect n (.sphere s) (.sphere t) = .error .diverge := by
  rcases C82_query H hl1 hx1 hs hl2 hx2 ht n with h | ⟨h, -⟩ | h
  · exact .inl ⟨_, h⟩
  · exact .inl ⟨_, h⟩
  · exact .inr h

/-- C82: the answer `Some(false)` is given only for balls that overlap by at most `2^-46 M`, `M` bounding coordinates and radii. -/
theorem C82_disjoint_f64 (H : SphPair c1 c2 r1 r2 M) (hl1 : ListIn l1 c1) (hx1 : x1.Holds r1) (hs : Sphere.init l1 x1 = .ok s)
    (hl2 : ListIn l2 c2) (hx2 : x2.Holds r2) (ht : Sphere.init l2 x2 = .ok t) (n : ℕ)
    (h : queryIntersect n (.sphere s) (.sphere t) = .ok (some false)) :
    r1.real + r2.real - 2 ^ (-46 : ℤ) * M.real ≤ euc (toR BinQ.real c1 - toR BinQ.real c2) := by
  rcases C82_query H hl1 hx1 hs hl2 hx2 ht n with h' | ⟨-, h'⟩ | h'
  · rw [h'] at h; exact absurd h (by simp)
  · rwa [margin_real] at h'
  · rw [h'] at h; exact absurd h (by simp)

/-- C82, in terms of points: when the answer is `Some(false)`, no point lies inside both balls once their radii are shrunk by
`2^-47 M`. -/
theorem C82_points_f64 (H : SphPair c1 c2 r1 r2 M) (hl1 : ListIn l1 c1) (hx1 : x1.Holds r1) (hs : Sphere.init l1 x1 = .ok s)
    (hl2 : ListIn l2 c2) (hx2 : x2.Holds r2) (ht : Sphere.init l2 x2 = .ok t) (n : ℕ)
    (h : queryIntersect n (.sphere s) (.sphere t) = .ok (some false)) (q : R3)
    (h1 : euc (q - toR BinQ.real c1) < r1.real - 2 ^ (-47 : ℤ) * M.real) : r2.real - 2 ^ (-47 : ℤ) * M.real < euc (q - toR BinQ.real c2) := by
  have h2 := C82_disjoint_f64 H hl1 hx1 hs hl2 hx2 ht n h
  have h3 := euc_add_le (toR BinQ.real c1 - q) (q - toR BinQ.real c2)
  rw [sub_add_sub_cancel, euc_sub_comm (toR BinQ.real c1) q] at h3
  have e : (2 : ℝ) ^ (-46 : ℤ) = 2 * 2 ^ (-47 : ℤ) := by
    rw [show (-46 : ℤ) = 1 + -47 by norm_num, zpow_add₀ (by norm_num)]; norm_num
  rw [e] at h2
  generalize (2 : ℝ) ^ (-47 : ℤ) = k at *
  linarith

/-- C82: on balls that overlap by more than `2^-46 M` the answer, if any, is `Some(true)`. -/
theorem C82_overlap_f64 (H : SphPair c1 c2 r1 r2 M) (hl1 : ListIn l1 c1) (hx1 : x1.Holds r1) (hs : Sphere.init l1 x1 = .ok s)
    (hl2 : ListIn l2 c2) (hx2 : x2.Holds r2) (ht : Sphere.init l2 x2 = .ok t) (n : ℕ)
    (h : euc (toR BinQ.real c1 - toR BinQ.real c2) < r1.real + r2.real - 2 ^ (-46 : ℤ) * M.real) :
    queryIntersect n (.sphere s) (.sphere t) = .ok (some true) ∨ queryIntersect n (.sphere s) (.sphere t) = .error .diverge := by
  rcases C82_query H hl1 hx1 hs hl2 hx2 ht n with h' | ⟨-, h'⟩ | h'
  · exact .inl h'
  · rw [margin_real] at h'; exact absurd h (not_lt.mpr h')
  · exact .inr h'

/-! Concrete cases: the spheres about `(3, 0, 6)` and the origin, of radius 2 (apart) -/

theorem pair_306 : SphPair O306 Z3 ((2 : ℚ) : Q64) ((2 : ℚ) : Q64) eightQ := by
  have lo (a : ℚ) (h : a = 0 ∨ 1 ≤ |a|) : (a : Q64) = 0 ∨ ((2 : ℚ) ^ (-30 : ℤ) : ℚ) ≤ |(a : Q64)| :=
    h.imp id fun h => le_trans (show (2 : ℚ) ^ (-30 : ℤ) ≤ 1 by norm_num) h
  refine ⟨fun i => ?_, fun i => ?_, lo 2 (by norm_num), lo 2 (by norm_num), O306_eight, Z3_eight, eight_of 2 (by norm_num),
    eight_of 2 (by norm_num), ?_, .inl ?_⟩
  · fin_cases i
    · exact lo 3 (by norm_num)
    · exact lo 0 (by norm_num)
    · exact lo 6 (by norm_num)
  · fin_cases i <;> exact lo 0 (by norm_num)
  · exact (show (8 : ℚ) ≤ 2 ^ (30 : ℤ) by norm_num)
  · exact (show (3 : ℚ) ≠ 0 by norm_num)

example (n : ℕ) := C82_no_panic_f64 pair_306 lO306 holds2 rfl lZ3 holds2 rfl n
example := C82_disjoint_f64 pair_306 lO306 holds2 rfl lZ3 holds2 rfl 5 (by decide +kernel)
example := C82_points_f64 pair_306 lO306 holds2 rfl lZ3 holds2 rfl 5 (by decide +kernel)

theorem pair_122 : SphPair D122 Z3 ((2 : ℚ) : Q64) ((2 : ℚ) : Q64) eightQ := by
  have lo (a : ℚ) (h : a = 0 ∨ 1 ≤ |a|) : (a : Q64) = 0 ∨ ((2 : ℚ) ^ (-30 : ℤ) : ℚ) ≤ |(a : Q64)| :=
    h.imp id fun h => le_trans (show (2 : ℚ) ^ (-30 : ℤ) ≤ 1 by norm_num) h
  refine ⟨fun i => ?_, fun i => ?_, lo 2 (by norm_num), lo 2 (by norm_num), fun i => ?_, Z3_eight, eight_of 2 (by norm_num),
    eight_of 2 (by norm_num), ?_, .inl ?_⟩
  · fin_cases i
    · exact lo 1 (by norm_num)
    · exact lo 2 (by norm_num)
    · exact lo 2 (by norm_num)
  · fin_cases i <;> exact lo 0 (by norm_num)
  · fin_cases i
    · exact eight_of 1 (by norm_num)
    · exact eight_of 2 (by norm_num)
    · exact eight_of 2 (by norm_num)
  · exact (show (8 : ℚ) ≤ 2 ^ (30 : ℤ) by norm_num)
  · exact (show (1 : ℚ) ≠ 0 by norm_num)

/-- the spheres of radius 2 about `(1, 2, 2)` and the origin overlap -/
example (n : ℕ) := C82_overlap_f64 pair_122 lD122 holds2 rfl lZ3 holds2 rfl n (by
  rw [toR_D122, toR_Z3, sub_zero, euc_122]
  have h2 : (BinQ.real : Q64 →+* ℝ) (2 : ℚ) = 2 := by
    show (((2 : ℚ) : ℚ) : ℝ) = 2
    norm_num
  have h8 : BinQ.real eightQ = 8 := by
    show (((8 : ℚ) : ℚ) : ℝ) = 8
    norm_num
  rw [h2, h8]; norm_num)

/-- radius of the example below, a little more than `√179 - 1` -/
def r82 : Q64 := (6968807103216487 / 562949953421312 : ℚ)

/-- C82: the tolerance is needed: two spheres that overlap (the sum of the radii exceeds the distance `√179` of the centres)
are reported as disjoint. -/
theorem C82_exact_false : ∃ (a b : Sphere Q64),
    Sphere.init [.fin 9, .fin 7, .fin 7] (.fin r82) = .ok a ∧ Sphere.init [0, 0, 0] 1 = .ok b ∧
    (9 ^ 2 + 7 ^ 2 + 7 ^ 2 : Q64) < (r82 + 1) ^ 2 ∧
    queryIntersect 40 (.sphere a) (.sphere b) = .ok (some false) :=
  ⟨_, _, rfl, rfl, by decide +kernel, by decide +kernel⟩

end results

end Mazth
