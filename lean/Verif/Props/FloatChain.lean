import Verif.Props.FloatRotate
import Verif.Props.FloatRayRay

/-!
# C90: long chains of products and rotations in floating point

A program multiplies orientations turn after turn (`p = p.mul(q)`), or rotates the same vector again and again.  The error grows
at most linearly in the number of turns.  Without normalisation the length of the running product drifts without bound; with a
normalisation in every turn it stays within `8u` of one for ever.
-/

set_option linter.unusedSectionVars false
set_option autoImplicit false

namespace Mazth

open Matrix RndErr Quaternion

/-! ### real computations -/

theorem cs4 (a b : Fin 4 → ℝ) : |a 0 * b 0| + |a 1 * b 1| + |a 2 * b 2| + |a 3 * b 3| ≤ euc a * euc b := by
  have h : (|a 0 * b 0| + |a 1 * b 1| + |a 2 * b 2| + |a 3 * b 3|) ^ 2 ≤ (euc a * euc b) ^ 2 := by
    have e : (euc a * euc b) ^ 2 = (euc a * euc a) * (euc b * euc b) := by ring
    rw [e, euc_sq, euc_sq, dotProduct, dotProduct, Fin.sum_univ_four, Fin.sum_univ_four]
    simp only [abs_mul]
    rw [← abs_mul_abs_self (a 0), ← abs_mul_abs_self (a 1), ← abs_mul_abs_self (a 2), ← abs_mul_abs_self (a 3),
      ← abs_mul_abs_self (b 0), ← abs_mul_abs_self (b 1), ← abs_mul_abs_self (b 2), ← abs_mul_abs_self (b 3)]
    generalize |a 0| = p0, |a 1| = p1, |a 2| = p2, |a 3| = p3, |b 0| = q0, |b 1| = q1, |b 2| = q2, |b 3| = q3
    nlinarith only [sq_nonneg (p0 * q1 - p1 * q0), sq_nonneg (p0 * q2 - p2 * q0), sq_nonneg (p0 * q3 - p3 * q0),
      sq_nonneg (p1 * q2 - p2 * q1), sq_nonneg (p1 * q3 - p3 * q1), sq_nonneg (p2 * q3 - p3 * q2)]
  exact (abs_le_of_sq_le_sq' h (mul_nonneg (euc_nonneg _) (euc_nonneg _))).2

/-- a quaternion with small components -/
theorem norm_le_comp {X : ℍ[ℝ]} {e : ℝ} (h0 : |X.imI| ≤ e) (h1 : |X.imJ| ≤ e) (h2 : |X.imK| ≤ e) (h3 : |X.re| ≤ e) : ‖X‖ ≤ 2 * e := by
  have e0 := (abs_nonneg _).trans h0
  have h : ‖X‖ * ‖X‖ ≤ (2 * e) * (2 * e) := by
    rw [norm_quat, euc_sq, dotProduct, Fin.sum_univ_four]
    simp only [Matrix.cons_val]
    have q : ∀ {x : ℝ}, |x| ≤ e → x * x ≤ e * e := fun {x} hx => by
      rw [← abs_mul_abs_self]; exact mul_le_mul hx hx (abs_nonneg _) e0
    linarith [q h0, q h1, q h2, q h3]
  exact abs_le_of_sq_le_sq' (by rw [sq, sq]; exact h) (by positivity) |>.2

/-- norms of products against unit quaternions -/
theorem mul_dist {C Q V U R : ℍ[ℝ]} (hU : ‖U‖ = 1) {E d f : ℝ} (hE : ‖C - V‖ ≤ E) (hd : ‖Q - U‖ ≤ d) (hf : ‖R - C * Q‖ ≤ f) :
    ‖R - V * U‖ ≤ f + ‖C‖ * d + E := by
  have e : R - V * U = (R - C * Q) + C * (Q - U) + (C - V) * U := by noncomm_ring
  rw [e]
  refine (norm_add_le _ _).trans (add_le_add ((norm_add_le _ _).trans (add_le_add hf ?_)) ?_)
  · rw [norm_mul]; exact mul_le_mul_of_nonneg_left hd (norm_nonneg _)
  · rw [norm_mul, hU, mul_one]; exact hE

theorem norm_of_near {N U : ℍ[ℝ]} (hU : ‖U‖ = 1) {d : ℝ} (h : ‖N - U‖ ≤ d) : |‖N‖ - 1| ≤ d := by
  have := (abs_norm_sub_norm_le N U).trans h
  rwa [hU] at this

/-- scaling to length one moves a quaternion by its distance from length one -/
theorem unit_dist {C : ℍ[ℝ]} (h : C ≠ 0) : ‖‖C‖⁻¹ • C - C‖ = |‖C‖ - 1| := by
  have hp : 0 < ‖C‖ := norm_pos_iff.mpr h
  have e : ‖C‖⁻¹ • C - C = (‖C‖⁻¹ - 1) • C := by rw [sub_smul, one_smul]
  rw [e, norm_smul, Real.norm_eq_abs, ← abs_of_pos hp, ← abs_mul, abs_of_pos hp, sub_mul, inv_mul_cancel₀ hp.ne', one_mul, abs_sub_comm]

section floats

variable {K : Type} [Field K] [LinearOrder K] [IsStrictOrderedRing K] [Fmt K] [LawfulFmt K] [RndErr K]
variable (φ : K →+* ℝ) (hφ : StrictMono φ)

/-- the float quaternion `q` is finite and at distance at most `d` from the unit quaternion `U` -/
def NearU (d : ℝ) (q : Quat (Fl K)) (U : ℍ[ℝ]) : Prop := ‖U‖ = 1 ∧ ∃ Q, q.Holds Q ∧ ‖toH φ Q - U‖ ≤ d

theorem NearU.mono {d d' : ℝ} {q : Quat (Fl K)} {U : ℍ[ℝ]} (h : NearU φ d q U) (hd : d ≤ d') : NearU φ d' q U := by
  obtain ⟨hU, Q, hQ, h⟩ := h
  exact ⟨hU, Q, hQ, h.trans hd⟩

theorem NearU.nonneg {d : ℝ} {q : Quat (Fl K)} {U : ℍ[ℝ]} (h : NearU φ d q U) : 0 ≤ d := by
  obtain ⟨_, Q, _, h⟩ := h
  exact (norm_nonneg _).trans h

include hφ

theorem comp_le_norm {Q : ℍ[K]} {B : ℕ} (h : ‖toH φ Q‖ ≤ B) (i : Fin 4) : |quatVec Q i| ≤ B := by
  by_contra hc
  have h1 := hφ (not_le.mp hc)
  rw [map_abs_mono φ hφ, map_natCast] at h1
  have := euc_coord (fun i => φ (quatVec Q i)) i
  rw [← toH_norm φ] at this
  linarith

theorem g4_le : (1 + φ u) ^ 4 - 1 ≤ 41 / 10 * φ u ∧ 4 * (1 + φ u) ^ 3 ≤ 43 / 10 := by
  obtain ⟨h0, h1, -⟩ := phi_u φ hφ
  generalize φ u = t at *
  constructor
  · have e : (1 + t) ^ 4 - 1 = t * (4 + 6 * t + t * t * (4 + t)) := by ring
    rw [e]
    have h2 : t * t ≤ 1 / 64 * (1 / 64) := mul_le_mul h1 h1 h0.le (by norm_num)
    have h3 : t * t * (4 + t) ≤ 1 / 64 * (1 / 64) * 5 := mul_le_mul h2 (by linarith) (by linarith) (by norm_num)
    nlinarith
  · have : (1 + t) ^ 3 ≤ (65 / 64) ^ 3 := by gcongr; linarith
    linarith

/-- one product of two quaternions of size at most two -/
theorem mul_step {p q : Quat (Fl K)} {P Q : ℍ[K]} (hp : p.Holds P) (hq : q.Holds Q) (hP : ‖toH φ P‖ ≤ 2) (hQ : ‖toH φ Q‖ ≤ 2)
    (he : 64 * (eta : K) ≤ u) (ho : (25 : K) ≤ omega) :
    ∃ R, (p.mul q).Holds R ∧ ‖toH φ R - toH φ P * toH φ Q‖ ≤ 41 / 5 * φ u * (‖toH φ P‖ * ‖toH φ Q‖) + φ u / 4 := by
  have he64 : (eta : K) ≤ 1 / 64 := by linarith [u_le (K := K), eta_pos (K := K)]
  obtain ⟨hu, hul, heta⟩ := phi_u φ hφ
  have he' : 64 * φ eta ≤ φ u := by have := hφ.monotone he; rwa [map_mul, map_ofNat] at this
  have l := (QLim.of_holds hp (comp_le_norm φ hφ (B := 2) (by exact_mod_cast hP))).mul
    (QLim.of_holds hq (comp_le_norm φ hφ (B := 2) (by exact_mod_cast hQ))) he64 (by push_cast; linarith)
  obtain ⟨⟨a, ha, -⟩, ⟨b, hb, -⟩, ⟨c, hc, -⟩, ⟨d, hd, -⟩⟩ := l
  refine ⟨⟨d, a, b, c⟩, ⟨ha, hb, hc, hd⟩, ?_⟩
  obtain ⟨e1, e2, e3, e4⟩ := C58_quat_mul p q P Q hp hq
  have f1 := hφ.monotone (e1 _ ha.1)
  have f2 := hφ.monotone (e2 _ hb.1)
  have f3 := hφ.monotone (e3 _ hc.1)
  have f4 := hφ.monotone (e4 _ hd.1)
  obtain ⟨g1, g2⟩ := g4_le φ hφ
  have nP := toH_norm φ P
  have nQ := toH_norm φ Q
  simp only [map_abs_mono φ hφ, map_add, map_mul, map_sub, map_pow, map_one, map_ofNat] at f1 f2 f3 f4
  have hg : 0 ≤ (1 + φ u) ^ 4 - 1 := by
    have := one_le_pow₀ (show (1 : ℝ) ≤ 1 + φ u by linarith) (n := 4); linarith
  have key : ∀ {S x : ℝ}, S ≤ ‖toH φ P‖ * ‖toH φ Q‖ → |x| ≤ ((1 + φ u) ^ 4 - 1) * S + 4 * (1 + φ u) ^ 3 * φ eta →
      |x| ≤ 41 / 10 * φ u * (‖toH φ P‖ * ‖toH φ Q‖) + φ u / 8 := fun {S x} hS hx => by
    have n0 := mul_nonneg (norm_nonneg (toH φ P)) (norm_nonneg (toH φ Q))
    have h1 := mul_le_mul_of_nonneg_left hS hg
    have h2 := mul_le_mul_of_nonneg_right g1 n0
    have h3 := mul_le_mul_of_nonneg_right g2 heta.le
    linarith
  have nP4 : ∀ s : Fin 4 → ℝ, s ⬝ᵥ s = (toH φ P).re * (toH φ P).re + (toH φ P).imI * (toH φ P).imI + (toH φ P).imJ * (toH φ P).imJ + (toH φ P).imK * (toH φ P).imK →
      euc s = ‖toH φ P‖ := fun s hs => by
    rw [norm_quat]; apply euc_of_dot; rw [hs, dotProduct, Fin.sum_univ_four]; simp only [Matrix.cons_val]; ring
  have nQ4 : ∀ s : Fin 4 → ℝ, s ⬝ᵥ s = (toH φ Q).re * (toH φ Q).re + (toH φ Q).imI * (toH φ Q).imI + (toH φ Q).imJ * (toH φ Q).imJ + (toH φ Q).imK * (toH φ Q).imK →
      euc s = ‖toH φ Q‖ := fun s hs => by
    rw [norm_quat]; apply euc_of_dot; rw [hs, dotProduct, Fin.sum_univ_four]; simp only [Matrix.cons_val]; ring
  have cP := nP4 ![φ P.re, φ P.imI, φ P.imJ, φ P.imK] (by rw [dotProduct, Fin.sum_univ_four]; simp)
  have cs : ∀ a0 a1 a2 a3 : ℝ, a0 * a0 + a1 * a1 + a2 * a2 + a3 * a3 = (toH φ Q).re * (toH φ Q).re + (toH φ Q).imI * (toH φ Q).imI + (toH φ Q).imJ * (toH φ Q).imJ + (toH φ Q).imK * (toH φ Q).imK →
      |φ P.re * a0| + |φ P.imI * a1| + |φ P.imJ * a2| + |φ P.imK * a3| ≤ ‖toH φ P‖ * ‖toH φ Q‖ := fun a0 a1 a2 a3 h => by
    have := cs4 ![φ P.re, φ P.imI, φ P.imJ, φ P.imK] ![a0, a1, a2, a3]
    rw [cP, nQ4 ![a0, a1, a2, a3] (by rw [dotProduct, Fin.sum_univ_four]; exact h)] at this
    exact this
  refine (norm_le_comp (e := 41 / 10 * φ u * (‖toH φ P‖ * ‖toH φ Q‖) + φ u / 8) ?_ ?_ ?_ ?_).trans (le_of_eq (by ring))
  · refine key (cs (φ Q.imI) (φ Q.re) (φ Q.imK) (φ Q.imJ) (by simp; ring)) ?_
    rw [← toH_mul]
    change |φ a - φ (P * Q).imI| ≤ _
    simpa using f1
  · refine key (cs (φ Q.imJ) (φ Q.imK) (φ Q.re) (φ Q.imI) (by simp; ring)) ?_
    rw [← toH_mul]
    change |φ b - φ (P * Q).imJ| ≤ _
    simpa using f2
  · refine key (cs (φ Q.imK) (φ Q.imJ) (φ Q.imI) (φ Q.re) (by simp; ring)) ?_
    rw [← toH_mul]
    change |φ c - φ (P * Q).imK| ≤ _
    simpa using f3
  · refine key (cs (φ Q.re) (φ Q.imI) (φ Q.imJ) (φ Q.imK) (by simp)) ?_
    rw [← toH_mul]
    change |φ d - φ (P * Q).re| ≤ _
    simpa using f4

/-- normalising a quaternion of length close to one, whether or not squares underflow -/
theorem renorm_close {q : Quat (Fl K)} {Q : ℍ[K]} (hq : q.Holds Q) (h1 : 7 / 8 ≤ ‖toH φ Q‖) (h2 : ‖toH φ Q‖ ≤ 2)
    (he : 64 * (eta : K) ≤ u) (ho : (25 : K) ≤ omega) :
    ∃ n N, q.normalize = .ok n ∧ n.Holds N ∧ ‖toH φ N - (‖toH φ Q‖⁻¹ • toH φ Q)‖ ≤ 8 * φ u := by
  have he64 : (eta : K) ≤ 1 / 64 := by linarith [u_le (K := K), eta_pos (K := K)]
  obtain ⟨hu, hul, heta⟩ := phi_u φ hφ
  have he' : 64 * φ eta ≤ φ u := by have := hφ.monotone he; rwa [map_mul, map_ofNat] at this
  have hpos : 0 < ‖toH φ Q‖ := by linarith
  obtain ⟨p1, p2, p3, p4⟩ := QLim.of_holds hq (comp_le_norm φ hφ (B := 2) (by exact_mod_cast h2))
  have m : ∀ {x : Fl K}, Lim x (2 : ℕ) → Lim (x * x) (65 / 64 * ((2 : ℕ) * (2 : ℕ)) + eta) := fun h => h.mul h (by push_cast; linarith)
  have l := Lim.sum4 (m p1) (m p2) (m p3) (m p4) (by push_cast; linarith)
  obtain ⟨s, hs⟩ := l.fin
  have ap := ((((Appr.prod hq.1 hq.1).add (Appr.prod hq.2.1 hq.2.1)).add ((Appr.prod hq.2.2.1 hq.2.2.1).mono (by norm_num) le_rfl)).add
      ((Appr.prod hq.2.2.2 hq.2.2.2).mono (by norm_num) le_rfl)).mono le_rfl under4
  have hS : Q.imI * Q.imI + Q.imJ * Q.imJ + Q.imK * Q.imK + Q.re * Q.re = normSq Q := by rw [Quaternion.normSq_def']; ring
  have e := ap.err s hs
  rw [show (1 + 1 + 1 + 1 : ℕ) = 4 from rfl] at e
  simp only [abs_mul_self] at e
  rw [hS] at e
  have e' := hφ.monotone e
  simp only [map_abs_mono φ hφ, map_add, map_mul, map_sub, map_pow, map_one, map_ofNat, toH_normSq] at e'
  obtain ⟨g1, g2⟩ := g4_le φ hφ
  have hN0 : 49 / 64 ≤ ‖toH φ Q‖ * ‖toH φ Q‖ := by nlinarith
  have h3 := mul_le_mul_of_nonneg_right g2 heta.le
  have h4 := mul_le_mul_of_nonneg_right g1 (show 0 ≤ ‖toH φ Q‖ * ‖toH φ Q‖ by linarith)
  have h5 : φ u * (49 / 64) ≤ φ u * (‖toH φ Q‖ * ‖toH φ Q‖) := mul_le_mul_of_nonneg_left hN0 hu.le
  have e2 : |φ s - ‖toH φ Q‖ * ‖toH φ Q‖| ≤ 9 / 2 * φ u * (‖toH φ Q‖ * ‖toH φ Q‖) := by linarith
  set n := ‖toH φ Q‖ with hn
  obtain ⟨e3, e4⟩ := abs_le.mp e2
  have hs0 : 0 < s := by
    by_contra hc
    have := hφ.monotone (not_lt.mp hc)
    rw [map_zero] at this
    nlinarith
  obtain ⟨m', hm⟩ : ∃ m', q.length.Is m' :=
    Fl.sqrt_fin hs hs0.le ((le_abs_self s).trans ((l.is_le hs).trans (by push_cast; linarith)))
  obtain ⟨r0, r1, r2⟩ := Fl.sqrt_err hs (Fl.wf_add _ _) hm
  have r0' : 0 ≤ φ m' := by have := hφ.monotone r0; rwa [map_zero] at this
  have r1' := hφ.monotone r1
  have r2' := hφ.monotone r2
  simp only [map_mul, map_sub, map_add, map_pow, map_one] at r1' r2'
  have hmr : |φ m' - n| ≤ 4 * φ u * n := by
    generalize φ u = t at *
    generalize φ s = σ at *
    generalize φ m' = μ at *
    have up : μ ^ 2 ≤ ((1 + 4 * t) * n) ^ 2 := by
      have a1 : (1 + t) ^ 2 * σ ≤ (1 + t) ^ 2 * ((1 + 9 / 2 * t) * (n * n)) := by
        apply mul_le_mul_of_nonneg_left _ (sq_nonneg _); linarith
      have a2 : (1 + t) ^ 2 * (1 + 9 / 2 * t) ≤ (1 + 4 * t) ^ 2 := by nlinarith [mul_nonneg hu.le hu.le, mul_nonneg (mul_nonneg hu.le hu.le) hu.le, mul_le_mul hul hul hu.le (by norm_num)]
      have a3 := mul_le_mul_of_nonneg_right a2 (show 0 ≤ n * n by positivity)
      linarith [show ((1 + 4 * t) * n) ^ 2 = (1 + 4 * t) ^ 2 * (n * n) by ring]
    have lo : ((1 - 4 * t) * n) ^ 2 ≤ μ ^ 2 := by
      have a1 : (1 - t) ^ 2 * ((1 - 9 / 2 * t) * (n * n)) ≤ (1 - t) ^ 2 * σ := by
        apply mul_le_mul_of_nonneg_left _ (sq_nonneg _); linarith
      have a2 : (1 - 4 * t) ^ 2 ≤ (1 - t) ^ 2 * (1 - 9 / 2 * t) := by nlinarith [mul_nonneg hu.le hu.le, mul_nonneg (mul_nonneg hu.le hu.le) hu.le, mul_le_mul hul hul hu.le (by norm_num)]
      have a3 := mul_le_mul_of_nonneg_right a2 (show 0 ≤ n * n by positivity)
      linarith [show ((1 - 4 * t) * n) ^ 2 = (1 - 4 * t) ^ 2 * (n * n) by ring]
    have u1 := (abs_le_of_sq_le_sq' up (by positivity)).2
    have u2 := (abs_le_of_sq_le_sq' lo r0').2
    rw [abs_le]; constructor <;> linarith
  have hX : ∀ i : Fin 4, ((![q.x, q.y, q.z, q.w] : Fin 4 → Fl K) i).Is (quatVec Q i) := fun i => by
    fin_cases i
    · exact hq.1.1
    · exact hq.2.1.1
    · exact hq.2.2.1.1
    · exact hq.2.2.2.1
  have hne : quatVec Q ≠ 0 := by
    intro h
    rw [toH_norm, h, show (fun i => φ ((0 : Fin 4 → K) i)) = 0 from funext fun i => map_zero φ, (euc_eq_zero _).mpr rfl] at hn
    linarith
  rw [hn, toH_norm] at hmr
  obtain ⟨hpos', N, hN, k1, -⟩ := unit_close φ hφ (c := 4) le_rfl le_rfl _ _ hX hne hm (by exact_mod_cast hmr)
  have e6 : ((4 : ℕ) : ℝ) + 2 = 6 := by norm_num
  rw [e6, ← toH_norm φ] at k1
  have hlt : Fl.lt 0 q.length = true := by
    rcases hm.kcases with e | ⟨-, rfl⟩
    · rw [e]; exact decide_eq_true hpos'
    · exact absurd hpos' (lt_irrefl _)
  have hnorm : q.normalize = .ok ⟨q.x / q.length, q.y / q.length, q.z / q.length, q.w / q.length⟩ := by
    unfold Quat.normalize; simp [hlt]
  obtain ⟨R, rfl⟩ : ∃ R : ℍ[K], quatVec R = N := ⟨⟨N 3, N 0, N 1, N 2⟩, by funext i; fin_cases i <;> rfl⟩
  clear_value n
  subst hn
  refine ⟨_, R, hnorm, ⟨⟨hN 0, Fl.wf_div _ _⟩, ⟨hN 1, Fl.wf_div _ _⟩, ⟨hN 2, Fl.wf_div _ _⟩, ⟨hN 3, Fl.wf_div _ _⟩⟩, ?_⟩
  have hw : euc (fun i => φ (quatVec Q i) / ‖toH φ Q‖) = 1 := by
    have : ‖(‖toH φ Q‖⁻¹ • toH φ Q)‖ = 1 := by
      rw [norm_smul, norm_inv, norm_norm, inv_mul_cancel₀ hpos.ne']
    rw [← this, norm_quat (_ • _)]
    congr 1
    funext i; fin_cases i <;> simp [quatVec, div_eq_inv_mul]
  have k2 := near_unit hw (by positivity) heta.le k1
  rw [norm_quat]
  refine le_trans (le_of_eq ?_) (k2.trans (by linarith))
  congr 1
  funext i; fin_cases i <;> simp [quatVec, div_eq_inv_mul]

/-- one turn of a product without normalisation -/
theorem chain_step {E d : ℝ} {p q : Quat (Fl K)} {V U : ℍ[ℝ]} (hp : NearU φ E p V) (hq : NearU φ d q U) (hE : E ≤ 1) (hd : d ≤ 1 / 2)
    (he : 64 * (eta : K) ≤ u) (ho : (25 : K) ≤ omega) : NearU φ (E + (2 * d + 32 * φ u)) (p.mul q) (V * U) := by
  obtain ⟨hV, P, hP, h1⟩ := hp
  obtain ⟨hU, Q, hQ, h2⟩ := hq
  obtain ⟨hu, hul, heta⟩ := phi_u φ hφ
  have nP : ‖toH φ P‖ ≤ 2 := by linarith [(abs_le.mp (norm_of_near hV h1)).2]
  have nQ : ‖toH φ Q‖ ≤ 3 / 2 := by linarith [(abs_le.mp (norm_of_near hU h2)).2]
  obtain ⟨R, hR, h3⟩ := mul_step φ hφ hP hQ nP (by linarith) he ho
  refine ⟨by rw [norm_mul, hV, hU, one_mul], R, hR, (mul_dist hU h1 h2 h3).trans ?_⟩
  have d0 : 0 ≤ d := (norm_nonneg _).trans h2
  have a1 : ‖toH φ P‖ * ‖toH φ Q‖ ≤ 2 * (3 / 2) := mul_le_mul nP nQ (norm_nonneg _) (by norm_num)
  have a2 := mul_le_mul_of_nonneg_left a1 hu.le
  have a3 := mul_le_mul_of_nonneg_right nP d0
  linarith

/-- C90: the product of `n` quaternions close to unit ones.  `p` is within `d0` of the unit quaternion `V` and each factor within `d` of
its unit quaternion.  As long as the bound stays below one, nothing overflows and the computed product, multiplied from left to right, is
within `d0 + n (2 d + 32 u)` of the exact product of the unit quaternions; so its length is one up to the same bound. -/
theorem C90_product {d0 d : ℝ} (hd : 0 ≤ d) {p : Quat (Fl K)} {V : ℍ[ℝ]} {qs : List (Quat (Fl K))} {Us : List ℍ[ℝ]} (hp : NearU φ d0 p V)
    (hqs : List.Forall₂ (NearU φ d) qs Us) (hb : d0 + qs.length * (2 * d + 32 * φ u) ≤ 1) (he : 64 * (eta : K) ≤ u) (ho : (25 : K) ≤ omega) :
    ∃ R, (qs.foldl Quat.mul p).Holds R ∧ ‖toH φ R - V * Us.prod‖ ≤ d0 + qs.length * (2 * d + 32 * φ u) ∧
      |‖toH φ R‖ - 1| ≤ d0 + qs.length * (2 * d + 32 * φ u) := by
  obtain ⟨hu, hul, heta⟩ := phi_u φ hφ
  have key : NearU φ (d0 + qs.length * (2 * d + 32 * φ u)) (qs.foldl Quat.mul p) (V * Us.prod) := by
    induction hqs generalizing p V d0 with
    | nil => simpa using hp
    | @cons q U qs Us h hs ih =>
      rw [List.length_cons] at hb ⊢
      push_cast at hb ⊢
      have n0 : (0 : ℝ) ≤ qs.length := by positivity
      have n1 : 0 ≤ (qs.length : ℝ) * (2 * d + 32 * φ u) := by positivity
      have d00 := hp.nonneg
      have st := chain_step φ hφ hp h (by linarith) (by linarith) he ho
      have := ih st (by linarith)
      rw [List.prod_cons, ← mul_assoc, List.foldl_cons]
      exact this.mono φ (by linarith)
  obtain ⟨hV, R, hR, h⟩ := key
  exact ⟨R, hR, h, norm_of_near hV h⟩

/-- the state of a chain which is normalised in every turn: within `E` of the exact product, and of length one up to `8u` -/
def NearN (E : ℝ) (q : Quat (Fl K)) (U : ℍ[ℝ]) : Prop := ‖U‖ = 1 ∧ ∃ Q, q.Holds Q ∧ ‖toH φ Q - U‖ ≤ E ∧ |‖toH φ Q‖ - 1| ≤ 8 * φ u

theorem renorm_step {E d : ℝ} {p q : Quat (Fl K)} {V U : ℍ[ℝ]} (hp : NearN φ E p V) (hq : NearU φ d q U) (hd : d ≤ 1 / 16)
    (hu' : (u : K) ≤ 1 / 1024) (he : 64 * (eta : K) ≤ u) (ho : (25 : K) ≤ omega) :
    ∃ n, (p.mul q).normalize = .ok n ∧ NearN φ (E + (3 * d + 64 * φ u)) n (V * U) := by
  obtain ⟨hV, P, hP, h1, hn⟩ := hp
  obtain ⟨hU, Q, hQ, h2⟩ := hq
  obtain ⟨hu, -, heta⟩ := phi_u φ hφ
  have hul : φ u ≤ 1 / 1024 := by have := hφ.monotone hu'; rwa [map_div₀, map_one, map_ofNat] at this
  have d0 : 0 ≤ d := (norm_nonneg _).trans h2
  obtain ⟨p1, p2⟩ := abs_le.mp hn
  obtain ⟨q1, q2⟩ := abs_le.mp (norm_of_near hU h2)
  obtain ⟨C, hC, h3⟩ := mul_step φ hφ hP hQ (by linarith) (by linarith) he ho
  have a1 : ‖toH φ P‖ * ‖toH φ Q‖ ≤ (1 + 8 * φ u) * (1 + d) := mul_le_mul (by linarith) (by linarith) (norm_nonneg _) (by linarith)
  have a1' : (1 - 8 * φ u) * (1 - d) ≤ ‖toH φ P‖ * ‖toH φ Q‖ := mul_le_mul (by linarith) (by linarith) (by linarith) (norm_nonneg _)
  have ud : φ u * d ≤ φ u * (1 / 16) := mul_le_mul_of_nonneg_left hd hu.le
  have ud0 : 0 ≤ φ u * d := mul_nonneg hu.le d0
  have a2 : ‖toH φ P‖ * ‖toH φ Q‖ ≤ 9 / 8 := by nlinarith
  have a3 := mul_le_mul_of_nonneg_left a2 hu.le
  have h3' : ‖toH φ C - toH φ P * toH φ Q‖ ≤ 10 * φ u := by linarith
  have b1 := (abs_norm_sub_norm_le (toH φ C) (toH φ P * toH φ Q)).trans h3'
  rw [norm_mul] at b1
  obtain ⟨b2, b3⟩ := abs_le.mp b1
  have cn : |‖toH φ C‖ - 1| ≤ d + 20 * φ u := by
    rw [abs_le]; constructor <;> nlinarith
  obtain ⟨c1, c2⟩ := abs_le.mp cn
  have hC0 : toH φ C ≠ 0 := norm_pos_iff.mp (by linarith)
  obtain ⟨n, N, e, hN, h4⟩ := renorm_close φ hφ hC (by linarith) (by linarith) he ho
  have hW : ‖(‖toH φ C‖⁻¹ • toH φ C)‖ = 1 := by
    rw [norm_smul, norm_inv, norm_norm, inv_mul_cancel₀ (norm_pos_iff.mpr hC0).ne']
  refine ⟨n, e, by rw [norm_mul, hV, hU, one_mul], N, hN, ?_, norm_of_near hW h4⟩
  have m1 := mul_dist hU h1 h2 h3'
  have m2 := unit_dist hC0
  have m3 : ‖toH φ P‖ * d ≤ (1 + 8 * φ u) * d := mul_le_mul_of_nonneg_right (by linarith) d0
  have tri : ‖toH φ N - V * U‖ ≤ ‖toH φ N - ‖toH φ C‖⁻¹ • toH φ C‖ + ‖‖toH φ C‖⁻¹ • toH φ C - toH φ C‖ + ‖toH φ C - V * U‖ := by
    have := norm_add₃_le (a := toH φ N - ‖toH φ C‖⁻¹ • toH φ C) (b := ‖toH φ C‖⁻¹ • toH φ C - toH φ C) (c := toH φ C - V * U)
    rwa [sub_add_sub_cancel, sub_add_sub_cancel] at this
  rw [m2] at tri
  nlinarith

/-- C90: the product of `n` quaternions, normalised in every turn (`p = p.mul(q).normalize()`).  For every number of turns nothing panics or
overflows, the length is one up to `8 u`, and the distance from the exact product of the unit quaternions grows by at most `3 d + 64 u`
in every turn. -/
theorem C90_renormalised {d0 d : ℝ} (hd : d ≤ 1 / 16) {p : Quat (Fl K)} {P : ℍ[K]} {V : ℍ[ℝ]} {qs : List (Quat (Fl K))} {Us : List ℍ[ℝ]}
    (hp : p.Holds P) (hV : ‖V‖ = 1) (hp0 : ‖toH φ P - V‖ ≤ d0) (hp1 : |‖toH φ P‖ - 1| ≤ 8 * φ u)
    (hqs : List.Forall₂ (NearU φ d) qs Us) (hu' : (u : K) ≤ 1 / 1024) (he : 64 * (eta : K) ≤ u) (ho : (25 : K) ≤ omega) :
    ∃ n N, qs.foldlM (fun p q => (p.mul q).normalize) p = .ok n ∧ n.Holds N ∧ |‖toH φ N‖ - 1| ≤ 8 * φ u ∧
      ‖toH φ N - V * Us.prod‖ ≤ d0 + qs.length * (3 * d + 64 * φ u) := by
  have key : ∃ n, qs.foldlM (fun p q => (p.mul q).normalize) p = .ok n ∧ NearN φ (d0 + qs.length * (3 * d + 64 * φ u)) n (V * Us.prod) := by
    have st0 : NearN φ d0 p V := ⟨hV, P, hp, hp0, hp1⟩
    clear hp hp0 hp1 hV
    induction hqs generalizing p V d0 with
    | nil => exact ⟨p, rfl, by simpa using st0⟩
    | @cons q U qs Us h hs ih =>
      obtain ⟨n, e, st⟩ := renorm_step φ hφ st0 h hd hu' he ho
      obtain ⟨m, e', st'⟩ := ih st
      refine ⟨m, ?_, ?_⟩
      · rw [List.foldlM_cons, e]; exact e'
      · rw [List.prod_cons, ← mul_assoc]
        have : d0 + (3 * d + 64 * φ u) + qs.length * (3 * d + 64 * φ u) = d0 + (qs.length + 1 : ℕ) * (3 * d + 64 * φ u) := by
          push_cast; ring
        rw [List.length_cons, ← this]; exact st'
  obtain ⟨n, e, -, N, hN, h1, h2⟩ := key
  exact ⟨n, N, e, hN, h2, h1⟩

/-- one turn of a vector -/
theorem rot_step {E d L : ℝ} {q : Quat (Fl K)} {U : ℍ[ℝ]} (hq : NearU φ d q U) (hd : d ≤ 1 / 8) {v : Mat3x1 (Fl K)} {V : Fin 3 → K} {X : R3}
    (hv : v.Holds V) (hX : euc X = L) (hE : euc (toR φ V - X) ≤ E) {M : K} (hM : ∀ i, |V i| ≤ M) (ho : 256 * (M + 1) ≤ omega) (he : (eta : K) ≤ u) :
    euc (rotR U X) = L ∧ ∃ W, (q.rotateVector v).Holds W ∧
      euc (toR φ W - rotR U X) ≤ E + ((9 / 2 * d + 152 * φ u) * (L + E) + 32 * φ eta) := by
  obtain ⟨hU, Q, hQ, h2⟩ := hq
  obtain ⟨hu, hul, heta⟩ := phi_u φ hφ
  have d0 : 0 ≤ d := (norm_nonneg _).trans h2
  obtain ⟨W, hW, h⟩ := rotate_near φ hφ hQ hU hd h2 hv hM he ho
  refine ⟨by rw [← hX]; exact euc_of_dot (rotR_dot hU _ _), W, hW, ?_⟩
  have l1 : euc (toR φ V) ≤ L + E := by
    have := euc_add_le (toR φ V - X) X
    rw [sub_add_cancel, hX] at this; linarith
  have e1 := euc_le_two (v := toR φ W - rotR U (toR φ V)) (by have := euc_nonneg (toR φ V); positivity) h
  have lin : rotR U (toR φ V) - rotR U X = rotR U (toR φ V - X) := by
    have hp : pureQ (toR φ V - X) = pureQ (toR φ V) - pureQ X := by
      ext <;> simp
    unfold rotR
    rw [hp, mul_sub, sub_mul]
    funext i; fin_cases i <;> simp [vecQ]
  have e2 : euc (rotR U (toR φ V) - rotR U X) ≤ E := by
    rw [lin, euc_of_dot (rotR_dot hU _ _)]; exact hE
  have tri := euc_add_le (toR φ W - rotR U (toR φ V)) (rotR U (toR φ V) - rotR U X)
  rw [sub_add_sub_cancel] at tri
  have := mul_le_mul_of_nonneg_left l1 (show 0 ≤ 9 / 2 * d + 152 * φ u by positivity)
  linarith

/-- the induction behind `C90_rotate`: `k` turns done -/
theorem rot_chain {d L : ℝ} (hd0 : 0 ≤ d) (hd : d ≤ 1 / 8) {qs : List (Quat (Fl K))} {Us : List ℍ[ℝ]} (hqs : List.Forall₂ (NearU φ d) qs Us) {B : K}
    (hLB : L ≤ 2 * φ B) (ho : 256 * (4 * B + 2) ≤ omega) (he : 64 * (eta : K) ≤ u) (k : ℕ) {v : Mat3x1 (Fl K)} {V : Fin 3 → K} {X : R3}
    (hv : v.Holds V) (hX : euc X = L) (hE : euc (toR φ V - X) ≤ 2 * k * ((9 / 2 * d + 152 * φ u) * L + 32 * φ eta))
    (hk : (k + qs.length) * (9 / 2 * d + 152 * φ u) ≤ 1 / 2) :
    euc (Us.foldl (fun x U => rotR U x) X) = L ∧ ∃ W, (qs.foldl (fun v q => q.rotateVector v) v).Holds W ∧
      euc (toR φ W - Us.foldl (fun x U => rotR U x) X) ≤ 2 * (k + qs.length) * ((9 / 2 * d + 152 * φ u) * L + 32 * φ eta) := by
  obtain ⟨hu, hul, heta⟩ := phi_u φ hφ
  have he' : 64 * φ eta ≤ φ u := by have := hφ.monotone he; rwa [map_mul, map_ofNat] at this
  induction hqs generalizing v V X k with
  | nil => exact ⟨hX, V, hv, by simpa using hE⟩
  | @cons q U qs Us h hs ih =>
    have L0 : 0 ≤ L := hX ▸ euc_nonneg X
    rw [List.length_cons] at hk ⊢
    push_cast at hk ⊢
    set κ := 9 / 2 * d + 152 * φ u with hκ
    have κ0 : 0 ≤ κ := by positivity
    have n0 : (0 : ℝ) ≤ qs.length := by positivity
    have k0 : (0 : ℝ) ≤ k := by positivity
    have kκ : k * κ ≤ 1 / 2 := by nlinarith
    have c0 : 0 ≤ κ * L + 32 * φ eta := by positivity
    have b1 : 2 * k * (κ * L + 32 * φ eta) ≤ L + 1 := by
      have a1 : 2 * (k * κ) * L ≤ 1 * L := mul_le_mul_of_nonneg_right (by linarith) L0
      have a2 : (k : ℝ) * (152 * φ u) ≤ k * κ := mul_le_mul_of_nonneg_left (by rw [hκ]; linarith) k0
      have a3 : (k : ℝ) * (64 * φ eta) ≤ k * φ u := mul_le_mul_of_nonneg_left he' k0
      have a4 : 0 ≤ (k : ℝ) * φ u := by positivity
      linarith
    have hM : ∀ i, |V i| ≤ 4 * B + 1 := fun i => by
      by_contra hc
      have h1 := hφ (not_le.mp hc)
      rw [map_abs_mono φ hφ, map_add, map_mul, map_one, map_ofNat] at h1
      have h2 := euc_coord (toR φ V) i
      have h3 := euc_add_le (toR φ V - X) X
      rw [sub_add_cancel, hX] at h3
      have : |toR φ V i| = |φ (V i)| := rfl
      linarith
    obtain ⟨hX', W, hW, hE'⟩ := rot_step φ hφ h hd hv hX hE hM (by linarith) (by linarith [eta_pos (K := K)])
    have key : 2 * k * (κ * L + 32 * φ eta) + (κ * (L + 2 * k * (κ * L + 32 * φ eta)) + 32 * φ eta) ≤
        2 * ((k + 1 : ℕ) : ℝ) * (κ * L + 32 * φ eta) := by
      have a1 : 2 * (k * κ) * (κ * L + 32 * φ eta) ≤ 1 * (κ * L + 32 * φ eta) := mul_le_mul_of_nonneg_right (by linarith) c0
      push_cast
      linarith
    obtain ⟨r1, W', hW', r2⟩ := ih (k + 1) hW hX' (hE'.trans key) (by push_cast; linarith)
    refine ⟨r1, W', hW', r2.trans (le_of_eq ?_)⟩
    push_cast; ring

/-- C90: rotating a vector `n` times, each time with a quaternion within `d` of a unit one.  Nothing overflows; the result is within
`n ((9 d + 304 u) |v| + 64 eta)` of the exact result, and so is its length of the length of `v`. -/
theorem C90_rotate {d : ℝ} (hd0 : 0 ≤ d) (hd : d ≤ 1 / 8) {qs : List (Quat (Fl K))} {Us : List ℍ[ℝ]} (hqs : List.Forall₂ (NearU φ d) qs Us)
    {v : Mat3x1 (Fl K)} {V : Fin 3 → K} (hv : v.Holds V) {B : K} (hB : ∀ i, |V i| ≤ B) (ho : 256 * (4 * B + 2) ≤ omega)
    (he : 64 * (eta : K) ≤ u) (hn : qs.length * (9 / 2 * d + 152 * φ u) ≤ 1 / 2) :
    ∃ W, (qs.foldl (fun v q => q.rotateVector v) v).Holds W ∧
      euc (toR φ W - Us.foldl (fun x U => rotR U x) (toR φ V)) ≤ qs.length * ((9 * d + 304 * φ u) * euc (toR φ V) + 64 * φ eta) ∧
      |euc (toR φ W) - euc (toR φ V)| ≤ qs.length * ((9 * d + 304 * φ u) * euc (toR φ V) + 64 * φ eta) := by
  have hLB : euc (toR φ V) ≤ 2 * φ B := by
    refine euc_le_two (by have := hφ.monotone ((abs_nonneg _).trans (hB 0)); rwa [map_zero] at this) fun i => ?_
    have := hφ.monotone (hB i)
    rwa [map_abs_mono φ hφ] at this
  obtain ⟨r1, W, hW, r2⟩ := rot_chain φ hφ hd0 hd hqs hLB ho he 0 hv rfl (by simp [(euc_eq_zero (0 : R3)).mpr rfl]) (by simpa using hn)
  have e : 2 * (((0 : ℕ) : ℝ) + qs.length) * ((9 / 2 * d + 152 * φ u) * euc (toR φ V) + 32 * φ eta) =
      qs.length * ((9 * d + 304 * φ u) * euc (toR φ V) + 64 * φ eta) := by push_cast; ring
  rw [e] at r2
  refine ⟨W, hW, r2, ?_⟩
  have := (euc_lip (toR φ W) (Us.foldl (fun x U => rotR U x) (toR φ V))).trans r2
  rwa [r1] at this

end floats

/-! ### binary64 -/

/-- `n` is the result of normalising a non-zero quaternion with value `Q`, components zero or between `2^-511` and `2^510` in size -/
def Norm64 (n : Quat (Fl Q64)) (Q : ℍ[Q64]) : Prop := ∃ q : Quat (Fl Q64), q.Holds Q ∧ Q ≠ 0 ∧
  (∀ i, quatVec Q i = 0 ∨ ((2 : ℚ) ^ (-511 : ℤ) : ℚ) ≤ |quatVec Q i|) ∧ (∀ i, |quatVec Q i| ≤ ((2 : ℚ) ^ (510 : ℤ) : ℚ)) ∧ q.normalize = .ok n

/-- the exact unit quaternion -/
noncomputable def unit64 (Q : ℍ[Q64]) : ℍ[ℝ] := ‖toH BinQ.real Q‖⁻¹ • toH BinQ.real Q

theorem eta_u64 : 64 * (eta : Q64) ≤ u := by
  obtain ⟨cu, ce, -, -, -⟩ := C55_constants
  rw [cu, ce]
  show (64 : ℚ) * (2 : ℚ) ^ (-1075 : ℤ) ≤ 2 ^ (-53 : ℤ)
  rw [show (64 : ℚ) = 2 ^ (6 : ℤ) by norm_num, ← zpow_add₀ (by norm_num)]
  exact zpow_le_zpow_right₀ (by norm_num) (by norm_num)

theorem u64_1024 : (u : Q64) ≤ 1 / 1024 := by
  rw [C55_constants.1]
  show (2 : ℚ) ^ (-53 : ℤ) ≤ 1 / 1024
  norm_num

theorem omega_25 : (25 : Q64) ≤ omega := by
  have := f64_vec_range (M := 0) (show (0 : ℚ) ≤ 2 ^ (1000 : ℤ) by positivity)
  linarith

theorem Norm64.near {n : Quat (Fl Q64)} {Q : ℍ[Q64]} (h : Norm64 n Q) : NearU BinQ.real (8 * BinQ.real (u : Q64)) n (unit64 Q) := by
  obtain ⟨q, hq, h0, hlo, hhi, e⟩ := h
  obtain ⟨r1, B, r2, r3⟩ := f64_quat_range hlo hhi
  obtain ⟨n', N, e', hN, hc⟩ := normalize_close BinQ.real BinQ.real_strictMono hq r1 h0 r2 f64_eta_u r3
  obtain rfl : n' = n := Except.ok.inj (e'.symm.trans e)
  exact ⟨(unitQ BinQ.real BinQ.real_strictMono h0).1, N, hN, hc⟩

theorem forall_near {ns : List (Quat (Fl Q64))} {Qs : List ℍ[Q64]} (h : List.Forall₂ Norm64 ns Qs) :
    List.Forall₂ (NearU BinQ.real (8 * BinQ.real (u : Q64))) ns (Qs.map unit64) := by
  induction h with
  | nil => exact .nil
  | cons h _ ih => exact .cons h.near ih

theorem unit64_fold {ns : List (Quat (Fl Q64))} {Qs : List ℍ[Q64]} (h : List.Forall₂ Norm64 ns Qs) (X : R3) :
    (Qs.map unit64).foldl (fun x U => rotR U x) X = Qs.foldl (fun x Q => rotR (toH BinQ.real Q) x) X := by
  induction h generalizing X with
  | nil => rfl
  | cons h _ ih =>
    obtain ⟨q, _, h0, _⟩ := h
    rw [List.map_cons, List.foldl_cons, List.foldl_cons]
    rw [show rotR (unit64 _) X = _ from rotR_scale (unitQ BinQ.real BinQ.real_strictMono h0).2 _ X]
    exact ih _

theorem range_four {K : Type} [Field K] [LinearOrder K] [IsStrictOrderedRing K] {M w : K} (h : 1024 * (M + 1) ≤ w) :
    256 * (4 * M + 2) ≤ w := by linarith

/-- C90 for `f64`, product without further normalisation: up to `2^46` factors normalised by the library give a finite product within
`(n+1) 2^-47` of the exact product of the unit quaternions, and of length one up to the same bound. -/
theorem C90_product_f64 {p : Quat (Fl Q64)} {P : ℍ[Q64]} {ns : List (Quat (Fl Q64))} {Qs : List ℍ[Q64]} (hp : Norm64 p P)
    (h : List.Forall₂ Norm64 ns Qs) (hn : ns.length ≤ 2 ^ 46) :
    ∃ R, (ns.foldl Quat.mul p).Holds R ∧ ‖toH BinQ.real R - unit64 P * (Qs.map unit64).prod‖ ≤ (ns.length + 1) * 2 ^ (-47 : ℤ) ∧
      |‖toH BinQ.real R‖ - 1| ≤ (ns.length + 1) * 2 ^ (-47 : ℤ) := by
  have hu := f64_consts.1
  have hn' : (ns.length : ℝ) ≤ 2 ^ 46 := by exact_mod_cast hn
  have n0 : (0 : ℝ) ≤ ns.length := by positivity
  have hb : 8 * BinQ.real (u : Q64) + ns.length * (2 * (8 * BinQ.real (u : Q64)) + 32 * BinQ.real (u : Q64)) ≤ (ns.length + 1) * 2 ^ (-47 : ℤ) := by
    rw [hu]; norm_num; linarith
  obtain ⟨R, hR, h1, h2⟩ := C90_product BinQ.real BinQ.real_strictMono (by rw [hu]; positivity) hp.near (forall_near h) (by
    rw [hu]; norm_num; linarith) eta_u64 omega_25
  exact ⟨R, hR, h1.trans hb, h2.trans hb⟩

/-- C90 for `f64`, product normalised in every turn: for any number of factors nothing panics, the length is one up to `2^-50`, and the
error is at most `(n+1) 2^-46`. -/
theorem C90_renormalised_f64 {p : Quat (Fl Q64)} {P : ℍ[Q64]} {ns : List (Quat (Fl Q64))} {Qs : List ℍ[Q64]} (hp : Norm64 p P)
    (h : List.Forall₂ Norm64 ns Qs) :
    ∃ n N, ns.foldlM (fun p q => (p.mul q).normalize) p = .ok n ∧ n.Holds N ∧ |‖toH BinQ.real N‖ - 1| ≤ 2 ^ (-50 : ℤ) ∧
      ‖toH BinQ.real N - unit64 P * (Qs.map unit64).prod‖ ≤ (ns.length + 1) * 2 ^ (-46 : ℤ) := by
  have hu := f64_consts.1
  have n0 : (0 : ℝ) ≤ ns.length := by positivity
  obtain ⟨hV, P', hP, hp0⟩ := hp.near
  obtain ⟨n, N, e, hN, h1, h2⟩ := C90_renormalised BinQ.real BinQ.real_strictMono (d := 8 * BinQ.real (u : Q64)) (by rw [hu]; norm_num) hP hV hp0
    (norm_of_near hV hp0) (forall_near h) u64_1024 eta_u64 omega_25
  refine ⟨n, N, e, hN, h1.trans (by rw [hu]; norm_num), h2.trans ?_⟩
  rw [hu]; norm_num; linarith

/-- C90 for `f64`, up to `2^44` rotations of one vector: the error is at most `n (2^-44 |v| + 2^-1069)`. -/
theorem C90_rotate_f64 {ns : List (Quat (Fl Q64))} {Qs : List ℍ[Q64]} (h : List.Forall₂ Norm64 ns Qs) (hn : ns.length ≤ 2 ^ 44)
    {v : Mat3x1 (Fl Q64)} {V : Fin 3 → Q64} (hv : v.Holds V) (hV : ∀ i, |V i| ≤ ((2 : ℚ) ^ (1000 : ℤ) : ℚ)) :
    ∃ W, (ns.foldl (fun v q => q.rotateVector v) v).Holds W ∧
      euc (toR BinQ.real W - Qs.foldl (fun x Q => rotR (toH BinQ.real Q) x) (toR BinQ.real V)) ≤
        ns.length * (2 ^ (-44 : ℤ) * euc (toR BinQ.real V) + 2 ^ (-1069 : ℤ)) ∧
      |euc (toR BinQ.real W) - euc (toR BinQ.real V)| ≤ ns.length * (2 ^ (-44 : ℤ) * euc (toR BinQ.real V) + 2 ^ (-1069 : ℤ)) := by
  obtain ⟨hu, hη⟩ := f64_consts
  have n0 : (0 : ℝ) ≤ ns.length := by positivity
  have hn' : (ns.length : ℝ) ≤ 2 ^ 44 := by exact_mod_cast hn
  obtain ⟨W, hW, h1, h2⟩ := C90_rotate BinQ.real BinQ.real_strictMono (d := 8 * BinQ.real (u : Q64)) (by rw [hu]; positivity)
    (by rw [hu]; norm_num) (forall_near h) hv hV (range_four (f64_vec_range le_rfl))
    eta_u64 (by rw [hu]; norm_num; linarith)
  have hb : (ns.length : ℝ) * ((9 * (8 * BinQ.real (u : Q64)) + 304 * BinQ.real (u : Q64)) * euc (toR BinQ.real V) + 64 * BinQ.real (eta : Q64)) ≤
      ns.length * (2 ^ (-44 : ℤ) * euc (toR BinQ.real V) + 2 ^ (-1069 : ℤ)) := by
    have s3 : (2 : ℝ) ^ (-1069 : ℤ) = 64 * 2 ^ (-1075 : ℤ) := by
      rw [show (-1069 : ℤ) = 6 + (-1075) by norm_num, zpow_add₀ (by norm_num)]; norm_num
    rw [hu, hη, s3]
    apply mul_le_mul_of_nonneg_left _ n0
    have : (9 * (8 * (2 : ℝ) ^ (-53 : ℤ)) + 304 * 2 ^ (-53 : ℤ)) ≤ 2 ^ (-44 : ℤ) := by norm_num
    have := mul_le_mul_of_nonneg_right this (euc_nonneg (toR BinQ.real V))
    linarith
  rw [unit64_fold h] at h1
  exact ⟨W, hW, h1.trans hb, h2.trans hb⟩

/-! ### concrete cases -/

theorem norm_2341 : ∃ n, Norm64 n H2341 := by
  have hlo : ∀ i, quatVec H2341 i = 0 ∨ ((2 : ℚ) ^ (-511 : ℤ) : ℚ) ≤ |quatVec H2341 i| := fun i => (H2341_pos i).imp_right fun h =>
    le_trans (show ((2 : ℚ) ^ (-511 : ℤ) : ℚ) ≤ (1 : ℚ) from zpow_le_one_of_nonpos₀ (by norm_num) (by norm_num)) h
  have hhi : ∀ i, |quatVec H2341 i| ≤ ((2 : ℚ) ^ (510 : ℤ) : ℚ) := fun i =>
    (H2341_five i).trans (show (5 : ℚ) ≤ (2 : ℚ) ^ (510 : ℤ) from le_trans (by norm_num) (zpow_le_zpow_right₀ (by norm_num) (show (3 : ℤ) ≤ 510 by norm_num)))
  obtain ⟨r1, B, r2, r3⟩ := f64_quat_range hlo hhi
  obtain ⟨n, N, e, -⟩ := normalize_close BinQ.real BinQ.real_strictMono q2341_holds r1 H2341_ne r2 f64_eta_u r3
  exact ⟨n, q2341, q2341_holds, H2341_ne, hlo, hhi, e⟩

theorem norm_list (n : Quat (Fl Q64)) (h : Norm64 n H2341) (k : ℕ) : List.Forall₂ Norm64 (List.replicate k n) (List.replicate k H2341) := by
  induction k with
  | zero => exact .nil
  | succ k ih => exact .cons h ih

/-- concrete case: a thousand factors `(1 + 2i + 3j + 4k)/√30` -/
example := norm_2341.imp fun n h => C90_product_f64 h (norm_list n h 1000) (by rw [List.length_replicate]; norm_num)

/-- concrete case: a billion turns with normalisation -/
example := norm_2341.imp fun n h => C90_renormalised_f64 h (norm_list n h (10 ^ 9))

/-- concrete case: the vector `(4, 0, 5)`, a million rotations -/
example := norm_2341.imp fun n h => C90_rotate_f64 (norm_list n h (10 ^ 6)) (by rw [List.length_replicate]; norm_num) b405_holds
  (fun i => (B405_five i).trans (show (5 : ℚ) ≤ (2 : ℚ) ^ (1000 : ℤ) from
    le_trans (by norm_num) (zpow_le_zpow_right₀ (by norm_num) (show (3 : ℤ) ≤ 1000 by norm_num))))

/-- concrete case of the general theorems: no factor at all, and one turn -/
example := norm_2341.imp fun n h => C90_product (d := 0) BinQ.real BinQ.real_strictMono le_rfl h.near .nil
  (by rw [f64_consts.1]; norm_num) eta_u64 omega_25
example := norm_2341.imp fun n h => C90_rotate BinQ.real BinQ.real_strictMono (d := 8 * BinQ.real (u : Q64)) (by rw [f64_consts.1]; positivity)
  (by rw [f64_consts.1]; norm_num) (.cons h.near .nil) b405_holds B405_five (by linarith [omega_big]) eta_u64 (by rw [f64_consts.1]; norm_num)
example := norm_2341.imp fun n h => h.near.2.imp fun P hP => C90_renormalised BinQ.real BinQ.real_strictMono (d := 8 * BinQ.real (u : Q64))
  (by rw [f64_consts.1]; norm_num) hP.1 h.near.1 hP.2 (norm_of_near h.near.1 hP.2) (.cons h.near (.cons h.near .nil)) u64_1024 eta_u64 omega_25

/-! ### without normalisation the length drifts -/

/-- the quaternion `1 + 8u`, within `8u` of a unit quaternion -/
def qDrift : Quat (Fl Q64) := ⟨0, 0, 0, .fin (1 + 1 / 2 ^ 50 : ℚ)⟩
def HDrift : ℍ[Q64] := ⟨(1 + 1 / 2 ^ 50 : ℚ), 0, 0, 0⟩

theorem qDrift_holds : qDrift.Holds HDrift :=
  ⟨⟨rfl, .inr (by decide +kernel)⟩, ⟨rfl, .inr (by decide +kernel)⟩, ⟨rfl, .inr (by decide +kernel)⟩, ⟨rfl, .inr (by decide +kernel)⟩⟩

theorem HDrift_re : BinQ.real HDrift.re = 1 + 8 * 2 ^ (-53 : ℤ) := by
  show (((1 + 1 / 2 ^ 50 : ℚ) : ℚ) : ℝ) = _
  push_cast; norm_num

theorem qDrift_near : NearU BinQ.real (8 * BinQ.real (u : Q64)) qDrift 1 := by
  refine ⟨norm_one, HDrift, qDrift_holds, ?_⟩
  have e : ∀ c : ℝ, BinQ.real HDrift.re = 1 + c → toH BinQ.real HDrift - 1 = (c : ℍ[ℝ]) := fun c hc => by
    ext
    · rw [Quaternion.re_sub, toH_re, hc]; simp
    · rw [Quaternion.imI_sub, toH_imI, show HDrift.imI = 0 from rfl, map_zero]; simp
    · rw [Quaternion.imJ_sub, toH_imJ, show HDrift.imJ = 0 from rfl, map_zero]; simp
    · rw [Quaternion.imK_sub, toH_imK, show HDrift.imK = 0 from rfl, map_zero]; simp
  rw [e _ HDrift_re, Quaternion.norm_coe, f64_consts.1]
  norm_num

/-- every further factor makes the scalar part larger by the factor `1 + 3u` -/
theorem drift_step {p : Quat (Fl Q64)} {P R : ℍ[Q64]} (hp : p.Holds P) (hP : 1 ≤ BinQ.real P.re)
    (hR : (p.mul qDrift).Holds R) : BinQ.real P.re * (1 + 3 * 2 ^ (-53 : ℤ)) ≤ BinQ.real R.re := by
  have h := BinQ.real_strictMono.monotone ((C58_quat_mul p qDrift P HDrift hp qDrift_holds).2.2.2 _ hR.2.2.2.1)
  obtain ⟨g1, g2⟩ := g4_le (K := Q64) BinQ.real BinQ.real_strictMono
  have he : 64 * BinQ.real (eta : Q64) ≤ BinQ.real (u : Q64) := by
    have := BinQ.real_strictMono.monotone eta_u64; rwa [map_mul, map_ofNat] at this
  have z1 : HDrift.imI = 0 := rfl
  have z2 : HDrift.imJ = 0 := rfl
  have z3 : HDrift.imK = 0 := rfl
  simp only [map_abs_mono BinQ.real BinQ.real_strictMono, map_add, map_mul, map_sub, map_pow, map_one, map_ofNat, Quaternion.re_mul, z1, z2, z3,
    mul_zero, sub_zero, add_zero, abs_zero, HDrift_re] at h
  obtain ⟨-, -, heta⟩ := phi_u (K := Q64) BinQ.real BinQ.real_strictMono
  have hu := f64_consts.1
  rw [hu] at h g1 g2 he
  generalize BinQ.real (eta : Q64) = η at *
  generalize BinQ.real P.re = x at *
  generalize BinQ.real R.re = y at *
  rw [abs_of_pos (show 0 < x * (1 + 8 * 2 ^ (-53 : ℤ)) by positivity)] at h
  have h3 := mul_le_mul_of_nonneg_right g2 heta.le
  have h4 := mul_le_mul_of_nonneg_right g1 (show 0 ≤ x * (1 + 8 * 2 ^ (-53 : ℤ)) by positivity)
  have h5 := (abs_le.mp h).1
  norm_num at *
  linarith

theorem drift_chain (n : ℕ) (h : ∀ m ≤ n, ∃ R, ((List.replicate m qDrift).foldl Quat.mul qDrift).Holds R) {R : ℍ[Q64]}
    (hR : ((List.replicate n qDrift).foldl Quat.mul qDrift).Holds R) : (1 + 3 * 2 ^ (-53 : ℤ)) ^ n ≤ BinQ.real R.re := by
  induction n generalizing R with
  | zero =>
    have : R.re = HDrift.re := hR.2.2.2.1.kunique qDrift_holds.2.2.2.1
    rw [this, HDrift_re]; norm_num
  | succ n ih =>
    obtain ⟨S, hS⟩ := h n (by omega)
    have i := ih (fun m hm => h m (by omega)) hS
    have h1 : (1 : ℝ) ≤ (1 + 3 * 2 ^ (-53 : ℤ)) ^ n := one_le_pow₀ (by norm_num)
    rw [List.replicate_succ', List.foldl_append, List.foldl_cons, List.foldl_nil] at hR
    have st := drift_step hS (h1.trans i) hR
    rw [pow_succ]
    refine le_trans (mul_le_mul_of_nonneg_right i (by positivity)) st

/-- C90, the bound of `C90_product` cannot be kept for any number of turns: without normalisation the length of the running product is not
bounded.  Multiplying again and again by `1 + 8u`, a quaternion within `8u` of the unit quaternion `1`, exceeds every bound or overflows. -/
theorem C90_drift_false : ¬ ∃ B : ℝ, ∀ (q : Quat (Fl Q64)) (U : ℍ[ℝ]), NearU BinQ.real (8 * BinQ.real (u : Q64)) q U →
    ∀ n : ℕ, ∃ R, ((List.replicate n q).foldl Quat.mul q).Holds R ∧ ‖toH BinQ.real R‖ ≤ B := by
  rintro ⟨B, h⟩
  have hd := h qDrift 1 qDrift_near
  obtain ⟨n, hn⟩ := pow_unbounded_of_one_lt B (show (1 : ℝ) < 1 + 3 * 2 ^ (-53 : ℤ) by norm_num)
  obtain ⟨R, hR, hB⟩ := hd n
  have h1 := drift_chain n (fun m _ => (hd m).imp fun _ h => h.1) hR
  have h2 := euc_coord ![(toH BinQ.real R).imI, (toH BinQ.real R).imJ, (toH BinQ.real R).imK, (toH BinQ.real R).re] 3
  rw [← norm_quat] at h2
  have h3 : BinQ.real R.re ≤ ‖toH BinQ.real R‖ := (le_abs_self _).trans h2
  linarith

end Mazth
