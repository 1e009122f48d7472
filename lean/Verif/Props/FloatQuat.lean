import Verif.Props.FloatAcc2
import Verif.Props.FloatRotate
import Verif.Props.Bounds
import Verif.Proofs.Lim

/-!
# C86: the remaining quaternion arithmetic and the centroid of a box in floating point

`inverse`, `interpolate_linear`, `parallel_component_of_plane`, `orthogonal_component_of_plane`, `init_from_vals_auto_w`
(/repo/lib/quat.rs) and `get_centroid` of a box (/repo/lib/bound.rs) for every format with the standard error model.
-/

set_option linter.unusedSectionVars false
set_option autoImplicit false

namespace Mazth

open RndErr Quaternion

variable {K : Type} [Field K] [LinearOrder K] [IsStrictOrderedRing K] [Fmt K] [LawfulFmt K] [RndErr K]

/-! ### inverse -/

theorem near_fin {x y : Fl K} {j : ℕ} {c d S T : K} (hx : x.Is c) (hy : y.Is d) (h : Near j c S) (h' : Near j d T)
    (hj : j ≤ 4) (ho : 2 * (S + T) ≤ omega) : ∃ w, (x + y).Is w := by
  have hu := u_pos (K := K)
  have hl := u_le (K := K)
  have h4 : (1 + u : K) ^ j ≤ 2 := by
    refine (grow_mono hj).trans ?_
    calc (1 + u : K) ^ 4 ≤ (1 + 1 / 64) ^ 4 := by gcongr
      _ ≤ 2 := by norm_num
  apply Fl.add_fin hx hy
  have hS := h.nonneg
  have hT := h'.nonneg
  have a := h.upper.trans (mul_le_mul_of_nonneg_right h4 hS)
  have b := h'.upper.trans (mul_le_mul_of_nonneg_right h4 hT)
  rw [abs_of_nonneg (add_nonneg h.pos h'.pos)]; linarith

theorem sq_fin {x : Fl K} {a : K} (hx : x.Is a) (ho : a * a ≤ omega) : ∃ c, (x * x).Is c :=
  Fl.mul_fin hx hx (by rw [abs_of_nonneg (mul_self_nonneg a)]; exact ho)

/-- the squared length of a quaternion in range is finite and close to the exact one -/
theorem norm_near (q : Quat (Fl K)) (Q : ℍ[K]) (hq : q.Holds Q) (hn : ∀ i, quatVec Q i = 0 ∨ nu ≤ quatVec Q i * quatVec Q i)
    (hO : 2 * normSq Q ≤ omega) : ∃ n, q.lengthSquared.Is n ∧ Near 4 n (normSq Q) := by
  obtain ⟨qx, qy, qz, qw⟩ := hq
  have e : normSq Q = Q.imI * Q.imI + Q.imJ * Q.imJ + Q.imK * Q.imK + Q.re * Q.re := by
    rw [Quaternion.normSq_def']; ring
  have p1 := mul_self_nonneg Q.imI
  have p2 := mul_self_nonneg Q.imJ
  have p3 := mul_self_nonneg Q.imK
  have p4 := mul_self_nonneg Q.re
  rw [e] at hO ⊢
  obtain ⟨c1, h1⟩ := sq_fin qx.1 (by linarith)
  obtain ⟨c2, h2⟩ := sq_fin qy.1 (by linarith)
  obtain ⟨c3, h3⟩ := sq_fin qz.1 (by linarith)
  obtain ⟨c4, h4⟩ := sq_fin qw.1 (by linarith)
  have n1 := Near.sq qx.1 (hn 0) h1
  have n2 := Near.sq qy.1 (hn 1) h2
  have n3 := Near.sq qz.1 (hn 2) h3
  have n4 := Near.sq qw.1 (hn 3) h4
  obtain ⟨s1, g1⟩ := near_fin h1 h2 n1 n2 (by norm_num) (by linarith)
  have m1 := n1.add n2 (Fl.add_err h1 h2 (Fl.wf_mul _ _) (Fl.wf_mul _ _) g1)
  obtain ⟨s2, g2⟩ := near_fin g1 h3 m1 (n3.mono (by norm_num)) (by norm_num) (by linarith)
  have m2 := m1.add (n3.mono (by norm_num)) (Fl.add_err g1 h3 (Fl.wf_add _ _) (Fl.wf_mul _ _) g2)
  obtain ⟨s3, g3⟩ := near_fin g2 h4 m2 (n4.mono (by norm_num)) (by norm_num) (by linarith)
  exact ⟨s3, g3, m2.add (n4.mono (by norm_num)) (Fl.add_err g2 h4 (Fl.wf_add _ _) (Fl.wf_mul _ _) g3)⟩

theorem div_err_normal {x y : Fl K} {a b c : K} (hx : x.Is a) (hy : y.Is b) (hb : b ≠ 0) (ha : a ≠ 0) (h : (x / y).Is c)
    (hn : nu ≤ |a / b|) : |c - a / b| ≤ u * |a / b| := by
  rcases Fl.div_core hx hy hb h with ⟨h0, -⟩ | h
  · exact absurd h0 ha
  · exact rnd_normal _ _ hn h

/-- the reciprocal of an approximate positive number -/
theorem recip_near {n N r : K} (h : Near 4 n N) (hN : 0 < N) (hr : |r - 1 / n| ≤ u * |1 / n|) :
    (1 - 6 * u) / N ≤ r ∧ r ≤ (1 + 11 / 2 * u) / N := by
  have hu := u_pos (K := K)
  have hl := u_le (K := K)
  have l4 : 1 - 4 * u ≤ (1 - u : K) ^ 4 := by nlinarith [sq_nonneg (u : K), mul_pos hu hu, mul_pos hu (mul_pos hu hu), sq_nonneg (u * u : K)]
  have u4 : (1 + u : K) ^ 4 ≤ 1 + 9 / 2 * u := by
    have h2 := mul_le_mul_of_nonneg_left hl hu.le
    have h3 := mul_le_mul_of_nonneg_left h2 hu.le
    have h4 := mul_le_mul_of_nonneg_left h3 hu.le
    nlinarith
  have lo := (mul_le_mul_of_nonneg_right l4 hN.le).trans h.lower
  have up := h.upper.trans (mul_le_mul_of_nonneg_right u4 hN.le)
  have hn : 0 < n := lt_of_lt_of_le (mul_pos (by linarith) hN) lo
  rw [abs_of_pos (by positivity : 0 < 1 / n)] at hr
  obtain ⟨r1, r2⟩ := abs_le.mp hr
  have r1' : (1 - u) / n ≤ r := by
    rw [show (1 - u) / n = 1 / n - u * (1 / n) by ring]; linarith
  have r2' : r ≤ (1 + u) / n := by
    rw [show (1 + u) / n = 1 / n + u * (1 / n) by ring]; linarith
  have h2 := mul_le_mul_of_nonneg_left hl hu.le
  constructor
  · refine le_trans ?_ r1'
    rw [div_le_div_iff₀ hN hn]
    have a1 : (1 - 6 * u) * n ≤ (1 - 6 * u) * ((1 + 9 / 2 * u) * N) := mul_le_mul_of_nonneg_left up (by linarith)
    have a2 : (1 - 6 * u : K) * (1 + 9 / 2 * u) ≤ 1 - u := by nlinarith
    have a3 := mul_le_mul_of_nonneg_right a2 hN.le
    linarith
  · refine r2'.trans ?_
    rw [div_le_div_iff₀ hn hN]
    have a1 : (1 + 11 / 2 * u) * ((1 - 4 * u) * N) ≤ (1 + 11 / 2 * u) * n := mul_le_mul_of_nonneg_left lo (by linarith)
    have a2 : (1 + u : K) ≤ (1 + 11 / 2 * u) * (1 - 4 * u) := by nlinarith
    have a3 := mul_le_mul_of_nonneg_right a2 hN.le
    linarith

theorem scale_err {x r c N : K} (hN : 0 < N) (h1 : (1 - 6 * u) / N ≤ r) (h2 : r ≤ (1 + 11 / 2 * u) / N)
    (hc : |c - x * r| ≤ u * |x * r| + eta) : |c - x / N| ≤ 8 * u * |x / N| + eta := by
  have hu := u_pos (K := K)
  have hl := u_le (K := K)
  have hr0 : 0 ≤ r := le_trans (div_nonneg (by linarith) hN.le) h1
  have hr : |r - 1 / N| ≤ 6 * u * (1 / N) := by
    rw [abs_le]
    have e1 : (1 - 6 * u) / N = 1 / N - 6 * u * (1 / N) := by ring
    have e2 : (1 + 11 / 2 * u) / N = 1 / N + 11 / 2 * u * (1 / N) := by ring
    have : 0 ≤ u * (1 / N) := by positivity
    constructor <;> linarith
  have hxr : |x * r - x / N| ≤ 6 * u * |x / N| := by
    rw [show x * r - x / N = x * (r - 1 / N) by ring, abs_mul, abs_div, abs_of_pos hN]
    have := mul_le_mul_of_nonneg_left hr (abs_nonneg x)
    linarith [show |x| * (6 * u * (1 / N)) = 6 * u * (|x| / N) by ring]
  have hm : |x * r| ≤ (1 + 6 * u) * |x / N| := by
    have := abs_add_le (x * r - x / N) (x / N)
    rw [sub_add_cancel] at this
    linarith
  have ht := abs_add_le (c - x * r) (x * r - x / N)
  rw [sub_add_sub_cancel] at ht
  have h3 := mul_le_mul_of_nonneg_left hm hu.le
  have h4 : u * ((1 + 6 * u) * |x / N|) ≤ 2 * u * |x / N| := by
    have : u * (1 + 6 * u) ≤ 2 * (u : K) := by nlinarith
    have := mul_le_mul_of_nonneg_right this (abs_nonneg (x / N))
    linarith
  linarith

/-- the components of the exact inverse -/
theorem quatVec_inv (Q : ℍ[K]) : quatVec Q⁻¹ = fun i => quatVec (star Q) i / normSq Q := by
  funext i
  rw [Quaternion.inv_def]
  fin_cases i <;> simp [quatVec, div_eq_inv_mul]

theorem normSq_star' (Q : ℍ[K]) : normSq (star Q) = normSq Q := by
  rw [Quaternion.normSq_def', Quaternion.normSq_def']; simp

theorem quatVec_sq_le (Q : ℍ[K]) (i : Fin 4) : quatVec Q i * quatVec Q i ≤ normSq Q := by
  rw [Quaternion.normSq_def']
  have p1 := mul_self_nonneg Q.imI
  have p2 := mul_self_nonneg Q.imJ
  have p3 := mul_self_nonneg Q.imK
  have p4 := mul_self_nonneg Q.re
  fin_cases i <;> simp only [quatVec, Fin.mk_zero, Fin.mk_one, Fin.reduceFinMk, Matrix.cons_val] <;> nlinarith

/-- C86: `inverse` of a quaternion in range succeeds and every component is within `8u` (relative, plus `eta`) of the component of
`Q⁻¹`.  Range: no square underflows, `|Q|²` at most half the largest number and neither it nor its reciprocal under- or overflows. -/
theorem C86_inverse (q : Quat (Fl K)) (Q : ℍ[K]) (hq : q.Holds Q) (hQ : Q ≠ 0) (hn : ∀ i, quatVec Q i = 0 ∨ nu ≤ quatVec Q i * quatVec Q i)
    (hO : 2 * normSq Q ≤ omega) (hU : 2 * (nu * normSq Q) ≤ 1) (hR : 2 ≤ omega * normSq Q) :
    ∃ r R, q.inverse = .ok r ∧ r.Holds R ∧ ∀ i, |quatVec R i - quatVec Q⁻¹ i| ≤ 8 * u * |quatVec Q⁻¹ i| + eta := by
  have hu := u_pos (K := K)
  have hl := u_le (K := K)
  have hN : 0 < normSq Q := lt_of_le_of_ne Quaternion.normSq_nonneg (fun h => hQ (Quaternion.normSq_eq_zero.mp h.symm))
  have hs := star_holds hq
  have hns : ∀ i, quatVec (star Q) i = 0 ∨ nu ≤ quatVec (star Q) i * quatVec (star Q) i := fun i => by
    have := hn i
    fin_cases i <;> simpa [quatVec] using this
  obtain ⟨n, h1, h2⟩ := norm_near q.conjugate (star Q) hs hns (by rw [normSq_star']; exact hO)
  rw [normSq_star'] at h2
  have l4 : (1 / 2 : K) ≤ (1 - u) ^ 4 := by
    calc (1 / 2 : K) ≤ (1 - 1 / 64) ^ 4 := by norm_num
      _ ≤ _ := by gcongr
  have u4 : (1 + u : K) ^ 4 ≤ 2 := by
    calc (1 + u : K) ^ 4 ≤ (1 + 1 / 64) ^ 4 := by gcongr
      _ ≤ 2 := by norm_num
  have lo := (mul_le_mul_of_nonneg_right l4 hN.le).trans h2.lower
  have up := h2.upper.trans (mul_le_mul_of_nonneg_right u4 hN.le)
  have hn0 : 0 < n := by linarith
  have o := Fl.kis_one (K := K)
  have hO0 : (0 : K) < omega := by linarith [four_le (K := K)]
  have habs : |1 / n| = 1 / n := abs_of_pos (by positivity)
  obtain ⟨r, hr⟩ := Fl.div_fin o h1 hn0.ne' (by
    rw [habs, div_le_iff₀ hn0]
    have := mul_le_mul_of_nonneg_left lo hO0.le
    linarith)
  have hre := div_err_normal o h1 hn0.ne' one_ne_zero hr (by
    rw [habs, le_div_iff₀ hn0]
    have := mul_le_mul_of_nonneg_left up (nu_pos (K := K)).le
    linarith)
  obtain ⟨r1, r2⟩ := recip_near h2 hN hre
  have hr0 : 0 ≤ r := le_trans (div_nonneg (by linarith) hN.le) r1
  have hr2 : r ≤ 2 / normSq Q := r2.trans (by gcongr; linarith)
  -- each product is in range
  have hmul : ∀ (x : Fl K) (i : Fin 4), x.Is (quatVec (star Q) i) → ∃ c, (x * (1 / q.conjugate.lengthSquared)).Is c := by
    intro x i hx
    apply Fl.mul_fin hx hr
    rw [abs_mul, abs_of_nonneg hr0]
    have hsq := quatVec_sq_le (star Q) i
    rw [normSq_star', ← abs_mul_abs_self] at hsq
    have hX := abs_nonneg (quatVec (star Q) i)
    have b1 : |quatVec (star Q) i| * r ≤ |quatVec (star Q) i| * (2 / normSq Q) := mul_le_mul_of_nonneg_left hr2 hX
    refine b1.trans ?_
    rw [← mul_div_assoc, div_le_iff₀ hN]
    rcases le_total |quatVec (star Q) i| 1 with h | h
    · linarith
    · have : |quatVec (star Q) i| ≤ normSq Q := le_trans (le_mul_of_one_le_left hX h) hsq
      have := mul_le_mul_of_nonneg_right (four_le (K := K)) hN.le
      linarith
  obtain ⟨c0, g0⟩ := hmul _ 0 hs.1.1
  obtain ⟨c1, g1⟩ := hmul _ 1 hs.2.1.1
  obtain ⟨c2, g2⟩ := hmul _ 2 hs.2.2.1.1
  obtain ⟨c3, g3⟩ := hmul _ 3 hs.2.2.2.1
  have hfeq : Fl.feq q.conjugate.lengthSquared 0 = false := by
    rcases h1.kcases with e | ⟨-, e⟩
    · rw [e, Fl.zero_def]; simp [Fl.feq, Fl.le, hn0]
    · exact absurd e hn0.ne'
  refine ⟨_, ⟨c3, c0, c1, c2⟩, by simp only [Quat.inverse, hfeq, assert]; rfl,
    ⟨⟨g0, Fl.wf_mul _ _⟩, ⟨g1, Fl.wf_mul _ _⟩, ⟨g2, Fl.wf_mul _ _⟩, ⟨g3, Fl.wf_mul _ _⟩⟩, fun i => ?_⟩
  rw [quatVec_inv]
  fin_cases i
  · exact scale_err hN r1 r2 (Fl.mul_err hs.1.1 hr g0)
  · exact scale_err hN r1 r2 (Fl.mul_err hs.2.1.1 hr g1)
  · exact scale_err hN r1 r2 (Fl.mul_err hs.2.2.1.1 hr g2)
  · exact scale_err hN r1 r2 (Fl.mul_err hs.2.2.2.1 hr g3)

/-- C86: hence the exact product of `Q` with the computed inverse is `1` up to `32u + 4 eta ‖Q‖₁`, summed over the components. -/
theorem C86_inverse_product (q : Quat (Fl K)) (Q : ℍ[K]) (hq : q.Holds Q) (hQ : Q ≠ 0) (hn : ∀ i, quatVec Q i = 0 ∨ nu ≤ quatVec Q i * quatVec Q i)
    (hO : 2 * normSq Q ≤ omega) (hU : 2 * (nu * normSq Q) ≤ 1) (hR : 2 ≤ omega * normSq Q) :
    ∃ r R, q.inverse = .ok r ∧ r.Holds R ∧ quatL1 (Q * R - 1) ≤ 32 * u + 4 * eta * quatL1 Q := by
  obtain ⟨r, R, h1, h2, h3⟩ := C86_inverse q Q hq hQ hn hO hU hR
  refine ⟨r, R, h1, h2, ?_⟩
  have hN : 0 < normSq Q := lt_of_le_of_ne Quaternion.normSq_nonneg (fun h => hQ (Quaternion.normSq_eq_zero.mp h.symm))
  have hmul : ∀ A B : ℍ[K], quatL1 (A * B) ≤ quatL1 A * quatL1 B := by
    intro A B
    have t4 : ∀ a b c d : K, |a + b + c + d| ≤ |a| + |b| + |c| + |d| := fun a b c d =>
      (abs_add_le _ _).trans (add_le_add ((abs_add_le _ _).trans (add_le_add (abs_add_le _ _) le_rfl)) le_rfl)
    have k1 := t4 (A.re * B.re) (-(A.imI * B.imI)) (-(A.imJ * B.imJ)) (-(A.imK * B.imK))
    have k2 := t4 (A.re * B.imI) (A.imI * B.re) (A.imJ * B.imK) (-(A.imK * B.imJ))
    have k3 := t4 (A.re * B.imJ) (-(A.imI * B.imK)) (A.imJ * B.re) (A.imK * B.imI)
    have k4 := t4 (A.re * B.imK) (A.imI * B.imJ) (-(A.imJ * B.imI)) (A.imK * B.re)
    simp only [abs_neg, abs_mul, ← sub_eq_add_neg] at k1 k2 k3 k4
    unfold quatL1
    rw [Quaternion.re_mul, Quaternion.imI_mul, Quaternion.imJ_mul, Quaternion.imK_mul]
    refine (add_le_add (add_le_add (add_le_add k1 k2) k3) k4).trans (le_of_eq (by ring))
  have e : Q * R - 1 = Q * (R - Q⁻¹) := by rw [mul_sub, mul_inv_cancel₀ hQ]
  rw [e]
  refine (hmul _ _).trans ?_
  have hD : quatL1 (R - Q⁻¹) ≤ 8 * u * quatL1 Q⁻¹ + 4 * eta := by
    have k0 := h3 0
    have k1 := h3 1
    have k2 := h3 2
    have k3 := h3 3
    simp only [quatVec, Matrix.cons_val] at k0 k1 k2 k3
    unfold quatL1
    simp only [Quaternion.re_sub, Quaternion.imI_sub, Quaternion.imJ_sub, Quaternion.imK_sub]
    linarith
  have hI : quatL1 Q⁻¹ = quatL1 Q / normSq Q := by
    rw [Quaternion.inv_def]
    unfold quatL1
    simp [abs_mul, abs_of_pos hN]
    ring
  have hsq := quatL1_sq Q
  have h0 := quatL1_nonneg Q
  have hu := u_pos (K := K)
  have hle : quatL1 Q * quatL1 Q⁻¹ ≤ 4 := by
    rw [hI, ← mul_div_assoc, div_le_iff₀ hN]; exact hsq
  have a1 := mul_le_mul_of_nonneg_left hD h0
  have a2 := mul_le_mul_of_nonneg_left hle hu.le
  linarith

/-! ### linear interpolation -/

/-- C86: for `t` in [0,1] every component of `interpolate_linear` is finite and within
`((1+u)³-1)((1-t)|s| + t|e|) + 2(1+u) eta` of the exact one. -/
theorem C86_lerp (p q : Quat (Fl K)) (t : Fl K) (P Q : ℍ[K]) (T B : K) (hp : p.Holds P) (hq : q.Holds Q) (ht : t.Holds T)
    (h0 : 0 ≤ T) (h1 : T ≤ 1) (hP : ∀ i, |quatVec P i| ≤ B) (hQ : ∀ i, |quatVec Q i| ≤ B) (hB : 8 * (B + eta) ≤ omega) :
    ∃ R, (Quat.interpolateLinear p q t).Holds R ∧ ∀ i, |quatVec R i - ((1 - T) * quatVec P i + T * quatVec Q i)| ≤
      ((1 + u) ^ 3 - 1) * ((1 - T) * |quatVec P i| + T * |quatVec Q i|) + 2 * (1 + u) * eta := by
  have he := eta_pos (K := K)
  have hB0 : 0 ≤ B := (abs_nonneg _).trans (hP 0)
  have t1 : Fl.lt 1 t = false := by
    rcases ht.1.kcases with rfl | ⟨rfl, rfl⟩
    · rw [Fl.one_def]; simp [Fl.lt, h1]
    · rw [Fl.one_def]; simp [Fl.lt]
  have t0 : Fl.lt t 0 = false := by
    rcases ht.1.kcases with rfl | ⟨rfl, rfl⟩
    · rw [Fl.zero_def]; simp [Fl.lt, h0]
    · rw [Fl.zero_def]; simp [Fl.lt]
  have o : (1 : Fl K).Holds 1 := ⟨Fl.kis_one, by rw [Fl.one_def]; exact .inr LawfulFmt.rnd_one⟩
  have key : ∀ {x y : Fl K} {a b : K}, x.Holds a → y.Holds b → |a| ≤ B → |b| ≤ B →
      ∃ c, (x * (1 - t) + y * t).Holds c ∧ |c - ((1 - T) * a + T * b)| ≤ ((1 + u) ^ 3 - 1) * ((1 - T) * |a| + T * |b|) + 2 * (1 + u) * eta := by
    intro x y a b hx hy ha hb
    have l1 : Lim (1 - t) (65 / 32) := ((Lim.leaf o (le_of_eq abs_one)).sub (Lim.leaf ht (B := 1) (by rw [abs_of_nonneg h0]; exact h1))
      (by linarith [four_le (K := K)])).mono (by norm_num)
    have m1 := (Lim.leaf hx ha).mul l1 (by linarith)
    have m2 := (Lim.leaf hy hb).mul (Lim.leaf ht (B := 1) (by rw [abs_of_nonneg h0]; exact h1)) (by linarith)
    obtain ⟨c, hc⟩ := (m1.add m2 (by linarith)).fin
    refine ⟨c, ⟨hc, Fl.wf_add _ _⟩, ?_⟩
    have w : Appr (1 - t) 1 (1 - T) (1 - T) 0 := by
      refine ⟨Fl.wf_sub _ _, by rw [abs_of_nonneg (by linarith)], le_rfl, fun c hc => ?_⟩
      have := Fl.sub_err o.1 ht.1 o.2 ht.2 hc
      rw [abs_of_nonneg (by linarith : 0 ≤ 1 - T)] at this
      rw [pow_one]; linarith
    have a1 := (Appr.leaf hx).mul w
    have a2 := Appr.prod hy ht
    have := (a1.add (a2.mono (l := 0 + 1 + 1) (by norm_num) le_rfl)).err c hc
    have e1 : (1 - T) * a + T * b = a * (1 - T) + b * T := by ring
    have e2 : (1 - T) * |a| + T * |b| = |a| * (1 - T) + |b * T| := by rw [abs_mul, abs_of_nonneg h0]; ring
    rw [e1, e2]
    refine this.trans (le_of_eq (by ring))
  obtain ⟨px, py, pz, pw⟩ := hp
  obtain ⟨qx, qy, qz, qw⟩ := hq
  obtain ⟨c0, g0, k0⟩ := key px qx (hP 0) (hQ 0)
  obtain ⟨c1, g1, k1⟩ := key py qy (hP 1) (hQ 1)
  obtain ⟨c2, g2, k2⟩ := key pz qz (hP 2) (hQ 2)
  obtain ⟨c3, g3, k3⟩ := key pw qw (hP 3) (hQ 3)
  refine ⟨⟨c3, c0, c1, c2⟩, ?_, fun i => ?_⟩
  · simp only [Quat.interpolateLinear, t1, t0, Bool.false_eq_true, if_false]
    exact ⟨g0, g1, g2, g3⟩
  · fin_cases i
    · exact k0
    · exact k1
    · exact k2
    · exact k3

/-! ### components along and across a plane -/

/-- the tuple of the vector part -/
def quatIm (Q : ℍ[K]) : Fin 3 → K := ![Q.imI, Q.imJ, Q.imK]

theorem half_holds (hr : Fl.Rep (1 / 2 : K)) : (Fl.lit (1 / 2) : Fl K).Holds (1 / 2) := by
  rw [Fl.lit_rep hr]; exact ⟨rfl, hr⟩

theorem abs_half : |(1 / 2 : K)| = 1 / 2 := abs_of_pos (by norm_num)

/-- half the sum with an input -/
theorem plane_add {x y : Fl K} {k : ℕ} {e T h a : K} (hr : Fl.Rep (1 / 2 : K)) (hx : x.Holds a) (hy : Appr y k e T h) :
    Appr ((x + y) * Fl.lit (1 / 2)) (k + 2) ((a + e) / 2) ((|a| + T) / 2) ((1 + u) ^ 2 / 2 * h + eta) :=
  ((((Appr.leaf hx).mono (Nat.zero_le k) le_rfl).add hy).times (half_holds hr)).cast (by ring) (by rw [abs_half]; ring)
    (by rw [abs_half]; ring)

/-- half the difference with an input -/
theorem plane_sub {x y : Fl K} {k : ℕ} {e T h a : K} (hr : Fl.Rep (1 / 2 : K)) (hx : x.Holds a) (hy : Appr y k e T h) :
    Appr ((x - y) * Fl.lit (1 / 2)) (k + 2) ((a - e) / 2) ((|a| + T) / 2) ((1 + u) ^ 2 / 2 * h + eta) :=
  ((((Appr.leaf hx).mono (Nat.zero_le k) le_rfl).sub hy).times (half_holds hr)).cast (by ring) (by rw [abs_half]; ring)
    (by rw [abs_half]; ring)

/-- the three components of the computed `Q V Q` -/
theorem qvq_appr (q : Quat (Fl K)) (p : Mat3x1 (Fl K)) (Q : ℍ[K]) (V : Fin 3 → K) (hq : q.Holds Q) (hp : p.Holds V) (i : Fin 3) :
    Appr ((![((q.mul ⟨p.val[0], p.val[1], p.val[2], 0⟩).mul q).x, ((q.mul ⟨p.val[0], p.val[1], p.val[2], 0⟩).mul q).y,
      ((q.mul ⟨p.val[0], p.val[1], p.val[2], 0⟩).mul q).z] : Fin 3 → Fl K) i) 8 (quatIm (Q * ⟨0, V 0, V 1, V 2⟩ * Q) i)
      (4 * normSq Q * (|V 0| + |V 1| + |V 2|)) (4 * (1 + u) ^ 3 * (1 + (1 + u) ^ 4 * quatL1 Q) * eta) := by
  have h := ((QAppr.leaf hq).times (pure_holds hp)).times hq
  have hV : quatL1 (⟨0, V 0, V 1, V 2⟩ : ℍ[K]) = |V 0| + |V 1| + |V 2| := by unfold quatL1; simp
  have hT : quatL1 Q * quatL1 (⟨0, V 0, V 1, V 2⟩ : ℍ[K]) * quatL1 Q ≤ 4 * normSq Q * (|V 0| + |V 1| + |V 2|) := by
    rw [hV]
    have := mul_le_mul_of_nonneg_right (quatL1_sq Q) (show 0 ≤ |V 0| + |V 1| + |V 2| by positivity)
    linarith
  have e : (1 + u : K) ^ 3 * ((1 + u) * (quatL1 Q * ((1 + u) ^ 3 * ((1 + u) * (quatL1 (⟨0, V 0, V 1, V 2⟩ : ℍ[K]) * 0) + 4 * eta))) + 4 * eta) =
      4 * (1 + u) ^ 3 * (1 + (1 + u) ^ 4 * quatL1 Q) * eta := by ring
  obtain ⟨t1, t2, t3, t4, px, py, pz, pw, hs⟩ := h
  rw [e] at px py pz pw
  have n1 := px.T_nonneg
  have n2 := py.T_nonneg
  have n3 := pz.T_nonneg
  have n4 := pw.T_nonneg
  fin_cases i
  · exact px.weaken (by linarith)
  · exact py.weaken (by linarith)
  · exact pz.weaken (by linarith)

/-- C86: every finite component of `parallel_component_of_plane` differs from the exact `(V + Q V Q)/2` by at most
`((1+u)¹⁰-1)(|vᵢ| + 4|Q|²(|v₀|+|v₁|+|v₂|))/2` plus an underflow term. -/
theorem C86_parallel (hr : Fl.Rep (1 / 2 : K)) (q : Quat (Fl K)) (p : Mat3x1 (Fl K)) (Q : ℍ[K]) (V : Fin 3 → K) (hq : q.Holds Q)
    (hp : p.Holds V) (i : Fin 3) (c : K) (hc : ((q.parallelComponentOfPlane p).val[i] : Fl K).Is c) :
    |c - (V i + quatIm (Q * ⟨0, V 0, V 1, V 2⟩ * Q) i) / 2| ≤
      ((1 + u) ^ 10 - 1) * ((|V i| + 4 * normSq Q * (|V 0| + |V 1| + |V 2|)) / 2) +
        ((1 + u) ^ 2 / 2 * (4 * (1 + u) ^ 3 * (1 + (1 + u) ^ 4 * quatL1 Q) * eta) + eta) := by
  have h := qvq_appr q p Q V hq hp i
  fin_cases i
  · exact (plane_add hr (hp 0) h).err c hc
  · exact (plane_add hr (hp 1) h).err c hc
  · exact (plane_add hr (hp 2) h).err c hc

/-- C86: the same bound for `orthogonal_component_of_plane` and `(V - Q V Q)/2`. -/
theorem C86_orthogonal (hr : Fl.Rep (1 / 2 : K)) (q : Quat (Fl K)) (p : Mat3x1 (Fl K)) (Q : ℍ[K]) (V : Fin 3 → K) (hq : q.Holds Q)
    (hp : p.Holds V) (i : Fin 3) (c : K) (hc : ((q.orthogonalComponentOfPlane p).val[i] : Fl K).Is c) :
    |c - (V i - quatIm (Q * ⟨0, V 0, V 1, V 2⟩ * Q) i) / 2| ≤
      ((1 + u) ^ 10 - 1) * ((|V i| + 4 * normSq Q * (|V 0| + |V 1| + |V 2|)) / 2) +
        ((1 + u) ^ 2 / 2 * (4 * (1 + u) ^ 3 * (1 + (1 + u) ^ 4 * quatL1 Q) * eta) + eta) := by
  have h := qvq_appr q p Q V hq hp i
  fin_cases i
  · exact (plane_sub hr (hp 0) h).err c hc
  · exact (plane_sub hr (hp 1) h).err c hc
  · exact (plane_sub hr (hp 2) h).err c hc

/-! ### the automatic real part -/

theorem neg_one_holds : (Fl.lit (-1) : Fl K).Holds (-1) := by
  have : (Fl.lit (-1) : Fl K) = -Fl.lit 1 := Fl.lit_neg_of_ne one_ne_zero
  have e : (Fl.lit 1 : Fl K) = .fin 1 := by rw [Fl.lit_of_ne one_ne_zero]; exact LawfulFmt.rnd_one
  rw [this, e]
  exact ⟨Fl.Is.kneg rfl, Fl.WF.neg (.inr LawfulFmt.rnd_one)⟩

/-- multiplication by `-1` is exact -/
theorem neg_one_mul_is {x : Fl K} {a : K} (h : x.Holds a) : (Fl.lit (-1) * x).Holds (-a) := by
  refine ⟨?_, Fl.wf_mul _ _⟩
  have ra := h.1.wf_rep h.2
  have := neg_one_holds (K := K).1.mulExact h.1 (by rw [neg_one_mul]; exact (h.1.kneg).wf_rep h.2.neg)
  exact this.kcast (by ring)

theorem auto_neg {a b c w : K} (h1 : a ^ 2 + b ^ 2 + c ^ 2 ≤ 1) (he : (eta : K) ≤ 1 / 64) (hw : w ≤ 0)
    (dev : |w - (1 - a ^ 2 - b ^ 2 - c ^ 2)| ≤ 17 / 2 * u + 4 * eta) :
    |a ^ 2 + b ^ 2 + c ^ 2 + w ^ 2 - 1| ≤ 13 * u + 6 * eta := by
  have hu := u_pos (K := K)
  have hl := u_le (K := K)
  have he0 := eta_pos (K := K)
  obtain ⟨d1, d2⟩ := abs_le.mp dev
  have hw1 : 0 ≤ 1 + w := by linarith
  have := mul_nonneg hw1 (neg_nonneg.mpr hw)
  have h3 := sq_nonneg w
  have h4 : (1 + w) * -w = -w - w ^ 2 := by ring
  rw [abs_le]
  constructor <;> linarith

theorem auto_top {a b c w : K} (pa : 0 ≤ a ^ 2) (pb : 0 ≤ b ^ 2) (pc : 0 ≤ c ^ 2) (he : (eta : K) ≤ 1 / 64)
    (dev : |w - (1 - a ^ 2 - b ^ 2 - c ^ 2)| ≤ 17 / 2 * u + 4 * eta) : w ≤ 5 / 4 := by
  have hl := u_le (K := K)
  obtain ⟨d1, d2⟩ := abs_le.mp dev
  linarith

theorem auto_pos {a b c w r : K} (hw0 : 0 ≤ w) (ww : w ≤ 5 / 4) (r1 : (1 - u) ^ 2 * w ≤ r ^ 2) (r2 : r ^ 2 ≤ (1 + u) ^ 2 * w)
    (dev : |w - (1 - a ^ 2 - b ^ 2 - c ^ 2)| ≤ 17 / 2 * u + 4 * eta) :
    |a ^ 2 + b ^ 2 + c ^ 2 + (-r) ^ 2 - 1| ≤ 13 * u + 6 * eta := by
  have hu := u_pos (K := K)
  have hl := u_le (K := K)
  have he0 := eta_pos (K := K)
  obtain ⟨d1, d2⟩ := abs_le.mp dev
  rw [neg_sq]
  have u2 := mul_le_mul_of_nonneg_left hl hu.le
  have k1 : (1 + u : K) ^ 2 * w ≤ w + 3 * u := by
    have : (2 * u + u ^ 2 : K) * w ≤ (2 * u + u ^ 2) * (5 / 4) := mul_le_mul_of_nonneg_left ww (by positivity)
    linarith [show (1 + u : K) ^ 2 * w = w + (2 * u + u ^ 2) * w by ring, sq (u : K)]
  have k2 : w - 3 * u ≤ (1 - u : K) ^ 2 * w := by
    have : (2 * u : K) * w ≤ (2 * u) * (5 / 4) := mul_le_mul_of_nonneg_left ww (by positivity)
    linarith [show (1 - u : K) ^ 2 * w = w - 2 * u * w + u ^ 2 * w by ring, mul_nonneg (sq_nonneg (u : K)) hw0]
  rw [abs_le]
  constructor <;> linarith

/-- C86: for `x² + y² + z² ≤ 1` the quaternion of `init_from_vals_auto_w` keeps `x`, `y`, `z` and has unit squared norm up to
`13u + 6 eta`. -/
theorem C86_auto_w (x y z : Fl K) (a b c : K) (hx : x.Holds a) (hy : y.Holds b) (hz : z.Holds c) (h1 : a ^ 2 + b ^ 2 + c ^ 2 ≤ 1)
    (he : (eta : K) ≤ 1 / 64) (hO : (8 : K) ≤ omega) :
    ∃ w W, Quat.initFromValsAutoW x y z = ⟨x, y, z, w⟩ ∧ w.Holds W ∧ W ≤ 0 ∧ |a ^ 2 + b ^ 2 + c ^ 2 + W ^ 2 - 1| ≤ 13 * u + 6 * eta := by
  have hu := u_pos (K := K)
  have hl := u_le (K := K)
  have he0 := eta_pos (K := K)
  have o : (1 : Fl K).Holds 1 := ⟨Fl.kis_one, by rw [Fl.one_def]; exact .inr LawfulFmt.rnd_one⟩
  have pa := sq_nonneg a
  have pb := sq_nonneg b
  have pc := sq_nonneg c
  have la : |a| ≤ 1 := abs_le_one_iff_mul_self_le_one.mpr (by linarith [sq a])
  have lb : |b| ≤ 1 := abs_le_one_iff_mul_self_le_one.mpr (by linarith [sq b])
  have lc : |c| ≤ 1 := abs_le_one_iff_mul_self_le_one.mpr (by linarith [sq c])
  have mx := (Lim.leaf hx la).mul (Lim.leaf hx la) (by linarith)
  have my := (Lim.leaf hy lb).mul (Lim.leaf hy lb) (by linarith)
  have mz := (Lim.leaf hz lc).mul (Lim.leaf hz lc) (by linarith)
  have s1 := (Lim.leaf o (le_of_eq abs_one)).sub mx (by linarith)
  have s2 := s1.sub my (by linarith)
  have s3 := s2.sub mz (by linarith)
  obtain ⟨w, hw⟩ := s3.fin
  have sqa : ∀ r : K, |r * r| = r ^ 2 := fun r => by rw [abs_mul_self, sq]
  have ap := (((((Appr.leaf o).mono (l := 1) (by norm_num) le_rfl).sub (Appr.prod hx hx)).sub ((Appr.prod hy hy).mono (l := 2) (by norm_num) le_rfl)).sub
    ((Appr.prod hz hz).mono (l := 3) (by norm_num) le_rfl)).err w hw
  rw [abs_one, sqa, sqa, sqa] at ap
  have u2 := mul_le_mul_of_nonneg_left hl hu.le
  have u3 := mul_le_mul_of_nonneg_left u2 hu.le
  have u4 := mul_le_mul_of_nonneg_left u3 hu.le
  have g4 : (1 + u : K) ^ (1 + 1 + 1 + 1) - 1 ≤ 17 / 4 * u := by nlinarith
  have g4' : ((1 + u : K) ^ (1 + 1 + 1 + 1) - 1) * (1 + a ^ 2 + b ^ 2 + c ^ 2) ≤ 17 / 2 * u := by
    have g0 : (0 : K) ≤ (1 + u) ^ (1 + 1 + 1 + 1) - 1 := by linarith [grow_one (K := K) (1 + 1 + 1 + 1)]
    calc _ ≤ ((1 + u : K) ^ (1 + 1 + 1 + 1) - 1) * 2 := mul_le_mul_of_nonneg_left (by linarith) g0
      _ ≤ _ := by linarith
  have gh : (1 + u : K) * ((1 + u) * ((1 + u) * (0 + eta) + eta) + eta) ≤ 4 * eta := by
    have k1 : (1 + u : K) * (0 + eta) ≤ 65 / 64 * eta := by
      rw [zero_add]; exact mul_le_mul_of_nonneg_right (by linarith) he0.le
    have k2 : (1 + u : K) * ((1 + u) * (0 + eta) + eta) ≤ 65 / 64 * (65 / 64 * eta + eta) :=
      mul_le_mul (by linarith) (by linarith) (by positivity) (by norm_num)
    have k3 : (1 + u : K) * ((1 + u) * ((1 + u) * (0 + eta) + eta) + eta) ≤ 65 / 64 * (65 / 64 * (65 / 64 * eta + eta) + eta) :=
      mul_le_mul (by linarith) (by linarith) (by positivity) (by norm_num)
    linarith
  have dev : |w - (1 - a ^ 2 - b ^ 2 - c ^ 2)| ≤ 17 / 2 * u + 4 * eta := by
    rw [show 1 - a ^ 2 - b ^ 2 - c ^ 2 = 1 - a * a - b * b - c * c by ring]
    exact ap.trans (add_le_add g4' gh)
  have hwf : (1 - x * x - y * y - z * z : Fl K).WF := Fl.wf_sub _ _
  by_cases hneg : Fl.lt (1 - x * x - y * y - z * z) 0 = true
  · have hw0 : w < 0 := by
      rcases hw.kcases with e | ⟨e, -⟩
      · rw [e, Fl.zero_def] at hneg; simpa [Fl.lt] using hneg
      · rw [e, Fl.zero_def] at hneg; simp [Fl.lt] at hneg
    refine ⟨_, w, by simp only [Quat.initFromValsAutoW, hneg, if_true], ⟨hw, hwf⟩, hw0.le, ?_⟩
    exact auto_neg h1 he hw0.le dev
  · have hneg' : Fl.lt (1 - x * x - y * y - z * z) 0 = false := by simpa using hneg
    have hw0 : 0 ≤ w := by
      rcases hw.kcases with e | ⟨-, e⟩
      · rw [e, Fl.zero_def] at hneg'; simpa [Fl.lt] using hneg'
      · exact e.ge
    have ww := auto_top pa pb pc he dev
    obtain ⟨r, hr⟩ := Fl.sqrt_fin hw hw0 (by linarith)
    obtain ⟨r0, r1, r2⟩ := Fl.sqrt_err hw hwf hr
    refine ⟨_, -r, by simp only [Quat.initFromValsAutoW, hneg', Bool.false_eq_true, if_false], neg_one_mul_is ⟨hr, Fl.wf_sqrt _⟩, by linarith, ?_⟩
    exact auto_pos hw0 ww r1 r2 dev

/-! ### centroid of a box -/

/-- C86: every finite coordinate of the centroid of a box is within `((1+u)²-1)|l+h|/2 + eta` of the exact midpoint. -/
theorem C86_centroid (b : AABB (Fl K)) (L H : Fin 3 → K) (hL : ∀ i : Fin 3, b.lower[i].Holds (L i)) (hH : ∀ i : Fin 3, b.upper[i].Holds (H i))
    (hO : ∀ i, |L i + H i| ≤ omega / 2) :
    ∃ v, (IBound.aabb b).getCentroid = .ok v ∧ ∀ i : Fin 3, ∃ m, v[i].Holds m ∧
      |m - (L i + H i) / 2| ≤ ((1 + u) ^ 2 - 1) * |(L i + H i) / 2| + eta := by
  have hu := u_pos (K := K)
  have hl := u_le (K := K)
  obtain ⟨v, hv, e⟩ := getCentroid_eq b
  refine ⟨v, hv, fun i => ?_⟩
  obtain ⟨s, hs⟩ := Fl.add_fin (hL i).1 (hH i).1 (by linarith [hO i, four_le (K := K)])
  have e1 := Fl.add_err (hL i).1 (hH i).1 (hL i).2 (hH i).2 hs
  have t1 := abs_add_le (s - (L i + H i)) (L i + H i)
  rw [sub_add_cancel] at t1
  have two := two_holds (K := K)
  have a2 : |s / 2| = |s| / 2 := by rw [abs_div, abs_two]
  have a3 : |(L i + H i) / 2| = |L i + H i| / 2 := by rw [abs_div, abs_two]
  have hul := mul_le_mul_of_nonneg_right hl (abs_nonneg (L i + H i))
  obtain ⟨m, hm⟩ := Fl.div_fin hs two.1 two_ne_zero (by rw [a2]; linarith [hO i, four_le (K := K)])
  refine ⟨m, by rw [e]; exact ⟨hm, Fl.wf_div _ _⟩, ?_⟩
  have e2 := Fl.div_err hs two.1 two_ne_zero hm
  have t2 := abs_add_le (m - s / 2) (s / 2 - (L i + H i) / 2)
  rw [sub_add_sub_cancel, ← sub_div, abs_div, abs_two] at t2
  rw [a2] at e2
  rw [a3]
  have h3 := mul_le_mul_of_nonneg_left (t1.trans (add_le_add e1 le_rfl)) hu.le
  linarith [show ((1 + u) ^ 2 - 1) * (|L i + H i| / 2) = u * (u * |L i + H i| + |L i + H i|) / 2 + u * |L i + H i| / 2 by ring]

/-! ### concrete cases and limits -/

theorem half64 : Fl.Rep (1 / 2 : Q64) := .inr (by decide +kernel)

theorem H2341_norm : normSq H2341 = (30 : Q64) := by
  rw [Quaternion.normSq_def']
  show (1 : Q64) ^ 2 + 2 ^ 2 + 3 ^ 2 + 4 ^ 2 = 30
  norm_num

theorem nu_tiny : (nu : Q64) ≤ 1 / 1024 := by
  rw [C55_constants.2.2.1]
  show (2 : ℚ) ^ (-1022 : ℤ) ≤ 1 / 1024
  have : (2 : ℚ) ^ (-1022 : ℤ) ≤ 2 ^ (-10 : ℤ) := zpow_le_zpow_right₀ (by norm_num) (by norm_num)
  exact this.trans (by norm_num)

theorem H2341_under : 2 * (nu * normSq H2341) ≤ (1 : Q64) := by
  rw [H2341_norm]; have := nu_tiny; linarith

/-- concrete case -/
example := C86_inverse q2341 H2341 q2341_holds H2341_ne H2341_lo
  (by rw [H2341_norm]; have := omega_big; linarith)
  H2341_under
  (by rw [H2341_norm]; have := omega_big; linarith)

/-- concrete case -/
example := C86_inverse_product q2341 H2341 q2341_holds H2341_ne H2341_lo
  (by rw [H2341_norm]; have := omega_big; linarith)
  H2341_under
  (by rw [H2341_norm]; have := omega_big; linarith)

/-- concrete case -/
example := C86_lerp q2341 q2341.negate (.fin (1 / 4)) H2341 (-H2341) (1 / 4) 5 q2341_holds
  ⟨⟨rfl, .inr (by decide +kernel)⟩, ⟨rfl, .inr (by decide +kernel)⟩, ⟨rfl, .inr (by decide +kernel)⟩, ⟨rfl, .inr (by decide +kernel)⟩⟩
  ⟨rfl, .inr (by decide +kernel)⟩ (by norm_num) (by norm_num) H2341_five
  (fun i => by have := H2341_five i; fin_cases i <;> simpa [quatVec] using this)
  (by have := omega_big; have := eta_tiny; linarith)

/-- concrete case -/
example := C86_parallel half64 q2341 b405 H2341 B405 q2341_holds b405_holds 1
/-- concrete case -/
example := C86_orthogonal half64 q2341 b405 H2341 B405 q2341_holds b405_holds 1

/-- concrete case -/
example := C86_auto_w (.fin (1 / 2)) (.fin (1 / 4)) (.fin (-1 / 8)) (1 / 2 : Q64) (1 / 4) (-1 / 8) ⟨rfl, half64⟩
  ⟨rfl, .inr (by decide +kernel)⟩ ⟨rfl, .inr (by decide +kernel)⟩ (by norm_num) eta_tiny (by have := omega_big; linarith)

/-- concrete case -/
example := C86_centroid (⟨#v[.fin 1, .fin 2, .fin 3], #v[.fin 4, .fin 5, .fin 6]⟩ : AABB (Fl Q64)) ![1, 2, 3] ![4, 5, 6]
  (fun i => by fin_cases i <;> exact ⟨rfl, .inr (by decide +kernel)⟩)
  (fun i => by fin_cases i <;> exact ⟨rfl, .inr (by decide +kernel)⟩)
  (fun i => by
    have := omega_big
    fin_cases i <;> simp only [Fin.mk_zero, Fin.mk_one, Fin.reduceFinMk, Matrix.cons_val] <;>
      rw [abs_of_pos (by norm_num)] <;> linarith)

/-- C86: the range of `C86_inverse` is needed: in binary64 the non-zero quaternion `2^-600` panics on inversion, and the inverse
of `2^600` comes out as zero although `2^-600` is representable. -/
theorem C86_inverse_range_false :
    (⟨.fin 0, .fin 0, .fin 0, .fin (1 / 2 ^ 600)⟩ : Quat (Fl Q64)).inverse = .error .assertFailed ∧
    ∃ r : Quat (Fl Q64), (⟨.fin 0, .fin 0, .fin 0, .fin (2 ^ 600)⟩ : Quat (Fl Q64)).inverse = .ok r ∧ r.w = .fin 0 ∧
      Fl.Rep (1 / 2 ^ 600 : Q64) := by
  refine ⟨by decide +kernel, ⟨⟨.nzero, .nzero, .nzero, .fin 0⟩, by decide +kernel, rfl, .inr (by decide +kernel)⟩⟩

/-- C86: interpolating linearly between a quaternion and itself does not return it in binary64: `3(1-t) + 3t ≠ 3` for
`t` the double nearest `0.3`. -/
theorem C86_lerp_self_false : ∃ (q : Quat (Fl Q64)) (t : Fl Q64), Fl.lt 0 t = true ∧ Fl.lt t 1 = true ∧
    (Quat.interpolateLinear q q t).x = .fin (3 - 1 / 2 ^ 51) ∧ q.x = .fin 3 :=
  ⟨⟨.fin 3, .fin 0, .fin 0, .fin 0⟩, Fl.lit (3 / 10), by decide +kernel, by decide +kernel, by decide +kernel, rfl⟩

end Mazth
