import Verif.Props.FloatPlane
import Verif.Props.QuatMat

/-!
# C67: rotating vectors in floating point

A quaternion normalised by the library and then used by `rotate_vector` or `to_rotation_matrix` rotates exactly up to a
multiple of the rounding unit: the bounds cover the normalisation, the rotation and the absence of overflow.
-/

set_option linter.unusedSectionVars false
set_option autoImplicit false

namespace Mazth

open Matrix RndErr Quaternion

/-! ### real computations -/

theorem norm_quat (Q : ℍ[ℝ]) : ‖Q‖ = euc ![Q.imI, Q.imJ, Q.imK, Q.re] := by
  rw [euc_eq, Fin.sum_univ_four, ← Real.sqrt_mul_self (norm_nonneg Q), ← Quat.normSq_eq]
  rfl

theorem norm_pureQ (v : R3) : ‖pureQ v‖ = euc v := by
  rw [norm_quat, euc_eq, euc_eq, Fin.sum_univ_four, Fin.sum_univ_three]
  simp [pureQ]

theorem vecQ_le (Q : ℍ[ℝ]) (i : Fin 3) : |vecQ Q i| ≤ ‖Q‖ := by
  rw [norm_quat]
  fin_cases i
  · exact euc_coord ![Q.imI, Q.imJ, Q.imK, Q.re] 0
  · exact euc_coord ![Q.imI, Q.imJ, Q.imK, Q.re] 1
  · exact euc_coord ![Q.imI, Q.imJ, Q.imK, Q.re] 2

/-- the rotation does not depend on the scale of the quaternion -/
theorem rotR_scale {c : ℝ} (hc : c ≠ 0) (Q : ℍ[ℝ]) (v : R3) : rotR (c • Q) v = rotR Q v := by
  unfold rotR
  rw [smul_inv₀, smul_mul_assoc, smul_mul_assoc, mul_smul_comm, smul_smul, mul_inv_cancel₀ hc, one_smul]

/-- conjugation by two close quaternions -/
theorem conj_close {U N : ℍ[ℝ]} (hU : ‖U‖ = 1) {δ : ℝ} (hδ : ‖N - U‖ ≤ δ) (P : ℍ[ℝ]) :
    ‖N * P * star N - U * P * star U‖ ≤ δ * (2 + δ) * ‖P‖ := by
  have e : N * P * star N - U * P * star U = (N - U) * P * star N + U * P * star (N - U) := by
    rw [star_sub]; noncomm_ring
  have hN : ‖N‖ ≤ 1 + δ := by
    have := norm_add_le (N - U) U
    rw [sub_add_cancel, hU] at this; linarith
  have h0 : 0 ≤ δ := (norm_nonneg _).trans hδ
  rw [e]
  refine (norm_add_le _ _).trans ?_
  rw [norm_mul, norm_mul, norm_mul, norm_mul, Quaternion.norm_star, Quaternion.norm_star, hU]
  have h1 : ‖N - U‖ * ‖P‖ * ‖N‖ ≤ δ * ‖P‖ * (1 + δ) := by
    have := norm_nonneg P
    have := norm_nonneg N
    gcongr
  have h2 : 1 * ‖P‖ * ‖N - U‖ ≤ ‖P‖ * δ := by
    rw [one_mul]; exact mul_le_mul_of_nonneg_left hδ (norm_nonneg _)
  linarith

theorem abs_sum_le (v : R3) : |v 0| + |v 1| + |v 2| ≤ 7 / 4 * euc v := by
  have h := euc_sq v
  have h0 := euc_nonneg v
  rw [dotProduct, Fin.sum_univ_three] at h
  have : (|v 0| + |v 1| + |v 2|) ^ 2 ≤ (7 / 4 * euc v) ^ 2 := by
    have a := abs_mul_abs_self (v 0)
    have b := abs_mul_abs_self (v 1)
    have c := abs_mul_abs_self (v 2)
    nlinarith [sq_nonneg (|v 0| - |v 1|), sq_nonneg (|v 0| - |v 2|), sq_nonneg (|v 1| - |v 2|)]
  exact (abs_le_of_sq_le_sq' this (by positivity)).2

/-- a tuple whose coordinates are small relative to a unit one -/
theorem near_unit {E w : Fin 4 → ℝ} (hw : euc w = 1) {a e : ℝ} (ha : 0 ≤ a) (he : 0 ≤ e) (h : ∀ i, |E i| ≤ a * |w i| + e) :
    euc E ≤ a + 2 * e := by
  have hs : w 0 * w 0 + w 1 * w 1 + w 2 * w 2 + w 3 * w 3 = 1 := by
    have := euc_sq w; rw [hw, dotProduct, Fin.sum_univ_four] at this; linarith
  have hsum : |w 0| + |w 1| + |w 2| + |w 3| ≤ 2 := by
    have a0 := abs_mul_abs_self (w 0)
    have a1 := abs_mul_abs_self (w 1)
    have a2 := abs_mul_abs_self (w 2)
    have a3 := abs_mul_abs_self (w 3)
    nlinarith [sq_nonneg (|w 0| - 1 / 2), sq_nonneg (|w 1| - 1 / 2), sq_nonneg (|w 2| - 1 / 2), sq_nonneg (|w 3| - 1 / 2)]
  have hq : ∀ i, E i * E i ≤ a * a * (w i * w i) + 2 * (a * e) * |w i| + e * e := fun i => by
    rw [← abs_mul_abs_self (E i), ← abs_mul_abs_self (w i)]
    have := mul_le_mul (h i) (h i) (abs_nonneg _) ((abs_nonneg _).trans (h i))
    linarith
  have h1 : euc E * euc E ≤ (a + 2 * e) * (a + 2 * e) := by
    rw [euc_sq, dotProduct, Fin.sum_univ_four]
    have hae : 0 ≤ a * e := mul_nonneg ha he
    have := mul_le_mul_of_nonneg_left hsum hae
    have hs' : a * a * (w 0 * w 0) + a * a * (w 1 * w 1) + a * a * (w 2 * w 2) + a * a * (w 3 * w 3) = a * a := by
      rw [← mul_add, ← mul_add, ← mul_add, hs, mul_one]
    linarith [hq 0, hq 1, hq 2, hq 3]
  exact abs_le_of_sq_le_sq' (by rw [sq, sq]; exact h1) (by positivity) |>.2

/-- the length of a vector close to another one, coordinate by coordinate -/
theorem euc_close {v w : R3} {e : ℝ} (h : ∀ i, |w i - v i| ≤ e) : |euc w - euc v| ≤ 2 * e := by
  have h0 : 0 ≤ e := (abs_nonneg _).trans (h 0)
  have h1 : euc (w - v) ≤ 2 * e := by
    have : euc (w - v) * euc (w - v) ≤ (2 * e) * (2 * e) := by
      rw [euc_sq, dotProduct, Fin.sum_univ_three]
      have q : ∀ i, (w - v) i * (w - v) i ≤ e * e := fun i => by
        rw [← abs_mul_abs_self]; exact mul_le_mul (h i) (h i) (abs_nonneg _) h0
      nlinarith [q 0, q 1, q 2, mul_nonneg h0 h0]
    exact abs_le_of_sq_le_sq' (by rw [sq, sq]; exact this) (by positivity) |>.2
  refine le_trans ?_ h1
  exact abs_norm_sub_norm_le (WithLp.toLp 2 w : EuclideanSpace ℝ (Fin 3)) (WithLp.toLp 2 v)

/-- rotating back -/
theorem rotR_back {U : ℍ[ℝ]} (hU : ‖U‖ = 1) (v : R3) : rotR (star U) (rotR U v) = v := by
  have hs : ‖star U‖ = 1 := by rw [Quaternion.norm_star, hU]
  have hm : star U * U = 1 := by rw [← unit_inv hU]; exact inv_mul_cancel₀ (norm_ne_zero_iff.mp (by rw [hU]; norm_num))
  unfold rotR
  rw [unit_inv hU, unit_inv hs, star_star, pureQ_vecQ (rot_re U v), ← mul_assoc, ← mul_assoc, hm, one_mul, mul_assoc, hm, mul_one,
    vecQ_pureQ]

/-- products of components of two close quaternions -/
theorem prod_close {a b a' b' t : ℝ} (ha : |a' - a| ≤ 8 * t) (hb : |b' - b| ≤ 8 * t) (h1 : |a| ≤ 1) (h2 : |b'| ≤ 9 / 8) :
    |a' * b' - a * b| ≤ 17 * t := by
  have e : a' * b' - a * b = (a' - a) * b' + a * (b' - b) := by ring
  rw [e]
  refine (abs_add_le _ _).trans ?_
  rw [abs_mul, abs_mul]
  have x := mul_le_mul ha h2 (abs_nonneg _) ((abs_nonneg _).trans ha)
  have y := mul_le_mul h1 hb (abs_nonneg _) zero_le_one
  linarith

/-- a row of an approximate matrix times a vector, rounded -/
theorem apply_real {t η a0 a1 a2 r0 r1 r2 v0 v1 v2 w L : ℝ} (h0 : 0 ≤ t) (h1 : t ≤ 1 / 64) (hη : 0 ≤ η)
    (d0 : |a0 - r0| ≤ 100 * t) (d1 : |a1 - r1| ≤ 100 * t) (d2 : |a2 - r2| ≤ 100 * t)
    (k0 : |a0| ≤ 3) (k1 : |a1| ≤ 3) (k2 : |a2| ≤ 3) (hs : |v0| + |v1| + |v2| ≤ 7 / 4 * L) (hL : 0 ≤ L)
    (h : |w - (a0 * v0 + a1 * v1 + a2 * v2)| ≤ ((1 + t) ^ 4 - 1) * (|a0 * v0| + |a1 * v1| + |a2 * v2|) + 4 * (1 + t) ^ 3 * η) :
    |w - (r0 * v0 + r1 * v1 + r2 * v2)| ≤ 200 * t * L + 5 * η := by
  have g4 : (1 + t) ^ 4 - 1 ≤ 41 / 10 * t := by
    have e : (1 + t) ^ 4 - 1 = t * (4 + 6 * t + t * t * (4 + t)) := by ring
    rw [e]
    have h2 : t * t ≤ 1 / 64 * (1 / 64) := mul_le_mul h1 h1 h0 (by norm_num)
    have h3 : t * t * (4 + t) ≤ 1 / 64 * (1 / 64) * 5 := mul_le_mul h2 (by linarith) (by linarith) (by norm_num)
    nlinarith
  have g3 : 4 * (1 + t) ^ 3 ≤ 5 := by
    have : (1 + t) ^ 3 ≤ (65 / 64) ^ 3 := by gcongr; linarith
    exact (mul_le_mul_of_nonneg_left this (by norm_num)).trans (by norm_num)
  have hT : |a0 * v0| + |a1 * v1| + |a2 * v2| ≤ 3 * (7 / 4 * L) := by
    rw [abs_mul, abs_mul, abs_mul]
    have x0 := mul_le_mul_of_nonneg_right k0 (abs_nonneg v0)
    have x1 := mul_le_mul_of_nonneg_right k1 (abs_nonneg v1)
    have x2 := mul_le_mul_of_nonneg_right k2 (abs_nonneg v2)
    linarith
  have b1 : ((1 + t) ^ 4 - 1) * (|a0 * v0| + |a1 * v1| + |a2 * v2|) ≤ 41 / 10 * t * (3 * (7 / 4 * L)) :=
    mul_le_mul g4 hT (by positivity) (by positivity)
  have b2 := mul_le_mul_of_nonneg_right g3 hη
  have e : w - (r0 * v0 + r1 * v1 + r2 * v2) = (w - (a0 * v0 + a1 * v1 + a2 * v2)) + ((a0 - r0) * v0 + (a1 - r1) * v1 + (a2 - r2) * v2) := by
    ring
  have b3 : |(a0 - r0) * v0 + (a1 - r1) * v1 + (a2 - r2) * v2| ≤ 100 * t * (7 / 4 * L) := by
    refine (abs_add_three _ _ _).trans ?_
    rw [abs_mul, abs_mul, abs_mul]
    have x0 := mul_le_mul_of_nonneg_right d0 (abs_nonneg v0)
    have x1 := mul_le_mul_of_nonneg_right d1 (abs_nonneg v1)
    have x2 := mul_le_mul_of_nonneg_right d2 (abs_nonneg v2)
    have := mul_le_mul_of_nonneg_left hs (show 0 ≤ 100 * t by positivity)
    linarith
  rw [e]
  refine (abs_add_le _ _).trans ?_
  have : 0 ≤ t * L := by positivity
  linarith

/-! ### the floats -/

section floats

variable {K : Type} [Field K] [LinearOrder K] [IsStrictOrderedRing K] [Fmt K] [LawfulFmt K] [RndErr K]

/-- all four components in range -/
def QLim (q : Quat (Fl K)) (B : K) : Prop := Lim q.x B ∧ Lim q.y B ∧ Lim q.z B ∧ Lim q.w B

theorem Lim.sum4 {a b c d : Fl K} {B : K} (ha : Lim a B) (hb : Lim b B) (hc : Lim c B) (hd : Lim d B) (ho : 5 * B ≤ omega) :
    Lim (a + b + c + d) (5 * B) := by
  have h0 := ha.nonneg
  exact (((ha.add hb (by linarith)).add hc (by linarith)).add hd (by linarith)).mono (by linarith)

theorem QLim.mul {p q : Quat (Fl K)} {A B : K} (hp : QLim p A) (hq : QLim q B) (he : (eta : K) ≤ 1 / 64)
    (ho : 6 * (A * B) + 1 ≤ omega) : QLim (p.mul q) (6 * (A * B) + 1) := by
  obtain ⟨p1, p2, p3, p4⟩ := hp
  obtain ⟨q1, q2, q3, q4⟩ := hq
  have h0 : 0 ≤ A * B := mul_nonneg p1.nonneg q1.nonneg
  have m : ∀ {x y : Fl K}, Lim x A → Lim y B → Lim (x * y) (65 / 64 * (A * B) + eta) := fun h h' => h.mul h' (by linarith)
  have ho' : 5 * (65 / 64 * (A * B) + eta) ≤ (omega : K) := by linarith
  have hm : 5 * (65 / 64 * (A * B) + eta) ≤ 6 * (A * B) + 1 := by linarith
  exact ⟨(Lim.sum4 (m p4 q1) (m p1 q4) (m p2 q3) (m p3 q2).neg ho').mono hm,
    (Lim.sum4 (m p4 q2) (m p1 q3).neg (m p2 q4) (m p3 q1) ho').mono hm,
    (Lim.sum4 (m p4 q3) (m p1 q2) (m p2 q1).neg (m p3 q4) ho').mono hm,
    (Lim.sum4 (m p4 q4) (m p1 q1).neg (m p2 q2).neg (m p3 q3).neg ho').mono hm⟩

theorem QLim.of_holds {q : Quat (Fl K)} {Q : ℍ[K]} {B : K} (h : q.Holds Q) (hB : ∀ i, |quatVec Q i| ≤ B) : QLim q B :=
  ⟨.of_holds h.1 (hB 0), .of_holds h.2.1 (hB 1), .of_holds h.2.2.1 (hB 2), .of_holds h.2.2.2 (hB 3)⟩

/-- the length of a quaternion does not overflow -/
theorem quat_length_finite {q : Quat (Fl K)} {Q : ℍ[K]} (h : q.Holds Q) {M : K} (hM : ∀ i, |quatVec Q i| ≤ M)
    (he : (eta : K) ≤ 1 / 64) (ho : 6 * (M * M) + 1 ≤ omega) (hn : ∀ i, quatVec Q i = 0 ∨ nu ≤ quatVec Q i * quatVec Q i) :
    q.length.Finite := by
  obtain ⟨p1, p2, p3, p4⟩ := QLim.of_holds h hM
  have h0 : 0 ≤ M * M := mul_nonneg p1.nonneg p1.nonneg
  have m : ∀ {x : Fl K}, Lim x M → Lim (x * x) (65 / 64 * (M * M) + eta) := fun h => h.mul h (by linarith)
  have l := Lim.sum4 (m p1) (m p2) (m p3) (m p4) (by linarith)
  obtain ⟨s, hs⟩ := l.fin
  have hN := sumsq4 h.1.1 h.2.1.1 h.2.2.1.1 h.2.2.2.1 (hn 0) (hn 1) (hn 2) (hn 3) hs
  exact Fl.sqrt_fin hs hN.pos ((le_abs_self s).trans ((l.is_le hs).trans (by linarith)))

variable (φ : K →+* ℝ) (hφ : StrictMono φ)

/-- a quaternion over the format, as a real quaternion -/
def toH (Q : ℍ[K]) : ℍ[ℝ] := ⟨φ Q.re, φ Q.imI, φ Q.imJ, φ Q.imK⟩

@[simp] theorem toH_re (Q : ℍ[K]) : (toH φ Q).re = φ Q.re := rfl
@[simp] theorem toH_imI (Q : ℍ[K]) : (toH φ Q).imI = φ Q.imI := rfl
@[simp] theorem toH_imJ (Q : ℍ[K]) : (toH φ Q).imJ = φ Q.imJ := rfl
@[simp] theorem toH_imK (Q : ℍ[K]) : (toH φ Q).imK = φ Q.imK := rfl

theorem toH_star (Q : ℍ[K]) : toH φ (star Q) = star (toH φ Q) := by
  ext <;> simp

theorem toH_mul (P Q : ℍ[K]) : toH φ (P * Q) = toH φ P * toH φ Q := by
  ext <;> simp

theorem toH_norm (Q : ℍ[K]) : ‖toH φ Q‖ = euc (fun i => φ (quatVec Q i)) := by
  rw [norm_quat]
  congr 1
  funext i; fin_cases i <;> rfl

theorem toH_rot (Q : ℍ[K]) (V : Fin 3 → K) (i : Fin 3) :
    φ (![(Q * ⟨0, V 0, V 1, V 2⟩ * star Q).imI, (Q * ⟨0, V 0, V 1, V 2⟩ * star Q).imJ, (Q * ⟨0, V 0, V 1, V 2⟩ * star Q).imK] i) =
      vecQ (toH φ Q * pureQ (toR φ V) * star (toH φ Q)) i := by
  have e : toH φ (Q * ⟨0, V 0, V 1, V 2⟩ * star Q) = toH φ Q * pureQ (toR φ V) * star (toH φ Q) := by
    have e1 : toH φ (⟨0, V 0, V 1, V 2⟩ : ℍ[K]) = pureQ (toR φ V) := by
      ext
      · exact map_zero φ
      · rfl
      · rfl
      · rfl
    have e2 : ∀ P : ℍ[K], toH φ (Q * P * star Q) = toH φ Q * toH φ P * star (toH φ Q) := fun P => by
      rw [toH_mul, toH_mul, toH_star]
    exact (e2 _).trans (congrArg (fun P => toH φ Q * P * star (toH φ Q)) e1)
  rw [← e]
  fin_cases i <;> rfl

theorem toH_normSq (Q : ℍ[K]) : φ (normSq Q) = ‖toH φ Q‖ * ‖toH φ Q‖ := by
  rw [← Quat.normSq_eq, Quaternion.normSq_def']
  simp; ring

include hφ

theorem toH_ne {Q : ℍ[K]} (h : Q ≠ 0) : toH φ Q ≠ 0 := fun e => h (by
  have inj : ∀ {a : K}, φ a = 0 → a = 0 := fun {a} ha => hφ.injective (by rw [ha, map_zero])
  have hr := congrArg QuaternionAlgebra.re e
  have hi := congrArg QuaternionAlgebra.imI e
  have hj := congrArg QuaternionAlgebra.imJ e
  have hk := congrArg QuaternionAlgebra.imK e
  ext
  · exact inj hr
  · exact inj hi
  · exact inj hj
  · exact inj hk)

/-- normalisation gives a quaternion within `8u` of the exact unit quaternion -/
theorem normalize_close {q : Quat (Fl K)} {Q : ℍ[K]} (hq : q.Holds Q) (hn : ∀ i, quatVec Q i = 0 ∨ nu ≤ quatVec Q i * quatVec Q i)
    (h0 : Q ≠ 0) {M : K} (hM : ∀ i, |quatVec Q i| ≤ M) (he : (eta : K) ≤ u) (ho : 6 * (M * M) + 1 ≤ omega) :
    ∃ n N, q.normalize = .ok n ∧ n.Holds N ∧ ‖toH φ N - (‖toH φ Q‖⁻¹ • toH φ Q)‖ ≤ 8 * φ u := by
  have he64 : (eta : K) ≤ 1 / 64 := he.trans u_le
  obtain ⟨hu, hul, heta⟩ := phi_u φ hφ
  have he' : φ eta ≤ φ u := hφ.monotone he
  obtain ⟨n, N, e, hN, h1, -⟩ := C59_normalize φ hφ q Q hq hn h0 (quat_length_finite hq hM he64 ho hn)
  refine ⟨n, N, e, hN, ?_⟩
  have hQ := toH_ne φ hφ h0
  have hpos : 0 < ‖toH φ Q‖ := norm_pos_iff.mpr hQ
  rw [← toH_norm φ] at h1
  have hw : euc (fun i => φ (quatVec Q i) / ‖toH φ Q‖) = 1 := by
    have : ‖(‖toH φ Q‖⁻¹ • toH φ Q)‖ = 1 := by
      rw [norm_smul, norm_inv, norm_norm, inv_mul_cancel₀ hpos.ne']
    rw [← this, norm_quat (_ • _)]
    congr 1
    funext i; fin_cases i <;> simp [quatVec, div_eq_inv_mul]
  have := near_unit hw (by positivity) heta.le h1
  rw [norm_quat]
  refine le_trans (le_of_eq ?_) (this.trans (by linarith))
  congr 1
  funext i; fin_cases i <;> simp [quatVec, div_eq_inv_mul]

/-- rotating with a quaternion at distance `d` from a unit one -/
theorem rotate_near {n : Quat (Fl K)} {N : ℍ[K]} (hN : n.Holds N) {U : ℍ[ℝ]} (hU : ‖U‖ = 1) {d : ℝ} (hd : d ≤ 1 / 8) (hc : ‖toH φ N - U‖ ≤ d)
    {p : Mat3x1 (Fl K)} {V : Fin 3 → K} (hp : p.Holds V) {M : K} (hM : ∀ i, |V i| ≤ M) (he : (eta : K) ≤ u)
    (ho : 256 * (M + 1) ≤ omega) :
    ∃ W, (n.rotateVector p).Holds W ∧ ∀ i, |φ (W i) - rotR U (toR φ V) i| ≤ (9 / 4 * d + 76 * φ u) * euc (toR φ V) + 16 * φ eta := by
  have he64 : (eta : K) ≤ 1 / 64 := he.trans u_le
  have hd0 : 0 ≤ d := (norm_nonneg _).trans hc
  obtain ⟨hu, hul, heta⟩ := phi_u φ hφ
  have hNn : ‖toH φ N‖ ≤ 9 / 8 := by
    have := norm_add_le (toH φ N - U) U
    rw [sub_add_cancel, hU] at this; linarith
  have hN2 : ∀ i, |quatVec N i| ≤ 2 := fun i => by
    by_contra h
    have h1 := hφ (not_le.mp h)
    rw [map_abs_mono φ hφ, map_ofNat] at h1
    have := euc_coord (fun i => φ (quatVec N i)) i
    rw [← toH_norm φ] at this
    linarith
  have hM0 : 0 ≤ M := (abs_nonneg _).trans (hM 0)
  have lN := QLim.of_holds hN hN2
  have lV : QLim (⟨p.val[0], p.val[1], p.val[2], 0⟩ : Quat (Fl K)) M :=
    QLim.of_holds (pure_holds hp) fun i => by
      fin_cases i
      · exact hM 0
      · exact hM 1
      · exact hM 2
      · show |(0 : K)| ≤ M
        rwa [abs_zero]
  have l1 := lN.mul lV he64 (by linarith)
  have l2 := l1.mul (QLim.of_holds (star_holds hN) (B := 2) fun i => by
      fin_cases i
      · show |(star N).imI| ≤ 2
        rw [Quaternion.imI_star, abs_neg]; exact hN2 0
      · show |(star N).imJ| ≤ 2
        rw [Quaternion.imJ_star, abs_neg]; exact hN2 1
      · show |(star N).imK| ≤ 2
        rw [Quaternion.imK_star, abs_neg]; exact hN2 2
      · show |(star N).re| ≤ 2
        rw [Quaternion.re_star]; exact hN2 3) he64 (by linarith)
  obtain ⟨⟨w0, k0, -⟩, ⟨w1, k1, -⟩, ⟨w2, k2, -⟩, -⟩ := l2
  have hW : (n.rotateVector p).Holds ![w0, w1, w2] := fun i => by
    fin_cases i
    · exact k0
    · exact k1
    · exact k2
  refine ⟨_, hW, fun i => ?_⟩
  have hr := C58_rotate n p N V hN hp i _ (hW i).1
  have hr' := hφ.monotone hr
  rw [map_abs_mono φ hφ, map_sub, toH_rot] at hr'
  simp only [map_add, map_mul, map_sub, map_pow, map_one, map_ofNat, map_abs_mono φ hφ, toH_normSq] at hr'
  have hcl := (vecQ_le _ i).trans (conj_close hU hc (pureQ (toR φ V)))
  rw [norm_pureQ] at hcl
  have hR : rotR U (toR φ V) i = vecQ (U * pureQ (toR φ V) * star U) i := by unfold rotR; rw [unit_inv hU]
  have hsub : ∀ P P' : ℍ[ℝ], vecQ (P - P') i = vecQ P i - vecQ P' i := fun P P' => by
    fin_cases i <;> simp [vecQ]
  rw [hsub] at hcl
  rw [hR]
  set L := euc (toR φ V) with hL
  have hL0 : 0 ≤ L := euc_nonneg _
  set t := φ u
  -- the growth factors
  have g8 : (1 + t) ^ 8 - 1 ≤ 17 / 2 * t := by
    have e : (1 + t) ^ 8 - 1 = t * (8 + 28 * t + 56 * t ^ 2 + 70 * t ^ 3 + 56 * t ^ 4 + 28 * t ^ 5 + 8 * t ^ 6 + t ^ 7) := by ring
    rw [e]
    have : 8 + 28 * t + 56 * t ^ 2 + 70 * t ^ 3 + 56 * t ^ 4 + 28 * t ^ 5 + 8 * t ^ 6 + t ^ 7 ≤
        8 + 28 * (1 / 64) + 56 * (1 / 64) ^ 2 + 70 * (1 / 64) ^ 3 + 56 * (1 / 64) ^ 4 + 28 * (1 / 64) ^ 5 + 8 * (1 / 64) ^ 6 + (1 / 64) ^ 7 := by
      gcongr
    have : 8 + 28 * t + 56 * t ^ 2 + 70 * t ^ 3 + 56 * t ^ 4 + 28 * t ^ 5 + 8 * t ^ 6 + t ^ 7 ≤ 17 / 2 := this.trans (by norm_num)
    nlinarith
  have g3 : (1 + t) ^ 3 ≤ (65 / 64) ^ 3 := by gcongr; linarith
  have g4 : (1 + t) ^ 4 ≤ (65 / 64) ^ 4 := by gcongr; linarith
  have hs : |φ (V 0)| + |φ (V 1)| + |φ (V 2)| ≤ 7 / 4 * L := abs_sum_le (toR φ V)
  have hL1 : φ (quatL1 N) ≤ 9 / 4 := by
    have h1 := quatL1_sq N
    have h2 := hφ.monotone h1
    rw [map_mul, map_mul, map_ofNat, toH_normSq] at h2
    have h3 : ‖toH φ N‖ * ‖toH φ N‖ ≤ 9 / 8 * (9 / 8) := mul_le_mul hNn hNn (norm_nonneg _) (by norm_num)
    by_contra h
    nlinarith [not_le.mp h]
  have hL10 : 0 ≤ φ (quatL1 N) := by have := hφ.monotone (quatL1_nonneg N); rwa [map_zero] at this
  have hb1 : ((1 + t) ^ 8 - 1) * (4 * (‖toH φ N‖ * ‖toH φ N‖) * (|φ (V 0)| + |φ (V 1)| + |φ (V 2)|)) ≤
      17 / 2 * t * (4 * (9 / 8 * (9 / 8)) * (7 / 4 * L)) := by
    have h3 : ‖toH φ N‖ * ‖toH φ N‖ ≤ 9 / 8 * (9 / 8) := mul_le_mul hNn hNn (norm_nonneg _) (by norm_num)
    have : 0 ≤ (1 + t) ^ 8 - 1 := by
      have := one_le_pow₀ (show (1 : ℝ) ≤ 1 + t by linarith) (n := 8); linarith
    gcongr
  have hb2 : 4 * (1 + t) ^ 3 * (1 + (1 + t) ^ 4 * φ (quatL1 N)) * φ eta ≤
      4 * (65 / 64) ^ 3 * (1 + (65 / 64) ^ 4 * (9 / 4)) * φ eta := by gcongr
  have hb3 : d * (2 + d) * L ≤ d * (2 + 1 / 8) * L := by gcongr
  have hdL : 0 ≤ d * L := by positivity
  have htL : 0 ≤ t * L := by positivity
  have tri := abs_sub_le (φ (![w0, w1, w2] i)) (vecQ (toH φ N * pureQ (toR φ V) * star (toH φ N)) i) (vecQ (U * pureQ (toR φ V) * star U) i)
  have hb2' : 4 * (65 / 64 : ℝ) ^ 3 * (1 + (65 / 64) ^ 4 * (9 / 4)) * φ eta ≤ 16 * φ eta :=
    mul_le_mul_of_nonneg_right (by norm_num) heta.le
  linarith

/-- rotating with a quaternion that is nearly a unit one -/
theorem rotate_close {n : Quat (Fl K)} {N : ℍ[K]} (hN : n.Holds N) {U : ℍ[ℝ]} (hU : ‖U‖ = 1) (hc : ‖toH φ N - U‖ ≤ 8 * φ u)
    {p : Mat3x1 (Fl K)} {V : Fin 3 → K} (hp : p.Holds V) {M : K} (hM : ∀ i, |V i| ≤ M) (he : (eta : K) ≤ u)
    (ho : 256 * (M + 1) ≤ omega) :
    ∃ W, (n.rotateVector p).Holds W ∧ ∀ i, |φ (W i) - rotR U (toR φ V) i| ≤ 96 * φ u * euc (toR φ V) + 16 * φ eta := by
  obtain ⟨hu, hul, heta⟩ := phi_u φ hφ
  obtain ⟨W, hW, h⟩ := rotate_near φ hφ hN hU (d := 8 * φ u) (by linarith) hc hp hM he ho
  refine ⟨W, hW, fun i => (h i).trans ?_⟩
  have : 0 ≤ φ u * euc (toR φ V) := mul_nonneg hu.le (euc_nonneg _)
  linarith

/-- the exact unit quaternion of `Q` -/
theorem unitQ {Q : ℍ[K]} (h0 : Q ≠ 0) : ‖(‖toH φ Q‖⁻¹ • toH φ Q)‖ = 1 ∧ ‖toH φ Q‖⁻¹ ≠ 0 := by
  have hpos : 0 < ‖toH φ Q‖ := norm_pos_iff.mpr (toH_ne φ hφ h0)
  exact ⟨by rw [norm_smul, norm_inv, norm_norm, inv_mul_cancel₀ hpos.ne'], inv_ne_zero hpos.ne'⟩

/-- C67: normalise a quaternion, then rotate a vector with it.  Nothing overflows, and every component is within
`96 u |v| + 16 eta` of the exact rotation `Q v Q⁻¹`; so the length is preserved up to twice that. -/
theorem C67_rotate {q : Quat (Fl K)} {Q : ℍ[K]} (hq : q.Holds Q) (h0 : Q ≠ 0)
    (hn : ∀ i, quatVec Q i = 0 ∨ nu ≤ quatVec Q i * quatVec Q i) {B : K} (hB : ∀ i, |quatVec Q i| ≤ B) (hB' : 6 * (B * B) + 1 ≤ omega)
    {p : Mat3x1 (Fl K)} {V : Fin 3 → K} (hp : p.Holds V) {M : K} (hM : ∀ i, |V i| ≤ M) (hM' : 256 * (M + 1) ≤ omega)
    (he : (eta : K) ≤ u) :
    ∃ n W, q.normalize = .ok n ∧ (n.rotateVector p).Holds W ∧
      (∀ i, |φ (W i) - rotR (toH φ Q) (toR φ V) i| ≤ 96 * φ u * euc (toR φ V) + 16 * φ eta) ∧
      |euc (toR φ W) - euc (toR φ V)| ≤ 2 * (96 * φ u * euc (toR φ V) + 16 * φ eta) := by
  obtain ⟨n, N, e, hN, hc⟩ := normalize_close φ hφ hq hn h0 hB he hB'
  obtain ⟨hU, hs⟩ := unitQ φ hφ h0
  obtain ⟨W, hW, h⟩ := rotate_close φ hφ hN hU hc hp hM he hM'
  have hl : euc (rotR (‖toH φ Q‖⁻¹ • toH φ Q) (toR φ V)) = euc (toR φ V) := euc_of_dot (rotR_dot hU _ _)
  have h2 := euc_close (w := toR φ W) h
  rw [hl] at h2
  rw [rotR_scale hs] at h
  exact ⟨n, W, e, hW, h, h2⟩

/-- concrete case -/
example := C67_rotate BinQ.real BinQ.real_strictMono q2341_holds H2341_ne H2341_lo (B := 5) H2341_five (by linarith [omega_big])
  b405_holds (M := 5) B405_five (by linarith [omega_big]) eta_u

/-- C67: rotating with the normalised quaternion and then with its conjugate gives the vector back, up to
`320 u |v| + 64 eta` in every component. -/
theorem C67_roundtrip {q : Quat (Fl K)} {Q : ℍ[K]} (hq : q.Holds Q) (h0 : Q ≠ 0)
    (hn : ∀ i, quatVec Q i = 0 ∨ nu ≤ quatVec Q i * quatVec Q i) {B : K} (hB : ∀ i, |quatVec Q i| ≤ B) (hB' : 6 * (B * B) + 1 ≤ omega)
    {p : Mat3x1 (Fl K)} {V : Fin 3 → K} (hp : p.Holds V) {M : K} (hM : ∀ i, |V i| ≤ M) (hM' : 1024 * (M + 1) ≤ omega)
    (he : (eta : K) ≤ u) (hu : 1024 * (u : K) ≤ 1) :
    ∃ n W, q.normalize = .ok n ∧ (n.conjugate.rotateVector (n.rotateVector p)).Holds W ∧
      ∀ i, |φ (W i) - φ (V i)| ≤ 320 * φ u * euc (toR φ V) + 64 * φ eta := by
  obtain ⟨n, N, e, hN, hc⟩ := normalize_close φ hφ hq hn h0 hB he hB'
  obtain ⟨hU, -⟩ := unitQ φ hφ h0
  obtain ⟨hup, -, heta⟩ := phi_u φ hφ
  have hu' : 1024 * φ u ≤ 1 := by have := hφ.monotone hu; rwa [map_mul, map_ofNat, map_one] at this
  have he' : φ eta ≤ φ u := hφ.monotone he
  have hM0 : 0 ≤ M := (abs_nonneg _).trans (hM 0)
  obtain ⟨W, hW, h⟩ := rotate_close φ hφ hN hU hc hp hM he (by linarith)
  generalize ‖toH φ Q‖⁻¹ • toH φ Q = U at hU hc h
  have hs : ‖star U‖ = 1 := by rw [Quaternion.norm_star, hU]
  have hc' : ‖toH φ (star N) - star U‖ ≤ 8 * φ u := by
    rw [toH_star, ← star_sub, Quaternion.norm_star]; exact hc
  set L := euc (toR φ V) with hL
  have hL0 : 0 ≤ L := euc_nonneg _
  have hLM : L ≤ 2 * φ M := by
    have hM0' : 0 ≤ φ M := by have := hφ.monotone hM0; rwa [map_zero] at this
    have : L * L ≤ (2 * φ M) * (2 * φ M) := by
      rw [hL, euc_sq, dotProduct, Fin.sum_univ_three]
      have q : ∀ i, toR φ V i * toR φ V i ≤ φ M * φ M := fun i => by
        rw [← abs_mul_abs_self]
        exact mul_le_mul (phi_le φ hφ (hM i)) (phi_le φ hφ (hM i)) (abs_nonneg _) hM0'
      nlinarith [q 0, q 1, q 2, mul_nonneg hM0' hM0']
    exact abs_le_of_sq_le_sq' (by rw [sq, sq]; exact this) (by positivity) |>.2
  have hl : euc (rotR U (toR φ V)) = L := euc_of_dot (rotR_dot hU _ _)
  have hWl := (abs_le.mp (euc_close (w := toR φ W) h)).2
  rw [hl] at hWl
  have huL : 1024 * (φ u * L) ≤ L := by nlinarith
  have hue : 1024 * (φ u * φ eta) ≤ φ eta := by nlinarith
  have hWL : euc (toR φ W) ≤ 19 / 16 * L + 32 * φ eta := by linarith
  have hWM : ∀ i, |W i| ≤ 3 * M + 1 := fun i => by
    by_contra hcon
    have h1 := hφ (not_le.mp hcon)
    rw [map_abs_mono φ hφ, map_add, map_mul, map_ofNat, map_one] at h1
    have : |φ (W i)| ≤ euc (toR φ W) := euc_coord (toR φ W) i
    linarith
  obtain ⟨W', hW', h'⟩ := rotate_close φ hφ (star_holds hN) hs hc' hW hWM he (by linarith)
  refine ⟨n, W', e, hW', fun i => ?_⟩
  have hd : ∀ a b : R3, rotR (star U) a - rotR (star U) b = rotR (star U) (a - b) := fun a b => by
    have h1 := rotR_add hs (a - b) b
    rw [sub_add_cancel] at h1
    rw [h1, add_sub_cancel_right]
  have h3 : |rotR (star U) (toR φ W) i - toR φ V i| ≤ 2 * (96 * φ u * L + 16 * φ eta) := by
    have e3 : rotR (star U) (toR φ W) i - toR φ V i = rotR (star U) (toR φ W - rotR U (toR φ V)) i := by
      rw [← hd, rotR_back hU]; rfl
    rw [e3]
    refine (euc_coord _ i).trans ?_
    rw [euc_of_dot (rotR_dot hs _ _)]
    have h4 := euc_close (v := 0) (w := toR φ W - rotR U (toR φ V)) (e := 96 * φ u * L + 16 * φ eta)
      (fun j => by rw [Pi.zero_apply, sub_zero]; exact h j)
    rw [(euc_eq_zero (0 : R3)).mpr rfl, sub_zero, abs_of_nonneg (euc_nonneg _)] at h4
    exact h4
  have h5 := h' i
  have h6 := abs_sub_le (φ (W' i)) (rotR (star U) (toR φ W) i) (toR φ V i)
  have h7 : 96 * φ u * euc (toR φ W) ≤ 96 * φ u * (19 / 16 * L + 32 * φ eta) := by gcongr
  have h8 : |φ (W' i) - φ (V i)| = |φ (W' i) - toR φ V i| := rfl
  have h9 : 0 ≤ φ u * L := by positivity
  linarith


/-- concrete case -/
example := C67_roundtrip BinQ.real BinQ.real_strictMono q2341_holds H2341_ne H2341_lo (B := 5) H2341_five (by linarith [omega_big])
  b405_holds (M := 5) B405_five (by linarith [omega_big]) eta_u (by linarith [u_small])

omit hφ in
theorem one_holds : (1 : Fl K).Holds 1 := ⟨rfl, Fl.rep_one⟩

omit hφ in
theorem two_holds : (Fl.lit 2 : Fl K).Holds 2 := by
  have e : (Fl.lit 2 : Fl K) = .fin 2 := by
    unfold Fl.lit; rw [if_neg two_ne_zero]; exact LawfulFmt.rnd_two
  rw [e]; exact ⟨rfl, .inr LawfulFmt.rnd_two⟩

omit hφ in
/-- twice a sum of two products: range and error -/
theorem twice_prods {a b c d : Fl K} {A B C D : K} (ha : a.Holds A) (hb : b.Holds B) (hc : c.Holds C) (hd : d.Holds D)
    (hA : |A| ≤ 2) (hB : |B| ≤ 2) (hC : |C| ≤ 2) (hD : |D| ≤ 2) (he : (eta : K) ≤ 1 / 64) (ho : 64 ≤ (omega : K)) :
    (Lim (Fl.lit 2 * (a * b + c * d)) 20 ∧ Lim (Fl.lit 2 * (a * b - c * d)) 20) ∧
    Appr (Fl.lit 2 * (a * b + c * d)) 3 (2 * (A * B + C * D)) (2 * (|A * B| + |C * D|)) (6 * eta) ∧
    Appr (Fl.lit 2 * (a * b - c * d)) 3 (2 * (A * B - C * D)) (2 * (|A * B| + |C * D|)) (6 * eta) := by
  have h0 := eta_pos (K := K)
  have hl := u_le (K := K)
  have hu := u_pos (K := K)
  have l1 := (Lim.of_holds ha hA).mul (Lim.of_holds hb hB) (by linarith)
  have l2 := (Lim.of_holds hc hC).mul (Lim.of_holds hd hD) (by linarith)
  have lt := Lim.of_holds (two_holds (K := K)) (B := 2) (le_of_eq (abs_of_pos two_pos))
  have cast2 : |(2 : K)| = 2 := abs_of_pos two_pos
  have g2 : (1 + u : K) ^ 2 ≤ (65 / 64) ^ 2 := by gcongr; linarith
  have hh : (1 + u : K) * ((1 + u) ^ 0 * |2| * ((1 + u) * (eta + eta)) + (1 + u) ^ 2 * (|A * B| + |C * D|) * 0 +
      0 * ((1 + u) * (eta + eta))) + eta ≤ 6 * eta := by
    have e : (1 + u : K) * ((1 + u) ^ 0 * |2| * ((1 + u) * (eta + eta)) + (1 + u) ^ 2 * (|A * B| + |C * D|) * 0 +
      0 * ((1 + u) * (eta + eta))) + eta = (4 * (1 + u) ^ 2 + 1) * eta := by rw [cast2]; ring
    rw [e]
    exact mul_le_mul_of_nonneg_right (by linarith) h0.le
  refine ⟨⟨(lt.mul (l1.add l2 (by linarith)) (by linarith)).mono (by linarith),
    (lt.mul (l1.sub l2 (by linarith)) (by linarith)).mono (by linarith)⟩, ?_, ?_⟩
  · exact (((Appr.leaf two_holds).mul ((Appr.prod ha hb).add (Appr.prod hc hd))).mono (l := 3) (by norm_num) hh).cast rfl
      (by rw [cast2]) rfl
  · exact (((Appr.leaf two_holds).mul ((Appr.prod ha hb).sub (Appr.prod hc hd))).mono (l := 3) (by norm_num) hh).cast rfl
      (by rw [cast2]) rfl


/-- an entry off the diagonal -/
theorem entry_off {a b c d : Fl K} {A B C D : K} (ha : a.Holds A) (hb : b.Holds B) (hc : c.Holds C) (hd : d.Holds D)
    {A' B' C' D' : ℝ} (hA : |φ A - A'| ≤ 8 * φ u) (hB : |φ B - B'| ≤ 8 * φ u) (hC : |φ C - C'| ≤ 8 * φ u) (hD : |φ D - D'| ≤ 8 * φ u)
    (nA : |φ A| ≤ 9 / 8) (nB : |φ B| ≤ 9 / 8) (nC : |φ C| ≤ 9 / 8) (nD : |φ D| ≤ 9 / 8) (uA : |A'| ≤ 1) (uC : |C'| ≤ 1)
    (he : (eta : K) ≤ u) (ho : 64 ≤ (omega : K)) :
    (∃ w, (Fl.lit 2 * (a * b + c * d)).Holds w ∧ |φ w - 2 * (A' * B' + C' * D')| ≤ 100 * φ u) ∧
    (∃ w, (Fl.lit 2 * (a * b - c * d)).Holds w ∧ |φ w - 2 * (A' * B' - C' * D')| ≤ 100 * φ u) := by
  have he64 : (eta : K) ≤ 1 / 64 := he.trans u_le
  obtain ⟨hu, hul, heta⟩ := phi_u φ hφ
  have he' : φ eta ≤ φ u := hφ.monotone he
  have two : ∀ {X : K}, |φ X| ≤ 9 / 8 → |X| ≤ 2 := fun {X} h => by
    by_contra hcon
    have h1 := hφ (not_le.mp hcon)
    rw [map_abs_mono φ hφ, map_ofNat] at h1
    linarith
  obtain ⟨⟨l1, l2⟩, e1, e2⟩ := twice_prods ha hb hc hd (two nA) (two nB) (two nC) (two nD) he64 ho
  have g3 : (1 + φ u) ^ 3 - 1 ≤ 31 / 10 * φ u := by
    have e : (1 + φ u) ^ 3 - 1 = φ u * (3 + 3 * φ u + φ u * φ u) := by ring
    rw [e]
    have : φ u * φ u ≤ 1 / 64 * (1 / 64) := mul_le_mul hul hul hu.le (by norm_num)
    nlinarith
  have hT : 2 * (|φ A * φ B| + |φ C * φ D|) ≤ 81 / 16 := by
    rw [abs_mul, abs_mul]
    have x := mul_le_mul nA nB (abs_nonneg _) (by norm_num)
    have y := mul_le_mul nC nD (abs_nonneg _) (by norm_num)
    linarith
  have hb1 : ((1 + φ u) ^ 3 - 1) * (2 * (|φ A * φ B| + |φ C * φ D|)) ≤ 31 / 10 * φ u * (81 / 16) :=
    mul_le_mul g3 hT (by positivity) (by positivity)
  have p1 := prod_close hA hB uA nB
  have p2 := prod_close hC hD uC nD
  constructor
  · obtain ⟨w, hw, -⟩ := l1
    refine ⟨w, hw, ?_⟩
    have h := hφ.monotone (e1.err w hw.1)
    simp only [map_add, map_mul, map_sub, map_pow, map_one, map_ofNat, map_abs_mono φ hφ] at h
    rw [abs_le] at h p1 p2 ⊢
    constructor <;> linarith
  · obtain ⟨w, hw, -⟩ := l2
    refine ⟨w, hw, ?_⟩
    have h := hφ.monotone (e2.err w hw.1)
    simp only [map_add, map_mul, map_sub, map_pow, map_one, map_ofNat, map_abs_mono φ hφ] at h
    rw [abs_le] at h p1 p2 ⊢
    constructor <;> linarith

/-- an entry on the diagonal -/
theorem entry_diag {a b : Fl K} {A B : K} (ha : a.Holds A) (hb : b.Holds B)
    {A' B' : ℝ} (hA : |φ A - A'| ≤ 8 * φ u) (hB : |φ B - B'| ≤ 8 * φ u) (nA : |φ A| ≤ 9 / 8) (nB : |φ B| ≤ 9 / 8)
    (uA : |A'| ≤ 1) (uB : |B'| ≤ 1) (he : (eta : K) ≤ u) (ho : 64 ≤ (omega : K)) :
    ∃ w, (1 - Fl.lit 2 * (a * a + b * b)).Holds w ∧ |φ w - (1 - 2 * (A' * A' + B' * B'))| ≤ 100 * φ u := by
  have he64 : (eta : K) ≤ 1 / 64 := he.trans u_le
  obtain ⟨hu, hul, heta⟩ := phi_u φ hφ
  have he' : φ eta ≤ φ u := hφ.monotone he
  have two : ∀ {X : K}, |φ X| ≤ 9 / 8 → |X| ≤ 2 := fun {X} h => by
    by_contra hcon
    have h1 := hφ (not_le.mp hcon)
    rw [map_abs_mono φ hφ, map_ofNat] at h1
    linarith
  obtain ⟨⟨l1, -⟩, e1, -⟩ := twice_prods ha ha hb hb (two nA) (two nA) (two nB) (two nB) he64 ho
  obtain ⟨w, hw, -⟩ := (Lim.of_holds (one_holds (K := K)) (B := 1) (le_of_eq abs_one)).sub l1 (by linarith)
  refine ⟨w, hw, ?_⟩
  have h := hφ.monotone ((((Appr.leaf one_holds).mono (l := 3) (by norm_num) le_rfl).sub e1).err w hw.1)
  simp only [map_add, map_mul, map_sub, map_pow, map_one, map_ofNat, map_abs_mono φ hφ, abs_one, map_zero, Nat.reduceAdd] at h
  have g4 : (1 + φ u) ^ 4 - 1 ≤ 41 / 10 * φ u := by
    have e : (1 + φ u) ^ 4 - 1 = φ u * (4 + 6 * φ u + φ u * φ u * (4 + φ u)) := by ring
    rw [e]
    have h2 : φ u * φ u ≤ 1 / 64 * (1 / 64) := mul_le_mul hul hul hu.le (by norm_num)
    have h3 : φ u * φ u * (4 + φ u) ≤ 1 / 64 * (1 / 64) * 5 := mul_le_mul h2 (by linarith) (by linarith) (by norm_num)
    nlinarith
  have hT : 1 + 2 * (|φ A * φ A| + |φ B * φ B|) ≤ 97 / 16 := by
    rw [abs_mul, abs_mul]
    have x := mul_le_mul nA nA (abs_nonneg _) (by norm_num)
    have y := mul_le_mul nB nB (abs_nonneg _) (by norm_num)
    linarith
  have hb1 : ((1 + φ u) ^ 4 - 1) * (1 + 2 * (|φ A * φ A| + |φ B * φ B|)) ≤ 41 / 10 * φ u * (97 / 16) :=
    mul_le_mul g4 hT (by positivity) (by positivity)
  have hb2 : (1 + φ u) * (0 + 6 * φ eta) ≤ (65 / 64) * (0 + 6 * φ eta) := by gcongr; linarith
  have p1 := prod_close hA hA uA nA
  have p2 := prod_close hB hB uB nB
  rw [abs_le] at h p1 p2 ⊢
  constructor <;> linarith

/-- C67: the row-major rotation matrix of the normalised quaternion: every entry, read through the public accessor, is within
`100 u` of the entry of the exact rotation matrix of `Q/|Q|` (the matrix which maps `(v, s)` to `(Q v Q⁻¹, s)`, `rotM_vec`). -/
theorem C67_matrix {q : Quat (Fl K)} {Q : ℍ[K]} (hq : q.Holds Q) (h0 : Q ≠ 0)
    (hn : ∀ i, quatVec Q i = 0 ∨ nu ≤ quatVec Q i * quatVec Q i) {B : K} (hB : ∀ i, |quatVec Q i| ≤ B) (hB' : 6 * (B * B) + 1 ≤ omega)
    (he : (eta : K) ≤ u) (ho : 64 ≤ (omega : K)) :
    ∃ n A, q.normalize = .ok n ∧ (n.toRotationMatrix true).Holds A ∧ A 3 = ![0, 0, 0, 1] ∧ (∀ i, i ≠ 3 → A i 3 = 0) ∧
      ∃ R : Matrix (Fin 4) (Fin 4) ℝ, (∀ v s, R *ᵥ ![v 0, v 1, v 2, s] = ![rotR (toH φ Q) v 0, rotR (toH φ Q) v 1, rotR (toH φ Q) v 2, s]) ∧
        ∀ i j, |φ (A i j) - R i j| ≤ 100 * φ u := by
  obtain ⟨n, N, e, hN, hc⟩ := normalize_close φ hφ hq hn h0 hB he hB'
  obtain ⟨hU, hs⟩ := unitQ φ hφ h0
  obtain ⟨hu, hul, heta⟩ := phi_u φ hφ
  have hR : ∀ v (s : ℝ), rotM (‖toH φ Q‖⁻¹ • toH φ Q) *ᵥ ![v 0, v 1, v 2, s] =
      ![rotR (toH φ Q) v 0, rotR (toH φ Q) v 1, rotR (toH φ Q) v 2, s] := fun v s => by
    rw [rotM_vec hU, rotR_scale hs]
  generalize ‖toH φ Q‖⁻¹ • toH φ Q = U at hU hc hR
  have cl : ∀ i, |![φ N.imI - U.imI, φ N.imJ - U.imJ, φ N.imK - U.imK, φ N.re - U.re] i| ≤ 8 * φ u := fun i => by
    have := euc_coord ![(toH φ N - U).imI, (toH φ N - U).imJ, (toH φ N - U).imK, (toH φ N - U).re] i
    rw [← norm_quat] at this
    refine le_trans ?_ (this.trans hc)
    fin_cases i <;> simp
  have hNn : ‖toH φ N‖ ≤ 9 / 8 := by
    have := norm_add_le (toH φ N - U) U
    rw [sub_add_cancel, hU] at this; linarith
  have cN : ∀ i, |![φ N.imI, φ N.imJ, φ N.imK, φ N.re] i| ≤ 9 / 8 := fun i => by
    have := euc_coord ![(toH φ N).imI, (toH φ N).imJ, (toH φ N).imK, (toH φ N).re] i
    rw [← norm_quat] at this
    exact this.trans hNn
  have cU : ∀ i, |![U.imI, U.imJ, U.imK, U.re] i| ≤ 1 := fun i => by
    have := euc_coord ![U.imI, U.imJ, U.imK, U.re] i
    rw [← norm_quat, hU] at this
    exact this
  have x1 : |φ N.imI - U.imI| ≤ 8 * φ u := cl 0
  have y1 : |φ N.imJ - U.imJ| ≤ 8 * φ u := cl 1
  have z1 : |φ N.imK - U.imK| ≤ 8 * φ u := cl 2
  have w1 : |φ N.re - U.re| ≤ 8 * φ u := cl 3
  have x2 : |φ N.imI| ≤ 9 / 8 := cN 0
  have y2 : |φ N.imJ| ≤ 9 / 8 := cN 1
  have z2 : |φ N.imK| ≤ 9 / 8 := cN 2
  have w2 : |φ N.re| ≤ 9 / 8 := cN 3
  have x3 : |U.imI| ≤ 1 := cU 0
  have y3 : |U.imJ| ≤ 1 := cU 1
  have z3 : |U.imK| ≤ 1 := cU 2
  obtain ⟨hx, hy, hz, hw⟩ := hN
  obtain ⟨a00, h00, b00⟩ := entry_diag φ hφ hy hz y1 z1 y2 z2 y3 z3 he ho
  obtain ⟨a11, h11, b11⟩ := entry_diag φ hφ hx hz x1 z1 x2 z2 x3 z3 he ho
  obtain ⟨a22, h22, b22⟩ := entry_diag φ hφ hx hy x1 y1 x2 y2 x3 y3 he ho
  obtain ⟨⟨a10, h10, b10⟩, a01, h01, b01⟩ := entry_off φ hφ hx hy hz hw x1 y1 z1 w1 x2 y2 z2 w2 x3 z3 he ho
  obtain ⟨⟨a02, h02, b02⟩, a20, h20, b20⟩ := entry_off φ hφ hx hz hy hw x1 z1 y1 w1 x2 z2 y2 w2 x3 y3 he ho
  obtain ⟨-, a12, h12, b12⟩ := entry_off φ hφ hy hz hx hw y1 z1 x1 w1 y2 z2 x2 w2 y3 x3 he ho
  obtain ⟨⟨a21, h21, b21⟩, -⟩ := entry_off φ hφ hz hy hx hw z1 y1 x1 w1 z2 y2 x2 w2 z3 x3 he ho
  have hz0 : (0 : Fl K).Holds 0 := ⟨rfl, .inl rfl⟩
  have hA : (n.toRotationMatrix true).Holds !![a00, a01, a02, 0; a10, a11, a12, 0; a20, a21, a22, 0; 0, 0, 0, 1] := by
    intro chk i j
    refine ⟨_, Mat4.index_eq_idx _ _ _ _, ?_⟩
    fin_cases i <;> fin_cases j
    · exact h00
    · exact h01
    · exact h02
    · exact hz0
    · exact h10
    · exact h11
    · exact h12
    · exact hz0
    · exact h20
    · exact h21
    · exact h22
    · exact hz0
    · exact hz0
    · exact hz0
    · exact hz0
    · exact one_holds
  have hz1 : |φ 0 - 0| ≤ 100 * φ u := by rw [map_zero, sub_zero, abs_zero]; positivity
  refine ⟨n, _, e, hA, rfl, fun i hi => ?_, rotM U, hR, fun i j => ?_⟩
  · fin_cases i
    · rfl
    · rfl
    · rfl
    · exact absurd rfl hi
  · fin_cases i <;> fin_cases j
    · exact b00
    · exact b01
    · exact b02
    · exact hz1
    · exact b10
    · exact b11
    · exact b12
    · exact hz1
    · exact b20
    · exact b21
    · exact b22
    · exact hz1
    · exact hz1
    · exact hz1
    · exact hz1
    · show |φ 1 - 1| ≤ 100 * φ u
      rw [map_one, sub_self, abs_zero]; positivity


/-- concrete case -/
example := C67_matrix BinQ.real BinQ.real_strictMono q2341_holds H2341_ne H2341_lo (B := 5) H2341_five (by linarith [omega_big])
  eta_u (by linarith [omega_big])

omit hφ in
theorem Lim.dot4 {x1 x2 x3 x4 y1 y2 y3 y4 : Fl K} {A B : K} (h1 : Lim x1 A) (h2 : Lim x2 A) (h3 : Lim x3 A) (h4 : Lim x4 A)
    (g1 : Lim y1 B) (g2 : Lim y2 B) (g3 : Lim y3 B) (g4 : Lim y4 B) (he : (eta : K) ≤ 1 / 64) (ho : 6 * (A * B) + 1 ≤ omega) :
    Lim (x1 * y1 + x2 * y2 + x3 * y3 + x4 * y4) (6 * (A * B) + 1) := by
  have h0 : 0 ≤ A * B := mul_nonneg h1.nonneg g1.nonneg
  have m : ∀ {x y : Fl K}, Lim x A → Lim y B → Lim (x * y) (65 / 64 * (A * B) + eta) := fun h h' => h.mul h' (by linarith)
  exact (Lim.sum4 (m h1 g1) (m h2 g2) (m h3 g3) (m h4 g4) (by linarith)).mono (by linarith)

/-- C67: multiplying that matrix with a homogeneous vector `(v, 1)` gives the exact rotation up to `200 u |v| + 5 eta`; so
`rotate_vector` and the rotation matrix agree up to rounding. -/
theorem C67_matrix_apply {q : Quat (Fl K)} {Q : ℍ[K]} (hq : q.Holds Q) (h0 : Q ≠ 0)
    (hn : ∀ i, quatVec Q i = 0 ∨ nu ≤ quatVec Q i * quatVec Q i) {B : K} (hB : ∀ i, |quatVec Q i| ≤ B) (hB' : 6 * (B * B) + 1 ≤ omega)
    {p : Mat4x1 (Fl K)} {V : Fin 3 → K} (hp : p.Holds ![V 0, V 1, V 2, 1]) {M : K} (hM : ∀ i, |V i| ≤ M) (hM' : 64 * (M + 1) ≤ omega)
    (he : (eta : K) ≤ u) :
    ∃ n c W, q.normalize = .ok n ∧ (n.toRotationMatrix true).mulMat4x1 p = some c ∧ c.Holds W ∧
      ∀ i : Fin 3, |φ (W i.castSucc) - rotR (toH φ Q) (toR φ V) i| ≤ 200 * φ u * euc (toR φ V) + 5 * φ eta := by
  have he64 : (eta : K) ≤ 1 / 64 := he.trans u_le
  have hM0 : 0 ≤ M := (abs_nonneg _).trans (hM 0)
  obtain ⟨n, A, e, hA, hrow, hcol, R, hR, hAR⟩ := C67_matrix φ hφ hq h0 hn hB hB' he (by linarith)
  obtain ⟨hu, hul, heta⟩ := phi_u φ hφ
  obtain ⟨c, ec, hc⟩ := Mat4.mulMat4x1_idx (n.toRotationMatrix true) p
  obtain ⟨c', ec', hc'⟩ := C58_mulvec4 (n.toRotationMatrix true) p A _ hA hp
  obtain rfl : c' = c := Option.some.inj (ec'.symm.trans ec)
  have hRv := fun s => hR (toR φ V) s
  -- the exact matrix has entries of size at most one in its first three columns
  have hR1 : ∀ i j : Fin 3, |R i.castSucc j.castSucc| ≤ 1 := fun i j => by
    have hUl : ∀ v : R3, euc (rotR (toH φ Q) v) = euc v := fun v => by
      obtain ⟨hU, hs⟩ := unitQ φ hφ h0
      rw [← rotR_scale hs]; exact euc_of_dot (rotR_dot hU _ _)
    have h1 := congrFun (hR (Pi.single j 1) 0) i.castSucc
    have h2 : R i.castSucc j.castSucc = rotR (toH φ Q) (Pi.single j 1) i := by
      fin_cases i <;> fin_cases j <;> simpa [Matrix.mulVec, dotProduct, Fin.sum_univ_four] using h1
    rw [h2]
    refine (euc_coord _ i).trans ?_
    rw [hUl, euc_eq, Fin.sum_univ_three]
    fin_cases j <;> simp
  have hA1 : ∀ i j : Fin 3, |φ (A i.castSucc j.castSucc)| ≤ 3 := fun i j => by
    have h4 := abs_add_le (φ (A i.castSucc j.castSucc) - R i.castSucc j.castSucc) (R i.castSucc j.castSucc)
    rw [sub_add_cancel] at h4
    linarith [hAR i.castSucc j.castSucc, hR1 i j]
  have hA3 : ∀ i j : Fin 4, |A i j| ≤ 3 := fun i j => by
    by_cases hi : i = 3
    · subst hi
      rw [hrow]
      fin_cases j <;> simp
    · by_cases hj : j = 3
      · subst hj
        rw [hcol i hi, abs_zero]; norm_num
      · obtain ⟨i', rfl⟩ := Fin.exists_castSucc_eq.mpr hi
        obtain ⟨j', rfl⟩ := Fin.exists_castSucc_eq.mpr hj
        by_contra hcon
        have h1 := hφ (not_le.mp hcon)
        rw [map_abs_mono φ hφ, map_ofNat] at h1
        linarith [hA1 i' j']
  have hV4 : ∀ k : Fin 4, |(![V 0, V 1, V 2, 1] : Fin 4 → K) k| ≤ M + 1 := fun k => by
    fin_cases k
    · exact (hM 0).trans (by linarith)
    · exact (hM 1).trans (by linarith)
    · exact (hM 2).trans (by linarith)
    · show |(1 : K)| ≤ M + 1
      rw [abs_one]; linarith
  have lim : ∀ i : Fin 4, Lim c'.val[i] (6 * (3 * (M + 1)) + 1) := fun i => by
    show Lim (c'.val[i.val] : Fl K) _
    rw [hc i]
    exact Lim.dot4 (.of_holds (hA.idx i 0) (hA3 i 0)) (.of_holds (hA.idx i 1) (hA3 i 1)) (.of_holds (hA.idx i 2) (hA3 i 2))
      (.of_holds (hA.idx i 3) (hA3 i 3)) (.of_holds (hp 0) (hV4 0)) (.of_holds (hp 1) (hV4 1)) (.of_holds (hp 2) (hV4 2))
      (.of_holds (hp 3) (hV4 3)) he64 (by linarith)
  choose W hW using lim
  refine ⟨n, c', W, e, ec, fun i => (hW i).1, fun i => ?_⟩
  have h := hφ.monotone (hc' i.castSucc (W i.castSucc) (hW i.castSucc).1.1)
  have hi3 : i.castSucc ≠ 3 := Fin.castSucc_ne_last i
  have hz := hcol _ hi3
  rw [map_abs_mono φ hφ, Matrix.mulVec, dotProduct, Fin.sum_univ_four, Fin.sum_univ_four] at h
  have hx : A i.castSucc 3 * (![V 0, V 1, V 2, 1] : Fin 4 → K) 3 = 0 := by rw [hz, zero_mul]
  rw [hx] at h
  simp only [map_add, map_mul, map_sub, map_pow, map_one, map_ofNat, map_abs_mono φ hφ, abs_zero, add_zero] at h
  have hR0 := congrFun (hR (toR φ V) 0) i.castSucc
  rw [Matrix.mulVec, dotProduct, Fin.sum_univ_four] at hR0
  have hR0' : rotR (toH φ Q) (toR φ V) i = R i.castSucc 0 * φ (V 0) + R i.castSucc 1 * φ (V 1) + R i.castSucc 2 * φ (V 2) := by
    have e1 : (![rotR (toH φ Q) (toR φ V) 0, rotR (toH φ Q) (toR φ V) 1, rotR (toH φ Q) (toR φ V) 2, 0] : Fin 4 → ℝ) i.castSucc =
        rotR (toH φ Q) (toR φ V) i := by fin_cases i <;> rfl
    rw [← e1, ← hR0]
    show _ + _ * 0 = _
    rw [mul_zero, add_zero]; rfl
  rw [hR0']
  have d0 : |φ (A i.castSucc 0) - R i.castSucc 0| ≤ 100 * φ u := hAR _ _
  have d1 : |φ (A i.castSucc 1) - R i.castSucc 1| ≤ 100 * φ u := hAR _ _
  have d2 : |φ (A i.castSucc 2) - R i.castSucc 2| ≤ 100 * φ u := hAR _ _
  have k0 : |φ (A i.castSucc 0)| ≤ 3 := hA1 i 0
  have k1 : |φ (A i.castSucc 1)| ≤ 3 := hA1 i 1
  have k2 : |φ (A i.castSucc 2)| ≤ 3 := hA1 i 2
  exact apply_real hu.le hul heta.le d0 d1 d2 k0 k1 k2 (abs_sum_le (toR φ V)) (euc_nonneg _) h

/-- concrete case -/
example := C67_matrix_apply BinQ.real BinQ.real_strictMono q2341_holds H2341_ne H2341_lo (B := 5) H2341_five (by linarith [omega_big])
  (p := ⟨#v[.fin 1, .fin 2, .fin 3, .fin 1]⟩) (V := A123) (fun i => by fin_cases i <;> exact ⟨rfl, .inr (by decide +kernel)⟩)
  (M := 5) A123_five (by linarith [omega_big]) eta_u

end floats

/-! ### `f64` -/

theorem f64_eta_u : (eta : Q64) ≤ u := by
  obtain ⟨cu, ce, -, -, -⟩ := C55_constants
  rw [cu, ce]
  show (2 : ℚ) ^ (-1075 : ℤ) ≤ 2 ^ (-53 : ℤ)
  exact zpow_le_zpow_right₀ (by norm_num) (by norm_num)

theorem f64_quat_range {Q : ℍ[Q64]} (hlo : ∀ i, quatVec Q i = 0 ∨ ((2 : ℚ) ^ (-511 : ℤ) : ℚ) ≤ |quatVec Q i|)
    (hhi : ∀ i, |quatVec Q i| ≤ ((2 : ℚ) ^ (510 : ℤ) : ℚ)) :
    (∀ i, quatVec Q i = 0 ∨ nu ≤ quatVec Q i * quatVec Q i) ∧
      ∃ B : Q64, (∀ i, |quatVec Q i| ≤ B) ∧ 6 * (B * B) + 1 ≤ (omega : Q64) := by
  obtain ⟨-, -, cn, co, -⟩ := C55_constants
  refine ⟨fun i => (hlo i).imp_right fun h => ?_, _, hhi, ?_⟩
  · rw [cn, ← abs_mul_abs_self]
    refine le_trans (b := ((2 : ℚ) ^ (-511 : ℤ) * (2 : ℚ) ^ (-511 : ℤ) : ℚ)) ?_
      (mul_le_mul h h (show (0 : ℚ) ≤ 2 ^ (-511 : ℤ) by positivity) (abs_nonneg (quatVec Q i)))
    show (2 : ℚ) ^ (-1022 : ℤ) ≤ (2 : ℚ) ^ (-511 : ℤ) * (2 : ℚ) ^ (-511 : ℤ)
    rw [← zpow_add₀ (by norm_num)]; norm_num
  · rw [co]
    show 6 * ((2 : ℚ) ^ (510 : ℤ) * (2 : ℚ) ^ (510 : ℤ)) + 1 ≤ (2 : ℚ) ^ (1023 : ℤ)
    rw [← zpow_add₀ (by norm_num), show ((1023 : ℤ)) = 3 + (510 + 510) by norm_num, zpow_add₀ (by norm_num) 3]
    have h1 : (1 : ℚ) ≤ 2 ^ (510 + 510 : ℤ) := one_le_zpow₀ (by norm_num) (by norm_num)
    generalize (2 : ℚ) ^ (510 + 510 : ℤ) = a at *
    norm_num
    linarith

theorem f64_vec_range {M : Q64} (hM : M ≤ ((2 : ℚ) ^ (1000 : ℤ) : ℚ)) : 1024 * (M + 1) ≤ (omega : Q64) := by
  obtain ⟨-, -, -, co, -⟩ := C55_constants
  rw [co]
  have key (m : ℚ) (h : m ≤ 2 ^ (1000 : ℤ)) : 1024 * (m + 1) ≤ (2 : ℚ) ^ (1023 : ℤ) := by
    have h1 : (1 : ℚ) ≤ 2 ^ (1000 : ℤ) := one_le_zpow₀ (by norm_num) (by norm_num)
    rw [show ((1023 : ℤ)) = 23 + 1000 by norm_num, zpow_add₀ (by norm_num) 23]
    clear hM
    generalize (2 : ℚ) ^ (1000 : ℤ) = a at *
    norm_num
    linarith
  exact key M hM

theorem range_weaken {K : Type} [Field K] [LinearOrder K] [IsStrictOrderedRing K] {M w : K} (h : 0 ≤ M) (h' : 1024 * (M + 1) ≤ w) :
    256 * (M + 1) ≤ w := by linarith

theorem f64_consts : BinQ.real (u : Q64) = 2 ^ (-53 : ℤ) ∧ BinQ.real (eta : Q64) = 2 ^ (-1075 : ℤ) := by
  obtain ⟨cu, ce, -, -, -⟩ := C55_constants
  rw [cu, ce]
  constructor
  · show (((2 : ℚ) ^ (-53 : ℤ) : ℚ) : ℝ) = _
    rw [Rat.cast_zpow, Rat.cast_ofNat]
  · show (((2 : ℚ) ^ (-1075 : ℤ) : ℚ) : ℝ) = _
    rw [Rat.cast_zpow, Rat.cast_ofNat]

/-- C67 for `f64`: a quaternion with components zero or between `2^-511` and `2^510`, normalised, rotates a vector with
components up to `2^1000` exactly up to `2^-46 |v| + 2^-1071`; with its conjugate it rotates back up to
`2^-44 |v| + 2^-1069`. -/
theorem C67_rotate_f64 {q : Quat (Fl Q64)} {Q : ℍ[Q64]} (hq : q.Holds Q) (h0 : Q ≠ 0)
    (hlo : ∀ i, quatVec Q i = 0 ∨ ((2 : ℚ) ^ (-511 : ℤ) : ℚ) ≤ |quatVec Q i|) (hhi : ∀ i, |quatVec Q i| ≤ ((2 : ℚ) ^ (510 : ℤ) : ℚ))
    {p : Mat3x1 (Fl Q64)} {V : Fin 3 → Q64} (hp : p.Holds V) (hV : ∀ i, |V i| ≤ ((2 : ℚ) ^ (1000 : ℤ) : ℚ)) :
    ∃ n W W', q.normalize = .ok n ∧ (n.rotateVector p).Holds W ∧ (n.conjugate.rotateVector (n.rotateVector p)).Holds W' ∧
      (∀ i, |(W i).real - rotR (toH BinQ.real Q) (toR BinQ.real V) i| ≤ 2 ^ (-46 : ℤ) * euc (toR BinQ.real V) + 2 ^ (-1071 : ℤ)) ∧
      |euc (toR BinQ.real W) - euc (toR BinQ.real V)| ≤ 2 ^ (-45 : ℤ) * euc (toR BinQ.real V) + 2 ^ (-1070 : ℤ) ∧
      ∀ i, |(W' i).real - (V i).real| ≤ 2 ^ (-44 : ℤ) * euc (toR BinQ.real V) + 2 ^ (-1069 : ℤ) := by
  obtain ⟨r1, B, r2, r3⟩ := f64_quat_range hlo hhi
  have r4 := f64_vec_range (M := ((2 : ℚ) ^ (1000 : ℤ) : ℚ)) le_rfl
  have hM0 : (0 : Q64) ≤ ((2 : ℚ) ^ (1000 : ℤ) : ℚ) := (abs_nonneg _).trans (hV 0)
  have hu : 1024 * (u : Q64) ≤ 1 := by
    rw [C55_constants.1]
    show (1024 : ℚ) * (2 : ℚ) ^ (-53 : ℤ) ≤ 1
    norm_num
  obtain ⟨n, W, e, hW, h1, h2⟩ := C67_rotate BinQ.real BinQ.real_strictMono hq h0 r1 r2 r3 hp hV (range_weaken hM0 r4) f64_eta_u
  obtain ⟨n', W', e', hW', h3⟩ := C67_roundtrip BinQ.real BinQ.real_strictMono hq h0 r1 r2 r3 hp hV r4 f64_eta_u hu
  obtain rfl : n' = n := Except.ok.inj (e'.symm.trans e)
  obtain ⟨cu, ce⟩ := f64_consts
  rw [cu, ce] at h1 h2 h3
  have hL := euc_nonneg (toR BinQ.real V)
  have p1 : (2 : ℝ) ^ (-46 : ℤ) = 128 * 2 ^ (-53 : ℤ) := by
    rw [show (-46 : ℤ) = 7 + (-53) by norm_num, zpow_add₀ (by norm_num)]; norm_num
  have p2 : (2 : ℝ) ^ (-45 : ℤ) = 256 * 2 ^ (-53 : ℤ) := by
    rw [show (-45 : ℤ) = 8 + (-53) by norm_num, zpow_add₀ (by norm_num)]; norm_num
  have p3 : (2 : ℝ) ^ (-44 : ℤ) = 512 * 2 ^ (-53 : ℤ) := by
    rw [show (-44 : ℤ) = 9 + (-53) by norm_num, zpow_add₀ (by norm_num)]; norm_num
  have s1 : (2 : ℝ) ^ (-1071 : ℤ) = 16 * 2 ^ (-1075 : ℤ) := by
    rw [show (-1071 : ℤ) = 4 + (-1075) by norm_num, zpow_add₀ (by norm_num)]; norm_num
  have s2 : (2 : ℝ) ^ (-1070 : ℤ) = 32 * 2 ^ (-1075 : ℤ) := by
    rw [show (-1070 : ℤ) = 5 + (-1075) by norm_num, zpow_add₀ (by norm_num)]; norm_num
  have s3 : (2 : ℝ) ^ (-1069 : ℤ) = 64 * 2 ^ (-1075 : ℤ) := by
    rw [show (-1069 : ℤ) = 6 + (-1075) by norm_num, zpow_add₀ (by norm_num)]; norm_num
  have t0 : (0 : ℝ) < 2 ^ (-53 : ℤ) := by positivity
  rw [p1, p2, p3, s1, s2, s3]
  generalize (2 : ℝ) ^ (-1075 : ℤ) = η at *
  generalize (2 : ℝ) ^ (-53 : ℤ) = t at *
  have htL : 0 ≤ t * euc (toR BinQ.real V) := by positivity
  refine ⟨n', W, W', e, hW, hW', fun i => (h1 i).trans ?_, h2.trans ?_, fun i => (h3 i).trans ?_⟩ <;> linarith

/-- concrete case -/
example := C67_rotate_f64 q2341_holds H2341_ne (fun i => (H2341_pos i).imp_right ((pow_le_one64 (by norm_num)).trans))
  (fun i => (H2341_five i).trans (five_le (by norm_num))) b405_holds (B405_hi64 (by norm_num))

/-- The hypotheses are met by the quaternion `1 + i + j` (whose norm `√3` is irrational) and the vector `(1,2,3)`. -/
example : ∃ (q : Quat (Fl Q64)) (p : Mat3x1 (Fl Q64)) (Q : ℍ[Q64]) (V : Fin 3 → Q64), q.Holds Q ∧ Q ≠ 0 ∧ p.Holds V ∧
    (∀ i, quatVec Q i = 0 ∨ ((2 : ℚ) ^ (-511 : ℤ) : ℚ) ≤ |quatVec Q i|) ∧ (∀ i, |quatVec Q i| ≤ ((2 : ℚ) ^ (510 : ℤ) : ℚ)) ∧
    ∀ i, |V i| ≤ ((2 : ℚ) ^ (1000 : ℤ) : ℚ) := by
  have h1 : ((2 : ℚ) ^ (-511 : ℤ) : ℚ) ≤ |(1 : ℚ)| := by
    rw [abs_one]; exact zpow_le_one_of_nonpos₀ (by norm_num) (by norm_num)
  have big : ∀ (m : ℤ) (x : ℚ), 2 ≤ m → |x| ≤ 4 → |x| ≤ (2 : ℚ) ^ m := fun m x hm hx =>
    hx.trans (le_trans (by norm_num) (zpow_le_zpow_right₀ (by norm_num : (1 : ℚ) ≤ 2) hm))
  refine ⟨⟨.fin (1 : ℚ), .fin (1 : ℚ), .fin (0 : ℚ), .fin (1 : ℚ)⟩, ⟨#v[.fin (1 : ℚ), .fin (2 : ℚ), .fin (3 : ℚ)]⟩,
    ⟨(1 : ℚ), (1 : ℚ), (1 : ℚ), (0 : ℚ)⟩, ![(1 : ℚ), (2 : ℚ), (3 : ℚ)],
    ⟨⟨rfl, .inr (by decide +kernel)⟩, ⟨rfl, .inr (by decide +kernel)⟩, ⟨rfl, .inl rfl⟩, ⟨rfl, .inr (by decide +kernel)⟩⟩,
    fun h => ?_, fun i => ?_, fun i => ?_, fun i => ?_, fun i => ?_⟩
  · have := congrArg QuaternionAlgebra.re h
    exact absurd this (show (1 : ℚ) ≠ 0 by norm_num)
  · fin_cases i
    · exact ⟨rfl, .inr (by decide +kernel)⟩
    · exact ⟨rfl, .inr (by decide +kernel)⟩
    · exact ⟨rfl, .inr (by decide +kernel)⟩
  · fin_cases i
    · exact .inr h1
    · exact .inr h1
    · exact .inl rfl
    · exact .inr h1
  · fin_cases i
    · exact big 510 1 (by norm_num) (by norm_num)
    · exact big 510 1 (by norm_num) (by norm_num)
    · exact big 510 0 (by norm_num) (by norm_num)
    · exact big 510 1 (by norm_num) (by norm_num)
  · fin_cases i
    · exact big 1000 1 (by norm_num) (by norm_num)
    · exact big 1000 2 (by norm_num) (by norm_num)
    · exact big 1000 3 (by norm_num) (by norm_num)

/-- The rotation is not exact: rotating `(1,2,3)` with the normalised `1 + i + j` and then with its conjugate does not give
`(1,2,3)` back. -/
theorem C67_exact_false : ¬ ∀ (q n : Quat (Fl Q64)) (p : Mat3x1 (Fl Q64)), q.normalize = .ok n →
    n.conjugate.rotateVector (n.rotateVector p) = p := by
  intro h
  have e : (⟨.fin (1 : ℚ), .fin (1 : ℚ), .fin (0 : ℚ), .fin (1 : ℚ)⟩ : Quat (Fl Q64)).normalize = .ok
      ⟨.fin (5200308914369309 / 9007199254740992 : ℚ), .fin (5200308914369309 / 9007199254740992 : ℚ), .fin (0 : ℚ),
        .fin (5200308914369309 / 9007199254740992 : ℚ)⟩ := by decide +kernel
  have := h _ _ ⟨#v[.fin (1 : ℚ), .fin (2 : ℚ), .fin (3 : ℚ)]⟩ e
  revert this
  decide +kernel

end Mazth
