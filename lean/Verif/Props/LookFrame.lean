import Verif.Props.MatrixAlg
import Verif.Props.PrismQueries
import Verif.Props.FloatPrismPoint
import Verif.Props.FloatVec
import Verif.Props.FloatRotate
import Mathlib.LinearAlgebra.Matrix.Adjugate

/-!
# C112: a viewing frame built from a direction and an upward vector
-/

set_option linter.unusedSectionVars false
set_option autoImplicit false

namespace Mazth

open Matrix

/-- A client program: the matrix whose rows are the right, upward and backward directions of a viewer that looks along `d`, built with
`normalize`, `cross`, `scale` and `Mat3::init`.  /repo/lib/mat.rs:392-433, 900-912 -/
def lookFrame {K : Type} [Field K] [LinearOrder K] [Fmt K] (rowMajor : Bool) (d up : V3 K) : Option (Mat3 (Fl K)) := do
  let f ← d.normalize
  let r ← (← f.cross up).normalize
  let v ← r.cross f
  let b ← f.scale (-1)
  some (Mat3.init #v[r.val[0], r.val[1], r.val[2], v.val[0], v.val[1], v.val[2], b.val[0], b.val[1], b.val[2]] rowMajor)

/-- `A` is the view of someone who looks along `D` with `U` upwards: a rotation that turns `D` to the negative third axis and `U` into
the upper half of the plane of the second and third axis. -/
structure Looks (D U : R3) (A : Matrix (Fin 3) (Fin 3) ℝ) : Prop where
  orth : A * Aᵀ = 1
  det : A.det = 1
  ahead : A *ᵥ D = ![0, 0, -euc D]
  level : (A *ᵥ U) 0 = 0
  upright : 0 < (A *ᵥ U) 1

/-- the rows in terms of the two vectors -/
noncomputable def frameR (D U : R3) : Matrix (Fin 3) (Fin 3) ℝ :=
  Matrix.of ![triNormal 0 ((euc D)⁻¹ • D) U, triNormal 0 ((euc D)⁻¹ • D) U ⨯₃ ((euc D)⁻¹ • D), (-1 : ℝ) • ((euc D)⁻¹ • D)]

theorem triNormal_zero (f U : R3) : triNormal 0 f U = (euc (f ⨯₃ U))⁻¹ • (f ⨯₃ U) := by rw [triNormal, sub_zero, sub_zero]

theorem unit_dot {c : R3} (hc : c ≠ 0) : ((euc c)⁻¹ • c) ⬝ᵥ ((euc c)⁻¹ • c) = 1 := by
  have := euc_pos hc
  rw [smul_dotProduct, dotProduct_smul, ← euc_sq, smul_eq_mul, smul_eq_mul]
  field_simp

theorem frameR_looks {D U : R3} (h : D ⨯₃ U ≠ 0) : Looks D U (frameR D U) := by
  have hD : D ≠ 0 := by rintro rfl; simp at h
  have hDp := euc_pos hD
  have hc : ((euc D)⁻¹ • D) ⨯₃ U ≠ 0 := by
    rw [map_smul, LinearMap.smul_apply]
    exact smul_ne_zero (inv_ne_zero hDp.ne') h
  have hcp := euc_pos hc
  have e1 := unit_dot hD
  have e2 := unit_dot hc
  have eD : D = euc D • ((euc D)⁻¹ • D) := by rw [smul_smul, mul_inv_cancel₀ hDp.ne', one_smul]
  unfold frameR
  rw [triNormal_zero]
  have hce : euc (((euc D)⁻¹ • D) ⨯₃ U) * euc (((euc D)⁻¹ • D) ⨯₃ U) = (((euc D)⁻¹ • D) ⨯₃ U) ⬝ᵥ (((euc D)⁻¹ • D) ⨯₃ U) := euc_sq _
  have hcr : ((euc D)⁻¹ • D) ⨯₃ U = euc (((euc D)⁻¹ • D) ⨯₃ U) • ((euc (((euc D)⁻¹ • D) ⨯₃ U))⁻¹ • (((euc D)⁻¹ • D) ⨯₃ U)) := by
    rw [smul_smul, mul_inv_cancel₀ hcp.ne', one_smul]
  have e3 : ((euc (((euc D)⁻¹ • D) ⨯₃ U))⁻¹ • (((euc D)⁻¹ • D) ⨯₃ U)) ⬝ᵥ ((euc D)⁻¹ • D) = 0 := by
    rw [smul_dotProduct, dotProduct_comm, dot_self_cross, smul_zero]
  have e4 : ((euc (((euc D)⁻¹ • D) ⨯₃ U))⁻¹ • (((euc D)⁻¹ • D) ⨯₃ U)) ⬝ᵥ U = 0 := by
    rw [smul_dotProduct, dotProduct_comm, dot_cross_self, smul_zero]
  generalize hf : (euc D)⁻¹ • D = f at *
  generalize hl : euc (f ⨯₃ U) = l at *
  generalize hr : l⁻¹ • (f ⨯₃ U) = r at *
  have c0 := congrFun hcr 0
  have c1 := congrFun hcr 1
  have c2 := congrFun hcr 2
  simp [cross_apply] at c0 c1 c2
  simp only [dotProduct, Fin.sum_univ_three] at e1 e2 e3 e4
  refine ⟨?_, ?_, ?_, ?_, ?_⟩
  · ext i j
    fin_cases i <;> fin_cases j <;> simp [Matrix.mul_apply, Fin.sum_univ_three, cross_apply]
    · linear_combination e2
    · ring
    · linear_combination -e3
    · ring
    · linear_combination (f 0 * f 0 + f 1 * f 1 + f 2 * f 2) * e2 + e1 - (r 0 * f 0 + r 1 * f 1 + r 2 * f 2) * e3
    · ring
    · linear_combination -e3
    · ring
    · linear_combination e1
  · rw [det_fin_three]
    simp [cross_apply]
    linear_combination (f 0 * f 0 + f 1 * f 1 + f 2 * f 2) * e2 + e1 - (r 0 * f 0 + r 1 * f 1 + r 2 * f 2) * e3
  · rw [eD]
    have ee : euc (euc D • f) = euc D := by rw [← eD]
    rw [ee]
    funext i
    fin_cases i <;> simp [mulVec, dotProduct, Fin.sum_univ_three, cross_apply]
    · linear_combination euc D * e3
    · ring
    · linear_combination -euc D * e1
  · simp [mulVec, dotProduct, Fin.sum_univ_three]
    linear_combination e4
  · have : (Matrix.of ![r, r ⨯₃ f, (-1 : ℝ) • f] *ᵥ U) 1 = l := by
      simp [mulVec, dotProduct, Fin.sum_univ_three, cross_apply]
      linear_combination r 0 * c0 + r 1 * c1 + r 2 * c2 + l * e2
    rw [this]
    exact hcp

/-- there is only one such view -/
theorem looks_eq {D U : R3} {A : Matrix (Fin 3) (Fin 3) ℝ} (h : D ⨯₃ U ≠ 0) (hA : Looks D U A) : A = frameR D U := by
  obtain ⟨ho, hd, ha, hl, hu⟩ := hA
  have hD : D ≠ 0 := by rintro rfl; simp at h
  have hDp := euc_pos hD
  have ho' : Aᵀ * A = 1 := mul_eq_one_comm.mp ho
  have hadj : A.adjugate = Aᵀ := by
    have h1 : Aᵀ * (A * A.adjugate) = Aᵀ := by rw [mul_adjugate, hd, one_smul, mul_one]
    rwa [← Matrix.mul_assoc, ho', one_mul] at h1
  have eD : D = Aᵀ *ᵥ (A *ᵥ D) := by rw [mulVec_mulVec, ho', one_mulVec]
  have eU : U = Aᵀ *ᵥ (A *ᵥ U) := by rw [mulVec_mulVec, ho', one_mulVec]
  rw [ha] at eD
  have dD (i : Fin 3) : (euc D)⁻¹ * D i = -A 2 i := by
    have := congrFun eD i
    simp [mulVec, dotProduct, Fin.sum_univ_three] at this
    rw [this]; field_simp
  have hfe : (euc D)⁻¹ • D = -(A 2) := funext dD
  generalize hy : (A *ᵥ U) 1 = y at *
  generalize hz : (A *ᵥ U) 2 = z at *
  have dU (i : Fin 3) : U i = A 1 i * y + A 2 i * z := by
    have := congrFun eU i
    rw [mulVec, dotProduct, Fin.sum_univ_three, hl, hy, hz] at this
    simpa using this
  have k (i j : Fin 3) : A.adjugate i j = A j i := by rw [hadj]; rfl
  rw [adjugate_fin_three] at k
  have k00 := k 0 0
  have k10 := k 1 0
  have k20 := k 2 0
  have k01 := k 0 1
  have k11 := k 1 1
  have k21 := k 2 1
  simp at k00 k10 k20 k01 k11 k21
  have hcr : ((euc D)⁻¹ • D) ⨯₃ U = y • A 0 := by
    rw [hfe]
    funext i
    fin_cases i <;> simp [cross_apply, dU]
    · linear_combination y * k00
    · linear_combination y * k10
    · linear_combination y * k20
  have hr0 : A 0 ⬝ᵥ A 0 = 1 := by
    have := congrFun (congrFun ho 0) 0
    simpa [Matrix.mul_apply, dotProduct] using this
  have he : euc (y • A 0) = y := by
    rw [euc_smul, abs_of_pos hu]
    have : euc (A 0) = 1 := by
      have := euc_sq (A 0)
      rw [hr0] at this
      nlinarith [euc_nonneg (A 0)]
    rw [this, mul_one]
  have hn : triNormal 0 ((euc D)⁻¹ • D) U = A 0 := by
    rw [triNormal_zero, hcr, he, smul_smul, inv_mul_cancel₀ hu.ne', one_smul]
  unfold frameR
  rw [hn, hfe]
  ext i j
  fin_cases i
  · rfl
  · fin_cases j <;> simp [cross_apply]
    · linear_combination -k01
    · linear_combination -k11
    · linear_combination -k21
  · simp

/-- C112: the program returns the view, for both layouts, and there is only one such view. -/
theorem C112_frame (rowMajor : Bool) (d up : V3 ℝ) (D U : R3) (hd : d.IsR D) (hup : up.IsR U) (h : D ⨯₃ U ≠ 0) :
    ∃ m A, lookFrame rowMajor d up = some m ∧ m.isRowMajor = rowMajor ∧ MatTy.ReadsR .mat3 m A ∧ Looks D U A ∧
      ∀ B, Looks D U B → B = A := by
  have hD : D ≠ 0 := by rintro rfl; simp at h
  have hf := V3.isR_nrm hd hD
  have hc : ((euc D)⁻¹ • D) ⨯₃ U ≠ 0 := by
    rw [map_smul, LinearMap.smul_apply]
    exact smul_ne_zero (inv_ne_zero (euc_pos hD).ne') h
  have hr := V3.isR_nrm (V3.isR_crs hf hup) hc
  have hv := V3.isR_crs hr hf
  have hb := V3.isR_scl hf (s := -1) (r := -1) (Fl.Is.neg (x := 1) rfl)
  refine ⟨_, frameR D U, rfl, (C01_init .mat3 _ _).2, ?_, frameR_looks h, fun B hB => looks_eq h hB⟩
  rw [MatTy.readsR_iff]
  intro i j
  obtain ⟨r0, r1, r2⟩ := Mat3x1.isR_iff.mp hr
  obtain ⟨v0, v1, v2⟩ := Mat3x1.isR_iff.mp hv
  obtain ⟨b0, b1, b2⟩ := Mat3x1.isR_iff.mp hb
  show Fl.Is (Mat3.idx (Mat3.init _ _) i j) _
  rw [Mat3.idx_init]
  unfold frameR
  rw [triNormal_zero]
  fin_cases i <;> fin_cases j
  · exact r0
  · exact r1
  · exact r2
  · exact v0
  · exact v1
  · exact v2
  · exact b0
  · exact b1
  · exact b2

/-- C112: used on vectors, the matrix turns the direction to the negative third axis, keeps all lengths, and its transpose undoes it. -/
theorem C112_apply (rowMajor : Bool) (d up p : V3 ℝ) (D U P : R3) (hd : d.IsR D) (hup : up.IsR U) (hp : p.IsR P) (h : D ⨯₃ U ≠ 0) :
    ∃ m a b c, lookFrame rowMajor d up = some m ∧ m.mulMat3x1 d = some a ∧ m.mulMat3x1 p = some b ∧ m.transpose.mulMat3x1 b = some c ∧
      a.IsR ![0, 0, -euc D] ∧ c.IsR P ∧ ∃ B, b.IsR B ∧ euc B = euc P := by
  obtain ⟨m, A, hm, -, hr, hL, -⟩ := C112_frame rowMajor d up D U hd hup h
  obtain ⟨a, ha, ra⟩ := C06_mulCol .mat3 m d A D hr hd
  obtain ⟨b, hb, rb⟩ := C06_mulCol .mat3 m p A P hr hp
  have ht : MatTy.ReadsR .mat3 m.transpose Aᵀ := by
    rw [MatTy.readsR_iff] at *
    intro i j
    have e := MatTy.idx_transpose .mat3 m i j
    change MatTy.idx .mat3 m.transpose i j = _ at e
    rw [e]; exact hr j i
  obtain ⟨c, hc, rc⟩ := C06_mulCol .mat3 m.transpose b Aᵀ (A *ᵥ P) ht rb
  have ho' : Aᵀ * A = 1 := mul_eq_one_comm.mp hL.orth
  refine ⟨m, a, b, c, hm, ha, hb, hc, ?_, ?_, A *ᵥ P, rb, ?_⟩
  · have : A *ᵥ D = _ := hL.ahead
    rw [← this]; exact ra
  · have : Aᵀ *ᵥ (A *ᵥ P) = P := by rw [mulVec_mulVec, ho', one_mulVec]
    rw [← this]; exact rc
  · have : (A *ᵥ P) ⬝ᵥ (A *ᵥ P) = P ⬝ᵥ P := by
      rw [dotProduct_mulVec, vecMul_mulVec, ho', vecMul_one]
    rw [← euc_sq, ← euc_sq] at this
    exact (mul_self_inj (euc_nonneg _) (euc_nonneg _)).mp this


/-! ### in floating point -/

section generic

variable {K : Type} [Field K] [LinearOrder K] [IsStrictOrderedRing K] [Fmt K] [LawfulFmt K] [RndErr K]

open RndErr

variable (φ : K →+* ℝ) (hφ : StrictMono φ)

/-- negation by multiplication is exact -/
theorem scl_neg_one {f : V3 K} {F : Fin 3 → K} (hf : f.Holds F) : (V3.scl f (-1)).Holds (fun i => -F i) := by
  have h1 : (-1 : Fl K).Holds (-1) := ⟨Fl.Is.kneg (x := 1) rfl, Fl.WF.neg (x := 1) Fl.rep_one⟩
  have q (i : Fin 3) : (f.val[i] * (-1) : Fl K).Holds (-F i) := by
    refine ⟨?_, Fl.wf_mul _ _⟩
    have := (hf i).1.mulExact h1.1 (by rw [mul_neg_one]; exact ((hf i).1.kneg).wf_rep (hf i).2.neg)
    exact this.kcast (by ring)
  exact mk_holds (q 0) (q 1) (q 2)

include hφ

/-- the cross product of two bounded vectors -/
theorem crs_close {a b : V3 K} {A B : Fin 3 → K} (ha : a.Holds A) (hb : b.Holds B) {p q : K} (hp : ∀ i, |A i| ≤ p) (hq : ∀ i, |B i| ≤ q)
    (he : (eta : K) ≤ u * (p * q)) (ho : 3 * (p * q) ≤ omega) :
    ∃ C, (V3.crs a b).Holds C ∧ (∀ i, |C i| ≤ 3 * (p * q)) ∧
      ∀ i, |φ (C i) - (toR φ A ⨯₃ toR φ B) i| ≤ 7 * φ u * (φ p * φ q) := by
  have hu := u_pos (K := K)
  have hl := u_le (K := K)
  have hη := eta_pos (K := K)
  have hp0 : 0 ≤ p := (abs_nonneg _).trans (hp 0)
  have hpq : 0 ≤ p * q := mul_nonneg hp0 ((abs_nonneg _).trans (hq 0))
  have he' : (eta : K) ≤ 1 / 64 * (p * q) := he.trans (mul_le_mul_of_nonneg_right hl hpq)
  have comp (i j : Fin 3) : ∃ c, (a.val[i] * b.val[j] - a.val[j] * b.val[i] : Fl K).Holds c ∧ |c| ≤ 3 * (p * q) ∧
      |c - (A i * B j - A j * B i)| ≤ 7 * u * (p * q) := by
    have L := ((Lim.leaf (ha i) (hp i)).mul (Lim.leaf (hb j) (hq j)) (by linarith)).sub
      ((Lim.leaf (ha j) (hp j)).mul (Lim.leaf (hb i) (hq i)) (by linarith)) (by linarith)
    obtain ⟨c, hc, hB⟩ := L.mono (B := 3 * (p * q)) (by linarith)
    refine ⟨c, hc, hB, ?_⟩
    have e := (det2_appr (ha i) (ha j) (hb j) (hb i)).err c hc.1
    refine e.trans ?_
    have b1 : |A i * B j| ≤ p * q := by rw [abs_mul]; exact mul_le_mul (hp i) (hq j) (abs_nonneg _) hp0
    have b2 : |A j * B i| ≤ p * q := by rw [abs_mul]; exact mul_le_mul (hp j) (hq i) (abs_nonneg _) hp0
    have g2 : (1 + u : K) ^ 2 - 1 ≤ (2 + 1 / 64) * u := by nlinarith
    have g0 : (0 : K) ≤ (1 + u : K) ^ 2 - 1 := by nlinarith
    have h5 := mul_le_mul g2 (add_le_add b1 b2) (by positivity) (by positivity)
    have h6 : 2 * (1 + u) * (eta : K) ≤ 2 * (1 + 1 / 64) * (u * (p * q)) := by
      refine mul_le_mul (by linarith) he hη.le (by norm_num)
    have h7 := mul_nonneg hu.le hpq
    linarith
  obtain ⟨c0, k0, s0, t0⟩ := comp 1 2
  obtain ⟨c1, k1, s1, t1⟩ := comp 2 0
  obtain ⟨c2, k2, s2, t2⟩ := comp 0 1
  have tr {c a1 a2 b1 b2 : K} (hh : |c - (a1 * b1 - a2 * b2)| ≤ 7 * u * (p * q)) :
      |φ c - (φ a1 * φ b1 - φ a2 * φ b2)| ≤ 7 * φ u * (φ p * φ q) := by
    have := hφ.monotone hh
    rw [map_abs_mono φ hφ] at this
    simpa only [map_sub, map_mul, map_ofNat] using this
  refine ⟨![c0, c1, c2], mk_holds k0 k1 k2, ?_, ?_⟩
  · intro i; fin_cases i
    · exact s0
    · exact s1
    · exact s2
  · intro i
    rw [cross_apply]
    fin_cases i
    · exact tr t0
    · exact tr t1
    · exact tr t2

/-- the three computed directions of the frame -/
theorem frame_close {d up : V3 K} {D U : Fin 3 → K} (hd : d.Holds D) (hup : up.Holds U) {M Q : K} {κ : ℝ} (hM : ∀ i, |D i| ≤ M)
    (hQ : ∀ i, |U i| ≤ Q) (cond : euc (toR φ D) * φ Q ≤ κ * euc (toR φ D ⨯₃ toR φ U)) (one : 1 ≤ κ) (small : 600 * φ u * κ ≤ 1)
    (hD : 2 * √(φ eta) ≤ φ u * euc (toR φ D)) (D0 : 0 < euc (toR φ D)) (Q0 : 0 < Q) (hQl : 4 * √(φ eta) * κ ≤ φ u * φ Q) (e1 : (eta : K) ≤ u)
    (e2 : (eta : K) ≤ u * Q) (o1 : 4 * (M * M + 1) ≤ omega) (o2 : 4 * (4 * Q * (4 * Q) + 1) ≤ omega) (o3 : 4 * Q ≤ omega) (o4 : 8 ≤ (omega : K)) :
    ∃ R V B : Fin 3 → K, (V3.nrm (V3.crs (V3.nrm d) up)).Holds R ∧ (V3.crs (V3.nrm (V3.crs (V3.nrm d) up)) (V3.nrm d)).Holds V ∧
      (V3.scl (V3.nrm d) (-1)).Holds B ∧ ∀ i, |φ (R i) - frameR (toR φ D) (toR φ U) 0 i| ≤ 89 * φ u * κ ∧
        |φ (V i) - frameR (toR φ D) (toR φ U) 1 i| ≤ 256 * φ u * κ ∧ |φ (B i) - frameR (toR φ D) (toR φ U) 2 i| ≤ 7 * φ u := by
  have hu := u_pos (K := K)
  have hl := u_le (K := K)
  set t := φ u with ht
  set q := φ Q with hq
  have t0 : 0 < t := by have := hφ hu; rwa [map_zero] at this
  have tl : t ≤ 1 / 64 := by have := hφ.monotone hl; rwa [map_div₀, map_one, map_ofNat] at this
  have q0 : 0 < q := by have := hφ Q0; rwa [map_zero] at this
  have hη0 : 0 < φ eta := by have := hφ (eta_pos (K := K)); rwa [map_zero] at this
  have η1 : φ eta ≤ t := hφ.monotone e1
  have htk : t * κ ≤ 1 / 600 := by linarith
  have htk1 : t ≤ t * κ := le_mul_of_one_le_right t0.le one
  have tk0 : 0 < t * κ := lt_of_lt_of_le t0 htk1
  have e1' : (eta : K) ≤ 1 := e1.trans (hl.trans (by norm_num))
  have down {x : K} (h : |φ x| ≤ 5 / 4) : |x| ≤ 5 / 4 := by
    rw [← hφ.le_iff_le, map_abs_mono φ hφ, map_div₀, map_ofNat, map_ofNat]; exact h
  -- the direction
  obtain ⟨F, hF, hFc⟩ := nrm_close φ hφ hd hM D0 e1' o1 hD
  set f : R3 := (euc (toR φ D))⁻¹ • toR φ D with hf
  have fi (i : Fin 3) : f i = φ (D i) / euc (toR φ D) := by rw [hf, Pi.smul_apply, smul_eq_mul, ← div_eq_inv_mul]; rfl
  have f1 (i : Fin 3) : |f i| ≤ 1 := by
    rw [fi, abs_div, abs_of_pos D0, div_le_one D0]; exact euc_coord (toR φ D) i
  have Ff (i : Fin 3) : |φ (F i) - f i| ≤ 7 * t := by
    have h1 := hFc i
    rw [← fi] at h1
    have := mul_le_mul_of_nonneg_left (f1 i) (show 0 ≤ 6 * t by positivity)
    linarith
  have F1 (i : Fin 3) : |φ (F i)| ≤ 5 / 4 := by
    have := abs_add_le (φ (F i) - f i) (f i)
    rw [sub_add_cancel] at this
    linarith [Ff i, f1 i]
  have F1K (i : Fin 3) : |F i| ≤ 5 / 4 := down (F1 i)
  -- the cross product with the upward vector
  have hUq (i : Fin 3) : |toR φ U i| ≤ q := by
    have := hφ.monotone (hQ i)
    rwa [map_abs_mono φ hφ] at this
  obtain ⟨C, hC, hCb, hCc⟩ := crs_close φ hφ hF hup F1K hQ (by nlinarith) (by linarith)
  set c : R3 := f ⨯₃ toR φ U with hc
  have hdc (i : Fin 3) : |(toR φ C - c) i| ≤ 23 * t * q := by
    have h1 := hCc i
    have h2 := cross_bound (x := toR φ F - f) (y := toR φ U) (fun i => Ff i) hUq i
    have h3 : (toR φ C - c) i = (φ (C i) - (toR φ F ⨯₃ toR φ U) i) + ((toR φ F - f) ⨯₃ toR φ U) i := by
      rw [map_sub, LinearMap.sub_apply]
      simp only [Pi.sub_apply, hc, toR]; ring
    rw [h3]
    have h4 := abs_add_le (φ (C i) - (toR φ F ⨯₃ toR φ U) i) (((toR φ F - f) ⨯₃ toR φ U) i)
    rw [map_div₀, map_ofNat, map_ofNat] at h1
    have := mul_pos t0 q0
    linarith
  have hde : euc (toR φ C - c) ≤ 41 * t * q := (euc_le_of hdc).trans (by have := mul_pos t0 q0; linarith)
  have hce : q ≤ κ * euc c := by
    have : c = (euc (toR φ D))⁻¹ • (toR φ D ⨯₃ toR φ U) := by rw [hc, hf, map_smul, LinearMap.smul_apply]
    rw [this, euc_smul, abs_of_pos (inv_pos.mpr D0), ← mul_assoc, mul_comm κ, mul_assoc, ← div_eq_inv_mul, le_div_iff₀ D0]
    linarith
  have hc0 : 0 < euc c := by
    by_contra hn
    have : euc c = 0 := le_antisymm (not_lt.mp hn) (euc_nonneg _)
    rw [this] at hce; linarith
  have hsmall : 600 * t * q ≤ euc c := by
    have h1 := mul_le_mul_of_nonneg_left hce (show 0 ≤ 600 * t by positivity)
    have h2 := mul_le_mul_of_nonneg_right small hc0.le
    linarith
  have hChalf : euc c / 2 ≤ euc (toR φ C) := by
    have := euc_add_le (toR φ C) ((-1 : ℝ) • (toR φ C - c))
    rw [euc_smul, abs_neg, abs_one, one_mul, show toR φ C + (-1 : ℝ) • (toR φ C - c) = c by module] at this
    have := mul_pos t0 q0
    linarith
  have hC0 : 0 < euc (toR φ C) := lt_of_lt_of_le (by positivity) hChalf
  obtain ⟨R, hR, hRc⟩ := nrm_close φ hφ hC (B := 4 * Q) (fun i => (hCb i).trans (by linarith)) hC0 e1' o2 (by
    have h1 : κ * (4 * √(φ eta)) ≤ κ * (t * euc c) := by
      have := mul_le_mul_of_nonneg_left hce t0.le
      linarith
    have h2 := le_of_mul_le_mul_left h1 (by linarith)
    have h3 := mul_le_mul_of_nonneg_left hChalf t0.le
    linarith)
  set r : R3 := (euc c)⁻¹ • c with hr
  have ri (i : Fin 3) : r i = c i / euc c := by rw [hr, Pi.smul_apply, smul_eq_mul, ← div_eq_inv_mul]
  have r1 (i : Fin 3) : |r i| ≤ 1 := by
    rw [ri, abs_div, abs_of_pos hc0, div_le_one hc0]; exact euc_coord c i
  have Rr (i : Fin 3) : |φ (R i) - r i| ≤ 89 * (t * κ) := by
    have h1 := hRc i
    have h2 : |φ (C i) / euc (toR φ C) - c i / euc c| ≤ 2 * (41 * t * q) / euc c := unit_perturb hc0 hC0 hde i
    have h3 : |φ (C i) / euc (toR φ C)| ≤ 1 := by
      rw [abs_div, abs_of_pos hC0, div_le_one hC0]; exact euc_coord (toR φ C) i
    have h4 : 2 * (41 * t * q) / euc c ≤ 82 * (t * κ) := by
      rw [div_le_iff₀ hc0]
      have := mul_le_mul_of_nonneg_left hce (show 0 ≤ 82 * t by positivity)
      linarith
    rw [ri]
    have h5 := abs_add_le (φ (R i) - φ (C i) / euc (toR φ C)) (φ (C i) / euc (toR φ C) - c i / euc c)
    rw [sub_add_sub_cancel] at h5
    have h7 := mul_le_mul_of_nonneg_left h3 (show 0 ≤ 6 * t by positivity)
    linarith
  have R1 (i : Fin 3) : |φ (R i)| ≤ 5 / 4 := by
    have := abs_add_le (φ (R i) - r i) (r i)
    rw [sub_add_cancel] at this
    linarith [Rr i, r1 i]
  obtain ⟨V, hV, -, hVc⟩ := crs_close φ hφ hR hF (fun i => down (R1 i)) F1K (by linarith) (by linarith)
  have e0 : frameR (toR φ D) (toR φ U) 0 = r := by
    show triNormal 0 _ _ = _
    rw [triNormal_zero]
  have e1 : frameR (toR φ D) (toR φ U) 1 = r ⨯₃ f := by
    show triNormal 0 _ _ ⨯₃ _ = _
    rw [triNormal_zero]
  have e2 : frameR (toR φ D) (toR φ U) 2 = (-1 : ℝ) • f := rfl
  refine ⟨R, V, _, hR, hV, scl_neg_one hF, fun i => ⟨?_, ?_, ?_⟩⟩
  · rw [e0]; linarith [Rr i]
  · rw [e1]
    have h1 := hVc i
    rw [map_div₀, map_ofNat, map_ofNat] at h1
    have h2 := cross_bound (x := toR φ R - r) (y := toR φ F) (fun i => Rr i) F1 i
    have h3 := cross_bound (x := r) (y := toR φ F - f) r1 (fun i => Ff i) i
    have h4 : φ (V i) - (r ⨯₃ f) i = (φ (V i) - (toR φ R ⨯₃ toR φ F) i) + ((toR φ R - r) ⨯₃ toR φ F) i + (r ⨯₃ (toR φ F - f)) i := by
      rw [map_sub, map_sub, LinearMap.sub_apply]
      simp only [Pi.sub_apply]; ring
    rw [h4]
    have h5 := abs_add_le ((φ (V i) - (toR φ R ⨯₃ toR φ F) i) + ((toR φ R - r) ⨯₃ toR φ F) i) ((r ⨯₃ (toR φ F - f)) i)
    have h6 := abs_add_le (φ (V i) - (toR φ R ⨯₃ toR φ F) i) (((toR φ R - r) ⨯₃ toR φ F) i)
    linarith
  · rw [e2, map_neg, Pi.smul_apply, smul_eq_mul, show -φ (F i) - -1 * f i = -(φ (F i) - f i) by ring, abs_neg]
    exact Ff i

end generic


/-- C112 for `f64`: components of the direction at most `2^500` with a length of at least `2^-480`; components of the upward vector at
most `Q`, `2^-400 ≤ Q ≤ 2^400`; and `|D| Q ≤ κ |D × U|` with `κ ≤ 2^40`: every entry of the computed matrix is within `2^-45 κ` of the
view, for both layouts. -/
theorem C112_frame_f64 (rowMajor : Bool) {d up : V3 Q64} {D U : Fin 3 → Q64} (hd : d.Holds D) (hup : up.Holds U) {Q : Q64} {κ : ℝ}
    (hM : ∀ i, |D i| ≤ ((2 : ℚ) ^ (500 : ℤ) : ℚ)) (hD : 2 ^ (-480 : ℤ) ≤ euc (toR BinQ.real D)) (hQ : ∀ i, |U i| ≤ Q)
    (lo : ((2 : ℚ) ^ (-400 : ℤ) : ℚ) ≤ Q) (hi : Q ≤ ((2 : ℚ) ^ (400 : ℤ) : ℚ))
    (cond : euc (toR BinQ.real D) * Q.real ≤ κ * euc (toR BinQ.real D ⨯₃ toR BinQ.real U)) (one : 1 ≤ κ) (hκ : κ ≤ 2 ^ (40 : ℤ)) :
    ∃ m B A, lookFrame rowMajor d up = some m ∧ m.isRowMajor = rowMajor ∧ MatTy.HoldsF .mat3 m B ∧ Looks (toR BinQ.real D) (toR BinQ.real U) A ∧
      ∀ i j, |(B i j).real - A i j| ≤ 2 ^ (-45 : ℤ) * κ := by
  obtain ⟨cu, ce, -, co, -⟩ := C55_constants
  obtain ⟨ru, re⟩ := f64_consts
  have D0 : 0 < euc (toR BinQ.real D) := lt_of_lt_of_le (by positivity) hD
  have key (Q : ℚ) (lo : (2 : ℚ) ^ (-400 : ℤ) ≤ Q) (hi : Q ≤ (2 : ℚ) ^ (400 : ℤ)) :
      0 < Q ∧ (2 : ℚ) ^ (-1075 : ℤ) ≤ (2 : ℚ) ^ (-53 : ℤ) * Q ∧ 4 * (4 * Q * (4 * Q) + 1) ≤ (2 : ℚ) ^ (1023 : ℤ) ∧
        4 * Q ≤ (2 : ℚ) ^ (1023 : ℤ) := by
    have hz : (0 : ℚ) < (2 : ℚ) ^ (-400 : ℤ) := zpow_pos (by norm_num) _
    have h1 : (1 : ℚ) ≤ (2 : ℚ) ^ (400 : ℤ) := one_le_zpow₀ (by norm_num) (by norm_num)
    have hQ0 : 0 < Q := hz.trans_le lo
    refine ⟨hQ0, ?_, ?_, ?_⟩
    · calc (2 : ℚ) ^ (-1075 : ℤ) ≤ (2 : ℚ) ^ (-453 : ℤ) := zpow_le_zpow_right₀ (by norm_num) (by norm_num)
        _ = (2 : ℚ) ^ (-53 : ℤ) * (2 : ℚ) ^ (-400 : ℤ) := by rw [← zpow_add₀ (by norm_num)]; norm_num
        _ ≤ _ := by gcongr
    · have e : (2 : ℚ) ^ (800 : ℤ) = (2 : ℚ) ^ (400 : ℤ) * (2 : ℚ) ^ (400 : ℤ) := by rw [← zpow_add₀ (by norm_num)]; norm_num
      have e' : (2 : ℚ) ^ (807 : ℤ) = 128 * (2 : ℚ) ^ (800 : ℤ) := by
        rw [show (807 : ℤ) = 7 + 800 by norm_num, zpow_add₀ (by norm_num)]; norm_num
      have h2 : Q * Q ≤ (2 : ℚ) ^ (800 : ℤ) := by rw [e]; exact mul_le_mul hi hi hQ0.le (by positivity)
      have h3 : (1 : ℚ) ≤ (2 : ℚ) ^ (800 : ℤ) := one_le_zpow₀ (by norm_num) (by norm_num)
      have h4 : (2 : ℚ) ^ (807 : ℤ) ≤ (2 : ℚ) ^ (1023 : ℤ) := zpow_le_zpow_right₀ (by norm_num) (by norm_num)
      rw [e'] at h4
      generalize (2 : ℚ) ^ (800 : ℤ) = x at h2 h3 h4
      generalize (2 : ℚ) ^ (1023 : ℤ) = y at h4 ⊢
      linarith only [h2, h3, h4]
    · have e' : (2 : ℚ) ^ (402 : ℤ) = 4 * (2 : ℚ) ^ (400 : ℤ) := by
        rw [show (402 : ℤ) = 2 + 400 by norm_num, zpow_add₀ (by norm_num)]; norm_num
      have h4 : (2 : ℚ) ^ (402 : ℤ) ≤ (2 : ℚ) ^ (1023 : ℤ) := zpow_le_zpow_right₀ (by norm_num) (by norm_num)
      rw [e'] at h4
      generalize (2 : ℚ) ^ (400 : ℤ) = x at hi h4
      generalize (2 : ℚ) ^ (1023 : ℤ) = y at h4 ⊢
      linarith only [hi, h4]
  obtain ⟨k1, k2, k3, k4⟩ := key Q lo hi
  have top : 4 * ((2 : ℚ) ^ (500 : ℤ) * (2 : ℚ) ^ (500 : ℤ) + 1) ≤ (2 : ℚ) ^ (1023 : ℤ) := by
    have h3 : (1 : ℚ) ≤ (2 : ℚ) ^ (1000 : ℤ) := one_le_zpow₀ (by norm_num) (by norm_num)
    have e : (2 : ℚ) ^ (500 : ℤ) * (2 : ℚ) ^ (500 : ℤ) = (2 : ℚ) ^ (1000 : ℤ) := by rw [← zpow_add₀ (by norm_num)]; norm_num
    have e' : (2 : ℚ) ^ (1003 : ℤ) = 8 * (2 : ℚ) ^ (1000 : ℤ) := by
      rw [show (1003 : ℤ) = 3 + 1000 by norm_num, zpow_add₀ (by norm_num)]; norm_num
    have h4 : (2 : ℚ) ^ (1003 : ℤ) ≤ (2 : ℚ) ^ (1023 : ℤ) := zpow_le_zpow_right₀ (by norm_num) (by norm_num)
    rw [e]
    rw [e'] at h4
    generalize (2 : ℚ) ^ (1000 : ℤ) = x at h3 h4 ⊢
    generalize (2 : ℚ) ^ (1023 : ℤ) = y at h4 ⊢
    linarith only [h3, h4]
  have hs : √((2 : ℝ) ^ (-1075 : ℤ)) ≤ (2 : ℝ) ^ (-537 : ℤ) := by
    rw [Real.sqrt_le_left (by positivity)]
    calc (2 : ℝ) ^ (-1075 : ℤ) ≤ (2 : ℝ) ^ (-1074 : ℤ) := zpow_le_zpow_right₀ (by norm_num) (by norm_num)
      _ = ((2 : ℝ) ^ (-537 : ℤ)) ^ 2 := by rw [← zpow_natCast, ← zpow_mul]; norm_num
  have hQr : (2 : ℝ) ^ (-400 : ℤ) ≤ Q.real := by
    have := BinQ.real_strictMono.monotone lo
    change (((2 : ℚ) ^ (-400 : ℤ) : ℚ) : ℝ) ≤ _ at this
    rwa [Rat.cast_zpow, Rat.cast_ofNat] at this
  obtain ⟨R, V, B, hR, hV, hB, hc⟩ := frame_close BinQ.real BinQ.real_strictMono hd hup hM hQ cond one
    (by rw [ru]
        calc 600 * (2 : ℝ) ^ (-53 : ℤ) * κ ≤ 600 * (2 : ℝ) ^ (-53 : ℤ) * (2 : ℝ) ^ (40 : ℤ) := by gcongr
          _ ≤ 1 := by norm_num)
    (by rw [ru, re]
        calc 2 * √((2 : ℝ) ^ (-1075 : ℤ)) ≤ 2 * (2 : ℝ) ^ (-537 : ℤ) := by gcongr
          _ = (2 : ℝ) ^ (-536 : ℤ) := by rw [show (-536 : ℤ) = 1 + -537 by norm_num, zpow_add₀ (by norm_num)]; norm_num
          _ ≤ (2 : ℝ) ^ (-533 : ℤ) := zpow_le_zpow_right₀ (by norm_num) (by norm_num)
          _ = (2 : ℝ) ^ (-53 : ℤ) * (2 : ℝ) ^ (-480 : ℤ) := by rw [← zpow_add₀ (by norm_num)]; norm_num
          _ ≤ _ := by gcongr)
    D0 k1
    (by rw [ru, re]
        calc 4 * √((2 : ℝ) ^ (-1075 : ℤ)) * κ ≤ 4 * (2 : ℝ) ^ (-537 : ℤ) * (2 : ℝ) ^ (40 : ℤ) := by gcongr
          _ = (2 : ℝ) ^ (-495 : ℤ) := by
            rw [show (-495 : ℤ) = 2 + -537 + 40 by norm_num, zpow_add₀ (by norm_num), zpow_add₀ (by norm_num)]; norm_num
          _ ≤ (2 : ℝ) ^ (-453 : ℤ) := zpow_le_zpow_right₀ (by norm_num) (by norm_num)
          _ = (2 : ℝ) ^ (-53 : ℤ) * (2 : ℝ) ^ (-400 : ℤ) := by rw [← zpow_add₀ (by norm_num)]; norm_num
          _ ≤ _ := by gcongr)
    (by rw [ce, cu]; exact (zpow_le_zpow_right₀ (by norm_num) (by norm_num) : (2 : ℚ) ^ (-1075 : ℤ) ≤ (2 : ℚ) ^ (-53 : ℤ)))
    (by rw [ce, cu]; exact k2) (by rw [co]; exact top) (by rw [co]; exact k3) (by rw [co]; exact k4)
    (by rw [co]; exact ((by norm_num : (8 : ℚ) ≤ 2 ^ (3 : ℤ)).trans (zpow_le_zpow_right₀ (by norm_num) (by norm_num)) : (8 : ℚ) ≤ (2 : ℚ) ^ (1023 : ℤ)))
  have hne : toR BinQ.real D ⨯₃ toR BinQ.real U ≠ 0 := by
    intro h
    rw [h, (euc_eq_zero _).mpr rfl, mul_zero] at cond
    have := mul_pos D0 (lt_of_lt_of_le (by positivity) hQr)
    linarith
  refine ⟨_, Matrix.of ![R, V, B], frameR (toR BinQ.real D) (toR BinQ.real U), rfl, (C01_init .mat3 _ _).2, ?_, frameR_looks hne, ?_⟩
  · intro chk i j
    refine ⟨_, Mat3.index_eq_idx chk _ i j, ?_⟩
    rw [Mat3.idx_init]
    fin_cases i <;> fin_cases j
    · exact hR 0
    · exact hR 1
    · exact hR 2
    · exact hV 0
    · exact hV 1
    · exact hV 2
    · exact hB 0
    · exact hB 1
    · exact hB 2
  · have e45 : (2 : ℝ) ^ (-45 : ℤ) = 256 * (2 : ℝ) ^ (-53 : ℤ) := by norm_num
    have hp : (0 : ℝ) < (2 : ℝ) ^ (-53 : ℤ) := by positivity
    intro i j
    obtain ⟨h0, h1, h2⟩ := hc j
    rw [ru] at h0 h1 h2
    rw [e45]
    have := mul_le_mul_of_nonneg_left one hp.le
    fin_cases i
    · exact h0.trans (by linarith)
    · exact h1
    · exact h2.trans (by linarith)


/-! ### concrete cases -/

theorem look_ne : (![3, 0, 0] : R3) ⨯₃ ![1, 2, 0] ≠ 0 := fun h => by
  have := congrFun h 2
  simp [cross_apply] at this

theorem look_dir : (⟨#v[.fin 3, .fin 0, .fin 0]⟩ : V3 ℝ).IsR ![3, 0, 0] := V3.isR_mk rfl rfl rfl
theorem look_up : (⟨#v[.fin 1, .fin 2, .fin 0]⟩ : V3 ℝ).IsR ![1, 2, 0] := V3.isR_mk rfl rfl rfl

/-- concrete case: looking along the first axis, with an upward vector that is not perpendicular to it -/
example := C112_frame false _ _ _ _ look_dir look_up look_ne

/-- concrete case: in that view the third axis is to the right -/
example := C112_apply true _ _ ⟨#v[.fin 0, .fin 0, .fin 1]⟩ _ _ ![0, 0, 1] look_dir look_up (V3.isR_mk rfl rfl rfl) look_ne

def dir64 : Fin 3 → Q64 := ![(3 : ℚ), (1 : ℚ), (0 : ℚ)]
def up64 : Fin 3 → Q64 := ![(0 : ℚ), (0 : ℚ), (2 : ℚ)]

theorem toR_dir64 : toR BinQ.real dir64 = ![3, 1, 0] := by
  ext i; fin_cases i
  · exact Rat.cast_ofNat 3
  · exact Rat.cast_one
  · exact Rat.cast_zero

theorem toR_up64 : toR BinQ.real up64 = ![0, 0, 2] := by
  ext i; fin_cases i
  · exact Rat.cast_zero
  · exact Rat.cast_zero
  · exact Rat.cast_ofNat 2

/-- concrete case: looking along `(3, 1, 0)` with `(0, 0, 2)` upwards, `κ = 1` -/
example : ∃ m B A, lookFrame true (⟨#v[.fin (3 : ℚ), .fin (1 : ℚ), .fin (0 : ℚ)]⟩ : V3 Q64) ⟨#v[.fin (0 : ℚ), .fin (0 : ℚ), .fin (2 : ℚ)]⟩ = some m ∧
    m.isRowMajor = true ∧ MatTy.HoldsF .mat3 m B ∧ Looks ![3, 1, 0] ![0, 0, 2] A ∧ ∀ i j, |(B i j).real - A i j| ≤ 2 ^ (-45 : ℤ) * 1 := by
  have hcr : (![3, 1, 0] : R3) ⨯₃ ![0, 0, 2] = ![2, -6, 0] := by
    funext i; fin_cases i <;> simp [cross_apply]; norm_num
  have e1 : euc (![3, 1, 0] : R3) = √10 := by rw [euc_eq]; congr 1; simp [Fin.sum_univ_three]; norm_num
  have e2 : euc (![2, -6, 0] : R3) = √10 * 2 := by
    have : (![2, -6, 0] : R3) = (2 : ℝ) • ![1, -3, 0] := by funext i; fin_cases i <;> norm_num
    rw [this, euc_smul, abs_of_pos (by norm_num), mul_comm]
    congr 1
    rw [euc_eq]; congr 1; simp [Fin.sum_univ_three]; norm_num
  have two : BinQ.real two64 = 2 := Rat.cast_ofNat 2
  have h := C112_frame_f64 true (d := ⟨#v[.fin (3 : ℚ), .fin (1 : ℚ), .fin (0 : ℚ)]⟩) (up := ⟨#v[.fin (0 : ℚ), .fin (0 : ℚ), .fin (2 : ℚ)]⟩)
    (D := dir64) (U := up64) (Q := two64) (κ := 1)
    (mk_holds ⟨rfl, .inr (by decide +kernel)⟩ ⟨rfl, .inr (by decide +kernel)⟩ ⟨rfl, .inr (by decide +kernel)⟩)
    (mk_holds ⟨rfl, .inr (by decide +kernel)⟩ ⟨rfl, .inr (by decide +kernel)⟩ ⟨rfl, .inr (by decide +kernel)⟩)
    (fun i => by
      have q (a : ℚ) (h : |a| ≤ 4) : |a| ≤ (2 : ℚ) ^ (500 : ℤ) :=
        h.trans ((by norm_num : (4 : ℚ) ≤ 2 ^ (2 : ℤ)).trans (zpow_le_zpow_right₀ (by norm_num) (by norm_num)))
      fin_cases i
      · exact q 3 (by norm_num)
      · exact q 1 (by norm_num)
      · exact q 0 (by norm_num))
    (by rw [toR_dir64, e1]
        have h1 : (2 : ℝ) ^ (-480 : ℤ) ≤ 1 := zpow_le_one_of_nonpos₀ (by norm_num) (by norm_num)
        have h2 : (1 : ℝ) ≤ √10 := by exact Real.le_sqrt_of_sq_le (by norm_num)
        linarith)
    (fun i => by
      have q (a : ℚ) (h : |a| ≤ 2) : |a| ≤ 2 := h
      fin_cases i
      · exact q 0 (by norm_num)
      · exact q 0 (by norm_num)
      · exact q 2 (by norm_num))
    ((zpow_le_zpow_right₀ (by norm_num) (by norm_num : (-400 : ℤ) ≤ 1)).trans (by norm_num) : (2 : ℚ) ^ (-400 : ℤ) ≤ 2)
    ((by norm_num : (2 : ℚ) ≤ 2 ^ (1 : ℤ)).trans (zpow_le_zpow_right₀ (by norm_num) (by norm_num)) : (2 : ℚ) ≤ (2 : ℚ) ^ (400 : ℤ))
    (by rw [toR_dir64, toR_up64, hcr, e1, e2, two, one_mul]) le_rfl (by norm_num)
  rwa [toR_dir64, toR_up64] at h

/-- an f64 next to `5/3` -/
def fiveThirds : Q64 := (7505999378950827 / 2 ^ 52 : ℚ)

/-- C112: a condition on the angle is needed in f64: `(3, 1, 0)` and `(5, 5/3, 0)` with `5/3` rounded to f64 are not parallel, but their computed
cross product is zero, and the frame is NaN in its first two rows. -/
theorem C112_parallel_false :
    (3 * (7505999378950827 / 2 ^ 52) - 1 * 5 : ℚ) ≠ 0 ∧
    (lookFrame true (⟨#v[.fin 3, 1, 0]⟩ : V3 Q64) ⟨#v[.fin 5, .fin fiveThirds, 0]⟩).map (fun m => [m.idx 0 0, m.idx 0 1, m.idx 0 2, m.idx 1 0, m.idx 1 1, m.idx 1 2]) =
      some [.nan, .nan, .nan, .nan, .nan, .nan] := by
  exact ⟨by norm_num, by decide +kernel⟩

end Mazth
