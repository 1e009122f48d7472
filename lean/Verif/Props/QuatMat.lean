import Verif.Props.QuatAlg
import Verif.Props.MatrixAlg

/-!
# C21, C22, C30: matrices built from quaternions
-/

set_option linter.unusedSectionVars false
set_option autoImplicit false

namespace Mazth

open Quaternion Matrix

variable {K : Type} [Field K] [LinearOrder K] [Fmt K]
variable {p q r : Quat (Fl ℝ)} {P Q R : ℍ[ℝ]}

/-! ## C21 -/

/-- the homogeneous matrix with the entries of the textbook formula -/
noncomputable def rotM (Q : ℍ[ℝ]) : Matrix (Fin 4) (Fin 4) ℝ :=
  !![1 - 2 * (Q.imJ * Q.imJ + Q.imK * Q.imK), 2 * (Q.imI * Q.imJ - Q.imK * Q.re), 2 * (Q.imI * Q.imK + Q.imJ * Q.re), 0;
     2 * (Q.imI * Q.imJ + Q.imK * Q.re), 1 - 2 * (Q.imI * Q.imI + Q.imK * Q.imK), 2 * (Q.imJ * Q.imK - Q.imI * Q.re), 0;
     2 * (Q.imI * Q.imK - Q.imJ * Q.re), 2 * (Q.imK * Q.imJ + Q.imI * Q.re), 1 - 2 * (Q.imI * Q.imI + Q.imJ * Q.imJ), 0;
     0, 0, 0, 1]

theorem rotM_reads (hq : q.IsR Q) : MatTy.ReadsR .mat4 (q.toRotationMatrix true) (rotM Q) := by
  obtain ⟨a, b, c, d⟩ := hq
  rw [MatTy.readsR_iff]
  have h1 := Fl.is_one
  have h2 : (Fl.lit 2 : Fl ℝ).Is 2 := Fl.is_lit 2
  have h0 := Fl.is_zero
  intro i j
  fin_cases i <;> fin_cases j
  · exact h1.sub (h2.mul ((b.mul b).add (c.mul c)))
  · exact h2.mul ((a.mul b).sub (c.mul d))
  · exact h2.mul ((a.mul c).add (b.mul d))
  · exact h0
  · exact h2.mul ((a.mul b).add (c.mul d))
  · exact h1.sub (h2.mul ((a.mul a).add (c.mul c)))
  · exact h2.mul ((b.mul c).sub (a.mul d))
  · exact h0
  · exact h2.mul ((a.mul c).sub (b.mul d))
  · exact h2.mul ((c.mul b).add (a.mul d))
  · exact h1.sub (h2.mul ((a.mul a).add (b.mul b)))
  · exact h0
  · exact h0
  · exact h0
  · exact h0
  · exact h1

theorem rotM_vec (h1 : ‖Q‖ = 1) (u : Fin 3 → ℝ) (s : ℝ) :
    rotM Q *ᵥ ![u 0, u 1, u 2, s] = ![rotR Q u 0, rotR Q u 1, rotR Q u 2, s] := by
  have e := unit_sq h1
  rw [rotR_coords h1]
  ext i
  fin_cases i <;> simp [rotM, Matrix.mulVec, dotProduct, Fin.sum_univ_four]
  · linear_combination (-u 0) * e
  · linear_combination (-u 1) * e
  · linear_combination (-u 2) * e

/-- C21: the row-major rotation matrix of a unit quaternion maps `(p,1)` to `(rotate_vector(p),1)`. -/
theorem C21_apply (hq : q.IsR Q) (h1 : ‖Q‖ = 1) (v : Mat3x1 (Fl ℝ)) (u : Fin 3 → ℝ) (hv : v.IsR u) (v4 : Mat4x1 (Fl ℝ))
    (h4 : VecTy.ReadsR .mat4x1 v4 ![u 0, u 1, u 2, 1]) :
    ∃ c w, (q.toRotationMatrix true).mulMat4x1 v4 = some c ∧ (q.rotateVector v).IsR w ∧
      VecTy.ReadsR .mat4x1 c ![w 0, w 1, w 2, 1] := by
  obtain ⟨c, hc, r⟩ := C06_mulCol .mat4 (q.toRotationMatrix true) v4 _ _ (rotM_reads hq) h4
  refine ⟨c, _, hc, C20_rotate hq h1 v u hv, ?_⟩
  have : MatTy.ColReadsR .mat4 c ![rotR Q u 0, rotR Q u 1, rotR Q u 2, 1] := by
    rw [← rotM_vec h1]; exact r
  exact this

/-- concrete case: `turn` applied to `(1, 2, 3)` -/
example := C21_apply (quatR_isR turn) turn_unit _ _ (vec3R_reads 1 2 3) ⟨#v[.fin 1, .fin 2, .fin 3, .fin 1]⟩
  (VecTy.readsR_iff.mpr fun i => by fin_cases i <;> exact Fl.is_fin _)

/-- C21: for a unit quaternion the matrix is orthogonal with determinant 1. -/
theorem C21_orthogonal (hq : q.IsR Q) (h1 : ‖Q‖ = 1) :
    ∃ A : Matrix (Fin 4) (Fin 4) ℝ, MatTy.ReadsR .mat4 (q.toRotationMatrix true) A ∧ A * Aᵀ = 1 ∧ Aᵀ * A = 1 ∧
      A.det = 1 := by
  have e := unit_sq h1
  have ed : Q.re ^ 2 = 1 - Q.imI ^ 2 - Q.imJ ^ 2 - Q.imK ^ 2 := by linear_combination e
  have o : rotM Q * (rotM Q)ᵀ = 1 := by
    ext i j
    fin_cases i <;> fin_cases j <;> simp [rotM, Matrix.mul_apply, Fin.sum_univ_four]
    all_goals ring_nf
    all_goals try simp only [ed]
    all_goals ring_nf
  refine ⟨rotM Q, rotM_reads hq, o, mul_eq_one_comm.mp o, ?_⟩
  unfold rotM
  simp [Matrix.det_succ_row_zero, Fin.sum_univ_succ, Fin.succAbove]
  ring_nf
  simp only [ed]
  ring_nf

/-- concrete case -/
example := C21_orthogonal (quatR_isR turn) turn_unit

/-- C21: composing quaternions multiplies the matrices. -/
theorem C21_mul (hp : p.IsR P) (hq : q.IsR Q) (h1 : ‖P‖ = 1) (h2 : ‖Q‖ = 1) :
    ∃ m A, (p.toRotationMatrix true).mul (q.toRotationMatrix true) = .ok (some m) ∧ MatTy.ReadsR .mat4 m A ∧
      MatTy.ReadsR .mat4 ((p.mul q).toRotationMatrix true) A := by
  obtain ⟨m, hm, -, r⟩ := C04_mul .mat4 _ _ _ _ (rotM_reads hp) (rotM_reads hq) rfl
  refine ⟨m, _, hm, r, ?_⟩
  have h12 : ‖P * Q‖ = 1 := by rw [norm_mul, h1, h2, one_mul]
  have : rotM (P * Q) = rotM P * rotM Q := by
    have key : ∀ (u : Fin 3 → ℝ) s, rotM (P * Q) *ᵥ ![u 0, u 1, u 2, s] = (rotM P * rotM Q) *ᵥ ![u 0, u 1, u 2, s] := by
      intro u s
      rw [← Matrix.mulVec_mulVec, rotM_vec h2, rotM_vec h1, rotM_vec h12]
      have : rotR (P * Q) u = rotR P (rotR Q u) := by
        unfold rotR
        rw [unit_inv h1, unit_inv h2, unit_inv h12, pureQ_vecQ (rot_re Q u), star_mul]
        simp only [mul_assoc]
      rw [this]
    have basis : ∀ (x : Fin 4 → ℝ), rotM (P * Q) *ᵥ x = (rotM P * rotM Q) *ᵥ x := by
      intro x
      have := key ![x 0, x 1, x 2] (x 3)
      have hx : (![x 0, x 1, x 2, x 3] : Fin 4 → ℝ) = x := by ext i; fin_cases i <;> rfl
      simpa [hx] using this
    exact Matrix.ext_of_mulVec_single fun i => basis _
  rw [← this]; exact rotM_reads (hp.mul hq)

/-- concrete case -/
example := C21_mul (quatR_isR turn) (quatR_isR (star turn)) turn_unit ((Quaternion.norm_star turn).trans turn_unit)

/-- non-vacuity: `turn` is a unit quaternion; (1,0,0,1) is a homogeneous point -/
example : ‖turn‖ = 1 ∧ (quatR turn).IsR turn ∧
    VecTy.ReadsR .mat4x1 (⟨#v[.fin 1, .fin 0, .fin 0, .fin 1]⟩ : Mat4x1 (Fl ℝ)) ![1, 0, 0, 1] := by
  refine ⟨turn_unit, quatR_isR _, VecTy.readsR_iff.mpr fun i => ?_⟩
  fin_cases i <;> exact Fl.is_fin _

/-! ## C22 -/

/-- C22 is false of the code: a unit quaternion with binary64 components (a 120° turn about (1,1,1)) whose two
matrices differ at row 0, column 1. -/
theorem C22_rotation_false :
    ¬ ∀ (q : Quat (Fl Q64)) (A : Matrix (Fin 4) (Fin 4) (Fl Q64)), MatTy.Reads .mat4 (q.toRotationMatrix true) A →
        MatTy.Reads .mat4 (q.toRotationMatrix false) A := by
  intro h
  have h1 := h ⟨.fin (1 / 2), .fin (1 / 2), .fin (1 / 2), .fin (1 / 2)⟩ _ (MatTy.reads_iff.mpr fun _ _ => rfl)
  have h2 := MatTy.reads_iff.mp h1 (0 : Fin 4) (1 : Fin 4)
  revert h2
  decide +kernel

/-- C22 is false of the code for unit quaternions in exact arithmetic as well. -/
theorem C22_rotation_exact_false :
    ¬ ∀ (Q : ℍ[ℝ]) (q : Quat (Fl ℝ)) (A : Matrix (Fin 4) (Fin 4) ℝ), ‖Q‖ = 1 → q.IsR Q →
        MatTy.ReadsR .mat4 (q.toRotationMatrix true) A → MatTy.ReadsR .mat4 (q.toRotationMatrix false) A := by
  intro h
  have h1 := h turn (quatR turn) _ turn_unit (quatR_isR _) (rotM_reads (quatR_isR _))
  rw [MatTy.readsR_iff] at h1
  have e0 : ((quatR turn).toRotationMatrix false).idx 0 1 = ((quatR turn).toRotationMatrix true).idx 1 0 := rfl
  have a : (((quatR turn).toRotationMatrix false).idx 0 1).Is (rotM turn 0 1) := h1 (0 : Fin 4) (1 : Fin 4)
  have b : (((quatR turn).toRotationMatrix true).idx 1 0).Is (rotM turn 1 0) :=
    MatTy.readsR_iff.mp (rotM_reads (quatR_isR turn)) (1 : Fin 4) (0 : Fin 4)
  rw [e0] at a
  have := a.unique b
  norm_num [rotM, turn] at this

/-- C22 is false of the code: the translation matrices differ too. -/
theorem C22_translation_false :
    ¬ ∀ (q : Quat (Fl Q64)) (A : Matrix (Fin 4) (Fin 4) (Fl Q64)), MatTy.Reads .mat4 (q.toTranslationMatrix true) A →
        MatTy.Reads .mat4 (q.toTranslationMatrix false) A := by
  intro h
  have h1 := h ⟨.fin 1, .fin 0, .fin 0, .fin 0⟩ _ (MatTy.reads_iff.mpr fun _ _ => rfl)
  have h2 := MatTy.reads_iff.mp h1 (0 : Fin 4) (3 : Fin 4)
  revert h2
  decide +kernel

/-- C22, what does hold (all floats): the column-major matrices are exactly the transposes of the row-major ones, and each
carries the requested layout.  Missing from the full claim: equality instead of transposition. -/
theorem C22_partial (q : Quat (Fl K)) :
    (∃ A, MatTy.Reads .mat4 (q.toRotationMatrix true) A ∧ MatTy.Reads .mat4 (q.toRotationMatrix false) Aᵀ) ∧
    (∃ A, MatTy.Reads .mat4 (q.toTranslationMatrix true) A ∧ MatTy.Reads .mat4 (q.toTranslationMatrix false) Aᵀ) ∧
    (∀ b, (q.toRotationMatrix b).isRowMajor = b ∧ (q.toTranslationMatrix b).isRowMajor = b) := by
  refine ⟨⟨_, MatTy.reads_iff.mpr fun _ _ => rfl, MatTy.reads_iff.mpr fun i j => ?_⟩,
    ⟨_, MatTy.reads_iff.mpr fun _ _ => rfl, MatTy.reads_iff.mpr fun i j => ?_⟩, fun b => by cases b <;> exact ⟨rfl, rfl⟩⟩
  · fin_cases i <;> fin_cases j <;> rfl
  · fin_cases i <;> fin_cases j <;> rfl

/-- concrete case: binary64 quaternion with a NaN component -/
example := C22_partial (⟨.fin (1 / 2 : ℚ), .nan, .nzero, .inf false⟩ : Quat (Fl Q64))

/-- C22: hence the column-major rotation matrix of a unit quaternion performs the inverse rotation. -/
theorem C22_inverse_partial (hq : q.IsR Q) (h1 : ‖Q‖ = 1) (v : Mat3x1 (Fl ℝ)) (u : Fin 3 → ℝ) (hv : v.IsR u)
    (v4 : Mat4x1 (Fl ℝ)) (h4 : VecTy.ReadsR .mat4x1 v4 ![u 0, u 1, u 2, 1]) :
    ∃ c w, (q.toRotationMatrix false).mulMat4x1 v4 = some c ∧ (q.conjugate.rotateVector v).IsR w ∧
      VecTy.ReadsR .mat4x1 c ![w 0, w 1, w 2, 1] := by
  have hs : ‖star Q‖ = 1 := by rw [norm_star, h1]
  have tr : MatTy.ReadsR .mat4 (q.toRotationMatrix false) (rotM Q)ᵀ := by
    have h := MatTy.readsR_iff.mp (rotM_reads hq)
    rw [MatTy.readsR_iff]
    intro i j
    have e : MatTy.idx .mat4 (q.toRotationMatrix false) i j = MatTy.idx .mat4 (q.toRotationMatrix true) j i := by
      fin_cases i <;> fin_cases j <;> rfl
    rw [e]; exact h j i
  have es : (rotM Q)ᵀ = rotM (star Q) := by
    ext i j; fin_cases i <;> fin_cases j <;> simp [rotM] <;> ring
  obtain ⟨c, hc, r⟩ := C06_mulCol .mat4 (q.toRotationMatrix false) v4 _ _ tr h4
  refine ⟨c, _, hc, C20_rotate hq.conjugate hs v u hv, ?_⟩
  have : MatTy.ColReadsR .mat4 c ![rotR (star Q) u 0, rotR (star Q) u 1, rotR (star Q) u 2, 1] := by
    rw [← rotM_vec hs, ← es]; exact r
  exact this

/-- concrete case -/
example := C22_inverse_partial (quatR_isR turn) turn_unit _ _ (vec3R_reads 1 2 3) ⟨#v[.fin 1, .fin 2, .fin 3, .fin 1]⟩
  (VecTy.readsR_iff.mpr fun i => by fin_cases i <;> exact Fl.is_fin _)

/-! ## C30 -/

/-- C30, what does hold: the row-major matrix of `init_from_translation(t)` maps every `(p,1)` to `(t/2, 1)`.
Missing from the full claim: `p` itself is dropped and the offset is halved. -/
theorem C30_partial (t u : Fin 3 → ℝ) (m : Mat3x1 (Fl ℝ)) (v4 : Mat4x1 (Fl ℝ)) (hm : m.IsR t)
    (h4 : VecTy.ReadsR .mat4x1 v4 ![u 0, u 1, u 2, 1]) :
    ∃ c, ((Quat.initFromTranslation m).toTranslationMatrix true).mulMat4x1 v4 = some c ∧
      VecTy.ReadsR .mat4x1 c ![t 0 / 2, t 1 / 2, t 2 / 2, 1] := by
  obtain ⟨a, b, c⟩ := Mat3x1.isR_iff.mp hm
  have h2 : (Fl.lit 2 : Fl ℝ).Is 2 := Fl.is_lit 2
  have n2 : (2 : ℝ) ≠ 0 := two_ne_zero
  have rd : MatTy.ReadsR .mat4 ((Quat.initFromTranslation m).toTranslationMatrix true)
      (!![0, 0, 0, t 0 / 2; 0, 0, 0, t 1 / 2; 0, 0, 0, t 2 / 2; 0, 0, 0, 1] : Matrix (Fin 4) (Fin 4) ℝ) := by
    rw [MatTy.readsR_iff]
    intro i j
    fin_cases i <;> fin_cases j <;>
      first
        | exact Fl.is_zero
        | exact Fl.is_one
        | exact a.div h2 n2
        | exact b.div h2 n2
        | exact c.div h2 n2
  obtain ⟨c, hc, r⟩ := C06_mulCol .mat4 _ v4 _ _ rd h4
  refine ⟨c, hc, ?_⟩
  have e : (!![0, 0, 0, t 0 / 2; 0, 0, 0, t 1 / 2; 0, 0, 0, t 2 / 2; 0, 0, 0, 1] : Matrix (Fin 4) (Fin 4) ℝ)
      *ᵥ ![u 0, u 1, u 2, 1] = ![t 0 / 2, t 1 / 2, t 2 / 2, 1] := by
    ext i; fin_cases i <;> simp [Matrix.mulVec, dotProduct, Fin.sum_univ_four]
  have : MatTy.ColReadsR .mat4 c ![t 0 / 2, t 1 / 2, t 2 / 2, 1] := by rw [← e]; exact r
  exact this

/-- concrete case: translation by `(2, 4, 6)` of the point `(1, 2, 3)` gives `(1, 2, 3)`, half the translation -/
example := C30_partial ![2, 4, 6] ![1, 2, 3] _ ⟨#v[.fin 1, .fin 2, .fin 3, .fin 1]⟩ (vec3R_reads 2 4 6)
  (VecTy.readsR_iff.mpr fun i => by fin_cases i <;> exact Fl.is_fin _)

/-- C30 is false of the code: the row-major translation matrix of t = (2,0,0) does not map the point (1,0,0) to (3,0,0). -/
theorem C30_false :
    ¬ ∀ (t u : Fin 3 → ℝ) (m : Mat3x1 (Fl ℝ)) (v4 c : Mat4x1 (Fl ℝ)), m.IsR t →
        VecTy.ReadsR .mat4x1 v4 ![u 0, u 1, u 2, 1] →
        ((Quat.initFromTranslation m).toTranslationMatrix true).mulMat4x1 v4 = some c →
        VecTy.ReadsR .mat4x1 c ![u 0 + t 0, u 1 + t 1, u 2 + t 2, 1] := by
  intro h
  have v1 : VecTy.ReadsR .mat4x1 (⟨#v[.fin 1, .fin 0, .fin 0, .fin 1]⟩ : Mat4x1 (Fl ℝ)) ![1, 0, 0, 1] := by
    refine VecTy.readsR_iff.mpr fun i => ?_
    fin_cases i <;> exact Fl.is_fin _
  obtain ⟨c, hc, r⟩ := C30_partial ![2, 0, 0] ![1, 0, 0] (vec3R 2 0 0) _ (vec3R_reads 2 0 0) v1
  have r' := h ![2, 0, 0] ![1, 0, 0] (vec3R 2 0 0) _ c (vec3R_reads 2 0 0) v1 hc
  have := congrFun (VecTy.readsR_unique r r') (0 : Fin 4)
  norm_num at this

end Mazth
