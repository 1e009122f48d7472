import Verif.Props.MatrixAlg
import Verif.Proofs.IsTac
import Mathlib.LinearAlgebra.Matrix.Determinant.Basic
import Mathlib.LinearAlgebra.Matrix.NonsingularInverse
import Mathlib.Tactic.NormNum
import Mathlib.Tactic.FieldSimp

/-! Helper lemmas for the matrix inverses: the cofactor formulas over any ring-like scalar, and their relation to
`Matrix.det` / `Matrix.inv`. -/

set_option linter.unusedSectionVars false
set_option autoImplicit false

namespace Mazth

variable {K : Type} [Field K] [LinearOrder K] [Fmt K]

/-- the sixteen cofactor expressions of `Mat4::inverse` -/
def adj4 {R : Type} [Add R] [Sub R] [Mul R] [Neg R] (f : Fin 4 → Fin 4 → R) : Fin 4 → Fin 4 → R := fun i j =>
  match i, j with
  | 0, 0 => f 1 1 * f 2 2 * f 3 3 - f 1 1 * f 3 2 * f 2 3 - f 1 2 * f 2 1 * f 3 3 + f 1 2 * f 3 1 * f 2 3 + f 1 3 * f 2 1 * f 3 2 - f 1 3 * f 3 1 * f 2 2
  | 0, 1 => -f 0 1 * f 2 2 * f 3 3 + f 0 1 * f 3 2 * f 2 3 + f 0 2 * f 2 1 * f 3 3 - f 0 2 * f 3 1 * f 2 3 - f 0 3 * f 2 1 * f 3 2 + f 0 3 * f 3 1 * f 2 2
  | 0, 2 => f 0 1 * f 1 2 * f 3 3 - f 0 1 * f 3 2 * f 1 3 - f 0 2 * f 1 1 * f 3 3 + f 0 2 * f 3 1 * f 1 3 + f 0 3 * f 1 1 * f 3 2 - f 0 3 * f 3 1 * f 1 2
  | 0, 3 => -f 0 1 * f 1 2 * f 2 3 + f 0 1 * f 2 2 * f 1 3 + f 0 2 * f 1 1 * f 2 3 - f 0 2 * f 2 1 * f 1 3 - f 0 3 * f 1 1 * f 2 2 + f 0 3 * f 2 1 * f 1 2
  | 1, 0 => -f 1 0 * f 2 2 * f 3 3 + f 1 0 * f 3 2 * f 2 3 + f 1 2 * f 2 0 * f 3 3 - f 1 2 * f 3 0 * f 2 3 - f 1 3 * f 2 0 * f 3 2 + f 1 3 * f 3 0 * f 2 2
  | 1, 1 => f 0 0 * f 2 2 * f 3 3 - f 0 0 * f 3 2 * f 2 3 - f 0 2 * f 2 0 * f 3 3 + f 0 2 * f 3 0 * f 2 3 + f 0 3 * f 2 0 * f 3 2 - f 0 3 * f 3 0 * f 2 2
  | 1, 2 => -f 0 0 * f 1 2 * f 3 3 + f 0 0 * f 3 2 * f 1 3 + f 0 2 * f 1 0 * f 3 3 - f 0 2 * f 3 0 * f 1 3 - f 0 3 * f 1 0 * f 3 2 + f 0 3 * f 3 0 * f 1 2
  | 1, 3 => f 0 0 * f 1 2 * f 2 3 - f 0 0 * f 2 2 * f 1 3 - f 0 2 * f 1 0 * f 2 3 + f 0 2 * f 2 0 * f 1 3 + f 0 3 * f 1 0 * f 2 2 - f 0 3 * f 2 0 * f 1 2
  | 2, 0 => f 1 0 * f 2 1 * f 3 3 - f 1 0 * f 3 1 * f 2 3 - f 1 1 * f 2 0 * f 3 3 + f 1 1 * f 3 0 * f 2 3 + f 1 3 * f 2 0 * f 3 1 - f 1 3 * f 3 0 * f 2 1
  | 2, 1 => -f 0 0 * f 2 1 * f 3 3 + f 0 0 * f 3 1 * f 2 3 + f 0 1 * f 2 0 * f 3 3 - f 0 1 * f 3 0 * f 2 3 - f 0 3 * f 2 0 * f 3 1 + f 0 3 * f 3 0 * f 2 1
  | 2, 2 => f 0 0 * f 1 1 * f 3 3 - f 0 0 * f 3 1 * f 1 3 - f 0 1 * f 1 0 * f 3 3 + f 0 1 * f 3 0 * f 1 3 + f 0 3 * f 1 0 * f 3 1 - f 0 3 * f 3 0 * f 1 1
  | 2, 3 => -f 0 0 * f 1 1 * f 2 3 + f 0 0 * f 2 1 * f 1 3 + f 0 1 * f 1 0 * f 2 3 - f 0 1 * f 2 0 * f 1 3 - f 0 3 * f 1 0 * f 2 1 + f 0 3 * f 2 0 * f 1 1
  | 3, 0 => -f 1 0 * f 2 1 * f 3 2 + f 1 0 * f 3 1 * f 2 2 + f 1 1 * f 2 0 * f 3 2 - f 1 1 * f 3 0 * f 2 2 - f 1 2 * f 2 0 * f 3 1 + f 1 2 * f 3 0 * f 2 1
  | 3, 1 => f 0 0 * f 2 1 * f 3 2 - f 0 0 * f 3 1 * f 2 2 - f 0 1 * f 2 0 * f 3 2 + f 0 1 * f 3 0 * f 2 2 + f 0 2 * f 2 0 * f 3 1 - f 0 2 * f 3 0 * f 2 1
  | 3, 2 => -f 0 0 * f 1 1 * f 3 2 + f 0 0 * f 3 1 * f 1 2 + f 0 1 * f 1 0 * f 3 2 - f 0 1 * f 3 0 * f 1 2 - f 0 2 * f 1 0 * f 3 1 + f 0 2 * f 3 0 * f 1 1
  | 3, 3 => f 0 0 * f 1 1 * f 2 2 - f 0 0 * f 2 1 * f 1 2 - f 0 1 * f 1 0 * f 2 2 + f 0 1 * f 2 0 * f 1 2 + f 0 2 * f 1 0 * f 2 1 - f 0 2 * f 2 0 * f 1 1

theorem Mat4.inverseAdj_idx (a : Mat4 (Fl K)) (i j : Fin 4) : a.inverseAdj.idx i j = adj4 a.idx i j := by
  fin_cases i <;> fin_cases j <;> kernel_rfl

theorem Mat4.inverseAdj_flag (a : Mat4 (Fl K)) : a.inverseAdj.isRowMajor = true := by kernel_rfl

theorem adj4_is (f : Fin 4 → Fin 4 → Fl ℝ) (A : Fin 4 → Fin 4 → ℝ) (h : ∀ i j, (f i j).Is (A i j)) (i j : Fin 4) :
    (adj4 f i j).Is (adj4 A i j) := by
  fin_cases i <;> fin_cases j <;> simp only [adj4] <;> is_tac

theorem det_fin_four {F : Type} [Field F] (A : Matrix (Fin 4) (Fin 4) F) : A.det =
    A 0 0 * adj4 A 0 0 + A 1 0 * adj4 A 0 1 + A 2 0 * adj4 A 0 2 + A 3 0 * adj4 A 0 3 := by
  rw [Matrix.det_succ_column_zero, Fin.sum_univ_four]
  simp only [Matrix.det_fin_three, Matrix.submatrix_apply, adj4]
  simp [Fin.succAbove, Fin.succ, Fin.castSucc]
  ring

theorem mul_adj4 {F : Type} [Field F] (A : Matrix (Fin 4) (Fin 4) F) : A * Matrix.of (adj4 A) = A.det • (1 : Matrix (Fin 4) (Fin 4) F) := by
  rw [det_fin_four]
  ext i j
  rw [Matrix.mul_apply, Fin.sum_univ_four]
  fin_cases i <;> fin_cases j <;> simp [adj4] <;> ring

theorem inv_adj4 {F : Type} [Field F] (A : Matrix (Fin 4) (Fin 4) F) (h : A.det ≠ 0) : A⁻¹ = A.det⁻¹ • Matrix.of (adj4 A) := by
  apply Matrix.inv_eq_right_inv
  rw [Matrix.mul_smul, mul_adj4, smul_smul, inv_mul_cancel₀ h, one_smul]

/-- the nine expressions of `Mat3::inverse` (in terms of the logical entries of the input) -/
def inv3code {R : Type} [Add R] [Sub R] [Mul R] [Neg R] [Div R] (f : Fin 3 → Fin 3 → R) (d : R) : Fin 3 → Fin 3 → R :=
  fun i j => match i, j with
  | 0, 0 => f 1 1 * f 2 2 - f 1 2 * f 2 1 / d
  | 1, 0 => -(f 1 0 * f 2 2 - f 1 2 * f 2 0) / d
  | 2, 0 => f 1 0 * f 2 1 - f 1 1 * f 2 0 / d
  | 0, 1 => f 0 1 * f 2 2 - f 0 2 * f 2 1 / d
  | 1, 1 => -(f 0 0 * f 2 2 - f 0 2 * f 2 0) / d
  | 2, 1 => f 0 0 * f 2 1 - f 0 1 * f 2 0 / d
  | 0, 2 => f 0 1 * f 1 2 - f 0 2 * f 1 1 / d
  | 1, 2 => -(f 0 0 * f 1 2 - f 0 2 * f 1 0) / d
  | 2, 2 => f 0 0 * f 1 1 - f 0 1 * f 1 0 / d

/-- the determinant expression of `Mat3::inverse` -/
def det3code {R : Type} [Add R] [Sub R] [Mul R] (f : Fin 3 → Fin 3 → R) : R :=
  f 0 0 * (f 1 1 * f 2 2 - f 2 1 * f 1 2) - f 1 0 * (f 0 1 * f 2 2 - f 2 1 * f 0 2) + f 2 0 * (f 0 1 * f 1 2 - f 1 1 * f 0 2)

theorem Mat3.inverse_eq (a : Mat3 (Fl K)) :
    (Fl.lt (det3code a.idx) (Fl.lit (1 / 10000000000)) && Fl.lt (-(Fl.lit (1 / 100000000000))) (det3code a.idx)) = true ∧
      a.inverse = none ∨
    (Fl.lt (det3code a.idx) (Fl.lit (1 / 10000000000)) && Fl.lt (-(Fl.lit (1 / 100000000000))) (det3code a.idx)) = false ∧
      ∃ m, a.inverse = some m ∧ m.isRowMajor = a.isRowMajor ∧ ∀ i j, m.idx i j = inv3code a.idx (det3code a.idx) i j := by
  unfold inverse
  simp only
  cases hc : Fl.lt (det3code a.idx) (Fl.lit (1 / 10000000000)) &&
    Fl.lt (-(Fl.lit (1 / 100000000000))) (det3code a.idx)
  · right
    refine ⟨rfl, ?_⟩
    unfold det3code at hc
    rw [hc]
    refine ⟨_, rfl, by simp only [setIdx_flag], fun i j => ?_⟩
    simp only [idx_setIdx, idx_transpose]
    fin_cases i <;> fin_cases j <;> rfl
  · left
    refine ⟨rfl, ?_⟩
    unfold det3code at hc
    rw [hc]; rfl

theorem det3code_is (f : Fin 3 → Fin 3 → Fl ℝ) (A : Fin 3 → Fin 3 → ℝ) (h : ∀ i j, (f i j).Is (A i j)) :
    (det3code f).Is (det3code A) := by
  unfold det3code; is_tac

theorem inv3code_is (f : Fin 3 → Fin 3 → Fl ℝ) (A : Fin 3 → Fin 3 → ℝ) (h : ∀ i j, (f i j).Is (A i j)) (d : Fl ℝ) (r : ℝ)
    (hd : d.Is r) (hr : r ≠ 0) (i j : Fin 3) : (inv3code f d i j).Is (inv3code A r i j) := by
  fin_cases i <;> fin_cases j <;> simp only [inv3code] <;> is_tac

theorem det3code_det {F : Type} [Field F] (A : Matrix (Fin 3) (Fin 3) F) : det3code A = A.det := by
  rw [Matrix.det_fin_three]; unfold det3code; ring

theorem inv3_eq (A : Matrix (Fin 3) (Fin 3) ℝ) (h : A.det ≠ 0) : A⁻¹ = A.det⁻¹ •
    !![A 1 1 * A 2 2 - A 1 2 * A 2 1, -(A 0 1 * A 2 2 - A 0 2 * A 2 1), A 0 1 * A 1 2 - A 0 2 * A 1 1;
       -(A 1 0 * A 2 2 - A 1 2 * A 2 0), A 0 0 * A 2 2 - A 0 2 * A 2 0, -(A 0 0 * A 1 2 - A 0 2 * A 1 0);
       A 1 0 * A 2 1 - A 1 1 * A 2 0, -(A 0 0 * A 2 1 - A 0 1 * A 2 0), A 0 0 * A 1 1 - A 0 1 * A 1 0] := by
  apply Matrix.inv_eq_right_inv
  rw [Matrix.mul_smul]
  rw [inv_smul_eq_iff₀ h]
  ext i j
  rw [Matrix.mul_apply, Fin.sum_univ_three, Matrix.det_fin_three]
  fin_cases i <;> fin_cases j <;> simp <;> ring

end Mazth
