import Mathlib.Analysis.InnerProductSpace.PiL2
import Mathlib.LinearAlgebra.CrossProduct

/-! # Euclidean norm and dot product of tuples -/

set_option autoImplicit false

namespace Mazth

open Matrix

/-- Euclidean norm of a tuple. -/
noncomputable def euc {n : ℕ} (u : Fin n → ℝ) : ℝ := ‖(WithLp.toLp 2 u : EuclideanSpace ℝ (Fin n))‖

theorem euc_eq {n : ℕ} (u : Fin n → ℝ) : euc u = Real.sqrt (∑ i, u i * u i) := by
  unfold euc; rw [EuclideanSpace.norm_eq]; congr 1
  refine Finset.sum_congr rfl fun i _ => ?_
  simp [sq]

theorem euc_nonneg {n : ℕ} (u : Fin n → ℝ) : 0 ≤ euc u := norm_nonneg _
theorem euc_eq_zero {n : ℕ} (u : Fin n → ℝ) : euc u = 0 ↔ u = 0 := by
  unfold euc; rw [norm_eq_zero]
  constructor
  · intro h; ext i; have := congrArg (fun v : EuclideanSpace ℝ (Fin n) => v.ofLp i) h; simpa using this
  · rintro rfl; rfl
theorem euc_pos {n : ℕ} {u : Fin n → ℝ} (h : u ≠ 0) : 0 < euc u :=
  lt_of_le_of_ne (euc_nonneg u) fun e => h ((euc_eq_zero u).mp e.symm)
theorem euc_smul {n : ℕ} (r : ℝ) (u : Fin n → ℝ) : euc (r • u) = |r| * euc u := by
  unfold euc; rw [WithLp.toLp_smul, norm_smul, Real.norm_eq_abs]
theorem euc_add_le {n : ℕ} (u v : Fin n → ℝ) : euc (u + v) ≤ euc u + euc v := by
  unfold euc; rw [WithLp.toLp_add]; exact norm_add_le _ _

theorem dot3 (u v : Fin 3 → ℝ) : u ⬝ᵥ v = u 0 * v 0 + u 1 * v 1 + u 2 * v 2 := by
  simp [dotProduct, Fin.sum_univ_three]

theorem euc_sq {n : ℕ} (u : Fin n → ℝ) : euc u * euc u = u ⬝ᵥ u := by
  rw [euc_eq, Real.mul_self_sqrt]
  · rfl
  · exact Finset.sum_nonneg fun i _ => mul_self_nonneg _

theorem unit_of {u : Fin 3 → ℝ} (hu : u ≠ 0) : ((euc u)⁻¹ • u) ⬝ᵥ ((euc u)⁻¹ • u) = 1 := by
  have h0 : euc u ≠ 0 := fun h => hu ((euc_eq_zero _).mp h)
  rw [smul_dotProduct, dotProduct_smul, ← euc_sq]
  simp only [smul_eq_mul]; field_simp


end Mazth
