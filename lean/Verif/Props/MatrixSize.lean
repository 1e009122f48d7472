import Verif.Props.MatrixAccess
import Verif.Model.Quat
import Verif.Float.Binary

/-!
# C02, C10, C57: the size and the magnitude of a matrix, the parts of a dual quaternion
-/

set_option linter.unusedSectionVars false
set_option autoImplicit false

namespace Mazth

/-- C02: `size` counts what can be accessed.  Walking along the first row of a row-major matrix, or down the first column of a
column-major one, the accesses that do not panic are exactly those at a distance less than `size`, which is the number of pairs
of a row and a column; in debug and release builds. -/
theorem C02_size {α : Type} (t : MatTy) (m : t.Ty α) (chk : Bool) :
    ∃ n, t.size m = some n ∧ n = Fintype.card (Fin t.dim × Fin t.dim) ∧
      (t.isRowMajor m = true → ∀ j : UInt64, (∃ x, t.index chk m 0 j = .ok x) ↔ j.toNat < n) ∧
      (t.isRowMajor m = false → ∀ i : UInt64, (∃ x, t.index chk m i 0 = .ok x) ↔ i.toNat < n) := by
  have hb (j : UInt64) : j.toNat < 2 ^ 64 := j.toNat_lt
  have key (t : MatTy) (m : t.Ty α) (i j : UInt64) (b : UInt64) (hf : flatSpec t.dim (t.isRowMajor m) i j = b.toNat) :
      (∃ x, t.index chk m i j = .ok x) ↔ b.toNat < t.dim * t.dim := by
    obtain ⟨A, hA⟩ : ∃ A, t.Reads m A := ⟨_, t.reads_self m⟩
    rw [C02_index t m A hA, hf, if_neg (fun h => absurd h.2 (not_le.mpr (hb b)))]
    constructor
    · rintro ⟨x, hx⟩
      by_contra h
      rw [dif_neg (by rwa [Nat.mod_eq_of_lt (hb b)])] at hx
      cases hx
    · intro h
      exact ⟨_, dif_pos (by rwa [Nat.mod_eq_of_lt (hb b)])⟩
  refine ⟨t.dim * t.dim, ?_, by simp, fun hr j => key t m _ _ j ?_, fun hr i => key t m _ _ i ?_⟩
  · cases t <;> rfl
  · simp [flatSpec, hr]
  · simp [flatSpec, hr]

/-- concrete case: eight columns beyond the first of the first row of a 3x3 matrix answer, the ninth panics -/
example : (∃ x, (mat3Of (!![10, 11, 12; 20, 21, 22; 30, 31, 32] : Matrix _ _ ℕ) true).index true 0 8 = .ok x) ∧
    ¬ ∃ x, (mat3Of (!![10, 11, 12; 20, 21, 22; 30, 31, 32] : Matrix _ _ ℕ) true).index true 0 9 = .ok x := by
  obtain ⟨n, -, hn, h, -⟩ := C02_size .mat3 (mat3Of (!![10, 11, 12; 20, 21, 22; 30, 31, 32] : Matrix _ _ ℕ) true) true
  have h9 : n = 9 := hn.trans (by decide)
  subst h9
  exact ⟨(h rfl 8).mpr (by decide), fun e => absurd ((h rfl 9).mp e) (by decide)⟩

/-- C10: a matrix has no magnitude: the call panics for every matrix, of both types, in every format. -/
theorem C10_matrix {K : Type} [Field K] [LinearOrder K] [Fmt K] (t : MatTy) (m : t.Ty (Fl K)) :
    ¬ ∃ r, t.magnitude m = .ok r := by
  rintro ⟨r, h⟩
  cases t <;> cases h

/-- concrete case: the identity -/
example := C10_matrix (K := Q64) .mat4 (MatTy.iden .mat4)

/-- C57: a dual quaternion keeps the two quaternions it is made from, the first as its rotation, and nothing else. -/
theorem C57_dual {α : Type} (d : DualQuat α) (r t : Quat α) : DualQuat.init r t = d ↔ d.rot = r ∧ d.tra = t := by
  constructor
  · rintro rfl; exact ⟨rfl, rfl⟩
  · rintro ⟨rfl, rfl⟩; rfl

/-- concrete case: exchanging the two parts gives another dual quaternion -/
example : DualQuat.init (⟨1, 2, 3, 4⟩ : Quat ℕ) ⟨5, 6, 7, 8⟩ ≠ DualQuat.init ⟨5, 6, 7, 8⟩ ⟨1, 2, 3, 4⟩ := fun h =>
  absurd ((C57_dual _ _ _).mp h).1 (by decide)

end Mazth
