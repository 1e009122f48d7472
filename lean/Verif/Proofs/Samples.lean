import Verif.Proofs.LinearTy
import Verif.Float.BinaryLawful

/-!
# Concrete data for the examples beside the theorems

Vectors and matrices with given entries, over the reals and over binary64; each comes with the fact that it reads back its entries.
-/

set_option linter.unusedSectionVars false
set_option autoImplicit false

namespace Mazth

/-- a real vector stored as a `Mat3x1` -/
noncomputable def vec3R (x y z : ℝ) : Mat3x1 (Fl ℝ) := ⟨#v[.fin x, .fin y, .fin z]⟩

theorem vec3R_reads (x y z : ℝ) : VecTy.ReadsR .mat3x1 (vec3R x y z) ![x, y, z] := by
  rw [VecTy.readsR_iff]; intro i; fin_cases i <;> rfl

/-- a real vector stored as a `Mat1x2` -/
noncomputable def row2R (x y : ℝ) : Mat1x2 (Fl ℝ) := ⟨#v[.fin x, .fin y]⟩

theorem row2R_reads (x y : ℝ) : VecTy.ReadsR .mat1x2 (row2R x y) ![x, y] := by
  rw [VecTy.readsR_iff]; intro i; fin_cases i <;> rfl

/-- a `Mat3` holding `A`, in the given storage order -/
def mat3Of {α : Type} (A : Matrix (Fin 3) (Fin 3) α) : Bool → Mat3 α
  | true => ⟨#v[A 0 0, A 0 1, A 0 2, A 1 0, A 1 1, A 1 2, A 2 0, A 2 1, A 2 2], true⟩
  | false => ⟨#v[A 0 0, A 1 0, A 2 0, A 0 1, A 1 1, A 2 1, A 0 2, A 1 2, A 2 2], false⟩

/-- a `Mat4` holding `A`, in the given storage order -/
def mat4Of {α : Type} (A : Matrix (Fin 4) (Fin 4) α) : Bool → Mat4 α
  | true => ⟨#v[A 0 0, A 0 1, A 0 2, A 0 3, A 1 0, A 1 1, A 1 2, A 1 3, A 2 0, A 2 1, A 2 2, A 2 3, A 3 0, A 3 1, A 3 2, A 3 3], true⟩
  | false => ⟨#v[A 0 0, A 1 0, A 2 0, A 3 0, A 0 1, A 1 1, A 2 1, A 3 1, A 0 2, A 1 2, A 2 2, A 3 2, A 0 3, A 1 3, A 2 3, A 3 3], false⟩

theorem mat3Of_reads {α : Type} (A : Matrix (Fin 3) (Fin 3) α) (r : Bool) : MatTy.Reads .mat3 (mat3Of A r) A := by
  rw [MatTy.reads_iff]
  show ∀ i j : Fin 3, _
  intro i j
  cases r <;> fin_cases i <;> fin_cases j <;> rfl

theorem mat4Of_reads {α : Type} (A : Matrix (Fin 4) (Fin 4) α) (r : Bool) : MatTy.Reads .mat4 (mat4Of A r) A := by
  rw [MatTy.reads_iff]
  show ∀ i j : Fin 4, _
  intro i j
  cases r <;> fin_cases i <;> fin_cases j <;> rfl

theorem mat3Of_flag {α : Type} (A : Matrix (Fin 3) (Fin 3) α) (r : Bool) : (mat3Of A r).isRowMajor = r := by cases r <;> rfl

theorem mat4Of_flag {α : Type} (A : Matrix (Fin 4) (Fin 4) α) (r : Bool) : (mat4Of A r).isRowMajor = r := by cases r <;> rfl

/-- a real matrix stored as a `Mat3` -/
noncomputable def mat3R (A : Matrix (Fin 3) (Fin 3) ℝ) (r : Bool) : Mat3 (Fl ℝ) := mat3Of (A.map .fin) r

/-- a real matrix stored as a `Mat4` -/
noncomputable def mat4R (A : Matrix (Fin 4) (Fin 4) ℝ) (r : Bool) : Mat4 (Fl ℝ) := mat4Of (A.map .fin) r

theorem mat3R_flag (A : Matrix (Fin 3) (Fin 3) ℝ) (r : Bool) : MatTy.isRowMajor .mat3 (mat3R A r) = r := mat3Of_flag _ r

theorem mat4R_flag (A : Matrix (Fin 4) (Fin 4) ℝ) (r : Bool) : MatTy.isRowMajor .mat4 (mat4R A r) = r := mat4Of_flag _ r

theorem mat3R_flags (A B : Matrix (Fin 3) (Fin 3) ℝ) (r : Bool) :
    MatTy.isRowMajor .mat3 (mat3R A r) = MatTy.isRowMajor .mat3 (mat3R B r) := (mat3R_flag A r).trans (mat3R_flag B r).symm

theorem mat4R_flags (A B : Matrix (Fin 4) (Fin 4) ℝ) (r : Bool) :
    MatTy.isRowMajor .mat4 (mat4R A r) = MatTy.isRowMajor .mat4 (mat4R B r) := (mat4R_flag A r).trans (mat4R_flag B r).symm

theorem mat3R_flags_ne (A B : Matrix (Fin 3) (Fin 3) ℝ) :
    MatTy.isRowMajor .mat3 (mat3R A true) ≠ MatTy.isRowMajor .mat3 (mat3R B false) := by
  rw [mat3R_flag, mat3R_flag]; simp

theorem mat4R_flags_ne (A B : Matrix (Fin 4) (Fin 4) ℝ) :
    MatTy.isRowMajor .mat4 (mat4R A true) ≠ MatTy.isRowMajor .mat4 (mat4R B false) := by
  rw [mat4R_flag, mat4R_flag]; simp

theorem mat3R_reads (A : Matrix (Fin 3) (Fin 3) ℝ) (r : Bool) : MatTy.ReadsR .mat3 (mat3R A r) A := by
  rw [MatTy.readsR_iff]
  intro i j
  have h := MatTy.reads_iff.mp (mat3Of_reads (A.map (Fl.fin : ℝ → Fl ℝ)) r) i j
  exact (congrArg (fun x : Fl ℝ => x.Is (A i j)) h).mpr (Fl.is_fin _)

theorem mat4R_reads (A : Matrix (Fin 4) (Fin 4) ℝ) (r : Bool) : MatTy.ReadsR .mat4 (mat4R A r) A := by
  rw [MatTy.readsR_iff]
  intro i j
  have h := MatTy.reads_iff.mp (mat4Of_reads (A.map (Fl.fin : ℝ → Fl ℝ)) r) i j
  exact (congrArg (fun x : Fl ℝ => x.Is (A i j)) h).mpr (Fl.is_fin _)

/-- `1 2 3 / 4 5 6 / 7 8 10` -/
def smp3 : Matrix (Fin 3) (Fin 3) ℝ := !![1, 2, 3; 4, 5, 6; 7, 8, 10]

/-- `2 0 1 / 1 3 0 / 0 1 4` -/
def smp3' : Matrix (Fin 3) (Fin 3) ℝ := !![2, 0, 1; 1, 3, 0; 0, 1, 4]

/-- a shear followed by a translation -/
def smp4 : Matrix (Fin 4) (Fin 4) ℝ := !![1, 2, 0, 5; 0, 1, 3, 6; 0, 0, 1, 7; 0, 0, 0, 2]

/-- another affine matrix -/
def smp4' : Matrix (Fin 4) (Fin 4) ℝ := !![0, 1, 0, 1; 1, 0, 0, 2; 0, 0, 3, 3; 0, 0, 0, 4]

/-- a binary64 vector with a subnormal, an infinite and a NaN component -/
def wild3 : Mat3x1 (Fl Q64) := ⟨#v[.fin ((2 : ℚ) ^ (-1074 : ℤ)), .inf true, .nan]⟩

/-- a binary64 vector with components `3/2`, `-0`, `2^-10` -/
def tame3 : Mat3x1 (Fl Q64) := ⟨#v[.fin (3 / 2 : ℚ), .nzero, .fin (1 / 1024 : ℚ)]⟩

/-- the components of `tame3` -/
def tameF : Fin 3 → Fl Q64 := ![.fin (3 / 2 : ℚ), .nzero, .fin (1 / 1024 : ℚ)]

theorem tame3_reads : VecTy.Reads .mat3x1 tame3 tameF := by
  rw [VecTy.reads_iff]; intro i; fin_cases i <;> rfl

theorem tameF_good (i : Fin 3) : (tameF i).Finite ∧ (tameF i).WF := by
  fin_cases i
  · exact ⟨Fl.finite_fin _, .inr (by decide +kernel)⟩
  · exact ⟨Fl.finite_nzero, trivial⟩
  · exact ⟨Fl.finite_fin _, .inr (by decide +kernel)⟩

/-- a binary64 matrix with rows `tameF` -/
def tameM : Matrix (Fin 3) (Fin 3) (Fl Q64) := fun i j => tameF (i + j)

/-- a binary64 matrix with subnormal, infinite and NaN entries -/
def wildM : Matrix (Fin 3) (Fin 3) (Fl Q64) := fun i j => if i = j then .nan else if i < j then .fin (3 / 1024 : ℚ) else .inf true

theorem tameM_good (i j : Fin 3) : (tameM i j).Finite ∧ (tameM i j).WF := tameF_good _

end Mazth
