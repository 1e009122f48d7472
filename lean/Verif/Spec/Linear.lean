import Verif.Model.Mat
import Verif.Float.Exact
import Mathlib.Data.Matrix.Mul
import Mathlib.LinearAlgebra.Matrix.Trace

/-!
# Specification vocabulary for vectors and matrices

The six vector types and the two matrix types of `/repo/lib/mat.rs` have the same interface. `VecTy` / `MatTy` enumerate
them and forward each operation to the model of that type, so a property is stated once for all types.  What a value *is*
is expressed only through the public element accessors (`Index<usize>`, `index(u64, u64)`): see `Reads`, `ReadsR`.
-/

set_option linter.unusedSectionVars false
set_option autoImplicit false

namespace Mazth

variable {K : Type} [Field K] [LinearOrder K] [Fmt K]

/-- The six vector types. -/
inductive VecTy where
  | mat2x1 | mat1x2 | mat3x1 | mat1x3 | mat4x1 | mat1x4
  deriving DecidableEq, Repr

namespace VecTy

/-- Number of components. -/
abbrev dim : VecTy → ℕ
  | .mat2x1 => 2
  | .mat1x2 => 2
  | .mat3x1 => 3
  | .mat1x3 => 3
  | .mat4x1 => 4
  | .mat1x4 => 4

/-- The Rust type. -/
abbrev Ty : VecTy → Type → Type
  | .mat2x1 => Mat2x1
  | .mat1x2 => Mat1x2
  | .mat3x1 => Mat3x1
  | .mat1x3 => Mat1x3
  | .mat4x1 => Mat4x1
  | .mat1x4 => Mat1x4

/-- The type returned by `transpose`. -/
abbrev flip : VecTy → VecTy
  | .mat2x1 => .mat1x2
  | .mat1x2 => .mat2x1
  | .mat3x1 => .mat1x3
  | .mat1x3 => .mat3x1
  | .mat4x1 => .mat1x4
  | .mat1x4 => .mat4x1

/-- Forwards to the type's `index`. -/
def index {α : Type} : (t : VecTy) → t.Ty α → ℕ → Res α
  | .mat2x1 => Mat2x1.index
  | .mat1x2 => Mat1x2.index
  | .mat3x1 => Mat3x1.index
  | .mat1x3 => Mat1x3.index
  | .mat4x1 => Mat4x1.index
  | .mat1x4 => Mat1x4.index

/-- Forwards to the type's `indexMutSet`. -/
def indexMutSet {α : Type} : (t : VecTy) → t.Ty α → ℕ → α → Res (t.Ty α)
  | .mat2x1 => Mat2x1.indexMutSet
  | .mat1x2 => Mat1x2.indexMutSet
  | .mat3x1 => Mat3x1.indexMutSet
  | .mat1x3 => Mat1x3.indexMutSet
  | .mat4x1 => Mat4x1.indexMutSet
  | .mat1x4 => Mat1x4.indexMutSet

/-- Forwards to the type's `default`. -/
def default : (t : VecTy) → t.Ty (Fl K)
  | .mat2x1 => Mat2x1.default
  | .mat1x2 => Mat1x2.default
  | .mat3x1 => Mat3x1.default
  | .mat1x3 => Mat1x3.default
  | .mat4x1 => Mat4x1.default
  | .mat1x4 => Mat1x4.default

/-- Forwards to the type's `size`. -/
def size {α : Type} : (t : VecTy) → t.Ty α → Option ℕ
  | .mat2x1 => Mat2x1.size
  | .mat1x2 => Mat1x2.size
  | .mat3x1 => Mat3x1.size
  | .mat1x3 => Mat1x3.size
  | .mat4x1 => Mat4x1.size
  | .mat1x4 => Mat1x4.size

/-- Forwards to the type's `mulElem`. -/
def mulElem : (t : VecTy) → t.Ty (Fl K) → t.Ty (Fl K) → Option (t.Ty (Fl K))
  | .mat2x1 => Mat2x1.mulElem
  | .mat1x2 => Mat1x2.mulElem
  | .mat3x1 => Mat3x1.mulElem
  | .mat1x3 => Mat1x3.mulElem
  | .mat4x1 => Mat4x1.mulElem
  | .mat1x4 => Mat1x4.mulElem

/-- Forwards to the type's `div`. -/
def div : (t : VecTy) → t.Ty (Fl K) → t.Ty (Fl K) → Option (t.Ty (Fl K))
  | .mat2x1 => Mat2x1.div
  | .mat1x2 => Mat1x2.div
  | .mat3x1 => Mat3x1.div
  | .mat1x3 => Mat1x3.div
  | .mat4x1 => Mat4x1.div
  | .mat1x4 => Mat1x4.div

/-- Forwards to the type's `plus`. -/
def plus : (t : VecTy) → t.Ty (Fl K) → t.Ty (Fl K) → Option (t.Ty (Fl K))
  | .mat2x1 => Mat2x1.plus
  | .mat1x2 => Mat1x2.plus
  | .mat3x1 => Mat3x1.plus
  | .mat1x3 => Mat1x3.plus
  | .mat4x1 => Mat4x1.plus
  | .mat1x4 => Mat1x4.plus

/-- Forwards to the type's `minus`. -/
def minus : (t : VecTy) → t.Ty (Fl K) → t.Ty (Fl K) → Option (t.Ty (Fl K))
  | .mat2x1 => Mat2x1.minus
  | .mat1x2 => Mat1x2.minus
  | .mat3x1 => Mat3x1.minus
  | .mat1x3 => Mat1x3.minus
  | .mat4x1 => Mat4x1.minus
  | .mat1x4 => Mat1x4.minus

/-- Forwards to the type's `cross`. -/
def cross : (t : VecTy) → t.Ty (Fl K) → t.Ty (Fl K) → Option (t.Ty (Fl K))
  | .mat2x1 => Mat2x1.cross
  | .mat1x2 => Mat1x2.cross
  | .mat3x1 => Mat3x1.cross
  | .mat1x3 => Mat1x3.cross
  | .mat4x1 => Mat4x1.cross
  | .mat1x4 => Mat1x4.cross

/-- Forwards to the type's `dot`. -/
def dot : (t : VecTy) → t.Ty (Fl K) → t.Ty (Fl K) → Option (Fl K)
  | .mat2x1 => Mat2x1.dot
  | .mat1x2 => Mat1x2.dot
  | .mat3x1 => Mat3x1.dot
  | .mat1x3 => Mat1x3.dot
  | .mat4x1 => Mat4x1.dot
  | .mat1x4 => Mat1x4.dot

/-- Forwards to the type's `magnitude`. -/
def magnitude : (t : VecTy) → t.Ty (Fl K) → Option (Fl K)
  | .mat2x1 => Mat2x1.magnitude
  | .mat1x2 => Mat1x2.magnitude
  | .mat3x1 => Mat3x1.magnitude
  | .mat1x3 => Mat1x3.magnitude
  | .mat4x1 => Mat4x1.magnitude
  | .mat1x4 => Mat1x4.magnitude

/-- Forwards to the type's `normalize`. -/
def normalize : (t : VecTy) → t.Ty (Fl K) → Option (t.Ty (Fl K))
  | .mat2x1 => Mat2x1.normalize
  | .mat1x2 => Mat1x2.normalize
  | .mat3x1 => Mat3x1.normalize
  | .mat1x3 => Mat1x3.normalize
  | .mat4x1 => Mat4x1.normalize
  | .mat1x4 => Mat1x4.normalize

/-- Forwards to the type's `scale`. -/
def scale : (t : VecTy) → t.Ty (Fl K) → Fl K → Option (t.Ty (Fl K))
  | .mat2x1 => Mat2x1.scale
  | .mat1x2 => Mat1x2.scale
  | .mat3x1 => Mat3x1.scale
  | .mat1x3 => Mat1x3.scale
  | .mat4x1 => Mat4x1.scale
  | .mat1x4 => Mat1x4.scale

/-- Forwards to the type's `transpose`. -/
def transpose {α : Type} : (t : VecTy) → t.Ty α → t.flip.Ty α
  | .mat2x1 => Mat2x1.transpose
  | .mat1x2 => Mat1x2.transpose
  | .mat3x1 => Mat3x1.transpose
  | .mat1x3 => Mat1x3.transpose
  | .mat4x1 => Mat4x1.transpose
  | .mat1x4 => Mat1x4.transpose

/-- Forwards to the type's `isEqual`. -/
def isEqual : (t : VecTy) → t.Ty (Fl K) → t.Ty (Fl K) → Fl K → Option Bool
  | .mat2x1 => Mat2x1.isEqual
  | .mat1x2 => Mat1x2.isEqual
  | .mat3x1 => Mat3x1.isEqual
  | .mat1x3 => Mat1x3.isEqual
  | .mat4x1 => Mat4x1.isEqual
  | .mat1x4 => Mat1x4.isEqual

/-- `a` holds the components `f`: every in-range read returns the component. -/
def Reads {α : Type} (t : VecTy) (a : t.Ty α) (f : Fin t.dim → α) : Prop := ∀ i : Fin t.dim, t.index a i.val = .ok (f i)

/-- `a` holds finite floats with the real values `r`. -/
def ReadsR (t : VecTy) (a : t.Ty (Fl ℝ)) (r : Fin t.dim → ℝ) : Prop :=
  ∀ i : Fin t.dim, ∃ x, t.index a i.val = .ok x ∧ x.Is (r i)

end VecTy

/-- The two matrix types. -/
inductive MatTy where
  | mat3 | mat4
  deriving DecidableEq, Repr

namespace MatTy

/-- Number of rows and columns. -/
abbrev dim : MatTy → ℕ
  | .mat3 => 3
  | .mat4 => 4

/-- The Rust type. -/
abbrev Ty : MatTy → Type → Type
  | .mat3 => Mat3
  | .mat4 => Mat4

/-- Column vectors that the matrix type multiplies. -/
abbrev col : MatTy → VecTy
  | .mat3 => .mat3x1
  | .mat4 => .mat4x1

/-- Row vectors that multiply the matrix type. -/
abbrev row : MatTy → VecTy
  | .mat3 => .mat1x3
  | .mat4 => .mat1x4

/-- The array type of `init`. -/
abbrev Arr : MatTy → Type → Type
  | .mat3 => fun α => Vector α 9
  | .mat4 => fun α => Vector α 16

/-- Forwards to the type's `isRowMajor`. -/
def isRowMajor {α : Type} : (t : MatTy) → t.Ty α → Bool
  | .mat3 => Mat3.isRowMajor
  | .mat4 => Mat4.isRowMajor

/-- Forwards to the type's `init`. -/
def init {α : Type} : (t : MatTy) → t.Arr α → Bool → t.Ty α
  | .mat3 => Mat3.init
  | .mat4 => Mat4.init

/-- Forwards to the type's `default`. -/
def default : (t : MatTy) → t.Ty (Fl K)
  | .mat3 => Mat3.default
  | .mat4 => Mat4.default

/-- Forwards to the type's `iden`. -/
def iden : (t : MatTy) → t.Ty (Fl K)
  | .mat3 => Mat3.iden
  | .mat4 => Mat4.iden

/-- Forwards to the type's `trace`. -/
def trace : (t : MatTy) → t.Ty (Fl K) → Fl K
  | .mat3 => Mat3.trace
  | .mat4 => Mat4.trace

/-- Forwards to the type's `index`. -/
def index {α : Type} : (t : MatTy) → Bool → t.Ty α → UInt64 → UInt64 → Res α
  | .mat3 => Mat3.index
  | .mat4 => Mat4.index

/-- Forwards to the type's `indexMutSet`. -/
def indexMutSet {α : Type} : (t : MatTy) → Bool → t.Ty α → UInt64 → UInt64 → α → Res (t.Ty α)
  | .mat3 => Mat3.indexMutSet
  | .mat4 => Mat4.indexMutSet

/-- Forwards to the type's `size`. -/
def size {α : Type} : (t : MatTy) → t.Ty α → Option ℕ
  | .mat3 => Mat3.size
  | .mat4 => Mat4.size

/-- Forwards to the type's `mulElem`. -/
def mulElem : (t : MatTy) → t.Ty (Fl K) → t.Ty (Fl K) → Option (t.Ty (Fl K))
  | .mat3 => Mat3.mulElem
  | .mat4 => Mat4.mulElem

/-- Forwards to the type's `div`. -/
def div : (t : MatTy) → t.Ty (Fl K) → t.Ty (Fl K) → Option (t.Ty (Fl K))
  | .mat3 => Mat3.div
  | .mat4 => Mat4.div

/-- Forwards to the type's `plus`. -/
def plus : (t : MatTy) → t.Ty (Fl K) → t.Ty (Fl K) → Option (t.Ty (Fl K))
  | .mat3 => Mat3.plus
  | .mat4 => Mat4.plus

/-- Forwards to the type's `minus`. -/
def minus : (t : MatTy) → t.Ty (Fl K) → t.Ty (Fl K) → Option (t.Ty (Fl K))
  | .mat3 => Mat3.minus
  | .mat4 => Mat4.minus

/-- Forwards to the type's `cross`. -/
def cross : (t : MatTy) → t.Ty (Fl K) → t.Ty (Fl K) → Option (t.Ty (Fl K))
  | .mat3 => Mat3.cross
  | .mat4 => Mat4.cross

/-- Forwards to the type's `dot`. -/
def dot : (t : MatTy) → t.Ty (Fl K) → t.Ty (Fl K) → Option (Fl K)
  | .mat3 => Mat3.dot
  | .mat4 => Mat4.dot

/-- Forwards to the type's `mul`. -/
def mul : (t : MatTy) → t.Ty (Fl K) → t.Ty (Fl K) → Res (Option (t.Ty (Fl K)))
  | .mat3 => Mat3.mul
  | .mat4 => Mat4.mul

/-- Forwards to the type's `magnitude`. -/
def magnitude : (t : MatTy) → t.Ty (Fl K) → Res (Option (Fl K))
  | .mat3 => Mat3.magnitude
  | .mat4 => Mat4.magnitude

/-- Forwards to the type's `normalize`. -/
def normalize : (t : MatTy) → t.Ty (Fl K) → Option (t.Ty (Fl K))
  | .mat3 => Mat3.normalize
  | .mat4 => Mat4.normalize

/-- Forwards to the type's `scale`. -/
def scale : (t : MatTy) → t.Ty (Fl K) → Fl K → Option (t.Ty (Fl K))
  | .mat3 => Mat3.scale
  | .mat4 => Mat4.scale

/-- Forwards to the type's `transpose`. -/
def transpose {α : Type} : (t : MatTy) → t.Ty α → t.Ty α
  | .mat3 => Mat3.transpose
  | .mat4 => Mat4.transpose

/-- Forwards to the type's `transposeSelf`. -/
def transposeSelf {α : Type} : (t : MatTy) → t.Ty α → t.Ty α
  | .mat3 => Mat3.transposeSelf
  | .mat4 => Mat4.transposeSelf

/-- Forwards to the type's `inverse`. -/
def inverse : (t : MatTy) → t.Ty (Fl K) → Option (t.Ty (Fl K))
  | .mat3 => Mat3.inverse
  | .mat4 => Mat4.inverse

/-- Forwards to the type's `isEqual`. -/
def isEqual : (t : MatTy) → t.Ty (Fl K) → t.Ty (Fl K) → Fl K → Option Bool
  | .mat3 => Mat3.isEqual
  | .mat4 => Mat4.isEqual

/-- Matrix times column vector: `Mat3::mul_mat3x1`, `Mat4::mul_mat4x1`. -/
def mulCol : (t : MatTy) → t.Ty (Fl K) → t.col.Ty (Fl K) → Option (t.col.Ty (Fl K))
  | .mat3 => Mat3.mulMat3x1
  | .mat4 => Mat4.mulMat4x1

/-- Row vector times matrix: `Mat1x3::mul_mat3x3`, `Mat1x4::mul_mat4x4`. -/
def rowMul : (t : MatTy) → t.row.Ty (Fl K) → t.Ty (Fl K) → Option (t.row.Ty (Fl K))
  | .mat3 => Mat1x3.mulMat3x3
  | .mat4 => Mat1x4.mulMat4x4

/-- `arr[k]` for the array given to `init`. -/
def arrGet {α : Type} : (t : MatTy) → t.Arr α → (i j : Fin t.dim) → α
  | .mat3 => fun a (i j : Fin 3) => a[3 * i.val + j.val]
  | .mat4 => fun a (i j : Fin 4) => a[4 * i.val + j.val]

/-- `m` holds the logical matrix `A` (row, column), read through the public accessor, in debug and release builds. -/
def Reads {α : Type} (t : MatTy) (m : t.Ty α) (A : Matrix (Fin t.dim) (Fin t.dim) α) : Prop :=
  ∀ (chk : Bool) (i j : Fin t.dim), t.index chk m (UInt64.ofNat i.val) (UInt64.ofNat j.val) = .ok (A i j)

/-- `m` holds finite floats with the real values of `A`. -/
def ReadsR (t : MatTy) (m : t.Ty (Fl ℝ)) (A : Matrix (Fin t.dim) (Fin t.dim) ℝ) : Prop :=
  ∀ (chk : Bool) (i j : Fin t.dim),
    ∃ x, t.index chk m (UInt64.ofNat i.val) (UInt64.ofNat j.val) = .ok x ∧ x.Is (A i j)

theorem col_dim (t : MatTy) : t.col.dim = t.dim := by cases t <;> rfl
theorem row_dim (t : MatTy) : t.row.dim = t.dim := by cases t <;> rfl

/-- The column vector `v` holds the components `f`. -/
def ColReads {α : Type} (t : MatTy) (v : t.col.Ty α) (f : Fin t.dim → α) : Prop :=
  t.col.Reads v fun i => f (i.cast t.col_dim)

/-- The row vector `v` holds the components `f`. -/
def RowReads {α : Type} (t : MatTy) (v : t.row.Ty α) (f : Fin t.dim → α) : Prop :=
  t.row.Reads v fun i => f (i.cast t.row_dim)

/-- The column vector `v` holds the real components `f`. -/
def ColReadsR (t : MatTy) (v : t.col.Ty (Fl ℝ)) (f : Fin t.dim → ℝ) : Prop :=
  t.col.ReadsR v fun i => f (i.cast t.col_dim)

/-- The row vector `v` holds the real components `f`. -/
def RowReadsR (t : MatTy) (v : t.row.Ty (Fl ℝ)) (f : Fin t.dim → ℝ) : Prop :=
  t.row.ReadsR v fun i => f (i.cast t.row_dim)

end MatTy

end Mazth
