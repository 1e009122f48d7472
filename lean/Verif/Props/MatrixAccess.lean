import Verif.Proofs.Samples
import Verif.Proofs.LinearTy

/-!
# C01, C02, C03, C16: construction, element access, transposition, block extraction

All statements here are about data movement and hold for every scalar type (hence bit for bit for `f32`, `f64`).
-/

set_option linter.unusedSectionVars false
set_option autoImplicit false

namespace Mazth

variable {K : Type} [Field K] [LinearOrder K] [Fmt K]

/-! ## C01 -/

/-- C01: `init(arr, row_major).index(i, j) = arr[i*n + j]` whichever flag is passed, and the flag is stored. -/
theorem C01_init {α : Type} (t : MatTy) (arr : t.Arr α) (rowMajor : Bool) :
    t.Reads (t.init arr rowMajor) (t.arrGet arr) ∧ t.isRowMajor (t.init arr rowMajor) = rowMajor := by
  cases t
  · exact ⟨MatTy.reads_iff.mpr fun i j => Mat3.idx_init arr rowMajor i j, by cases rowMajor <;> rfl⟩
  · exact ⟨MatTy.reads_iff.mpr fun i j => Mat4.idx_init arr rowMajor i j, by cases rowMajor <;> rfl⟩

/-- concrete case: a column-major `Mat3` of nine different numbers -/
example := C01_init .mat3 (#v[10, 11, 12, 20, 21, 22, 30, 31, 32] : Vector ℕ 9) false

/-- C01: `default()` is the zero matrix, row-major. -/
theorem C01_default (t : MatTy) :
    t.Reads (t.default : t.Ty (Fl K)) (fun _ _ => 0) ∧ t.isRowMajor (t.default : t.Ty (Fl K)) = true := by
  cases t
  · exact ⟨MatTy.reads_iff.mpr Mat3.idx_default, rfl⟩
  · exact ⟨MatTy.reads_iff.mpr Mat4.idx_default, rfl⟩

/-- concrete case: binary64 -/
example := C01_default (K := Q64) .mat4

/-- C01: `iden()` has ones exactly on the diagonal, row-major. -/
theorem C01_iden (t : MatTy) :
    t.Reads (t.iden : t.Ty (Fl K)) (fun i j => if i = j then 1 else 0) ∧
      t.isRowMajor (t.iden : t.Ty (Fl K)) = true := by
  cases t
  · exact ⟨MatTy.reads_iff.mpr Mat3.idx_iden, by kernel_rfl⟩
  · exact ⟨MatTy.reads_iff.mpr Mat4.idx_iden, by kernel_rfl⟩

/-- concrete case: binary64 -/
example := C01_iden (K := Q64) .mat3

/-- C01: the constructor loses nothing: every logical matrix is reachable in either layout. -/
theorem C01_surjective {α : Type} (t : MatTy) (A : Matrix (Fin t.dim) (Fin t.dim) α) (rowMajor : Bool) :
    ∃ arr, t.Reads (t.init arr rowMajor) A := by
  cases t
  · refine ⟨Vector.ofFn fun k : Fin 9 => A ⟨k / 3, ?_⟩ ⟨k % 3, ?_⟩, ?_⟩
    · show k.val / 3 < 3; omega
    · show k.val % 3 < 3; omega
    · refine MatTy.reads_iff.mpr fun i j => (Mat3.idx_init _ rowMajor i j).trans ?_
      rw [Vector.getElem_ofFn]
      have hi : i.val < 3 := i.isLt
      have hj : j.val < 3 := j.isLt
      congr 1 <;> apply Fin.ext <;> simp only <;> omega
  · refine ⟨Vector.ofFn fun k : Fin 16 => A ⟨k / 4, ?_⟩ ⟨k % 4, ?_⟩, ?_⟩
    · show k.val / 4 < 4; omega
    · show k.val % 4 < 4; omega
    · refine MatTy.reads_iff.mpr fun i j => (Mat4.idx_init _ rowMajor i j).trans ?_
      rw [Vector.getElem_ofFn]
      have hi : i.val < 4 := i.isLt
      have hj : j.val < 4 := j.isLt
      congr 1 <;> apply Fin.ext <;> simp only <;> omega

/-- concrete case: a matrix with a NaN, stored by columns -/
example : ∃ arr, MatTy.Reads .mat3 (Mat3.init arr false) (fun i j => if i = 0 ∧ j = 2 then Fl.nan else .fin (i.val + j.val : ℚ) : Matrix _ _ (Fl Q64)) :=
  C01_surjective .mat3 _ false

example : (Mat3.init #v[10, 11, 12, 20, 21, 22, 30, 31, 32] false).index true 1 2 = .ok 22 := by decide
example : (Mat3.init #v[10, 11, 12, 20, 21, 22, 30, 31, 32] true).index true 1 2 = .ok 22 := by decide

/-! ## C02 -/

/-- C02: write then read, in range: the written entry has the new value, every other entry its old value. -/
theorem C02_set_get {α : Type} (t : MatTy) (m : t.Ty α) (A : Matrix (Fin t.dim) (Fin t.dim) α) (hm : t.Reads m A)
    (chk : Bool) (i j : Fin t.dim) (x : α) :
    ∃ m', t.indexMutSet chk m (UInt64.ofNat i.val) (UInt64.ofNat j.val) x = .ok m' ∧
      t.isRowMajor m' = t.isRowMajor m ∧
      t.Reads m' (fun k l => if i = k ∧ j = l then x else A k l) := by
  cases t
  · refine ⟨_, Mat3.indexMutSet_eq_setIdx chk m i j x, Mat3.setIdx_flag _ _ _ _, MatTy.reads_iff.mpr fun k l => ?_⟩
    rw [← MatTy.reads_iff.mp hm]; exact Mat3.idx_setIdx m i j k l x
  · refine ⟨_, Mat4.indexMutSet_eq_setIdx chk m i j x, Mat4.setIdx_flag _ _ _ _, MatTy.reads_iff.mpr fun k l => ?_⟩
    rw [← MatTy.reads_iff.mp hm]; exact Mat4.idx_setIdx m i j k l x

/-- concrete case: entry (1, 2) of a column-major matrix -/
example := C02_set_get .mat3 (mat3Of (!![10, 11, 12; 20, 21, 22; 30, 31, 32] : Matrix _ _ ℕ) false) _ (mat3Of_reads _ _) true (1 : Fin 3) (2 : Fin 3) 99

/-- The flattened position that an access addresses, as a mathematical integer. -/
def flatSpec (dim : ℕ) (rowMajor : Bool) (m n : UInt64) : ℕ :=
  if rowMajor then m.toNat * dim + n.toNat else n.toNat * dim + m.toNat

/-- The logical entry stored at flattened position `p`. -/
def entryAt {α : Type} {dim : ℕ} (A : Matrix (Fin dim) (Fin dim) α) (rowMajor : Bool) (p : ℕ) (h : p < dim * dim) : α :=
  let hi : Fin dim := ⟨p / dim, Nat.div_lt_of_lt_mul h⟩
  let lo : Fin dim := ⟨p % dim, Nat.mod_lt _ (Nat.pos_of_ne_zero (by rintro rfl; simp at h))⟩
  if rowMajor then A hi lo else A lo hi

theorem flatPos_debug (a k b : UInt64) : flatPos true a k b =
    if 2 ^ 64 ≤ a.toNat * k.toNat + b.toNat then .error .arithmeticOverflow
    else .ok (UInt64.ofNat (a.toNat * k.toNat + b.toNat)) := by
  unfold flatPos
  simp only [Bool.true_and, decide_eq_true_eq]
  split
  · rfl
  · congr 1
    apply UInt64.toNat.inj
    rw [UInt64.toNat_add, UInt64.toNat_mul, UInt64.toNat_ofNat']
    omega

theorem flatPos_release (a k b : UInt64) :
    flatPos false a k b = .ok (UInt64.ofNat (a.toNat * k.toNat + b.toNat)) := by
  unfold flatPos
  simp only [Bool.false_and, Bool.false_eq_true, if_false]
  congr 1
  apply UInt64.toNat.inj
  rw [UInt64.toNat_add, UInt64.toNat_mul, UInt64.toNat_ofNat']
  omega

theorem ofNat_toNat (k : ℕ) : (UInt64.ofNat k).toNat = k % 2 ^ 64 := UInt64.toNat_ofNat' ..

theorem Mat3.index_flat {α : Type} (chk : Bool) (m : Mat3 α) (i j : UInt64) : m.index chk i j =
    if chk = true ∧ 2 ^ 64 ≤ flatSpec 3 m.isRowMajor i j then .error .arithmeticOverflow
    else if h : flatSpec 3 m.isRowMajor i j % 2 ^ 64 < 9 then .ok m.val[flatSpec 3 m.isRowMajor i j % 2 ^ 64]
    else .error .indexOutOfBounds := by
  unfold Mat3.index flatSpec
  cases hf : m.isRowMajor <;> cases chk <;>
    simp only [Bool.false_eq_true, if_false, if_true, false_and, true_and, flatPos_debug, flatPos_release,
      show (3 : UInt64).toNat = 3 from rfl]
  · simp only [Res.ok_bind, ofNat_toNat]
  · split <;> simp only [Res.error_bind, Res.ok_bind, ofNat_toNat]
  · simp only [Res.ok_bind, ofNat_toNat]
  · split <;> simp only [Res.error_bind, Res.ok_bind, ofNat_toNat]

theorem Mat3.indexMutSet_flat {α : Type} (chk : Bool) (m : Mat3 α) (i j : UInt64) (x : α) : m.indexMutSet chk i j x =
    if chk = true ∧ 2 ^ 64 ≤ flatSpec 3 m.isRowMajor i j then .error .arithmeticOverflow
    else if h : flatSpec 3 m.isRowMajor i j % 2 ^ 64 < 9 then
      .ok { m with val := m.val.set (flatSpec 3 m.isRowMajor i j % 2 ^ 64) x }
    else .error .indexOutOfBounds := by
  unfold Mat3.indexMutSet flatSpec
  cases hf : m.isRowMajor <;> cases chk <;>
    simp only [Bool.false_eq_true, if_false, if_true, false_and, true_and, flatPos_debug, flatPos_release,
      show (3 : UInt64).toNat = 3 from rfl]
  · simp only [Res.ok_bind, ofNat_toNat]
  · split <;> simp only [Res.error_bind, Res.ok_bind, ofNat_toNat]
  · simp only [Res.ok_bind, ofNat_toNat]
  · split <;> simp only [Res.error_bind, Res.ok_bind, ofNat_toNat]

theorem Mat3.val_entryAt {α : Type} (m : Mat3 α) (A : Matrix (Fin 3) (Fin 3) α) (hm : ∀ i j, m.idx i j = A i j)
    (p : ℕ) (h : p < 9) : m.val[p] = entryAt A m.isRowMajor p h := by
  unfold entryAt
  have h1 := hm ⟨p / 3, by omega⟩ ⟨p % 3, by omega⟩
  have h2 := hm ⟨p % 3, by omega⟩ ⟨p / 3, by omega⟩
  simp only [Mat3.idx] at h1 h2
  cases hf : m.isRowMajor
  · simp only [Bool.false_eq_true, if_false, hf] at h2 ⊢
    rw [← h2]; congr 1; omega
  · simp only [if_true, hf] at h1 ⊢
    rw [← h1]; congr 1; omega

theorem Mat4.index_flat {α : Type} (chk : Bool) (m : Mat4 α) (i j : UInt64) : m.index chk i j =
    if chk = true ∧ 2 ^ 64 ≤ flatSpec 4 m.isRowMajor i j then .error .arithmeticOverflow
    else if h : flatSpec 4 m.isRowMajor i j % 2 ^ 64 < 16 then .ok m.val[flatSpec 4 m.isRowMajor i j % 2 ^ 64]
    else .error .indexOutOfBounds := by
  unfold Mat4.index flatSpec
  cases hf : m.isRowMajor <;> cases chk <;>
    simp only [Bool.false_eq_true, if_false, if_true, false_and, true_and, flatPos_debug, flatPos_release,
      show (4 : UInt64).toNat = 4 from rfl]
  · simp only [Res.ok_bind, ofNat_toNat]
  · split <;> simp only [Res.error_bind, Res.ok_bind, ofNat_toNat]
  · simp only [Res.ok_bind, ofNat_toNat]
  · split <;> simp only [Res.error_bind, Res.ok_bind, ofNat_toNat]

theorem Mat4.indexMutSet_flat {α : Type} (chk : Bool) (m : Mat4 α) (i j : UInt64) (x : α) : m.indexMutSet chk i j x =
    if chk = true ∧ 2 ^ 64 ≤ flatSpec 4 m.isRowMajor i j then .error .arithmeticOverflow
    else if h : flatSpec 4 m.isRowMajor i j % 2 ^ 64 < 16 then
      .ok { m with val := m.val.set (flatSpec 4 m.isRowMajor i j % 2 ^ 64) x }
    else .error .indexOutOfBounds := by
  unfold Mat4.indexMutSet flatSpec
  cases hf : m.isRowMajor <;> cases chk <;>
    simp only [Bool.false_eq_true, if_false, if_true, false_and, true_and, flatPos_debug, flatPos_release,
      show (4 : UInt64).toNat = 4 from rfl]
  · simp only [Res.ok_bind, ofNat_toNat]
  · split <;> simp only [Res.error_bind, Res.ok_bind, ofNat_toNat]
  · simp only [Res.ok_bind, ofNat_toNat]
  · split <;> simp only [Res.error_bind, Res.ok_bind, ofNat_toNat]

theorem Mat4.val_entryAt {α : Type} (m : Mat4 α) (A : Matrix (Fin 4) (Fin 4) α) (hm : ∀ i j, m.idx i j = A i j)
    (p : ℕ) (h : p < 16) : m.val[p] = entryAt A m.isRowMajor p h := by
  unfold entryAt
  have h1 := hm ⟨p / 4, by omega⟩ ⟨p % 4, by omega⟩
  have h2 := hm ⟨p % 4, by omega⟩ ⟨p / 4, by omega⟩
  simp only [Mat4.idx] at h1 h2
  cases hf : m.isRowMajor
  · simp only [Bool.false_eq_true, if_false, hf] at h2 ⊢
    rw [← h2]; congr 1; omega
  · simp only [if_true, hf] at h1 ⊢
    rw [← h1]; congr 1; omega

/-- C02: complete description of `index(i, j)` for arbitrary `u64` arguments, in debug (`chk = true`) and release
builds: it panics exactly when the flattened position is outside the array (debug: or does not fit in 64 bits), and
otherwise returns the entry stored at that position. -/
theorem C02_index {α : Type} (t : MatTy) (m : t.Ty α) (A : Matrix (Fin t.dim) (Fin t.dim) α) (hm : t.Reads m A)
    (chk : Bool) (i j : UInt64) : t.index chk m i j =
      if chk = true ∧ 2 ^ 64 ≤ flatSpec t.dim (t.isRowMajor m) i j then .error .arithmeticOverflow
      else if h : flatSpec t.dim (t.isRowMajor m) i j % 2 ^ 64 < t.dim * t.dim then
        .ok (entryAt A (t.isRowMajor m) _ h)
      else .error .indexOutOfBounds := by
  rw [MatTy.reads_iff] at hm
  cases t
  · refine (Mat3.index_flat chk m i j).trans ?_
    simp only [Mat3.val_entryAt m A hm]; rfl
  · refine (Mat4.index_flat chk m i j).trans ?_
    simp only [Mat4.val_entryAt m A hm]; rfl

/-- concrete case: column 5 of row 0 does not exist, the accessor returns entry (1, 2) -/
example : (mat3Of (!![10, 11, 12; 20, 21, 22; 30, 31, 32] : Matrix _ _ ℕ) true).index true 0 5 = .ok 22 :=
  (C02_index .mat3 _ _ (mat3Of_reads (!![10, 11, 12; 20, 21, 22; 30, 31, 32] : Matrix _ _ ℕ) true) true 0 5).trans (by decide)

/-- C02: `index_mut` panics in exactly the same cases, with the same panic, as `index`. -/
theorem C02_indexMut_panics {α : Type} (t : MatTy) (m : t.Ty α) (chk : Bool) (i j : UInt64) (x : α) (p : Panic) :
    t.indexMutSet chk m i j x = .error p ↔ t.index chk m i j = .error p := by
  cases t
  · show m.indexMutSet chk i j x = _ ↔ m.index chk i j = _
    rw [Mat3.indexMutSet_flat, Mat3.index_flat]
    split
    · simp
    · split <;> simp
  · show m.indexMutSet chk i j x = _ ↔ m.index chk i j = _
    rw [Mat4.indexMutSet_flat, Mat4.index_flat]
    split
    · simp
    · split <;> simp

/-- concrete case: row 3 -/
example : (mat3Of (!![10, 11, 12; 20, 21, 22; 30, 31, 32] : Matrix _ _ ℕ) true).indexMutSet true 3 0 7 = .error .indexOutOfBounds :=
  (C02_indexMut_panics .mat3 (mat3Of (!![10, 11, 12; 20, 21, 22; 30, 31, 32] : Matrix _ _ ℕ) true) true 3 0 7
    .indexOutOfBounds).mpr (by decide)

/-- C02: a successful write through any pair of `u64` arguments is seen by a read through the same arguments. -/
theorem C02_set_get_any {α : Type} (t : MatTy) (m m' : t.Ty α) (chk : Bool) (i j : UInt64) (x : α)
    (h : t.indexMutSet chk m i j x = .ok m') : t.index chk m' i j = .ok x := by
  cases t
  · change m.indexMutSet chk i j x = _ at h
    show m'.index chk i j = _
    rw [Mat3.indexMutSet_flat] at h
    split at h
    · simp at h
    · split at h
      · obtain rfl := Except.ok.inj h
        rw [Mat3.index_flat, if_neg ‹_›, dif_pos ‹_›]; simp
      · simp at h
  · change m.indexMutSet chk i j x = _ at h
    show m'.index chk i j = _
    rw [Mat4.indexMutSet_flat] at h
    split at h
    · simp at h
    · split at h
      · obtain rfl := Except.ok.inj h
        rw [Mat4.index_flat, if_neg ‹_›, dif_pos ‹_›]; simp
      · simp at h

/-- concrete case: writing through the non-existent column 5 of row 0 -/
example := C02_set_get_any .mat3 (mat3Of (!![10, 11, 12; 20, 21, 22; 30, 31, 32] : Matrix _ _ ℕ) true) _ true 0 5 7 rfl

/-- C02: an out-of-range column whose flattened position is in range is not rejected: `index(i, j)` with
`j ≥ n` silently reads another entry (row-major; the column-major case swaps the roles). -/
theorem C02_column_not_checked {α : Type} (t : MatTy) (m : t.Ty α) (h : t.isRowMajor m = true) (chk : Bool)
    (i j : UInt64) (hp : i.toNat * t.dim + j.toNat < t.dim * t.dim) : ∃ x, t.index chk m i j = .ok x := by
  have hd : t.dim * t.dim < 2 ^ 64 := by cases t <;> decide
  rw [C02_index t m _ (MatTy.reads_self m), h]
  have e : flatSpec t.dim true i j = i.toNat * t.dim + j.toNat := rfl
  rw [if_neg (by rw [e]; omega), dif_pos (by rw [e, Nat.mod_eq_of_lt (by omega)]; exact hp)]
  exact ⟨_, rfl⟩

/-- concrete case -/
example := C02_column_not_checked .mat3 (mat3Of (!![10, 11, 12; 20, 21, 22; 30, 31, 32] : Matrix _ _ ℕ) true) rfl true 0 8 (by decide)

/-- reading (0, 5) of a 3x3 matrix returns entry (1, 2); (3, 0) panics; a huge row index overflows in debug builds but wraps
in release builds. -/
example : (Mat3.init #v[10, 11, 12, 20, 21, 22, 30, 31, 32] true).index true 0 5 = .ok 22 := by decide
example : (Mat3.init #v[10, 11, 12, 20, 21, 22, 30, 31, 32] true).index true 3 0 = .error .indexOutOfBounds := by decide
example : (Mat3.init #v[10, 11, 12, 20, 21, 22, 30, 31, 32] true).index true 12297829382473034411 0 =
    .error .arithmeticOverflow := by decide
example : (Mat3.init #v[10, 11, 12, 20, 21, 22, 30, 31, 32] true).index false 12297829382473034411 0 = .ok 11 := by
  decide

/-- C02 for vectors: `index(i)` returns the component for `i < n` and panics otherwise. -/
theorem C02_vec_index {α : Type} (t : VecTy) (v : t.Ty α) (f : Fin t.dim → α) (hv : t.Reads v f) (i : ℕ) :
    t.index v i = if h : i < t.dim then .ok (f ⟨i, h⟩) else .error .indexOutOfBounds := by
  rw [VecTy.index_eq]; simp only [VecTy.reads_iff.mp hv]

/-- concrete case: component 2, and component 3, which does not exist -/
example : tame3.index 2 = .ok (.fin (1 / 1024 : ℚ)) ∧ tame3.index 3 = .error .indexOutOfBounds :=
  ⟨C02_vec_index .mat3x1 _ _ tame3_reads 2, C02_vec_index .mat3x1 _ _ tame3_reads 3⟩

/-- C02 for vectors: a store changes exactly the addressed component; out of range it panics. -/
theorem C02_vec_set_get {α : Type} (t : VecTy) (v : t.Ty α) (f : Fin t.dim → α) (hv : t.Reads v f) (x : α) :
    (∀ i : Fin t.dim, ∃ v', t.indexMutSet v i.val x = .ok v' ∧ t.Reads v' (fun k => if i = k then x else f k)) ∧
      ∀ i, t.dim ≤ i → t.indexMutSet v i x = .error .indexOutOfBounds := by
  rw [VecTy.reads_iff] at hv
  constructor
  · intro i
    simp only [VecTy.reads_iff]
    cases t <;> refine ⟨_, dif_pos i.isLt, fun k => ?_⟩ <;> rw [← hv k] <;>
      exact (Vector.getElem_set i.isLt _).trans (if_congr Fin.ext_iff.symm rfl rfl)
  · intro i hi
    cases t <;> exact dif_neg (not_lt.mpr hi)

/-- concrete case -/
example := C02_vec_set_get .mat3x1 _ _ tame3_reads .nan

/-! ## C03 -/

/-- C03: `transpose().index(i, j)` is the original `index(j, i)`, in both layouts; the layout flag is kept. -/
theorem C03_transpose {α : Type} (t : MatTy) (m : t.Ty α) (A : Matrix (Fin t.dim) (Fin t.dim) α) (hm : t.Reads m A) :
    t.Reads (t.transpose m) A.transpose ∧ t.isRowMajor (t.transpose m) = t.isRowMajor m := by
  refine ⟨MatTy.reads_iff.mpr fun i j => ?_, MatTy.transpose_flag t m⟩
  rw [MatTy.idx_transpose, MatTy.reads_iff.mp hm]; rfl

/-- concrete case: column-major -/
example := C03_transpose .mat3 _ _ (mat3Of_reads (!![10, 11, 12; 20, 21, 22; 30, 31, 32] : Matrix _ _ ℕ) false)

/-- C03: transposing twice gives back the identical value. -/
theorem C03_involution {α : Type} (t : MatTy) (m : t.Ty α) : t.transpose (t.transpose m) = m :=
  MatTy.ext_idx (by rw [MatTy.transpose_flag, MatTy.transpose_flag])
    fun i j => by rw [MatTy.idx_transpose, MatTy.idx_transpose]

/-- concrete case -/
example := C03_involution .mat3 (mat3Of (!![10, 11, 12; 20, 21, 22; 30, 31, 32] : Matrix _ _ ℕ) false)

/-- C03: `transpose_self` does in place what `transpose` returns. -/
theorem C03_transposeSelf {α : Type} (t : MatTy) (m : t.Ty α) : t.transposeSelf m = t.transpose m :=
  MatTy.transposeSelf_eq t m

/-- concrete case -/
example := C03_transposeSelf .mat3 (mat3Of (!![10, 11, 12; 20, 21, 22; 30, 31, 32] : Matrix _ _ ℕ) false)

/-- C03: a matrix equals its transpose exactly when it is symmetric. -/
theorem C03_symmetric {α : Type} (t : MatTy) (m : t.Ty α) (A : Matrix (Fin t.dim) (Fin t.dim) α) (hm : t.Reads m A) :
    t.transpose m = m ↔ A.transpose = A := by
  constructor
  · intro h
    exact MatTy.reads_unique (C03_transpose t m A hm).1 (by rw [h]; exact hm)
  · intro h
    refine MatTy.ext_idx (MatTy.transpose_flag t m) fun i j => ?_
    rw [MatTy.reads_iff.mp (C03_transpose t m A hm).1, MatTy.reads_iff.mp hm, h]

/-- concrete case: a symmetric matrix and one that is not -/
example : (mat3Of (!![1, 2, 3; 2, 4, 5; 3, 5, 6] : Matrix _ _ ℕ) false).transpose = mat3Of !![1, 2, 3; 2, 4, 5; 3, 5, 6] false ∧
    (mat3Of (!![1, 2, 3; 0, 4, 5; 0, 0, 6] : Matrix _ _ ℕ) false).transpose ≠ mat3Of !![1, 2, 3; 0, 4, 5; 0, 0, 6] false :=
  ⟨(C03_symmetric .mat3 _ _ (mat3Of_reads _ false)).mpr (by decide), fun h => absurd ((C03_symmetric .mat3 _ _ (mat3Of_reads _ false)).mp h) (by decide)⟩

/-- C03 for vectors: transposing keeps the components. -/
theorem C03_vec_transpose {α : Type} (t : VecTy) (v : t.Ty α) (f : Fin t.dim → α) (hv : t.Reads v f) :
    t.flip.Reads (t.transpose v) (fun i => f (i.cast (by cases t <;> rfl))) := by
  rw [VecTy.reads_iff] at *
  intro i; rw [← hv]
  cases t <;> rfl

/-- concrete case -/
example := C03_vec_transpose .mat3x1 _ _ tame3_reads

/-- C03 for vectors: row and column vectors round-trip. -/
theorem C03_vec_involution {α : Type} (t : VecTy) (v : t.Ty α) : HEq (t.flip.transpose (t.transpose v)) v := by
  cases t <;> rfl

/-- concrete case -/
example : tame3.transpose.transpose = tame3 := eq_of_heq (C03_vec_involution .mat3x1 tame3)

example : (Mat4.init #v[0, 1, 2, 3, 4, 5, 6, 7, 8, 9, 10, 11, 12, 13, 14, 15] false).transpose.index true 1 3 =
    .ok 13 := by decide +kernel
example : (Mat4.init #v[0, 1, 2, 3, 4, 5, 6, 7, 8, 9, 10, 11, 12, 13, 14, 15] true).transpose.index true 1 3 =
    .ok 13 := by decide +kernel

/-! ## C16 -/

/-- C16: `submat_mat3` is the upper left block, and keeps the layout. -/
theorem C16_submat {α : Type} (m : Mat4 α) (A : Matrix (Fin 4) (Fin 4) α) (hm : MatTy.Reads .mat4 m A) :
    MatTy.Reads .mat3 m.submatMat3 (A.submatrix Fin.castSucc Fin.castSucc) ∧
      m.submatMat3.isRowMajor = m.isRowMajor := by
  refine ⟨MatTy.reads_iff.mpr fun i j => ?_, rfl⟩
  exact (Mat4.submatMat3_idx m i j).trans (MatTy.reads_iff.mp hm _ _)

/-- concrete case: column-major -/
example := C16_submat _ _ (mat4Of_reads (!![0, 1, 2, 3; 4, 5, 6, 7; 8, 9, 10, 11; 12, 13, 14, 15] : Matrix _ _ ℕ) false)

example : (Mat4.init #v[0, 1, 2, 3, 4, 5, 6, 7, 8, 9, 10, 11, 12, 13, 14, 15] false).submatMat3.index true 1 2 =
    .ok 6 := by decide

end Mazth
