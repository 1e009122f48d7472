import Verif.Spec.Linear
import Verif.Proofs.Tactic
import Mathlib.Tactic.FinCases
import Mathlib.Tactic.IntervalCases

/-! Helper lemmas: destructuring of fixed-size arrays, logical entries (`idx`) of every matrix operation. -/

set_option linter.unusedSectionVars false
set_option autoImplicit false

namespace Mazth

variable {K : Type} [Field K] [LinearOrder K] [Fmt K]

theorem vec2_cases {α : Type} (v : Vector α 2) : ∃ a b, v = #v[a, b] :=
  ⟨v[0], v[1], by ext i hi; interval_cases i <;> rfl⟩
theorem vec3_cases {α : Type} (v : Vector α 3) : ∃ a b c, v = #v[a, b, c] :=
  ⟨v[0], v[1], v[2], by ext i hi; interval_cases i <;> rfl⟩
theorem vec4_cases {α : Type} (v : Vector α 4) : ∃ a b c d, v = #v[a, b, c, d] :=
  ⟨v[0], v[1], v[2], v[3], by ext i hi; interval_cases i <;> rfl⟩
theorem vec9_cases {α : Type} (v : Vector α 9) :
    ∃ a b c d e f g h i, v = #v[a, b, c, d, e, f, g, h, i] :=
  ⟨v[0], v[1], v[2], v[3], v[4], v[5], v[6], v[7], v[8], by ext i hi; interval_cases i <;> rfl⟩
theorem vec16_cases {α : Type} (v : Vector α 16) :
    ∃ a0 a1 a2 a3 a4 a5 a6 a7 a8 a9 a10 a11 a12 a13 a14 a15,
      v = #v[a0, a1, a2, a3, a4, a5, a6, a7, a8, a9, a10, a11, a12, a13, a14, a15] :=
  ⟨v[0], v[1], v[2], v[3], v[4], v[5], v[6], v[7], v[8], v[9], v[10], v[11], v[12], v[13], v[14], v[15],
    by ext i hi; interval_cases i <;> rfl⟩

/-- the value inside a successful result -/
def okVal {α : Type} (d : α) : Res (Option α) → α
  | .ok (some m) => m
  | _ => d

/-- the value inside a `some` -/
def someVal {α : Type} (d : α) : Option α → α
  | some m => m
  | none => d

namespace Mat3

theorem index_eq_idx {α : Type} (chk : Bool) (a : Mat3 α) (i j : Fin 3) :
    a.index chk (UInt64.ofNat i.val) (UInt64.ofNat j.val) = .ok (a.idx i j) := by
  obtain ⟨va, fa⟩ := a
  obtain ⟨a0, a1, a2, a3, a4, a5, a6, a7, a8, rfl⟩ := vec9_cases va
  cases chk <;> cases fa <;> fin_cases i <;> fin_cases j <;> kernel_rfl

theorem indexMutSet_eq_setIdx {α : Type} (chk : Bool) (a : Mat3 α) (i j : Fin 3) (x : α) :
    a.indexMutSet chk (UInt64.ofNat i.val) (UInt64.ofNat j.val) x = .ok (a.setIdx i j x) := by
  obtain ⟨va, fa⟩ := a
  obtain ⟨a0, a1, a2, a3, a4, a5, a6, a7, a8, rfl⟩ := vec9_cases va
  cases chk <;> cases fa <;> fin_cases i <;> fin_cases j <;> kernel_rfl

theorem idx_setIdx {α : Type} (a : Mat3 α) (i j k l : Fin 3) (x : α) :
    (a.setIdx i j x).idx k l = if i = k ∧ j = l then x else a.idx k l := by
  unfold setIdx idx
  cases a.isRowMajor <;> simp only [Bool.false_eq_true, if_false, if_true, Vector.getElem_set] <;>
    refine if_congr ?_ rfl rfl <;> simp only [Fin.ext_iff] <;> omega

@[simp] theorem setIdx_flag {α : Type} (a : Mat3 α) (i j : Fin 3) (x : α) :
    (a.setIdx i j x).isRowMajor = a.isRowMajor := by
  unfold setIdx; split <;> rfl

theorem ext_idx {α : Type} {a b : Mat3 α} (h : a.isRowMajor = b.isRowMajor) (h' : ∀ i j, a.idx i j = b.idx i j) :
    a = b := by
  obtain ⟨va, fa⟩ := a
  obtain ⟨a0, a1, a2, a3, a4, a5, a6, a7, a8, rfl⟩ := vec9_cases va
  obtain ⟨vb, fb⟩ := b
  obtain ⟨b0, b1, b2, b3, b4, b5, b6, b7, b8, rfl⟩ := vec9_cases vb
  have h0 := h' 0 0
  have h1 := h' 0 1
  have h2 := h' 0 2
  have h3 := h' 1 0
  have h4 := h' 1 1
  have h5 := h' 1 2
  have h6 := h' 2 0
  have h7 := h' 2 1
  have h8 := h' 2 2
  simp only at h; subst h
  cases fa
  · replace h0 : a0 = b0 := h0
    replace h1 : a3 = b3 := h1
    replace h2 : a6 = b6 := h2
    replace h3 : a1 = b1 := h3
    replace h4 : a4 = b4 := h4
    replace h5 : a7 = b7 := h5
    replace h6 : a2 = b2 := h6
    replace h7 : a5 = b5 := h7
    replace h8 : a8 = b8 := h8
    subst h0 h1 h2 h3 h4 h5 h6 h7 h8; rfl
  · replace h0 : a0 = b0 := h0
    replace h1 : a1 = b1 := h1
    replace h2 : a2 = b2 := h2
    replace h3 : a3 = b3 := h3
    replace h4 : a4 = b4 := h4
    replace h5 : a5 = b5 := h5
    replace h6 : a6 = b6 := h6
    replace h7 : a7 = b7 := h7
    replace h8 : a8 = b8 := h8
    subst h0 h1 h2 h3 h4 h5 h6 h7 h8; rfl

@[simp] theorem transpose_flag {α : Type} (a : Mat3 α) : a.transpose.isRowMajor = a.isRowMajor := by kernel_rfl
@[simp] theorem transposeSelf_flag {α : Type} (a : Mat3 α) : a.transposeSelf.isRowMajor = a.isRowMajor := by kernel_rfl

theorem idx_transpose {α : Type} (a : Mat3 α) (i j : Fin 3) : a.transpose.idx i j = a.idx j i := by
  obtain ⟨va, fa⟩ := a
  obtain ⟨a0, a1, a2, a3, a4, a5, a6, a7, a8, rfl⟩ := vec9_cases va
  cases fa <;> fin_cases i <;> fin_cases j <;> kernel_rfl

theorem transposeSelf_eq {α : Type} (a : Mat3 α) : a.transposeSelf = a.transpose := by
  obtain ⟨va, fa⟩ := a
  obtain ⟨a0, a1, a2, a3, a4, a5, a6, a7, a8, rfl⟩ := vec9_cases va
  kernel_rfl

theorem idx_init {α : Type} (v : Vector α 9) (f : Bool) (i j : Fin 3) :
    (init v f).idx i j = v[3 * i.val + j.val] := by
  obtain ⟨a0, a1, a2, a3, a4, a5, a6, a7, a8, rfl⟩ := vec9_cases v
  cases f <;> fin_cases i <;> fin_cases j <;> kernel_rfl

theorem idx_default (i j : Fin 3) : (default : Mat3 (Fl K)).idx i j = 0 := by
  fin_cases i <;> fin_cases j <;> kernel_rfl

theorem idx_iden (i j : Fin 3) : (iden : Mat3 (Fl K)).idx i j = if i = j then 1 else 0 := by
  fin_cases i <;> fin_cases j <;> kernel_rfl

theorem trace_eq (a : Mat3 (Fl K)) : a.trace = a.idx 0 0 + a.idx 1 1 + a.idx 2 2 := by
  obtain ⟨va, fa⟩ := a
  obtain ⟨a0, a1, a2, a3, a4, a5, a6, a7, a8, rfl⟩ := vec9_cases va
  cases fa <;> kernel_rfl

theorem mul_idx (a b : Mat3 (Fl K)) (h : a.isRowMajor = b.isRowMajor) :
    ∃ m, a.mul b = .ok (some m) ∧ m.isRowMajor = a.isRowMajor ∧ ∀ i j, m.idx i j =
      a.idx i 0 * b.idx 0 j + a.idx i 1 * b.idx 1 j + a.idx i 2 * b.idx 2 j := by
  refine ⟨okVal default (mul a b), ?_⟩
  obtain ⟨va, fa⟩ := a
  obtain ⟨a0, a1, a2, a3, a4, a5, a6, a7, a8, rfl⟩ := vec9_cases va
  obtain ⟨vb, fb⟩ := b
  obtain ⟨b0, b1, b2, b3, b4, b5, b6, b7, b8, rfl⟩ := vec9_cases vb
  simp only at h; subst h
  refine ⟨?_, ?_, fun i j => ?_⟩ <;> cases fa
  · kernel_rfl
  · kernel_rfl
  · kernel_rfl
  · kernel_rfl
  · fin_cases i <;> fin_cases j <;> kernel_rfl
  · fin_cases i <;> fin_cases j <;> kernel_rfl

theorem mul_panic (a b : Mat3 (Fl K)) (h : a.isRowMajor ≠ b.isRowMajor) : a.mul b = .error .assertFailed := by
  unfold mul
  rw [beq_eq_false_iff_ne.mpr h]; rfl

theorem plus_idx (a b : Mat3 (Fl K)) (h : a.isRowMajor = b.isRowMajor) :
    ∃ m, a.plus b = some m ∧ m.isRowMajor = a.isRowMajor ∧ ∀ i j, m.idx i j = a.idx i j + b.idx i j := by
  refine ⟨_, rfl, rfl, fun i j => ?_⟩
  obtain ⟨va, fa⟩ := a
  obtain ⟨a0, a1, a2, a3, a4, a5, a6, a7, a8, rfl⟩ := vec9_cases va
  obtain ⟨vb, fb⟩ := b
  obtain ⟨b0, b1, b2, b3, b4, b5, b6, b7, b8, rfl⟩ := vec9_cases vb
  simp only at h; subst h
  cases fa <;> fin_cases i <;> fin_cases j <;> kernel_rfl

theorem minus_idx (a b : Mat3 (Fl K)) (h : a.isRowMajor = b.isRowMajor) :
    ∃ m, a.minus b = some m ∧ m.isRowMajor = a.isRowMajor ∧ ∀ i j, m.idx i j = a.idx i j - b.idx i j := by
  refine ⟨_, rfl, rfl, fun i j => ?_⟩
  obtain ⟨va, fa⟩ := a
  obtain ⟨a0, a1, a2, a3, a4, a5, a6, a7, a8, rfl⟩ := vec9_cases va
  obtain ⟨vb, fb⟩ := b
  obtain ⟨b0, b1, b2, b3, b4, b5, b6, b7, b8, rfl⟩ := vec9_cases vb
  simp only at h; subst h
  cases fa <;> fin_cases i <;> fin_cases j <;> kernel_rfl

theorem mulElem_idx (a b : Mat3 (Fl K)) (h : a.isRowMajor = b.isRowMajor) :
    ∃ m, a.mulElem b = some m ∧ m.isRowMajor = a.isRowMajor ∧ ∀ i j, m.idx i j = a.idx i j * b.idx i j := by
  refine ⟨_, rfl, rfl, fun i j => ?_⟩
  obtain ⟨va, fa⟩ := a
  obtain ⟨a0, a1, a2, a3, a4, a5, a6, a7, a8, rfl⟩ := vec9_cases va
  obtain ⟨vb, fb⟩ := b
  obtain ⟨b0, b1, b2, b3, b4, b5, b6, b7, b8, rfl⟩ := vec9_cases vb
  simp only at h; subst h
  cases fa <;> fin_cases i <;> fin_cases j <;> kernel_rfl

theorem div_idx (a b : Mat3 (Fl K)) (h : a.isRowMajor = b.isRowMajor) :
    ∃ m, a.div b = some m ∧ m.isRowMajor = a.isRowMajor ∧ ∀ i j, m.idx i j = a.idx i j / b.idx i j := by
  refine ⟨_, rfl, rfl, fun i j => ?_⟩
  obtain ⟨va, fa⟩ := a
  obtain ⟨a0, a1, a2, a3, a4, a5, a6, a7, a8, rfl⟩ := vec9_cases va
  obtain ⟨vb, fb⟩ := b
  obtain ⟨b0, b1, b2, b3, b4, b5, b6, b7, b8, rfl⟩ := vec9_cases vb
  simp only at h; subst h
  cases fa <;> fin_cases i <;> fin_cases j <;> kernel_rfl

theorem scale_idx (a : Mat3 (Fl K)) (s : Fl K) :
    ∃ m, a.scale s = some m ∧ m.isRowMajor = a.isRowMajor ∧ ∀ i j, m.idx i j = a.idx i j * s := by
  refine ⟨_, rfl, rfl, fun i j => ?_⟩
  obtain ⟨va, fa⟩ := a
  obtain ⟨a0, a1, a2, a3, a4, a5, a6, a7, a8, rfl⟩ := vec9_cases va
  cases fa <;> fin_cases i <;> fin_cases j <;> kernel_rfl

theorem normalize_idx (a : Mat3 (Fl K)) :
    ∃ m, a.normalize = some m ∧ m.isRowMajor = a.isRowMajor ∧ ∀ i j, m.idx i j = a.idx i j / a.idx 2 2 := by
  refine ⟨_, rfl, rfl, fun i j => ?_⟩
  obtain ⟨va, fa⟩ := a
  obtain ⟨a0, a1, a2, a3, a4, a5, a6, a7, a8, rfl⟩ := vec9_cases va
  cases fa <;> fin_cases i <;> fin_cases j <;> kernel_rfl

theorem mulMat3x1_idx (a : Mat3 (Fl K)) (b : Mat3x1 (Fl K)) :
    ∃ m, a.mulMat3x1 b = some m ∧ ∀ i : Fin 3, m.val[i.val] = a.idx i 0 * b.val[0] + a.idx i 1 * b.val[1] + a.idx i 2 * b.val[2] := by
  refine ⟨someVal Mat3x1.default (mulMat3x1 a b), ?_⟩
  obtain ⟨va, fa⟩ := a
  obtain ⟨a0, a1, a2, a3, a4, a5, a6, a7, a8, rfl⟩ := vec9_cases va
  obtain ⟨wb⟩ := b
  obtain ⟨b0, b1, b2, rfl⟩ := vec3_cases wb
  refine ⟨?_, fun i => ?_⟩ <;> cases fa
  · kernel_rfl
  · kernel_rfl
  · fin_cases i <;> kernel_rfl
  · fin_cases i <;> kernel_rfl

theorem rowMul_idx (a : Mat3 (Fl K)) (b : Mat1x3 (Fl K)) :
    ∃ m, b.mulMat3x3 a = some m ∧ ∀ i : Fin 3, m.val[i.val] = a.idx 0 i * b.val[0] + a.idx 1 i * b.val[1] + a.idx 2 i * b.val[2] := by
  refine ⟨someVal Mat1x3.default (Mat1x3.mulMat3x3 b a), ?_⟩
  obtain ⟨va, fa⟩ := a
  obtain ⟨a0, a1, a2, a3, a4, a5, a6, a7, a8, rfl⟩ := vec9_cases va
  obtain ⟨wb⟩ := b
  obtain ⟨b0, b1, b2, rfl⟩ := vec3_cases wb
  refine ⟨?_, fun i => ?_⟩ <;> cases fa
  · kernel_rfl
  · kernel_rfl
  · fin_cases i <;> kernel_rfl
  · fin_cases i <;> kernel_rfl

theorem isEqual_flag (a b : Mat3 (Fl K)) (e : Fl K) (h : a.isRowMajor ≠ b.isRowMajor) :
    a.isEqual b e = some false := by
  unfold isEqual; rw [bne_iff_ne.mpr h]; rfl

theorem isEqual_iff (a b : Mat3 (Fl K)) (e : Fl K) (h : a.isRowMajor = b.isRowMajor) :
    ∃ r, a.isEqual b e = some r ∧ (r = true ↔ ∀ i j : Fin 3,
      Fl.le (b.idx i j - e) (a.idx i j) = true ∧ Fl.le (a.idx i j) (b.idx i j + e) = true) := by
  unfold isEqual
  rw [h, bne_self_eq_false]
  refine ⟨_, rfl, ?_⟩
  simp only [List.all_eq_true, List.mem_finRange, true_implies, Bool.and_eq_true]
  constructor
  · intro H i j
    unfold idx
    cases hb : b.isRowMajor <;> rw [hb] at h <;> simp only [h, Bool.false_eq_true, if_false, if_true]
    · exact H ⟨i.val + j.val * 3, by omega⟩
    · exact H ⟨i.val * 3 + j.val, by omega⟩
  · intro H x
    unfold idx at H
    have e1 : (x.val % 3) + (x.val / 3) * 3 = x.val := by omega
    have e2 : (x.val / 3) * 3 + (x.val % 3) = x.val := by omega
    cases hb : b.isRowMajor <;> rw [hb] at h <;> simp only [h, hb, Bool.false_eq_true, if_false, if_true] at H
    · have := H ⟨x.val % 3, by omega⟩ ⟨x.val / 3, by omega⟩
      simpa only [e1] using this
    · have := H ⟨x.val / 3, by omega⟩ ⟨x.val % 3, by omega⟩
      simpa only [e2] using this

end Mat3

namespace Mat4

theorem index_eq_idx {α : Type} (chk : Bool) (a : Mat4 α) (i j : Fin 4) :
    a.index chk (UInt64.ofNat i.val) (UInt64.ofNat j.val) = .ok (a.idx i j) := by
  obtain ⟨va, fa⟩ := a
  obtain ⟨a0, a1, a2, a3, a4, a5, a6, a7, a8, a9, a10, a11, a12, a13, a14, a15, rfl⟩ := vec16_cases va
  cases chk <;> cases fa <;> fin_cases i <;> fin_cases j <;> kernel_rfl

theorem indexMutSet_eq_setIdx {α : Type} (chk : Bool) (a : Mat4 α) (i j : Fin 4) (x : α) :
    a.indexMutSet chk (UInt64.ofNat i.val) (UInt64.ofNat j.val) x = .ok (a.setIdx i j x) := by
  obtain ⟨va, fa⟩ := a
  obtain ⟨a0, a1, a2, a3, a4, a5, a6, a7, a8, a9, a10, a11, a12, a13, a14, a15, rfl⟩ := vec16_cases va
  cases chk <;> cases fa <;> fin_cases i <;> fin_cases j <;> kernel_rfl

theorem idx_setIdx {α : Type} (a : Mat4 α) (i j k l : Fin 4) (x : α) :
    (a.setIdx i j x).idx k l = if i = k ∧ j = l then x else a.idx k l := by
  unfold setIdx idx
  cases a.isRowMajor <;> simp only [Bool.false_eq_true, if_false, if_true, Vector.getElem_set] <;>
    refine if_congr ?_ rfl rfl <;> simp only [Fin.ext_iff] <;> omega

@[simp] theorem setIdx_flag {α : Type} (a : Mat4 α) (i j : Fin 4) (x : α) :
    (a.setIdx i j x).isRowMajor = a.isRowMajor := by
  unfold setIdx; split <;> rfl

theorem ext_idx {α : Type} {a b : Mat4 α} (h : a.isRowMajor = b.isRowMajor) (h' : ∀ i j, a.idx i j = b.idx i j) :
    a = b := by
  obtain ⟨va, fa⟩ := a
  obtain ⟨a0, a1, a2, a3, a4, a5, a6, a7, a8, a9, a10, a11, a12, a13, a14, a15, rfl⟩ := vec16_cases va
  obtain ⟨vb, fb⟩ := b
  obtain ⟨b0, b1, b2, b3, b4, b5, b6, b7, b8, b9, b10, b11, b12, b13, b14, b15, rfl⟩ := vec16_cases vb
  have h0 := h' 0 0
  have h1 := h' 0 1
  have h2 := h' 0 2
  have h3 := h' 0 3
  have h4 := h' 1 0
  have h5 := h' 1 1
  have h6 := h' 1 2
  have h7 := h' 1 3
  have h8 := h' 2 0
  have h9 := h' 2 1
  have h10 := h' 2 2
  have h11 := h' 2 3
  have h12 := h' 3 0
  have h13 := h' 3 1
  have h14 := h' 3 2
  have h15 := h' 3 3
  simp only at h; subst h
  cases fa
  · replace h0 : a0 = b0 := h0
    replace h1 : a4 = b4 := h1
    replace h2 : a8 = b8 := h2
    replace h3 : a12 = b12 := h3
    replace h4 : a1 = b1 := h4
    replace h5 : a5 = b5 := h5
    replace h6 : a9 = b9 := h6
    replace h7 : a13 = b13 := h7
    replace h8 : a2 = b2 := h8
    replace h9 : a6 = b6 := h9
    replace h10 : a10 = b10 := h10
    replace h11 : a14 = b14 := h11
    replace h12 : a3 = b3 := h12
    replace h13 : a7 = b7 := h13
    replace h14 : a11 = b11 := h14
    replace h15 : a15 = b15 := h15
    subst h0 h1 h2 h3 h4 h5 h6 h7 h8 h9 h10 h11 h12 h13 h14 h15; rfl
  · replace h0 : a0 = b0 := h0
    replace h1 : a1 = b1 := h1
    replace h2 : a2 = b2 := h2
    replace h3 : a3 = b3 := h3
    replace h4 : a4 = b4 := h4
    replace h5 : a5 = b5 := h5
    replace h6 : a6 = b6 := h6
    replace h7 : a7 = b7 := h7
    replace h8 : a8 = b8 := h8
    replace h9 : a9 = b9 := h9
    replace h10 : a10 = b10 := h10
    replace h11 : a11 = b11 := h11
    replace h12 : a12 = b12 := h12
    replace h13 : a13 = b13 := h13
    replace h14 : a14 = b14 := h14
    replace h15 : a15 = b15 := h15
    subst h0 h1 h2 h3 h4 h5 h6 h7 h8 h9 h10 h11 h12 h13 h14 h15; rfl

@[simp] theorem transpose_flag {α : Type} (a : Mat4 α) : a.transpose.isRowMajor = a.isRowMajor := by kernel_rfl
@[simp] theorem transposeSelf_flag {α : Type} (a : Mat4 α) : a.transposeSelf.isRowMajor = a.isRowMajor := by kernel_rfl

theorem idx_transpose {α : Type} (a : Mat4 α) (i j : Fin 4) : a.transpose.idx i j = a.idx j i := by
  obtain ⟨va, fa⟩ := a
  obtain ⟨a0, a1, a2, a3, a4, a5, a6, a7, a8, a9, a10, a11, a12, a13, a14, a15, rfl⟩ := vec16_cases va
  cases fa <;> fin_cases i <;> fin_cases j <;> kernel_rfl

theorem transposeSelf_eq {α : Type} (a : Mat4 α) : a.transposeSelf = a.transpose := by
  obtain ⟨va, fa⟩ := a
  obtain ⟨a0, a1, a2, a3, a4, a5, a6, a7, a8, a9, a10, a11, a12, a13, a14, a15, rfl⟩ := vec16_cases va
  kernel_rfl

theorem idx_init {α : Type} (v : Vector α 16) (f : Bool) (i j : Fin 4) :
    (init v f).idx i j = v[4 * i.val + j.val] := by
  obtain ⟨a0, a1, a2, a3, a4, a5, a6, a7, a8, a9, a10, a11, a12, a13, a14, a15, rfl⟩ := vec16_cases v
  cases f <;> fin_cases i <;> fin_cases j <;> kernel_rfl

theorem idx_default (i j : Fin 4) : (default : Mat4 (Fl K)).idx i j = 0 := by
  fin_cases i <;> fin_cases j <;> kernel_rfl

theorem idx_iden (i j : Fin 4) : (iden : Mat4 (Fl K)).idx i j = if i = j then 1 else 0 := by
  fin_cases i <;> fin_cases j <;> kernel_rfl

theorem trace_eq (a : Mat4 (Fl K)) : a.trace = a.idx 0 0 + a.idx 1 1 + a.idx 2 2 + a.idx 3 3 := by
  obtain ⟨va, fa⟩ := a
  obtain ⟨a0, a1, a2, a3, a4, a5, a6, a7, a8, a9, a10, a11, a12, a13, a14, a15, rfl⟩ := vec16_cases va
  cases fa <;> kernel_rfl

theorem mul_idx (a b : Mat4 (Fl K)) (h : a.isRowMajor = b.isRowMajor) :
    ∃ m, a.mul b = .ok (some m) ∧ m.isRowMajor = a.isRowMajor ∧ ∀ i j, m.idx i j =
      a.idx i 0 * b.idx 0 j + a.idx i 1 * b.idx 1 j + a.idx i 2 * b.idx 2 j + a.idx i 3 * b.idx 3 j := by
  refine ⟨okVal default (mul a b), ?_⟩
  obtain ⟨va, fa⟩ := a
  obtain ⟨a0, a1, a2, a3, a4, a5, a6, a7, a8, a9, a10, a11, a12, a13, a14, a15, rfl⟩ := vec16_cases va
  obtain ⟨vb, fb⟩ := b
  obtain ⟨b0, b1, b2, b3, b4, b5, b6, b7, b8, b9, b10, b11, b12, b13, b14, b15, rfl⟩ := vec16_cases vb
  simp only at h; subst h
  refine ⟨?_, ?_, fun i j => ?_⟩ <;> cases fa
  · kernel_rfl
  · kernel_rfl
  · kernel_rfl
  · kernel_rfl
  · fin_cases i <;> fin_cases j <;> kernel_rfl
  · fin_cases i <;> fin_cases j <;> kernel_rfl

theorem mul_panic (a b : Mat4 (Fl K)) (h : a.isRowMajor ≠ b.isRowMajor) : a.mul b = .error .assertFailed := by
  unfold mul
  rw [beq_eq_false_iff_ne.mpr h]; rfl

theorem plus_idx (a b : Mat4 (Fl K)) (h : a.isRowMajor = b.isRowMajor) :
    ∃ m, a.plus b = some m ∧ m.isRowMajor = a.isRowMajor ∧ ∀ i j, m.idx i j = a.idx i j + b.idx i j := by
  refine ⟨_, rfl, rfl, fun i j => ?_⟩
  obtain ⟨va, fa⟩ := a
  obtain ⟨a0, a1, a2, a3, a4, a5, a6, a7, a8, a9, a10, a11, a12, a13, a14, a15, rfl⟩ := vec16_cases va
  obtain ⟨vb, fb⟩ := b
  obtain ⟨b0, b1, b2, b3, b4, b5, b6, b7, b8, b9, b10, b11, b12, b13, b14, b15, rfl⟩ := vec16_cases vb
  simp only at h; subst h
  cases fa <;> fin_cases i <;> fin_cases j <;> kernel_rfl

theorem minus_idx (a b : Mat4 (Fl K)) (h : a.isRowMajor = b.isRowMajor) :
    ∃ m, a.minus b = some m ∧ m.isRowMajor = a.isRowMajor ∧ ∀ i j, m.idx i j = a.idx i j - b.idx i j := by
  refine ⟨_, rfl, rfl, fun i j => ?_⟩
  obtain ⟨va, fa⟩ := a
  obtain ⟨a0, a1, a2, a3, a4, a5, a6, a7, a8, a9, a10, a11, a12, a13, a14, a15, rfl⟩ := vec16_cases va
  obtain ⟨vb, fb⟩ := b
  obtain ⟨b0, b1, b2, b3, b4, b5, b6, b7, b8, b9, b10, b11, b12, b13, b14, b15, rfl⟩ := vec16_cases vb
  simp only at h; subst h
  cases fa <;> fin_cases i <;> fin_cases j <;> kernel_rfl

theorem mulElem_idx (a b : Mat4 (Fl K)) (h : a.isRowMajor = b.isRowMajor) :
    ∃ m, a.mulElem b = some m ∧ m.isRowMajor = a.isRowMajor ∧ ∀ i j, m.idx i j = a.idx i j * b.idx i j := by
  refine ⟨_, rfl, rfl, fun i j => ?_⟩
  obtain ⟨va, fa⟩ := a
  obtain ⟨a0, a1, a2, a3, a4, a5, a6, a7, a8, a9, a10, a11, a12, a13, a14, a15, rfl⟩ := vec16_cases va
  obtain ⟨vb, fb⟩ := b
  obtain ⟨b0, b1, b2, b3, b4, b5, b6, b7, b8, b9, b10, b11, b12, b13, b14, b15, rfl⟩ := vec16_cases vb
  simp only at h; subst h
  cases fa <;> fin_cases i <;> fin_cases j <;> kernel_rfl

theorem div_idx (a b : Mat4 (Fl K)) (h : a.isRowMajor = b.isRowMajor) :
    ∃ m, a.div b = some m ∧ m.isRowMajor = a.isRowMajor ∧ ∀ i j, m.idx i j = a.idx i j / b.idx i j := by
  refine ⟨_, rfl, rfl, fun i j => ?_⟩
  obtain ⟨va, fa⟩ := a
  obtain ⟨a0, a1, a2, a3, a4, a5, a6, a7, a8, a9, a10, a11, a12, a13, a14, a15, rfl⟩ := vec16_cases va
  obtain ⟨vb, fb⟩ := b
  obtain ⟨b0, b1, b2, b3, b4, b5, b6, b7, b8, b9, b10, b11, b12, b13, b14, b15, rfl⟩ := vec16_cases vb
  simp only at h; subst h
  cases fa <;> fin_cases i <;> fin_cases j <;> kernel_rfl

theorem scale_idx (a : Mat4 (Fl K)) (s : Fl K) :
    ∃ m, a.scale s = some m ∧ m.isRowMajor = a.isRowMajor ∧ ∀ i j, m.idx i j = a.idx i j * s := by
  refine ⟨_, rfl, rfl, fun i j => ?_⟩
  obtain ⟨va, fa⟩ := a
  obtain ⟨a0, a1, a2, a3, a4, a5, a6, a7, a8, a9, a10, a11, a12, a13, a14, a15, rfl⟩ := vec16_cases va
  cases fa <;> fin_cases i <;> fin_cases j <;> kernel_rfl

theorem normalize_idx (a : Mat4 (Fl K)) :
    ∃ m, a.normalize = some m ∧ m.isRowMajor = a.isRowMajor ∧ ∀ i j, m.idx i j = a.idx i j / a.idx 3 3 := by
  refine ⟨_, rfl, rfl, fun i j => ?_⟩
  obtain ⟨va, fa⟩ := a
  obtain ⟨a0, a1, a2, a3, a4, a5, a6, a7, a8, a9, a10, a11, a12, a13, a14, a15, rfl⟩ := vec16_cases va
  cases fa <;> fin_cases i <;> fin_cases j <;> kernel_rfl

theorem mulMat4x1_idx (a : Mat4 (Fl K)) (b : Mat4x1 (Fl K)) :
    ∃ m, a.mulMat4x1 b = some m ∧ ∀ i : Fin 4, m.val[i.val] = a.idx i 0 * b.val[0] + a.idx i 1 * b.val[1] + a.idx i 2 * b.val[2] + a.idx i 3 * b.val[3] := by
  refine ⟨someVal Mat4x1.default (mulMat4x1 a b), ?_⟩
  obtain ⟨va, fa⟩ := a
  obtain ⟨a0, a1, a2, a3, a4, a5, a6, a7, a8, a9, a10, a11, a12, a13, a14, a15, rfl⟩ := vec16_cases va
  obtain ⟨wb⟩ := b
  obtain ⟨b0, b1, b2, b3, rfl⟩ := vec4_cases wb
  refine ⟨?_, fun i => ?_⟩ <;> cases fa
  · kernel_rfl
  · kernel_rfl
  · fin_cases i <;> kernel_rfl
  · fin_cases i <;> kernel_rfl

theorem rowMul_idx (a : Mat4 (Fl K)) (b : Mat1x4 (Fl K)) :
    ∃ m, b.mulMat4x4 a = some m ∧ ∀ i : Fin 4, m.val[i.val] = a.idx 0 i * b.val[0] + a.idx 1 i * b.val[1] + a.idx 2 i * b.val[2] + a.idx 3 i * b.val[3] := by
  refine ⟨someVal Mat1x4.default (Mat1x4.mulMat4x4 b a), ?_⟩
  obtain ⟨va, fa⟩ := a
  obtain ⟨a0, a1, a2, a3, a4, a5, a6, a7, a8, a9, a10, a11, a12, a13, a14, a15, rfl⟩ := vec16_cases va
  obtain ⟨wb⟩ := b
  obtain ⟨b0, b1, b2, b3, rfl⟩ := vec4_cases wb
  refine ⟨?_, fun i => ?_⟩ <;> cases fa
  · kernel_rfl
  · kernel_rfl
  · fin_cases i <;> kernel_rfl
  · fin_cases i <;> kernel_rfl

theorem submatMat3_idx {α : Type} (a : Mat4 α) (i j : Fin 3) :
    a.submatMat3.idx i j = a.idx (i.castSucc) (j.castSucc) := by
  obtain ⟨va, fa⟩ := a
  obtain ⟨a0, a1, a2, a3, a4, a5, a6, a7, a8, a9, a10, a11, a12, a13, a14, a15, rfl⟩ := vec16_cases va
  cases fa <;> fin_cases i <;> fin_cases j <;> kernel_rfl

theorem isEqual_flag (a b : Mat4 (Fl K)) (e : Fl K) (h : a.isRowMajor ≠ b.isRowMajor) :
    a.isEqual b e = some false := by
  unfold isEqual; rw [bne_iff_ne.mpr h]; rfl

theorem isEqual_iff (a b : Mat4 (Fl K)) (e : Fl K) (h : a.isRowMajor = b.isRowMajor) :
    ∃ r, a.isEqual b e = some r ∧ (r = true ↔ ∀ i j : Fin 4,
      Fl.le (b.idx i j - e) (a.idx i j) = true ∧ Fl.le (a.idx i j) (b.idx i j + e) = true) := by
  unfold isEqual
  rw [h, bne_self_eq_false]
  refine ⟨_, rfl, ?_⟩
  simp only [List.all_eq_true, List.mem_finRange, true_implies, Bool.and_eq_true]
  constructor
  · intro H i j
    unfold idx
    cases hb : b.isRowMajor <;> rw [hb] at h <;> simp only [h, Bool.false_eq_true, if_false, if_true]
    · exact H ⟨i.val + j.val * 4, by omega⟩
    · exact H ⟨i.val * 4 + j.val, by omega⟩
  · intro H x
    unfold idx at H
    have e1 : (x.val % 4) + (x.val / 4) * 4 = x.val := by omega
    have e2 : (x.val / 4) * 4 + (x.val % 4) = x.val := by omega
    cases hb : b.isRowMajor <;> rw [hb] at h <;> simp only [h, hb, Bool.false_eq_true, if_false, if_true] at H
    · have := H ⟨x.val % 4, by omega⟩ ⟨x.val / 4, by omega⟩
      simpa only [e1] using this
    · have := H ⟨x.val / 4, by omega⟩ ⟨x.val % 4, by omega⟩
      simpa only [e2] using this

end Mat4

end Mazth
