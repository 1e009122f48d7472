import Verif.Props.Monotone
import Verif.Props.MatrixAlg
import Verif.Props.Vector

/-!
# C74: symmetries that survive rounding

Identities that hold for all floats of every lawful format, bit for bit or up to the sign of a zero.
-/

set_option linter.unusedSectionVars false
set_option autoImplicit false

namespace Mazth

variable {K : Type} [Field K] [LinearOrder K] [IsStrictOrderedRing K] [Fmt K]

/-- the same datum, except that the two zeros are not told apart -/
def Fl.Same (x y : Fl K) : Prop := x = y ∨ (x.val = some 0 ∧ y.val = some 0)

namespace Fl

variable {x y z x' y' : Fl K}

theorem Same.refl (x : Fl K) : Same x x := .inl rfl
theorem Same.symm (h : Same x y) : Same y x := h.elim (fun h => .inl h.symm) fun h => .inr ⟨h.2, h.1⟩
theorem Same.trans (h : Same x y) (h' : Same y z) : Same x z := by
  rcases h with rfl | h
  · exact h'
  · rcases h' with rfl | h'
    · exact .inr h
    · exact .inr ⟨h.1, h'.2⟩

theorem zero_add_same (x' : Fl K) (hx : x.val = some 0) (hx' : x'.val = some 0) (y : Fl K) : Same (x + y) (x' + y) := by
  rcases NaN.val_zero hx with rfl | rfl <;> rcases NaN.val_zero hx' with rfl | rfl <;> first
    | exact .refl _
    | (show Same (Fl.add _ _) (Fl.add _ _)
       cases y <;> simp [Fl.add, Fl.addFin, Same, Fl.val])

theorem Same.add (h : Same x x') (h' : Same y y') : Same (x + y) (x' + y') := by
  have h1 : Same (x + y) (x' + y) := by
    rcases h with rfl | h
    · exact .refl _
    · exact zero_add_same x' h.1 h.2 y
  refine h1.trans ?_
  rcases h' with rfl | h'
  · exact .refl _
  · rw [add_comm' x' y, add_comm' x' y']
    exact zero_add_same y' h'.1 h'.2 x'

theorem Same.neg (h : Same x y) : Same (-x) (-y) := by
  rcases h with rfl | ⟨h, h'⟩
  · exact .refl _
  · right
    constructor
    · rcases NaN.val_zero h with rfl | rfl <;> show (Fl.neg _).val = _ <;> simp [Fl.neg, Fl.val]
    · rcases NaN.val_zero h' with rfl | rfl <;> show (Fl.neg _).val = _ <;> simp [Fl.neg, Fl.val]

theorem Same.sub (h : Same x x') (h' : Same y y') : Same (x - y) (x' - y') := by
  rw [sub_eq, sub_eq]; exact h.add h'.neg

theorem zero_mul_same (hx : x.val = some 0) (hx' : x'.val = some 0) (y : Fl K) : Same (x * y) (x' * y) := by
  have key {x : Fl K} (hx : x.val = some 0) : (y.Finite ∧ (x * y).val = some 0) ∨ (¬ y.Finite ∧ x * y = nan) := by
    cases y with
    | nan => right; exact ⟨fun h => absurd rfl h.ne_nan, NaN.muln _⟩
    | inf s =>
      right; refine ⟨fun h => absurd rfl (h.ne_inf s), ?_⟩
      rcases NaN.val_zero hx with rfl | rfl <;> show Fl.mul _ _ = _ <;> simp [Fl.mul, mulInf]
    | nzero =>
      left; refine ⟨finite_nzero, ?_⟩
      rcases NaN.val_zero hx with rfl | rfl <;> show (Fl.mul _ _).val = _ <;> simp [Fl.mul, mulFin, zero, val]
    | fin v =>
      left; refine ⟨finite_fin v, ?_⟩
      rcases NaN.val_zero hx with rfl | rfl <;> show (Fl.mul _ _).val = _ <;> simp only [Fl.mul, mulFin, zero_mul, if_true, zero] <;>
        split <;> rfl
  rcases key hx with ⟨h, h1⟩ | ⟨h, h1⟩ <;> rcases key hx' with ⟨h', h2⟩ | ⟨h', h2⟩
  · exact .inr ⟨h1, h2⟩
  · exact absurd h h'
  · exact absurd h' h
  · exact .inl (h1.trans h2.symm)

theorem Same.mul (h : Same x x') (h' : Same y y') : Same (x * y) (x' * y') := by
  have h1 : Same (x * y) (x' * y) := by
    rcases h with rfl | h
    · exact .refl _
    · exact zero_mul_same h.1 h.2 y
  refine h1.trans ?_
  rcases h' with rfl | h'
  · exact .refl _
  · rw [mul_comm' x' y, mul_comm' x' y']
    exact zero_mul_same h'.1 h'.2 x'

theorem Same.sq (h : Same x x') : x * x = x' * x' := by
  rcases h with rfl | h
  · rfl
  · rw [NaN.sq_zero h.1, NaN.sq_zero h.2]

variable [LawfulFmt K]

/-- rounding a difference the other way round changes the sign only -/
theorem sub_swap (x y : Fl K) : Same (y - x) (-(x - y)) := by
  have key (v : K) : Same (lit (-v)) (-lit v) := by
    by_cases h : v = 0
    · subst h; right; rw [neg_zero, lit_zero]; exact ⟨rfl, by show (Fl.neg _).val = _; simp [Fl.neg, val]⟩
    · rw [lit_neg_of_ne h]; exact .refl _
  have hv {v : K} {w : K} (h : w = -v) : Same (lit w) (-lit v) := h ▸ key v
  show Same (Fl.add y (Fl.neg x)) (Fl.neg (Fl.add x (Fl.neg y)))
  cases x with
  | nan => left; cases y <;> rfl
  | inf s =>
    left
    cases y with
    | inf t => cases s <;> cases t <;> rfl
    | nan => rfl
    | nzero => rfl
    | fin v => by_cases h : v = 0 <;> simp [Fl.add, Fl.neg, h]
  | nzero =>
    cases y with
    | inf t => left; simp [Fl.add, Fl.neg]
    | nan => exact .refl _
    | nzero => right; simp [Fl.add, Fl.neg, addFin, val]
    | fin v =>
      by_cases h : v = 0
      · subst h; right; simp [Fl.add, Fl.neg, addFin, val]
      · simp only [Fl.neg, if_neg h, Fl.add, addFin_eq]; exact hv (by ring)
  | fin u =>
    cases y with
    | inf t => left; by_cases h : u = 0 <;> simp [Fl.add, Fl.neg, h]
    | nan => left; rfl
    | nzero =>
      by_cases h : u = 0
      · subst h; right; simp [Fl.add, Fl.neg, addFin, val]
      · simp only [Fl.neg, if_neg h, Fl.add, addFin_eq]; exact hv (by ring)
    | fin v =>
      by_cases h : u = 0 <;> by_cases h' : v = 0
      · subst h h'; right; simp [Fl.add, Fl.neg, addFin, val]
      · subst h; simp only [Fl.neg, if_neg h', if_true, Fl.add, addFin_eq]; exact hv (by ring)
      · subst h'; simp only [Fl.neg, if_neg h, if_true, Fl.add, addFin_eq]; exact hv (by ring)
      · simp only [Fl.neg, if_neg h, if_neg h', Fl.add, addFin_eq]; exact hv (by ring)

theorem neg_zero' (s : Bool) : -(zero s : Fl K) = zero !s := by
  show Fl.neg _ = _
  cases s <;> simp [zero, Fl.neg]

theorem dec_neg {a : K} (h : a ≠ 0) : decide (-a < 0) = !decide (a < 0) := by
  rcases lt_or_gt_of_ne h with h | h
  · simp [h, h.le]
  · simp [h, h.le]

theorem neg_mul' (x y : Fl K) : -x * y = -(x * y) := by
  have hz (s : Bool) : Fl.neg (zero s : Fl K) = zero !s := neg_zero' s
  have hr {v : K} (h : v ≠ 0) : Fl.neg (Fmt.rnd v : Fl K) = Fmt.rnd (-v) := (rnd_neg' h).symm
  show Fl.mul (Fl.neg x) y = Fl.neg (Fl.mul x y)
  cases x with
  | nan => rfl
  | inf s =>
    cases y with
    | nan => rfl
    | inf t => simp [Fl.mul, Fl.neg]
    | nzero => rfl
    | fin b => by_cases h : b = 0 <;> simp [Fl.mul, Fl.neg, mulInf, h]
  | nzero =>
    cases y with
    | nan => rfl
    | inf t => simp [Fl.mul, Fl.neg, mulInf]
    | nzero => simp [Fl.mul, Fl.neg, mulFin, zero]
    | fin b => by_cases hd : b < 0 <;> simp [Fl.mul, Fl.neg, mulFin, zero, hd]
  | fin a =>
    by_cases h : a = 0
    · subst h
      cases y with
      | nan => simp [Fl.mul, Fl.neg]
      | inf t => simp [Fl.mul, Fl.neg, mulInf]
      | nzero => simp [Fl.mul, Fl.neg, mulFin, zero]
      | fin b => by_cases hd : b < 0 <;> simp [Fl.mul, Fl.neg, mulFin, zero, hd]
    · simp only [Fl.neg, if_neg h]
      change _ = Fl.neg _
      cases y with
      | nan => rfl
      | inf t => simp only [Fl.mul, mulInf, neg_eq_zero, if_neg h, dec_neg h, Fl.neg]; simp
      | nzero => simp only [Fl.mul, mulFin, mul_zero, if_true, hz, dec_neg h]
      | fin b =>
        simp only [Fl.mul, mulFin]
        by_cases hb : b = 0
        · subst hb; simp only [mul_zero, if_true, hz, dec_neg h]; simp
        · rw [if_neg (mul_ne_zero h hb), if_neg (mul_ne_zero (neg_ne_zero.mpr h) hb), hr (mul_ne_zero h hb), neg_mul]

theorem neg_mul_neg' (x y : Fl K) : -x * -y = x * y := by
  rw [neg_mul', mul_comm' x, neg_mul', neg_neg', mul_comm']

theorem neg_div' (x y : Fl K) : -x / y = -(x / y) := by
  have hz (s : Bool) : Fl.neg (zero s : Fl K) = zero !s := neg_zero' s
  have hr {v : K} (h : v ≠ 0) : Fl.neg (Fmt.rnd v : Fl K) = Fmt.rnd (-v) := (rnd_neg' h).symm
  show Fl.div (Fl.neg x) y = Fl.neg (Fl.div x y)
  cases x with
  | nan => rfl
  | inf s =>
    cases y with
    | nan => rfl
    | inf t => rfl
    | nzero => rfl
    | fin b => simp [Fl.div, Fl.neg]
  | nzero =>
    cases y with
    | nan => rfl
    | inf t => cases t <;> simp [Fl.div, Fl.neg, zero]
    | nzero => simp [Fl.div, Fl.neg, divFin]
    | fin b => by_cases hb : b = 0 <;> by_cases hd : b < 0 <;> simp [Fl.div, Fl.neg, divFin, zero, hb, hd]
  | fin a =>
    by_cases h : a = 0
    · subst h
      cases y with
      | nan => simp [Fl.div, Fl.neg]
      | inf t => cases t <;> simp [Fl.div, Fl.neg, zero]
      | nzero => simp [Fl.div, Fl.neg, divFin]
      | fin b => by_cases hb : b = 0 <;> by_cases hd : b < 0 <;> simp [Fl.div, Fl.neg, divFin, zero, hb, hd]
    · simp only [Fl.neg, if_neg h]
      change _ = Fl.neg _
      cases y with
      | nan => rfl
      | inf t => simp only [Fl.div, hz, dec_neg h]; simp
      | nzero => simp only [Fl.div, divFin, if_true, neg_eq_zero, if_neg h, dec_neg h, Fl.neg]
      | fin b =>
        simp only [Fl.div, divFin, neg_eq_zero, if_neg h]
        by_cases hb : b = 0
        · subst hb; simp only [if_true, dec_neg h, Fl.neg]; simp
        · rw [if_neg hb, if_neg hb, hr (div_ne_zero h hb), neg_div]

theorem neg_add_same (x y : Fl K) : Same (-x + -y) (-(x + y)) := by
  have h2 := sub_swap x (-y)
  rw [sub_eq, sub_eq, neg_neg'] at h2
  rw [add_comm' (-x)]; exact h2

theorem mul_one' {x : Fl K} (h : x.WF) : x * 1 = x := by
  show Fl.mul x (.fin 1) = x
  have h1 : ¬ (1 : K) < 0 := by simp
  cases x with
  | nan => rfl
  | inf s => simp [Fl.mul, mulInf, not_lt.mpr (zero_le_one (α := K))]
  | nzero => simp [Fl.mul, mulFin, zero, not_lt.mpr (zero_le_one (α := K))]
  | fin a =>
    simp only [Fl.mul, mulFin, mul_one]
    split
    · rename_i h; subst h; simp [zero]
    · rename_i h0
      rw [← lit_of_ne h0, lit_rep h]

theorem one_mul' {x : Fl K} (h : x.WF) : 1 * x = x := by rw [mul_comm', mul_one' h]

theorem add_zero_same {x : Fl K} (h : x.WF) : Same (x + 0) x := by
  show Same (Fl.add x (.fin 0)) x
  cases x with
  | nan => exact .refl _
  | inf s => exact .refl _
  | nzero => right; simp [Fl.add, addFin, val]
  | fin a => simp only [Fl.add, addFin_eq, add_zero]; rw [lit_rep h]; exact .refl _

theorem zero_add_same' {x : Fl K} (h : x.WF) : Same (0 + x) x := by rw [add_comm']; exact add_zero_same h

theorem mul_zero_same {x : Fl K} (h : x.Finite) : Same (x * 0) 0 := by
  right
  refine ⟨?_, rfl⟩
  rcases zn_mul_zero x (y := 0) rfl with h' | h'
  · cases x with
    | nan => exact absurd rfl h.ne_nan
    | inf s => exact absurd rfl (h.ne_inf s)
    | nzero => exact absurd h' (by show Fl.mul _ (.fin 0) ≠ _; simp [Fl.mul, mulFin, zero])
    | fin a => exact absurd h' (by show Fl.mul _ (.fin 0) ≠ _; simp only [Fl.mul, mulFin, mul_zero, if_true, zero]; split <;> simp)
  · exact h'

theorem zero_mul_same' {x : Fl K} (h : x.Finite) : Same (0 * x) 0 := by rw [mul_comm']; exact mul_zero_same h

theorem le_congr {x x' y y' : Fl K} (h : Same x x') (h' : Same y y') : le x y = le x' y' := by
  have k1 {x x' : Fl K} (h : Same x x') (y : Fl K) : le x y = le x' y := by
    rcases h with rfl | ⟨h, h'⟩
    · rfl
    · rcases NaN.val_zero h with rfl | rfl <;> rcases NaN.val_zero h' with rfl | rfl <;> cases y <;> simp [le]
  have k2 {y y' : Fl K} (h : Same y y') (x : Fl K) : le x y = le x y' := by
    rcases h with rfl | ⟨h, h'⟩
    · rfl
    · rcases NaN.val_zero h with rfl | rfl <;> rcases NaN.val_zero h' with rfl | rfl <;> cases x <;> simp [le]
  rw [k1 h, k2 h']

end Fl

open Fl (Same)

variable [LawfulFmt K]

/-! ### matrices -/

theorem dotL_comm (t : MatTy) (f g : Fin t.dim → Fl K) : t.dotL f g = t.dotL g f := by
  cases t
  · show f 0 * g 0 + f 1 * g 1 + f 2 * g 2 = g 0 * f 0 + g 1 * f 1 + g 2 * f 2
    rw [Fl.mul_comm' (f 0), Fl.mul_comm' (f 1), Fl.mul_comm' (f 2)]
  · show f 0 * g 0 + f 1 * g 1 + f 2 * g 2 + f 3 * g 3 = g 0 * f 0 + g 1 * f 1 + g 2 * f 2 + g 3 * f 3
    rw [Fl.mul_comm' (f 0), Fl.mul_comm' (f 1), Fl.mul_comm' (f 2), Fl.mul_comm' (f 3)]

theorem dotL_single (t : MatTy) (f : Fin t.dim → Fl K) (hf : ∀ i, (f i).Finite ∧ (f i).WF) (j : Fin t.dim) :
    Same (t.dotL f fun k => if k = j then 1 else 0) (f j) := by
  have k0 (i) : Same (f i * 0) 0 := Fl.mul_zero_same (hf i).1
  have k1 (i) : Same (f i * 1) (f i) := .inl (Fl.mul_one' (hf i).2)
  have k00 {x y : Fl K} (hx : Same x 0) (hy : Same y 0) : Same (x + y) 0 :=
    (hx.add hy).trans (Fl.add_zero_same (by exact .inl rfl))
  have kx {x y : Fl K} (i) (hx : Same x (f i)) (hy : Same y 0) : Same (x + y) (f i) :=
    (hx.add hy).trans (Fl.add_zero_same (hf i).2)
  have xk {x y : Fl K} (i) (hx : Same x 0) (hy : Same y (f i)) : Same (x + y) (f i) :=
    (hx.add hy).trans (Fl.zero_add_same' (hf i).2)
  cases t
  · change Fin 3 at j
    fin_cases j
    · exact kx 0 (kx 0 (k1 0) (k0 1)) (k0 2)
    · exact kx 1 (xk 1 (k0 0) (k1 1)) (k0 2)
    · exact xk 2 (k00 (k0 0) (k0 1)) (k1 2)
  · change Fin 4 at j
    fin_cases j
    · exact kx 0 (kx 0 (kx 0 (k1 0) (k0 1)) (k0 2)) (k0 3)
    · exact kx 1 (kx 1 (xk 1 (k0 0) (k1 1)) (k0 2)) (k0 3)
    · exact kx 2 (xk 2 (k00 (k0 0) (k0 1)) (k1 2)) (k0 3)
    · exact xk 3 (k00 (k00 (k0 0) (k0 1)) (k0 2)) (k1 3)

/-- C74: `(A B)ᵀ = Bᵀ Aᵀ` bit for bit, for all floats. -/
theorem C74_transpose_mul (t : MatTy) (a b : t.Ty (Fl K)) (h : t.isRowMajor a = t.isRowMajor b) :
    ∃ m, t.mul a b = .ok (some m) ∧ t.mul (t.transpose b) (t.transpose a) = .ok (some (t.transpose m)) := by
  obtain ⟨m, h1, f1, e1⟩ := t.mul_idx a b h
  obtain ⟨m', h2, f2, e2⟩ := t.mul_idx (t.transpose b) (t.transpose a) (by rw [MatTy.transpose_flag, MatTy.transpose_flag, h])
  refine ⟨m, h1, ?_⟩
  rw [h2]
  congr 2
  refine MatTy.ext_idx ?_ fun i j => ?_
  · rw [f2, MatTy.transpose_flag, MatTy.transpose_flag, f1, h]
  · rw [MatTy.idx_transpose, e1, e2, dotL_comm]
    congr 1
    · funext k; exact t.idx_transpose ..
    · funext k; exact t.idx_transpose ..

/-- concrete case: binary64, entries that overflow, are infinite or NaN -/
example := C74_transpose_mul (K := Q64) .mat3 (Mat3.init #v[.fin (1/10), .nzero, .nan, .fin (2^1000), 1, 0, 0, 1, .inf true] true)
  (Mat3.init #v[.fin (1/3), .fin (2^1000), 0, 1, 1, 1, .inf false, 0, .fin (-7)] true) rfl

/-- C74: the identity matrix is neutral on both sides, up to signs of zeros, for every row-major matrix of finite entries. -/
theorem C74_iden (t : MatTy) (a : t.Ty (Fl K)) (A : Matrix (Fin t.dim) (Fin t.dim) (Fl K)) (ha : t.Reads a A)
    (hf : ∀ i j, (A i j).Finite ∧ (A i j).WF) (hl : t.isRowMajor a = true) :
    (∃ m M, t.mul a t.iden = .ok (some m) ∧ t.Reads m M ∧ ∀ i j, Same (M i j) (A i j)) ∧
    (∃ m M, t.mul t.iden a = .ok (some m) ∧ t.Reads m M ∧ ∀ i j, Same (M i j) (A i j)) := by
  obtain ⟨hi, hil⟩ := C01_iden (K := K) t
  replace ha := MatTy.reads_iff.mp ha
  replace hi := MatTy.reads_iff.mp hi
  obtain ⟨m, h1, -, e1⟩ := t.mul_idx a t.iden (by rw [hl, hil])
  obtain ⟨m', h2, -, e2⟩ := t.mul_idx t.iden a (by rw [hl, hil])
  refine ⟨⟨m, fun i j => t.idx m i j, h1, MatTy.reads_iff.mpr fun _ _ => rfl, fun i j => ?_⟩,
    ⟨m', fun i j => t.idx m' i j, h2, MatTy.reads_iff.mpr fun _ _ => rfl, fun i j => ?_⟩⟩
  · show Same (t.idx m i j) (A i j)
    rw [e1]; simp only [hi]
    have := dotL_single t (t.idx a i) (fun k => by rw [ha]; exact hf i k) j
    rw [ha] at this
    exact this
  · show Same (t.idx m' i j) (A i j)
    rw [e2, dotL_comm]
    have : t.idx (t.iden : t.Ty (Fl K)) i = fun k => if k = i then 1 else 0 := by
      funext k; rw [hi]; simp only [eq_comm]
    rw [this]
    have := dotL_single t (fun k => t.idx a k j) (fun k => by rw [ha]; exact hf k j) i
    rw [ha] at this
    exact this

/-- concrete case: binary64 -/
example := C74_iden (K := Q64) .mat3 (Mat3.init #v[.nzero, 1, 0, 0, 1, 1, 1, 0, .nzero] true) _ (C01_init .mat3 _ true).1
  (fun i j => by
    change Fin 3 at i j
    fin_cases i <;> fin_cases j <;> exact ⟨⟨_, rfl⟩, by first | exact trivial | exact .inl rfl | exact .inr (by decide +kernel)⟩) rfl

/-! ### vectors -/

theorem sumL_congr (t : VecTy) {f g : Fin t.dim → Fl K} (h : ∀ i, f i = g i) : t.sumL f = t.sumL g := by rw [funext h]

/-- C74: sums, elementwise products and dot products commute bit for bit, on all six vector types. -/
theorem C74_comm (t : VecTy) (a b : t.Ty (Fl K)) :
    t.plus a b = t.plus b a ∧ t.mulElem a b = t.mulElem b a ∧ t.dot a b = t.dot b a := by
  refine ⟨?_, ?_, ?_⟩
  · obtain ⟨c, h, e⟩ := t.plus_get a b
    obtain ⟨d, h', e'⟩ := t.plus_get b a
    rw [h, h', show c = d from VecTy.ext_get fun i => by rw [e, e', Fl.add_comm']]
  · obtain ⟨c, h, e⟩ := t.mulElem_get a b
    obtain ⟨d, h', e'⟩ := t.mulElem_get b a
    rw [h, h', show c = d from VecTy.ext_get fun i => by rw [e, e', Fl.mul_comm']]
  · rw [t.dot_get, t.dot_get, sumL_congr t fun i => Fl.mul_comm' _ _]

/-- concrete case: binary64 -/
example := C74_comm (K := Q64) .mat1x4 ⟨#v[.fin (1/10), .nan, .nzero, .inf true]⟩ ⟨#v[.fin (1/3), 1, .fin (-7), 0]⟩

/-- C74: the distance of two vectors does not depend on their order, bit for bit. -/
theorem C74_distance (t : VecTy) (a b : t.Ty (Fl K)) : ∃ d d' m, t.minus a b = some d ∧ t.minus b a = some d' ∧
    t.magnitude d = some m ∧ t.magnitude d' = some m := by
  obtain ⟨d, h, e⟩ := t.minus_get a b
  obtain ⟨d', h', e'⟩ := t.minus_get b a
  refine ⟨d, d', _, h, h', t.magnitude_get d, ?_⟩
  rw [t.magnitude_get, sumL_congr t fun i => ?_]
  rw [e, e', (Fl.sub_swap _ _).sq, Fl.neg_mul_neg']

/-- concrete case: binary64 -/
example := C74_distance (K := Q64) .mat3x1 ⟨#v[.fin (1/10), 1, .nzero]⟩ ⟨#v[.fin (1/3), 1, .fin (-7)]⟩

/-- C74: negating all components keeps the magnitude and negates the normalised vector, bit for bit. -/
theorem C74_negated (t : VecTy) (a b : t.Ty (Fl K)) (f : Fin t.dim → Fl K) (ha : t.Reads a f) (hb : t.Reads b fun i => -f i) :
    t.magnitude b = t.magnitude a ∧ ∃ n n' g, t.normalize a = some n ∧ t.normalize b = some n' ∧ t.Reads n g ∧
      t.Reads n' fun i => -g i := by
  rw [VecTy.reads_iff] at ha hb
  have hs : (t.sumL fun i => t.get b i * t.get b i) = t.sumL fun i => t.get a i * t.get a i :=
    sumL_congr t fun i => by rw [ha, hb, Fl.neg_mul_neg']
  obtain ⟨n, h, e⟩ := t.normalize_get a
  obtain ⟨n', h', e'⟩ := t.normalize_get b
  refine ⟨by rw [t.magnitude_get, t.magnitude_get, hs], n, n', t.get n, h, h', VecTy.reads_iff.mpr fun _ => rfl,
    VecTy.reads_iff.mpr fun i => ?_⟩
  rw [e, e', hs, ha, hb, Fl.neg_div']

/-- concrete case: binary64 -/
example := C74_negated (K := Q64) .mat2x1 ⟨#v[.fin 3, .nzero]⟩ ⟨#v[.fin (-3), 0]⟩ ![.fin (3 : ℚ), .nzero]
  (VecTy.reads_iff.mpr fun i => by fin_cases i <;> rfl) (VecTy.reads_iff.mpr fun i => by fin_cases i <;> decide +kernel)

/-- C74: the cross product is anticommutative up to the signs of zeros (both 3-vector types). -/
theorem C74_cross (a b : Mat3x1 (Fl K)) (a' b' : Mat1x3 (Fl K)) :
    (∃ c d, a.cross b = some c ∧ b.cross a = some d ∧ ∀ i : Fin 3, Same c.val[i] (-d.val[i])) ∧
    (∃ c d, a'.cross b' = some c ∧ b'.cross a' = some d ∧ ∀ i : Fin 3, Same c.val[i] (-d.val[i])) := by
  have key (x y x' y' : Fl K) : Same (x * y - x' * y') (-(y' * x' - y * x)) := by
    rw [Fl.mul_comm' y', Fl.mul_comm' y]
    exact Fl.sub_swap _ _
  exact ⟨⟨_, _, rfl, rfl, fun i => by fin_cases i <;> exact key ..⟩, ⟨_, _, rfl, rfl, fun i => by fin_cases i <;> exact key ..⟩⟩

/-- concrete case: binary64 -/
example := C74_cross (K := Q64) ⟨#v[.fin (1/10), 1, .nzero]⟩ ⟨#v[.fin (1/3), 1, .fin (-7)]⟩ ⟨#v[1, 1, 1]⟩ ⟨#v[1, .inf true, .nan]⟩

/-- concrete case: "up to the signs of zeros" cannot be dropped -/
example : (Mat3x1.cross (K := Q64) ⟨#v[1, 1, 1]⟩ ⟨#v[1, 1, 1]⟩).map (fun c => -c.val[0]) = some .nzero ∧
    (Mat3x1.cross (K := Q64) ⟨#v[1, 1, 1]⟩ ⟨#v[1, 1, 1]⟩).map (fun c => c.val[0]) = some 0 := by decide +kernel

/-- C74: scaling by 1 changes nothing, bit for bit. -/
theorem C74_scale_one (t : VecTy) (a : t.Ty (Fl K)) (f : Fin t.dim → Fl K) (ha : t.Reads a f) (hf : ∀ i, (f i).WF) :
    t.scale a 1 = some a := by
  obtain ⟨c, h, e⟩ := t.scale_get a 1
  rw [VecTy.reads_iff] at ha
  rw [h, show c = a from VecTy.ext_get fun i => by rw [e, ha, Fl.mul_one' (hf i)]]

/-- concrete case: binary64 -/
example := C74_scale_one (K := Q64) .mat2x1 ⟨#v[.nzero, 1]⟩ ![.nzero, .fin (1 : ℚ)] (VecTy.reads_iff.mpr fun i => by fin_cases i <;> rfl)
  (fun i => by
    fin_cases i
    · exact trivial
    · exact .inr (by decide +kernel))

/-! ### quaternions -/

namespace Quat

/-- the same components, up to the signs of zeros -/
def Same (p q : Quat (Fl K)) : Prop := Fl.Same p.x q.x ∧ Fl.Same p.y q.y ∧ Fl.Same p.z q.z ∧ Fl.Same p.w q.w

theorem Same.mul {p p' q q' : Quat (Fl K)} (h : Same p p') (h' : Same q q') : Same (p.mul q) (p'.mul q') := by
  obtain ⟨h1, h2, h3, h4⟩ := h
  obtain ⟨k1, k2, k3, k4⟩ := h'
  exact ⟨(((h4.mul k1).add (h1.mul k4)).add (h2.mul k3)).sub (h3.mul k2),
    (((h4.mul k2).sub (h1.mul k3)).add (h2.mul k4)).add (h3.mul k1),
    (((h4.mul k3).add (h1.mul k2)).sub (h2.mul k1)).add (h3.mul k4),
    (((h4.mul k4).sub (h1.mul k1)).sub (h2.mul k2)).sub (h3.mul k3)⟩

theorem neg_sub_same (x y : Fl K) : Fl.Same (-x - -y) (-(x - y)) := by
  rw [Fl.sub_eq, Fl.sub_eq]; exact Fl.neg_add_same x (-y)

theorem negate_mul (p q : Quat (Fl K)) : Same (p.negate.mul q) (p.mul q).negate := by
  simp only [Same, mul, negate, Fl.neg_mul']
  have a {x x' y : Fl K} (h : Fl.Same x' (-x)) : Fl.Same (x' + -y) (-(x + y)) := (h.add (.refl _)).trans (Fl.neg_add_same x y)
  have s {x x' y : Fl K} (h : Fl.Same x' (-x)) : Fl.Same (x' - -y) (-(x - y)) := (h.sub (.refl _)).trans (neg_sub_same x y)
  exact ⟨s (a (a (.refl _))), a (a (s (.refl _))), a (s (a (.refl _))), s (s (s (.refl _)))⟩

theorem mul_negate (p q : Quat (Fl K)) : Same (p.mul q.negate) (p.mul q).negate := by
  have e (x y : Fl K) : x * -y = -(x * y) := by rw [Fl.mul_comm', Fl.neg_mul', Fl.mul_comm']
  simp only [Same, mul, negate, e]
  have a {x x' y : Fl K} (h : Fl.Same x' (-x)) : Fl.Same (x' + -y) (-(x + y)) := (h.add (.refl _)).trans (Fl.neg_add_same x y)
  have s {x x' y : Fl K} (h : Fl.Same x' (-x)) : Fl.Same (x' - -y) (-(x - y)) := (h.sub (.refl _)).trans (neg_sub_same x y)
  exact ⟨s (a (a (.refl _))), a (a (s (.refl _))), a (s (a (.refl _))), s (s (s (.refl _)))⟩

theorem Same.negate {p q : Quat (Fl K)} (h : Same p q) : Same p.negate q.negate := ⟨h.1.neg, h.2.1.neg, h.2.2.1.neg, h.2.2.2.neg⟩
theorem Same.trans {p q r : Quat (Fl K)} (h : Same p q) (h' : Same q r) : Same p r :=
  ⟨h.1.trans h'.1, h.2.1.trans h'.2.1, h.2.2.1.trans h'.2.2.1, h.2.2.2.trans h'.2.2.2⟩
theorem Same.refl (p : Quat (Fl K)) : Same p p := ⟨.refl _, .refl _, .refl _, .refl _⟩

theorem negate_negate (p : Quat (Fl K)) : p.negate.negate = p := by simp [negate, Fl.neg_neg']
theorem conjugate_negate (p : Quat (Fl K)) : p.negate.conjugate = p.conjugate.negate := rfl

theorem negate_mul_negate (p r q : Quat (Fl K)) : Same ((p.negate.mul r).mul q.negate) ((p.mul r).mul q) := by
  have h := ((negate_mul p r).mul (Same.refl q.negate)).trans ((negate_mul _ _).trans (mul_negate (p.mul r) q).negate)
  rwa [negate_negate] at h

end Quat

/-- C74, double cover: a quaternion and its negation have the same length and (bit for bit) the same rotation matrix, and act
on vectors alike up to the signs of zeros, by rotation and by reflection. -/
theorem C74_double_cover (q : Quat (Fl K)) (v : Mat3x1 (Fl K)) (rowMajor : Bool) :
    q.negate.length = q.length ∧ q.negate.lengthSquared = q.lengthSquared ∧
    q.negate.normalize = q.normalize.map Quat.negate ∧
    q.negate.toRotationMatrix rowMajor = q.toRotationMatrix rowMajor ∧
    (∀ i : Fin 3, Same (q.negate.rotateVector v).val[i] (q.rotateVector v).val[i]) ∧
    (∀ i : Fin 3, Same (q.negate.reflectionInPlane v).val[i] (q.reflectionInPlane v).val[i]) := by
  have hl : q.negate.length = q.length := by simp only [Quat.length, Quat.negate, Fl.neg_mul_neg']
  refine ⟨hl, by simp only [Quat.lengthSquared, Quat.negate, Fl.neg_mul_neg'], ?_, ?_, fun i => ?_, fun i => ?_⟩
  · simp only [Quat.normalize, hl]
    split
    · simp only [Quat.negate, Fl.neg_div']; rfl
    · rfl
  · cases rowMajor <;> simp only [Quat.toRotationMatrix, Quat.negate, Fl.neg_mul_neg']
  · obtain ⟨h1, h2, h3, -⟩ := Quat.negate_mul_negate q ⟨v.val[0], v.val[1], v.val[2], 0⟩ q.conjugate
    fin_cases i
    · exact h1
    · exact h2
    · exact h3
  · obtain ⟨h1, h2, h3, -⟩ := Quat.negate_mul_negate q ⟨v.val[0], v.val[1], v.val[2], 0⟩ q
    fin_cases i
    · exact h1
    · exact h2
    · exact h3

/-- concrete case: binary64 -/
example := C74_double_cover (K := Q64) ⟨.fin (1/10), .nzero, .fin (-7), 1⟩ ⟨#v[1, .fin (1/3), 0]⟩ true

/-- C74: the identity quaternion is neutral on both sides, up to signs of zeros, for every quaternion of finite components. -/
theorem C74_quat_one (q : Quat (Fl K)) (hx : q.x.Finite ∧ q.x.WF) (hy : q.y.Finite ∧ q.y.WF) (hz : q.z.Finite ∧ q.z.WF)
    (hw : q.w.Finite ∧ q.w.WF) : (q.mul .init).Same q ∧ (Quat.init.mul q).Same q := by
  have z {x : Fl K} (h : x.Finite ∧ x.WF) : Same (x * 0) 0 := Fl.mul_zero_same h.1
  have z' {x : Fl K} (h : x.Finite ∧ x.WF) : Same (0 * x) 0 := Fl.zero_mul_same' h.1
  have o {x : Fl K} (h : x.Finite ∧ x.WF) : Same (x * 1) x := .inl (Fl.mul_one' h.2)
  have o' {x : Fl K} (h : x.Finite ∧ x.WF) : Same (1 * x) x := .inl (Fl.one_mul' h.2)
  have n0 : Same (-(0 : Fl K)) 0 := .inr ⟨by show Fl.val (Fl.neg (.fin 0)) = _; simp [Fl.neg, Fl.val], rfl⟩
  have a {x y u : Fl K} (h : x.Finite ∧ x.WF) (hu : Same u x) (hy : Same y 0) : Same (u + y) x :=
    (hu.add hy).trans (Fl.add_zero_same h.2)
  have s {x y u : Fl K} (h : x.Finite ∧ x.WF) (hu : Same u x) (hy : Same y 0) : Same (u - y) x := by
    rw [Fl.sub_eq]; exact a h hu (hy.neg.trans n0)
  have a' {x y u : Fl K} (h : x.Finite ∧ x.WF) (hu : Same u 0) (hy : Same y x) : Same (u + y) x :=
    (hu.add hy).trans (Fl.zero_add_same' h.2)
  have h0 : (0 : Fl K).Finite ∧ (0 : Fl K).WF := ⟨⟨_, rfl⟩, .inl rfl⟩
  refine ⟨⟨?_, ?_, ?_, ?_⟩, ⟨?_, ?_, ?_, ?_⟩⟩
  · exact s hx (a hx (a' hx (z hw) (o hx)) (z hy)) (z hz)
  · exact a hy (a' hy (s h0 (z hw) (z hx)) (o hy)) (z hz)
  · exact a' hz (s h0 (a h0 (z hw) (z hx)) (z hy)) (o hz)
  · exact s hw (s hw (s hw (o hw) (z hx)) (z hy)) (z hz)
  · exact s hx (a hx (a hx (o' hx) (z' hw)) (z' hz)) (z' hy)
  · exact a hy (a hy (s hy (o' hy) (z' hz)) (z' hw)) (z' hx)
  · exact a hz (s hz (a hz (o' hz) (z' hy)) (z' hx)) (z' hw)
  · exact s hw (s hw (s hw (o' hw) (z' hx)) (z' hy)) (z' hz)

/-- concrete case: binary64 -/
example := C74_quat_one (K := Q64) ⟨1, .nzero, 0, 1⟩ ⟨⟨_, rfl⟩, .inr (by decide +kernel)⟩ ⟨⟨_, rfl⟩, trivial⟩ ⟨⟨_, rfl⟩, .inl rfl⟩
  ⟨⟨_, rfl⟩, .inr (by decide +kernel)⟩

/-! ### queries -/

/-- C74: the answer of a sphere-sphere query does not depend on the order, for all spheres. -/
theorem C74_sphere_sphere (s t : Sphere K) (n : ℕ) :
    (Shape.getIntersect (n + 2) (.sphere s) (.sphere t)).map Prod.fst = (Shape.getIntersect (n + 2) (.sphere t) (.sphere s)).map Prod.fst := by
  rw [getIntersect_eq, getIntersect_eq, AABB.overlap_comm]
  split
  · have hm : V3.mag (V3.sub t.ori s.ori) = V3.mag (V3.sub s.ori t.ori) := by
      obtain ⟨d, d', m, h1, h2, h3, h4⟩ := C74_distance .mat3x1 t.ori s.ori
      have h1 : V3.sub t.ori s.ori = d := Option.some.inj ((V3.minus_eq _ _).symm.trans h1)
      have h2 : V3.sub s.ori t.ori = d' := Option.some.inj ((V3.minus_eq _ _).symm.trans h2)
      have h3 : V3.mag d = m := Option.some.inj ((V3.magnitude_eq _).symm.trans h3)
      have h4 : V3.mag d' = m := Option.some.inj ((V3.magnitude_eq _).symm.trans h4)
      rw [h1, h2, h3, h4]
    simp only [core]
    unfold Sphere.intersectSphere
    simp only [vecAt_sphere, sliceGet_sphere, Res.ok_bind, V3.minus_eq, V3.magnitude_eq, V3.scale_eq, V3.plus_eq, unwrap_some, Res.pure_eq,
      hm, Fl.add_comm' t.radius]
    split <;> rfl
  · rfl

/-- concrete case: two overlapping balls of binary64 -/
example : ∃ s t : Sphere Q64, Sphere.init [0, 0, .fin (1/10)] 1 = .ok s ∧ Sphere.init [1, 0, 0] (.fin (1/3)) = .ok t ∧
    (Shape.getIntersect 2 (.sphere s) (.sphere t)).map Prod.fst = .ok true ∧
    (Shape.getIntersect 2 (.sphere t) (.sphere s)).map Prod.fst = .ok true :=
  ⟨_, _, rfl, rfl, by decide +kernel, by rw [← C74_sphere_sphere]; decide +kernel⟩

theorem same_of_not_lt {x y : Fl K} (h : Fl.lt x y = false) (h' : Fl.lt y x = false) : x = .nan ∨ y = .nan ∨ Same x y := by
  cases x with
  | nan => simp
  | inf s => cases y <;> cases s <;> simp_all [Fl.lt, Fl.Same]
  | nzero =>
    cases y with
    | nan => simp
    | inf s => cases s <;> simp_all [Fl.lt]
    | nzero => exact .inr (.inr (.refl _))
    | fin b =>
      simp only [Fl.lt, decide_eq_false_iff_not, not_lt] at h h'
      obtain rfl := le_antisymm h h'
      exact .inr (.inr (.inr ⟨rfl, rfl⟩))
  | fin a =>
    cases y with
    | nan => simp
    | inf s => cases s <;> simp_all [Fl.lt]
    | nzero =>
      simp only [Fl.lt, decide_eq_false_iff_not, not_lt] at h h'
      obtain rfl := le_antisymm h h'
      exact .inr (.inr (.inr ⟨rfl, rfl⟩))
    | fin b =>
      simp only [Fl.lt, decide_eq_false_iff_not, not_lt] at h h'
      obtain rfl := le_antisymm h h'
      exact .inr (.inr (.refl _))

theorem within_comm {x y : Fl K} (v : Fl K) (h : Fl.lt x y = false) (h' : Fl.lt y x = false) :
    withinVicinity v x y = withinVicinity v y x := by
  unfold withinVicinity
  rcases same_of_not_lt h h' with rfl | rfl | h
  · rw [NaN.nadd]; cases y <;> simp [Fl.le]
  · rw [NaN.nadd]; cases x <;> simp [Fl.le]
  · rw [Fl.le_congr h.symm (h.add (.refl v)), Fl.le_congr (h.sub (.refl v)) h.symm]

/-- C74: the answer of a point-point query does not depend on the order, for all points with the same tolerance. -/
theorem C74_point_point (l l' : List (Fl K)) (p q : Point3 K) (hp : Point3.init l = .ok p) (hq : Point3.init l' = .ok q)
    (e : Fl K) (n : ℕ) :
    (Shape.getIntersect (n + 2) ((Shape.point p).setVicinity e) ((Shape.point q).setVicinity e)).map Prod.fst =
      (Shape.getIntersect (n + 2) ((Shape.point q).setVicinity e) ((Shape.point p).setVicinity e)).map Prod.fst := by
  obtain ⟨x, y, z, rfl, ho, hb⟩ := point_init_eq hp
  obtain ⟨x', y', z', rfl, ho', hb'⟩ := point_init_eq hq
  rw [getIntersect_eq, getIntersect_eq, AABB.overlap_comm]
  by_cases hov : AABB.overlap ((Shape.point q).setVicinity e).aabb ((Shape.point p).setVicinity e).aabb = true
  · rw [if_pos hov, if_pos hov]
    have hov : AABB.overlap q.bound p.bound = true := hov
    rw [AABB.overlap_iff, hb, hb'] at hov
    have h0 := within_comm e.abs (hov 0).1 (hov 0).2
    have h1 := within_comm e.abs (hov 1).1 (hov 1).2
    have h2 := within_comm e.abs (hov 2).1 (hov 2).2
    simp at h0 h1 h2
    simp only [Shape.setVicinity, core, ho, ho']
    simp [h0, h1, h2]
    split <;> rfl
  · rw [if_neg hov, if_neg hov]

/-- concrete case: the points (0,1,0) and (-0,1,0) of binary64 -/
example := C74_point_point (K := Q64) [0, 1, 0] [.nzero, 1, 0] _ _ rfl rfl (.fin (-1)) 0

end Mazth
