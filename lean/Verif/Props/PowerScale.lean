import Verif.Props.FloatInverse
import Verif.Proofs.Scale2Sc

/-!
# C92: changing the unit by a power of two

Multiplying a binary64 number by a power of two only shifts its exponent.  An operation that is homogeneous (sums, products,
lengths, inverses) must therefore give *exactly* the shifted result, bit for bit, with every rounding falling the same way -
unless something leaves the range of the exponent.  This is proved for numbers that are zero, not finite, or of size between
`2^-100` and `2^100`, and shifts of at most 100 places.
-/

set_option linter.unusedSectionVars false
set_option autoImplicit false

namespace Mazth

open Bin

/-- a binary64 datum that is zero, not finite, or of size between `2^-100` and `2^100` -/
def Fl.Mid (x : Fl Q64) : Prop := x.WF ∧ ∀ a : Q64, x.Is a → a.q = 0 ∨ pow2 (-100) ≤ |a.q| ∧ |a.q| ≤ pow2 100

/-- all components are zero, not finite or of moderate size -/
def VecTy.Mid (t : VecTy) (a : t.Ty (Fl Q64)) : Prop := ∃ f, t.Reads a f ∧ ∀ i, (f i).Mid

/-- the components of `a'` are those of `a` times `2^k` exactly -/
def VecTy.Shift (t : VecTy) (k : ℤ) (a a' : t.Ty (Fl Q64)) : Prop := ∃ f, t.Reads a f ∧ t.Reads a' fun i => Fl.scale2 k (f i)

/-- all entries are zero, not finite or of moderate size -/
def MatTy.Mid (t : MatTy) (a : t.Ty (Fl Q64)) : Prop := ∃ f, t.Reads a f ∧ ∀ i j, (f i j).Mid

/-- the entries of `a'` are those of `a` times `2^k` exactly, stored in the same order -/
def MatTy.Shift (t : MatTy) (k : ℤ) (a a' : t.Ty (Fl Q64)) : Prop :=
  t.isRowMajor a' = t.isRowMajor a ∧ ∃ f, t.Reads a f ∧ t.Reads a' (f.map (Fl.scale2 k))

/-- all components are zero, not finite or of moderate size -/
def Quat.Mid (q : Quat (Fl Q64)) : Prop := q.x.Mid ∧ q.y.Mid ∧ q.z.Mid ∧ q.w.Mid

/-- the components of `q'` are those of `q` times `2^k` exactly -/
def Quat.Shift (k : ℤ) (q q' : Quat (Fl Q64)) : Prop :=
  q' = ⟨Fl.scale2 k q.x, Fl.scale2 k q.y, Fl.scale2 k q.z, Fl.scale2 k q.w⟩

namespace PS

open Fl

variable {e b f c m n k j : ℤ} {x x' y y' s s' : Fl Q64}

theorem mid_ext (h : x.Mid) : x.Ext (-152) 100 := by
  cases x with
  | nan => exact .inr (.inl rfl)
  | inf s => exact .inr (.inr ⟨s, rfl⟩)
  | nzero => exact .inl (Fl.zero_rg true)
  | fin v =>
    refine .inl ⟨v, rfl, ?_⟩
    rcases h.2 v rfl with h0 | ⟨h1, h2⟩
    · rw [h0, abs_zero]; exact ⟨Gr.zero _, (pow2_pos _).le⟩
    · exact ⟨by have := Gr.of_rep (p := 53) (emin := -1074) (emax := 1024) (v := v.q) h.1 h1; norm_num at this; exact this, h2⟩

theorem mid_sc (h : x.Mid) : Fl.Sc (-152) 100 k x (Fl.scale2 k x) := ⟨mid_ext h, rfl⟩

theorem vget {t : VecTy} {a a' : t.Ty (Fl Q64)} (h : t.Mid a) (hs : t.Shift k a a') (i : Fin t.dim) :
    Fl.Sc (-152) 100 k (t.get a i) (t.get a' i) := by
  obtain ⟨f, hf, hm⟩ := h
  obtain ⟨g, hg, hg'⟩ := hs
  rw [VecTy.reads_iff] at hf hg hg'
  refine ⟨by rw [hf i]; exact mid_ext (hm i), by rw [hg' i, hg i]⟩

theorem vshift {t : VecTy} {a a' : t.Ty (Fl Q64)} (h : ∀ i, ∃ e b, Fl.Sc e b k (t.get a i) (t.get a' i)) : t.Shift k a a' :=
  ⟨t.get a, VecTy.reads_self a, VecTy.reads_iff.mpr fun i => by obtain ⟨e, b, h⟩ := h i; exact h.2⟩

theorem vsum {t : VecTy} {f f' : Fin t.dim → Fl Q64} (h : ∀ i, Fl.Sc e b m (f i) (f' i)) (h0 : -1074 ≤ b := by omega) (h1 : b + 3 < 1024 := by omega)
    (h2 : -1074 ≤ e := by omega) (h3 : -1074 ≤ e + m := by omega) (h4 : b + 3 + m < 1024 := by omega) : Fl.Sc e (b + 3) m (t.sumL f) (t.sumL f') := by
  cases t
  · exact ((h 0).add (h 1)).mono
  · exact ((h 0).add (h 1)).mono
  · exact (((h 0).add (h 1)).add (h 2)).mono
  · exact (((h 0).add (h 1)).add (h 2)).mono
  · exact ((((h 0).add (h 1)).add (h 2)).add (h 3)).mono
  · exact ((((h 0).add (h 1)).add (h 2)).add (h 3)).mono

theorem abs_le' (h : |k| ≤ 100) : -100 ≤ k ∧ k ≤ 100 := abs_le.mp h

end PS

open PS

/-- **C92** sums and differences of vectors -/
theorem C92_vector_linear (t : VecTy) {k : ℤ} (hk : |k| ≤ 100) {a a' b b' : t.Ty (Fl Q64)} (ha : t.Mid a) (hb : t.Mid b)
    (sa : t.Shift k a a') (sb : t.Shift k b b') :
    (∃ c c', t.plus a b = some c ∧ t.plus a' b' = some c' ∧ t.Shift k c c') ∧
    (∃ c c', t.minus a b = some c ∧ t.minus a' b' = some c' ∧ t.Shift k c c') := by
  obtain ⟨hk1, hk2⟩ := PS.abs_le' hk
  constructor
  · obtain ⟨c, h1, h2⟩ := t.plus_get a b
    obtain ⟨c', h1', h2'⟩ := t.plus_get a' b'
    exact ⟨c, c', h1, h1', vshift fun i => ⟨_, _, by rw [h2, h2']; exact (vget ha sa i).add (vget hb sb i)⟩⟩
  · obtain ⟨c, h1, h2⟩ := t.minus_get a b
    obtain ⟨c', h1', h2'⟩ := t.minus_get a' b'
    exact ⟨c, c', h1, h1', vshift fun i => ⟨_, _, by rw [h2, h2']; exact (vget ha sa i).sub (vget hb sb i)⟩⟩

/-- **C92** products and quotients by components, multiples, inner product: the shifts add up (subtract for quotients) -/
theorem C92_vector_products (t : VecTy) {j k : ℤ} (hj : |j| ≤ 100) (hk : |k| ≤ 100) {a a' b b' : t.Ty (Fl Q64)} {s : Fl Q64}
    (ha : t.Mid a) (hb : t.Mid b) (hs : s.Mid) (sa : t.Shift j a a') (sb : t.Shift k b b') :
    (∃ c c', t.mulElem a b = some c ∧ t.mulElem a' b' = some c' ∧ t.Shift (j + k) c c') ∧
    (∃ c c', t.div a b = some c ∧ t.div a' b' = some c' ∧ t.Shift (j - k) c c') ∧
    (∃ c c', t.scale a s = some c ∧ t.scale a' (Fl.scale2 k s) = some c' ∧ t.Shift (j + k) c c') ∧
    (∃ d, t.dot a b = some d ∧ t.dot a' b' = some (Fl.scale2 (j + k) d)) := by
  obtain ⟨hk1, hk2⟩ := PS.abs_le' hk
  obtain ⟨hj1, hj2⟩ := PS.abs_le' hj
  refine ⟨?_, ?_, ?_, ?_⟩
  · obtain ⟨c, h1, h2⟩ := t.mulElem_get a b
    obtain ⟨c', h1', h2'⟩ := t.mulElem_get a' b'
    exact ⟨c, c', h1, h1', vshift fun i => ⟨_, _, by rw [h2, h2']; exact (vget ha sa i).mul (vget hb sb i)⟩⟩
  · obtain ⟨c, h1, h2⟩ := t.div_get a b
    obtain ⟨c', h1', h2'⟩ := t.div_get a' b'
    exact ⟨c, c', h1, h1', vshift fun i => ⟨_, _, by rw [h2, h2']; exact (vget ha sa i).div (vget hb sb i)⟩⟩
  · obtain ⟨c, h1, h2⟩ := t.scale_get a s
    obtain ⟨c', h1', h2'⟩ := t.scale_get a' (Fl.scale2 k s)
    exact ⟨c, c', h1, h1', vshift fun i => ⟨_, _, by rw [h2, h2']; exact (vget ha sa i).mul (mid_sc hs)⟩⟩
  · refine ⟨_, t.dot_get a b, (t.dot_get a' b').trans (congrArg some ?_)⟩
    exact (vsum fun i => (vget ha sa i).mul (vget hb sb i)).2

/-- **C92** the length is shifted by the same amount; the normalised vector is the same bit for bit -/
theorem C92_vector_length (t : VecTy) {k : ℤ} (hk : |k| ≤ 100) {a a' : t.Ty (Fl Q64)} (ha : t.Mid a) (sa : t.Shift k a a') :
    (∃ l, t.magnitude a = some l ∧ t.magnitude a' = some (Fl.scale2 k l)) ∧ t.normalize a' = t.normalize a := by
  obtain ⟨hk1, hk2⟩ := PS.abs_le' hk
  have hl := (vsum fun i => (vget ha sa i).mul (vget ha sa i)).sqrt
  refine ⟨⟨_, t.magnitude_get a, (t.magnitude_get a').trans (congrArg some hl.2)⟩, ?_⟩
  obtain ⟨c, h1, h2⟩ := t.normalize_get a
  obtain ⟨c', h1', h2'⟩ := t.normalize_get a'
  rw [h1, h1']
  refine congrArg some (VecTy.ext_get fun i => ?_)
  rw [h2, h2']
  exact (vget ha sa i).div_same hl

/-- **C92** comparison of vectors up to a tolerance: the same answer when the tolerance is shifted too -/
theorem C92_vector_equal (t : VecTy) {k : ℤ} (hk : |k| ≤ 100) {a a' b b' : t.Ty (Fl Q64)} {s : Fl Q64} (ha : t.Mid a) (hb : t.Mid b)
    (hs : s.Mid) (sa : t.Shift k a a') (sb : t.Shift k b b') : t.isEqual a' b' (Fl.scale2 k s) = t.isEqual a b s := by
  obtain ⟨hk1, hk2⟩ := PS.abs_le' hk
  obtain ⟨r, h1, h2⟩ := t.isEqual_iff a b s
  obtain ⟨r', h1', h2'⟩ := t.isEqual_iff a' b' (Fl.scale2 k s)
  rw [h1, h1']
  refine congrArg some (Bool.eq_iff_iff.mpr (h2'.trans (Iff.trans (forall_congr' fun i => ?_) h2.symm)))
  rw [((vget hb sb i).sub (mid_sc hs)).le (vget ha sa i), (vget ha sa i).le ((vget hb sb i).add (mid_sc hs))]

/-- **C92** the cross product of three-component vectors -/
theorem C92_vector_cross (t : VecTy) (ht : t.dim = 3) {j k : ℤ} (hj : |j| ≤ 100) (hk : |k| ≤ 100) {a a' b b' : t.Ty (Fl Q64)}
    (ha : t.Mid a) (hb : t.Mid b) (sa : t.Shift j a a') (sb : t.Shift k b b') :
    ∃ c c', t.cross a b = some c ∧ t.cross a' b' = some c' ∧ t.Shift (j + k) c c' := by
  obtain ⟨hk1, hk2⟩ := PS.abs_le' hk
  obtain ⟨hj1, hj2⟩ := PS.abs_le' hj
  have A := vget ha sa
  have B := vget hb sb
  cases t <;> first | exact absurd ht (by decide) | skip
  all_goals
    have p (i i' l l' : Fin 3) := ((A i).mul (B i')).sub ((A l).mul (B l'))
    refine ⟨_, _, rfl, rfl, vshift fun i => ?_⟩
    fin_cases i
    · exact ⟨_, _, p 1 2 2 1⟩
    · exact ⟨_, _, p 2 0 0 2⟩
    · exact ⟨_, _, p 0 1 1 0⟩

/-! ## matrices -/

namespace PS

open Fl

variable {e b f c m n k j : ℤ}

theorem mget {t : MatTy} {a a' : t.Ty (Fl Q64)} (h : t.Mid a) (hs : t.Shift k a a') (i l : Fin t.dim) :
    Fl.Sc (-152) 100 k (t.idx a i l) (t.idx a' i l) := by
  obtain ⟨f, hf, hm⟩ := h
  obtain ⟨-, g, hg, hg'⟩ := hs
  rw [MatTy.reads_iff] at hf hg hg'
  refine ⟨by rw [hf i l]; exact mid_ext (hm i l), by rw [hg' i l, hg i l]; rfl⟩

theorem mshift {t : MatTy} {a a' : t.Ty (Fl Q64)} (hf : t.isRowMajor a' = t.isRowMajor a)
    (h : ∀ i l, ∃ e b, Fl.Sc e b k (t.idx a i l) (t.idx a' i l)) : t.Shift k a a' :=
  ⟨hf, t.idx a, MatTy.reads_self a, MatTy.reads_iff.mpr fun i l => by obtain ⟨e, b, h⟩ := h i l; exact h.2⟩

theorem mdot {t : MatTy} {f f' g g' : Fin t.dim → Fl Q64} (hf : ∀ i, Fl.Sc (-152) 100 j (f i) (f' i)) (hg : ∀ i, Fl.Sc (-152) 100 k (g i) (g' i))
    (hj1 : -100 ≤ j) (hj2 : j ≤ 100) (hk1 : -100 ≤ k) (hk2 : k ≤ 100) : Fl.Sc (-304) 203 (j + k) (t.dotL f g) (t.dotL f' g') := by
  have p (i) := (hf i).mul (hg i)
  cases t
  · exact (((p 0).add (p 1)).add (p 2)).mono
  · exact ((((p 0).add (p 1)).add (p 2)).add (p 3)).mono

end PS

/-- **C92** sums and differences of matrices, and the trace -/
theorem C92_matrix_linear (t : MatTy) {k : ℤ} (hk : |k| ≤ 100) {a a' b b' : t.Ty (Fl Q64)} (ha : t.Mid a) (hb : t.Mid b)
    (sa : t.Shift k a a') (sb : t.Shift k b b') (h : t.isRowMajor a = t.isRowMajor b) :
    (∃ c c', t.plus a b = some c ∧ t.plus a' b' = some c' ∧ t.Shift k c c') ∧
    (∃ c c', t.minus a b = some c ∧ t.minus a' b' = some c' ∧ t.Shift k c c') ∧
    t.trace a' = Fl.scale2 k (t.trace a) := by
  obtain ⟨hk1, hk2⟩ := PS.abs_le' hk
  have h' : t.isRowMajor a' = t.isRowMajor b' := by rw [sa.1, sb.1, h]
  refine ⟨?_, ?_, ?_⟩
  · obtain ⟨c, h1, h2, h3⟩ := t.plus_idx a b h
    obtain ⟨c', h1', h2', h3'⟩ := t.plus_idx a' b' h'
    exact ⟨c, c', h1, h1', mshift (by rw [h2, h2', sa.1]) fun i l => ⟨_, _, by rw [h3, h3']; exact (mget ha sa i l).add (mget hb sb i l)⟩⟩
  · obtain ⟨c, h1, h2, h3⟩ := t.minus_idx a b h
    obtain ⟨c', h1', h2', h3'⟩ := t.minus_idx a' b' h'
    exact ⟨c, c', h1, h1', mshift (by rw [h2, h2', sa.1]) fun i l => ⟨_, _, by rw [h3, h3']; exact (mget ha sa i l).sub (mget hb sb i l)⟩⟩
  · rw [t.trace_eq, t.trace_eq]
    have p (i) := mget ha sa i i
    cases t
    · exact (((p 0).add (p 1)).add (p 2)).2
    · exact ((((p 0).add (p 1)).add (p 2)).add (p 3)).2

/-- **C92** the matrix product (and its panic for operands stored in different orders), products with column and row vectors,
multiples, and the division by the last entry -/
theorem C92_matrix_products (t : MatTy) {j k : ℤ} (hj : |j| ≤ 100) (hk : |k| ≤ 100) {a a' b b' : t.Ty (Fl Q64)} {s : Fl Q64}
    {v v' : t.col.Ty (Fl Q64)} {w w' : t.row.Ty (Fl Q64)} (ha : t.Mid a) (hb : t.Mid b) (hs : s.Mid) (hv : t.col.Mid v) (hw : t.row.Mid w)
    (sa : t.Shift j a a') (sb : t.Shift k b b') (sv : t.col.Shift k v v') (sw : t.row.Shift k w w') :
    ((∃ c c', t.mul a b = .ok (some c) ∧ t.mul a' b' = .ok (some c') ∧ t.Shift (j + k) c c') ∨
      t.mul a b = .error .assertFailed ∧ t.mul a' b' = .error .assertFailed) ∧
    (∃ c c', t.mulCol a v = some c ∧ t.mulCol a' v' = some c' ∧ t.col.Shift (j + k) c c') ∧
    (∃ c c', t.rowMul w a = some c ∧ t.rowMul w' a' = some c' ∧ t.row.Shift (j + k) c c') ∧
    (∃ c c', t.scale a s = some c ∧ t.scale a' (Fl.scale2 k s) = some c' ∧ t.Shift (j + k) c c') ∧
    (t.normalize a' = t.normalize a) := by
  obtain ⟨hk1, hk2⟩ := PS.abs_le' hk
  obtain ⟨hj1, hj2⟩ := PS.abs_le' hj
  refine ⟨?_, ?_, ?_, ?_, ?_⟩
  · by_cases h : t.isRowMajor a = t.isRowMajor b
    · obtain ⟨c, h1, h2, h3⟩ := t.mul_idx a b h
      obtain ⟨c', h1', h2', h3'⟩ := t.mul_idx a' b' (by rw [sa.1, sb.1, h])
      exact .inl ⟨c, c', h1, h1', mshift (by rw [h2, h2', sa.1]) fun i l => ⟨_, _, by
        rw [h3, h3']; exact mdot (mget ha sa i) (fun i => mget hb sb i l) hj1 hj2 hk1 hk2⟩⟩
    · exact .inr ⟨t.mul_panic a b h, t.mul_panic a' b' (by rw [sa.1, sb.1]; exact h)⟩
  · obtain ⟨c, h1, h2⟩ := t.mulCol_get a v
    obtain ⟨c', h1', h2'⟩ := t.mulCol_get a' v'
    refine ⟨c, c', h1, h1', vshift fun i => ⟨-304, 203, ?_⟩⟩
    have e1 := h2 (i.cast t.col_dim)
    have e2 := h2' (i.cast t.col_dim)
    rw [show (i.cast t.col_dim).cast t.col_dim.symm = i from rfl] at e1 e2
    rw [e1, e2]
    exact mdot (mget ha sa _) (fun i => vget hv sv _) hj1 hj2 hk1 hk2
  · obtain ⟨c, h1, h2⟩ := t.rowMul_get a w
    obtain ⟨c', h1', h2'⟩ := t.rowMul_get a' w'
    refine ⟨c, c', h1, h1', vshift fun i => ⟨-304, 203, ?_⟩⟩
    have e1 := h2 (i.cast t.row_dim)
    have e2 := h2' (i.cast t.row_dim)
    rw [show (i.cast t.row_dim).cast t.row_dim.symm = i from rfl] at e1 e2
    rw [e1, e2]
    exact mdot (fun i => mget ha sa i _) (fun i => vget hw sw _) hj1 hj2 hk1 hk2
  · obtain ⟨c, h1, h2, h3⟩ := t.scale_idx a s
    obtain ⟨c', h1', h2', h3'⟩ := t.scale_idx a' (Fl.scale2 k s)
    exact ⟨c, c', h1, h1', mshift (by rw [h2, h2', sa.1]) fun i l => ⟨_, _, by rw [h3, h3']; exact (mget ha sa i l).mul (mid_sc hs)⟩⟩
  · obtain ⟨c, h1, h2, h3⟩ := t.normalize_idx a
    obtain ⟨c', h1', h2', h3'⟩ := t.normalize_idx a'
    rw [h1, h1']
    refine congrArg some (MatTy.ext_idx (by rw [h2, h2', sa.1]) fun i l => ?_)
    rw [h3, h3']
    exact (mget ha sa i l).div_same (mget ha sa _ _)

namespace PS

open Fl

variable {e b f c m n k j : ℤ}

theorem trip {x x' y y' z z' : Fl Q64} (hx : Fl.Sc (-152) 100 k x x') (hy : Fl.Sc (-152) 100 k y y') (hz : Fl.Sc (-152) 100 k z z')
    (hk1 : -100 ≤ k) (hk2 : k ≤ 100) : Fl.Sc (-456) 300 (k + k + k) (x * y * z) (x' * y' * z') := (hx.mul hy).mul hz

section six

variable {t1 t2 t3 t4 t5 t6 t1' t2' t3' t4' t5' t6' : Fl Q64} (h1 : Fl.Sc (-456) 300 (k + k + k) t1 t1') (h2 : Fl.Sc (-456) 300 (k + k + k) t2 t2')
  (h3 : Fl.Sc (-456) 300 (k + k + k) t3 t3') (h4 : Fl.Sc (-456) 300 (k + k + k) t4 t4') (h5 : Fl.Sc (-456) 300 (k + k + k) t5 t5')
  (h6 : Fl.Sc (-456) 300 (k + k + k) t6 t6') (hk1 : -100 ≤ k) (hk2 : k ≤ 100)
include h1 h2 h3 h4 h5 h6 hk1 hk2

theorem six_pos : Fl.Sc (-456) 305 (k + k + k) (t1 - t2 - t3 + t4 + t5 - t6) (t1' - t2' - t3' + t4' + t5' - t6') :=
  (((((h1.sub h2).sub h3).add h4).add h5).sub h6).mono

theorem six_neg : Fl.Sc (-456) 305 (k + k + k) (t1 + t2 + t3 - t4 - t5 + t6) (t1' + t2' + t3' - t4' - t5' + t6') :=
  (((((h1.add h2).add h3).sub h4).sub h5).add h6).mono

end six

section adj

variable {F F' : Fin 4 → Fin 4 → Fl Q64} (h : ∀ i j, Fl.Sc (-152) 100 k (F i j) (F' i j)) (hk1 : -100 ≤ k) (hk2 : k ≤ 100)
include h hk1 hk2

theorem adj4_sc00 : Fl.Sc (-456) 305 (k + k + k) (adj4 F 0 0) (adj4 F' 0 0) :=
  six_pos (trip (h 1 1) (h 2 2) (h 3 3) hk1 hk2) (trip (h 1 1) (h 3 2) (h 2 3) hk1 hk2) (trip (h 1 2) (h 2 1) (h 3 3) hk1 hk2)
    (trip (h 1 2) (h 3 1) (h 2 3) hk1 hk2) (trip (h 1 3) (h 2 1) (h 3 2) hk1 hk2) (trip (h 1 3) (h 3 1) (h 2 2) hk1 hk2) hk1 hk2

theorem adj4_sc01 : Fl.Sc (-456) 305 (k + k + k) (adj4 F 0 1) (adj4 F' 0 1) :=
  six_neg (trip (h 0 1).neg (h 2 2) (h 3 3) hk1 hk2) (trip (h 0 1) (h 3 2) (h 2 3) hk1 hk2) (trip (h 0 2) (h 2 1) (h 3 3) hk1 hk2)
    (trip (h 0 2) (h 3 1) (h 2 3) hk1 hk2) (trip (h 0 3) (h 2 1) (h 3 2) hk1 hk2) (trip (h 0 3) (h 3 1) (h 2 2) hk1 hk2) hk1 hk2

theorem adj4_sc02 : Fl.Sc (-456) 305 (k + k + k) (adj4 F 0 2) (adj4 F' 0 2) :=
  six_pos (trip (h 0 1) (h 1 2) (h 3 3) hk1 hk2) (trip (h 0 1) (h 3 2) (h 1 3) hk1 hk2) (trip (h 0 2) (h 1 1) (h 3 3) hk1 hk2)
    (trip (h 0 2) (h 3 1) (h 1 3) hk1 hk2) (trip (h 0 3) (h 1 1) (h 3 2) hk1 hk2) (trip (h 0 3) (h 3 1) (h 1 2) hk1 hk2) hk1 hk2

theorem adj4_sc03 : Fl.Sc (-456) 305 (k + k + k) (adj4 F 0 3) (adj4 F' 0 3) :=
  six_neg (trip (h 0 1).neg (h 1 2) (h 2 3) hk1 hk2) (trip (h 0 1) (h 2 2) (h 1 3) hk1 hk2) (trip (h 0 2) (h 1 1) (h 2 3) hk1 hk2)
    (trip (h 0 2) (h 2 1) (h 1 3) hk1 hk2) (trip (h 0 3) (h 1 1) (h 2 2) hk1 hk2) (trip (h 0 3) (h 2 1) (h 1 2) hk1 hk2) hk1 hk2

theorem adj4_sc10 : Fl.Sc (-456) 305 (k + k + k) (adj4 F 1 0) (adj4 F' 1 0) :=
  six_neg (trip (h 1 0).neg (h 2 2) (h 3 3) hk1 hk2) (trip (h 1 0) (h 3 2) (h 2 3) hk1 hk2) (trip (h 1 2) (h 2 0) (h 3 3) hk1 hk2)
    (trip (h 1 2) (h 3 0) (h 2 3) hk1 hk2) (trip (h 1 3) (h 2 0) (h 3 2) hk1 hk2) (trip (h 1 3) (h 3 0) (h 2 2) hk1 hk2) hk1 hk2

theorem adj4_sc11 : Fl.Sc (-456) 305 (k + k + k) (adj4 F 1 1) (adj4 F' 1 1) :=
  six_pos (trip (h 0 0) (h 2 2) (h 3 3) hk1 hk2) (trip (h 0 0) (h 3 2) (h 2 3) hk1 hk2) (trip (h 0 2) (h 2 0) (h 3 3) hk1 hk2)
    (trip (h 0 2) (h 3 0) (h 2 3) hk1 hk2) (trip (h 0 3) (h 2 0) (h 3 2) hk1 hk2) (trip (h 0 3) (h 3 0) (h 2 2) hk1 hk2) hk1 hk2

theorem adj4_sc12 : Fl.Sc (-456) 305 (k + k + k) (adj4 F 1 2) (adj4 F' 1 2) :=
  six_neg (trip (h 0 0).neg (h 1 2) (h 3 3) hk1 hk2) (trip (h 0 0) (h 3 2) (h 1 3) hk1 hk2) (trip (h 0 2) (h 1 0) (h 3 3) hk1 hk2)
    (trip (h 0 2) (h 3 0) (h 1 3) hk1 hk2) (trip (h 0 3) (h 1 0) (h 3 2) hk1 hk2) (trip (h 0 3) (h 3 0) (h 1 2) hk1 hk2) hk1 hk2

theorem adj4_sc13 : Fl.Sc (-456) 305 (k + k + k) (adj4 F 1 3) (adj4 F' 1 3) :=
  six_pos (trip (h 0 0) (h 1 2) (h 2 3) hk1 hk2) (trip (h 0 0) (h 2 2) (h 1 3) hk1 hk2) (trip (h 0 2) (h 1 0) (h 2 3) hk1 hk2)
    (trip (h 0 2) (h 2 0) (h 1 3) hk1 hk2) (trip (h 0 3) (h 1 0) (h 2 2) hk1 hk2) (trip (h 0 3) (h 2 0) (h 1 2) hk1 hk2) hk1 hk2

theorem adj4_sc20 : Fl.Sc (-456) 305 (k + k + k) (adj4 F 2 0) (adj4 F' 2 0) :=
  six_pos (trip (h 1 0) (h 2 1) (h 3 3) hk1 hk2) (trip (h 1 0) (h 3 1) (h 2 3) hk1 hk2) (trip (h 1 1) (h 2 0) (h 3 3) hk1 hk2)
    (trip (h 1 1) (h 3 0) (h 2 3) hk1 hk2) (trip (h 1 3) (h 2 0) (h 3 1) hk1 hk2) (trip (h 1 3) (h 3 0) (h 2 1) hk1 hk2) hk1 hk2

theorem adj4_sc21 : Fl.Sc (-456) 305 (k + k + k) (adj4 F 2 1) (adj4 F' 2 1) :=
  six_neg (trip (h 0 0).neg (h 2 1) (h 3 3) hk1 hk2) (trip (h 0 0) (h 3 1) (h 2 3) hk1 hk2) (trip (h 0 1) (h 2 0) (h 3 3) hk1 hk2)
    (trip (h 0 1) (h 3 0) (h 2 3) hk1 hk2) (trip (h 0 3) (h 2 0) (h 3 1) hk1 hk2) (trip (h 0 3) (h 3 0) (h 2 1) hk1 hk2) hk1 hk2

theorem adj4_sc22 : Fl.Sc (-456) 305 (k + k + k) (adj4 F 2 2) (adj4 F' 2 2) :=
  six_pos (trip (h 0 0) (h 1 1) (h 3 3) hk1 hk2) (trip (h 0 0) (h 3 1) (h 1 3) hk1 hk2) (trip (h 0 1) (h 1 0) (h 3 3) hk1 hk2)
    (trip (h 0 1) (h 3 0) (h 1 3) hk1 hk2) (trip (h 0 3) (h 1 0) (h 3 1) hk1 hk2) (trip (h 0 3) (h 3 0) (h 1 1) hk1 hk2) hk1 hk2

theorem adj4_sc23 : Fl.Sc (-456) 305 (k + k + k) (adj4 F 2 3) (adj4 F' 2 3) :=
  six_neg (trip (h 0 0).neg (h 1 1) (h 2 3) hk1 hk2) (trip (h 0 0) (h 2 1) (h 1 3) hk1 hk2) (trip (h 0 1) (h 1 0) (h 2 3) hk1 hk2)
    (trip (h 0 1) (h 2 0) (h 1 3) hk1 hk2) (trip (h 0 3) (h 1 0) (h 2 1) hk1 hk2) (trip (h 0 3) (h 2 0) (h 1 1) hk1 hk2) hk1 hk2

theorem adj4_sc30 : Fl.Sc (-456) 305 (k + k + k) (adj4 F 3 0) (adj4 F' 3 0) :=
  six_neg (trip (h 1 0).neg (h 2 1) (h 3 2) hk1 hk2) (trip (h 1 0) (h 3 1) (h 2 2) hk1 hk2) (trip (h 1 1) (h 2 0) (h 3 2) hk1 hk2)
    (trip (h 1 1) (h 3 0) (h 2 2) hk1 hk2) (trip (h 1 2) (h 2 0) (h 3 1) hk1 hk2) (trip (h 1 2) (h 3 0) (h 2 1) hk1 hk2) hk1 hk2

theorem adj4_sc31 : Fl.Sc (-456) 305 (k + k + k) (adj4 F 3 1) (adj4 F' 3 1) :=
  six_pos (trip (h 0 0) (h 2 1) (h 3 2) hk1 hk2) (trip (h 0 0) (h 3 1) (h 2 2) hk1 hk2) (trip (h 0 1) (h 2 0) (h 3 2) hk1 hk2)
    (trip (h 0 1) (h 3 0) (h 2 2) hk1 hk2) (trip (h 0 2) (h 2 0) (h 3 1) hk1 hk2) (trip (h 0 2) (h 3 0) (h 2 1) hk1 hk2) hk1 hk2

theorem adj4_sc32 : Fl.Sc (-456) 305 (k + k + k) (adj4 F 3 2) (adj4 F' 3 2) :=
  six_neg (trip (h 0 0).neg (h 1 1) (h 3 2) hk1 hk2) (trip (h 0 0) (h 3 1) (h 1 2) hk1 hk2) (trip (h 0 1) (h 1 0) (h 3 2) hk1 hk2)
    (trip (h 0 1) (h 3 0) (h 1 2) hk1 hk2) (trip (h 0 2) (h 1 0) (h 3 1) hk1 hk2) (trip (h 0 2) (h 3 0) (h 1 1) hk1 hk2) hk1 hk2

theorem adj4_sc33 : Fl.Sc (-456) 305 (k + k + k) (adj4 F 3 3) (adj4 F' 3 3) :=
  six_pos (trip (h 0 0) (h 1 1) (h 2 2) hk1 hk2) (trip (h 0 0) (h 2 1) (h 1 2) hk1 hk2) (trip (h 0 1) (h 1 0) (h 2 2) hk1 hk2)
    (trip (h 0 1) (h 2 0) (h 1 2) hk1 hk2) (trip (h 0 2) (h 1 0) (h 2 1) hk1 hk2) (trip (h 0 2) (h 2 0) (h 1 1) hk1 hk2) hk1 hk2

end adj

theorem adj4_sc {F F' : Fin 4 → Fin 4 → Fl Q64} (h : ∀ i j, Fl.Sc (-152) 100 k (F i j) (F' i j)) (hk1 : -100 ≤ k) (hk2 : k ≤ 100) (i j : Fin 4) :
    Fl.Sc (-456) 305 (k + k + k) (adj4 F i j) (adj4 F' i j) := by
  match i, j with
  | 0, 0 => exact adj4_sc00 h hk1 hk2
  | 0, 1 => exact adj4_sc01 h hk1 hk2
  | 0, 2 => exact adj4_sc02 h hk1 hk2
  | 0, 3 => exact adj4_sc03 h hk1 hk2
  | 1, 0 => exact adj4_sc10 h hk1 hk2
  | 1, 1 => exact adj4_sc11 h hk1 hk2
  | 1, 2 => exact adj4_sc12 h hk1 hk2
  | 1, 3 => exact adj4_sc13 h hk1 hk2
  | 2, 0 => exact adj4_sc20 h hk1 hk2
  | 2, 1 => exact adj4_sc21 h hk1 hk2
  | 2, 2 => exact adj4_sc22 h hk1 hk2
  | 2, 3 => exact adj4_sc23 h hk1 hk2
  | 3, 0 => exact adj4_sc30 h hk1 hk2
  | 3, 1 => exact adj4_sc31 h hk1 hk2
  | 3, 2 => exact adj4_sc32 h hk1 hk2
  | 3, 3 => exact adj4_sc33 h hk1 hk2

theorem det4_sc {F F' : Fin 4 → Fin 4 → Fl Q64} (h : ∀ i j, Fl.Sc (-152) 100 k (F i j) (F' i j)) (hk1 : -100 ≤ k) (hk2 : k ≤ 100) :
    Fl.Sc (-608) 408 (4 * k) (FInv.det4code F) (FInv.det4code F') := by
  have p (i j) := (h i 0).mul (adj4_sc h hk1 hk2 0 j)
  exact ((((p 0 0).add (p 1 1)).add (p 2 2)).add (p 3 3)).mono.cast

theorem not_small {x : Fl Q64} (hk : 0 ≤ k) (h : ¬ Fl.lt (Fl.abs x) (.fin Fmt.eps) = true) :
    ¬ Fl.lt (Fl.abs (Fl.scale2 k x)) (.fin Fmt.eps) = true := by
  rw [Fl.abs_scale2]
  intro h'
  apply h
  generalize Fl.abs x = y at *
  have he : (0 : ℚ) < (Fmt.eps : Q64).q := by decide +kernel
  have h1 : (1 : ℚ) ≤ pow2 k := by rw [← pow2_zero]; exact pow2_le.mpr hk
  cases y with
  | nan => exact h'
  | inf s => exact h'
  | nzero => exact h'
  | fin v =>
    have h2 : v.q * pow2 k < (Fmt.eps : Q64).q := of_decide_eq_true h'
    refine decide_eq_true (show v.q < (Fmt.eps : Q64).q from ?_)
    rcases le_total v.q 0 with hv | hv
    · linarith
    · nlinarith

end PS

/-- **C92** `Mat4::inverse`: the inverse of the shifted matrix is the inverse shifted back, when both are given; and enlarging a
matrix never loses the inverse -/
theorem C92_inverse {k : ℤ} (hk : |k| ≤ 100) {a a' : Mat4 (Fl Q64)} (ha : MatTy.Mid .mat4 a) (sa : MatTy.Shift .mat4 k a a') :
    (∀ m m', a.inverse = some m → a'.inverse = some m' → MatTy.Shift .mat4 (-k) m m') ∧
    (∀ m, 0 ≤ k → a.inverse = some m → ∃ m', a'.inverse = some m' ∧ MatTy.Shift .mat4 (-k) m m') := by
  obtain ⟨hk1, hk2⟩ := PS.abs_le' hk
  have A : ∀ i j, Fl.Sc (-152) 100 k (a.idx i j) (a'.idx i j) := mget ha sa
  have hd := det4_sc A hk1 hk2
  have main : ∀ m m', a.inverse = some m → a'.inverse = some m' → MatTy.Shift .mat4 (-k) m m' := by
    intro m m' hm hm'
    have h : ¬ Fl.lt (Fl.abs (FInv.det4code a.idx)) (.fin Fmt.eps) = true := fun h => by rw [FInv.inverse_none h] at hm; cases hm
    have h' : ¬ Fl.lt (Fl.abs (FInv.det4code a'.idx)) (.fin Fmt.eps) = true := fun h => by rw [FInv.inverse_none h] at hm'; cases hm'
    obtain ⟨n, h1, h2, h3⟩ := FInv.inverse_some h
    obtain ⟨n', h1', h2', h3'⟩ := FInv.inverse_some h'
    rw [hm] at h1; cases h1
    rw [hm'] at h1'; cases h1'
    refine mshift (by show m'.isRowMajor = m.isRowMajor; rw [h2, h2']) fun i l => ⟨-916, 913, ?_⟩
    show Fl.Sc _ _ _ (m.idx i l) (m'.idx i l)
    rw [h3, h3']
    have h1 : Fl.Sc 0 0 0 (1 : Fl Q64) 1 := Fl.Sc.of_ext (.inl (Fl.Rg.one le_rfl le_rfl))
    have hi := h1.div hd
    exact ((adj4_sc A hk1 hk2 l i).mul hi).mono.cast
  refine ⟨main, fun m h0 hm => ?_⟩
  have h : ¬ Fl.lt (Fl.abs (FInv.det4code a.idx)) (.fin Fmt.eps) = true := fun h => by rw [FInv.inverse_none h] at hm; cases hm
  have h' : ¬ Fl.lt (Fl.abs (FInv.det4code a'.idx)) (.fin Fmt.eps) = true := by
    rw [hd.2]; exact not_small (by omega) h
  obtain ⟨m', hm', -⟩ := FInv.inverse_some h'
  exact ⟨m', hm', main m m' hm hm'⟩


/-! ## quaternions -/

namespace PS

variable {e b f c m n k j : ℤ} {p p' q q' : Quat (Fl Q64)}

/-- `Fl.Sc` for the four components -/
def QSc (e b m : ℤ) (q q' : Quat (Fl Q64)) : Prop :=
  Fl.Sc e b m q.x q'.x ∧ Fl.Sc e b m q.y q'.y ∧ Fl.Sc e b m q.z q'.z ∧ Fl.Sc e b m q.w q'.w

theorem qsc (h : q.Mid) (hs : Quat.Shift k q q') : QSc (-152) 100 k q q' := by
  cases hs
  exact ⟨mid_sc h.1, mid_sc h.2.1, mid_sc h.2.2.1, mid_sc h.2.2.2⟩

theorem qshift (h : QSc e b k q q') : Quat.Shift k q q' := by
  obtain ⟨x', y', z', w'⟩ := q'
  obtain ⟨⟨-, h1⟩, ⟨-, h2⟩, ⟨-, h3⟩, ⟨-, h4⟩⟩ := h
  cases h1; cases h2; cases h3; cases h4
  rfl

theorem QSc.conj (h : QSc e b k q q') : QSc e b k q.conjugate q'.conjugate := ⟨h.1.neg, h.2.1.neg, h.2.2.1.neg, h.2.2.2⟩

theorem QSc.mul (hp : QSc e b j p p') (hq : QSc f c k q q') (h0 : -1074 ≤ b + c := by omega) (h1 : b + c + 3 < 1024 := by omega)
    (h2 : -1074 ≤ e + f := by omega) (h3 : -1074 ≤ e + f + (j + k) := by omega) (h4 : b + c + 3 + (j + k) < 1024 := by omega) :
    QSc (e + f) (b + c + 3) (j + k) (p.mul q) (p'.mul q') := by
  obtain ⟨px, py, pz, pw⟩ := hp
  obtain ⟨qx, qy, qz, qw⟩ := hq
  exact ⟨((((pw.mul qx).add (px.mul qw)).add (py.mul qz)).sub (pz.mul qy)).mono, ((((pw.mul qy).sub (px.mul qz)).add (py.mul qw)).add (pz.mul qx)).mono,
    ((((pw.mul qz).add (px.mul qy)).sub (py.mul qx)).add (pz.mul qw)).mono, ((((pw.mul qw).sub (px.mul qx)).sub (py.mul qy)).sub (pz.mul qz)).mono⟩

theorem QSc.lenSq (hq : QSc e b k q q') (h0 : -1074 ≤ b + b := by omega) (h1 : b + b + 3 < 1024 := by omega)
    (h2 : -1074 ≤ e + e := by omega) (h3 : -1074 ≤ e + e + (k + k) := by omega) (h4 : b + b + 3 + (k + k) < 1024 := by omega) :
    Fl.Sc (e + e) (b + b + 3) (k + k) q.lengthSquared q'.lengthSquared := by
  obtain ⟨qx, qy, qz, qw⟩ := hq
  exact ((((qx.mul qx).add (qy.mul qy)).add (qz.mul qz)).add (qw.mul qw)).mono

theorem qpoint {v v' : Mat3x1 (Fl Q64)} (h : VecTy.Mid .mat3x1 v) (hs : VecTy.Shift .mat3x1 k v v') :
    QSc (-152) 100 k ⟨v.val[0], v.val[1], v.val[2], 0⟩ ⟨v'.val[0], v'.val[1], v'.val[2], 0⟩ :=
  ⟨vget h hs 0, vget h hs 1, vget h hs 2, Fl.Sc.zero⟩

theorem qvec {v v' : Quat (Fl Q64)} (h : QSc e b k v v') : VecTy.Shift .mat3x1 k ⟨#v[v.x, v.y, v.z]⟩ ⟨#v[v'.x, v'.y, v'.z]⟩ :=
  vshift fun i => ⟨e, b, by fin_cases i; exacts [h.1, h.2.1, h.2.2.1]⟩

theorem half_sc : Fl.Sc (-1) 0 0 (Fl.lit (1 / 2) : Fl Q64) (Fl.lit (1 / 2)) := by
  have h : (Fl.lit (1 / 2) : Fl Q64) = .fin (1 / 2) := by decide +kernel
  rw [h]
  refine Fl.Sc.of_ext (.inl ⟨_, rfl, ⟨1, ?_⟩, ?_⟩)
  · decide +kernel
  · decide +kernel

end PS

/-- **C92** sums, differences, products, conjugates and lengths of quaternions -/
theorem C92_quat {j k : ℤ} (hj : |j| ≤ 100) (hk : |k| ≤ 100) {p p' q q' r r' : Quat (Fl Q64)} (hp : p.Mid) (hq : q.Mid) (hr : r.Mid)
    (sp : Quat.Shift j p p') (sq : Quat.Shift k q q') (sr : Quat.Shift k r r') :
    Quat.Shift k (q.add r) (q'.add r') ∧ Quat.Shift k (q.minus r) (q'.minus r') ∧ Quat.Shift (j + k) (p.mul q) (p'.mul q') ∧
    Quat.Shift k q.conjugate q'.conjugate ∧ q'.lengthSquared = Fl.scale2 (k + k) q.lengthSquared ∧ q'.length = Fl.scale2 k q.length := by
  obtain ⟨hk1, hk2⟩ := PS.abs_le' hk
  obtain ⟨hj1, hj2⟩ := PS.abs_le' hj
  have P := qsc hp sp
  have Q := qsc hq sq
  have R := qsc hr sr
  exact ⟨qshift ⟨Q.1.add R.1, Q.2.1.add R.2.1, Q.2.2.1.add R.2.2.1, Q.2.2.2.add R.2.2.2⟩,
    qshift ⟨Q.1.sub R.1, Q.2.1.sub R.2.1, Q.2.2.1.sub R.2.2.1, Q.2.2.2.sub R.2.2.2⟩, qshift (P.mul Q), qshift Q.conj, Q.lenSq.2, Q.lenSq.sqrt.2⟩

/-- **C92** `normalize` and `inverse` of quaternions (panics included) -/
theorem C92_quat_inverse {k : ℤ} (hk : |k| ≤ 100) {q q' : Quat (Fl Q64)} (hq : q.Mid) (sq : Quat.Shift k q q') :
    q'.normalize = q.normalize ∧
    ((∃ r r', q.inverse = .ok r ∧ q'.inverse = .ok r' ∧ Quat.Shift (-k) r r') ∨
      q.inverse = .error .assertFailed ∧ q'.inverse = .error .assertFailed) := by
  obtain ⟨hk1, hk2⟩ := PS.abs_le' hk
  have Q := qsc hq sq
  constructor
  · have l : Fl.Sc _ _ k q.length q'.length := Q.lenSq.sqrt
    unfold Quat.normalize
    simp only []
    rw [l.gt0, l.lt0, Q.1.div_same l, Q.2.1.div_same l, Q.2.2.1.div_same l, Q.2.2.2.div_same l]
  · have l := Q.conj.lenSq
    have h1 : Fl.Sc 0 0 0 (1 : Fl Q64) 1 := Fl.Sc.of_ext (.inl (Fl.Rg.one le_rfl le_rfl))
    have hi := h1.div l
    have C := Q.conj
    have hs : QSc _ _ (-k) (q.conjugate.scale (1 / q.conjugate.lengthSquared)) (q'.conjugate.scale (1 / q'.conjugate.lengthSquared)) :=
      ⟨(C.1.mul hi).cast, (C.2.1.mul hi).cast, (C.2.2.1.mul hi).cast, (C.2.2.2.mul hi).cast⟩
    unfold Quat.inverse
    simp only []
    rw [l.feq0]
    cases Fl.feq q.conjugate.lengthSquared 0
    · exact .inl ⟨_, _, rfl, rfl, qshift hs⟩
    · exact .inr ⟨rfl, rfl⟩

/-- **C92** rotating or reflecting a vector: the shift of the vector is carried over, that of the quaternion counts twice -/
theorem C92_quat_rotate {j k : ℤ} (hj : |j| ≤ 100) (hk : |k| ≤ 100) {q q' : Quat (Fl Q64)} {v v' : Mat3x1 (Fl Q64)} (hq : q.Mid)
    (hv : VecTy.Mid .mat3x1 v) (sq : Quat.Shift j q q') (sv : VecTy.Shift .mat3x1 k v v') :
    VecTy.Shift .mat3x1 (2 * j + k) (q.rotateVector v) (q'.rotateVector v') ∧
    VecTy.Shift .mat3x1 (2 * j + k) (q.reflectionInPlane v) (q'.reflectionInPlane v') ∧
    VecTy.Shift .mat3x1 k (q.parallelComponentOfPlane v) (q.parallelComponentOfPlane v') ∧
    VecTy.Shift .mat3x1 k (q.orthogonalComponentOfPlane v) (q.orthogonalComponentOfPlane v') := by
  obtain ⟨hk1, hk2⟩ := PS.abs_le' hk
  obtain ⟨hj1, hj2⟩ := PS.abs_le' hj
  have Q := qsc hq sq
  have Q0 : QSc (-152) 100 0 q q := ⟨.of_ext (mid_ext hq.1), .of_ext (mid_ext hq.2.1), .of_ext (mid_ext hq.2.2.1), .of_ext (mid_ext hq.2.2.2)⟩
  have V := qpoint hv sv
  have e1 : j + k + j = 2 * j + k := by ring
  have R := (Q0.mul V).mul Q0
  rw [show 0 + k + 0 = k by ring] at R
  have H := PS.half_sc
  refine ⟨?_, ?_, ?_, ?_⟩
  · have := qvec ((Q.mul V).mul Q.conj)
    rw [e1] at this
    exact this
  · have := qvec ((Q.mul V).mul Q)
    rw [e1] at this
    exact this
  · have := qvec (v := ((Quat.add ⟨v.val[0], v.val[1], v.val[2], 0⟩ ((q.mul ⟨v.val[0], v.val[1], v.val[2], 0⟩).mul q)).scale (Fl.lit (1 / 2))))
      (v' := ((Quat.add ⟨v'.val[0], v'.val[1], v'.val[2], 0⟩ ((q.mul ⟨v'.val[0], v'.val[1], v'.val[2], 0⟩).mul q)).scale (Fl.lit (1 / 2))))
      ⟨(V.1.add R.1).mul H, (V.2.1.add R.2.1).mul H, (V.2.2.1.add R.2.2.1).mul H, (V.2.2.2.add R.2.2.2).mul H⟩
    rw [add_zero] at this
    exact this
  · have := qvec (v := ((Quat.minus ⟨v.val[0], v.val[1], v.val[2], 0⟩ ((q.mul ⟨v.val[0], v.val[1], v.val[2], 0⟩).mul q)).scale (Fl.lit (1 / 2))))
      (v' := ((Quat.minus ⟨v'.val[0], v'.val[1], v'.val[2], 0⟩ ((q.mul ⟨v'.val[0], v'.val[1], v'.val[2], 0⟩).mul q)).scale (Fl.lit (1 / 2))))
      ⟨(V.1.sub R.1).mul H, (V.2.1.sub R.2.1).mul H, (V.2.2.1.sub R.2.2.1).mul H, (V.2.2.2.sub R.2.2.2).mul H⟩
    rw [add_zero] at this
    exact this

/-- **C92** linear interpolation -/
theorem C92_quat_lerp {k : ℤ} (hk : |k| ≤ 100) {p p' q q' : Quat (Fl Q64)} {t : Fl Q64} (hp : p.Mid) (hq : q.Mid) (ht : t.Mid)
    (sp : Quat.Shift k p p') (sq : Quat.Shift k q q') : Quat.Shift k (p.interpolateLinear q t) (p'.interpolateLinear q' t) := by
  obtain ⟨hk1, hk2⟩ := PS.abs_le' hk
  have P := qsc hp sp
  have Q := qsc hq sq
  have h1 : Fl.Sc (-152) 100 0 (1 : Fl Q64) 1 := Fl.Sc.of_ext (.inl (Fl.Rg.one (by norm_num) (by norm_num)))
  have T : Fl.Sc (-152) 100 0 t t := Fl.Sc.of_ext (mid_ext ht)
  unfold Quat.interpolateLinear
  simp only []
  have C : Fl.Sc (-152) 100 0 (if Fl.lt (if Fl.lt 1 t = true then 1 else t) 0 = true then 0 else if Fl.lt 1 t = true then 1 else t)
      (if Fl.lt (if Fl.lt 1 t = true then 1 else t) 0 = true then 0 else if Fl.lt 1 t = true then 1 else t) := by
    by_cases h : Fl.lt 1 t = true
    · rw [if_pos h]
      by_cases h' : Fl.lt (1 : Fl Q64) 0 = true
      · rw [if_pos h']; exact Fl.Sc.zero
      · rw [if_neg h']; exact h1
    · rw [if_neg h]
      by_cases h' : Fl.lt t 0 = true
      · rw [if_pos h']; exact Fl.Sc.zero
      · rw [if_neg h']; exact T
  generalize (if Fl.lt (if Fl.lt 1 t = true then 1 else t) 0 = true then 0 else if Fl.lt 1 t = true then 1 else t) = c at *
  have D := h1.sub C
  have g {x x' y y' : Fl Q64} (hx : Fl.Sc (-152) 100 k x x') (hy : Fl.Sc (-152) 100 k y y') : Fl.Sc (-400) 300 k (x * (1 - c) + y * c) (x' * (1 - c) + y' * c) :=
    ((hx.mul D).add (hy.mul C)).mono.cast
  exact qshift (⟨g P.1 Q.1, g P.2.1 Q.2.1, g P.2.2.1 Q.2.2.1, g P.2.2.2 Q.2.2.2⟩ : QSc (-400) 300 k _ _)


/-! ## concrete cases, and where it fails -/

namespace PS

theorem mid_fin {v : Q64} (h1 : Fmt.rnd v = .fin v) (h2 : pow2 (-100) ≤ |v.q|) (h3 : |v.q| ≤ pow2 100) : (Fl.fin v).Mid :=
  ⟨.inr h1, fun a ha => by cases ha; exact .inr ⟨h2, h3⟩⟩

theorem mid_zero : (Fl.fin 0 : Fl Q64).Mid := ⟨.inl rfl, fun a ha => by cases ha; exact .inl rfl⟩

/-- example vector -/
def exV : Mat3x1 (Fl Q64) := ⟨#v[.fin 3, .fin (-7 / 16), .fin 0]⟩

theorem exV_mid : VecTy.Mid .mat3x1 exV :=
  ⟨_, VecTy.reads_self _, fun i => by
    fin_cases i
    · exact mid_fin (v := 3) (by decide +kernel) (by decide +kernel) (by decide +kernel)
    · exact mid_fin (v := -7 / 16) (by decide +kernel) (by decide +kernel) (by decide +kernel)
    · exact mid_zero⟩

/-- the example vector in another unit -/
def exV' (k : ℤ) : Mat3x1 (Fl Q64) := ⟨#v[Fl.scale2 k (.fin 3), Fl.scale2 k (.fin (-7 / 16)), Fl.scale2 k (.fin 0)]⟩

theorem exV_shift (k : ℤ) : VecTy.Shift .mat3x1 k exV (exV' k) :=
  ⟨_, VecTy.reads_self _, VecTy.reads_iff.mpr fun i => by fin_cases i <;> rfl⟩

/-- example matrix -/
def exM : Mat4 (Fl Q64) := ⟨#v[.fin 2, .fin 0, .fin 0, .fin 3, .fin 0, .fin 1, .fin 0, .fin 0, .fin 0, .fin 0, .fin 3, .fin 0,
  .fin 0, .fin 0, .fin 0, .fin 1], true⟩

theorem exM_mid : MatTy.Mid .mat4 exM := by
  have m1 : (Fl.fin 1 : Fl Q64).Mid := mid_fin (by decide +kernel) (by decide +kernel) (by decide +kernel)
  have m2 : (Fl.fin 2 : Fl Q64).Mid := mid_fin (by decide +kernel) (by decide +kernel) (by decide +kernel)
  have m3 : (Fl.fin 3 : Fl Q64).Mid := mid_fin (by decide +kernel) (by decide +kernel) (by decide +kernel)
  refine ⟨_, MatTy.reads_self _, fun i j => ?_⟩
  show (exM.idx i j).Mid
  fin_cases i <;> fin_cases j <;> first | exact mid_zero | exact m1 | exact m2 | exact m3

/-- the example matrix in another unit -/
def exM' (k : ℤ) : Mat4 (Fl Q64) := ⟨#v[Fl.scale2 k (.fin 2), Fl.scale2 k (.fin 0), Fl.scale2 k (.fin 0), Fl.scale2 k (.fin 3), Fl.scale2 k (.fin 0), Fl.scale2 k (.fin 1), Fl.scale2 k (.fin 0), Fl.scale2 k (.fin 0), Fl.scale2 k (.fin 0), Fl.scale2 k (.fin 0), Fl.scale2 k (.fin 3), Fl.scale2 k (.fin 0), Fl.scale2 k (.fin 0), Fl.scale2 k (.fin 0), Fl.scale2 k (.fin 0), Fl.scale2 k (.fin 1)], true⟩

theorem exM_shift (k : ℤ) : MatTy.Shift .mat4 k exM (exM' k) :=
  ⟨rfl, _, MatTy.reads_self _, MatTy.reads_iff.mpr fun i j => by fin_cases i <;> fin_cases j <;> rfl⟩

/-- example quaternion -/
def exQ : Quat (Fl Q64) := ⟨.fin 3, .fin 0, .fin (-7 / 16), .fin 1⟩

theorem exQ_mid : exQ.Mid := ⟨mid_fin (by decide +kernel) (by decide +kernel) (by decide +kernel), mid_zero,
  mid_fin (by decide +kernel) (by decide +kernel) (by decide +kernel), mid_fin (by decide +kernel) (by decide +kernel) (by decide +kernel)⟩

theorem exQ_shift (k : ℤ) : Quat.Shift k exQ ⟨Fl.scale2 k (.fin 3), Fl.scale2 k (.fin 0), Fl.scale2 k (.fin (-7 / 16)), Fl.scale2 k (.fin 1)⟩ := rfl

theorem exS_mid : (Fl.fin (1 / 4) : Fl Q64).Mid := mid_fin (by decide +kernel) (by decide +kernel) (by decide +kernel)

end PS

example := C92_vector_linear .mat3x1 (k := -90) (by decide) PS.exV_mid PS.exV_mid (PS.exV_shift _) (PS.exV_shift _)
example := C92_vector_products .mat3x1 (j := 40) (k := -90) (by decide) (by decide) PS.exV_mid PS.exV_mid PS.exS_mid (PS.exV_shift _) (PS.exV_shift _)
example := C92_vector_length .mat3x1 (k := -90) (by decide) PS.exV_mid (PS.exV_shift _)
example := C92_vector_equal .mat3x1 (k := -90) (by decide) PS.exV_mid PS.exV_mid PS.exS_mid (PS.exV_shift _) (PS.exV_shift _)
example := C92_vector_cross .mat3x1 rfl (j := 40) (k := -90) (by decide) (by decide) PS.exV_mid PS.exV_mid (PS.exV_shift _) (PS.exV_shift _)
example := C92_matrix_linear .mat4 (k := 40) (by decide) PS.exM_mid PS.exM_mid (PS.exM_shift _) (PS.exM_shift _) rfl
example := C92_inverse (k := 40) (by decide) PS.exM_mid (PS.exM_shift _)
example : PS.exM.inverse.isSome = true ∧ (PS.exM' (-10)).inverse.isSome = true := by decide +kernel
example := C92_quat (j := 40) (k := -90) (by decide) (by decide) PS.exQ_mid PS.exQ_mid PS.exQ_mid (PS.exQ_shift _) (PS.exQ_shift _) (PS.exQ_shift _)
example := C92_quat_inverse (k := -90) (by decide) PS.exQ_mid (PS.exQ_shift _)
example := C92_quat_rotate (j := 40) (k := -90) (by decide) (by decide) PS.exQ_mid PS.exV_mid (PS.exQ_shift _) (PS.exV_shift _)
example := C92_quat_lerp (k := -90) (by decide) PS.exQ_mid PS.exQ_mid PS.exS_mid (PS.exQ_shift _) (PS.exQ_shift _)

namespace PS

/-- example column and row -/
def exC : Mat4x1 (Fl Q64) := ⟨#v[.fin 3, .fin 0, .fin (-7 / 16), .fin 1]⟩
/-- example column and row -/
def exR : Mat1x4 (Fl Q64) := ⟨#v[.fin 3, .fin 0, .fin (-7 / 16), .fin 1]⟩

theorem exC_mid : VecTy.Mid .mat4x1 exC := ⟨_, VecTy.reads_self _, fun i => by
  fin_cases i; exacts [exQ_mid.1, exQ_mid.2.1, exQ_mid.2.2.1, exQ_mid.2.2.2]⟩
theorem exR_mid : VecTy.Mid .mat1x4 exR := ⟨_, VecTy.reads_self _, fun i => by
  fin_cases i; exacts [exQ_mid.1, exQ_mid.2.1, exQ_mid.2.2.1, exQ_mid.2.2.2]⟩
theorem exC_shift (k : ℤ) : VecTy.Shift .mat4x1 k exC ⟨#v[Fl.scale2 k (.fin 3), Fl.scale2 k (.fin 0), Fl.scale2 k (.fin (-7 / 16)), Fl.scale2 k (.fin 1)]⟩ :=
  ⟨_, VecTy.reads_self _, VecTy.reads_iff.mpr fun i => by fin_cases i <;> rfl⟩
theorem exR_shift (k : ℤ) : VecTy.Shift .mat1x4 k exR ⟨#v[Fl.scale2 k (.fin 3), Fl.scale2 k (.fin 0), Fl.scale2 k (.fin (-7 / 16)), Fl.scale2 k (.fin 1)]⟩ :=
  ⟨_, VecTy.reads_self _, VecTy.reads_iff.mpr fun i => by fin_cases i <;> rfl⟩

end PS

example := C92_matrix_products .mat4 (j := 40) (k := -90) (by decide) (by decide) PS.exM_mid PS.exM_mid PS.exS_mid PS.exC_mid PS.exR_mid
  (PS.exM_shift _) (PS.exM_shift _) (PS.exC_shift _) (PS.exR_shift _)

/-- `Mat4::inverse` compares the determinant with an absolute number: in another unit the same matrix has no inverse -/
theorem C92_inverse_unit_false : ¬ ∀ (k : ℤ) (a a' : Mat4 (Fl Q64)), |k| ≤ 100 → MatTy.Mid .mat4 a → MatTy.Shift .mat4 k a a' →
    (a.inverse.isSome = true ↔ a'.inverse.isSome = true) := fun h =>
  absurd ((h (-20) _ _ (by decide) PS.exM_mid (PS.exM_shift _)).mp (by decide +kernel)) (by decide +kernel)

/-- `Mat3::inverse` is not homogeneous at all: twice the identity has an "inverse" with the entry 4 -/
theorem C92_inverse3_false : ¬ ∀ (k : ℤ) (a a' m m' : Mat3 (Fl Q64)), |k| ≤ 100 → MatTy.Mid .mat3 a → MatTy.Shift .mat3 k a a' →
    a.inverse = some m → a'.inverse = some m' → MatTy.Shift .mat3 (-k) m m' := by
  intro h
  let I (v : Q64) : Mat3 (Fl Q64) := ⟨#v[.fin v, .fin 0, .fin 0, .fin 0, .fin v, .fin 0, .fin 0, .fin 0, .fin v], true⟩
  have m1 : (Fl.fin 1 : Fl Q64).Mid := PS.mid_fin (by decide +kernel) (by decide +kernel) (by decide +kernel)
  have hm : MatTy.Mid .mat3 (I 1) := by
    refine ⟨_, MatTy.reads_self _, fun i j => ?_⟩
    show ((I 1).idx i j).Mid
    fin_cases i <;> fin_cases j <;> first | exact PS.mid_zero | exact m1
  have hs : MatTy.Shift .mat3 1 (I 1) (I 2) := by
    refine ⟨rfl, _, MatTy.reads_self _, MatTy.reads_iff.mpr fun i j => ?_⟩
    show (I 2).idx i j = Fl.scale2 1 ((I 1).idx i j)
    revert i j
    decide +kernel
  have h1 : ((I 1).inverse.map fun m => m.idx 0 0) = some (.fin 1) := by decide +kernel
  have h2 : ((I 2).inverse.map fun m => m.idx 0 0) = some (.fin 4) := by decide +kernel
  obtain ⟨m, e1, e2⟩ := Option.map_eq_some_iff.mp h1
  obtain ⟨m', e1', e2'⟩ := Option.map_eq_some_iff.mp h2
  obtain ⟨-, g, hg, hg'⟩ := h 1 _ _ m m' (by decide) hm hs e1 e1'
  have q1 : m.idx 0 0 = g 0 0 := MatTy.reads_iff.mp hg 0 0
  have q2 : m'.idx 0 0 = Fl.scale2 (-1) (g 0 0) := MatTy.reads_iff.mp hg' 0 0
  rw [e2', ← q1, e2] at q2
  exact absurd q2 (by decide +kernel)

/-- outside the range it fails: `(3, -7/16, 0)` in a unit of `2^-600` has squares that vanish, and its normalisation is not finite -/
theorem C92_range_false : ¬ ∀ (k : ℤ) (a a' : Mat3x1 (Fl Q64)), VecTy.Mid .mat3x1 a → VecTy.Shift .mat3x1 k a a' → a'.normalize = a.normalize := fun h => by
  have := h (-600) _ _ PS.exV_mid (PS.exV_shift _)
  have := congrArg (Option.map fun v => v.val[0]) this
  exact absurd this (by decide +kernel)

end Mazth
