import Verif.Props.FloatAcc2
import Verif.Proofs.LinearTy

/-!
# C68: accuracy of the vector and matrix operations of every type in floating point

C55 and C58 bound the errors for three-component columns and for products; here the componentwise operations, the dot product,
the magnitude and the normalisation are treated for all six vector types, and the componentwise operations, the trace, the
homogeneous normalisation and the products with row and column vectors for both matrix types.
-/

set_option linter.unusedSectionVars false
set_option autoImplicit false

namespace Mazth

open RndErr

/-! ### vocabulary -/

section vocabulary

variable {K : Type} [Field K] [LinearOrder K] [IsStrictOrderedRing K] [Fmt K] [LawfulFmt K] [RndErr K]

/-- `x` is a datum of the format which, if finite, is within `δ` of `e`; and it is finite if `|e|` is in range -/
structure Fl.Acc (x : Fl K) (e δ : K) : Prop where
  wf : x.WF
  err : ∀ v, x.Is v → |v - e| ≤ δ
  fin : |e| ≤ omega → x.Finite

/-- every read of the vector gives a finite datum of the format, with value `A i` -/
def VecTy.HoldsF (t : VecTy) (a : t.Ty (Fl K)) (A : Fin t.dim → K) : Prop :=
  ∀ i : Fin t.dim, ∃ x, t.index a i.val = .ok x ∧ x.Holds (A i)

/-- every read of the vector is accurate -/
def VecTy.AccF (t : VecTy) (a : t.Ty (Fl K)) (E δ : Fin t.dim → K) : Prop :=
  ∀ i : Fin t.dim, ∃ x, t.index a i.val = .ok x ∧ x.Acc (E i) (δ i)

/-- every read of the matrix gives a finite datum of the format, with value `A i j` -/
def MatTy.HoldsF (t : MatTy) (a : t.Ty (Fl K)) (A : Matrix (Fin t.dim) (Fin t.dim) K) : Prop :=
  ∀ chk (i j : Fin t.dim), ∃ x, t.index chk a (UInt64.ofNat i.val) (UInt64.ofNat j.val) = .ok x ∧ x.Holds (A i j)

/-- every read of the matrix is accurate -/
def MatTy.AccF (t : MatTy) (a : t.Ty (Fl K)) (E δ : Matrix (Fin t.dim) (Fin t.dim) K) : Prop :=
  ∀ chk (i j : Fin t.dim), ∃ x, t.index chk a (UInt64.ofNat i.val) (UInt64.ofNat j.val) = .ok x ∧ x.Acc (E i j) (δ i j)

end vocabulary

variable {K : Type} [Field K] [LinearOrder K] [IsStrictOrderedRing K] [Fmt K] [LawfulFmt K] [RndErr K]

theorem VecTy.holdsF_iff {t : VecTy} {a : t.Ty (Fl K)} {A : Fin t.dim → K} : t.HoldsF a A ↔ ∀ i, (t.get a i).Holds (A i) := by
  unfold VecTy.HoldsF; simp only [VecTy.index_get, Except.ok.injEq, exists_eq_left']

theorem VecTy.accF_iff {t : VecTy} {a : t.Ty (Fl K)} {A D : Fin t.dim → K} : t.AccF a A D ↔ ∀ i, (t.get a i).Acc (A i) (D i) := by
  unfold VecTy.AccF; simp only [VecTy.index_get, Except.ok.injEq, exists_eq_left']

theorem MatTy.holdsF_iff {t : MatTy} {a : t.Ty (Fl K)} {A : Matrix (Fin t.dim) (Fin t.dim) K} :
    t.HoldsF a A ↔ ∀ i j, (t.idx a i j).Holds (A i j) := by
  unfold MatTy.HoldsF; simp only [MatTy.index_eq_idx, Except.ok.injEq, exists_eq_left', forall_const]

theorem MatTy.accF_iff {t : MatTy} {a : t.Ty (Fl K)} {A D : Matrix (Fin t.dim) (Fin t.dim) K} :
    t.AccF a A D ↔ ∀ i j, (t.idx a i j).Acc (A i j) (D i j) := by
  unfold MatTy.AccF; simp only [MatTy.index_eq_idx, Except.ok.injEq, exists_eq_left', forall_const]

namespace Fl.Acc

variable {x y : Fl K} {a b : K}

theorem add (hx : x.Holds a) (hy : y.Holds b) : (x + y).Acc (a + b) (u * |a + b|) :=
  ⟨Fl.wf_add _ _, fun _ h => Fl.add_err hx.1 hy.1 hx.2 hy.2 h, fun h => Fl.add_fin hx.1 hy.1 h⟩

theorem sub (hx : x.Holds a) (hy : y.Holds b) : (x - y).Acc (a - b) (u * |a - b|) :=
  ⟨Fl.wf_sub _ _, fun _ h => Fl.sub_err hx.1 hy.1 hx.2 hy.2 h, fun h => Fl.sub_fin hx.1 hy.1 h⟩

theorem mul (hx : x.Holds a) (hy : y.Holds b) : (x * y).Acc (a * b) (u * |a * b| + eta) :=
  ⟨Fl.wf_mul _ _, fun _ h => Fl.mul_err hx.1 hy.1 h, fun h => Fl.mul_fin hx.1 hy.1 h⟩

theorem div (hx : x.Holds a) (hy : y.Holds b) (hb : b ≠ 0) : (x / y).Acc (a / b) (u * |a / b| + eta) :=
  ⟨Fl.wf_div _ _, fun _ h => Fl.div_err hx.1 hy.1 hb h, fun h => Fl.div_fin hx.1 hy.1 hb h⟩

end Fl.Acc

/-! ### sums -/

section sums

variable {k : ℕ} {h : K}

/-- rounding errors of the left-to-right sum -/
theorem VecTy.sumL_appr (t : VecTy) {f : Fin t.dim → Fl K} {e T : Fin t.dim → K} (hf : ∀ i, Appr (f i) k (e i) (T i) h) :
    Appr (t.sumL f) (k + (t.dim - 1)) (∑ i, e i) (∑ i, T i) (t.dim * (1 + u) ^ (t.dim - 1) * h) := by
  have hu := u_pos (K := K)
  have u0 : (0 : K) ≤ 1 + u := by linarith
  have u1 : (1 : K) ≤ 1 + u := by linarith
  have two : ∀ {f : Fin 2 → Fl K} {e T : Fin 2 → K} (_ : ∀ i, Appr (f i) k (e i) (T i) h),
      Appr (f 0 + f 1) (k + 1) (e 0 + e 1) (T 0 + T 1) (2 * (1 + u) * h) := fun hf =>
    ((hf 0).add (hf 1)).cast rfl rfl (by ring)
  have three : ∀ {f : Fin 3 → Fl K} {e T : Fin 3 → K} (_ : ∀ i, Appr (f i) k (e i) (T i) h),
      Appr (f 0 + f 1 + f 2) (k + 2) (e 0 + e 1 + e 2) (T 0 + T 1 + T 2) (3 * (1 + u) ^ 2 * h) := fun hf => by
    have h0 := (hf 0).nonneg
    refine (((hf 0).add (hf 1)).add ((hf 2).mono (Nat.le_add_right k 1) le_rfl)).mono le_rfl ?_
    have := mul_nonneg u0 (mul_nonneg hu.le h0)
    linarith [show 3 * (1 + u) ^ 2 * h = (1 + u) * ((1 + u) * (h + h) + h) + (1 + u) * (u * h) by ring]
  have four : ∀ {f : Fin 4 → Fl K} {e T : Fin 4 → K} (_ : ∀ i, Appr (f i) k (e i) (T i) h),
      Appr (f 0 + f 1 + f 2 + f 3) (k + 3) (e 0 + e 1 + e 2 + e 3) (T 0 + T 1 + T 2 + T 3) (4 * (1 + u) ^ 3 * h) := fun {f e T} hf => by
    have h0 := (hf 0).nonneg
    have h3 := three (f := fun i : Fin 3 => f i.castSucc) (e := fun i => e i.castSucc) (T := fun i => T i.castSucc) fun i => hf i.castSucc
    refine (h3.add ((hf 3).mono (Nat.le_add_right k 2) le_rfl)).mono le_rfl ?_
    have := mul_le_mul_of_nonneg_left (mul_le_mul_of_nonneg_right (grow_one (K := K) 2) h0) u0
    linarith [show 4 * (1 + u) ^ 3 * h = (1 + u) * (3 * (1 + u) ^ 2 * h) + (1 + u) * ((1 + u) ^ 2 * h) by ring]
  cases t
  · exact (two hf).cast (Fin.sum_univ_two _).symm (Fin.sum_univ_two _).symm (by simp)
  · exact (two hf).cast (Fin.sum_univ_two _).symm (Fin.sum_univ_two _).symm (by simp)
  · exact (three hf).cast (Fin.sum_univ_three _).symm (Fin.sum_univ_three _).symm (by simp)
  · exact (three hf).cast (Fin.sum_univ_three _).symm (Fin.sum_univ_three _).symm (by simp)
  · exact (four hf).cast (Fin.sum_univ_four _).symm (Fin.sum_univ_four _).symm (by simp)
  · exact (four hf).cast (Fin.sum_univ_four _).symm (Fin.sum_univ_four _).symm (by simp)

theorem Appr.size {x : Fl K} {e T c : K} (a : Appr x k e T h) (hc : x.Is c) : |c| ≤ (1 + u) ^ k * T + h := by
  have h1 := a.err c hc
  have h2 := abs_add_le (c - e) e
  rw [sub_add_cancel] at h2
  linarith [a.bound]

theorem Appr.fin_add {x y : Fl K} {e f T S g : K} (a : Appr x k e T h) (b : Appr y k f S g) (hx : x.Finite) (hy : y.Finite)
    (hr : (1 + u) ^ k * (T + S) + (h + g) ≤ omega) : (x + y).Finite := by
  obtain ⟨c, hc⟩ := hx
  obtain ⟨d, hd⟩ := hy
  refine Fl.add_fin hc hd ((abs_add_le _ _).trans ?_)
  have := a.size hc
  have := b.size hd
  linarith [show (1 + u) ^ k * (T + S) = (1 + u) ^ k * T + (1 + u) ^ k * S by ring]

theorem pow_small {j : ℕ} (hj : j ≤ 3) : ((1 : K) + u) ^ j ≤ 11 / 10 := by
  have hl := u_le (K := K)
  have hu := u_pos (K := K)
  refine (grow_mono hj).trans ((pow_le_pow_left₀ (by linarith) (show (1 : K) + u ≤ 65 / 64 by linarith) 3).trans ?_)
  norm_num

/-- the left-to-right sum does not overflow -/
theorem VecTy.sumL_fin (t : VecTy) {f : Fin t.dim → Fl K} {e T : Fin t.dim → K} (hk : k ≤ 1) (hf : ∀ i, Appr (f i) k (e i) (T i) h)
    (hfin : ∀ i, (f i).Finite) (hr : 2 * (∑ i, T i + 4 * h) ≤ omega) : (t.sumL f).Finite := by
  have hu := u_pos (K := K)
  have u0 : (0 : K) ≤ 1 + u := by linarith
  have p1 : (1 + u : K) ≤ 11 / 10 := by have := pow_small (K := K) (j := 1) (by norm_num); rwa [pow_one] at this
  have p2 : ((1 : K) + u) ^ 2 ≤ 11 / 10 := pow_small (by norm_num)
  have pk : ∀ {j}, j ≤ 2 → ((1 : K) + u) ^ (k + j) ≤ 11 / 10 := fun hj => pow_small (by omega)
  have two : ∀ {f : Fin 2 → Fl K} {e T : Fin 2 → K} (_ : ∀ i, Appr (f i) k (e i) (T i) h) (_ : ∀ i, (f i).Finite)
      (_ : 2 * (T 0 + T 1 + 4 * h) ≤ omega), (f 0 + f 1).Finite := fun {f e T} hf hfin hr => by
    have h0 := (hf 0).nonneg
    have t0 := (hf 0).T_nonneg
    have t1 := (hf 1).T_nonneg
    refine (hf 0).fin_add (hf 1) (hfin 0) (hfin 1) ?_
    have := mul_le_mul_of_nonneg_right (pk (j := 0) (by norm_num)) (add_nonneg t0 t1)
    rw [add_zero] at this
    linarith
  have three : ∀ {f : Fin 3 → Fl K} {e T : Fin 3 → K} (_ : ∀ i, Appr (f i) k (e i) (T i) h) (_ : ∀ i, (f i).Finite)
      (_ : 2 * (T 0 + T 1 + T 2 + 4 * h) ≤ omega), (f 0 + f 1 + f 2).Finite := fun {f e T} hf hfin hr => by
    have h0 := (hf 0).nonneg
    have t0 := (hf 0).T_nonneg
    have t1 := (hf 1).T_nonneg
    have t2 := (hf 2).T_nonneg
    have s2 := two (f := fun i : Fin 2 => f i.castSucc) (e := fun i => e i.castSucc) (T := fun i => T i.castSucc) (fun i => hf i.castSucc)
      (fun i => hfin i.castSucc) (by show 2 * (T 0 + T 1 + 4 * h) ≤ omega; linarith)
    refine ((hf 0).add (hf 1)).fin_add ((hf 2).mono (Nat.le_add_right k 1) le_rfl) s2 (hfin 2) ?_
    have := mul_le_mul_of_nonneg_right (pk (j := 1) (by norm_num)) (add_nonneg (add_nonneg t0 t1) t2)
    have := mul_le_mul_of_nonneg_right p1 (add_nonneg h0 h0)
    linarith
  have four : ∀ {f : Fin 4 → Fl K} {e T : Fin 4 → K} (_ : ∀ i, Appr (f i) k (e i) (T i) h) (_ : ∀ i, (f i).Finite)
      (_ : 2 * (T 0 + T 1 + T 2 + T 3 + 4 * h) ≤ omega), (f 0 + f 1 + f 2 + f 3).Finite := fun {f e T} hf hfin hr => by
    have h0 := (hf 0).nonneg
    have t0 := (hf 0).T_nonneg
    have t1 := (hf 1).T_nonneg
    have t2 := (hf 2).T_nonneg
    have t3 := (hf 3).T_nonneg
    have s3 := three (f := fun i : Fin 3 => f i.castSucc) (e := fun i => e i.castSucc) (T := fun i => T i.castSucc) (fun i => hf i.castSucc)
      (fun i => hfin i.castSucc) (by show 2 * (T 0 + T 1 + T 2 + 4 * h) ≤ omega; linarith)
    refine (((hf 0).add (hf 1)).add ((hf 2).mono (Nat.le_add_right k 1) le_rfl)).fin_add ((hf 3).mono (Nat.le_add_right k 2) le_rfl) s3
      (hfin 3) ?_
    have := mul_le_mul_of_nonneg_right (pk (j := 2) (by norm_num)) (add_nonneg (add_nonneg (add_nonneg t0 t1) t2) t3)
    have := mul_le_mul_of_nonneg_right p2 (add_nonneg h0 h0)
    have := mul_le_mul_of_nonneg_right p1 h0
    have e : (1 + u) * ((1 + u) * (h + h) + h) = (1 + u) ^ 2 * (h + h) + (1 + u) * h := by ring
    rw [show k + 1 + 1 = k + 2 from rfl, e]
    linarith
  cases t
  · exact two hf hfin (by rwa [Fin.sum_univ_two] at hr)
  · exact two hf hfin (by rwa [Fin.sum_univ_two] at hr)
  · exact three hf hfin (by rwa [Fin.sum_univ_three] at hr)
  · exact three hf hfin (by rwa [Fin.sum_univ_three] at hr)
  · exact four hf hfin (by rwa [Fin.sum_univ_four] at hr)
  · exact four hf hfin (by rwa [Fin.sum_univ_four] at hr)

end sums

/-! ### vectors -/

/-- C68: the componentwise operations of every vector type: each component is within `u` (relative; products and quotients:
plus the underflow error `eta`) of the exact result, and it is finite if the exact result is in range. -/
theorem C68_componentwise (t : VecTy) (a b : t.Ty (Fl K)) (A B : Fin t.dim → K) (ha : t.HoldsF a A) (hb : t.HoldsF b B)
    (s : Fl K) (S : K) (hs : s.Holds S) :
    (∃ c, t.plus a b = some c ∧ t.AccF c (fun i => A i + B i) fun i => u * |A i + B i|) ∧
    (∃ c, t.minus a b = some c ∧ t.AccF c (fun i => A i - B i) fun i => u * |A i - B i|) ∧
    (∃ c, t.mulElem a b = some c ∧ t.AccF c (fun i => A i * B i) fun i => u * |A i * B i| + eta) ∧
    (∃ c, t.scale a s = some c ∧ t.AccF c (fun i => A i * S) fun i => u * |A i * S| + eta) ∧
    ((∀ i, B i ≠ 0) → ∃ c, t.div a b = some c ∧ t.AccF c (fun i => A i / B i) fun i => u * |A i / B i| + eta) := by
  rw [VecTy.holdsF_iff] at ha hb
  refine ⟨?_, ?_, ?_, ?_, fun h0 => ?_⟩
  · obtain ⟨c, e, h⟩ := t.plus_get a b
    exact ⟨c, e, VecTy.accF_iff.mpr fun i => by rw [h]; exact .add (ha i) (hb i)⟩
  · obtain ⟨c, e, h⟩ := t.minus_get a b
    exact ⟨c, e, VecTy.accF_iff.mpr fun i => by rw [h]; exact .sub (ha i) (hb i)⟩
  · obtain ⟨c, e, h⟩ := t.mulElem_get a b
    exact ⟨c, e, VecTy.accF_iff.mpr fun i => by rw [h]; exact .mul (ha i) (hb i)⟩
  · obtain ⟨c, e, h⟩ := t.scale_get a s
    exact ⟨c, e, VecTy.accF_iff.mpr fun i => by rw [h]; exact .mul (ha i) hs⟩
  · obtain ⟨c, e, h⟩ := t.div_get a b
    exact ⟨c, e, VecTy.accF_iff.mpr fun i => by rw [h]; exact .div (ha i) (hb i) (h0 i)⟩

/-- concrete case -/
example := C68_componentwise .mat3x1 b405 a123 B405 A123 (VecTy.holdsF_iff.mpr b405_holds) (VecTy.holdsF_iff.mpr a123_holds) _ _ one64_holds

/-- C68: the dot product of every vector type with `n` components: a finite result is within
`((1+u)ⁿ-1) Σ|aᵢbᵢ| + n (1+u)ⁿ⁻¹ eta` of the exact one, and it is finite if `2(Σ|aᵢbᵢ| + 4 eta)` is in range. -/
theorem C68_dot (t : VecTy) (a b : t.Ty (Fl K)) (A B : Fin t.dim → K) (ha : t.HoldsF a A) (hb : t.HoldsF b B) :
    ∃ d, t.dot a b = some d ∧
      (∀ c, d.Is c → |c - ∑ i, A i * B i| ≤ ((1 + u) ^ t.dim - 1) * ∑ i, |A i * B i| + t.dim * (1 + u) ^ (t.dim - 1) * eta) ∧
      (2 * (∑ i, |A i * B i| + 4 * eta) ≤ omega → d.Finite) := by
  rw [VecTy.holdsF_iff] at ha hb
  have hp : ∀ i, Appr (t.get a i * t.get b i) 1 (A i * B i) |A i * B i| eta := fun i => Appr.prod (ha i) (hb i)
  refine ⟨_, t.dot_get a b, ?_, fun hr => t.sumL_fin le_rfl hp (fun i => Fl.mul_fin (ha i).1 (hb i).1 ?_) hr⟩
  · have := (t.sumL_appr hp).err
    rwa [show 1 + (t.dim - 1) = t.dim by cases t <;> rfl] at this
  · have h1 := Finset.single_le_sum (f := fun i => |A i * B i|) (fun i _ => abs_nonneg _) (Finset.mem_univ i)
    have h2 := eta_pos (K := K)
    have h3 := abs_nonneg (A i * B i)
    linarith

/-- concrete case -/
example := C68_dot .mat3x1 b405 a123 B405 A123 (VecTy.holdsF_iff.mpr b405_holds) (VecTy.holdsF_iff.mpr a123_holds)

theorem VecTy.sumsq (t : VecTy) {f : Fin t.dim → Fl K} {A : Fin t.dim → K} {s : K} (hf : ∀ i, (f i).Is (A i))
    (hn : ∀ i, A i = 0 ∨ nu ≤ A i * A i) (hs : (t.sumL fun i => f i * f i).Is s) : Near 4 s (∑ i, A i * A i) := by
  have two : ∀ {f : Fin 2 → Fl K} {A : Fin 2 → K} (_ : ∀ i, (f i).Is (A i)) (_ : ∀ i, A i = 0 ∨ nu ≤ A i * A i)
      (_ : (f 0 * f 0 + f 1 * f 1).Is s), Near 4 s (∑ i, A i * A i) := fun {f A} hf hn hs => by
    obtain ⟨p, q, hp, hq⟩ := Fl.add_finite hs
    rw [Fin.sum_univ_two]
    exact ((Near.sq (hf 0) (hn 0) hp).add (Near.sq (hf 1) (hn 1) hq) (Fl.add_err hp hq (Fl.wf_mul _ _) (Fl.wf_mul _ _) hs)).mono (by norm_num)
  have three : ∀ {f : Fin 3 → Fl K} {A : Fin 3 → K} (_ : ∀ i, (f i).Is (A i)) (_ : ∀ i, A i = 0 ∨ nu ≤ A i * A i)
      (_ : (f 0 * f 0 + f 1 * f 1 + f 2 * f 2).Is s), Near 4 s (∑ i, A i * A i) := fun {f A} hf hn hs => by
    rw [Fin.sum_univ_three]
    exact (sumsq3 (hf 0) (hf 1) (hf 2) (hn 0) (hn 1) (hn 2) hs).mono (by norm_num)
  have four : ∀ {f : Fin 4 → Fl K} {A : Fin 4 → K} (_ : ∀ i, (f i).Is (A i)) (_ : ∀ i, A i = 0 ∨ nu ≤ A i * A i)
      (_ : (f 0 * f 0 + f 1 * f 1 + f 2 * f 2 + f 3 * f 3).Is s), Near 4 s (∑ i, A i * A i) := fun {f A} hf hn hs => by
    rw [Fin.sum_univ_four]
    exact sumsq4 (hf 0) (hf 1) (hf 2) (hf 3) (hn 0) (hn 1) (hn 2) (hn 3) hs
  cases t
  · exact two hf hn hs
  · exact two hf hn hs
  · exact three hf hn hs
  · exact three hf hn hs
  · exact four hf hn hs
  · exact four hf hn hs

theorem VecTy.wf_sumL (t : VecTy) (f : Fin t.dim → Fl K) : (t.sumL f).WF := by
  cases t <;> exact Fl.wf_add _ _

section real

variable (φ : K →+* ℝ) (hφ : StrictMono φ)
include hφ

/-- C68: the magnitude of every vector type: if no square underflows and the result is finite, it is within `4u` (relative) of the
Euclidean norm; and it is finite if `8 aᵢ²` is in range. -/
theorem C68_magnitude (t : VecTy) (a : t.Ty (Fl K)) (A : Fin t.dim → K) (ha : t.HoldsF a A) (hn : ∀ i, A i = 0 ∨ nu ≤ A i * A i) :
    ∃ x, t.magnitude a = some x ∧
      (∀ m, x.Is m → 0 ≤ φ m ∧ |φ m - euc (fun i => φ (A i))| ≤ 4 * φ u * euc (fun i => φ (A i))) ∧
      ((∀ i, 8 * (A i * A i + 4 * eta) ≤ omega) → x.Finite) := by
  rw [VecTy.holdsF_iff] at ha
  refine ⟨_, t.magnitude_get a, fun m hm => ?_, fun hM => ?_⟩
  · obtain ⟨s, _, hs⟩ := Fl.sqrt_finite hm
    have h := t.sumsq (fun i => (ha i).1) hn hs
    obtain ⟨h0, hr⟩ := h.root hs (t.wf_sumL _) hm
    obtain ⟨b1, b2⟩ := pow6_bounds (K := K)
    have h0' : 0 ≤ φ m := by have := hφ.monotone h0; rwa [map_zero] at this
    refine ⟨h0', ?_⟩
    have e : euc (fun i => φ (A i)) = √(φ (∑ i, A i * A i)) := by
      rw [euc_eq, map_sum]; simp only [map_mul]
    rw [e]
    have := real_root φ hφ (c := 4) h0 ((mul_le_mul_of_nonneg_right (by simpa using b2) h.nonneg).trans hr.lower)
      (hr.upper.trans (mul_le_mul_of_nonneg_right (by simpa using b1) h.nonneg)) (by push_cast; linarith [u_le (K := K)])
    simpa using this
  · have he := eta_pos (K := K)
    have hp : ∀ i, Appr (t.get a i * t.get a i) 1 (A i * A i) |A i * A i| eta := fun i => Appr.prod (ha i) (ha i)
    have ha' : ∀ i, |A i * A i| = A i * A i := fun i => abs_of_nonneg (mul_self_nonneg _)
    have hd : (t.dim : K) ≤ 4 := by cases t <;> norm_num
    have hd' : ∃ i : Fin t.dim, True := by cases t <;> exact ⟨⟨0, by decide⟩, trivial⟩
    obtain ⟨i₀, -⟩ := hd'
    have hsum : 8 * (∑ i, |A i * A i| + 4 * eta) ≤ 4 * omega := by
      have h1 : ∑ i, |A i * A i| ≤ ∑ _i : Fin t.dim, (omega / 8 - 4 * eta : K) := Finset.sum_le_sum fun i _ => by
        rw [ha']; linarith [hM i]
      rw [Finset.sum_const, Finset.card_univ, Fintype.card_fin, nsmul_eq_mul] at h1
      have h2 : 0 ≤ (omega / 8 - 4 * eta : K) := by linarith [hM i₀, mul_self_nonneg (A i₀)]
      have h3 := mul_le_mul_of_nonneg_right hd h2
      linarith
    have hfin := t.sumL_fin le_rfl hp (fun i => Fl.mul_fin (ha i).1 (ha i).1 (by
      rw [ha']; linarith [hM i, mul_self_nonneg (A i)])) (by linarith)
    obtain ⟨s, hs⟩ := hfin
    have hN := t.sumsq (fun i => (ha i).1) hn hs
    refine Fl.sqrt_fin hs hN.pos ?_
    have h1 := (t.sumL_appr hp).size hs
    have hd1 : ((1 : K) + u) ^ (1 + (t.dim - 1)) ≤ 6 / 5 := by
      have h4 := pow_small (K := K) (j := 3) le_rfl
      have hl := u_le (K := K)
      have hu := u_pos (K := K)
      have : ((1 : K) + u) ^ 4 ≤ 6 / 5 := by
        rw [pow_succ]
        exact (mul_le_mul h4 (show (1 : K) + u ≤ 65 / 64 by linarith) (by linarith) (by norm_num)).trans (by norm_num)
      exact (grow_mono (by cases t <;> decide)).trans this
    have hd2 : (t.dim : K) * (1 + u) ^ (t.dim - 1) ≤ 5 := by
      have h4 := pow_small (K := K) (j := t.dim - 1) (by cases t <;> decide)
      exact (mul_le_mul hd h4 (by positivity [u_pos (K := K)]) (by norm_num)).trans (by norm_num)
    have h0 : 0 ≤ ∑ i, |A i * A i| := Finset.sum_nonneg fun i _ => abs_nonneg _
    have := mul_le_mul_of_nonneg_right hd1 h0
    have := mul_le_mul_of_nonneg_right hd2 he.le
    have := le_abs_self s
    linarith

/-- concrete case -/
example := C68_magnitude BinQ.real BinQ.real_strictMono .mat3x1 b405 B405 (VecTy.holdsF_iff.mpr b405_holds) B405_lo

/-- C68: normalising a nonzero vector of any type whose squares neither underflow nor overflow: every component is finite and within
`6u |aᵢ|/|a| + eta` of the exact one, and the result has length `1` up to `6u + 2 eta`. -/
theorem C68_normalize (t : VecTy) (a : t.Ty (Fl K)) (A : Fin t.dim → K) (ha : t.HoldsF a A) (hn : ∀ i, A i = 0 ∨ nu ≤ A i * A i)
    (h0 : A ≠ 0) (hM : ∀ i, 8 * (A i * A i + 4 * eta) ≤ omega) :
    ∃ n N, t.normalize a = some n ∧ t.HoldsF n N ∧
      (∀ i, |φ (N i) - φ (A i) / euc (fun i => φ (A i))| ≤ 6 * φ u * |φ (A i) / euc (fun i => φ (A i))| + φ eta) ∧
      |euc (fun i => φ (N i)) - 1| ≤ 6 * φ u + 2 * φ eta := by
  obtain ⟨x, hx, hacc, hfin⟩ := C68_magnitude φ hφ t a A ha hn
  obtain ⟨m, hm⟩ := hfin hM
  obtain ⟨-, hmr⟩ := hacc m hm
  rw [VecTy.holdsF_iff] at ha
  obtain ⟨c, e, hc⟩ := t.normalize_get a
  obtain rfl := Option.some.inj ((t.magnitude_get a).symm.trans hx)
  obtain ⟨-, N, hN, h1, h2⟩ := unit_close φ hφ (c := 4) (by cases t <;> decide) le_rfl (t.get a) A (fun i => (ha i).1) h0 hm
    (by exact_mod_cast hmr)
  have e6 : ((4 : ℕ) : ℝ) + 2 = 6 := by norm_num
  rw [e6] at h1 h2
  exact ⟨c, N, e, VecTy.holdsF_iff.mpr fun i => by rw [hc]; exact ⟨hN i, Fl.wf_div _ _⟩, h1, h2⟩

/-- concrete case -/
example := C68_normalize BinQ.real BinQ.real_strictMono .mat3x1 b405 B405 (VecTy.holdsF_iff.mpr b405_holds) B405_lo B405_ne
  (fun i => by
    have h := abs_le.mp (B405_five i)
    have e := eta_tiny
    have o := omega_big
    nlinarith)

end real

/-! ### matrices -/

/-- C68: the componentwise operations of both matrix types, on matrices stored in the same order. -/
theorem C68_matrix (t : MatTy) (a b : t.Ty (Fl K)) (A B : Matrix (Fin t.dim) (Fin t.dim) K) (ha : t.HoldsF a A) (hb : t.HoldsF b B)
    (hl : t.isRowMajor a = t.isRowMajor b) (s : Fl K) (S : K) (hs : s.Holds S) :
    (∃ c, t.plus a b = some c ∧ t.AccF c (fun i j => A i j + B i j) fun i j => u * |A i j + B i j|) ∧
    (∃ c, t.minus a b = some c ∧ t.AccF c (fun i j => A i j - B i j) fun i j => u * |A i j - B i j|) ∧
    (∃ c, t.mulElem a b = some c ∧ t.AccF c (fun i j => A i j * B i j) fun i j => u * |A i j * B i j| + eta) ∧
    (∃ c, t.scale a s = some c ∧ t.AccF c (fun i j => A i j * S) fun i j => u * |A i j * S| + eta) ∧
    ((∀ i j, B i j ≠ 0) → ∃ c, t.div a b = some c ∧ t.AccF c (fun i j => A i j / B i j) fun i j => u * |A i j / B i j| + eta) := by
  rw [MatTy.holdsF_iff] at ha hb
  refine ⟨?_, ?_, ?_, ?_, fun h0 => ?_⟩
  · obtain ⟨c, e, -, h⟩ := t.plus_idx a b hl
    exact ⟨c, e, MatTy.accF_iff.mpr fun i j => by rw [h]; exact .add (ha i j) (hb i j)⟩
  · obtain ⟨c, e, -, h⟩ := t.minus_idx a b hl
    exact ⟨c, e, MatTy.accF_iff.mpr fun i j => by rw [h]; exact .sub (ha i j) (hb i j)⟩
  · obtain ⟨c, e, -, h⟩ := t.mulElem_idx a b hl
    exact ⟨c, e, MatTy.accF_iff.mpr fun i j => by rw [h]; exact .mul (ha i j) (hb i j)⟩
  · obtain ⟨c, e, -, h⟩ := t.scale_idx a s
    exact ⟨c, e, MatTy.accF_iff.mpr fun i j => by rw [h]; exact .mul (ha i j) hs⟩
  · obtain ⟨c, e, -, h⟩ := t.div_idx a b hl
    exact ⟨c, e, MatTy.accF_iff.mpr fun i j => by rw [h]; exact .div (ha i j) (hb i j) (h0 i j)⟩

/-- concrete case -/
example := C68_matrix .mat3 m333 m333 M333 M333 m333_holds m333_holds rfl _ _ one64_holds

/-- C68: the homogeneous normalisation of both matrix types: every entry is divided by the last one with one rounding. -/
theorem C68_homogeneous (t : MatTy) (a : t.Ty (Fl K)) (A : Matrix (Fin t.dim) (Fin t.dim) K) (ha : t.HoldsF a A)
    (l : Fin t.dim) (hlast : l.val + 1 = t.dim) (h0 : A l l ≠ 0) :
    ∃ c, t.normalize a = some c ∧ t.AccF c (fun i j => A i j / A l l) fun i j => u * |A i j / A l l| + eta := by
  rw [MatTy.holdsF_iff] at ha
  obtain ⟨c, e, -, h⟩ := t.normalize_idx a
  have el : t.lastIx = l := by
    apply Fin.ext; revert l; cases t
    · intro l hl _; change l.val + 1 = 3 at hl; show 2 = l.val; omega
    · intro l hl _; change l.val + 1 = 4 at hl; show 3 = l.val; omega
  exact ⟨c, e, MatTy.accF_iff.mpr fun i j => by rw [h, el]; exact .div (ha i j) (ha l l) h0⟩

/-- concrete case -/
example := C68_homogeneous .mat3 m333 M333 m333_holds (2 : Fin 3) rfl (by show (9 : Q64) ≠ 0; norm_num)

/-- C68: the trace: a finite result is within `((1+u)ⁿ⁻¹-1) Σ|aᵢᵢ|` of the exact trace, and it is finite if `2 Σ|aᵢᵢ|` is in range. -/
theorem C68_trace (t : MatTy) (a : t.Ty (Fl K)) (A : Matrix (Fin t.dim) (Fin t.dim) K) (ha : t.HoldsF a A) :
    (∀ c, (t.trace a).Is c → |c - A.trace| ≤ ((1 + u) ^ (t.dim - 1) - 1) * ∑ i, |A i i|) ∧
      (2 * ∑ i, |A i i| ≤ omega → (t.trace a).Finite) := by
  rw [MatTy.holdsF_iff] at ha
  have hp : ∀ i, Appr (t.idx a i i) 0 (A i i) |A i i| 0 := fun i => Appr.leaf (ha i i)
  rw [t.trace_eq]
  cases t
  · refine ⟨fun c hc => ?_, fun hr => VecTy.sumL_fin .mat3x1 (by norm_num) hp (fun i => ⟨_, (ha i i).1⟩) (by linarith)⟩
    have := (VecTy.sumL_appr .mat3x1 hp).err c hc
    simpa [Matrix.trace] using this
  · refine ⟨fun c hc => ?_, fun hr => VecTy.sumL_fin .mat4x1 (by norm_num) hp (fun i => ⟨_, (ha i i).1⟩) (by linarith)⟩
    have := (VecTy.sumL_appr .mat4x1 hp).err c hc
    simpa [Matrix.trace] using this

/-- concrete case -/
example := C68_trace .mat3 m333 M333 m333_holds

theorem MatTy.dotL_appr (t : MatTy) {f g : Fin t.dim → Fl K} {A B : Fin t.dim → K} (hf : ∀ i, (f i).Holds (A i)) (hg : ∀ i, (g i).Holds (B i)) :
    (∀ c, (t.dotL f g).Is c →
      |c - ∑ i, A i * B i| ≤ ((1 + u) ^ t.dim - 1) * ∑ i, |A i * B i| + t.dim * (1 + u) ^ (t.dim - 1) * eta) ∧
    (2 * (∑ i, |A i * B i| + 4 * eta) ≤ omega → (t.dotL f g).Finite) := by
  have hp : ∀ i, Appr (f i * g i) 1 (A i * B i) |A i * B i| eta := fun i => Appr.prod (hf i) (hg i)
  have hfin : 2 * (∑ i, |A i * B i| + 4 * eta) ≤ omega → ∀ i, (f i * g i).Finite := fun hr i => Fl.mul_fin (hf i).1 (hg i).1 (by
    have h1 := Finset.single_le_sum (f := fun i => |A i * B i|) (fun i _ => abs_nonneg _) (Finset.mem_univ i)
    have h2 := eta_pos (K := K)
    have h3 := abs_nonneg (A i * B i)
    linarith)
  cases t
  · exact ⟨(VecTy.sumL_appr .mat3x1 hp).err, fun hr => VecTy.sumL_fin .mat3x1 le_rfl hp (hfin hr) hr⟩
  · exact ⟨(VecTy.sumL_appr .mat4x1 hp).err, fun hr => VecTy.sumL_fin .mat4x1 le_rfl hp (hfin hr) hr⟩

/-- C68: matrix times matrix, both types and any common storage order: an entry of the product is within
`((1+u)ⁿ-1) Σ|aᵢₖbₖⱼ| + n (1+u)ⁿ⁻¹ eta` of the exact one if it is finite, and it is finite if `2(Σ|aᵢₖbₖⱼ| + 4 eta)` is in range. -/
theorem C68_mul (t : MatTy) (a b : t.Ty (Fl K)) (A B : Matrix (Fin t.dim) (Fin t.dim) K) (ha : t.HoldsF a A) (hb : t.HoldsF b B)
    (hl : t.isRowMajor a = t.isRowMajor b) :
    ∃ c, t.mul a b = .ok (some c) ∧ ∀ chk (i j : Fin t.dim), ∃ x,
      t.index chk c (UInt64.ofNat i.val) (UInt64.ofNat j.val) = .ok x ∧
      (∀ v, x.Is v → |v - (A * B) i j| ≤ ((1 + u) ^ t.dim - 1) * ∑ k, |A i k * B k j| + t.dim * (1 + u) ^ (t.dim - 1) * eta) ∧
      (2 * (∑ k, |A i k * B k j| + 4 * eta) ≤ omega → x.Finite) := by
  rw [MatTy.holdsF_iff] at ha hb
  obtain ⟨c, e, -, h⟩ := t.mul_idx a b hl
  refine ⟨c, e, fun chk i j => ⟨_, t.index_eq_idx chk c i j, ?_⟩⟩
  rw [h, Matrix.mul_apply]
  exact t.dotL_appr (fun k => ha i k) (fun k => hb k j)

/-- concrete case -/
example := C68_mul .mat3 m333 m333 M333 M333 m333_holds m333_holds rfl

/-- C68: matrix times column vector and row vector times matrix, both types. -/
theorem C68_mulvec (t : MatTy) (a : t.Ty (Fl K)) (v : t.col.Ty (Fl K)) (w : t.row.Ty (Fl K)) (A : Matrix (Fin t.dim) (Fin t.dim) K)
    (V W : Fin t.dim → K) (ha : t.HoldsF a A) (hv : t.col.HoldsF v fun i => V (i.cast t.col_dim))
    (hw : t.row.HoldsF w fun i => W (i.cast t.row_dim)) :
    (∃ c, t.mulCol a v = some c ∧ ∀ i : Fin t.dim, ∃ x, t.col.index c i.val = .ok x ∧
      (∀ r, x.Is r → |r - A.mulVec V i| ≤ ((1 + u) ^ t.dim - 1) * ∑ k, |A i k * V k| + t.dim * (1 + u) ^ (t.dim - 1) * eta) ∧
      (2 * (∑ k, |A i k * V k| + 4 * eta) ≤ omega → x.Finite)) ∧
    ∃ c, t.rowMul w a = some c ∧ ∀ i : Fin t.dim, ∃ x, t.row.index c i.val = .ok x ∧
      (∀ r, x.Is r → |r - Matrix.vecMul W A i| ≤ ((1 + u) ^ t.dim - 1) * ∑ k, |W k * A k i| + t.dim * (1 + u) ^ (t.dim - 1) * eta) ∧
      (2 * (∑ k, |W k * A k i| + 4 * eta) ≤ omega → x.Finite) := by
  rw [MatTy.holdsF_iff] at ha
  rw [VecTy.holdsF_iff] at hv hw
  constructor
  · obtain ⟨c, e, h⟩ := t.mulCol_get a v
    refine ⟨c, e, fun i => ⟨_, t.col.index_get c (i.cast t.col_dim.symm), ?_⟩⟩
    rw [h]
    exact t.dotL_appr (fun k => ha i k) (fun k => hv (k.cast t.col_dim.symm))
  · obtain ⟨c, e, h⟩ := t.rowMul_get a w
    refine ⟨c, e, fun i => ⟨_, t.row.index_get c (i.cast t.row_dim.symm), ?_⟩⟩
    rw [h]
    have := t.dotL_appr (fun k => ha k i) (fun k => hw (k.cast t.row_dim.symm))
    simp only [Fin.cast_cast, Fin.cast_eq_self, mul_comm (A _ i)] at this
    exact this

/-- concrete case -/
example := C68_mulvec .mat3 m333 b405 (⟨#v[.fin 1, .fin 2, .fin 3]⟩ : Mat1x3 (Fl Q64)) M333 B405 A123 m333_holds (VecTy.holdsF_iff.mpr b405_holds)
  (VecTy.holdsF_iff.mpr a123_holds)

/-! ### f64 -/

/-- normalisation within a range of exponents -/
theorem normalize_rangeF (φ : K →+* ℝ) (hφ : StrictMono φ) (t : VecTy) (a : t.Ty (Fl K)) (A : Fin t.dim → K) (ha : t.HoldsF a A) (h0 : A ≠ 0)
    (lo hi : K) (l0 : 0 ≤ lo) (l1 : nu ≤ lo * lo) (h1 : 8 * (hi * hi + 4 * eta) ≤ omega) (he : (eta : K) ≤ u)
    (hlo : ∀ i, A i = 0 ∨ lo ≤ |A i|) (hhi : ∀ i, |A i| ≤ hi) :
    ∃ n N, t.normalize a = some n ∧ t.HoldsF n N ∧
      (∀ i, |φ (N i) - φ (A i) / euc (fun i => φ (A i))| ≤ 8 * φ u) ∧ |euc (fun i => φ (N i)) - 1| ≤ 8 * φ u := by
  have hn : ∀ i, A i = 0 ∨ nu ≤ A i * A i := fun i => (hlo i).imp_right fun h => by
    rw [← abs_mul_abs_self]; exact l1.trans (mul_le_mul h h l0 (abs_nonneg _))
  have hM : ∀ i, 8 * (A i * A i + 4 * eta) ≤ omega := fun i => by
    rw [← abs_mul_abs_self]
    have := mul_le_mul (hhi i) (hhi i) (abs_nonneg _) ((abs_nonneg _).trans (hhi i))
    linarith
  obtain ⟨n, N, e, hN, h2, h3⟩ := C68_normalize φ hφ t a A ha hn h0 hM
  have he' : φ eta ≤ φ u := hφ.monotone he
  have hu : 0 < φ u := by have := hφ (u_pos (K := K)); rwa [map_zero] at this
  refine ⟨n, N, e, hN, fun i => (h2 i).trans ?_, h3.trans (by linarith)⟩
  have : |φ (A i) / euc (fun i => φ (A i))| ≤ 1 := by
    rw [abs_div, abs_of_nonneg (euc_nonneg _)]
    apply div_le_one_of_le₀ _ (euc_nonneg _)
    exact euc_coord (fun i => φ (A i)) i
  nlinarith

/-- C68 for `f64`: a nonzero vector of any of the six types whose components are zero or between `2^-511` and `2^509` in absolute
value normalises to a vector of length `1 ± 2^-50`, with each component within `2^-50` of the exact one. -/
theorem C68_normalize_f64 (t : VecTy) (a : t.Ty (Fl Q64)) (A : Fin t.dim → Q64) (ha : t.HoldsF a A) (h0 : A ≠ 0)
    (hlo : ∀ i, A i = 0 ∨ ((2 : ℚ) ^ (-511 : ℤ) : ℚ) ≤ |A i|) (hhi : ∀ i, |A i| ≤ ((2 : ℚ) ^ (509 : ℤ) : ℚ)) :
    ∃ n N, t.normalize a = some n ∧ t.HoldsF n N ∧
      (∀ i, |(N i).real - (A i).real / euc (fun i => (A i).real)| ≤ 2 ^ (-50 : ℤ)) ∧
      |euc (fun i => (N i).real) - 1| ≤ 2 ^ (-50 : ℤ) := by
  obtain ⟨cu, ce, cn, co, -⟩ := C55_constants
  have e : 8 * BinQ.real (u : Q64) = 2 ^ (-50 : ℤ) := by
    rw [cu]
    show (8 : ℝ) * (((2 : ℚ) ^ (-53 : ℤ) : ℚ) : ℝ) = _
    push_cast
    rw [show (-50 : ℤ) = 3 + (-53) by norm_num, zpow_add₀ (by norm_num)]; norm_num
  rw [← e]
  refine normalize_rangeF BinQ.real BinQ.real_strictMono t a A ha h0 _ _ ?_ ?_ ?_ ?_ hlo hhi
  · show (0 : ℚ) ≤ 2 ^ (-511 : ℤ); positivity
  · rw [cn]
    show (2 : ℚ) ^ (-1022 : ℤ) ≤ 2 ^ (-511 : ℤ) * 2 ^ (-511 : ℤ)
    rw [← zpow_add₀ (by norm_num)]; norm_num
  · rw [co, ce]
    show (8 : ℚ) * (2 ^ (509 : ℤ) * 2 ^ (509 : ℤ) + 4 * 2 ^ (-1075 : ℤ)) ≤ 2 ^ (1023 : ℤ)
    have h1 : (2 : ℚ) ^ (-1075 : ℤ) ≤ 1 := zpow_le_one_of_nonpos₀ (by norm_num) (by norm_num)
    have h2 : (2 : ℚ) ^ (1 : ℤ) ≤ 2 ^ (509 + 509 : ℤ) := zpow_le_zpow_right₀ (by norm_num) (by norm_num)
    rw [zpow_one] at h2
    rw [← zpow_add₀ (by norm_num), show (1023 : ℤ) = 5 + (509 + 509) by norm_num, zpow_add₀ (by norm_num) 5]
    generalize (2 : ℚ) ^ (-1075 : ℤ) = x at *
    generalize (2 : ℚ) ^ (509 + 509 : ℤ) = y at *
    norm_num
    clear hlo hhi ha h0 cu cn co ce e
    linarith
  · rw [cu, ce]
    show (2 : ℚ) ^ (-1075 : ℤ) ≤ 2 ^ (-53 : ℤ)
    exact zpow_le_zpow_right₀ (by norm_num) (by norm_num)

/-- concrete case -/
example := C68_normalize_f64 .mat3x1 b405 B405 (VecTy.holdsF_iff.mpr b405_holds) B405_ne (B405_lo64 (by norm_num)) (B405_hi64 (by norm_num))

/-- `1/3` rounded to `f64` -/
def f64Third : Q64 := (6004799503160661 / 18014398509481984 : ℚ)

/-- `1/10` rounded to `f64` -/
def f64Tenth : Q64 := (3602879701896397 / 36028797018963968 : ℚ)

theorem rep_third : Fl.Rep f64Third := .inr (by decide +kernel)

theorem rep_tenth : Fl.Rep f64Tenth := .inr (by decide +kernel)

/-- non-vacuity: the row vector `(1/3, 1/10)` (both rounded), of a type not covered by C55, has a finite normalisation of length
`1 ± 2^-50` -/
example : ∃ n N, VecTy.normalize .mat1x2 (⟨#v[.fin f64Third, .fin f64Tenth]⟩ : Mat1x2 (Fl Q64)) = some n ∧
    VecTy.HoldsF .mat1x2 n N ∧ |euc (fun i => (N i).real) - 1| ≤ 2 ^ (-50 : ℤ) := by
  have lo : ∀ q : ℚ, (1 : ℚ) / 1024 ≤ q → (2 : ℚ) ^ (-511 : ℤ) ≤ |q| := fun q hq => by
    have : (2 : ℚ) ^ (-511 : ℤ) ≤ 2 ^ (-10 : ℤ) := zpow_le_zpow_right₀ (by norm_num) (by norm_num)
    exact this.trans ((by norm_num : (2 : ℚ) ^ (-10 : ℤ) ≤ 1 / 1024).trans (hq.trans (le_abs_self q)))
  have hi : ∀ q : ℚ, 0 ≤ q → q ≤ 1 → |q| ≤ (2 : ℚ) ^ (509 : ℤ) := fun q h0 hq => by
    rw [abs_of_nonneg h0]; exact hq.trans (one_le_zpow₀ (by norm_num) (by norm_num))
  obtain ⟨n, N, e, h, -, h'⟩ := C68_normalize_f64 .mat1x2 (⟨#v[.fin f64Third, .fin f64Tenth]⟩ : Mat1x2 (Fl Q64)) ![f64Third, f64Tenth]
    (VecTy.holdsF_iff.mpr fun i => by
      fin_cases i
      · exact ⟨rfl, rep_third⟩
      · exact ⟨rfl, rep_tenth⟩)
    (fun h => absurd (congrFun h 0) (show ¬ (6004799503160661 / 18014398509481984 : ℚ) = 0 by norm_num))
    (fun i => .inr (by
      fin_cases i
      · exact lo (6004799503160661 / 18014398509481984) (by norm_num)
      · exact lo (3602879701896397 / 36028797018963968) (by norm_num)))
    (fun i => by
      fin_cases i
      · exact hi (6004799503160661 / 18014398509481984) (by norm_num) (by norm_num)
      · exact hi (3602879701896397 / 36028797018963968) (by norm_num) (by norm_num))
  exact ⟨n, N, e, h, h'⟩

/-- The componentwise operations are not exact: `1/3 + 1/10` (rounded operands) is not representable. -/
theorem C68_exact_false : ¬ ∀ (t : VecTy) (a b c : t.Ty (Fl Q64)) (A B C : Fin t.dim → Q64), t.HoldsF a A → t.HoldsF b B →
    t.plus a b = some c → t.HoldsF c C → ∀ i, C i = A i + B i := by
  intro h
  have hc : ∀ x : Q64, Fl.Rep x → ∀ i : Fin 2, (VecTy.get .mat2x1 (⟨#v[.fin x, .fin (0 : ℚ)]⟩ : Mat2x1 (Fl Q64)) i).Holds (![x, (0 : ℚ)] i) := by
    intro x hx i
    fin_cases i
    · exact ⟨rfl, hx⟩
    · exact ⟨rfl, .inl rfl⟩
  have e : VecTy.plus .mat2x1 (⟨#v[.fin f64Third, .fin (0 : ℚ)]⟩ : Mat2x1 (Fl Q64)) ⟨#v[.fin f64Tenth, .fin (0 : ℚ)]⟩ =
      some ⟨#v[.fin (1951559838527215 / 4503599627370496 : ℚ), .fin (0 : ℚ)]⟩ := by decide +kernel
  have := h .mat2x1 _ _ _ ![f64Third, (0 : ℚ)] ![f64Tenth, (0 : ℚ)] ![(1951559838527215 / 4503599627370496 : ℚ), (0 : ℚ)]
    (VecTy.holdsF_iff.mpr (hc _ rep_third)) (VecTy.holdsF_iff.mpr (hc _ rep_tenth)) e
    (VecTy.holdsF_iff.mpr (hc (1951559838527215 / 4503599627370496 : ℚ) (.inr (by decide +kernel)))) 0
  revert this
  show ¬ (1951559838527215 / 4503599627370496 : ℚ) = 6004799503160661 / 18014398509481984 + 3602879701896397 / 36028797018963968
  norm_num

/-! ### NaN -/

/-- `+∞` or a finite value `≥ 0` that is not `-0` -/
def Fl.PosNum (x : Fl K) : Prop := x = .inf false ∨ ∃ v, 0 ≤ v ∧ x = .fin v

theorem Fl.NonNeg.posNum {x : Fl K} (h : x.NonNeg) (hx : x ≠ .nan) : x.PosNum := h.resolve_left hx

theorem Fl.posNum_sq {x : Fl K} (hx : x ≠ .nan) : (x * x).PosNum := by
  refine (Fl.nonNeg_sq x).posNum ?_
  show Fl.mul x x ≠ .nan
  cases x with
  | nan => exact absurd rfl hx
  | inf s => simp [Fl.mul]
  | nzero => simp [Fl.mul]
  | fin v =>
    simp only [Fl.mul, Fl.mulFin, Bool.xor_self]
    split
    · simp [Fl.zero]
    · rcases LawfulFmt.rnd_pos _ (lt_of_le_of_ne (mul_self_nonneg v) (Ne.symm ‹_›)) with e | ⟨w, -, e⟩ <;> rw [e] <;> simp

theorem Fl.PosNum.add {x y : Fl K} (h : x.PosNum) (h' : y.PosNum) : (x + y).PosNum := by
  show (Fl.add x y).PosNum
  rcases h with rfl | ⟨v, hv, rfl⟩ <;> rcases h' with rfl | ⟨w, hw, rfl⟩ <;> simp only [Fl.add]
  · exact .inl rfl
  · exact .inl rfl
  · exact .inl rfl
  · exact Fl.lit_nonneg (add_nonneg hv hw)

theorem Fl.PosNum.sqrt_ne {x : Fl K} (h : x.PosNum) : Fl.sqrt x ≠ .nan := by
  rcases h with rfl | ⟨v, hv, rfl⟩
  · simp [Fl.sqrt]
  · simp only [Fl.sqrt, if_neg (not_lt.mpr hv)]
    split
    · simp
    · rcases LawfulFmt.rsqrt_pos v (lt_of_le_of_ne hv (Ne.symm ‹_›)) with e | ⟨w, hw, e, _⟩ <;> rw [e] <;> simp

theorem Fl.nan_add' (x : Fl K) : (.nan : Fl K) + x = .nan := by cases x <;> rfl

theorem Fl.add_nan' (x : Fl K) : x + (.nan : Fl K) = .nan := by cases x <;> rfl

/-- C68: on all floats (infinite ones included) the magnitude is NaN exactly if a component is NaN. -/
theorem C68_magnitude_nan (t : VecTy) (a : t.Ty (Fl K)) (f : Fin t.dim → Fl K) (ha : t.Reads a f) :
    t.magnitude a = some .nan ↔ ∃ i, f i = .nan := by
  rw [VecTy.reads_iff] at ha
  rw [t.magnitude_get, Option.some.injEq, show t.get a = f from funext ha]
  clear ha
  constructor
  · intro h
    by_contra hn
    push Not at hn
    refine Fl.PosNum.sqrt_ne ?_ h
    clear h
    cases t <;> simp only [VecTy.sumL] <;> repeat' (first | exact Fl.posNum_sq (hn _) | apply Fl.PosNum.add)
  · rintro ⟨i, hi⟩
    have hm : f i * f i = .nan := by rw [hi]; rfl
    suffices h : t.sumL (fun i => f i * f i) = .nan by rw [h]; rfl
    clear hi
    cases t <;> fin_cases i <;> dsimp only [VecTy.sumL] <;> (erw [hm]; simp only [Fl.nan_add', Fl.add_nan'])

/-- non-vacuity: with an infinite component the magnitude is infinite, not NaN -/
example : VecTy.magnitude .mat1x2 (⟨#v[.inf true, .fin (0 : ℚ)]⟩ : Mat1x2 (Fl Q64)) ≠ some .nan := by
  rw [Ne, C68_magnitude_nan (K := Q64) .mat1x2 _ ![.inf true, .fin (0 : ℚ)] (VecTy.reads_iff.mpr fun i => by fin_cases i <;> rfl)]
  rintro ⟨i, hi⟩
  revert hi
  fin_cases i
  · exact fun h => by cases h
  · exact fun h => by cases h

end Mazth
