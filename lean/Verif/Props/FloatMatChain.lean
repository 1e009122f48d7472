import Verif.Props.FloatChain
import Verif.Props.FloatVec

/-!
# C98: long chains of matrix products in floating point

A program multiplies transformation matrices turn after turn (`m = m.mul(b).unwrap()`), or applies matrices to the same vector again and
again.  If every factor is close to an orthogonal matrix, the error grows at most linearly in the number of factors, and the rows stay
orthonormal up to three times that error.
-/

set_option linter.unusedSectionVars false
set_option autoImplicit false

namespace Mazth

open Matrix RndErr Quaternion

namespace MatChain

/-! ### real computations -/

theorem euc_two {N : ℕ} (hN : N ≤ 4) {v : Fin N → ℝ} {B : ℝ} (hB : 0 ≤ B) (h : ∀ i, |v i| ≤ B) : euc v ≤ 2 * B := by
  rw [euc_eq]
  apply Real.sqrt_le_iff.mpr ⟨by positivity, ?_⟩
  have h1 : ∑ i, v i * v i ≤ ∑ _i : Fin N, B * B := Finset.sum_le_sum fun i _ => by
    rw [← abs_mul_abs_self]; exact mul_le_mul (h i) (h i) (abs_nonneg _) hB
  rw [Finset.sum_const, Finset.card_univ, Fintype.card_fin, nsmul_eq_mul] at h1
  have h2 : (N : ℝ) ≤ 4 := by exact_mod_cast hN
  nlinarith [mul_nonneg hB hB]

theorem cauchy {N : ℕ} (a b : Fin N → ℝ) : ∑ k, |a k * b k| ≤ euc a * euc b := by
  have h : (∑ k, |a k * b k|) ^ 2 ≤ (euc a * euc b) ^ 2 := by
    have e : (euc a * euc b) ^ 2 = (euc a * euc a) * (euc b * euc b) := by ring
    rw [e, euc_sq, euc_sq, dotProduct, dotProduct]
    have := Finset.sum_mul_sq_le_sq_mul_sq Finset.univ (fun k => |a k|) (fun k => |b k|)
    simp only [sq_abs] at this
    simp only [abs_mul, ← sq]
    exact this
  exact (abs_le_of_sq_le_sq' h (mul_nonneg (euc_nonneg _) (euc_nonneg _))).2

theorem cauchy_dot {N : ℕ} (a b : Fin N → ℝ) : |∑ k, a k * b k| ≤ euc a * euc b :=
  (Finset.abs_sum_le_sum_abs _ _).trans (cauchy a b)

theorem euc_tri {N : ℕ} (a b : Fin N → ℝ) : euc a ≤ euc (a - b) + euc b := by
  have := euc_add_le (a - b) b; rwa [sub_add_cancel] at this

variable {N : ℕ} {U : Matrix (Fin N) (Fin N) ℝ}

theorem row_one (hU : U * Uᵀ = 1) (i : Fin N) : euc (U i) = 1 := by
  have h := congrFun (congrFun hU i) i
  rw [Matrix.mul_apply, Matrix.one_apply_eq] at h
  have e : euc (U i) * euc (U i) = 1 := by rw [euc_sq]; exact h
  nlinarith [euc_nonneg (U i)]

theorem col_one (hU : U * Uᵀ = 1) (j : Fin N) : euc (fun k => U k j) = 1 := by
  have h : Uᵀ * U = 1 := mul_eq_one_comm.mp hU
  exact row_one (U := Uᵀ) (by rw [Matrix.transpose_transpose]; exact h) j

theorem euc_vecMul (hU : U * Uᵀ = 1) (x : Fin N → ℝ) : euc (x ᵥ* U) = euc x := by
  apply euc_of_dot
  rw [← Matrix.dotProduct_mulVec, ← Matrix.vecMul_transpose, Matrix.vecMul_vecMul, hU, Matrix.vecMul_one]

theorem euc_mulVec (hU : U * Uᵀ = 1) (x : Fin N → ℝ) : euc (U *ᵥ x) = euc x := by
  rw [← Matrix.vecMul_transpose]
  exact euc_vecMul (by rw [Matrix.transpose_transpose]; exact mul_eq_one_comm.mp hU) x

/-- one row of a product -/
theorem row_step (hN : N ≤ 4) (hU : U * Uᵀ = 1) {B : Matrix (Fin N) (Fin N) ℝ} {r v s : Fin N → ℝ} {E d g h : ℝ} (g0 : 0 ≤ g) (h0 : 0 ≤ h) (hd0 : 0 ≤ d)
    (hd : d ≤ 1 / 8) (hE : E ≤ 1) (hv : euc v = 1) (hr : euc (r - v) ≤ E) (hB : ∀ i, euc (B i - U i) ≤ d)
    (hs : ∀ j, |s j - ∑ k, r k * B k j| ≤ g * ∑ k, |r k * B k j| + h) :
    euc (s - v ᵥ* U) ≤ E + 8 * d + (5 * g + 2 * h) := by
  have er : euc r ≤ 2 := by have := euc_tri r v; linarith
  have dc (j : Fin N) : euc (fun k => B k j - U k j) ≤ 2 * d := euc_two hN hd0 fun k => (euc_coord (B k - U k) j).trans (hB k)
  have cB (j : Fin N) : euc (fun k => B k j) ≤ 5 / 4 := by
    have h1 := euc_tri (fun k => B k j) (fun k => U k j)
    rw [col_one hU] at h1
    have := dc j
    have e : (fun k => B k j) - (fun k => U k j) = fun k => B k j - U k j := rfl
    rw [e] at h1
    linarith
  have e1 : euc (fun j => s j - ∑ k, r k * B k j) ≤ 2 * (g * (5 / 2) + h) := euc_two hN (by positivity) fun j => by
    refine (hs j).trans (add_le_add (mul_le_mul_of_nonneg_left ?_ g0) le_rfl)
    refine (cauchy _ _).trans ?_
    calc euc r * euc (fun k => B k j) ≤ 2 * (5 / 4) := mul_le_mul er (cB j) (euc_nonneg _) (by norm_num)
      _ = 5 / 2 := by norm_num
  have e2 : euc (fun j => ∑ k, r k * (B k j - U k j)) ≤ 2 * (2 * (2 * d)) := euc_two hN (by positivity) fun j => by
    refine (cauchy_dot _ _).trans ?_
    exact mul_le_mul er (dc j) (euc_nonneg _) (by norm_num)
  have e3 : euc ((r - v) ᵥ* U) ≤ E := by rw [euc_vecMul hU]; exact hr
  have e : s - v ᵥ* U = ((fun j => s j - ∑ k, r k * B k j) + fun j => ∑ k, r k * (B k j - U k j)) + (r - v) ᵥ* U := by
    funext j
    rw [Matrix.sub_vecMul]
    simp only [Pi.sub_apply, Pi.add_apply, Matrix.vecMul, dotProduct, mul_sub, Finset.sum_sub_distrib]
    ring
  rw [e]
  refine (euc_add_le _ _).trans ?_
  have := euc_add_le (fun j => s j - ∑ k, r k * B k j) (fun j => ∑ k, r k * (B k j - U k j))
  linarith

/-- a matrix times a vector -/
theorem vec_step (hN : N ≤ 4) (hU : U * Uᵀ = 1) {A : Matrix (Fin N) (Fin N) ℝ} {x X s : Fin N → ℝ} {E d g h : ℝ} (g0 : 0 ≤ g) (h0 : 0 ≤ h) (hd0 : 0 ≤ d)
    (hd : d ≤ 1 / 8) (hx : euc (x - X) ≤ E) (hA : ∀ i, euc (A i - U i) ≤ d)
    (hs : ∀ i, |s i - ∑ k, A i k * x k| ≤ g * ∑ k, |A i k * x k| + h) :
    euc (s - U *ᵥ X) ≤ E + ((2 * d + 9 / 4 * g) * (euc X + E) + 2 * h) := by
  have ex : euc x ≤ euc X + E := by have := euc_tri x X; linarith
  have x0 := euc_nonneg x
  have rA (i : Fin N) : euc (A i) ≤ 9 / 8 := by
    have h1 := euc_tri (A i) (U i)
    rw [row_one hU] at h1
    have := hA i
    linarith
  have e1 : euc (fun i => s i - ∑ k, A i k * x k) ≤ 2 * (g * (9 / 8 * euc x) + h) := euc_two hN (by positivity) fun i => by
    refine (hs i).trans (add_le_add (mul_le_mul_of_nonneg_left ?_ g0) le_rfl)
    exact (cauchy _ _).trans (mul_le_mul_of_nonneg_right (rA i) x0)
  have e2 : euc (fun i => ∑ k, (A i - U i) k * x k) ≤ 2 * (d * euc x) := euc_two hN (by positivity) fun i =>
    (cauchy_dot _ _).trans (mul_le_mul_of_nonneg_right (hA i) x0)
  have e3 : euc (U *ᵥ (x - X)) ≤ E := by rw [euc_mulVec hU]; exact hx
  have e : s - U *ᵥ X = ((fun i => s i - ∑ k, A i k * x k) + fun i => ∑ k, (A i - U i) k * x k) + U *ᵥ (x - X) := by
    funext i
    rw [Matrix.mulVec_sub]
    simp only [Pi.sub_apply, Pi.add_apply, Matrix.mulVec, dotProduct, sub_mul, Finset.sum_sub_distrib]
    ring
  rw [e]
  refine (euc_add_le _ _).trans ?_
  have t := euc_add_le (fun i => s i - ∑ k, A i k * x k) (fun i => ∑ k, (A i - U i) k * x k)
  have m := mul_le_mul_of_nonneg_left ex (show 0 ≤ 2 * d + 9 / 4 * g by positivity)
  linarith

end MatChain

theorem MatTy.dim_le (t : MatTy) : t.dim ≤ 4 := by cases t <;> decide

section floats

variable {K : Type} [Field K] [LinearOrder K] [IsStrictOrderedRing K] [Fmt K] [LawfulFmt K] [RndErr K]
variable (φ : K →+* ℝ) (hφ : StrictMono φ)

/-- the entries of the float matrix `m` are finite and its rows at distance at most `d` from those of the orthogonal matrix `U` -/
def MatTy.NearO (t : MatTy) (d : ℝ) (m : t.Ty (Fl K)) (U : Matrix (Fin t.dim) (Fin t.dim) ℝ) : Prop :=
  U * Uᵀ = 1 ∧ ∃ M, t.HoldsF m M ∧ ∀ i, euc ((fun j => φ (M i j)) - U i) ≤ d

/-- the product of matrices from left to right, as a program computes it with `m = m.mul(b).unwrap()` in a loop -/
def MatTy.chain (t : MatTy) (m : t.Ty (Fl K)) (bs : List (t.Ty (Fl K))) : Res (t.Ty (Fl K)) :=
  bs.foldlM (fun m b => t.mul m b >>= unwrap) m

/-- the vector obtained by applying matrices one after the other, `v = b.mul_vec(v).unwrap()` in a loop -/
def MatTy.applyAll (t : MatTy) (v : t.col.Ty (Fl K)) (bs : List (t.Ty (Fl K))) : Option (t.col.Ty (Fl K)) :=
  bs.foldlM (fun v b => t.mulCol b v) v

include hφ

theorem MatTy.gamma (t : MatTy) : (1 + φ u) ^ t.dim - 1 ≤ 41 / 10 * φ u ∧ (t.dim : ℝ) * (1 + φ u) ^ (t.dim - 1) ≤ 43 / 10 := by
  obtain ⟨h1, h2⟩ := g4_le φ hφ
  obtain ⟨hu, -, -⟩ := phi_u φ hφ
  cases t
  · have a1 : (1 + φ u) ^ 3 ≤ (1 + φ u) ^ 4 := pow_le_pow_right₀ (by linarith) (by norm_num)
    have a2 : (1 + φ u) ^ 2 ≤ (1 + φ u) ^ 3 := pow_le_pow_right₀ (by linarith) (by norm_num)
    have a3 : 0 < (1 + φ u) ^ 2 := by positivity
    refine ⟨?_, ?_⟩
    · show (1 + φ u) ^ 3 - 1 ≤ _
      linarith
    · show ((3 : ℕ) : ℝ) * (1 + φ u) ^ 2 ≤ _
      push_cast
      linarith
  · refine ⟨h1, ?_⟩
    show ((4 : ℕ) : ℝ) * (1 + φ u) ^ 3 ≤ _
    push_cast
    exact h2

/-- the error of a dot product, in the reals, for a sum of products of size at most `S` -/
theorem MatTy.dotL_real (t : MatTy) {f g : Fin t.dim → Fl K} {A B : Fin t.dim → K} (hf : ∀ i, (f i).Holds (A i)) (hg : ∀ i, (g i).Holds (B i))
    (he : 64 * (eta : K) ≤ u) {S : K} (hS : ∑ i, |φ (A i) * φ (B i)| ≤ φ S) (ho : 2 * (S + 1) ≤ omega) :
    ∃ c, (t.dotL f g).Holds c ∧ |φ c - ∑ i, φ (A i) * φ (B i)| ≤ 41 / 10 * φ u * (∑ i, |φ (A i) * φ (B i)|) + 43 / 10 * φ eta := by
  obtain ⟨h1, h2⟩ := t.dotL_appr hf hg
  have sum_le : ∑ i, |A i * B i| ≤ S := by
    by_contra hc
    have := hφ (not_le.mp hc)
    rw [map_sum] at this
    simp only [map_abs_mono φ hφ, map_mul] at this
    linarith
  obtain ⟨c, hc⟩ := h2 (by have := u_le (K := K); have := eta_pos (K := K); linarith)
  refine ⟨c, ⟨hc, ?_⟩, ?_⟩
  · cases t
    · exact Fl.wf_add _ _
    · exact Fl.wf_add _ _
  · have e := hφ.monotone (h1 c hc)
    simp only [map_abs_mono φ hφ, map_add, map_mul, map_sub, map_pow, map_one, map_sum, map_natCast] at e
    obtain ⟨g1, g2⟩ := t.gamma φ hφ
    obtain ⟨-, -, heta⟩ := phi_u φ hφ
    have m1 := mul_le_mul_of_nonneg_right g1 (Finset.sum_nonneg fun i (_ : i ∈ Finset.univ) => abs_nonneg (φ (A i) * φ (B i)))
    have m2 := mul_le_mul_of_nonneg_right g2 heta.le
    linarith

omit hφ in
theorem MatTy.NearO.nonneg {t : MatTy} {d : ℝ} {m : t.Ty (Fl K)} {U : Matrix (Fin t.dim) (Fin t.dim) ℝ} (h : t.NearO φ d m U) : 0 ≤ d := by
  obtain ⟨-, M, -, h⟩ := h
  exact (euc_nonneg _).trans (h t.lastIx)

/-- one product -/
theorem MatTy.NearO.step {t : MatTy} {E d : ℝ} {a b : t.Ty (Fl K)} {V U : Matrix (Fin t.dim) (Fin t.dim) ℝ} (ha : t.NearO φ E a V) (hb : t.NearO φ d b U)
    (hl : t.isRowMajor a = t.isRowMajor b) (hE : E ≤ 1) (hd : d ≤ 1 / 8) (he : 64 * (eta : K) ≤ u) (ho : (25 : K) ≤ omega) :
    ∃ m, t.mul a b = .ok (some m) ∧ t.isRowMajor m = t.isRowMajor a ∧ t.NearO φ (E + (8 * d + 24 * φ u)) m (V * U) := by
  have hd0 := hb.nonneg
  obtain ⟨hV, A, hA, ea⟩ := ha
  obtain ⟨hU, B, hB, eb⟩ := hb
  rw [MatTy.holdsF_iff] at hA hB
  obtain ⟨m, e, fl, hm⟩ := t.mul_idx a b hl
  obtain ⟨hu, hul, heta⟩ := phi_u φ hφ
  have he' : 64 * φ eta ≤ φ u := by have := hφ.monotone he; rwa [map_mul, map_ofNat] at this
  have bnd (i j : Fin t.dim) : ∑ k, |φ (A i k) * φ (B k j)| ≤ φ (3 : K) := by
    refine (MatChain.cauchy _ _).trans ?_
    have e1 := MatChain.euc_tri (fun k => φ (A i k)) (V i)
    rw [MatChain.row_one hV] at e1
    have e2 := MatChain.euc_tri (fun k => φ (B k j)) (fun k => U k j)
    rw [MatChain.col_one hU] at e2
    have e3 : euc ((fun k => φ (B k j)) - fun k => U k j) ≤ 2 * d := MatChain.euc_two t.dim_le hd0 fun k =>
      (euc_coord ((fun j => φ (B k j)) - U k) j).trans (eb k)
    have := ea i
    rw [map_ofNat]
    calc euc (fun k => φ (A i k)) * euc (fun k => φ (B k j)) ≤ 2 * (5 / 4) :=
          mul_le_mul (by linarith) (by linarith) (euc_nonneg _) (by norm_num)
      _ ≤ 3 := by norm_num
  have key (i j : Fin t.dim) := t.dotL_real φ hφ (fun k => hA i k) (fun k => hB k j) he (bnd i j) (by linarith)
  choose M hM eM using key
  refine ⟨m, e, fl, ?_, M, MatTy.holdsF_iff.mpr fun i j => by rw [hm]; exact hM i j, fun i => ?_⟩
  · rw [Matrix.transpose_mul, Matrix.mul_assoc, ← Matrix.mul_assoc U, hU, Matrix.one_mul, hV]
  · have st := MatChain.row_step t.dim_le hU (B := fun k j => φ (B k j)) (r := fun k => φ (A i k)) (v := V i) (s := fun j => φ (M i j))
      (g := 41 / 10 * φ u) (h := 43 / 10 * φ eta) (by positivity) (by positivity) hd0 hd hE (MatChain.row_one hV i) (ea i) eb (eM i)
    have e2 : (V * U) i = V i ᵥ* U := rfl
    rw [e2]
    linarith

/-- C98: the product of `n` matrices close to orthogonal ones, for both matrix types and any common storage order.  The rows of `m` are within `d0` of
those of an orthogonal matrix `V` and the rows of each factor within `d` of those of its orthogonal matrix.  As long as the bound stays below one, nothing
panics or overflows and every entry of the computed product, multiplied from left to right, is within `d0 + n (8 d + 24 u)` of the entry of the
exact product of the orthogonal matrices; its rows are orthonormal up to three times that. -/
theorem C98_product (t : MatTy) {d0 d : ℝ} (hd : 0 ≤ d) {m : t.Ty (Fl K)} {V : Matrix (Fin t.dim) (Fin t.dim) ℝ} {bs : List (t.Ty (Fl K))}
    {Us : List (Matrix (Fin t.dim) (Fin t.dim) ℝ)} (hm : t.NearO φ d0 m V) (hbs : List.Forall₂ (t.NearO φ d) bs Us)
    (hl : ∀ b ∈ bs, t.isRowMajor b = t.isRowMajor m) (hb : d0 + bs.length * (8 * d + 24 * φ u) ≤ 1) (he : 64 * (eta : K) ≤ u) (ho : (25 : K) ≤ omega) :
    ∃ r R, t.chain m bs = .ok r ∧ t.isRowMajor r = t.isRowMajor m ∧ t.HoldsF r R ∧
      (∀ i j, |φ (R i j) - (V * Us.prod) i j| ≤ d0 + bs.length * (8 * d + 24 * φ u)) ∧
      ∀ i j, |∑ k, φ (R i k) * φ (R j k) - (1 : Matrix (Fin t.dim) (Fin t.dim) ℝ) i j| ≤ 3 * (d0 + bs.length * (8 * d + 24 * φ u)) := by
  obtain ⟨hu, hul, heta⟩ := phi_u φ hφ
  have key : ∃ r, t.chain m bs = .ok r ∧ t.isRowMajor r = t.isRowMajor m ∧ t.NearO φ (d0 + bs.length * (8 * d + 24 * φ u)) r (V * Us.prod) := by
    induction hbs generalizing m V d0 with
    | nil => exact ⟨m, rfl, rfl, by simpa using hm⟩
    | @cons b U bs Us h hs ih =>
      rw [List.length_cons] at hb ⊢
      push_cast at hb ⊢
      have n0 : (0 : ℝ) ≤ bs.length := by positivity
      have n1 : 0 ≤ (bs.length : ℝ) * (8 * d + 24 * φ u) := by positivity
      have d00 := hm.nonneg
      obtain ⟨r, e, fl, st⟩ := hm.step φ hφ h (hl b (by simp)).symm (by linarith) (by linarith) he ho
      obtain ⟨r', e', fl', st'⟩ := ih st (fun b' hb' => (hl b' (by simp [hb'])).trans fl.symm) (by linarith)
      refine ⟨r', ?_, fl'.trans fl, ?_⟩
      · unfold MatTy.chain at e' ⊢
        rw [List.foldlM_cons, e, Res.ok_bind, unwrap_some, Res.ok_bind]
        exact e'
      · rw [List.prod_cons, ← Matrix.mul_assoc]
        convert st' using 1
        ring
  obtain ⟨r, e, fl, hO, R, hR, hd'⟩ := key
  generalize d0 + bs.length * (8 * d + 24 * φ u) = b at hb hd' ⊢
  refine ⟨r, R, e, fl, hR, fun i j => (euc_coord ((fun j => φ (R i j)) - (V * Us.prod) i) j).trans (hd' i), fun i j => ?_⟩
  have h1 := congrFun (congrFun hO i) j
  rw [Matrix.mul_apply] at h1
  generalize V * Us.prod = W at *
  have hW : ∀ i, euc (W i) = 1 := MatChain.row_one hO
  have b0 : 0 ≤ b := (euc_nonneg _).trans (hd' i)
  have ex : ∑ k, φ (R i k) * φ (R j k) - (1 : Matrix (Fin t.dim) (Fin t.dim) ℝ) i j =
      ∑ k, ((fun j => φ (R i j)) - W i) k * W j k + ∑ k, W i k * ((fun k => φ (R j k)) - W j) k +
        ∑ k, ((fun j => φ (R i j)) - W i) k * ((fun k => φ (R j k)) - W j) k := by
    rw [← h1, ← Finset.sum_sub_distrib, ← Finset.sum_add_distrib, ← Finset.sum_add_distrib]
    refine Finset.sum_congr rfl fun k _ => ?_
    simp only [Pi.sub_apply, Matrix.transpose_apply]
    ring
  rw [ex]
  have c1 := MatChain.cauchy_dot ((fun j => φ (R i j)) - W i) (W j)
  have c2 := MatChain.cauchy_dot (W i) ((fun k => φ (R j k)) - W j)
  have c3 := MatChain.cauchy_dot ((fun j => φ (R i j)) - W i) ((fun k => φ (R j k)) - W j)
  rw [hW, mul_one] at c1
  rw [hW, one_mul] at c2
  have c4 := mul_le_mul (hd' i) (hd' j) (euc_nonneg _) b0
  have c5 : b * b ≤ b * 1 := mul_le_mul_of_nonneg_left hb b0
  have t1 := abs_add_le (∑ k, ((fun j => φ (R i j)) - W i) k * W j k + ∑ k, W i k * ((fun k => φ (R j k)) - W j) k)
    (∑ k, ((fun j => φ (R i j)) - W i) k * ((fun k => φ (R j k)) - W j) k)
  have t2 := abs_add_le (∑ k, ((fun j => φ (R i j)) - W i) k * W j k) (∑ k, W i k * ((fun k => φ (R j k)) - W j) k)
  have h2 := hd' i
  have h3 := hd' j
  linarith

/-- one matrix applied to a vector -/
theorem MatTy.NearO.apply {t : MatTy} {E d : ℝ} {b : t.Ty (Fl K)} {U : Matrix (Fin t.dim) (Fin t.dim) ℝ} (hb : t.NearO φ d b U) (hd : d ≤ 1 / 8)
    {v : t.col.Ty (Fl K)} {V : Fin t.dim → K} {X : Fin t.dim → ℝ} (hv : t.col.HoldsF v fun i => V (i.cast t.col_dim))
    (hE : euc ((fun i => φ (V i)) - X) ≤ E) {S : K} (hS : 9 / 8 * (euc X + E) ≤ φ S) (ho : 2 * (S + 1) ≤ omega) (he : 64 * (eta : K) ≤ u) :
    ∃ (w : t.col.Ty (Fl K)) (W : Fin t.dim → K), t.mulCol b v = some w ∧ t.col.HoldsF w (fun i => W (i.cast t.col_dim)) ∧
      euc ((fun i => φ (W i)) - U *ᵥ X) ≤ E + ((2 * d + 10 * φ u) * (euc X + E) + 9 * φ eta) := by
  have hd0 := hb.nonneg
  obtain ⟨hU, B, hB, eb⟩ := hb
  rw [MatTy.holdsF_iff] at hB
  rw [VecTy.holdsF_iff] at hv
  obtain ⟨hu, hul, heta⟩ := phi_u φ hφ
  obtain ⟨w, e, hw⟩ := t.mulCol_get b v
  have ex : euc (fun i => φ (V i)) ≤ euc X + E := by have := MatChain.euc_tri (fun i => φ (V i)) X; linarith
  have x0 := euc_nonneg (fun i => φ (V i))
  have bnd (i : Fin t.dim) : ∑ k, |φ (B i k) * φ (V k)| ≤ φ S := by
    refine (MatChain.cauchy _ _).trans (le_trans ?_ hS)
    have e1 := MatChain.euc_tri (fun k => φ (B i k)) (U i)
    rw [MatChain.row_one hU] at e1
    have := eb i
    exact mul_le_mul (by linarith) ex x0 (by norm_num)
  have key (i : Fin t.dim) := t.dotL_real φ hφ (fun k => hB i k) (fun k => hv (k.cast t.col_dim.symm)) he (bnd i) ho
  choose W hW eW using key
  refine ⟨w, W, e, VecTy.holdsF_iff.mpr fun i => ?_, ?_⟩
  · have h1 := hw (i.cast t.col_dim)
    rw [Fin.cast_cast, Fin.cast_eq_self] at h1
    rw [h1]; exact hW _
  · have st := MatChain.vec_step t.dim_le hU (A := fun k j => φ (B k j)) (x := fun k => φ (V k)) (X := X) (s := fun j => φ (W j))
      (g := 41 / 10 * φ u) (h := 43 / 10 * φ eta) (by positivity) (by positivity) hd0 hd hE eb eW
    have L0 : 0 ≤ euc X + E := x0.trans ex
    have : (2 * d + 9 / 4 * (41 / 10 * φ u)) * (euc X + E) ≤ (2 * d + 10 * φ u) * (euc X + E) :=
      mul_le_mul_of_nonneg_right (by linarith) L0
    linarith

/-- the induction behind `C98_apply`: `k` turns done -/
theorem MatTy.apply_chain (t : MatTy) {d L : ℝ} (hd0 : 0 ≤ d) (hd : d ≤ 1 / 8) {bs : List (t.Ty (Fl K))} {Us : List (Matrix (Fin t.dim) (Fin t.dim) ℝ)}
    (hbs : List.Forall₂ (t.NearO φ d) bs Us) {B : K} (hLB : L ≤ 2 * φ B) (ho : 16 * (B + 1) ≤ omega) (he : 64 * (eta : K) ≤ u) (k : ℕ)
    {v : t.col.Ty (Fl K)} {V : Fin t.dim → K} {X : Fin t.dim → ℝ} (hv : t.col.HoldsF v fun i => V (i.cast t.col_dim)) (hX : euc X = L)
    (hE : euc ((fun i => φ (V i)) - X) ≤ 2 * k * ((2 * d + 10 * φ u) * L + 9 * φ eta)) (hk : (k + bs.length) * (2 * d + 10 * φ u) ≤ 1 / 2) :
    euc (Us.foldl (fun x U => U *ᵥ x) X) = L ∧ ∃ (w : t.col.Ty (Fl K)) (W : Fin t.dim → K), t.applyAll v bs = some w ∧ t.col.HoldsF w (fun i => W (i.cast t.col_dim)) ∧
      euc ((fun i => φ (W i)) - Us.foldl (fun x U => U *ᵥ x) X) ≤ 2 * (k + bs.length) * ((2 * d + 10 * φ u) * L + 9 * φ eta) := by
  obtain ⟨hu, hul, heta⟩ := phi_u φ hφ
  have he' : 64 * φ eta ≤ φ u := by have := hφ.monotone he; rwa [map_mul, map_ofNat] at this
  induction hbs generalizing v V X k with
  | nil => exact ⟨hX, v, V, rfl, hv, by simpa using hE⟩
  | @cons b U bs Us h hs ih =>
    have L0 : 0 ≤ L := hX ▸ euc_nonneg X
    rw [List.length_cons] at hk ⊢
    push_cast at hk ⊢
    set κ := 2 * d + 10 * φ u with hκ
    have κ0 : 0 ≤ κ := by positivity
    have n0 : (0 : ℝ) ≤ bs.length := by positivity
    have k0 : (0 : ℝ) ≤ k := by positivity
    have kκ : k * κ ≤ 1 / 2 := by nlinarith
    have c0 : 0 ≤ κ * L + 9 * φ eta := by positivity
    have b1 : 2 * k * (κ * L + 9 * φ eta) ≤ L + 1 := by
      have a1 : 2 * (k * κ) * L ≤ 1 * L := mul_le_mul_of_nonneg_right (by linarith) L0
      have a2 : (k : ℝ) * (10 * φ u) ≤ k * κ := mul_le_mul_of_nonneg_left (by rw [hκ]; linarith) k0
      have a3 : (k : ℝ) * (64 * φ eta) ≤ k * φ u := mul_le_mul_of_nonneg_left he' k0
      have a4 : 0 ≤ (k : ℝ) * φ u := by positivity
      linarith
    have hU := h.1
    obtain ⟨w, W, e, hW, hE'⟩ := h.apply φ hφ hd hv hE (S := 5 * B + 2) (by
      rw [map_add, map_mul, map_ofNat, map_ofNat, hX]; linarith) (by
      have : 0 ≤ B := by
        by_contra hc
        have := hφ (not_le.mp hc)
        rw [map_zero] at this
        linarith
      linarith) he
    rw [hX] at hE'
    have key : 2 * k * (κ * L + 9 * φ eta) + (κ * (L + 2 * k * (κ * L + 9 * φ eta)) + 9 * φ eta) ≤
        2 * ((k + 1 : ℕ) : ℝ) * (κ * L + 9 * φ eta) := by
      have a1 : 2 * (k * κ) * (κ * L + 9 * φ eta) ≤ 1 * (κ * L + 9 * φ eta) := mul_le_mul_of_nonneg_right (by linarith) c0
      push_cast
      linarith
    obtain ⟨r1, w', W', e', hW', r2⟩ := ih (k + 1) hW ((MatChain.euc_mulVec hU X).trans hX) (hE'.trans key) (by push_cast; linarith)
    refine ⟨r1, w', W', ?_, hW', r2.trans (le_of_eq ?_)⟩
    · unfold MatTy.applyAll at e' ⊢
      rw [List.foldlM_cons, e]
      exact e'
    · push_cast; ring

/-- C98: `n` matrices applied to a vector one after the other, each with rows within `d` of those of an orthogonal matrix.  Nothing overflows; the result is within
`n ((4 d + 20 u) |v| + 18 eta)` of the exact result, and so is its length of the length of `v`. -/
theorem C98_apply (t : MatTy) {d : ℝ} (hd0 : 0 ≤ d) (hd : d ≤ 1 / 8) {bs : List (t.Ty (Fl K))} {Us : List (Matrix (Fin t.dim) (Fin t.dim) ℝ)}
    (hbs : List.Forall₂ (t.NearO φ d) bs Us) {v : t.col.Ty (Fl K)} {V : Fin t.dim → K} (hv : t.col.HoldsF v fun i => V (i.cast t.col_dim))
    {B : K} (hB : ∀ i, |V i| ≤ B) (ho : 16 * (B + 1) ≤ omega) (he : 64 * (eta : K) ≤ u) (hn : bs.length * (2 * d + 10 * φ u) ≤ 1 / 2) :
    ∃ (w : t.col.Ty (Fl K)) (W : Fin t.dim → K), t.applyAll v bs = some w ∧ t.col.HoldsF w (fun i => W (i.cast t.col_dim)) ∧
      euc ((fun i => φ (W i)) - Us.foldl (fun x U => U *ᵥ x) fun i => φ (V i)) ≤
        bs.length * ((4 * d + 20 * φ u) * euc (fun i => φ (V i)) + 18 * φ eta) ∧
      |euc (fun i => φ (W i)) - euc (fun i => φ (V i))| ≤ bs.length * ((4 * d + 20 * φ u) * euc (fun i => φ (V i)) + 18 * φ eta) := by
  have hLB : euc (fun i => φ (V i)) ≤ 2 * φ B := by
    refine MatChain.euc_two t.dim_le (by have := hφ.monotone ((abs_nonneg _).trans (hB t.lastIx)); rwa [map_zero] at this) fun i => ?_
    have := hφ.monotone (hB i)
    rwa [map_abs_mono φ hφ] at this
  obtain ⟨r1, w, W, e, hW, r2⟩ := t.apply_chain φ hφ hd0 hd hbs hLB ho he 0 hv rfl (by
    rw [sub_self, (euc_eq_zero _).mpr rfl]; simp) (by simpa using hn)
  have e2 : 2 * (((0 : ℕ) : ℝ) + bs.length) * ((2 * d + 10 * φ u) * euc (fun i => φ (V i)) + 9 * φ eta) =
      bs.length * ((4 * d + 20 * φ u) * euc (fun i => φ (V i)) + 18 * φ eta) := by push_cast; ring
  rw [e2] at r2
  refine ⟨w, W, e, hW, r2, ?_⟩
  have t1 := MatChain.euc_tri (fun i => φ (W i)) (Us.foldl (fun x U => U *ᵥ x) fun i => φ (V i))
  have t2 := MatChain.euc_tri (Us.foldl (fun x U => U *ᵥ x) fun i => φ (V i)) (fun i => φ (W i))
  rw [euc_sub_comm] at t2
  rw [r1] at t1 t2
  rw [abs_le]; constructor <;> linarith

end floats

/-! ### rotation matrices of quaternions, binary64 -/

theorem rotM_orth {Q : ℍ[ℝ]} (h1 : ‖Q‖ = 1) : rotM Q * (rotM Q)ᵀ = 1 := by
  obtain ⟨A, hA, o, -⟩ := C21_orthogonal (quatR_isR Q) h1
  rwa [MatTy.readsR_unique hA (rotM_reads (quatR_isR Q))] at o

theorem rotM_mul {P Q : ℍ[ℝ]} (h1 : ‖P‖ = 1) (h2 : ‖Q‖ = 1) : rotM (P * Q) = rotM P * rotM Q := by
  obtain ⟨m, A, e, r1, r2⟩ := C21_mul (quatR_isR P) (quatR_isR Q) h1 h2
  obtain ⟨m', e', -, r3⟩ := C04_mul .mat4 _ _ _ _ (rotM_reads (quatR_isR P)) (rotM_reads (quatR_isR Q)) rfl
  obtain rfl : m' = m := Option.some.inj (Except.ok.inj (e'.symm.trans e))
  have a1 := MatTy.readsR_unique r2 (rotM_reads ((quatR_isR P).mul (quatR_isR Q)))
  have a2 := MatTy.readsR_unique r1 r3
  exact a1.symm.trans a2

/-- the matrix of a quaternion normalised by the library -/
theorem Norm64.matrix {n : Quat (Fl Q64)} {Q : ℍ[Q64]} (h : Norm64 n Q) :
    MatTy.NearO BinQ.real .mat4 (200 * BinQ.real (u : Q64)) (n.toRotationMatrix true) (rotM (unit64 Q)) := by
  have hU := h.near.1
  obtain ⟨q, hq, h0, hlo, hhi, e⟩ := h
  obtain ⟨r1, B, r2, r3⟩ := f64_quat_range hlo hhi
  obtain ⟨n', A, e', hA, -, -, R, hR, hd⟩ := C67_matrix BinQ.real BinQ.real_strictMono hq h0 r1 r2 r3 f64_eta_u (by
    have := f64_vec_range (M := 0) (show (0 : ℚ) ≤ 2 ^ (1000 : ℤ) by positivity)
    linarith)
  obtain rfl : n' = n := Except.ok.inj (e'.symm.trans e)
  have eR : R = rotM (unit64 Q) := by
    refine Matrix.ext_of_mulVec_single fun i => ?_
    have key (x : Fin 4 → ℝ) : R *ᵥ x = rotM (unit64 Q) *ᵥ x := by
      have a1 := hR ![x 0, x 1, x 2] (x 3)
      have a2 := rotM_vec hU ![x 0, x 1, x 2] (x 3)
      rw [show rotR (unit64 Q) ![x 0, x 1, x 2] = _ from rotR_scale (unitQ BinQ.real BinQ.real_strictMono h0).2 _ _] at a2
      have hx : (![x 0, x 1, x 2, x 3] : Fin 4 → ℝ) = x := by ext i; fin_cases i <;> rfl
      have e3 := a1.trans a2.symm
      simpa [hx] using e3
    exact key _
  subst eR
  refine ⟨rotM_orth hU, A, hA, fun i => ?_⟩
  have hu := (phi_u (K := Q64) BinQ.real BinQ.real_strictMono).1
  exact (MatChain.euc_two (N := 4) le_rfl (B := 100 * BinQ.real (u : Q64)) (by positivity) fun j => hd i j).trans (le_of_eq (by ring))

theorem forall_matrix {ns : List (Quat (Fl Q64))} {Qs : List ℍ[Q64]} (h : List.Forall₂ Norm64 ns Qs) :
    List.Forall₂ (MatTy.NearO BinQ.real .mat4 (200 * BinQ.real (u : Q64))) (ns.map fun n => n.toRotationMatrix true) (Qs.map fun Q => rotM (unit64 Q)) := by
  induction h with
  | nil => exact .nil
  | cons h _ ih => exact .cons h.matrix ih

theorem rotM_prod {ns : List (Quat (Fl Q64))} {Qs : List ℍ[Q64]} (h : List.Forall₂ Norm64 ns Qs) {P : ℍ[ℝ]} (hP : ‖P‖ = 1) :
    rotM P * (Qs.map fun Q => rotM (unit64 Q)).prod = rotM (P * (Qs.map unit64).prod) ∧ ‖P * (Qs.map unit64).prod‖ = 1 := by
  induction h generalizing P with
  | nil => simp [hP]
  | @cons n Q ns Qs h _ ih =>
    have hU := h.near.1
    obtain ⟨e1, e2⟩ := ih (P := P * unit64 Q) (by rw [norm_mul, hP, hU, one_mul])
    simp only [List.map_cons, List.prod_cons]
    rw [← mul_assoc, ← mul_assoc P, ← rotM_mul hP hU]
    exact ⟨e1, e2⟩

/-- C98 for `f64`: the row-major rotation matrices of up to `2^41` quaternions normalised by the library, multiplied from left to right.  Nothing panics or
overflows; every entry of the result is within `(n+1) 2^-42` of the matrix of the rotation by the exact product of the unit quaternions; and the rows are
orthonormal up to `3 (n+1) 2^-42`. -/
theorem C98_rotations_f64 {n : Quat (Fl Q64)} {Q : ℍ[Q64]} {ns : List (Quat (Fl Q64))} {Qs : List ℍ[Q64]} (hn : Norm64 n Q)
    (h : List.Forall₂ Norm64 ns Qs) (hl : ns.length ≤ 2 ^ 41) :
    ∃ (r : Mat4 (Fl Q64)) (R : Matrix (Fin 4) (Fin 4) Q64) (T : Matrix (Fin 4) (Fin 4) ℝ),
      MatTy.chain .mat4 (n.toRotationMatrix true) (ns.map fun n => n.toRotationMatrix true) = .ok r ∧ r.Holds R ∧
      (∀ v s, T *ᵥ ![v 0, v 1, v 2, s] = ![rotR (unit64 Q * (Qs.map unit64).prod) v 0, rotR (unit64 Q * (Qs.map unit64).prod) v 1,
        rotR (unit64 Q * (Qs.map unit64).prod) v 2, s]) ∧
      (∀ i j, |(R i j).real - T i j| ≤ (ns.length + 1) * 2 ^ (-42 : ℤ)) ∧
      ∀ i j, |∑ k, (R i k).real * (R j k).real - (1 : Matrix (Fin 4) (Fin 4) ℝ) i j| ≤ 3 * ((ns.length + 1) * 2 ^ (-42 : ℤ)) := by
  have hu := f64_consts.1
  have hl' : (ns.length : ℝ) ≤ 2 ^ 41 := by exact_mod_cast hl
  have n0 : (0 : ℝ) ≤ ns.length := by positivity
  have hb : 200 * BinQ.real (u : Q64) + ((ns.map fun n => n.toRotationMatrix true).length : ℝ) * (8 * (200 * BinQ.real (u : Q64)) + 24 * BinQ.real (u : Q64)) ≤
      (ns.length + 1) * 2 ^ (-42 : ℤ) := by
    rw [hu, List.length_map]; norm_num; linarith
  have flag (n : Quat (Fl Q64)) : MatTy.isRowMajor .mat4 (n.toRotationMatrix true) = true := rfl
  obtain ⟨r, R, e, -, hR, h1, h2⟩ := C98_product BinQ.real BinQ.real_strictMono .mat4 (by rw [hu]; positivity) hn.matrix (forall_matrix h) (by
    intro b hb
    obtain ⟨m, -, rfl⟩ := List.mem_map.mp hb
    rw [flag, flag]) (hb.trans (by norm_num; linarith)) eta_u64 omega_25
  obtain ⟨e1, e2⟩ := rotM_prod h hn.near.1
  rw [e1] at h1
  exact ⟨r, R, _, e, hR, fun v s => rotM_vec e2 v s, fun i j => (h1 i j).trans hb, fun i j => (h2 i j).trans (by linarith)⟩

/-! ### concrete cases -/

/-- concrete case: a million factors, the matrix of `(1 + 2i + 3j + 4k)/√30` -/
example := norm_2341.imp fun n h => C98_rotations_f64 h (norm_list n h (10 ^ 6)) (by rw [List.length_replicate]; norm_num)

/-- a quarter turn about the third axis, stored by columns -/
def turn90 : Mat3 (Fl Q64) := ⟨#v[.fin 0, .fin 1, .fin 0, .fin (-1), .fin 0, .fin 0, .fin 0, .fin 0, .fin 1], false⟩

theorem turn90_near : MatTy.NearO BinQ.real .mat3 0 turn90 (!![0, -1, 0; 1, 0, 0; 0, 0, 1] : Matrix (Fin 3) (Fin 3) ℝ) := by
  refine ⟨?_, (!![0, -1, 0; 1, 0, 0; 0, 0, 1] : Matrix (Fin 3) (Fin 3) Q64), fun chk i j => ?_, fun i => ?_⟩
  · show (!![0, -1, 0; 1, 0, 0; 0, 0, 1] : Matrix (Fin 3) (Fin 3) ℝ) * _ = 1
    ext i j
    fin_cases i <;> fin_cases j <;> simp [Matrix.mul_apply, Fin.sum_univ_three]
  · cases chk <;> fin_cases i <;> fin_cases j <;> exact ⟨_, rfl, rfl, .inr (by decide +kernel)⟩
  · apply le_of_eq
    rw [euc_eq_zero]
    funext j
    change Fin 3 at i j
    fin_cases i <;> fin_cases j <;> simp

/-- concrete case of the general theorem: two factors of the smaller matrix type, stored by columns -/
example := C98_product BinQ.real BinQ.real_strictMono .mat3 le_rfl turn90_near (.cons turn90_near (.cons turn90_near .nil)) (by simp)
  (by rw [f64_consts.1]; norm_num) eta_u64 omega_25

/-- concrete case: the vector `(4, 0, 5)` turned three times -/
example := C98_apply BinQ.real BinQ.real_strictMono .mat3 le_rfl (by norm_num) (.cons turn90_near (.cons turn90_near (.cons turn90_near .nil)))
  (v := b405) (V := B405) (VecTy.holdsF_iff.mpr b405_holds) (B := 5) B405_five (by linarith [omega_big]) eta_u64 (by rw [f64_consts.1]; norm_num)

end Mazth
