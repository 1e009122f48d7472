import Verif.Props.FloatAcc
import Verif.Proofs.MatBasic
import Verif.Spec.Quat

/-!
# C58, C59: forward error bounds for cross products, matrix products, quaternion products and rotations

For every format with the standard error model (`RndErr`), see `C55_constants` for the constants of `f32` and `f64`.
The bounds are conditional on the computed entry being finite (no overflow).
-/

set_option linter.unusedSectionVars false
set_option autoImplicit false

namespace Mazth

open RndErr Quaternion

variable {K : Type} [Field K] [LinearOrder K] [IsStrictOrderedRing K] [Fmt K] [LawfulFmt K] [RndErr K]

/-- the entries, read through the public accessor, are finite data with values `A` -/
def Mat3.Holds (a : Mat3 (Fl K)) (A : Matrix (Fin 3) (Fin 3) K) : Prop :=
  ∀ chk (i j : Fin 3), ∃ x, a.index chk (UInt64.ofNat i.val) (UInt64.ofNat j.val) = .ok x ∧ x.Holds (A i j)

/-- the entries, read through the public accessor, are finite data with values `A` -/
def Mat4.Holds (a : Mat4 (Fl K)) (A : Matrix (Fin 4) (Fin 4) K) : Prop :=
  ∀ chk (i j : Fin 4), ∃ x, a.index chk (UInt64.ofNat i.val) (UInt64.ofNat j.val) = .ok x ∧ x.Holds (A i j)

/-- all components are finite data of the format, with values `A` -/
def Mat4x1.Holds (a : Mat4x1 (Fl K)) (A : Fin 4 → K) : Prop := ∀ i : Fin 4, (a.val[i]).Holds (A i)

/-- the fields are finite data of the format, with the values of the quaternion `Q` -/
def Quat.Holds (q : Quat (Fl K)) (Q : ℍ[K]) : Prop :=
  q.x.Holds Q.imI ∧ q.y.Holds Q.imJ ∧ q.z.Holds Q.imK ∧ q.w.Holds Q.re

/-! Data for the examples. -/

def M333 : Matrix (Fin 3) (Fin 3) Q64 := !![1, 2, 3; 4, 5, 6; 7, 8, 9]
def m333 : Mat3 (Fl Q64) := ⟨#v[.fin 1, .fin 2, .fin 3, .fin 4, .fin 5, .fin 6, .fin 7, .fin 8, .fin 9], true⟩
def M444 : Matrix (Fin 4) (Fin 4) Q64 := !![1, 2, 3, 4; 5, 6, 7, 8; 9, 10, 11, 12; 13, 14, 15, 16]
def m444 : Mat4 (Fl Q64) := ⟨#v[.fin 1, .fin 2, .fin 3, .fin 4, .fin 5, .fin 6, .fin 7, .fin 8, .fin 9, .fin 10, .fin 11, .fin 12,
  .fin 13, .fin 14, .fin 15, .fin 16], true⟩
def H2341 : ℍ[Q64] := ⟨1, 2, 3, 4⟩
def q2341 : Quat (Fl Q64) := ⟨.fin 2, .fin 3, .fin 4, .fin 1⟩

theorem m333_holds : m333.Holds M333 := fun chk i j => by
  cases chk <;> fin_cases i <;> fin_cases j <;> exact ⟨_, rfl, rfl, .inr (by decide +kernel)⟩
theorem m444_holds : m444.Holds M444 := fun chk i j => by
  cases chk <;> fin_cases i <;> fin_cases j <;> exact ⟨_, rfl, rfl, .inr (by decide +kernel)⟩
theorem q2341_holds : q2341.Holds H2341 :=
  ⟨⟨rfl, .inr (by decide +kernel)⟩, ⟨rfl, .inr (by decide +kernel)⟩, ⟨rfl, .inr (by decide +kernel)⟩, ⟨rfl, .inr (by decide +kernel)⟩⟩
theorem H2341_ne : H2341 ≠ 0 := fun h => one_ne_zero (congrArg QuaternionAlgebra.re h : (1 : Q64) = 0)

theorem Mat3.Holds.idx {a : Mat3 (Fl K)} {A : Matrix (Fin 3) (Fin 3) K} (h : a.Holds A) (i j : Fin 3) : (a.idx i j).Holds (A i j) := by
  obtain ⟨x, e, hx⟩ := h true i j
  rw [Mat3.index_eq_idx] at e
  exact Except.ok.inj e ▸ hx

theorem Mat4.Holds.idx {a : Mat4 (Fl K)} {A : Matrix (Fin 4) (Fin 4) K} (h : a.Holds A) (i j : Fin 4) : (a.idx i j).Holds (A i j) := by
  obtain ⟨x, e, hx⟩ := h true i j
  rw [Mat4.index_eq_idx] at e
  exact Except.ok.inj e ▸ hx

/-! ### sums of a few products -/

theorem under2 : (1 + u : K) * (eta + eta) ≤ 2 * (1 + u) * eta := by linarith

theorem under3 : (1 + u : K) * ((1 + u) * (eta + eta) + eta) ≤ 3 * (1 + u) ^ 2 * eta := by
  have hu := u_pos (K := K)
  have he := eta_pos (K := K)
  nlinarith [mul_pos hu he, mul_pos hu (mul_pos hu he)]

theorem under4 : (1 + u : K) * ((1 + u) * ((1 + u) * (eta + eta) + eta) + eta) ≤ 4 * (1 + u) ^ 3 * eta := by
  have hu := u_pos (K := K)
  have he := eta_pos (K := K)
  have h1 := mul_pos hu he
  have h2 := mul_pos hu h1
  have h3 := mul_pos hu h2
  nlinarith

section sums
variable {x1 x2 x3 x4 y1 y2 y3 y4 : Fl K} {a1 a2 a3 a4 b1 b2 b3 b4 : K}

theorem dot3_appr (h1 : x1.Holds a1) (h2 : x2.Holds a2) (h3 : x3.Holds a3) (g1 : y1.Holds b1) (g2 : y2.Holds b2) (g3 : y3.Holds b3) :
    Appr (x1 * y1 + x2 * y2 + x3 * y3) 3 (a1 * b1 + a2 * b2 + a3 * b3) (|a1 * b1| + |a2 * b2| + |a3 * b3|) (3 * (1 + u) ^ 2 * eta) :=
  (((Appr.prod h1 g1).add (Appr.prod h2 g2)).add ((Appr.prod h3 g3).mono (by norm_num) le_rfl)).mono le_rfl under3

theorem dot4_appr (h1 : x1.Holds a1) (h2 : x2.Holds a2) (h3 : x3.Holds a3) (h4 : x4.Holds a4)
    (g1 : y1.Holds b1) (g2 : y2.Holds b2) (g3 : y3.Holds b3) (g4 : y4.Holds b4) :
    Appr (x1 * y1 + x2 * y2 + x3 * y3 + x4 * y4) 4 (a1 * b1 + a2 * b2 + a3 * b3 + a4 * b4)
      (|a1 * b1| + |a2 * b2| + |a3 * b3| + |a4 * b4|) (4 * (1 + u) ^ 3 * eta) :=
  ((((Appr.prod h1 g1).add (Appr.prod h2 g2)).add ((Appr.prod h3 g3).mono (by norm_num) le_rfl)).add
    ((Appr.prod h4 g4).mono (by norm_num) le_rfl)).mono le_rfl under4

theorem det2_appr (h1 : x1.Holds a1) (h2 : x2.Holds a2) (g1 : y1.Holds b1) (g2 : y2.Holds b2) :
    Appr (x1 * y1 - x2 * y2) 2 (a1 * b1 - a2 * b2) (|a1 * b1| + |a2 * b2|) (2 * (1 + u) * eta) :=
  ((Appr.prod h1 g1).sub (Appr.prod h2 g2)).mono le_rfl under2

end sums

/-- C58: every component of the cross product carries an error of at most `((1+u)²-1)(|aⱼbₖ|+|aₖbⱼ|) + 2(1+u) eta`. -/
theorem C58_cross (a b : Mat3x1 (Fl K)) (A B : Fin 3 → K) (ha : a.Holds A) (hb : b.Holds B) :
    ∃ m, a.cross b = some m ∧ ∀ i c, (m.val[i] : Fl K).Is c →
      |c - (A (i + 1) * B (i + 2) - A (i + 2) * B (i + 1))| ≤
        ((1 + u) ^ 2 - 1) * (|A (i + 1) * B (i + 2)| + |A (i + 2) * B (i + 1)|) + 2 * (1 + u) * eta := by
  refine ⟨_, rfl, fun i => ?_⟩
  fin_cases i
  · exact (det2_appr (ha 1) (ha 2) (hb 2) (hb 1)).err
  · exact (det2_appr (ha 2) (ha 0) (hb 0) (hb 2)).err
  · exact (det2_appr (ha 0) (ha 1) (hb 1) (hb 0)).err

/-- concrete case -/
example := C58_cross a123 b405 A123 B405 a123_holds b405_holds

/-- C58: the product of two 3×3 matrices stored in the same order: every finite entry is within
`((1+u)³-1) Σₖ|aᵢₖbₖⱼ| + 3(1+u)² eta` of the exact entry. -/
theorem C58_mul3 (a b : Mat3 (Fl K)) (A B : Matrix (Fin 3) (Fin 3) K) (ha : a.Holds A) (hb : b.Holds B)
    (hf : a.isRowMajor = b.isRowMajor) :
    ∃ m, a.mul b = .ok (some m) ∧ ∀ chk (i j : Fin 3), ∃ x, m.index chk (UInt64.ofNat i.val) (UInt64.ofNat j.val) = .ok x ∧
      ∀ c, x.Is c → |c - (A * B) i j| ≤ ((1 + u) ^ 3 - 1) * ∑ k, |A i k * B k j| + 3 * (1 + u) ^ 2 * eta := by
  obtain ⟨m, e, -, hm⟩ := Mat3.mul_idx a b hf
  refine ⟨m, e, fun chk i j => ⟨_, Mat3.index_eq_idx chk m i j, ?_⟩⟩
  rw [hm, Matrix.mul_apply, Fin.sum_univ_three, Fin.sum_univ_three]
  exact (dot3_appr (ha.idx i 0) (ha.idx i 1) (ha.idx i 2) (hb.idx 0 j) (hb.idx 1 j) (hb.idx 2 j)).err

/-- concrete case -/
example := C58_mul3 m333 m333 M333 M333 m333_holds m333_holds rfl

/-- C58: the same for 4×4 matrices with `((1+u)⁴-1)` and `4(1+u)³ eta`. -/
theorem C58_mul4 (a b : Mat4 (Fl K)) (A B : Matrix (Fin 4) (Fin 4) K) (ha : a.Holds A) (hb : b.Holds B)
    (hf : a.isRowMajor = b.isRowMajor) :
    ∃ m, a.mul b = .ok (some m) ∧ ∀ chk (i j : Fin 4), ∃ x, m.index chk (UInt64.ofNat i.val) (UInt64.ofNat j.val) = .ok x ∧
      ∀ c, x.Is c → |c - (A * B) i j| ≤ ((1 + u) ^ 4 - 1) * ∑ k, |A i k * B k j| + 4 * (1 + u) ^ 3 * eta := by
  obtain ⟨m, e, -, hm⟩ := Mat4.mul_idx a b hf
  refine ⟨m, e, fun chk i j => ⟨_, Mat4.index_eq_idx chk m i j, ?_⟩⟩
  rw [hm, Matrix.mul_apply, Fin.sum_univ_four, Fin.sum_univ_four]
  exact (dot4_appr (ha.idx i 0) (ha.idx i 1) (ha.idx i 2) (ha.idx i 3) (hb.idx 0 j) (hb.idx 1 j) (hb.idx 2 j) (hb.idx 3 j)).err

/-- concrete case -/
example := C58_mul4 m444 m444 M444 M444 m444_holds m444_holds rfl

/-- C58: matrix times column vector, 3×3. -/
theorem C58_mulvec3 (a : Mat3 (Fl K)) (b : Mat3x1 (Fl K)) (A : Matrix (Fin 3) (Fin 3) K) (B : Fin 3 → K) (ha : a.Holds A) (hb : b.Holds B) :
    ∃ m, a.mulMat3x1 b = some m ∧ ∀ (i : Fin 3) c, (m.val[i] : Fl K).Is c →
      |c - A.mulVec B i| ≤ ((1 + u) ^ 3 - 1) * ∑ k, |A i k * B k| + 3 * (1 + u) ^ 2 * eta := by
  obtain ⟨m, e, hm⟩ := Mat3.mulMat3x1_idx a b
  refine ⟨m, e, fun i => ?_⟩
  show ∀ c, (m.val[i.val] : Fl K).Is c → _
  rw [hm, Matrix.mulVec, dotProduct, Fin.sum_univ_three, Fin.sum_univ_three]
  exact (dot3_appr (ha.idx i 0) (ha.idx i 1) (ha.idx i 2) (hb 0) (hb 1) (hb 2)).err

/-- concrete case -/
example := C58_mulvec3 m333 b405 M333 B405 m333_holds b405_holds

/-- C58: matrix times column vector, 4×4. -/
theorem C58_mulvec4 (a : Mat4 (Fl K)) (b : Mat4x1 (Fl K)) (A : Matrix (Fin 4) (Fin 4) K) (B : Fin 4 → K) (ha : a.Holds A) (hb : b.Holds B) :
    ∃ m, a.mulMat4x1 b = some m ∧ ∀ (i : Fin 4) c, (m.val[i] : Fl K).Is c →
      |c - A.mulVec B i| ≤ ((1 + u) ^ 4 - 1) * ∑ k, |A i k * B k| + 4 * (1 + u) ^ 3 * eta := by
  obtain ⟨m, e, hm⟩ := Mat4.mulMat4x1_idx a b
  refine ⟨m, e, fun i => ?_⟩
  show ∀ c, (m.val[i.val] : Fl K).Is c → _
  rw [hm, Matrix.mulVec, dotProduct, Fin.sum_univ_four, Fin.sum_univ_four]
  exact (dot4_appr (ha.idx i 0) (ha.idx i 1) (ha.idx i 2) (ha.idx i 3) (hb 0) (hb 1) (hb 2) (hb 3)).err

/-- concrete case -/
example := C58_mulvec4 m444 ⟨#v[.fin 2, .fin 3, .fin 4, .fin 1]⟩ M444 ![2, 3, 4, 1] m444_holds
  (fun i => by fin_cases i <;> exact ⟨rfl, .inr (by decide +kernel)⟩)

/-! ### quaternions -/

/-- sum of the absolute values of the components -/
def quatL1 (Q : ℍ[K]) : K := |Q.re| + |Q.imI| + |Q.imJ| + |Q.imK|

theorem quatL1_nonneg (Q : ℍ[K]) : 0 ≤ quatL1 Q := by unfold quatL1; positivity

/-- approximation of all four components, with one bound -/
def QAppr (q : Quat (Fl K)) (k : ℕ) (Q : ℍ[K]) (T h : K) : Prop :=
  ∃ t1 t2 t3 t4, Appr q.x k Q.imI t1 h ∧ Appr q.y k Q.imJ t2 h ∧ Appr q.z k Q.imK t3 h ∧ Appr q.w k Q.re t4 h ∧ t4 + t1 + t2 + t3 ≤ T

theorem QAppr.leaf {q : Quat (Fl K)} {Q : ℍ[K]} (h : q.Holds Q) : QAppr q 0 Q (quatL1 Q) 0 :=
  ⟨_, _, _, _, .leaf h.1, .leaf h.2.1, .leaf h.2.2.1, .leaf h.2.2.2, le_rfl⟩

theorem under_quat {a1 a2 a3 a4 : K} {B : K} (h3 : 0 ≤ a3) (h4 : 0 ≤ a4) (hs : a1 + a2 + a3 + a4 ≤ B) :
    (1 + u : K) * ((1 + u) * ((1 + u) * (a1 + a2) + a3) + a4) ≤ (1 + u) ^ 3 * B := by
  have hu := u_pos (K := K)
  have e : (1 + u) ^ 3 * B - (1 + u : K) * ((1 + u) * ((1 + u) * (a1 + a2) + a3) + a4) =
      (1 + u) ^ 3 * (B - (a1 + a2 + a3 + a4)) + (1 + u) ^ 2 * u * a3 + (1 + u) * (u * (2 + u)) * a4 := by ring
  have : 0 ≤ B - (a1 + a2 + a3 + a4) := by linarith
  have : 0 ≤ (1 + u) ^ 3 * (B - (a1 + a2 + a3 + a4)) + (1 + u) ^ 2 * u * a3 + (1 + u) * (u * (2 + u)) * a4 := by positivity
  linarith

/-- C58: each component of the Hamilton product carries an error of at most `((1+u)⁴-1)` times the sum of the absolute
values of its four terms, plus `4(1+u)³ eta`. -/
theorem C58_quat_mul (p q : Quat (Fl K)) (P Q : ℍ[K]) (hp : p.Holds P) (hq : q.Holds Q) :
    (∀ c, (p.mul q).x.Is c → |c - (P * Q).imI| ≤
      ((1 + u) ^ 4 - 1) * (|P.re * Q.imI| + |P.imI * Q.re| + |P.imJ * Q.imK| + |P.imK * Q.imJ|) + 4 * (1 + u) ^ 3 * eta) ∧
    (∀ c, (p.mul q).y.Is c → |c - (P * Q).imJ| ≤
      ((1 + u) ^ 4 - 1) * (|P.re * Q.imJ| + |P.imI * Q.imK| + |P.imJ * Q.re| + |P.imK * Q.imI|) + 4 * (1 + u) ^ 3 * eta) ∧
    (∀ c, (p.mul q).z.Is c → |c - (P * Q).imK| ≤
      ((1 + u) ^ 4 - 1) * (|P.re * Q.imK| + |P.imI * Q.imJ| + |P.imJ * Q.imI| + |P.imK * Q.re|) + 4 * (1 + u) ^ 3 * eta) ∧
    (∀ c, (p.mul q).w.Is c → |c - (P * Q).re| ≤
      ((1 + u) ^ 4 - 1) * (|P.re * Q.re| + |P.imI * Q.imI| + |P.imJ * Q.imJ| + |P.imK * Q.imK|) + 4 * (1 + u) ^ 3 * eta) := by
  obtain ⟨px, py, pz, pw⟩ := hp
  obtain ⟨qx, qy, qz, qw⟩ := hq
  refine ⟨?_, ?_, ?_, ?_⟩
  · rw [Quaternion.imI_mul]
    exact (((((Appr.prod pw qx).add (Appr.prod px qw)).add ((Appr.prod py qz).mono (by norm_num) le_rfl)).sub
      ((Appr.prod pz qy).mono (by norm_num) le_rfl)).mono le_rfl under4).err
  · rw [Quaternion.imJ_mul]
    exact (((((Appr.prod pw qy).sub (Appr.prod px qz)).add ((Appr.prod py qw).mono (by norm_num) le_rfl)).add
      ((Appr.prod pz qx).mono (by norm_num) le_rfl)).mono le_rfl under4).err
  · rw [Quaternion.imK_mul]
    exact (((((Appr.prod pw qz).add (Appr.prod px qy)).sub ((Appr.prod py qx).mono (by norm_num) le_rfl)).add
      ((Appr.prod pz qw).mono (by norm_num) le_rfl)).mono le_rfl under4).err
  · rw [Quaternion.re_mul]
    exact (((((Appr.prod pw qw).sub (Appr.prod px qx)).sub ((Appr.prod py qy).mono (by norm_num) le_rfl)).sub
      ((Appr.prod pz qz).mono (by norm_num) le_rfl)).mono le_rfl under4).err

/-- concrete case -/
example := C58_quat_mul q2341 q2341 H2341 H2341 q2341_holds q2341_holds

/-! ### rotation by a quaternion -/

theorem Appr.times {x y : Fl K} {j : ℕ} {e T h b : K} (a : Appr x j e T h) (hy : y.Holds b) :
    Appr (x * y) (j + 1) (e * b) (T * |b|) ((1 + u) * (|b| * h) + eta) :=
  (a.mul (Appr.leaf hy)).cast rfl rfl (by ring)

/-- multiplying an approximate quaternion by an input quaternion -/
theorem QAppr.times {p q : Quat (Fl K)} {j : ℕ} {P Q : ℍ[K]} {T h : K} (hp : QAppr p j P T h) (hq : q.Holds Q) :
    QAppr (p.mul q) (j + 4) (P * Q) (T * quatL1 Q) ((1 + u) ^ 3 * ((1 + u) * (quatL1 Q * h) + 4 * eta)) := by
  obtain ⟨t1, t2, t3, t4, px, py, pz, pw, hT⟩ := hp
  obtain ⟨qx, qy, qz, qw⟩ := hq
  have n1 := px.T_nonneg
  have n2 := py.T_nonneg
  have n3 := pz.T_nonneg
  have n4 := pw.T_nonneg
  have hh := px.nonneg
  have hu := u_pos (K := K)
  have he := eta_pos (K := K)
  have a1 := abs_nonneg Q.re
  have a2 := abs_nonneg Q.imI
  have a3 := abs_nonneg Q.imJ
  have a4 := abs_nonneg Q.imK
  have nn : ∀ b : K, 0 ≤ (1 + u) * (|b| * h) + eta := fun b => by positivity
  have tot : ∀ b1 b2 b3 b4 : K, |b1| + |b2| + |b3| + |b4| = quatL1 Q →
      (1 + u : K) * ((1 + u) * ((1 + u) * (((1 + u) * (|b1| * h) + eta) + ((1 + u) * (|b2| * h) + eta)) + ((1 + u) * (|b3| * h) + eta)) +
        ((1 + u) * (|b4| * h) + eta)) ≤ (1 + u) ^ 3 * ((1 + u) * (quatL1 Q * h) + 4 * eta) := by
    intro b1 b2 b3 b4 hb
    refine under_quat (nn _) (nn _) (le_of_eq ?_)
    rw [← hb]; ring
  refine ⟨t4 * |Q.imI| + t1 * |Q.re| + t2 * |Q.imK| + t3 * |Q.imJ|, t4 * |Q.imJ| + t1 * |Q.imK| + t2 * |Q.re| + t3 * |Q.imI|,
    t4 * |Q.imK| + t1 * |Q.imJ| + t2 * |Q.imI| + t3 * |Q.re|, t4 * |Q.re| + t1 * |Q.imI| + t2 * |Q.imJ| + t3 * |Q.imK|, ?_, ?_, ?_, ?_, ?_⟩
  · rw [Quaternion.imI_mul]
    exact ((((pw.times qx).add (px.times qw)).add ((py.times qz).mono (by omega) le_rfl)).sub
      ((pz.times qy).mono (by omega) le_rfl)).mono le_rfl (tot _ _ _ _ (by unfold quatL1; ring))
  · rw [Quaternion.imJ_mul]
    exact ((((pw.times qy).sub (px.times qz)).add ((py.times qw).mono (by omega) le_rfl)).add
      ((pz.times qx).mono (by omega) le_rfl)).mono le_rfl (tot _ _ _ _ (by unfold quatL1; ring))
  · rw [Quaternion.imK_mul]
    exact ((((pw.times qz).add (px.times qy)).sub ((py.times qx).mono (by omega) le_rfl)).add
      ((pz.times qw).mono (by omega) le_rfl)).mono le_rfl (tot _ _ _ _ (by unfold quatL1; ring))
  · rw [Quaternion.re_mul]
    exact ((((pw.times qw).sub (px.times qx)).sub ((py.times qy).mono (by omega) le_rfl)).sub
      ((pz.times qz).mono (by omega) le_rfl)).mono le_rfl (tot _ _ _ _ (by unfold quatL1; ring))
  · have := mul_le_mul_of_nonneg_right hT (quatL1_nonneg Q)
    refine le_trans (le_of_eq ?_) this
    unfold quatL1; ring

theorem quatL1_star (Q : ℍ[K]) : quatL1 (star Q) = quatL1 Q := by
  unfold quatL1; simp

theorem quatL1_sq (Q : ℍ[K]) : quatL1 Q * quatL1 Q ≤ 4 * normSq Q := by
  rw [Quaternion.normSq_def']
  unfold quatL1
  rw [← sq_abs Q.re, ← sq_abs Q.imI, ← sq_abs Q.imJ, ← sq_abs Q.imK]
  set a := |Q.re|
  set b := |Q.imI|
  set c := |Q.imJ|
  set d := |Q.imK|
  nlinarith [sq_nonneg (a - b), sq_nonneg (a - c), sq_nonneg (a - d), sq_nonneg (b - c), sq_nonneg (b - d), sq_nonneg (c - d)]

theorem QAppr.comp {q : Quat (Fl K)} {k : ℕ} {Q : ℍ[K]} {T h : K} (hq : QAppr q k Q T h) :
    (∀ c, q.x.Is c → |c - Q.imI| ≤ ((1 + u) ^ k - 1) * T + h) ∧ (∀ c, q.y.Is c → |c - Q.imJ| ≤ ((1 + u) ^ k - 1) * T + h) ∧
      ∀ c, q.z.Is c → |c - Q.imK| ≤ ((1 + u) ^ k - 1) * T + h := by
  obtain ⟨t1, t2, t3, t4, px, py, pz, pw, hT⟩ := hq
  have n1 := px.T_nonneg
  have n2 := py.T_nonneg
  have n3 := pz.T_nonneg
  have n4 := pw.T_nonneg
  exact ⟨(px.weaken (by linarith)).err, (py.weaken (by linarith)).err, (pz.weaken (by linarith)).err⟩

theorem star_holds {q : Quat (Fl K)} {Q : ℍ[K]} (hq : q.Holds Q) : q.conjugate.Holds (star Q) := by
  obtain ⟨qx, qy, qz, qw⟩ := hq
  refine ⟨⟨?_, qx.2.neg⟩, ⟨?_, qy.2.neg⟩, ⟨?_, qz.2.neg⟩, ⟨?_, qw.2⟩⟩
  · rw [Quaternion.imI_star]; exact qx.1.kneg
  · rw [Quaternion.imJ_star]; exact qy.1.kneg
  · rw [Quaternion.imK_star]; exact qz.1.kneg
  · rw [Quaternion.re_star]; exact qw.1

theorem pure_holds {p : Mat3x1 (Fl K)} {V : Fin 3 → K} (hp : p.Holds V) :
    (⟨p.val[0], p.val[1], p.val[2], 0⟩ : Quat (Fl K)).Holds ⟨0, V 0, V 1, V 2⟩ :=
  ⟨hp 0, hp 1, hp 2, rfl, .inl rfl⟩

/-- C58: rotating a vector.  Every finite component of `rotate_vector` differs from the exact component of `Q V Q*` by at most
`((1+u)⁸-1) · 4|Q|² · (|v₀|+|v₁|+|v₂|)` plus an underflow term; `Q` need not be a unit quaternion. -/
theorem C58_rotate (q : Quat (Fl K)) (p : Mat3x1 (Fl K)) (Q : ℍ[K]) (V : Fin 3 → K) (hq : q.Holds Q) (hp : p.Holds V)
    (i : Fin 3) (c : K) (hc : ((q.rotateVector p).val[i] : Fl K).Is c) :
    |c - ![(Q * ⟨0, V 0, V 1, V 2⟩ * star Q).imI, (Q * ⟨0, V 0, V 1, V 2⟩ * star Q).imJ, (Q * ⟨0, V 0, V 1, V 2⟩ * star Q).imK] i| ≤
      ((1 + u) ^ 8 - 1) * (4 * normSq Q * (|V 0| + |V 1| + |V 2|)) + 4 * (1 + u) ^ 3 * (1 + (1 + u) ^ 4 * quatL1 Q) * eta := by
  have h := ((QAppr.leaf hq).times (pure_holds hp)).times (star_holds hq)
  rw [quatL1_star] at h
  have hV : quatL1 (⟨0, V 0, V 1, V 2⟩ : ℍ[K]) = |V 0| + |V 1| + |V 2| := by unfold quatL1; simp
  have hT : quatL1 Q * quatL1 (⟨0, V 0, V 1, V 2⟩ : ℍ[K]) * quatL1 Q ≤ 4 * normSq Q * (|V 0| + |V 1| + |V 2|) := by
    rw [hV]
    have := mul_le_mul_of_nonneg_right (quatL1_sq Q) (show 0 ≤ |V 0| + |V 1| + |V 2| by positivity)
    linarith
  obtain ⟨h1, h2, h3⟩ := h.comp
  have g := mul_le_mul_of_nonneg_left hT (sub_nonneg.mpr (grow_one (K := K) (0 + 4 + 4)))
  have e : (1 + u : K) ^ 3 * ((1 + u) * (quatL1 Q * ((1 + u) ^ 3 * ((1 + u) * (quatL1 (⟨0, V 0, V 1, V 2⟩ : ℍ[K]) * 0) + 4 * eta))) + 4 * eta) =
      4 * (1 + u) ^ 3 * (1 + (1 + u) ^ 4 * quatL1 Q) * eta := by ring
  rw [e] at h1 h2 h3
  refine le_trans ?_ (add_le_add g le_rfl)
  fin_cases i
  · exact h1 c hc
  · exact h2 c hc
  · exact h3 c hc

/-- concrete case -/
example := C58_rotate q2341 b405 H2341 B405 q2341_holds b405_holds 2

/-- C58: reflecting a vector in the plane normal to `Q`'s vector part (`Q V Q`): the same bound. -/
theorem C58_reflect (q : Quat (Fl K)) (p : Mat3x1 (Fl K)) (Q : ℍ[K]) (V : Fin 3 → K) (hq : q.Holds Q) (hp : p.Holds V)
    (i : Fin 3) (c : K) (hc : ((q.reflectionInPlane p).val[i] : Fl K).Is c) :
    |c - ![(Q * ⟨0, V 0, V 1, V 2⟩ * Q).imI, (Q * ⟨0, V 0, V 1, V 2⟩ * Q).imJ, (Q * ⟨0, V 0, V 1, V 2⟩ * Q).imK] i| ≤
      ((1 + u) ^ 8 - 1) * (4 * normSq Q * (|V 0| + |V 1| + |V 2|)) + 4 * (1 + u) ^ 3 * (1 + (1 + u) ^ 4 * quatL1 Q) * eta := by
  have h := ((QAppr.leaf hq).times (pure_holds hp)).times hq
  have hV : quatL1 (⟨0, V 0, V 1, V 2⟩ : ℍ[K]) = |V 0| + |V 1| + |V 2| := by unfold quatL1; simp
  have hT : quatL1 Q * quatL1 (⟨0, V 0, V 1, V 2⟩ : ℍ[K]) * quatL1 Q ≤ 4 * normSq Q * (|V 0| + |V 1| + |V 2|) := by
    rw [hV]
    have := mul_le_mul_of_nonneg_right (quatL1_sq Q) (show 0 ≤ |V 0| + |V 1| + |V 2| by positivity)
    linarith
  obtain ⟨h1, h2, h3⟩ := h.comp
  have g := mul_le_mul_of_nonneg_left hT (sub_nonneg.mpr (grow_one (K := K) (0 + 4 + 4)))
  have e : (1 + u : K) ^ 3 * ((1 + u) * (quatL1 Q * ((1 + u) ^ 3 * ((1 + u) * (quatL1 (⟨0, V 0, V 1, V 2⟩ : ℍ[K]) * 0) + 4 * eta))) + 4 * eta) =
      4 * (1 + u) ^ 3 * (1 + (1 + u) ^ 4 * quatL1 Q) * eta := by ring
  rw [e] at h1 h2 h3
  refine le_trans ?_ (add_le_add g le_rfl)
  fin_cases i
  · exact h1 c hc
  · exact h2 c hc
  · exact h3 c hc

/-- concrete case -/
example := C58_reflect q2341 b405 H2341 B405 q2341_holds b405_holds 1

/-! ### C59: length and normalisation of quaternions -/

/-- the components of a quaternion as a tuple -/
def quatVec (Q : ℍ[K]) : Fin 4 → K := ![Q.imI, Q.imJ, Q.imK, Q.re]

theorem H2341_pos (i : Fin 4) : quatVec H2341 i = 0 ∨ 1 ≤ |quatVec H2341 i| := .inr (by fin_cases i <;> simp [quatVec, H2341])
theorem H2341_five (i : Fin 4) : |quatVec H2341 i| ≤ 5 := by fin_cases i <;> simp [quatVec, H2341] <;> norm_num
theorem H2341_lo (i : Fin 4) : quatVec H2341 i = 0 ∨ nu ≤ quatVec H2341 i * quatVec H2341 i := lo_of (H2341_pos i)

section real

variable (φ : K →+* ℝ) (hφ : StrictMono φ)

include hφ in
/-- C59: if no square underflows, a finite `length` is within `4u` (relative) of the norm of the quaternion. -/
theorem C59_length (q : Quat (Fl K)) (Q : ℍ[K]) (hq : q.Holds Q) (hn : ∀ i, quatVec Q i = 0 ∨ nu ≤ quatVec Q i * quatVec Q i)
    (m : K) (hm : q.length.Is m) :
    0 ≤ φ m ∧ |φ m - euc (fun i => φ (quatVec Q i))| ≤ 4 * φ u * euc (fun i => φ (quatVec Q i)) := by
  obtain ⟨s, _, hs⟩ := Fl.sqrt_finite hm
  have h := sumsq4 hq.1.1 hq.2.1.1 hq.2.2.1.1 hq.2.2.2.1 (hn 0) (hn 1) (hn 2) (hn 3) hs
  obtain ⟨h0, hr⟩ := h.root hs (Fl.wf_add _ _) hm
  obtain ⟨b1, b2⟩ := pow6_bounds (K := K)
  have h0' : 0 ≤ φ m := by have := hφ.monotone h0; rwa [map_zero] at this
  refine ⟨h0', ?_⟩
  have e : euc (fun i => φ (quatVec Q i)) = √(φ (Q.imI * Q.imI + Q.imJ * Q.imJ + Q.imK * Q.imK + Q.re * Q.re)) := by
    rw [euc_eq, Fin.sum_univ_four]; simp [quatVec]
  rw [e]
  have := real_root φ hφ (c := 4) h0 ((mul_le_mul_of_nonneg_right (by simpa using b2) h.nonneg).trans hr.lower)
    (hr.upper.trans (mul_le_mul_of_nonneg_right (by simpa using b1) h.nonneg)) (by push_cast; linarith [u_le (K := K)])
  simpa using this

/-- concrete case -/
example := C59_length BinQ.real BinQ.real_strictMono q2341 H2341 q2341_holds H2341_lo

include hφ in
/-- C59: normalising a non-zero quaternion whose squares do not underflow and whose length is finite succeeds; each component
is within `6u |qᵢ|/‖q‖ + eta` of the exact one and the result has norm `1` up to `6u + 2 eta`. -/
theorem C59_normalize (q : Quat (Fl K)) (Q : ℍ[K]) (hq : q.Holds Q) (hn : ∀ i, quatVec Q i = 0 ∨ nu ≤ quatVec Q i * quatVec Q i)
    (h0 : Q ≠ 0) (hfin : q.length.Finite) :
    ∃ n N, q.normalize = .ok n ∧ n.Holds N ∧
      (∀ i, |φ (quatVec N i) - φ (quatVec Q i) / euc (fun i => φ (quatVec Q i))| ≤
        6 * φ u * |φ (quatVec Q i) / euc (fun i => φ (quatVec Q i))| + φ eta) ∧
      |euc (fun i => φ (quatVec N i)) - 1| ≤ 6 * φ u + 2 * φ eta := by
  obtain ⟨m, hm⟩ := hfin
  obtain ⟨-, hmr⟩ := C59_length φ hφ q Q hq hn m hm
  have hX : ∀ i : Fin 4, ((![q.x, q.y, q.z, q.w] : Fin 4 → Fl K) i).Is (quatVec Q i) := fun i => by
    fin_cases i
    · exact hq.1.1
    · exact hq.2.1.1
    · exact hq.2.2.1.1
    · exact hq.2.2.2.1
  have hne : quatVec Q ≠ 0 := by
    intro h
    apply h0
    ext
    · exact congrFun h 3
    · exact congrFun h 0
    · exact congrFun h 1
    · exact congrFun h 2
  obtain ⟨hpos, N, hN, h1, h2⟩ := unit_close φ hφ (c := 4) le_rfl le_rfl _ _ hX hne hm (by exact_mod_cast hmr)
  have e6 : ((4 : ℕ) : ℝ) + 2 = 6 := by norm_num
  rw [e6] at h1 h2
  have hlt : Fl.lt 0 q.length = true := by
    rcases hm.kcases with e | ⟨-, rfl⟩
    · rw [e]; exact decide_eq_true hpos
    · exact absurd hpos (lt_irrefl _)
  have hnorm : q.normalize = .ok ⟨q.x / q.length, q.y / q.length, q.z / q.length, q.w / q.length⟩ := by
    unfold Quat.normalize; simp [hlt]
  have hvec : quatVec (⟨N 3, N 0, N 1, N 2⟩ : ℍ[K]) = N := by funext i; fin_cases i <;> rfl
  refine ⟨_, ⟨N 3, N 0, N 1, N 2⟩, hnorm, ⟨⟨hN 0, Fl.wf_div _ _⟩, ⟨hN 1, Fl.wf_div _ _⟩, ⟨hN 2, Fl.wf_div _ _⟩, ⟨hN 3, Fl.wf_div _ _⟩⟩, ?_, ?_⟩
  · rw [hvec]; exact h1
  · rw [hvec]; exact h2

/-- concrete case -/
example := C59_normalize BinQ.real BinQ.real_strictMono q2341 H2341 q2341_holds H2341_lo H2341_ne
  (Fl.finite_iff.mpr ⟨by decide +kernel, by decide +kernel, by decide +kernel⟩)

end real

/-- The hypotheses are met by the quaternion `1 + 2i + 3j + 4k` in binary64 (for the squares: `nu = 2^-1022 ≤ 1`). -/
example : (⟨.fin (2 : ℚ), .fin (3 : ℚ), .fin (4 : ℚ), .fin (1 : ℚ)⟩ : Quat (Fl Q64)).Holds ⟨(1 : ℚ), (2 : ℚ), (3 : ℚ), (4 : ℚ)⟩ ∧
    (⟨.fin (2 : ℚ), .fin (3 : ℚ), .fin (4 : ℚ), .fin (1 : ℚ)⟩ : Quat (Fl Q64)).length.Finite ∧ (nu : Q64) ≤ ((1 : ℚ) * (1 : ℚ) : ℚ) := by
  refine ⟨⟨⟨rfl, .inr (by decide +kernel)⟩, ⟨rfl, .inr (by decide +kernel)⟩, ⟨rfl, .inr (by decide +kernel)⟩, ⟨rfl, .inr (by decide +kernel)⟩⟩, ?_, ?_⟩
  · refine Fl.finite_iff.mpr ⟨?_, ?_, ?_⟩ <;> decide +kernel
  · rw [C55_constants.2.2.1]
    show (2 : ℚ) ^ (-1022 : ℤ) ≤ 1 * 1
    rw [mul_one]
    exact zpow_le_one_of_nonpos₀ (by norm_num) (by norm_num)

end Mazth
