import Verif.Spec.Quat
import Verif.Proofs.LinearTy
import Verif.Proofs.IsTac

/-! Transfer lemmas: each quaternion operation of the model, in exact arithmetic, as an operation on `ℍ[ℝ]`. -/

set_option autoImplicit false

namespace Mazth

open Quaternion

namespace Quat

variable {p q : Quat (Fl ℝ)} {P Q : ℍ[ℝ]}

theorem IsR.unique (h : q.IsR P) (h' : q.IsR Q) : P = Q := by
  obtain ⟨a, b, c, d⟩ := h
  obtain ⟨a', b', c', d'⟩ := h'
  exact Quaternion.ext _ _ (d.unique d') (a.unique a') (b.unique b') (c.unique c')

theorem IsR.cast (h : q.IsR P) (e : P = Q) : q.IsR Q := e ▸ h

theorem init_isR : (Quat.init : Quat (Fl ℝ)).IsR 1 :=
  ⟨Fl.is_zero, Fl.is_zero, Fl.is_zero, Fl.is_one⟩

theorem IsR.mul (h : p.IsR P) (h' : q.IsR Q) : (p.mul q).IsR (P * Q) := by
  obtain ⟨a, b, c, d⟩ := h
  obtain ⟨a', b', c', d'⟩ := h'
  refine ⟨?_, ?_, ?_, ?_⟩ <;> unfold Quat.mul <;> dsimp only
  · refine Fl.Is.cast (a := P.re * Q.imI + P.imI * Q.re + P.imJ * Q.imK - P.imK * Q.imJ) (by is_tac) (by simp)
  · refine Fl.Is.cast (a := P.re * Q.imJ - P.imI * Q.imK + P.imJ * Q.re + P.imK * Q.imI) (by is_tac) (by simp)
  · refine Fl.Is.cast (a := P.re * Q.imK + P.imI * Q.imJ - P.imJ * Q.imI + P.imK * Q.re) (by is_tac) (by simp)
  · refine Fl.Is.cast (a := P.re * Q.re - P.imI * Q.imI - P.imJ * Q.imJ - P.imK * Q.imK) (by is_tac) (by simp)

theorem IsR.add (h : p.IsR P) (h' : q.IsR Q) : (p.add q).IsR (P + Q) := by
  obtain ⟨a, b, c, d⟩ := h
  obtain ⟨a', b', c', d'⟩ := h'
  exact ⟨a.add a', b.add b', c.add c', d.add d'⟩

theorem IsR.minus (h : p.IsR P) (h' : q.IsR Q) : (p.minus q).IsR (P - Q) := by
  obtain ⟨a, b, c, d⟩ := h
  obtain ⟨a', b', c', d'⟩ := h'
  exact ⟨a.sub a', b.sub b', c.sub c', d.sub d'⟩

theorem IsR.negate (h : q.IsR Q) : q.negate.IsR (-Q) := by
  obtain ⟨a, b, c, d⟩ := h
  exact ⟨a.neg, b.neg, c.neg, d.neg⟩

theorem IsR.conjugate (h : q.IsR Q) : q.conjugate.IsR (star Q) := by
  obtain ⟨a, b, c, d⟩ := h
  refine ⟨a.neg.cast ?_, b.neg.cast ?_, c.neg.cast ?_, d.cast ?_⟩ <;> simp

theorem IsR.scale (h : q.IsR Q) {s : Fl ℝ} {r : ℝ} (hs : s.Is r) : (q.scale s).IsR (r • Q) := by
  obtain ⟨a, b, c, d⟩ := h
  refine ⟨(a.mul hs).cast ?_, (b.mul hs).cast ?_, (c.mul hs).cast ?_, (d.mul hs).cast ?_⟩ <;> simp [mul_comm]

theorem normSq_eq (Q : ℍ[ℝ]) :
    Q.imI * Q.imI + Q.imJ * Q.imJ + Q.imK * Q.imK + Q.re * Q.re = ‖Q‖ * ‖Q‖ := by
  rw [← Quaternion.normSq_eq_norm_mul_self, Quaternion.normSq_def']; ring

theorem norm_eq (Q : ℍ[ℝ]) :
    Real.sqrt (Q.imI * Q.imI + Q.imJ * Q.imJ + Q.imK * Q.imK + Q.re * Q.re) = ‖Q‖ := by
  rw [normSq_eq, Real.sqrt_mul_self (norm_nonneg _)]

theorem IsR.lengthSquared (h : q.IsR Q) : q.lengthSquared.Is (‖Q‖ ^ 2) := by
  obtain ⟨a, b, c, d⟩ := h
  rw [sq, ← normSq_eq]
  exact (((a.mul a).add (b.mul b)).add (c.mul c)).add (d.mul d)

theorem IsR.length (h : q.IsR Q) : q.length.Is ‖Q‖ := by
  obtain ⟨a, b, c, d⟩ := h
  rw [← norm_eq]
  exact ((((a.mul a).add (b.mul b)).add (c.mul c)).add (d.mul d)).sqrt (by rw [normSq_eq]; positivity)

theorem IsR.inverse_zero (h : q.IsR Q) (h0 : Q = 0) : q.inverse = .error .assertFailed := by
  have := h.conjugate.lengthSquared
  unfold Quat.inverse; dsimp only
  rw [this.feq Fl.is_zero]; simp [h0]

theorem IsR.inverse (h : q.IsR Q) (h0 : Q ≠ 0) : ∃ r, q.inverse = .ok r ∧ r.IsR Q⁻¹ := by
  have hl := h.conjugate.lengthSquared
  have hn : ‖star Q‖ ^ 2 ≠ 0 := by simp [h0]
  refine ⟨q.conjugate.scale (1 / q.conjugate.lengthSquared), ?_, ?_⟩
  · unfold Quat.inverse; dsimp only
    rw [hl.feq Fl.is_zero]; simp [h0]
  · refine (h.conjugate.scale (Fl.is_one.div hl hn)).cast ?_
    rw [Quaternion.inv_def, Quaternion.normSq_eq_norm_mul_self]
    simp [sq]

theorem IsR.normalize_zero (h : q.IsR Q) (h0 : Q = 0) : q.normalize = .error .explicit := by
  have := h.length
  unfold Quat.normalize; dsimp only
  rw [this.lt Fl.is_zero, Fl.is_zero.lt this]; simp [h0]

theorem IsR.normalize (h : q.IsR Q) (h0 : Q ≠ 0) : ∃ r, q.normalize = .ok r ∧ r.IsR (‖Q‖⁻¹ • Q) := by
  have hl := h.length
  have hn : ‖Q‖ ≠ 0 := by simp [h0]
  obtain ⟨a, b, c, d⟩ := h
  refine ⟨⟨q.x / q.length, q.y / q.length, q.z / q.length, q.w / q.length⟩, ?_, ?_⟩
  · unfold Quat.normalize; dsimp only
    rw [hl.lt Fl.is_zero, Fl.is_zero.lt hl]
    rw [if_pos (by simp [h0])]
  · refine ⟨(a.div hl hn).cast ?_, (b.div hl hn).cast ?_, (c.div hl hn).cast ?_, (d.div hl hn).cast ?_⟩ <;>
      simp [div_eq_inv_mul]

end Quat

@[simp] theorem pureQ_re (u : Fin 3 → ℝ) : (pureQ u).re = 0 := rfl
@[simp] theorem pureQ_imI (u : Fin 3 → ℝ) : (pureQ u).imI = u 0 := rfl
@[simp] theorem pureQ_imJ (u : Fin 3 → ℝ) : (pureQ u).imJ = u 1 := rfl
@[simp] theorem pureQ_imK (u : Fin 3 → ℝ) : (pureQ u).imK = u 2 := rfl

/-! vectors -/

theorem Mat3x1.isR_iff {v : Mat3x1 (Fl ℝ)} {u : Fin 3 → ℝ} :
    v.IsR u ↔ v.val[0].Is (u 0) ∧ v.val[1].Is (u 1) ∧ v.val[2].Is (u 2) := by
  unfold Mat3x1.IsR
  rw [VecTy.readsR_iff]
  constructor
  · intro h; exact ⟨h 0, h 1, h 2⟩
  · rintro ⟨a, b, c⟩ i; fin_cases i
    · exact a
    · exact b
    · exact c

theorem Mat3x1.IsR.unique {v : Mat3x1 (Fl ℝ)} {u w : Fin 3 → ℝ} (h : v.IsR u) (h' : v.IsR w) : u = w :=
  VecTy.readsR_unique h h'

theorem Mat3x1.IsR.cast {v : Mat3x1 (Fl ℝ)} {u w : Fin 3 → ℝ} (h : v.IsR u) (e : u = w) : v.IsR w := e ▸ h

theorem Mat3x1.IsR.pure {v : Mat3x1 (Fl ℝ)} {u : Fin 3 → ℝ} (h : v.IsR u) :
    (⟨v.val[0], v.val[1], v.val[2], 0⟩ : Quat (Fl ℝ)).IsR (pureQ u) := by
  obtain ⟨a, b, c⟩ := Mat3x1.isR_iff.mp h
  exact ⟨a, b, c, Fl.is_zero⟩

theorem Quat.IsR.vec {q : Quat (Fl ℝ)} {Q : ℍ[ℝ]} (h : q.IsR Q) :
    (⟨#v[q.x, q.y, q.z]⟩ : Mat3x1 (Fl ℝ)).IsR (vecQ Q) :=
  Mat3x1.isR_iff.mpr ⟨h.1, h.2.1, h.2.2.1⟩

theorem Quat.IsR.rotateVector {q : Quat (Fl ℝ)} {Q : ℍ[ℝ]} (h : q.IsR Q) {v : Mat3x1 (Fl ℝ)} {u : Fin 3 → ℝ}
    (hv : v.IsR u) : (q.rotateVector v).IsR (vecQ (Q * pureQ u * star Q)) :=
  ((h.mul hv.pure).mul h.conjugate).vec

theorem Quat.IsR.reflection {q : Quat (Fl ℝ)} {Q : ℍ[ℝ]} (h : q.IsR Q) {v : Mat3x1 (Fl ℝ)} {u : Fin 3 → ℝ}
    (hv : v.IsR u) : (q.reflectionInPlane v).IsR (vecQ (Q * pureQ u * Q)) :=
  ((h.mul hv.pure).mul h).vec

theorem Quat.IsR.parallel {q : Quat (Fl ℝ)} {Q : ℍ[ℝ]} (h : q.IsR Q) {v : Mat3x1 (Fl ℝ)} {u : Fin 3 → ℝ}
    (hv : v.IsR u) :
    (q.parallelComponentOfPlane v).IsR (vecQ ((1 / 2 : ℝ) • (pureQ u + Q * pureQ u * Q))) :=
  ((hv.pure.add ((h.mul hv.pure).mul h)).scale (Fl.is_lit _)).vec

theorem Quat.IsR.orthogonal {q : Quat (Fl ℝ)} {Q : ℍ[ℝ]} (h : q.IsR Q) {v : Mat3x1 (Fl ℝ)} {u : Fin 3 → ℝ}
    (hv : v.IsR u) :
    (q.orthogonalComponentOfPlane v).IsR (vecQ ((1 / 2 : ℝ) • (pureQ u - Q * pureQ u * Q))) :=
  ((hv.pure.minus ((h.mul hv.pure).mul h)).scale (Fl.is_lit _)).vec

/-! polynomial facts about `u ↦ Q u Q*` -/

theorem vecQ_pureQ (u : Fin 3 → ℝ) : vecQ (pureQ u) = u := by ext i; fin_cases i <;> rfl

theorem pureQ_vecQ {Q : ℍ[ℝ]} (h : Q.re = 0) : pureQ (vecQ Q) = Q := by
  ext <;> simp [vecQ, h]

theorem rot_re (Q : ℍ[ℝ]) (u : Fin 3 → ℝ) : (Q * pureQ u * star Q).re = 0 := by
  simp; ring

theorem unit_sq {Q : ℍ[ℝ]} (h : ‖Q‖ = 1) : Q.imI * Q.imI + Q.imJ * Q.imJ + Q.imK * Q.imK + Q.re * Q.re = 1 := by
  rw [Quat.normSq_eq, h, one_mul]

/-- the rotated vector in coordinates -/
theorem rot_coords (Q : ℍ[ℝ]) (u : Fin 3 → ℝ) : vecQ (Q * pureQ u * star Q) =
    ![(Q.re * Q.re + Q.imI * Q.imI - Q.imJ * Q.imJ - Q.imK * Q.imK) * u 0
        + 2 * (Q.imI * Q.imJ - Q.re * Q.imK) * u 1 + 2 * (Q.imI * Q.imK + Q.re * Q.imJ) * u 2,
      2 * (Q.imI * Q.imJ + Q.re * Q.imK) * u 0
        + (Q.re * Q.re - Q.imI * Q.imI + Q.imJ * Q.imJ - Q.imK * Q.imK) * u 1
        + 2 * (Q.imJ * Q.imK - Q.re * Q.imI) * u 2,
      2 * (Q.imI * Q.imK - Q.re * Q.imJ) * u 0 + 2 * (Q.imJ * Q.imK + Q.re * Q.imI) * u 1
        + (Q.re * Q.re - Q.imI * Q.imI - Q.imJ * Q.imJ + Q.imK * Q.imK) * u 2] := by
  ext i; fin_cases i <;> simp [vecQ] <;> ring

end Mazth
