import Verif.Props.QuatAlg

/-!
# C23, C24: rotations given by axis and angle

Exact arithmetic (`Libm ℝ` is the real `sin`, `cos`, `acos`).
-/

set_option linter.unusedSectionVars false
set_option autoImplicit false

namespace Mazth

open Quaternion Matrix

variable {q : Quat (Fl ℝ)} {Q : ℍ[ℝ]}

/-- the quaternion (cos(θ/2), sin(θ/2) n) -/
noncomputable def axisQ (n : Fin 3 → ℝ) (θ : ℝ) : ℍ[ℝ] :=
  ⟨Real.cos (θ / 2), n 0 * Real.sin (θ / 2), n 1 * Real.sin (θ / 2), n 2 * Real.sin (θ / 2)⟩

@[simp] theorem axisQ_re (n : Fin 3 → ℝ) (θ : ℝ) : (axisQ n θ).re = Real.cos (θ / 2) := rfl
@[simp] theorem axisQ_imI (n : Fin 3 → ℝ) (θ : ℝ) : (axisQ n θ).imI = n 0 * Real.sin (θ / 2) := rfl
@[simp] theorem axisQ_imJ (n : Fin 3 → ℝ) (θ : ℝ) : (axisQ n θ).imJ = n 1 * Real.sin (θ / 2) := rfl
@[simp] theorem axisQ_imK (n : Fin 3 → ℝ) (θ : ℝ) : (axisQ n θ).imK = n 2 * Real.sin (θ / 2) := rfl

theorem norm_eq_one_of {Q : ℍ[ℝ]} (h : Q.imI * Q.imI + Q.imJ * Q.imJ + Q.imK * Q.imK + Q.re * Q.re = 1) : ‖Q‖ = 1 := by
  rw [← Quat.norm_eq, h, Real.sqrt_one]

theorem axisQ_unit {n : Fin 3 → ℝ} (hn : n ⬝ᵥ n = 1) (θ : ℝ) : ‖axisQ n θ‖ = 1 := by
  rw [dot3] at hn
  apply norm_eq_one_of
  have := Real.sin_sq_add_cos_sq (θ / 2)
  simp only [axisQ_re, axisQ_imI, axisQ_imJ, axisQ_imK]
  linear_combination (Real.sin (θ / 2)) ^ 2 * hn + this

theorem axisRadian_isR {axis : Mat3x1 (Fl ℝ)} {a : Fin 3 → ℝ} (ha : axis.IsR a) (h0 : a ≠ 0) {θ : Fl ℝ} {t : ℝ}
    (hθ : θ.Is t) :
    ∃ q, Quat.initFromAxisAngleRadian axis θ = .ok q ∧ q.IsR (axisQ ((euc a)⁻¹ • a) t) := by
  obtain ⟨n, hn, -, rn, -, -⟩ := C11_normalize .mat3x1 axis a ha h0
  change axis.normalize = some n at hn
  obtain ⟨x, y, z⟩ := Mat3x1.isR_iff.mp rn
  have h2 : (θ / Fl.lit 2).Is (t / 2) := hθ.div (Fl.is_lit 2) two_ne_zero
  refine ⟨⟨n.val[0] * Libm.sin (θ / Fl.lit 2), n.val[1] * Libm.sin (θ / Fl.lit 2), n.val[2] * Libm.sin (θ / Fl.lit 2),
    Libm.cos (θ / Fl.lit 2)⟩, ?_, x.mul h2.sin, y.mul h2.sin, z.mul h2.sin, h2.cos⟩
  unfold Quat.initFromAxisAngleRadian
  rw [hn]; rfl

/-- Rodrigues' formula for the unit quaternion of an axis and an angle -/
theorem axisQ_rodrigues {n : Fin 3 → ℝ} (n1 : n ⬝ᵥ n = 1) (t : ℝ) (u : Fin 3 → ℝ) : rotR (axisQ n t) u =
    Real.cos t • u + Real.sin t • crossProduct n u + ((1 - Real.cos t) * (n ⬝ᵥ u)) • n := by
  have u1 := axisQ_unit n1 t
  have hc : Real.cos t = Real.cos (t / 2) ^ 2 - Real.sin (t / 2) ^ 2 := by
    rw [← Real.cos_two_mul']; ring_nf
  have hs : Real.sin t = 2 * Real.sin (t / 2) * Real.cos (t / 2) := by
    rw [← Real.sin_two_mul]; ring_nf
  have e := Real.sin_sq_add_cos_sq (t / 2)
  rw [rotR_coords u1, hc, hs, dot3]
  rw [dot3] at n1
  ext i
  rw [Pi.add_apply, Pi.add_apply, Pi.smul_apply, Pi.smul_apply, Pi.smul_apply]
  fin_cases i <;> simp [cross_apply]
  · linear_combination (-(Real.sin (t / 2)) ^ 2 * u 0) * n1 + (n 0 * u 0 + n 1 * u 1 + n 2 * u 2) * n 0 * e
  · linear_combination (-(Real.sin (t / 2)) ^ 2 * u 1) * n1 + (n 0 * u 0 + n 1 * u 1 + n 2 * u 2) * n 1 * e
  · linear_combination (-(Real.sin (t / 2)) ^ 2 * u 2) * n1 + (n 0 * u 0 + n 1 * u 1 + n 2 * u 2) * n 2 * e

/-! ## C23 -/

/-- C23: a non-zero axis gives a unit quaternion that fixes the axis and rotates every vector by Rodrigues' formula
`v cos θ + (n × v) sin θ + n (n·v)(1 - cos θ)`, `n` the normalised axis. -/
theorem C23_rodrigues (axis : Mat3x1 (Fl ℝ)) (a : Fin 3 → ℝ) (ha : axis.IsR a) (h0 : a ≠ 0) (θ : Fl ℝ) (t : ℝ)
    (hθ : θ.Is t) (n : Fin 3 → ℝ) (hn : n = (euc a)⁻¹ • a) :
    ∃ q, Quat.initFromAxisAngleRadian axis θ = .ok q ∧ q.length.Is 1 ∧ (q.rotateVector axis).IsR a ∧
      ∀ (v : Mat3x1 (Fl ℝ)) (u : Fin 3 → ℝ), v.IsR u → (q.rotateVector v).IsR
        (Real.cos t • u + Real.sin t • crossProduct n u + ((1 - Real.cos t) * (n ⬝ᵥ u)) • n) := by
  obtain ⟨q, e, r⟩ := axisRadian_isR ha h0 hθ
  rw [← hn] at r
  have n1 : n ⬝ᵥ n = 1 := by rw [hn]; exact unit_of h0
  have u1 := axisQ_unit n1 t
  have rod := axisQ_rodrigues n1 t
  refine ⟨q, e, by simpa [u1] using r.length, ?_, fun v u hv => (C20_rotate r u1 v u hv).cast (rod u)⟩
  refine (C20_rotate r u1 axis a ha).cast ?_
  rw [rod]
  have ea : a = euc a • n := by
    have h0 : euc a ≠ 0 := fun h => h0 ((euc_eq_zero _).mp h)
    rw [hn, smul_smul, mul_inv_cancel₀ h0, one_smul]
  have ec : crossProduct n a = 0 := by rw [ea]; simp
  have ed : (n ⬝ᵥ a) • n = a := by
    conv_lhs => rw [ea]
    rw [dotProduct_smul, n1, smul_eq_mul, mul_one, ← ea]
  rw [ec, mul_smul, ed]; simp [sub_smul]

/-- concrete case: a quarter turn about `(1, 2, 2)` -/
example := C23_rodrigues _ _ (vec3R_reads 1 2 2) (fun h => by simpa using congrFun h 0) (.fin (Real.pi / 2)) _ (Fl.is_fin _) _ rfl

/-- C23: the degree constructor is the radian constructor at `angle · π / 180`. -/
theorem C23_degree (axis : Mat3x1 (Fl ℝ)) (a : Fin 3 → ℝ) (ha : axis.IsR a) (h0 : a ≠ 0) (d θ : Fl ℝ) (t : ℝ)
    (hd : d.Is t) (hθ : θ.Is (t * Real.pi / 180)) :
    ∃ q q' Q, Quat.initFromAxisAngleDegree axis d = .ok q ∧ Quat.initFromAxisAngleRadian axis θ = .ok q' ∧
      q.IsR Q ∧ q'.IsR Q := by
  have h : (d / Fl.lit 180 * Libm.pi).Is (t * Real.pi / 180) :=
    ((hd.div (Fl.is_lit 180) (by norm_num)).mul Fl.is_pi).cast (by ring)
  obtain ⟨q, e, r⟩ := axisRadian_isR ha h0 h
  obtain ⟨q', e', r'⟩ := axisRadian_isR ha h0 hθ
  exact ⟨q, q', _, e, e', r, r'⟩

/-- concrete case: 90° -/
example := C23_degree _ _ (vec3R_reads 1 2 2) (fun h => by simpa using congrFun h 0) (.fin 90) (.fin (90 * Real.pi / 180)) 90 (Fl.is_fin _) (Fl.is_fin _)

/-- C23: composing two rotations about one axis adds the angles. -/
theorem C23_add (axis : Mat3x1 (Fl ℝ)) (a : Fin 3 → ℝ) (ha : axis.IsR a) (h0 : a ≠ 0) (θ φ ψ : Fl ℝ) (s t : ℝ)
    (hθ : θ.Is s) (hφ : φ.Is t) (hψ : ψ.Is (s + t)) :
    ∃ q q' q'' Q, Quat.initFromAxisAngleRadian axis θ = .ok q ∧ Quat.initFromAxisAngleRadian axis φ = .ok q' ∧
      Quat.initFromAxisAngleRadian axis ψ = .ok q'' ∧ (q.mul q').IsR Q ∧ q''.IsR Q := by
  obtain ⟨q, e, r⟩ := axisRadian_isR ha h0 hθ
  obtain ⟨q', e', r'⟩ := axisRadian_isR ha h0 hφ
  obtain ⟨q'', e'', r''⟩ := axisRadian_isR ha h0 hψ
  refine ⟨q, q', q'', _, e, e', e'', (r.mul r').cast ?_, r''⟩
  have n1 := unit_of h0
  rw [dot3] at n1
  generalize (euc a)⁻¹ • a = n at *
  have h2 : (s + t) / 2 = s / 2 + t / 2 := by ring
  ext <;> simp [h2, Real.sin_add, Real.cos_add]
  · linear_combination (-(Real.sin (s / 2) * Real.sin (t / 2))) * n1
  · ring
  · ring
  · ring

/-- concrete case -/
example := C23_add _ _ (vec3R_reads 1 2 2) (fun h => by simpa using congrFun h 0) (.fin 1) (.fin 2) (.fin (1 + 2)) 1 2 (Fl.is_fin _) (Fl.is_fin _) (Fl.is_fin _)

/-- C23: a zero axis does not panic: the vector part is NaN, for every angle. -/
theorem C23_zero_axis (axis : Mat3x1 (Fl ℝ)) (ha : axis.IsR 0) (θ : Fl ℝ) :
    ∃ q, Quat.initFromAxisAngleRadian axis θ = .ok q ∧ q.x = .nan ∧ q.y = .nan ∧ q.z = .nan := by
  obtain ⟨x, y, z⟩ := Mat3x1.isR_iff.mp ha
  have key : ∀ {w : Fl ℝ}, w.Is 0 → w = .fin 0 ∨ w = .nzero := fun h => by
    rcases h.cases with h | h
    · exact .inl h
    · exact .inr h.1
  obtain ⟨n, hn, rn⟩ := C11_zero .mat3x1 axis (VecTy.get .mat3x1 axis) (VecTy.reads_iff.mpr fun _ => rfl) (by
    intro i; fin_cases i
    · exact key x
    · exact key y
    · exact key z)
  change axis.normalize = some n at hn
  rw [VecTy.reads_iff] at rn
  have n0 : n.val[0] = .nan := rn (0 : Fin 3)
  have n1 : n.val[1] = .nan := rn (1 : Fin 3)
  have n2 : n.val[2] = .nan := rn (2 : Fin 3)
  refine ⟨⟨n.val[0] * Libm.sin (θ / Fl.lit 2), n.val[1] * Libm.sin (θ / Fl.lit 2), n.val[2] * Libm.sin (θ / Fl.lit 2),
    Libm.cos (θ / Fl.lit 2)⟩, ?_, ?_, ?_, ?_⟩
  · unfold Quat.initFromAxisAngleRadian
    rw [hn]; rfl
  all_goals dsimp only; simp only [n0, n1, n2]; rfl

/-- concrete case -/
example := C23_zero_axis (vec3R 0 0 0) (VecTy.readsR_iff.mpr fun i => by fin_cases i <;> exact Fl.is_fin _) (.fin 1)

/-- non-vacuity: axis (1,2,2) of length 3 is non-zero -/
example : (vec3R 1 2 2).IsR ![1, 2, 2] ∧ (![1, 2, 2] : Fin 3 → ℝ) ≠ 0 :=
  ⟨vec3R_reads 1 2 2, fun h => by simpa using congrFun h 0⟩

/-! ## C24 -/

theorem vec_norm_sq (h1 : ‖Q‖ = 1) : Q.imI * Q.imI + Q.imJ * Q.imJ + Q.imK * Q.imK = 1 - Q.re * Q.re := by
  have := unit_sq h1; linarith

theorem toAxisAngle_isR (hq : q.IsR Q) (h1 : ‖Q‖ = 1) (hk : 1 / 1000000 ≤ Real.sqrt (1 - Q.re * Q.re)) :
    ∃ v a, q.toAxisAngle = .ok (v, a) ∧ v.IsR ((Real.sqrt (1 - Q.re * Q.re))⁻¹ • vecQ Q) ∧
      a.Is (2 * Real.arccos Q.re) := by
  have hv := vec_norm_sq h1
  obtain ⟨x, y, z, w⟩ := hq
  have hnn : 0 ≤ 1 - Q.re * Q.re := by
    rw [← hv]; nlinarith [sq_nonneg Q.imI, sq_nonneg Q.imJ, sq_nonneg Q.imK]
  have hkI := (Fl.is_one.sub (w.mul w)).sqrt hnn
  generalize hkk : Real.sqrt (1 - Q.re * Q.re) = k at *
  have k0 : k ≠ 0 := by intro h; rw [h] at hk; norm_num at hk
  have kk : k * k = 1 - Q.re * Q.re := by rw [← hkk]; exact Real.mul_self_sqrt hnn
  have X := x.div hkI k0
  have Y := y.div hkI k0
  have Z := z.div hkI k0
  have L0 : Q.imI / k * (Q.imI / k) + Q.imJ / k * (Q.imJ / k) + Q.imK / k * (Q.imK / k) = 1 := by
    field_simp; rw [sq k, kk, ← hv]; ring
  have L := ((((X.mul X).add (Y.mul Y)).add (Z.mul Z)).cast L0).sqrt zero_le_one
  rw [Real.sqrt_one] at L
  generalize hK : Fl.sqrt (1 - q.w * q.w) = kF at *
  generalize hL : Fl.sqrt (q.x / kF * (q.x / kF) + q.y / kF * (q.y / kF) + q.z / kF * (q.z / kF)) = lF at *
  refine ⟨⟨#v[q.x / kF / lF, q.y / kF / lF, q.z / kF / lF]⟩, Fl.lit 2 * Libm.acos q.w, ?_, ?_,
    (Fl.is_lit 2).mul (w.acos ?_ ?_)⟩
  · unfold Quat.toAxisAngle
    dsimp only
    rw [hK, hL, hkI.lt (Fl.is_lit _), L.feq Fl.is_zero]
    rw [if_neg (by simpa using hk)]
    simp [assert]
  · rw [Mat3x1.isR_iff]
    refine ⟨(X.div L one_ne_zero).cast ?_, (Y.div L one_ne_zero).cast ?_, (Z.div L one_ne_zero).cast ?_⟩ <;>
      simp [vecQ] <;> field_simp
  · nlinarith
  · nlinarith

/-- C24: `to_axis_angle` inverts the axis-angle constructor for angles in (0, 2π) whose half-angle sine reaches the
cut-off 1e-6. -/
theorem C24_roundtrip (axis : Mat3x1 (Fl ℝ)) (a : Fin 3 → ℝ) (ha : axis.IsR a) (h0 : a ≠ 0) (θ : Fl ℝ) (t : ℝ)
    (hθ : θ.Is t) (ht : 0 < t) (ht2 : t < 2 * Real.pi) (hs : 1 / 1000000 ≤ Real.sin (t / 2)) :
    ∃ q v α, Quat.initFromAxisAngleRadian axis θ = .ok q ∧ q.toAxisAngle = .ok (v, α) ∧ v.IsR ((euc a)⁻¹ • a) ∧
      α.Is t := by
  obtain ⟨q, e, r⟩ := axisRadian_isR ha h0 hθ
  have n1 := unit_of h0
  have sp : 0 < Real.sin (t / 2) := by linarith [show (0 : ℝ) < 1 / 1000000 by norm_num]
  have hk : Real.sqrt (1 - Real.cos (t / 2) * Real.cos (t / 2)) = Real.sin (t / 2) := by
    have := Real.sin_sq_add_cos_sq (t / 2)
    rw [show 1 - Real.cos (t / 2) * Real.cos (t / 2) = Real.sin (t / 2) * Real.sin (t / 2) by linear_combination -this,
      Real.sqrt_mul_self sp.le]
  obtain ⟨v, α, ev, rv, ra⟩ := toAxisAngle_isR r (axisQ_unit n1 t) (by simpa [hk] using hs)
  refine ⟨q, v, α, e, ev, rv.cast ?_, ra.cast ?_⟩
  · rw [axisQ_re, hk]
    ext i; fin_cases i <;> simp [vecQ] <;> field_simp
  · rw [axisQ_re, Real.arccos_cos (by linarith) (by linarith)]; ring

/-- concrete case: half a turn about `(1, 2, 2)` -/
example := C24_roundtrip _ _ (vec3R_reads 1 2 2) (fun h => by simpa using congrFun h 0) (.fin Real.pi) _ (Fl.is_fin _) Real.pi_pos
  (by linarith [Real.pi_pos]) (by rw [Real.sin_pi_div_two]; norm_num)

/-- C24: rebuilding a unit quaternion above the cut-off from its axis and angle gives it back. -/
theorem C24_rebuild (hq : q.IsR Q) (h1 : ‖Q‖ = 1) (hk : 1 / 1000000 ≤ Real.sqrt (1 - Q.re * Q.re)) :
    ∃ v α q', q.toAxisAngle = .ok (v, α) ∧ Quat.initFromAxisAngleRadian v α = .ok q' ∧ q'.IsR Q := by
  obtain ⟨v, α, ev, rv, ra⟩ := toAxisAngle_isR hq h1 hk
  have hv := vec_norm_sq h1
  have hnn : 0 ≤ 1 - Q.re * Q.re := by
    rw [← hv]; nlinarith [sq_nonneg Q.imI, sq_nonneg Q.imJ, sq_nonneg Q.imK]
  have hsin : Real.sin (Real.arccos Q.re) = Real.sqrt (1 - Q.re * Q.re) := by rw [Real.sin_arccos, sq]
  have hcos : Real.cos (Real.arccos Q.re) = Q.re := Real.cos_arccos (by nlinarith) (by nlinarith)
  generalize hkk : Real.sqrt (1 - Q.re * Q.re) = k at *
  have kp : 0 < k := by linarith [show (0 : ℝ) < 1 / 1000000 by norm_num]
  have kk : k * k = 1 - Q.re * Q.re := by rw [← hkk]; exact Real.mul_self_sqrt hnn
  have ev1 : euc (k⁻¹ • vecQ Q) = 1 := by
    have h : euc (vecQ Q) = k := by
      rw [euc_eq, show ∑ i, vecQ Q i * vecQ Q i = k * k by
        rw [kk, ← hv]; simp [vecQ, Fin.sum_univ_three], Real.sqrt_mul_self kp.le]
    rw [euc_smul, h, abs_of_pos (by positivity)]; field_simp
  have hne : k⁻¹ • vecQ Q ≠ 0 := by
    intro h; rw [h] at ev1; rw [(euc_eq_zero _).mpr rfl] at ev1; exact zero_ne_one ev1
  obtain ⟨q', e', r'⟩ := axisRadian_isR rv hne ra
  refine ⟨v, α, q', ev, e', r'.cast ?_⟩
  rw [ev1]
  have h2 : 2 * Real.arccos Q.re / 2 = Real.arccos Q.re := by ring
  ext <;> simp [h2, hsin, hcos, vecQ] <;> field_simp

/-- concrete case -/
example := C24_rebuild (quatR_isR turn) turn_unit (by
  apply Real.le_sqrt_of_sq_le
  norm_num [turn])

/-- C24: below the cut-off the answer is the x axis with angle 0. -/
theorem C24_cutoff (hq : q.IsR Q) (h1 : ‖Q‖ = 1) (hk : Real.sqrt (1 - Q.re * Q.re) < 1 / 1000000) :
    ∃ v a, q.toAxisAngle = .ok (v, a) ∧ v.IsR ![1, 0, 0] ∧ a.Is 0 := by
  have hv := vec_norm_sq h1
  obtain ⟨x, y, z, w⟩ := hq
  have hnn : 0 ≤ 1 - Q.re * Q.re := by
    rw [← hv]; nlinarith [sq_nonneg Q.imI, sq_nonneg Q.imJ, sq_nonneg Q.imK]
  have hkI := (Fl.is_one.sub (w.mul w)).sqrt hnn
  refine ⟨⟨#v[1, 0, 0]⟩, 0, ?_, Mat3x1.isR_iff.mpr ⟨Fl.is_one, Fl.is_zero, Fl.is_zero⟩, Fl.is_zero⟩
  unfold Quat.toAxisAngle
  dsimp only
  rw [hkI.lt (Fl.is_lit _), if_pos (by simpa using hk)]

/-- concrete case: the identity -/
example := C24_cutoff (quatR_isR 1) norm_one (by simp)

/-- non-vacuity: `turn` is above the cut-off, the identity below it, and the angle π about (1,2,2) is in range -/
example : 1 / 1000000 ≤ Real.sqrt (1 - turn.re * turn.re) ∧ Real.sqrt (1 - (1 : ℍ[ℝ]).re * (1 : ℍ[ℝ]).re) < 1 / 1000000 ∧
    1 / 1000000 ≤ Real.sin (Real.pi / 2) := by
  refine ⟨?_, by simp, by rw [Real.sin_pi_div_two]; norm_num⟩
  apply Real.le_sqrt_of_sq_le
  norm_num [turn]

end Mazth
