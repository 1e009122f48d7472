import Verif.Proofs.QuatBasic
import Verif.Float.BinaryLawful
import Verif.Props.Vector
import Mathlib.LinearAlgebra.Matrix.Determinant.Basic

/-!
# C17 – C20, C31: quaternion algebra and rotation of vectors

Exact arithmetic: `q.IsR Q` says that the public fields of `q` are the components of Mathlib's quaternion `Q`.
-/

set_option linter.unusedSectionVars false
set_option autoImplicit false

namespace Mazth

open Quaternion Matrix

variable {K : Type} [Field K] [LinearOrder K] [Fmt K]
/-- the unit quaternion of a 120° turn about (1,1,1), used in examples -/
noncomputable def turn : ℍ[ℝ] := ⟨1 / 2, 1 / 2, 1 / 2, 1 / 2⟩

theorem turn_unit : ‖turn‖ = 1 := by
  have := Quat.normSq_eq turn
  have h : ‖turn‖ * ‖turn‖ = 1 := by rw [← this]; norm_num [turn]
  nlinarith [norm_nonneg turn]

variable {p q r : Quat (Fl ℝ)} {P Q R : ℍ[ℝ]}

/-! ## C17 -/

/-- C17: `mul` is Hamilton's product. -/
theorem C17_mul (hp : p.IsR P) (hq : q.IsR Q) : (p.mul q).IsR (P * Q) := hp.mul hq

/-- concrete case -/
example := C17_mul (quatR_isR turn) (quatR_isR ⟨2, -1, 0, 3⟩)

/-- C17: `add`, `minus`, `scale`, `conjugate`, `negate`, `length`, `length_squared` are the operations of ℍ. -/
theorem C17_ops (hp : p.IsR P) (hq : q.IsR Q) (s : Fl ℝ) (c : ℝ) (hs : s.Is c) :
    (p.add q).IsR (P + Q) ∧ (p.minus q).IsR (P - Q) ∧ (p.scale s).IsR (c • P) ∧ p.conjugate.IsR (star P) ∧
      p.negate.IsR (-P) ∧ p.length.Is ‖P‖ ∧ p.lengthSquared.Is (‖P‖ ^ 2) :=
  ⟨hp.add hq, hp.minus hq, hp.scale hs, hp.conjugate, hp.negate, hp.length, hp.lengthSquared⟩

/-- concrete case -/
example := C17_ops (quatR_isR turn) (quatR_isR ⟨2, -1, 0, 3⟩) (.fin (-5)) (-5) (Fl.is_fin _)

/-- C17: the product is associative (both bracketings denote the same quaternion). -/
theorem C17_assoc (hp : p.IsR P) (hq : q.IsR Q) (hr : r.IsR R) :
    ∃ T, ((p.mul q).mul r).IsR T ∧ (p.mul (q.mul r)).IsR T :=
  ⟨_, (hp.mul hq).mul hr, by rw [mul_assoc]; exact hp.mul (hq.mul hr)⟩

/-- concrete case -/
example := C17_assoc (quatR_isR turn) (quatR_isR ⟨2, -1, 0, 3⟩) (quatR_isR ⟨0, 1, 7, 0⟩)

/-- C17: `init()` and `default()` are neutral on both sides. -/
theorem C17_one (hp : p.IsR P) : (p.mul Quat.init).IsR P ∧ (Quat.init.mul p).IsR P ∧ (p.mul Quat.default).IsR P ∧
    (Quat.default.mul p).IsR P := by
  have h1 : (p.mul Quat.init).IsR P := (hp.mul Quat.init_isR).cast (mul_one P)
  have h2 : (Quat.init.mul p).IsR P := (Quat.init_isR.mul hp).cast (one_mul P)
  exact ⟨h1, h2, h1, h2⟩

/-- concrete case -/
example := C17_one (quatR_isR ⟨2, -1, 0, 3⟩)

/-- C17: lengths multiply. -/
theorem C17_norm (hp : p.IsR P) (hq : q.IsR Q) :
    ∃ a b, p.length.Is a ∧ q.length.Is b ∧ (p.mul q).length.Is (a * b) :=
  ⟨_, _, hp.length, hq.length, by rw [← norm_mul]; exact (hp.mul hq).length⟩

/-- concrete case -/
example := C17_norm (quatR_isR turn) (quatR_isR ⟨2, -1, 0, 3⟩)

/-- C17: conjugation reverses products. -/
theorem C17_conj (hp : p.IsR P) (hq : q.IsR Q) :
    ∃ T, (p.mul q).conjugate.IsR T ∧ (q.conjugate.mul p.conjugate).IsR T :=
  ⟨_, (hp.mul hq).conjugate, by rw [star_mul]; exact hq.conjugate.mul hp.conjugate⟩

/-- concrete case -/
example := C17_conj (quatR_isR turn) (quatR_isR ⟨2, -1, 0, 3⟩)

/-- C17: the product distributes over `add` and `minus` on both sides. -/
theorem C17_distrib (hp : p.IsR P) (hq : q.IsR Q) (hr : r.IsR R) :
    (∃ T, (p.mul (q.add r)).IsR T ∧ ((p.mul q).add (p.mul r)).IsR T) ∧
    (∃ T, ((p.add q).mul r).IsR T ∧ ((p.mul r).add (q.mul r)).IsR T) ∧
    (∃ T, (p.mul (q.minus r)).IsR T ∧ ((p.mul q).minus (p.mul r)).IsR T) ∧
    (∃ T, ((p.minus q).mul r).IsR T ∧ ((p.mul r).minus (q.mul r)).IsR T) := by
  refine ⟨⟨_, hp.mul (hq.add hr), ?_⟩, ⟨_, (hp.add hq).mul hr, ?_⟩, ⟨_, hp.mul (hq.minus hr), ?_⟩,
    ⟨_, (hp.minus hq).mul hr, ?_⟩⟩
  · rw [mul_add]; exact (hp.mul hq).add (hp.mul hr)
  · rw [add_mul]; exact (hp.mul hr).add (hq.mul hr)
  · rw [mul_sub]; exact (hp.mul hq).minus (hp.mul hr)
  · rw [sub_mul]; exact (hp.mul hr).minus (hq.mul hr)

/-- concrete case -/
example := C17_distrib (quatR_isR turn) (quatR_isR ⟨2, -1, 0, 3⟩) (quatR_isR ⟨0, 1, 7, 0⟩)

/-- non-vacuity: every quaternion of ℍ is represented; i j = k -/
example : ((quatR (pureQ ![1, 0, 0])).mul (quatR (pureQ ![0, 1, 0]))).IsR (pureQ ![0, 0, 1]) :=
  (C17_mul (quatR_isR _) (quatR_isR _)).cast (by ext <;> simp)

/-! ## C18 -/

/-- C18: `inverse()` panics exactly for the zero quaternion; otherwise it returns the two-sided inverse. -/
theorem C18_inverse (hq : q.IsR Q) :
    (Q = 0 ↔ ∃ e, q.inverse = .error e) ∧
    (Q ≠ 0 → ∃ i, q.inverse = .ok i ∧ i.IsR Q⁻¹ ∧ (q.mul i).IsR 1 ∧ (i.mul q).IsR 1) := by
  by_cases h0 : Q = 0
  · refine ⟨⟨fun _ => ⟨_, hq.inverse_zero h0⟩, fun _ => h0⟩, fun h => absurd h0 h⟩
  · obtain ⟨i, hi, r⟩ := hq.inverse h0
    refine ⟨⟨fun h => absurd h h0, fun ⟨e, h⟩ => ?_⟩, fun _ => ⟨i, hi, r, ?_, ?_⟩⟩
    · rw [hi] at h; simp at h
    · exact (hq.mul r).cast (mul_inv_cancel₀ h0)
    · exact (r.mul hq).cast (inv_mul_cancel₀ h0)

/-- concrete case: `turn` has an inverse, `0` has none -/
example : (∃ i, (quatR turn).inverse = .ok i ∧ i.IsR turn⁻¹ ∧ ((quatR turn).mul i).IsR 1 ∧ (i.mul (quatR turn)).IsR 1) ∧
    ∃ e, (quatR 0).inverse = .error e :=
  ⟨(C18_inverse (quatR_isR turn)).2 fun h => by simpa [h] using turn_unit, (C18_inverse (quatR_isR 0)).1.mp rfl⟩

/-- non-vacuity: both cases occur -/
example : (quatR ⟨1, 1, 0, 0⟩).IsR ⟨1, 1, 0, 0⟩ ∧ (⟨1, 1, 0, 0⟩ : ℍ[ℝ]) ≠ 0 ∧ (quatR 0).IsR 0 :=
  ⟨quatR_isR _, fun h => by simpa using congrArg QuaternionAlgebra.re h, quatR_isR 0⟩

/-! ## C19 -/

/-- C19 (all floats): `normalize()` panics exactly when `length()` is NaN or compares equal to zero. -/
theorem C19_panic [IsStrictOrderedRing K] (q : Quat (Fl K)) :
    (∃ e, q.normalize = .error e) ↔ q.length = .nan ∨ Fl.feq q.length 0 = true := by
  unfold Quat.normalize
  dsimp only
  generalize q.length = l
  have key : (Fl.lt 0 l || Fl.lt l 0) = true ↔ ¬ (l = .nan ∨ Fl.feq l 0 = true) := by
    by_cases hl : l = .nan
    · subst hl; simp
    · have h0 : (0 : Fl K) ≠ .nan := by rw [Fl.zero_def]; simp
      rw [Fl.lt_eq_not_le h0 hl, Fl.lt_eq_not_le hl h0]
      unfold Fl.feq
      rw [or_iff_right hl]
      cases Fl.le l 0 <;> cases Fl.le 0 l <;> simp
  by_cases h : (Fl.lt 0 l || Fl.lt l 0) = true
  · rw [if_pos h]
    simp only [reduceCtorEq, exists_false, false_iff]
    exact key.mp h
  · rw [if_neg h]
    simp only [Except.error.injEq, exists_eq', true_iff]
    by_contra hc; exact h (key.mpr hc)

/-- concrete case: a binary64 quaternion whose squared length underflows -/
example : ∃ e, (⟨.fin (1 / 2 ^ 600 : ℚ), .nzero, .fin 0, .fin 0⟩ : Quat (Fl Q64)).normalize = .error e :=
  (C19_panic _).mpr (.inr (by decide +kernel))

/-- C19 (all floats): `init_from_vals_normalize` is `normalize` of the raw quaternion, and a NaN component always panics. -/
theorem C19_nan [IsStrictOrderedRing K] (x y z w : Fl K) :
    Quat.initFromValsNormalize x y z w = (Quat.initFromValsRaw x y z w).normalize ∧
    (x = .nan ∨ y = .nan ∨ z = .nan ∨ w = .nan → ∃ e, Quat.initFromValsNormalize x y z w = .error e) := by
  refine ⟨rfl, fun h => ?_⟩
  have nl : ∀ x : Fl K, (.nan : Fl K) + x = .nan := fun x => by cases x <;> rfl
  have nr : ∀ x : Fl K, x + (.nan : Fl K) = .nan := fun x => by cases x <;> rfl
  have nm : (.nan : Fl K) * .nan = .nan := rfl
  refine (C19_panic (⟨x, y, z, w⟩ : Quat (Fl K))).mpr (.inl ?_)
  unfold Quat.length
  rcases h with rfl | rfl | rfl | rfl <;> simp only [nm, nl, nr] <;> rfl

/-- concrete case -/
example : ∃ e, Quat.initFromValsNormalize (K := Q64) (.fin 1) .nan (.inf true) .nzero = .error e :=
  (C19_nan (K := Q64) _ _ _ _).2 (.inr (.inl rfl))

/-- C19: in exact arithmetic `normalize()` panics exactly on zero, and otherwise divides by the norm, giving a unit
quaternion. -/
theorem C19_normalize (hq : q.IsR Q) :
    (Q = 0 ↔ ∃ e, q.normalize = .error e) ∧
    (Q ≠ 0 → ∃ n, q.normalize = .ok n ∧ n.IsR (‖Q‖⁻¹ • Q) ∧ 0 < ‖Q‖⁻¹ ∧ n.length.Is 1) := by
  by_cases h0 : Q = 0
  · refine ⟨⟨fun _ => ⟨_, hq.normalize_zero h0⟩, fun _ => h0⟩, fun h => absurd h0 h⟩
  · obtain ⟨i, hi, r⟩ := hq.normalize h0
    have hpos : 0 < ‖Q‖ := norm_pos_iff.mpr h0
    refine ⟨⟨fun h => absurd h h0, fun ⟨e, h⟩ => ?_⟩, fun _ => ⟨i, hi, r, by positivity, ?_⟩⟩
    · rw [hi] at h; simp at h
    · refine r.length.cast ?_
      rw [norm_smul, norm_inv, norm_norm]; field_simp

/-- concrete case -/
example := (C19_normalize (quatR_isR turn)).2 fun h => by simpa [h] using turn_unit

/-- non-vacuity: over f64, (0,0,3,4) has length 5 and normalises; (0,0,-0,0) panics -/
example : (Quat.length (⟨.fin 0, .fin 0, .fin 3, .fin 4⟩ : Quat (Fl Q64))) = .fin 5 ∧
    (∃ e, Quat.normalize (⟨.fin 0, .fin 0, .nzero, .fin 0⟩ : Quat (Fl Q64)) = .error e) :=
  ⟨by decide +kernel, (C19_panic _).mpr (.inr (by decide +kernel))⟩

/-! ## C20 -/

/-- C20: for any quaternion `rotate_vector(v)` is the vector part of `Q v Q*`, whose real part is zero. -/
theorem C20_formula (hq : q.IsR Q) (v : Mat3x1 (Fl ℝ)) (u : Fin 3 → ℝ) (hv : v.IsR u) :
    ∃ w, (q.rotateVector v).IsR w ∧ pureQ w = Q * pureQ u * star Q :=
  ⟨_, hq.rotateVector hv, pureQ_vecQ (rot_re Q u)⟩

/-- concrete case: a quaternion that is not of length 1 -/
example := C20_formula (quatR_isR ⟨2, -1, 0, 3⟩) _ _ (vec3R_reads 1 2 3)

/-- The rotation `u ↦ Q u Q⁻¹` of ℝ³, in coordinates of Mathlib's quaternions. -/
noncomputable def rotR (Q : ℍ[ℝ]) (u : Fin 3 → ℝ) : Fin 3 → ℝ := vecQ (Q * pureQ u * Q⁻¹)

theorem unit_inv (h : ‖Q‖ = 1) : Q⁻¹ = star Q := by
  rw [Quaternion.inv_def, Quaternion.normSq_eq_norm_mul_self, h]; simp

/-- C20: a unit quaternion rotates `v` to `Q v Q⁻¹`. -/
theorem C20_rotate (hq : q.IsR Q) (h1 : ‖Q‖ = 1) (v : Mat3x1 (Fl ℝ)) (u : Fin 3 → ℝ) (hv : v.IsR u) :
    (q.rotateVector v).IsR (rotR Q u) := by
  unfold rotR; rw [unit_inv h1]; exact hq.rotateVector hv

theorem rotR_coords (h1 : ‖Q‖ = 1) (u : Fin 3 → ℝ) : rotR Q u =
    ![(Q.re * Q.re + Q.imI * Q.imI - Q.imJ * Q.imJ - Q.imK * Q.imK) * u 0
        + 2 * (Q.imI * Q.imJ - Q.re * Q.imK) * u 1 + 2 * (Q.imI * Q.imK + Q.re * Q.imJ) * u 2,
      2 * (Q.imI * Q.imJ + Q.re * Q.imK) * u 0
        + (Q.re * Q.re - Q.imI * Q.imI + Q.imJ * Q.imJ - Q.imK * Q.imK) * u 1
        + 2 * (Q.imJ * Q.imK - Q.re * Q.imI) * u 2,
      2 * (Q.imI * Q.imK - Q.re * Q.imJ) * u 0 + 2 * (Q.imJ * Q.imK + Q.re * Q.imI) * u 1
        + (Q.re * Q.re - Q.imI * Q.imI - Q.imJ * Q.imJ + Q.imK * Q.imK) * u 2] := by
  unfold rotR; rw [unit_inv h1, rot_coords]

theorem rotR_add (h1 : ‖Q‖ = 1) (u v : Fin 3 → ℝ) : rotR Q (u + v) = rotR Q u + rotR Q v := by
  rw [rotR_coords h1, rotR_coords h1, rotR_coords h1]
  ext i; fin_cases i <;> simp <;> ring

theorem rotR_smul (h1 : ‖Q‖ = 1) (c : ℝ) (u : Fin 3 → ℝ) : rotR Q (c • u) = c • rotR Q u := by
  rw [rotR_coords h1, rotR_coords h1]
  ext i; fin_cases i <;> simp <;> ring

theorem rotR_dot (h1 : ‖Q‖ = 1) (u v : Fin 3 → ℝ) : rotR Q u ⬝ᵥ rotR Q v = u ⬝ᵥ v := by
  have e := unit_sq h1
  have : rotR Q u ⬝ᵥ rotR Q v =
      (Q.imI * Q.imI + Q.imJ * Q.imJ + Q.imK * Q.imK + Q.re * Q.re) ^ 2 * (u ⬝ᵥ v) := by
    rw [rotR_coords h1, rotR_coords h1]
    simp [dotProduct, Fin.sum_univ_three]; ring
  rw [this, e]; ring

theorem rotR_cross (h1 : ‖Q‖ = 1) (u v : Fin 3 → ℝ) :
    crossProduct (rotR Q u) (rotR Q v) = rotR Q (crossProduct u v) := by
  have e := unit_sq h1
  have : crossProduct (rotR Q u) (rotR Q v) =
      (Q.imI * Q.imI + Q.imJ * Q.imJ + Q.imK * Q.imK + Q.re * Q.re) • rotR Q (crossProduct u v) := by
    rw [rotR_coords h1, rotR_coords h1, rotR_coords h1]
    ext i; fin_cases i <;> simp [cross_apply] <;> ring
  rw [this, e, one_smul]

theorem euc_of_dot {n : ℕ} {u v : Fin n → ℝ} (h : u ⬝ᵥ u = v ⬝ᵥ v) : euc u = euc v := by
  rw [euc_eq, euc_eq]; unfold dotProduct at h; rw [h]

/-- C20: for a unit quaternion the map computed by `rotate_vector` is linear. -/
theorem C20_linear (hq : q.IsR Q) (h1 : ‖Q‖ = 1) (v v' : Mat3x1 (Fl ℝ)) (u u' : Fin 3 → ℝ) (hv : v.IsR u)
    (hv' : v'.IsR u') (s : Fl ℝ) (c : ℝ) (hs : s.Is c) :
    (∃ w, v.plus v' = some w ∧ ∃ x y, (q.rotateVector v).IsR x ∧ (q.rotateVector v').IsR y ∧
      (q.rotateVector w).IsR (x + y)) ∧
    (∃ w, v.scale s = some w ∧ ∃ x, (q.rotateVector v).IsR x ∧ (q.rotateVector w).IsR (c • x)) := by
  obtain ⟨⟨w, hw, rw⟩, -, -, -, ⟨w', hw', rw'⟩, -⟩ := C54_vectorSpace .mat3x1 v v' u u' hv hv' s c hs
  refine ⟨⟨w, hw, _, _, C20_rotate hq h1 v u hv, C20_rotate hq h1 v' u' hv', ?_⟩,
    ⟨w', hw', _, C20_rotate hq h1 v u hv, ?_⟩⟩
  · exact (C20_rotate hq h1 w _ rw).cast (rotR_add h1 u u')
  · exact (C20_rotate hq h1 w' _ rw').cast (rotR_smul h1 c u)

/-- concrete case -/
example := C20_linear (quatR_isR turn) turn_unit _ _ _ _ (vec3R_reads 1 2 3) (vec3R_reads 4 5 6) (.fin 2) 2 (Fl.is_fin _)

/-- C20: it preserves lengths, inner products and vector products, as computed by `magnitude`, `dot` and `cross`. -/
theorem C20_isometry (hq : q.IsR Q) (h1 : ‖Q‖ = 1) (v v' : Mat3x1 (Fl ℝ)) (u u' : Fin 3 → ℝ) (hv : v.IsR u)
    (hv' : v'.IsR u') :
    (∃ m m' l, v.magnitude = some m ∧ (q.rotateVector v).magnitude = some m' ∧ m.Is l ∧ m'.Is l) ∧
    (∃ d d' l, v.dot v' = some d ∧ (q.rotateVector v).dot (q.rotateVector v') = some d' ∧ d.Is l ∧ d'.Is l) ∧
    (∃ c c' w, v.cross v' = some c ∧ (q.rotateVector v).cross (q.rotateVector v') = some c' ∧
      (q.rotateVector c).IsR w ∧ c'.IsR w) := by
  have r := C20_rotate hq h1 v u hv
  have r' := C20_rotate hq h1 v' u' hv'
  refine ⟨?_, ?_, ?_⟩
  · obtain ⟨m, e, i⟩ := C10_magnitude .mat3x1 v u hv
    obtain ⟨m', e', i'⟩ := C10_magnitude .mat3x1 _ _ r
    exact ⟨m, m', _, e, e', i, i'.cast (euc_of_dot (rotR_dot h1 u u))⟩
  · obtain ⟨m, e, i⟩ := C09_dot .mat3x1 v v' u u' hv hv'
    obtain ⟨m', e', i'⟩ := C09_dot .mat3x1 _ _ _ _ r r'
    exact ⟨m, m', _, e, e', i, i'.cast (rotR_dot h1 u u')⟩
  · obtain ⟨c, e, i⟩ := C09_cross .mat3x1 rfl v v' u u' hv hv'
    obtain ⟨c', e', i'⟩ := C09_cross .mat3x1 rfl _ _ _ _ r r'
    refine ⟨c, c', _, e, e', C20_rotate hq h1 c _ i, ?_⟩
    exact Mat3x1.IsR.cast i' (rotR_cross h1 u u')

/-- concrete case -/
example := C20_isometry (quatR_isR turn) turn_unit _ _ _ _ (vec3R_reads 1 2 3) (vec3R_reads 4 5 6)

/-- C20: `q` and `-q` rotate identically (any quaternion). -/
theorem C20_negate (hq : q.IsR Q) (v : Mat3x1 (Fl ℝ)) (u : Fin 3 → ℝ) (hv : v.IsR u) :
    ∃ w, (q.rotateVector v).IsR w ∧ (q.negate.rotateVector v).IsR w :=
  ⟨_, hq.rotateVector hv, (hq.negate.rotateVector hv).cast (by simp)⟩

/-- concrete case -/
example := C20_negate (quatR_isR ⟨2, -1, 0, 3⟩) _ _ (vec3R_reads 1 2 3)

/-- C20: rotating by the product `p*q` is rotating by `q` and then by `p` (any quaternions). -/
theorem C20_compose (hp : p.IsR P) (hq : q.IsR Q) (v : Mat3x1 (Fl ℝ)) (u : Fin 3 → ℝ) (hv : v.IsR u) :
    ∃ w, ((p.mul q).rotateVector v).IsR w ∧ (p.rotateVector (q.rotateVector v)).IsR w := by
  obtain ⟨w, hw, e⟩ := C20_formula hq v u hv
  refine ⟨_, (hp.mul hq).rotateVector hv, (hp.rotateVector hw).cast ?_⟩
  rw [e, star_mul]; simp only [mul_assoc]

/-- concrete case -/
example := C20_compose (quatR_isR turn) (quatR_isR ⟨2, -1, 0, 3⟩) _ _ (vec3R_reads 1 2 3)

/-- C20: rotating by a unit quaternion and then by its `inverse()` (or `conjugate()`) gives the vector back, in both
orders. -/
theorem C20_inverse (hq : q.IsR Q) (h1 : ‖Q‖ = 1) (v : Mat3x1 (Fl ℝ)) (u : Fin 3 → ℝ) (hv : v.IsR u) :
    ∃ i, q.inverse = .ok i ∧ (i.rotateVector (q.rotateVector v)).IsR u ∧ (q.rotateVector (i.rotateVector v)).IsR u ∧
      (q.conjugate.rotateVector (q.rotateVector v)).IsR u := by
  have h0 : Q ≠ 0 := by rintro rfl; simp at h1
  obtain ⟨i, hi, r⟩ := hq.inverse h0
  have key : ∀ {a b : Quat (Fl ℝ)} {A B : ℍ[ℝ]}, a.IsR A → b.IsR B → A * B = 1 →
      (a.rotateVector (b.rotateVector v)).IsR u := by
    intro a b A B ha hb hab
    obtain ⟨w, h, h'⟩ := C20_compose ha hb v u hv
    have := (ha.mul hb).cast hab
    have := this.rotateVector hv
    rw [Mat3x1.IsR.unique h this] at h'
    refine h'.cast ?_
    simp [vecQ_pureQ]
  refine ⟨i, hi, key r hq (inv_mul_cancel₀ h0), key hq r (mul_inv_cancel₀ h0), key hq.conjugate hq ?_⟩
  rw [← unit_inv h1]; exact inv_mul_cancel₀ h0

/-- concrete case -/
example := C20_inverse (quatR_isR turn) turn_unit _ _ (vec3R_reads 1 2 3)

/-- C20: the identity quaternion leaves vectors unchanged. -/
theorem C20_identity (v : Mat3x1 (Fl ℝ)) (u : Fin 3 → ℝ) (hv : v.IsR u) : (Quat.init.rotateVector v).IsR u :=
  (Quat.init_isR.rotateVector hv).cast (by simp [vecQ_pureQ])

/-- concrete case -/
example := C20_identity _ _ (vec3R_reads 1 2 3)

/-- non-vacuity: `turn` is a unit quaternion and moves e₁ to e₂ -/
example : ((quatR turn).rotateVector (vec3R 1 0 0)).IsR ![0, 1, 0] := by
  refine (C20_rotate (quatR_isR turn) turn_unit _ _ (vec3R_reads 1 0 0)).cast ?_
  rw [rotR_coords turn_unit]
  ext i; fin_cases i <;> (simp [turn]; try norm_num)

/-! ## C31 -/

/-- reflection of `u` in the plane through the origin with unit normal `n` -/
noncomputable def reflR (n u : Fin 3 → ℝ) : Fin 3 → ℝ := u - (2 * (n ⬝ᵥ u)) • n

theorem refl_coords (n u : Fin 3 → ℝ) (hn : n ⬝ᵥ n = 1) : vecQ (pureQ n * pureQ u * pureQ n) = reflR n u := by
  simp only [dotProduct, Fin.sum_univ_three] at hn
  ext i; fin_cases i <;> simp [vecQ, reflR, dotProduct, Fin.sum_univ_three]
  · linear_combination (u 0) * hn
  · linear_combination (u 1) * hn
  · linear_combination (u 2) * hn

theorem refl_dot (n u v : Fin 3 → ℝ) (hn : n ⬝ᵥ n = 1) : reflR n u ⬝ᵥ reflR n v = u ⬝ᵥ v := by
  unfold reflR
  rw [sub_dotProduct, dotProduct_sub, dotProduct_sub, smul_dotProduct, smul_dotProduct, dotProduct_smul,
    dotProduct_smul, hn, dotProduct_comm u n]
  simp only [smul_eq_mul]; ring

theorem refl_refl (n u : Fin 3 → ℝ) (hn : n ⬝ᵥ n = 1) : reflR n (reflR n u) = u := by
  unfold reflR
  rw [dotProduct_sub, dotProduct_smul, hn]
  ext i; simp; ring

/-- C31: for a pure quaternion with unit vector part `n`, `reflection_in_plane(p) = p - 2(n·p)n`. -/
theorem C31_reflection (n : Fin 3 → ℝ) (hn : n ⬝ᵥ n = 1) (hq : q.IsR (pureQ n)) (v : Mat3x1 (Fl ℝ)) (u : Fin 3 → ℝ)
    (hv : v.IsR u) : (q.reflectionInPlane v).IsR (u - (2 * (n ⬝ᵥ u)) • n) :=
  (hq.reflection hv).cast (refl_coords n u hn)

/-- concrete case: the plane with normal `(3/5, 0, 4/5)` -/
example := C31_reflection ![3 / 5, 0, 4 / 5] (by simp [dotProduct, Fin.sum_univ_three]; norm_num) (quatR_isR _) _ _ (vec3R_reads 1 2 3)

/-- C31: reflecting twice gives the vector back; inner products are preserved. -/
theorem C31_isometry (n : Fin 3 → ℝ) (hn : n ⬝ᵥ n = 1) (hq : q.IsR (pureQ n)) (v v' : Mat3x1 (Fl ℝ)) (u u' : Fin 3 → ℝ)
    (hv : v.IsR u) (hv' : v'.IsR u') :
    (q.reflectionInPlane (q.reflectionInPlane v)).IsR u ∧
    ∃ d d' l, v.dot v' = some d ∧ (q.reflectionInPlane v).dot (q.reflectionInPlane v') = some d' ∧ d.Is l ∧ d'.Is l := by
  have r := C31_reflection n hn hq v u hv
  have r' := C31_reflection n hn hq v' u' hv'
  refine ⟨(C31_reflection n hn hq _ _ r).cast (refl_refl n u hn), ?_⟩
  obtain ⟨d, e, i⟩ := C09_dot .mat3x1 v v' u u' hv hv'
  obtain ⟨d', e', i'⟩ := C09_dot .mat3x1 _ _ _ _ r r'
  exact ⟨d, d', _, e, e', i, i'.cast (refl_dot n u u' hn)⟩

/-- concrete case -/
example := C31_isometry ![3 / 5, 0, 4 / 5] (by simp [dotProduct, Fin.sum_univ_three]; norm_num) (quatR_isR _) _ _ _ _
  (vec3R_reads 1 2 3) (vec3R_reads 4 5 6)

/-- C31: the two components of a vector with respect to the plane: they add up to the vector, the first is orthogonal
to the normal, the second is the multiple `(n·p)n` of the normal. -/
theorem C31_components (n : Fin 3 → ℝ) (hn : n ⬝ᵥ n = 1) (hq : q.IsR (pureQ n)) (v : Mat3x1 (Fl ℝ)) (u : Fin 3 → ℝ)
    (hv : v.IsR u) :
    ∃ a b, (q.parallelComponentOfPlane v).IsR a ∧ (q.orthogonalComponentOfPlane v).IsR b ∧ a + b = u ∧ n ⬝ᵥ a = 0 ∧
      b = (n ⬝ᵥ u) • n := by
  have e1 : vecQ ((1 / 2 : ℝ) • (pureQ u + pureQ n * pureQ u * pureQ n)) = u - (n ⬝ᵥ u) • n := by
    have := refl_coords n u hn
    have h : ∀ A B : ℍ[ℝ], vecQ ((1 / 2 : ℝ) • (A + B)) = (1 / 2 : ℝ) • (vecQ A + vecQ B) := by
      intro A B; ext i; fin_cases i <;> simp [vecQ] <;> ring
    rw [h, this, vecQ_pureQ]; unfold reflR; ext i; simp; ring
  have e2 : vecQ ((1 / 2 : ℝ) • (pureQ u - pureQ n * pureQ u * pureQ n)) = (n ⬝ᵥ u) • n := by
    have := refl_coords n u hn
    have h : ∀ A B : ℍ[ℝ], vecQ ((1 / 2 : ℝ) • (A - B)) = (1 / 2 : ℝ) • (vecQ A - vecQ B) := by
      intro A B; ext i; fin_cases i <;> simp [vecQ]
    rw [h, this, vecQ_pureQ]; unfold reflR; ext i; simp; ring
  refine ⟨_, _, (hq.parallel hv).cast e1, (hq.orthogonal hv).cast e2, by simp, ?_, rfl⟩
  rw [dotProduct_sub, dotProduct_smul, hn]; simp

/-- concrete case -/
example := C31_components ![3 / 5, 0, 4 / 5] (by simp [dotProduct, Fin.sum_univ_three]; norm_num) (quatR_isR _) _ _ (vec3R_reads 1 2 3)

/-- non-vacuity: n = (3/5, 0, 4/5) is a unit normal -/
example : (![3 / 5, 0, 4 / 5] : Fin 3 → ℝ) ⬝ᵥ ![3 / 5, 0, 4 / 5] = 1 ∧
    (quatR (pureQ ![3 / 5, 0, 4 / 5])).IsR (pureQ ![3 / 5, 0, 4 / 5]) := by
  refine ⟨?_, quatR_isR _⟩
  simp [dotProduct, Fin.sum_univ_three]; norm_num

end Mazth
