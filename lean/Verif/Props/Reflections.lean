import Verif.Props.Bitwise
import Verif.Props.FloatRotate
import Verif.Props.RayQueries

/-!
# C105: mirrors
-/

set_option linter.unusedSectionVars false
set_option autoImplicit false

namespace Mazth

open Matrix Quaternion

namespace Mirrors

theorem star_pure (n : Fin 3 → ℝ) : star (pureQ n) = -pureQ n := by ext <;> simp

theorem pure_sandwich_re (n u : Fin 3 → ℝ) : (pureQ n * pureQ u * pureQ n).re = 0 := by simp; ring

theorem vecQ_neg (Q : ℍ[ℝ]) : vecQ (-Q) = -vecQ Q := by ext i; fin_cases i <;> simp [vecQ]

theorem refl_cross (n u v : Fin 3 → ℝ) (hn : n ⬝ᵥ n = 1) : reflR n u ⨯₃ reflR n v = -reflR n (u ⨯₃ v) := by
  have hc (i : Fin 3) : reflR n u i = u i - 2 * (n 0 * u 0 + n 1 * u 1 + n 2 * u 2) * n i := by
    simp [reflR, dotProduct, Fin.sum_univ_three]
  have hc' (i : Fin 3) : reflR n v i = v i - 2 * (n 0 * v 0 + n 1 * v 1 + n 2 * v 2) * n i := by
    simp [reflR, dotProduct, Fin.sum_univ_three]
  have e (i : Fin 3) : (-reflR n (u ⨯₃ v)) i = -((u ⨯₃ v) i - 2 * (n 0 * (u 1 * v 2 - u 2 * v 1) + n 1 * (u 2 * v 0 - u 0 * v 2) +
      n 2 * (u 0 * v 1 - u 1 * v 0)) * n i) := by
    have : n ⬝ᵥ (u ⨯₃ v) = n 0 * (u 1 * v 2 - u 2 * v 1) + n 1 * (u 2 * v 0 - u 0 * v 2) + n 2 * (u 0 * v 1 - u 1 * v 0) := by
      rw [cross_apply, dotProduct, Fin.sum_univ_three]; rfl
    rw [reflR, this]; rfl
  simp only [dotProduct, Fin.sum_univ_three] at hn
  funext i
  rw [e, cross_apply, cross_apply]
  fin_cases i
  · show reflR n u 1 * reflR n v 2 - reflR n u 2 * reflR n v 1 = -((u 1 * v 2 - u 2 * v 1) - _ * n 0)
    rw [hc, hc, hc', hc']
    linear_combination (-2 * (u 1 * v 2 - u 2 * v 1)) * hn
  · show reflR n u 2 * reflR n v 0 - reflR n u 0 * reflR n v 2 = -((u 2 * v 0 - u 0 * v 2) - _ * n 1)
    rw [hc, hc, hc', hc']
    linear_combination (-2 * (u 2 * v 0 - u 0 * v 2)) * hn
  · show reflR n u 0 * reflR n v 1 - reflR n u 1 * reflR n v 0 = -((u 0 * v 1 - u 1 * v 0) - _ * n 2)
    rw [hc, hc, hc', hc']
    linear_combination (-2 * (u 0 * v 1 - u 1 * v 0)) * hn

theorem refl_sub (n u v : Fin 3 → ℝ) : reflR n (u - v) = reflR n u - reflR n v := by
  unfold reflR; rw [dotProduct_sub]; module

theorem refl_smul (n u : Fin 3 → ℝ) (c : ℝ) : reflR n (c • u) = c • reflR n u := by
  unfold reflR; rw [dotProduct_smul, smul_eq_mul]; module

/-- a unit vector at right angles to a given one -/
theorem exists_perp (v : Fin 3 → ℝ) : ∃ n : Fin 3 → ℝ, n ⬝ᵥ n = 1 ∧ n ⬝ᵥ v = 0 := by
  have key (w : R3) (h : w ≠ 0) (h' : w ⬝ᵥ v = 0) : ∃ n : Fin 3 → ℝ, n ⬝ᵥ n = 1 ∧ n ⬝ᵥ v = 0 :=
    ⟨unit w, unit_of h, by rw [smul_dotProduct, h', smul_zero]⟩
  by_cases h : v 0 = 0
  · refine key ![1, 0, 0] (fun h => by simpa using congrFun h 0) ?_
    simp [dotProduct, Fin.sum_univ_three, h]
  · refine key ![v 1, -v 0, 0] (fun e => h (by simpa using congrFun e 1)) ?_
    simp [dotProduct, Fin.sum_univ_three]; ring

end Mirrors

open Mirrors

variable {p q : Quat (Fl ℝ)} {Q : ℍ[ℝ]}

/-- C105: reflecting in one plane and then in another is the rotation by the product of the two normals. -/
theorem C105_two (n m : Fin 3 → ℝ) (hp : p.IsR (pureQ m)) (hq : q.IsR (pureQ n)) (v : Mat3x1 (Fl ℝ)) (u : Fin 3 → ℝ) (hv : v.IsR u) :
    ∃ w, (p.reflectionInPlane (q.reflectionInPlane v)).IsR w ∧ ((p.mul q).rotateVector v).IsR w := by
  refine ⟨_, hp.reflection (hq.reflection hv), ((hp.mul hq).rotateVector hv).cast ?_⟩
  rw [pureQ_vecQ (pure_sandwich_re n u), star_mul, star_pure, star_pure]
  congr 1
  noncomm_ring

/-- concrete case: two planes whose normals are not of length 1 -/
example := C105_two ![1, 2, 3] ![4, 0, 5] (quatR_isR _) (quatR_isR _) _ _ (vec3R_reads 1 2 3)

/-- C105: every rotation is two reflections: for every unit quaternion there are two planes, given by unit normals, such that reflecting in
the one and then in the other does to every vector what the quaternion does. -/
theorem C105_every (hq : q.IsR Q) (h1 : ‖Q‖ = 1) : ∃ n m : Fin 3 → ℝ, n ⬝ᵥ n = 1 ∧ m ⬝ᵥ m = 1 ∧
    ∀ a b : Quat (Fl ℝ), a.IsR (pureQ n) → b.IsR (pureQ m) → ∀ (v : Mat3x1 (Fl ℝ)) (u : Fin 3 → ℝ), v.IsR u →
      ∃ w, (b.reflectionInPlane (a.reflectionInPlane v)).IsR w ∧ (q.rotateVector v).IsR w := by
  obtain ⟨n, hn, hnv⟩ := exists_perp (vecQ Q)
  have hnn : pureQ n * pureQ n = -1 := by
    simp only [dotProduct, Fin.sum_univ_three] at hn
    ext <;> simp <;> linarith
  have hre : (-(Q * pureQ n)).re = 0 := by
    simp only [dotProduct, Fin.sum_univ_three, vecQ] at hnv
    simp at hnv ⊢
    linarith
  have e : pureQ (vecQ (-(Q * pureQ n))) * pureQ n = Q := by
    rw [pureQ_vecQ hre, neg_mul, mul_assoc, hnn]; simp
  refine ⟨n, vecQ (-(Q * pureQ n)), hn, ?_, fun a b ha hb v u hv => ?_⟩
  · have hN : ‖pureQ n‖ = 1 := by
      have := Quat.normSq_eq (pureQ n)
      simp only [dotProduct, Fin.sum_univ_three] at hn
      simp only [pureQ_re, pureQ_imI, pureQ_imJ, pureQ_imK] at this
      nlinarith [norm_nonneg (pureQ n)]
    have h2 : ‖-(Q * pureQ n)‖ = 1 := by rw [norm_neg, norm_mul, h1, hN, one_mul]
    have := unit_sq h2
    rw [hre] at this
    simpa [dotProduct, Fin.sum_univ_three, vecQ] using this
  · obtain ⟨w, h3, h4⟩ := C105_two n _ hb ha v u hv
    refine ⟨w, h3, ?_⟩
    have h5 := (hb.mul ha).rotateVector hv
    rw [e] at h5
    exact (hq.rotateVector hv).cast (h5.unique h4)

/-- concrete case: a quarter turn -/
example := C105_every (quatR_isR turn) turn_unit

/-- C105: turning everything, the mirror included, turns the mirror image. -/
theorem C105_carry (hq : q.IsR Q) (h1 : ‖Q‖ = 1) (k : Mat3x1 (Fl ℝ)) (n : Fin 3 → ℝ) (hk : k.IsR n) (v : Mat3x1 (Fl ℝ)) (u : Fin 3 → ℝ)
    (hv : v.IsR u) :
    ∃ w, (q.rotateVector ((⟨k.val[0], k.val[1], k.val[2], 0⟩ : Quat (Fl ℝ)).reflectionInPlane v)).IsR w ∧
      ((⟨(q.rotateVector k).val[0], (q.rotateVector k).val[1], (q.rotateVector k).val[2], 0⟩ : Quat (Fl ℝ)).reflectionInPlane
        (q.rotateVector v)).IsR w := by
  have h := hq.rotateVector (hk.pure.reflection hv)
  refine ⟨_, h, ((hq.rotateVector hk).pure.reflection (hq.rotateVector hv)).cast ?_⟩
  rw [pureQ_vecQ (pure_sandwich_re n u), pureQ_vecQ (rot_re Q n), pureQ_vecQ (rot_re Q u)]
  have e : star Q * Q = 1 := by rw [← unit_inv h1]; exact inv_mul_cancel₀ (by rintro rfl; simp at h1)
  congr 1
  have e' (X : ℍ[ℝ]) : star Q * (Q * X) = X := by rw [← mul_assoc, e, one_mul]
  simp only [mul_assoc, e']

/-- concrete case -/
example := C105_carry (quatR_isR turn) turn_unit _ _ (vec3R_reads 4 0 5) _ _ (vec3R_reads 1 2 3)

/-- C105: a mirror turns right-handed into left-handed: the cross product of the images is the image of the cross product, negated. -/
theorem C105_handed (n : Fin 3 → ℝ) (hn : n ⬝ᵥ n = 1) (hq : q.IsR (pureQ n)) (v v' : Mat3x1 (Fl ℝ)) (u u' : Fin 3 → ℝ)
    (hv : v.IsR u) (hv' : v'.IsR u') :
    ∃ c c' w, v.cross v' = some c ∧ (q.reflectionInPlane v).cross (q.reflectionInPlane v') = some c' ∧ (q.reflectionInPlane c).IsR w ∧ c'.IsR (-w) := by
  have r := C31_reflection n hn hq v u hv
  have r' := C31_reflection n hn hq v' u' hv'
  obtain ⟨c, e, i⟩ := C09_cross .mat3x1 rfl v v' u u' hv hv'
  obtain ⟨c', e', i'⟩ := C09_cross .mat3x1 rfl _ _ _ _ r r'
  exact ⟨c, c', _, e, e', C31_reflection n hn hq c _ i, Mat3x1.IsR.cast i' (refl_cross n u u' hn)⟩

/-- concrete case: the plane with normal `(3/5, 0, 4/5)` -/
example := C105_handed ![3 / 5, 0, 4 / 5] (by simp [dotProduct, Fin.sum_univ_three]; norm_num) (quatR_isR _) _ _ _ _ (vec3R_reads 1 2 3)
  (vec3R_reads 3 1 4)

/-- C105: the principle of Fermat.  A ray that is found to hit a plane goes on, from the reported location, in the direction given by
`reflection_in_plane`; then no way that touches the plane is shorter, from the start to any point reached. -/
theorem C105_shortest (s : Ray3 ℝ) (t : Plane ℝ) (a d o n x : R3) (hs : s.Made a d) (ht : t.Made o n) (h : Shape.Finds (.ray s) (.plane t) x)
    (hq : q.IsR (pureQ (unit n))) (v : Mat3x1 (Fl ℝ)) (hv : v.IsR d) :
    ∃ w, (q.reflectionInPlane v).IsR w ∧ ∀ b ∈ rayPts x w, ∀ y ∈ planePts o n, euc (x - a) + euc (b - x) ≤ euc (y - a) + euc (b - y) := by
  have hn : unit n ⬝ᵥ unit n = 1 := unit_of ht.1
  obtain ⟨⟨τ, hτ, e1⟩, e2⟩ := C43_sound s t a d o n hs ht x h
  refine ⟨_, C31_reflection (unit n) hn hq v d hv, ?_⟩
  rintro b ⟨σ, hσ, rfl⟩ y hy
  have iso (u : R3) : euc (reflR (unit n) u) = euc u := by
    have h := euc_sq (reflR (unit n) u)
    rw [refl_dot _ _ _ hn, ← euc_sq] at h
    exact (mul_self_inj (euc_nonneg _) (euc_nonneg _)).mp h
  have perp (z : R3) (hz : z ∈ planePts o n) : reflR (unit n) (z - o) = z - o := by
    have : unit n ⬝ᵥ (z - o) = 0 := by
      rw [dotProduct_comm, dotProduct_smul, show (z - o) ⬝ᵥ n = 0 from hz, smul_zero]
    rw [reflR, this]; simp
  have img (z : R3) (hz : z ∈ planePts o n) : z - (o + reflR (unit n) (a - o)) = reflR (unit n) (z - a) := by
    rw [show z - a = (z - o) - (a - o) by abel, refl_sub _ (z - o), perp z hz]; abel
  show euc (x - a) + euc (x + σ • reflR (unit n) d - x) ≤ euc (y - a) + euc (x + σ • reflR (unit n) d - y)
  have hx : x - a = τ • d := by rw [e1]; abel
  have l1 : euc (x - a) = τ * euc d := by rw [hx, euc_smul, abs_of_nonneg hτ]
  have l2 : euc (x + σ • reflR (unit n) d - x) = σ * euc d := by rw [add_sub_cancel_left, euc_smul, iso, abs_of_nonneg hσ]
  have l3 : euc (x + σ • reflR (unit n) d - (o + reflR (unit n) (a - o))) = (τ + σ) * euc d := by
    rw [show x + σ • reflR (unit n) d - (o + reflR (unit n) (a - o)) = (x - (o + reflR (unit n) (a - o))) + σ • reflR (unit n) d by abel,
      img x e2, hx, refl_smul, ← add_smul, euc_smul, iso, abs_of_nonneg (add_nonneg hτ hσ)]
  have l4 : euc (y - a) = euc (y - (o + reflR (unit n) (a - o))) := by rw [img y hy, iso]
  have tri := euc_add_le (y - (o + reflR (unit n) (a - o))) (x + σ • reflR (unit n) d - y)
  rw [show y - (o + reflR (unit n) (a - o)) + (x + σ • reflR (unit n) d - y) = x + σ • reflR (unit n) d - (o + reflR (unit n) (a - o)) by abel,
    l3] at tri
  rw [l1, l2, l4]
  linarith

/-- concrete case: the diagonal ray down to the plane `z = 0` -/
example (x : R3) (h : Shape.Finds (.ray (mkRay ![-2, -4, -4] diag_ne 0)) (.plane (mkPlane 0 (neg_ne_zero.mpr upZ_ne) 0)) x) :=
  C105_shortest _ _ _ _ _ _ x (mkRay_made ![-2, -4, -4] diag_ne 0) (mkPlane_made 0 (neg_ne_zero.mpr upZ_ne) 0) h (quatR_isR _) _ (vec3R_reads 1 2 2)

/-- such a location exists -/
example : ∃ x, Shape.Finds (.ray (mkRay ![-2, -4, -4] diag_ne 0)) (.plane (mkPlane 0 (neg_ne_zero.mpr upZ_ne) 0)) x := by
  obtain ⟨x, -, h⟩ := (C43_rayPlane _ _ _ _ _ _ (mkRay_made ![-2, -4, -4] diag_ne 0) (mkPlane_made 0 (neg_ne_zero.mpr upZ_ne) 0)).1
    ⟨by simp [dotProduct, Fin.sum_univ_three], 0, ⟨2, by norm_num, by ext i; fin_cases i <;> norm_num⟩, by simp [planePts]⟩
  exact ⟨x, h⟩

/-! ### with rounding -/

section rounded

variable {K : Type} [Field K] [LinearOrder K] [IsStrictOrderedRing K] [Fmt K] [LawfulFmt K]

namespace Mirrors

theorem same_neg {x : Fl K} (h : x.val = some 0) : Fl.Same x (-x) := .inr ⟨h, by
  cases x <;> simp [Fl.val] at h
  · rfl
  · subst h; show (Fl.neg (.fin 0)).val = _; simp [Fl.neg, Fl.val]⟩

theorem conj_negate {q : Quat (Fl K)} (h : q.w.val = some 0) : Quat.Same q.conjugate q.negate := ⟨.refl _, .refl _, .refl _, same_neg h⟩

theorem rotate_quat {q : Quat (Fl K)} (h : q.w.val = some 0) (P : Quat (Fl K)) : Quat.Same ((q.mul P).mul q.conjugate) ((q.mul P).mul q).negate :=
  (Quat.Same.mul (.refl _) (conj_negate h)).trans (Quat.mul_negate _ _)

end Mirrors

/-- C105, in every format and for every vector, NaN and infinities included: with a quaternion whose real part is zero, `reflection_in_plane`
gives bit for bit (up to the signs of zeros) the negated result of `rotate_vector`, and reflecting twice what rotating there and back gives. -/
theorem C105_negated (q : Quat (Fl K)) (h : q.w.val = some 0) (v : Mat3x1 (Fl K)) (i : Fin 3) :
    Fl.Same (q.reflectionInPlane v).val[i] (-(q.rotateVector v).val[i]) ∧
    Fl.Same (q.reflectionInPlane (q.reflectionInPlane v)).val[i] (q.conjugate.rotateVector (q.rotateVector v)).val[i] := by
  obtain ⟨r1, r2, r3, -⟩ := rotate_quat h ⟨v.val[0], v.val[1], v.val[2], 0⟩
  have sw {x y : Fl K} (h : Fl.Same x (-y)) : Fl.Same y (-x) := by
    have := h.neg
    rw [Fl.neg_neg'] at this
    exact this.symm
  constructor
  · fin_cases i
    · exact sw r1
    · exact sw r2
    · exact sw r3
  · have z0 : Fl.Same (0 : Fl K) (-0) := same_neg rfl
    have m : Quat.Same ⟨(q.rotateVector v).val[0], (q.rotateVector v).val[1], (q.rotateVector v).val[2], 0⟩
        (⟨(q.reflectionInPlane v).val[0], (q.reflectionInPlane v).val[1], (q.reflectionInPlane v).val[2], 0⟩ : Quat (Fl K)).negate := ⟨r1, r2, r3, z0⟩
    have k := ((conj_negate h).mul m).mul (.refl q)
    have k' := k.trans (((Quat.negate_mul q _).trans (Quat.mul_negate q _).negate).mul (.refl q))
    rw [Quat.negate_negate] at k'
    have cc : q.conjugate.conjugate = q := by simp [Quat.conjugate, Fl.neg_neg']
    obtain ⟨k1, k2, k3, -⟩ := k'
    have e : q.conjugate.rotateVector (q.rotateVector v) = ⟨#v[((q.conjugate.mul ⟨(q.rotateVector v).val[0], (q.rotateVector v).val[1],
      (q.rotateVector v).val[2], 0⟩).mul q).x, ((q.conjugate.mul ⟨(q.rotateVector v).val[0], (q.rotateVector v).val[1],
      (q.rotateVector v).val[2], 0⟩).mul q).y, ((q.conjugate.mul ⟨(q.rotateVector v).val[0], (q.rotateVector v).val[1],
      (q.rotateVector v).val[2], 0⟩).mul q).z]⟩ := by
      conv_lhs => unfold Quat.rotateVector
      rw [cc]
      rfl
    rw [e]
    fin_cases i
    · exact k1.symm
    · exact k2.symm
    · exact k3.symm

/-- concrete case -/
example := C105_negated (K := Q64) ⟨1, .fin 2, .fin 3, 0⟩ rfl ⟨#v[.fin 7, .pinf, .nan]⟩

end rounded

namespace Mirrors

theorem same_holds {x y : Fl Q64} {b : Q64} (h : Fl.Same x y) (hy : y.Holds b) : x.Holds b := by
  rcases h with rfl | ⟨h1, h2⟩
  · exact hy
  · obtain ⟨hy1, -⟩ := hy
    have hb : b = 0 := by
      have := hy1.symm.trans h2
      simpa using this
    subst hb
    refine ⟨h1, ?_⟩
    cases x <;> simp [Fl.val] at h1
    · trivial
    · subst h1; exact .inl rfl

theorem holds_neg {y : Fl Q64} {b : Q64} (hy : y.Holds b) : (-y).Holds (-b) := by
  refine ⟨?_, hy.2.neg⟩
  have h := hy.1
  cases y with
  | nan => simp [Fl.Is, Fl.val] at h
  | inf t => simp [Fl.Is, Fl.val] at h
  | nzero =>
    have : b = 0 := by simpa [Fl.Is, Fl.val] using h.symm
    subst this; rw [neg_zero]; rfl
  | fin v =>
    have : v = b := by simpa [Fl.Is, Fl.val] using h
    subst this
    show (Fl.neg (.fin v)).val = some (-v)
    unfold Fl.neg
    by_cases h : v = 0
    · subst h; simp [Fl.val]
    · simp [h, Fl.val]

theorem normalize_pure {q n : Quat (Fl Q64)} (h : q.w.val = some 0) (e : q.normalize = .ok n) : n.w.val = some 0 := by
  unfold Quat.normalize at e
  dsimp only at e
  split_ifs at e with hl
  cases e
  show (q.w / q.length).val = some 0
  generalize q.length = l at hl
  have hc : q.w = .fin 0 ∨ q.w = .nzero := NaN.val_zero h
  have z (b : Bool) : (Fl.zero b : Fl Q64).val = some 0 := by cases b <;> rfl
  rcases hc with hc | hc <;> rw [hc]
  · cases l with
    | nan => simp [Fl.lt] at hl
    | inf t => exact z _
    | nzero => simp [Fl.lt] at hl
    | fin b =>
      have hb : b ≠ 0 := by rintro rfl; revert hl; decide +kernel
      show (Fl.divFin _ _ _).val = _
      rw [Fl.divFin, if_neg hb, if_pos rfl]; exact z _
  · cases l with
    | nan => simp [Fl.lt] at hl
    | inf t => exact z _
    | nzero => simp [Fl.lt] at hl
    | fin b =>
      have hb : b ≠ 0 := by rintro rfl; revert hl; decide +kernel
      show (Fl.divFin _ _ _).val = _
      rw [Fl.divFin, if_neg hb, if_pos rfl]; exact z _

theorem rot_refl {Q : ℍ[ℝ]} (h : Q.re = 0) (h0 : Q ≠ 0) (u : R3) : rotR Q u = -reflR (unit (vecQ Q)) u := by
  have hv : vecQ Q ≠ 0 := fun e => h0 (by rw [← pureQ_vecQ h, e]; ext <;> simp)
  rw [← refl_coords _ _ (unit_of hv), rotR, ← vecQ_neg]
  congr 1
  have hn : ‖Q‖ ≠ 0 := norm_ne_zero_iff.mpr h0
  have he : euc (vecQ Q) = ‖Q‖ := by
    have h1 := euc_sq (vecQ Q)
    have h2 := Quat.normSq_eq Q
    rw [h] at h2
    simp only [dotProduct, Fin.sum_univ_three, vecQ] at h1
    refine (mul_self_inj (euc_nonneg _) (norm_nonneg Q)).mp ?_
    rw [← h2]
    simpa [vecQ] using h1
  have hp : pureQ (unit (vecQ Q)) = ‖Q‖⁻¹ • Q := by
    rw [unit, he]
    ext <;> simp [vecQ, h]
  have hi : Q⁻¹ = -((‖Q‖⁻¹ * ‖Q‖⁻¹) • Q) := by
    have hs : star Q = -Q := by
      conv_lhs => rw [← pureQ_vecQ h]
      rw [star_pure, pureQ_vecQ h]
    rw [Quaternion.inv_def, hs, Quaternion.normSq_eq_norm_mul_self, mul_inv, smul_neg]
  rw [hp, hi]
  simp only [mul_neg, Algebra.mul_smul_comm, Algebra.smul_mul_assoc, smul_smul]

end Mirrors

/-- C105 in binary64: reflecting in the plane whose normal is the normalised vector part of a quaternion with real part zero: within
`2^-46` of the length from the mirror image, the length is kept up to `2^-45`, and reflecting twice comes back up to `2^-44`. -/
theorem C105_f64 {q : Quat (Fl Q64)} {Q : ℍ[Q64]} (hq : q.Holds Q) (hre : Q.re = 0) (h0 : Q ≠ 0)
    (hlo : ∀ i, quatVec Q i = 0 ∨ ((2 : ℚ) ^ (-511 : ℤ) : ℚ) ≤ |quatVec Q i|) (hhi : ∀ i, |quatVec Q i| ≤ ((2 : ℚ) ^ (510 : ℤ) : ℚ))
    {p : Mat3x1 (Fl Q64)} {V : Fin 3 → Q64} (hp : p.Holds V) (hV : ∀ i, |V i| ≤ ((2 : ℚ) ^ (1000 : ℤ) : ℚ)) :
    ∃ n W W', q.normalize = .ok n ∧ (n.reflectionInPlane p).Holds W ∧ (n.reflectionInPlane (n.reflectionInPlane p)).Holds W' ∧
      (∀ i, |(W i).real - (toR BinQ.real V - (2 * (unit (vecQ (toH BinQ.real Q)) ⬝ᵥ toR BinQ.real V)) • unit (vecQ (toH BinQ.real Q))) i| ≤
        2 ^ (-46 : ℤ) * euc (toR BinQ.real V) + 2 ^ (-1071 : ℤ)) ∧
      |euc (toR BinQ.real W) - euc (toR BinQ.real V)| ≤ 2 ^ (-45 : ℤ) * euc (toR BinQ.real V) + 2 ^ (-1070 : ℤ) ∧
      ∀ i, |(W' i).real - (V i).real| ≤ 2 ^ (-44 : ℤ) * euc (toR BinQ.real V) + 2 ^ (-1069 : ℤ) := by
  obtain ⟨n, W, W', e, h1, h2, h3, h4, h5⟩ := C67_rotate_f64 hq h0 hlo hhi hp hV
  have hw : n.w.val = some 0 := normalize_pure (by have := hq.2.2.2.1; rw [hre] at this; exact this) e
  have hH : toH BinQ.real Q ≠ 0 := toH_ne BinQ.real BinQ.real_strictMono h0
  refine ⟨n, fun i => -W i, W', e, fun i => same_holds (C105_negated n hw p i).1 (holds_neg (h1 i)), fun i => same_holds (C105_negated n hw p i).2 (h2 i), ?_, ?_, h5⟩
  · intro i
    have := h3 i
    rw [rot_refl (by rw [toH_re, hre, map_zero]) hH] at this
    rw [← abs_neg, map_neg]
    refine le_trans (le_of_eq ?_) this
    congr 1
    show -(-_ - reflR _ _ i) = _ - -reflR _ _ i
    ring
  · have : toR BinQ.real (fun i => -W i) = -toR BinQ.real W := by
      funext i; show BinQ.real (-W i) = -BinQ.real (W i); rw [map_neg]
    rw [this, show -toR BinQ.real W = (-1 : ℝ) • toR BinQ.real W by simp, euc_smul]
    simp only [abs_neg, abs_one, one_mul]
    exact h4


/-- data for the examples: the quaternion `2i + 3j + 4k` -/
def nrm234 : Quat (Fl Q64) := ⟨.fin 2, .fin 3, .fin 4, 0⟩

/-- concrete case: the normal `(2, 3, 4)` and the vector `(4, 0, 5)` -/
example := C105_f64 (q := nrm234) (Q := ⟨0, 2, 3, 4⟩)
  ⟨⟨rfl, .inr (by decide +kernel)⟩, ⟨rfl, .inr (by decide +kernel)⟩, ⟨rfl, .inr (by decide +kernel)⟩, ⟨rfl, .inl rfl⟩⟩ rfl
  (fun h => by have := congrArg QuaternionAlgebra.imI h; revert this; decide +kernel)
  (fun i => by
    have lo (x : ℚ) (h : 1 ≤ |x|) : ((2 : ℚ) ^ (-511 : ℤ) : ℚ) ≤ |x| := (zpow_le_one_of_nonpos₀ (by norm_num) (by norm_num)).trans h
    fin_cases i <;> first | exact .inl rfl | exact .inr (lo _ (by decide +kernel)))
  (fun i => by
    have hi (x : ℚ) (h : |x| ≤ 2 ^ 10) : |x| ≤ ((2 : ℚ) ^ (510 : ℤ) : ℚ) :=
      h.trans ((by norm_num : (2 : ℚ) ^ 10 ≤ 2 ^ (10 : ℤ)).trans (zpow_le_zpow_right₀ (by norm_num) (by norm_num)))
    fin_cases i <;> exact hi _ (by decide +kernel))
  b405_holds (fun i => (B405_five i).trans (by
    show (5 : ℚ) ≤ _
    exact (by norm_num : (5 : ℚ) ≤ 2 ^ (10 : ℤ)).trans (zpow_le_zpow_right₀ (by norm_num) (by norm_num))))

/-- C105, where it fails: rounding keeps a vector from coming back exactly after two reflections in the same normalised plane. -/
theorem C105_exact_false : ∃ n v, nrm234.normalize = .ok n ∧ n.reflectionInPlane (n.reflectionInPlane v) ≠ v :=
  ⟨⟨.fin (836297455818609 / 2251799813685248 : ℚ), .fin (2508892367455827 / 4503599627370496 : ℚ), .fin (836297455818609 / 1125899906842624 : ℚ), 0⟩, ⟨#v[.fin 1, .fin 2, .fin 3]⟩, by decide +kernel, by decide +kernel⟩

/-- a unit quaternion with a real part: `4/5 + 3/5 i` -/
noncomputable def slantQ : ℍ[ℝ] := ⟨4 / 5, 3 / 5, 0, 0⟩

/-- C105, where it fails: with a real part that is not zero `reflection_in_plane` of a unit quaternion is no mirror, it shortens vectors. -/
theorem C105_real_false : ∃ (q : Quat (Fl ℝ)) (Q : ℍ[ℝ]) (v : Mat3x1 (Fl ℝ)), q.IsR Q ∧ ‖Q‖ = 1 ∧ v.IsR ![1, 0, 0] ∧
    (q.reflectionInPlane v).IsR ![7 / 25, 0, 0] := by
  refine ⟨_, slantQ, _, quatR_isR _, ?_, vec3R_reads 1 0 0, ?_⟩
  · have := Quat.normSq_eq slantQ
    norm_num [slantQ] at this
    change 1 = ‖slantQ‖ * ‖slantQ‖ at this
    nlinarith [norm_nonneg slantQ]
  · refine ((quatR_isR _).reflection (vec3R_reads 1 0 0)).cast ?_
    have h0 : slantQ.re = 4 / 5 := rfl
    have h1 : slantQ.imI = 3 / 5 := rfl
    have h2 : slantQ.imJ = 0 := rfl
    have h3 : slantQ.imK = 0 := rfl
    ext i; fin_cases i <;> simp [vecQ, h0, h1, h2, h3]; norm_num

end Mazth
