import Verif.Props.Gjk
import Mathlib.NumberTheory.Niven

/-!
# C52: what the GJK loop does on touching spheres, and three ways it goes wrong in binary64

In exact arithmetic the loop on two touching spheres bisects an arc for ever unless it hits the point of contact, and it
cannot hit it when the angle between the line of centres and the x-axis is an irrational multiple of a half turn.
-/

set_option linter.unusedSectionVars false
set_option autoImplicit false

namespace Mazth.GjkTouch

open Matrix GjkGeom Gjk Real

/-- the point at angle `θ` of the unit circle with axes `e`, `f` -/
noncomputable def E (e f : R3) (θ : ℝ) : R3 := cos θ • e + sin θ • f

/-- the point at angle `θ` of the circle of radius `R` through the origin, which is at angle zero -/
noncomputable def X (e f : R3) (R θ : ℝ) : R3 := R • (E e f θ - e)

variable {e f : R3}

section
variable (he : e ⬝ᵥ e = 1) (hf : f ⬝ᵥ f = 1) (hef : e ⬝ᵥ f = 0)
include he hf hef

theorem E_dot (θ φ : ℝ) : E e f θ ⬝ᵥ E e f φ = cos (θ - φ) := by
  have hfe : f ⬝ᵥ e = 0 := by rw [dotProduct_comm]; exact hef
  simp only [E, add_dotProduct, dotProduct_add, smul_dotProduct, dotProduct_smul, he, hf, hef, hfe, cos_sub, smul_eq_mul]
  ring

theorem E_unit {k : ℝ} (hk : 0 < k) (θ : ℝ) : unit (k • E e f θ) = E e f θ := by
  have h1 : euc (E e f θ) = 1 := by
    have h := euc_sq (E e f θ)
    rw [E_dot he hf hef, sub_self, cos_zero] at h
    have h0 := euc_nonneg (E e f θ)
    nlinarith
  unfold unit
  rw [euc_smul, h1, abs_of_pos hk, mul_one, smul_smul, inv_mul_cancel₀ hk.ne', one_smul]

theorem sup_X {R k : ℝ} (hk : 0 < k) (θ : ℝ) : sup (-(R • e)) R (k • E e f θ) = X e f R θ := by
  unfold sup X
  rw [E_unit he hf hef hk]; module

/-- the outward normal of a chord -/
theorem out_X (R s q p : ℝ) : out (X e f R s) (X e f R q) (X e f R p) =
    (8 * R ^ 3 * (sin ((p - s) / 2) * sin ((q - s) / 2) ^ 2 * sin ((p - q) / 2))) • E e f ((q + s) / 2) := by
  have hfe : f ⬝ᵥ e = 0 := by rw [dotProduct_comm]; exact hef
  have chord (x y : ℝ) : X e f R x - X e f R y =
      (2 * R * sin ((x - y) / 2)) • (cos ((x + y) / 2) • f - sin ((x + y) / 2) • e) := by
    have h1 := cos_sub_cos x y
    have h2 := sin_sub_sin x y
    have : X e f R x - X e f R y = R • ((cos x - cos y) • e + (sin x - sin y) • f) := by
      simp only [X, E]; module
    rw [this, h1, h2]; module
  have eφ : (p + s) / 2 = (q + s) / 2 + (p - q) / 2 := by ring
  rw [out_eq, chord, chord, eφ, cos_add, sin_add]
  generalize (q + s) / 2 = φ
  generalize (p - q) / 2 = Δ
  generalize (p - s) / 2 = a
  generalize (q - s) / 2 = b
  have h1 := sin_sq_add_cos_sq φ
  have h2 := sin_sq_add_cos_sq Δ
  simp only [smul_dotProduct, dotProduct_smul, sub_dotProduct, dotProduct_sub, he, hf, hef, hfe, smul_eq_mul, E]
  have hs : sin φ ^ 2 = 1 - cos φ ^ 2 := by linarith
  ext i
  simp only [Pi.sub_apply, Pi.add_apply, Pi.smul_apply, smul_eq_mul]
  linear_combination (8 * R ^ 3 * sin b ^ 2 * sin a * sin Δ * (cos φ * e i + sin φ * f i)) * h1

theorem X_dot (R s φ : ℝ) : E e f φ ⬝ᵥ (-X e f R s) = R * (cos φ - cos (φ - s)) := by
  have h0 : e = E e f 0 := by simp [E]
  have : -X e f R s = R • (E e f 0 - E e f s) := by rw [← h0]; simp only [X]; module
  rw [this, dotProduct_smul, dotProduct_sub, E_dot he hf hef, E_dot he hf hef, sub_zero, smul_eq_mul]

/-- the edge kept by the loop is the one on the far side of the origin, and the next direction bisects it -/
theorem out_lo {R lo hi δ : ℝ} (hR : 0 < R) (h1 : lo < δ) (h2 : δ < hi) (hlo : lo < 0) (hpi : hi - lo ≤ π) (hδ' : |δ| < π) :
    (∃ k : ℝ, 0 < k ∧ out (X e f R δ) (X e f R lo) (X e f R hi) = k • E e f ((lo + δ) / 2)) ∧
    (0 < out (X e f R δ) (X e f R lo) (X e f R hi) ⬝ᵥ (-X e f R δ) ↔ 0 < δ) := by
  obtain ⟨ha, hb⟩ := abs_lt.mp hδ'
  have hk : 0 < 8 * R ^ 3 * (sin ((hi - δ) / 2) * sin ((lo - δ) / 2) ^ 2 * sin ((hi - lo) / 2)) := by
    have s1 : 0 < sin ((hi - δ) / 2) := sin_pos_of_pos_of_lt_pi (by linarith) (by linarith)
    have s2 : sin ((lo - δ) / 2) < 0 := sin_neg_of_neg_of_neg_pi_lt (by linarith) (by linarith)
    have s3 : 0 < sin ((hi - lo) / 2) := sin_pos_of_pos_of_lt_pi (by linarith) (by linarith [pi_pos])
    have := sq_pos_of_neg s2
    positivity
  refine ⟨⟨_, hk, out_X he hf hef R δ lo hi⟩, ?_⟩
  rw [out_X he hf hef, smul_dotProduct, X_dot he hf hef, smul_eq_mul, mul_pos_iff_of_pos_left hk, mul_pos_iff_of_pos_left hR, cos_sub_cos]
  have e1 : ((lo + δ) / 2 + ((lo + δ) / 2 - δ)) / 2 = lo / 2 := by ring
  have e2 : ((lo + δ) / 2 - ((lo + δ) / 2 - δ)) / 2 = δ / 2 := by ring
  rw [e1, e2]
  have s1 : sin (lo / 2) < 0 := sin_neg_of_neg_of_neg_pi_lt (by linarith) (by linarith)
  rw [show -2 * sin (lo / 2) * sin (δ / 2) = (-2 * sin (lo / 2)) * sin (δ / 2) from rfl, mul_pos_iff_of_pos_left (by linarith)]
  constructor
  · intro h
    by_contra hn
    exact absurd h (not_lt.mpr (sin_nonpos_of_nonpos_of_neg_pi_le (by linarith) (by linarith)))
  · intro h; exact sin_pos_of_pos_of_lt_pi (by linarith) (by linarith)

theorem out_hi {R lo hi δ : ℝ} (hR : 0 < R) (h1 : lo < δ) (h2 : δ < hi) (hhi : 0 < hi) (hpi : hi - lo ≤ π) (hδ' : |δ| < π) :
    (∃ k : ℝ, 0 < k ∧ out (X e f R δ) (X e f R hi) (X e f R lo) = k • E e f ((hi + δ) / 2)) ∧
    (0 < out (X e f R δ) (X e f R hi) (X e f R lo) ⬝ᵥ (-X e f R δ) ↔ δ < 0) := by
  have hE (θ : ℝ) : E e (-f) θ = E e f (-θ) := by simp [E]
  have hX (θ : ℝ) : X e (-f) R (-θ) = X e f R θ := by rw [X, hE, neg_neg]; rfl
  have h := out_lo (f := -f) he (by simpa using hf) (by simpa using hef) hR (lo := -hi) (hi := -lo) (δ := -δ) (by linarith) (by linarith)
    (by linarith) (by linarith) (by simpa using hδ')
  rw [hX, hX, hX, hE, show -((-hi + -δ) / 2) = (hi + δ) / 2 by ring, neg_pos] at h
  exact h

/-- the loop on touching spheres: it never answers `true`, and it answers `false` only if it reaches the angle zero by
halving intervals that start at angles in `G` -/
theorem loop_touch {s t : Sphere ℝ} {ca cb : R3} {ra rb : ℝ} (hs : s.Made ca ra) (ht : t.Made cb rb) {R : ℝ} (hR : 0 < R)
    (hRr : ra + rb = R) (hce : ca - cb = -(R • e)) {m : R3} (hc : (ca - cb) ⬝ᵥ m = 0) (G : ℝ → Prop)
    (hG : ∀ x y, G x → G y → G ((x + y) / 2)) (n : ℕ) :
    ∀ {p q d : V3 ℝ} {P Q : R3} {lo hi δ k : ℝ}, p.IsR P → q.IsR Q → d.IsR (k • E e f δ) → 0 < k →
      (P = X e f R lo ∧ Q = X e f R hi ∨ P = X e f R hi ∧ Q = X e f R lo) → lo < 0 → 0 < hi → hi - lo ≤ π → lo < δ → δ < hi →
      G lo → G hi → G δ → GjkGeom.Inv (ca - cb) m (ra + rb) P Q (k • E e f δ) →
      queryLoop (.sphere s) (.sphere t) n [p, q] d = .error .diverge ∨
      (G 0 ∧ queryLoop (.sphere s) (.sphere t) n [p, q] d = .ok (some false)) := by
  induction n with
  | zero => intros; exact .inl rfl
  | succ n ih =>
    intro p q d P Q lo hi δ k hp hq hd hk hPQ hlo hhi hpi hlδ hδh gl gh gδ hI
    have hS : sup (ca - cb) (ra + rb) (k • E e f δ) = X e f R δ := by rw [hRr, hce, sup_X he hf hef hk]
    have hδπ : |δ| < π := abs_lt.mpr ⟨by linarith, by linarith⟩
    obtain ⟨⟨k1, hk1, ho1⟩, hi1⟩ := out_lo he hf hef hR hlδ hδh hlo hpi hδπ
    obtain ⟨⟨k2, hk2, ho2⟩, hi2⟩ := out_hi he hf hef hR hlδ hδh hhi hpi hδπ
    rcases loop_real hs ht n hp hq hd hI with ⟨h, e'⟩ | ⟨h0, x, d', A, B, a, hAB, ha, hx, hd', ho, e'⟩ | ⟨h0, h1, h2, e'⟩
    · right
      refine ⟨?_, e'⟩
      rw [hS, dotProduct_smul, dotProduct_comm, ← neg_neg (X e f R δ), dotProduct_neg, X_dot he hf hef, sub_self, cos_zero, smul_eq_mul] at h
      have hc1 : cos δ = 1 := by
        have := cos_le_one δ
        by_contra hne
        have h3 : cos δ < 1 := lt_of_le_of_ne this hne
        have : 0 < k * (R * (1 - cos δ)) := by have := sub_pos.mpr h3; positivity
        nlinarith
      have : δ = 0 := (cos_eq_one_iff_of_lt_of_lt (by linarith [(abs_lt.mp hδπ).1]) (by linarith [(abs_lt.mp hδπ).2])).mp hc1
      exact this ▸ gδ
    · rw [e']
      have hnext : GjkGeom.Inv (ca - cb) m (ra + rb) A (sup (ca - cb) (ra + rb) (k • E e f δ)) (out (sup (ca - cb) (ra + rb) (k • E e f δ)) A B) := by
        rcases hAB with ⟨rfl, rfl⟩ | ⟨rfl, rfl⟩
        · exact (hI.symm.next hc h0 ho).toInv
        · exact (hI.next hc h0 ho).toInv
      have hAB' : A = X e f R lo ∧ B = X e f R hi ∨ A = X e f R hi ∧ B = X e f R lo := by
        rcases hAB with ⟨rfl, rfl⟩ | ⟨rfl, rfl⟩ <;> tauto
      rw [hS] at hnext hx hd' ho
      rcases hAB' with ⟨rfl, rfl⟩ | ⟨rfl, rfl⟩
      · have hpos := hi1.mp ho
        rw [ho1] at hnext hd'
        exact ih ha hx hd' hk1 (.inl ⟨rfl, rfl⟩) hlo hpos (by linarith) (by linarith) (by linarith) gl gδ (hG _ _ gl gδ) hnext
      · have hneg := hi2.mp ho
        rw [ho2] at hnext hd'
        exact ih ha hx hd' hk2 (.inr ⟨rfl, rfl⟩) hneg hhi (by linarith) (by linarith) (by linarith) gδ gh (hG _ _ gh gδ) hnext
    · exfalso
      rw [hS] at h0 h1 h2
      have hne : δ ≠ 0 := by
        rintro rfl
        simp [X, E] at h0
      rcases hne.lt_or_gt with h3 | h3
      · have := hi2.mpr h3
        rcases hPQ with ⟨rfl, rfl⟩ | ⟨rfl, rfl⟩ <;> linarith
      · have := hi1.mpr h3
        rcases hPQ with ⟨rfl, rfl⟩ | ⟨rfl, rfl⟩ <;> linarith
end

end Mazth.GjkTouch

namespace Mazth

open Matrix GjkGeom Gjk GjkTouch Real

/-- the query on touching spheres off the axis, from the angle of the line of centres -/
theorem query_touch {s t : Sphere ℝ} {ca cb : R3} {ra rb : ℝ} (hs : s.Made ca ra) (ht : t.Made cb rb) (hR : 0 < ra + rb)
    (h : ¬(ca 1 = cb 1 ∧ ca 2 = cb 2)) (htouch : euc (ca - cb) = ra + rb) {α : ℝ} (h0 : 0 < α) (hπ : α < π)
    (hα : cos α = (ca 0 - cb 0) / (ra + rb)) (G : ℝ → Prop) (hG : ∀ x y, G x → G y → G ((x + y) / 2)) (g1 : G (-α)) (g2 : G (π - α))
    (g3 : G ((π - α) / 2)) (n : ℕ) :
    queryIntersect n (.sphere s) (.sphere t) = .error .diverge ∨
    (G 0 ∧ queryIntersect n (.sphere s) (.sphere t) = .ok (some false)) := by
  cases n with
  | zero => exact .inl (query_zero hs ht)
  | succ n =>
    have hsin : 0 < sin α := sin_pos_of_pos_of_lt_pi h0 hπ
    have hsc := sin_sq_add_cos_sq α
    have hcc : (ca - cb) ⬝ᵥ (ca - cb) = (ra + rb) ^ 2 := by rw [← euc_sq, htouch]; ring
    set R := ra + rb with hRdef
    have hc0 : (ca - cb) 0 = R * cos α := by
      rw [hα, Pi.sub_apply]; field_simp
    let x : R3 := ![1, 0, 0]
    have hxx : x ⬝ᵥ x = 1 := by simp [x]
    have hcx : (ca - cb) ⬝ᵥ x = R * cos α := by rw [← hc0, dot3]; simp [x]
    let e : R3 := (-R⁻¹) • (ca - cb)
    have hee : e ⬝ᵥ e = 1 := by
      simp only [e, smul_dotProduct, dotProduct_smul, hcc, smul_eq_mul]; field_simp
    have hex : e ⬝ᵥ x = -cos α := by
      simp only [e, smul_dotProduct, hcx, smul_eq_mul]; field_simp
    have hxe : x ⬝ᵥ e = -cos α := by rw [dotProduct_comm]; exact hex
    let f : R3 := (sin α)⁻¹ • (cos α • e + x)
    have hff : f ⬝ᵥ f = 1 := by
      simp only [f, smul_dotProduct, dotProduct_smul, add_dotProduct, dotProduct_add, hee, hxx, hex, hxe, smul_eq_mul]
      field_simp
      linarith
    have hef : e ⬝ᵥ f = 0 := by
      simp only [f, dotProduct_smul, dotProduct_add, hee, hex, smul_eq_mul]
      ring
    have hce : ca - cb = -(R • e) := by
      simp only [e, smul_smul]
      rw [mul_neg, mul_inv_cancel₀ hR.ne', neg_smul, one_smul, neg_neg]
    have hxE : x = sin α • f - cos α • e := by
      simp only [f, smul_smul]
      rw [mul_inv_cancel₀ hsin.ne']; module
    have hP : ca - cb + R • (-![1, 0, 0]) = X e f R (-α) := by
      change ca - cb + R • (-x) = _
      rw [hce, hxE]; simp only [X, E, cos_neg, sin_neg]; module
    have hQ : ca - cb + R • ![1, 0, 0] = X e f R (π - α) := by
      change ca - cb + R • x = _
      rw [hce, hxE]; simp only [X, E, cos_pi_sub, sin_pi_sub]; module
    rcases first_inv' hs ht hR h n with ⟨h1, _⟩ | ⟨p, q, d, P, Q, D, hp, hq, hd, hI, e', eP, eQ, eD⟩
    · exfalso
      rw [← hRdef, hc0] at h1
      have : cos α = -1 := by
        have := neg_one_le_cos α
        nlinarith
      rw [this] at hsc
      nlinarith
    · rw [e']
      rw [← hRdef, hP] at eP
      rw [← hRdef, hQ] at eQ
      have hX0 : X e f R 0 = 0 := by simp [X, E]
      have hD : D = (8 * R ^ 3 * (sin ((-α - 0) / 2) * sin ((π - α - 0) / 2) ^ 2 * sin ((-α - (π - α)) / 2))) • E e f ((π - α + 0) / 2) := by
        rw [← out_X hee hff hef R 0 (π - α) (-α), hX0, ← eP, ← eQ, eD, out_eq, sub_zero, sub_zero, dotProduct_comm P Q]
      have hk : 0 < 8 * R ^ 3 * (sin ((-α - 0) / 2) * sin ((π - α - 0) / 2) ^ 2 * sin ((-α - (π - α)) / 2)) := by
        have s1 : sin ((-α - 0) / 2) < 0 := sin_neg_of_neg_of_neg_pi_lt (by linarith) (by linarith)
        have s2 : 0 < sin ((π - α - 0) / 2) := sin_pos_of_pos_of_lt_pi (by linarith) (by linarith)
        have s3 : sin ((-α - (π - α)) / 2) < 0 := sin_neg_of_neg_of_neg_pi_lt (by linarith) (by linarith)
        have s4 : 0 < sin ((-α - 0) / 2) * sin ((π - α - 0) / 2) ^ 2 * sin ((-α - (π - α)) / 2) :=
          mul_pos_of_neg_of_neg (mul_neg_of_neg_of_pos s1 (by positivity)) s3
        positivity
      rw [add_zero] at hD
      rw [hD] at hd hI
      exact loop_touch hee hff hef hs ht hR hRdef.symm hce (dot_self_cross _ _) G hG n hp hq hd hk (.inl ⟨eP, eQ⟩) (by linarith)
        (by linarith) (by linarith) (by linarith) (by linarith) g1 g2 g3 hI

/-- the angle between the line of centres and the x-axis -/
theorem touch_angle {c : R3} (h : ¬(c 1 = 0 ∧ c 2 = 0)) :
    0 < arccos (c 0 / euc c) ∧ arccos (c 0 / euc c) < π ∧ cos (arccos (c 0 / euc c)) = c 0 / euc c := by
  have h1 : c 0 ^ 2 < euc c * euc c := by
    rw [euc_sq, dot3]
    have : 0 < c 1 * c 1 + c 2 * c 2 := by
      rcases not_and_or.mp h with h | h
      · have := mul_self_pos.mpr h; nlinarith [mul_self_nonneg (c 2)]
      · have := mul_self_pos.mpr h; nlinarith [mul_self_nonneg (c 1)]
    nlinarith
  have h2 : 0 < euc c := by
    have := euc_nonneg c
    rcases this.lt_or_eq with h | h
    · exact h
    · rw [← h] at h1; nlinarith [sq_nonneg (c 0)]
  have h3 := abs_lt_of_sq_lt_sq (a := c 0) (h1.trans_eq (sq (euc c)).symm) h2.le
  obtain ⟨h4, h5⟩ := abs_lt.mp h3
  have h6 : c 0 / euc c < 1 := by rw [div_lt_one h2]; exact h5
  have h7 : -1 < c 0 / euc c := by rw [lt_div_iff₀ h2]; linarith
  exact ⟨arccos_pos.mpr h6, lt_of_le_of_ne (arccos_le_pi _) (fun e => absurd (arccos_eq_pi.mp e) (not_le.mpr h7)), cos_arccos h7.le h6.le⟩

/-- C52: on two *touching* spheres whose centres do not lie on a line parallel to the x-axis, the query never answers
`Some(true)`: it answers `Some(false)` or goes on for ever. -/
theorem C52_touching (s t : Sphere ℝ) (ca cb : R3) (ra rb : ℝ) (hs : s.Made ca ra) (ht : t.Made cb rb) (hR : 0 < ra + rb)
    (h : ¬(ca 1 = cb 1 ∧ ca 2 = cb 2)) (htouch : euc (ca - cb) = ra + rb) (n : ℕ) :
    queryIntersect n (.sphere s) (.sphere t) = .error .diverge ∨ queryIntersect n (.sphere s) (.sphere t) = .ok (some false) := by
  obtain ⟨h1, h2, h3⟩ := touch_angle (c := ca - cb) (by simpa [sub_eq_zero] using h)
  rcases query_touch hs ht hR h htouch h1 h2 (by rw [h3, htouch]; rfl) (fun _ => True) (fun _ _ _ _ => trivial) trivial trivial trivial n
    with e | ⟨_, e⟩
  · exact .inl e
  · exact .inr e

/-- the spheres with centres `(3, 4, 0)` and the origin and radii 2 and 3 -/
example (s t : Sphere ℝ) (hs : s.Made ![3, 4, 0] 2) (ht : t.Made ![0, 0, 0] 3) (n : ℕ) :=
  C52_touching s t ![3, 4, 0] ![0, 0, 0] 2 3 hs ht (by norm_num) (by simp)
    (by
      have h := euc_sq (![3, 4, 0] - ![0, 0, 0])
      have h0 := euc_nonneg (![3, 4, 0] - ![0, 0, 0])
      simp only [dot3, Pi.sub_apply, Matrix.cons_val_zero, Matrix.cons_val_one, Matrix.cons_val] at h
      nlinarith) n

/-- C52 fails: on two touching spheres the query does not return, whenever the angle between the line of centres and the
x-axis is an irrational multiple of `π`. -/
theorem C52_touching_false (s t : Sphere ℝ) (ca cb : R3) (ra rb : ℝ) (hs : s.Made ca ra) (ht : t.Made cb rb) (hR : 0 < ra + rb)
    (htouch : euc (ca - cb) = ra + rb) (hirr : ∀ r : ℚ, arccos ((ca 0 - cb 0) / (ra + rb)) ≠ r * π) (n : ℕ) :
    queryIntersect n (.sphere s) (.sphere t) = .error .diverge := by
  have h : ¬(ca 1 = cb 1 ∧ ca 2 = cb 2) := by
    rintro ⟨h1, h2⟩
    have h3 : euc (ca - cb) = |ca 0 - cb 0| := by
      have h4 := euc_sq (ca - cb)
      rw [dot3, Pi.sub_apply, Pi.sub_apply, Pi.sub_apply, h1, h2] at h4
      rw [← abs_of_nonneg (euc_nonneg (ca - cb)), ← sq_eq_sq_iff_abs_eq_abs]
      nlinarith
    rw [htouch] at h3
    rcases abs_choice (ca 0 - cb 0) with h4 | h4
    · rw [h4] at h3
      exact hirr 0 (by rw [← h3, div_self hR.ne', arccos_one]; simp)
    · rw [h4] at h3
      exact hirr 1 (by rw [show ca 0 - cb 0 = -(ra + rb) by linarith, neg_div, div_self hR.ne', arccos_neg_one]; simp)
  obtain ⟨h1, h2, h3⟩ := touch_angle (c := ca - cb) (by simpa [sub_eq_zero] using h)
  rw [htouch, Pi.sub_apply] at h1 h2 h3
  generalize arccos ((ca 0 - cb 0) / (ra + rb)) = α at *
  refine (query_touch hs ht hR h htouch h1 h2 h3 (fun θ => ∃ x y : ℚ, x < 0 ∧ θ = x * α + y * π) ?_ ⟨-1, 0, by norm_num, by simp⟩
    ⟨-1, 1, by norm_num, by push_cast; ring⟩ ⟨-1 / 2, 1 / 2, by norm_num, by push_cast; ring⟩ n).resolve_right ?_
  · rintro θ φ ⟨x, y, hx, rfl⟩ ⟨x', y', hx', rfl⟩
    exact ⟨(x + x') / 2, (y + y') / 2, by linarith, by push_cast; ring⟩
  · rintro ⟨⟨x, y, hx, e⟩, _⟩
    refine hirr (-y / x) ?_
    have hx' : (x : ℝ) ≠ 0 := by exact_mod_cast hx.ne
    push_cast
    field_simp
    linarith

/-- C52, non-vacuity of `C52_touching_false`: the spheres with centres (3, 4, 0) and the origin and radii 2 and 3. -/
example (s t : Sphere ℝ) (hs : s.Made ![3, 4, 0] 2) (ht : t.Made ![0, 0, 0] 3) (n : ℕ) :
    queryIntersect n (.sphere s) (.sphere t) = .error .diverge ∧ (ballPts ![3, 4, 0] 2 ∩ ballPts ![0, 0, 0] 3).Nonempty := by
  have he : euc (![3, 4, 0] - ![0, 0, 0]) = 5 := by
    have h := euc_sq (![3, 4, 0] - ![0, 0, 0])
    have h0 := euc_nonneg (![3, 4, 0] - ![0, 0, 0])
    simp only [dot3, Pi.sub_apply, Matrix.cons_val_zero, Matrix.cons_val_one, Matrix.cons_val] at h
    nlinarith
  refine ⟨C52_touching_false s t _ _ 2 3 hs ht (by norm_num) (by rw [he]; norm_num) ?_ n, ?_⟩
  · intro r hr
    have hv : ((![3, 4, 0] : R3) 0 - (![0, 0, 0] : R3) 0) / (2 + 3) = 3 / 5 := by norm_num
    rw [hv] at hr
    have hcos : cos (arccos (3 / 5)) = 3 / 5 := cos_arccos (by norm_num) (by norm_num)
    have := niven ⟨r, hr⟩ ⟨3 / 5, by rw [hcos]; push_cast; rfl⟩
    rw [hcos] at this
    norm_num at this
  · exact (balls_meet (by norm_num) (by norm_num)).mpr (by rw [euc_sub_comm, he]; norm_num)

/-! ### binary64 -/

/-- `2 ^ 200`, `2 ^ -60`, `2 ^ -180` and `2 ^ -181` -/
def big200 : Q64 := ((2 : ℚ) ^ (200 : ℕ) : ℚ)
def tiny60 : Q64 := (1 / (2 : ℚ) ^ (60 : ℕ) : ℚ)
def tiny180 : Q64 := (1 / (2 : ℚ) ^ (180 : ℕ) : ℚ)
def tiny181 : Q64 := (1 / (2 : ℚ) ^ (181 : ℕ) : ℚ)

/-- C52 fails in binary64: two disjoint spheres, off the axis and at ordinary distance, are reported as intersecting
because their radii are lost to rounding; the sphere–sphere query of `get_intersect` reports them as disjoint. -/
theorem C52_f64_absorbed_false : ∃ (a b : Sphere Q64),
    Sphere.init [1, 1, 0] (.fin tiny60) = .ok a ∧ Sphere.init [0, 0, 0] (.fin tiny60) = .ok b ∧
    queryIntersect 1 (.sphere a) (.sphere b) = .ok (some true) ∧ (Shape.sphere a).getIntersect 10 (.sphere b) = .ok (false, none) :=
  ⟨_, _, rfl, rfl, by decide +kernel, by decide +kernel⟩

/-- C52 fails in binary64: two overlapping spheres are reported as disjoint because intermediate results overflow; the
sphere–sphere query of `get_intersect` reports the intersection. -/
theorem C52_f64_overflow_false : ∃ (a b : Sphere Q64),
    Sphere.init [.fin big200, .fin big200, 0] (.fin big200) = .ok a ∧ Sphere.init [0, 0, 0] (.fin big200) = .ok b ∧
    queryIntersect 5 (.sphere a) (.sphere b) = .ok (some false) ∧ ((Shape.sphere a).getIntersect 10 (.sphere b)).map (·.1) = .ok true :=
  ⟨_, _, rfl, rfl, by decide +kernel, by decide +kernel⟩

/-- C52 fails in binary64: the query panics on two spheres (`None.unwrap()` in the loop) because a search direction
underflows to zero. -/
theorem C52_f64_panic_false : ∃ (a b : Sphere Q64),
    Sphere.init [.fin tiny180, .fin (2 * tiny180), 0] (.fin tiny181) = .ok a ∧ Sphere.init [0, 0, 0] (.fin tiny181) = .ok b ∧
    queryIntersect 5 (.sphere a) (.sphere b) = .error .unwrapNone :=
  ⟨_, _, rfl, rfl, by decide +kernel⟩

end Mazth
