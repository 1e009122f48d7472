import Verif.Props.Support

/-!
# Plane geometry behind the GJK loop on two spheres

The Minkowski difference of two balls is a ball with centre `c` and radius `R`.  All points the loop visits lie on its
boundary and in the plane through the origin spanned by `c` and the first direction; `m` is a normal of that plane.
No floats here.
-/

set_option linter.unusedSectionVars false
set_option autoImplicit false

namespace Mazth.GjkGeom

open Matrix

/-- three vectors orthogonal to a non-zero vector are linearly dependent -/
theorem plane_det {m a b c : R3} (hm : m ≠ 0) (ha : a ⬝ᵥ m = 0) (hb : b ⬝ᵥ m = 0) (hc : c ⬝ᵥ m = 0) : a ⬝ᵥ (b ⨯₃ c) = 0 := by
  have h : (a ⬝ᵥ (b ⨯₃ c)) • m = (a ⬝ᵥ m) • (b ⨯₃ c) + (b ⬝ᵥ m) • (c ⨯₃ a) + (c ⬝ᵥ m) • (a ⨯₃ b) := by
    ext i
    fin_cases i <;> simp [cross_apply, dotProduct, Fin.sum_univ_three] <;> ring
  rw [ha, hb, hc] at h
  simp only [zero_smul, add_zero] at h
  exact (smul_eq_zero.mp h).resolve_right hm

theorem gram_eq (a b c : R3) : (a ⬝ᵥ (b ⨯₃ c)) ^ 2 = (a ⬝ᵥ a) * (b ⬝ᵥ b) * (c ⬝ᵥ c) + 2 * (a ⬝ᵥ b) * (b ⬝ᵥ c) * (a ⬝ᵥ c)
    - (a ⬝ᵥ a) * (b ⬝ᵥ c) ^ 2 - (b ⬝ᵥ b) * (a ⬝ᵥ c) ^ 2 - (c ⬝ᵥ c) * (a ⬝ᵥ b) ^ 2 := by
  simp only [dot3, cross_apply, Matrix.cons_val_zero, Matrix.cons_val_one, Matrix.cons_val]; ring

/-- the Gram determinant of three coplanar vectors -/
theorem gram {m a b c : R3} (hm : m ≠ 0) (ha : a ⬝ᵥ m = 0) (hb : b ⬝ᵥ m = 0) (hc : c ⬝ᵥ m = 0) :
    (a ⬝ᵥ a) * (b ⬝ᵥ b) * (c ⬝ᵥ c) + 2 * (a ⬝ᵥ b) * (b ⬝ᵥ c) * (a ⬝ᵥ c)
    - (a ⬝ᵥ a) * (b ⬝ᵥ c) ^ 2 - (b ⬝ᵥ b) * (a ⬝ᵥ c) ^ 2 - (c ⬝ᵥ c) * (a ⬝ᵥ b) ^ 2 = 0 := by
  rw [← gram_eq, plane_det hm ha hb hc]; ring

theorem dot_self_eq_zero {u : R3} (h : u ⬝ᵥ u = 0) : u = 0 := by
  rw [← euc_sq, mul_self_eq_zero, euc_eq_zero] at h; exact h

/-- the point of the ball furthest along `d` -/
noncomputable def sup (c : R3) (R : ℝ) (d : R3) : R3 := c + R • unit d

theorem unit_dot {d : R3} (hd : d ≠ 0) : unit d ⬝ᵥ unit d = 1 := unit_of hd

theorem unit_dot_right (a : R3) (d : R3) : a ⬝ᵥ unit d = (euc d)⁻¹ * (a ⬝ᵥ d) := by
  rw [dotProduct_smul]; rfl

/-- outward normal of the edge from `s` to `q`, away from `p` (the code's `ab_normal`, `ac_normal`) -/
def out (s q p : R3) : R3 := ((p - s) ⨯₃ (q - s)) ⨯₃ (q - s)

theorem out_eq (s q p : R3) : out s q p = ((p - s) ⬝ᵥ (q - s)) • (q - s) - ((q - s) ⬝ᵥ (q - s)) • (p - s) := by
  unfold out
  generalize p - s = a
  generalize q - s = b
  ext i
  fin_cases i <;> simp [cross_apply, dotProduct, Fin.sum_univ_three] <;> ring

/-- a two-point simplex on the circle with a search direction -/
structure Inv (c m : R3) (R : ℝ) (p q d : R3) : Prop where
  hp : (p - c) ⬝ᵥ (p - c) = R ^ 2
  hq : (q - c) ⬝ᵥ (q - c) = R ^ 2
  ne : p ≠ q
  pm : p ⬝ᵥ m = 0
  qm : q ⬝ᵥ m = 0
  dm : d ⬝ᵥ m = 0
  d0 : d ≠ 0
  pd : p ⬝ᵥ d ≤ 0
  qd : q ⬝ᵥ d ≤ 0

/-- … whose direction is the normal of the edge, with the origin strictly outside -/
structure Edge (c m : R3) (R : ℝ) (p q d : R3) : Prop extends Inv c m R p q d where
  eq : p ⬝ᵥ d = q ⬝ᵥ d
  neg : p ⬝ᵥ d < 0

theorem Inv.symm {c m : R3} {R : ℝ} {p q d : R3} (h : Inv c m R p q d) : Inv c m R q p d :=
  ⟨h.hq, h.hp, h.ne.symm, h.qm, h.pm, h.dm, h.d0, h.qd, h.pd⟩

theorem Edge.symm {c m : R3} {R : ℝ} {p q d : R3} (h : Edge c m R p q d) : Edge c m R q p d :=
  ⟨h.toInv.symm, h.eq.symm, h.eq ▸ h.neg⟩

variable {c m p q d : R3} {R : ℝ}

theorem sup_on (hd : d ≠ 0) : (sup c R d - c) ⬝ᵥ (sup c R d - c) = R ^ 2 := by
  unfold sup
  rw [add_sub_cancel_left, smul_dotProduct, dotProduct_smul, unit_dot hd]
  simp [sq]

theorem sup_m (hc : c ⬝ᵥ m = 0) (hd : d ⬝ᵥ m = 0) : sup c R d ⬝ᵥ m = 0 := by
  unfold sup
  rw [add_dotProduct, smul_dotProduct, smul_dotProduct, hc, hd]; simp

theorem sup_dot (hd : d ≠ 0) : sup c R d ⬝ᵥ d = c ⬝ᵥ d + R * euc d := by
  unfold sup
  rw [add_dotProduct, smul_dotProduct, smul_dotProduct, ← euc_sq]
  have := (euc_pos hd).ne'
  simp only [smul_eq_mul]
  field_simp

theorem Inv.ne_sup (h : Inv c m R p q d) (hs : 0 < sup c R d ⬝ᵥ d) : p ≠ sup c R d := by
  intro e
  rw [← e] at hs
  exact absurd hs (not_lt.mpr h.pd)

/-- a failed pass test separates the origin from the open ball -/
theorem far_of_not_pass (hd : d ≠ 0) (hs : sup c R d ⬝ᵥ d ≤ 0) : R ≤ euc c := by
  rw [sup_dot hd] at hs
  have h1 := (neg_le_abs _).trans (abs_dot_le c d)
  have h2 := euc_pos hd
  nlinarith

/-- leaving through an edge of the triangle gives an edge again -/
theorem Inv.next (h : Inv c m R p q d) (hc : c ⬝ᵥ m = 0) (hs : 0 < sup c R d ⬝ᵥ d)
    (ho : 0 < out (sup c R d) q p ⬝ᵥ (-sup c R d)) : Edge c m R q (sup c R d) (out (sup c R d) q p) := by
  have hm := sup_m (R := R) hc h.dm
  have hon := sup_on (c := c) (R := R) h.d0
  have hne := h.symm.ne_sup hs
  generalize sup c R d = s at *
  have hperp : (q - s) ⬝ᵥ out s q p = 0 := by
    rw [out_eq, dotProduct_sub, dotProduct_smul, dotProduct_smul, dotProduct_comm (q - s) (p - s)]
    simp only [smul_eq_mul]; ring
  have heq : q ⬝ᵥ out s q p = s ⬝ᵥ out s q p := by rw [sub_dotProduct] at hperp; linarith
  have hneg : s ⬝ᵥ out s q p < 0 := by
    rw [dotProduct_neg, dotProduct_comm] at ho; linarith
  refine ⟨⟨h.hq, hon, hne, h.qm, hm, ?_, ?_, heq ▸ hneg.le, hneg.le⟩, heq, heq ▸ hneg⟩
  · have h1 : (q - s) ⬝ᵥ m = 0 := by rw [sub_dotProduct, h.qm, hm, sub_zero]
    have h2 : (p - s) ⬝ᵥ m = 0 := by rw [sub_dotProduct, h.pm, hm, sub_zero]
    rw [out_eq, sub_dotProduct, smul_dotProduct, smul_dotProduct, h1, h2]; simp
  · intro e; rw [e] at ho; simp at ho

/-- three distinct points of a sphere are not collinear -/
theorem not_collinear {s : R3} (hp : (p - c) ⬝ᵥ (p - c) = R ^ 2) (hq : (q - c) ⬝ᵥ (q - c) = R ^ 2)
    (hs : (s - c) ⬝ᵥ (s - c) = R ^ 2) (hpq : p ≠ q) (hps : p ≠ s) (hqs : q ≠ s) : (q - s) ⨯₃ (p - s) ≠ 0 := by
  intro h
  set a := q - s with ha
  set b := p - s with hb
  set x := s - c with hx
  have ea : q - c = x + (1 : ℝ) • a := by rw [ha, hx]; module
  have eb : p - c = x + (1 : ℝ) • b := by rw [hb, hx]; module
  rw [eb, dot_expand, hs] at hp
  rw [ea, dot_expand, hs] at hq
  have ha0 : a ⬝ᵥ a ≠ 0 := fun e => hqs (sub_eq_zero.mp (dot_self_eq_zero e))
  have hlag : (a ⬝ᵥ a) • b = (a ⬝ᵥ b) • a := by
    have : a ⨯₃ (a ⨯₃ b) = (a ⬝ᵥ b) • a - (a ⬝ᵥ a) • b := by
      ext i
      fin_cases i <;> simp [cross_apply, dotProduct, Fin.sum_univ_three] <;> ring
    rw [h, map_zero] at this
    exact (sub_eq_zero.mp this.symm).symm
  obtain ⟨t, ht⟩ : ∃ t : ℝ, b = t • a := ⟨(a ⬝ᵥ b) / (a ⬝ᵥ a), by
    rw [div_eq_inv_mul, mul_smul, ← hlag, smul_smul, inv_mul_cancel₀ ha0, one_smul]⟩
  rw [ht, dotProduct_smul, smul_dotProduct, dotProduct_smul] at hp
  simp only [smul_eq_mul] at hp
  have : t * (t - 1) * (a ⬝ᵥ a) = 0 := by linear_combination hp - t * hq
  rcases mul_eq_zero.mp this with h1 | h1
  · rcases mul_eq_zero.mp h1 with h2 | h2
    · rw [h2, zero_smul] at ht
      exact hps (sub_eq_zero.mp ht)
    · rw [sub_eq_zero.mp h2, one_smul] at ht
      exact hpq (sub_left_injective ht)
  · exact ha0 h1

/-- the origin beyond neither edge at the new point: it lies in the triangle, so in the ball -/
theorem Inv.inside (h : Inv c m R p q d) (hm0 : m ≠ 0) (hR : 0 ≤ R) (hc : c ⬝ᵥ m = 0) (hs : 0 < sup c R d ⬝ᵥ d)
    (h1 : out (sup c R d) q p ⬝ᵥ (-sup c R d) ≤ 0) (h2 : out (sup c R d) p q ⬝ᵥ (-sup c R d) ≤ 0) : euc c ≤ R := by
  have hsm := sup_m (R := R) hc h.dm
  have hon := sup_on (c := c) (R := R) h.d0
  have hN := not_collinear h.hp h.hq hon h.ne (h.ne_sup hs) (h.symm.ne_sup hs)
  generalize sup c R d = s at *
  have hB := cross_basis (q - s) (p - s) (-s)
  have e1 : out s q p = (q - s) ⨯₃ ((q - s) ⨯₃ (p - s)) := by
    unfold out; rw [← cross_anticomm, ← cross_anticomm (q - s) (p - s), map_neg, neg_neg]
  have e2 : out s p q = -((p - s) ⨯₃ ((q - s) ⨯₃ (p - s))) := by
    unfold out; rw [cross_anticomm]
  have hdet : (-s) ⬝ᵥ ((q - s) ⨯₃ (p - s)) = 0 := by
    apply plane_det hm0
    · rw [neg_dotProduct, hsm, neg_zero]
    · rw [sub_dotProduct, h.qm, hsm, sub_zero]
    · rw [sub_dotProduct, h.pm, hsm, sub_zero]
  rw [e1, dotProduct_comm] at h1
  rw [e2, neg_dotProduct, dotProduct_comm] at h2
  rw [hdet, zero_smul, add_zero] at hB
  set D := ((q - s) ⨯₃ (p - s)) ⬝ᵥ ((q - s) ⨯₃ (p - s)) with hD
  have hDpos : 0 < D := by
    rw [hD, ← euc_sq]; have := euc_pos hN; positivity
  set l := (-s) ⬝ᵥ ((p - s) ⨯₃ ((q - s) ⨯₃ (p - s))) with hl
  set k := -((-s) ⬝ᵥ ((q - s) ⨯₃ ((q - s) ⨯₃ (p - s)))) with hk
  have hl0 : 0 ≤ l := by linarith
  have hk0 : 0 ≤ k := by linarith
  -- inner product with the direction bounds the weights
  have hdir := congrArg (· ⬝ᵥ d) hB
  simp only [smul_dotProduct, add_dotProduct, neg_dotProduct, sub_dotProduct, smul_eq_mul] at hdir
  have hw : l + k ≤ D := by
    have := h.pd; have := h.qd
    by_contra hlt
    rw [not_le] at hlt
    nlinarith [mul_nonneg hl0 (neg_nonneg.mpr h.qd), mul_nonneg hk0 (neg_nonneg.mpr h.pd), mul_pos (sub_pos.mpr hlt) hs]
  -- convex combination
  have hcomb : D • (-c) = (D - l - k) • (s - c) + l • (q - c) + k • (p - c) := by
    have : D • (-c) = D • (-s) + D • (s - c) := by module
    rw [this, hB]; module
  have hball (x : R3) (hx : (x - c) ⬝ᵥ (x - c) = R ^ 2) : euc (x - c) = R := by
    have := euc_sq (x - c)
    rw [hx, ← sq] at this
    exact (sq_eq_sq₀ (euc_nonneg _) hR).mp this
  have hfin : D * euc c ≤ D * R := by
    calc D * euc c = euc (D • (-c)) := by
          rw [euc_smul, abs_of_pos hDpos, show -c = (-1 : ℝ) • c by simp, euc_smul]; simp
      _ ≤ euc ((D - l - k) • (s - c)) + euc (l • (q - c)) + euc (k • (p - c)) := by
          rw [hcomb]
          exact (euc_add_le _ _).trans (add_le_add_left (euc_add_le _ _) _)
      _ = D * R := by
          rw [euc_smul, euc_smul, euc_smul, hball _ hon, hball _ h.hq, hball _ h.hp, abs_of_nonneg hl0, abs_of_nonneg hk0,
            abs_of_nonneg (by linarith)]
          ring
  exact le_of_mul_le_mul_left hfin hDpos

/-! ## Termination measure -/

/-- height of the circular segment cut off by the edge, on the side of `d` -/
noncomputable def sag (c : R3) (R : ℝ) (p d : R3) : ℝ := R - (p - c) ⬝ᵥ unit d

theorem on_euc {x : R3} (hR : 0 ≤ R) (hx : (x - c) ⬝ᵥ (x - c) = R ^ 2) : euc (x - c) = R := by
  have := euc_sq (x - c)
  rw [hx, ← sq] at this
  exact (sq_eq_sq₀ (euc_nonneg _) hR).mp this

theorem Inv.dot_unit (h : Inv c m R p q d) (hR : 0 ≤ R) : |(p - c) ⬝ᵥ unit d| ≤ R := by
  have := abs_dot_le (p - c) (unit d)
  rwa [euc_unit h.d0, mul_one, on_euc hR h.hp] at this

theorem Inv.sag_nonneg (h : Inv c m R p q d) (hR : 0 ≤ R) : 0 ≤ sag c R p d := by
  have := abs_le.mp (h.dot_unit hR); unfold sag; linarith

theorem Inv.sag_le (h : Inv c m R p q d) (hR : 0 ≤ R) : sag c R p d ≤ 2 * R := by
  have := abs_le.mp (h.dot_unit hR); unfold sag; linarith

theorem unit_mul (hd : d ≠ 0) (x : R3) : x ⬝ᵥ d = euc d * (x ⬝ᵥ unit d) := by
  rw [unit_dot_right, ← mul_assoc, mul_inv_cancel₀ (euc_pos hd).ne', one_mul]

theorem Edge.unit_neg (h : Edge c m R p q d) : p ⬝ᵥ unit d < 0 := by
  have := h.neg; rw [unit_mul h.d0] at this
  exact (pos_iff_neg_of_mul_neg this).mp (euc_pos h.d0)

theorem Edge.unit_eq (h : Edge c m R p q d) : q ⬝ᵥ unit d = p ⬝ᵥ unit d := by
  rw [unit_dot_right, unit_dot_right, h.eq]

/-- the turn between successive directions: with `γ` its cosine, `sag' = R (1 - γ)` and `sag = 2R (1 - γ²)`, `γ ≥ 0` -/
theorem Edge.turn (h : Edge c m R p q d) (hm0 : m ≠ 0) (hR : 0 < R) (hc : c ⬝ᵥ m = 0) (hs : 0 < sup c R d ⬝ᵥ d)
    (ho : 0 < out (sup c R d) q p ⬝ᵥ (-sup c R d)) :
    ∃ γ : ℝ, unit d ⬝ᵥ unit (out (sup c R d) q p) = γ ∧ 0 ≤ γ ∧ γ ≤ 1 ∧ sag c R q (out (sup c R d) q p) = R * (1 - γ) ∧
      sag c R p d = 2 * R * (1 - γ ^ 2) ∧ 0 < sag c R p d := by
  have hE := h.toInv.next hc hs ho
  have hsag0 := h.toInv.sag_nonneg hR.le
  set s := sup c R d with hsdef
  set n := unit d with hn
  set o := out s q p with hodef
  set n' := unit o with hn'
  have hnn : n ⬝ᵥ n = 1 := unit_dot h.d0
  have hnn' : n' ⬝ᵥ n' = 1 := unit_dot hE.d0
  have hsc : s - c = R • n := by rw [hsdef, sup, add_sub_cancel_left]
  have hnm : n ⬝ᵥ m = 0 := by rw [hn, smul_dotProduct, h.dm]; simp
  have hnm' : n' ⬝ᵥ m = 0 := by rw [hn', smul_dotProduct, hE.dm]; simp
  have hxm : (q - c) ⬝ᵥ m = 0 := by rw [sub_dotProduct, h.qm, hc, sub_zero]
  -- both end points at the same level
  have hpn : (p - c) ⬝ᵥ n = R - sag c R p d := by unfold sag; rw [← hn]; ring
  have hqn : (q - c) ⬝ᵥ n = R - sag c R p d := by
    rw [← hpn, sub_dotProduct, sub_dotProduct, hn, h.unit_eq]
  -- the new level
  have hqn' : (q - c) ⬝ᵥ n' = R * (n ⬝ᵥ n') := by
    have h1 : (q - c) ⬝ᵥ n' = (s - c) ⬝ᵥ n' := by
      rw [sub_dotProduct, sub_dotProduct, hE.unit_eq]
    rw [h1, hsc, smul_dotProduct]; rfl
  have hsag : 0 < sag c R p d := by
    rcases hsag0.lt_or_eq with h1 | h1
    · exact h1
    · exfalso
      rw [← h1, sub_zero] at hqn
      have : (q - s) ⬝ᵥ (q - s) = 0 := by
        have e : q - s = (q - c) + (-R) • n := by
          rw [show q - s = (q - c) - (s - c) by abel, hsc]; module
        rw [e, dot_expand, h.hq, hqn, hnn]; ring
      exact hE.ne (sub_eq_zero.mp (dot_self_eq_zero this))
  have hγ : 0 ≤ n ⬝ᵥ n' := by
    have key : n ⬝ᵥ o = sag c R p d * ((q - s) ⬝ᵥ (q - p)) := by
      have h1 : (q - s) ⬝ᵥ n = -sag c R p d := by
        rw [show q - s = (q - c) - (s - c) by abel, sub_dotProduct, hqn, hsc, smul_dotProduct, hnn]; simp
      have h2 : (p - s) ⬝ᵥ n = -sag c R p d := by
        rw [show p - s = (p - c) - (s - c) by abel, sub_dotProduct, hpn, hsc, smul_dotProduct, hnn]; simp
      rw [hodef, out_eq, dotProduct_sub, dotProduct_smul, dotProduct_smul, dotProduct_comm n, dotProduct_comm n, h1, h2]
      have e : (q - s) ⬝ᵥ (q - p) = (q - s) ⬝ᵥ (q - s) - (p - s) ⬝ᵥ (q - s) := by
        rw [← sub_dotProduct, dotProduct_comm]; congr 1; abel
      rw [e]
      simp only [smul_eq_mul]; ring
    have iso : (q - s) ⬝ᵥ (q - p) = (q - p) ⬝ᵥ (q - p) / 2 := by
      have hp := h.hp
      have hq := h.hq
      have e1 : (q - s) ⬝ᵥ (q - s) = 2 * R * sag c R p d := by
        have e : q - s = (q - c) + (-R) • n := by
          rw [show q - s = (q - c) - (s - c) by abel, hsc]; module
        rw [e, dot_expand, hq, hqn, hnn]; ring
      have e2 : (p - s) ⬝ᵥ (p - s) = 2 * R * sag c R p d := by
        have e : p - s = (p - c) + (-R) • n := by
          rw [show p - s = (p - c) - (s - c) by abel, hsc]; module
        rw [e, dot_expand, hp, hpn, hnn]; ring
      have e3 : q - p = (q - s) + (-1 : ℝ) • (p - s) := by module
      rw [e3, dot_expand, e1, e2, dotProduct_add, dotProduct_smul, e1]
      simp only [smul_eq_mul]; ring
    rw [hn', unit_dot_right, key, iso, ← euc_sq]
    have := euc_pos hE.d0
    have := euc_nonneg (q - p)
    positivity
  have hγ1 : n ⬝ᵥ n' ≤ 1 := by
    have := (le_abs_self _).trans (abs_dot_le n n')
    rwa [hn, hn', euc_unit h.d0, euc_unit hE.d0, one_mul, ← hn, ← hn'] at this
  refine ⟨n ⬝ᵥ n', rfl, hγ, hγ1, ?_, ?_, hsag⟩
  · unfold sag; rw [← hn', hqn']; ring
  · have hg := gram hm0 hxm hnm hnm'
    rw [h.hq, hnn, hnn', hqn, hqn'] at hg
    have : sag c R p d * (sag c R p d - 2 * R * (1 - (n ⬝ᵥ n') ^ 2)) = 0 := by linear_combination -hg
    have := (mul_eq_zero.mp this).resolve_left hsag.ne'
    linarith

/-- the segment height at least halves -/
theorem Edge.halve (h : Edge c m R p q d) (hm0 : m ≠ 0) (hR : 0 < R) (hc : c ⬝ᵥ m = 0) (hs : 0 < sup c R d ⬝ᵥ d)
    (ho : 0 < out (sup c R d) q p ⬝ᵥ (-sup c R d)) : sag c R q (out (sup c R d) q p) ≤ sag c R p d / 2 := by
  obtain ⟨γ, -, h0, h1, e1, e2, -⟩ := h.turn hm0 hR hc hs ho
  rw [e1, e2]
  nlinarith [mul_nonneg hR.le (mul_nonneg h0 (sub_nonneg.mpr h1))]

/-- overlapping balls: the segment contains the origin well inside -/
theorem Edge.sag_gt (h : Edge c m R p q d) : R - euc c < sag c R p d := by
  have h1 := h.unit_neg
  have h2 := (neg_le_abs _).trans (abs_dot_le c (unit d))
  rw [euc_unit h.d0, mul_one] at h2
  unfold sag
  rw [sub_dotProduct]; linarith

/-- the pass test bounds the distance of the tangent from the origin -/
theorem Edge.pass (h : Edge c m R p q d) (hs : 0 < sup c R d ⬝ᵥ d) :
    0 < c ⬝ᵥ unit d + R ∧ c ⬝ᵥ unit d + R < sag c R p d := by
  constructor
  · rw [sup_dot h.d0, unit_mul h.d0, mul_comm R, ← mul_add] at hs
    exact (pos_iff_pos_of_mul_pos hs).mp (euc_pos h.d0)
  · have := h.unit_neg
    unfold sag; rw [sub_dotProduct]; linarith

/-- disjoint balls: once the segment is small, the pass test cannot succeed twice in a row -/
theorem Edge.twice (h : Edge c m R p q d) (hm0 : m ≠ 0) (hR : 0 < R) (hc : c ⬝ᵥ m = 0) (hs : 0 < sup c R d ⬝ᵥ d)
    (ho : 0 < out (sup c R d) q p ⬝ᵥ (-sup c R d)) (hs' : 0 < sup c R (out (sup c R d) q p) ⬝ᵥ (out (sup c R d) q p))
    (h1 : sag c R p d ≤ R) : euc c ^ 2 - R ^ 2 ≤ 3 * R * sag c R p d := by
  have hE := h.toInv.next hc hs ho
  obtain ⟨a1, a2⟩ := h.pass hs
  obtain ⟨b1, b2⟩ := hE.pass hs'
  have hhalf := h.halve hm0 hR hc hs ho
  obtain ⟨γ, e0, g0, g1, e1, e2, hpos⟩ := h.turn hm0 hR hc hs ho
  have hnm : unit d ⬝ᵥ m = 0 := by rw [smul_dotProduct, h.dm]; simp
  have hnm' : unit (out (sup c R d) q p) ⬝ᵥ m = 0 := by rw [smul_dotProduct, hE.dm]; simp
  have hg := gram hm0 hc hnm hnm'
  rw [unit_dot h.d0, unit_dot hE.d0, e0, ← euc_sq, ← sq] at hg
  generalize c ⬝ᵥ unit d = A at *
  generalize c ⬝ᵥ unit (out (sup c R d) q p) = B at *
  generalize sag c R p d = S at *
  generalize sag c R q (out (sup c R d) q p) = S' at *
  generalize euc c = E at *
  have hAB : A * B ≤ R ^ 2 := by nlinarith
  have hdiff : (A - B) ^ 2 ≤ S ^ 2 := by
    apply sq_le_sq'
    · linarith
    · linarith
  have hE2 : E ^ 2 * (1 - γ ^ 2) = (A - B) ^ 2 + 2 * (1 - γ) * (A * B) := by linear_combination hg
  have hS' : S' ^ 2 ≤ S ^ 2 / 4 := by
    have : 0 ≤ S' := by rw [e1]; exact mul_nonneg hR.le (by linarith)
    nlinarith
  have hL : (E ^ 2 - R ^ 2) * (1 - γ ^ 2) ≤ S ^ 2 + S' ^ 2 := by
    rw [e1]
    nlinarith [mul_nonneg (sub_nonneg.mpr g1) (sub_nonneg.mpr hAB)]
  have : (E ^ 2 - R ^ 2) * S ≤ (3 * R * S) * S := by
    have h3 : (E ^ 2 - R ^ 2) * S = 2 * R * ((E ^ 2 - R ^ 2) * (1 - γ ^ 2)) := by rw [e2]; ring
    rw [h3]
    nlinarith
  exact le_of_mul_le_mul_right this hpos

end Mazth.GjkGeom
