import Verif.Props.FloatRayPlane

/-!
# C66: the ray-sphere query in floating point

Let `b` be the exact projection of `o - c` on the direction, `D` the exact discriminant, and `t₁ = -b - √D ≤ t₂ = -b + √D` the
parameters where the line enters and leaves the ball.  With coordinates and radius up to `M`, the answer is that of exact
arithmetic (C42) as soon as `|D|` exceeds `Δ = 512 u M²` and `t₁`, `t₂` are not within `2 Δ / √D` of `0`, and the location is within
`2 Δ / √D` of the exact one.
-/

set_option linter.unusedSectionVars false
set_option autoImplicit false

namespace Mazth

open Matrix RndErr

/-! ### real computations -/

theorem cauchy_sq (w : R3) {k : R3} (hk : k ⬝ᵥ k = 1) : (w ⬝ᵥ k) * (w ⬝ᵥ k) ≤ w ⬝ᵥ w := by
  rw [dotProduct, Fin.sum_univ_three] at *
  rw [dotProduct, Fin.sum_univ_three]
  have : 0 ≤ (w 0 * k 1 - w 1 * k 0) ^ 2 + (w 0 * k 2 - w 2 * k 0) ^ 2 + (w 1 * k 2 - w 2 * k 1) ^ 2 := by positivity
  have e : (w 0 * w 0 + w 1 * w 1 + w 2 * w 2) * (k 0 * k 0 + k 1 * k 1 + k 2 * k 2) = w 0 * w 0 + w 1 * w 1 + w 2 * w 2 := by
    rw [hk, mul_one]
  nlinarith

/-- the projection -/
theorem proj_real {W w E e : R3} {t h M b : ℝ} (ht : 0 < t) (htl : t ≤ 1 / 64) (hh : 0 < h) (hht : h ≤ t) (hhM : h ≤ t * M)
    (hM : 0 ≤ M) (he : e ⬝ᵥ e = 1) (hw : ∀ i, |w i| ≤ 2 * M) (hW : ∀ i, |W i - w i| ≤ t * |w i|)
    (hE : ∀ i, |E i - e i| ≤ 5 * t * |e i| + h)
    (hb : |b - W ⬝ᵥ E| ≤ 4 * t * (|W 0| * |E 0| + |W 1| * |E 1| + |W 2| * |E 2|) + 4 * h) : |b - w ⬝ᵥ e| ≤ 48 * (t * M) := by
  have hs := unit_abs_sum he
  have e0 := abs_nonneg (e 0); have e1 := abs_nonneg (e 1); have e2 := abs_nonneg (e 2)
  have hEe (i : Fin 3) : |E i| ≤ |e i| + (5 * t * |e i| + h) := by
    have := abs_add_le (E i - e i) (e i); rw [sub_add_cancel] at this; linarith [hE i]
  have hsE : |E 0| + |E 1| + |E 2| ≤ 2 := by
    have h5 : 5 * t * (|e 0| + |e 1| + |e 2|) ≤ 5 * (1 / 64) * (7 / 4) := by gcongr
    linarith [hEe 0, hEe 1, hEe 2]
  have hd (i : Fin 3) : |W i - w i| ≤ t * (2 * M) := (hW i).trans (by gcongr; exact hw i)
  have tM : t * (2 * M) ≤ 1 / 64 * (2 * M) := by gcongr
  have hW2 (i : Fin 3) : |W i| ≤ 65 / 32 * M := by
    have := abs_add_le (W i - w i) (w i); rw [sub_add_cancel] at this; linarith [hd i, hw i]
  have p (i : Fin 3) : |W i| * |E i| ≤ 65 / 32 * M * |E i| := mul_le_mul_of_nonneg_right (hW2 i) (abs_nonneg _)
  have q : |W 0| * |E 0| + |W 1| * |E 1| + |W 2| * |E 2| ≤ 65 / 16 * M := by
    have : 65 / 32 * M * (|E 0| + |E 1| + |E 2|) ≤ 65 / 32 * M * 2 := by gcongr
    linarith [p 0, p 1, p 2]
  have h1 : 4 * t * (|W 0| * |E 0| + |W 1| * |E 1| + |W 2| * |E 2|) ≤ 4 * t * (65 / 16 * M) := by gcongr
  have k (i : Fin 3) : |W i * E i - w i * e i| ≤ t * (2 * M) * |E i| + 2 * M * (5 * t * |e i| + h) := by
    rw [show W i * E i - w i * e i = (W i - w i) * E i + w i * (E i - e i) by ring]
    refine (abs_add_le _ _).trans (add_le_add ?_ ?_)
    · rw [abs_mul]; exact mul_le_mul_of_nonneg_right (hd i) (abs_nonneg _)
    · rw [abs_mul]; exact mul_le_mul (hw i) (hE i) (abs_nonneg _) (by positivity)
  have h2 : |W ⬝ᵥ E - w ⬝ᵥ e| ≤ t * (2 * M) * 2 + 2 * M * (5 * t * (7 / 4) + 3 * t) := by
    rw [dotProduct, dotProduct, Fin.sum_univ_three, Fin.sum_univ_three,
      show W 0 * E 0 + W 1 * E 1 + W 2 * E 2 - (w 0 * e 0 + w 1 * e 1 + w 2 * e 2) =
        (W 0 * E 0 - w 0 * e 0) + (W 1 * E 1 - w 1 * e 1) + (W 2 * E 2 - w 2 * e 2) by ring]
    have a1 := abs_add_le ((W 0 * E 0 - w 0 * e 0) + (W 1 * E 1 - w 1 * e 1)) (W 2 * E 2 - w 2 * e 2)
    have a2 := abs_add_le (W 0 * E 0 - w 0 * e 0) (W 1 * E 1 - w 1 * e 1)
    have b1 : t * (2 * M) * (|E 0| + |E 1| + |E 2|) ≤ t * (2 * M) * 2 := by gcongr
    have b2 : 2 * M * (5 * t * (|e 0| + |e 1| + |e 2|) + 3 * h) ≤ 2 * M * (5 * t * (7 / 4) + 3 * t) := by gcongr
    linarith [k 0, k 1, k 2]
  have h3 := abs_add_le (b - W ⬝ᵥ E) (W ⬝ᵥ E - w ⬝ᵥ e)
  rw [sub_add_sub_cancel] at h3
  linarith

/-- the power of the origin with respect to the sphere -/
theorem power_real {W w : R3} {t h M r kk rr k : ℝ} (ht : 0 < t) (htl : t ≤ 1 / 64) (hhM : h ≤ t * (M * M))
    (hM : 0 ≤ M) (hw : ∀ i, |w i| ≤ 2 * M) (hW : ∀ i, |W i - w i| ≤ t * |w i|) (hr : |r| ≤ M)
    (hkk : |kk - W ⬝ᵥ W| ≤ 4 * t * (|W 0| * |W 0| + |W 1| * |W 1| + |W 2| * |W 2|) + 4 * h)
    (hrr : |rr - r * r| ≤ t * |r * r| + h) (hk : |k - (kk - rr)| ≤ t * |kk - rr|) :
    |k - (w ⬝ᵥ w - r * r)| ≤ 96 * (t * (M * M)) ∧ |w ⬝ᵥ w - r * r| ≤ 12 * (M * M) := by
  have hd (i : Fin 3) : |W i - w i| ≤ t * (2 * M) := (hW i).trans (by gcongr; exact hw i)
  have tM : t * (2 * M) ≤ 1 / 64 * (2 * M) := by gcongr
  have hW2 (i : Fin 3) : |W i| ≤ 65 / 32 * M := by
    have := abs_add_le (W i - w i) (w i); rw [sub_add_cancel] at this; linarith [hd i, hw i]
  have p (i : Fin 3) : |W i| * |W i| ≤ 65 / 32 * M * (65 / 32 * M) := mul_le_mul (hW2 i) (hW2 i) (abs_nonneg _) (by positivity)
  have tMM : t * (M * M) ≤ 1 / 64 * (M * M) := by gcongr
  have MM : 0 ≤ M * M := by positivity
  have tMM0 : 0 ≤ t * (M * M) := by positivity
  have h1 : 4 * t * (|W 0| * |W 0| + |W 1| * |W 1| + |W 2| * |W 2|) ≤ 4 * t * (3 * (65 / 32 * M * (65 / 32 * M))) := by
    gcongr; linarith [p 0, p 1, p 2]
  have k' (i : Fin 3) : |W i * W i - w i * w i| ≤ t * (2 * M) * (129 / 32 * M) := by
    rw [show W i * W i - w i * w i = (W i - w i) * (W i + w i) by ring, abs_mul]
    exact mul_le_mul (hd i) ((abs_add_le _ _).trans (by linarith [hW2 i, hw i])) (abs_nonneg _) (by positivity)
  have h2 : |W ⬝ᵥ W - w ⬝ᵥ w| ≤ 3 * (t * (2 * M) * (129 / 32 * M)) := by
    rw [dotProduct, dotProduct, Fin.sum_univ_three, Fin.sum_univ_three,
      show W 0 * W 0 + W 1 * W 1 + W 2 * W 2 - (w 0 * w 0 + w 1 * w 1 + w 2 * w 2) =
        (W 0 * W 0 - w 0 * w 0) + (W 1 * W 1 - w 1 * w 1) + (W 2 * W 2 - w 2 * w 2) by ring]
    have a1 := abs_add_le ((W 0 * W 0 - w 0 * w 0) + (W 1 * W 1 - w 1 * w 1)) (W 2 * W 2 - w 2 * w 2)
    have a2 := abs_add_le (W 0 * W 0 - w 0 * w 0) (W 1 * W 1 - w 1 * w 1)
    linarith [k' 0, k' 1, k' 2]
  have hr2 : |r * r| ≤ M * M := by rw [abs_mul]; exact mul_le_mul hr hr (abs_nonneg _) hM
  have h3 : t * |r * r| ≤ t * (M * M) := by gcongr
  have hww (i : Fin 3) : w i * w i ≤ 2 * M * (2 * M) := by
    rw [← abs_mul_abs_self]; exact mul_le_mul (hw i) (hw i) (abs_nonneg _) (by positivity)
  have hsz : |w ⬝ᵥ w - r * r| ≤ 12 * (M * M) := by
    have r0 := mul_self_nonneg r
    rw [abs_of_nonneg r0] at hr2
    rw [dotProduct, Fin.sum_univ_three, abs_le]
    constructor <;> linarith [hww 0, hww 1, hww 2, mul_self_nonneg (w 0), mul_self_nonneg (w 1), mul_self_nonneg (w 2)]
  have h4 : |(kk - rr) - (w ⬝ᵥ w - r * r)| ≤ 80 * (t * (M * M)) := by
    have a1 := abs_add_le ((kk - W ⬝ᵥ W) + (W ⬝ᵥ W - w ⬝ᵥ w)) (-(rr - r * r))
    have a2 := abs_add_le (kk - W ⬝ᵥ W) (W ⬝ᵥ W - w ⬝ᵥ w)
    rw [abs_neg] at a1
    rw [show (kk - rr) - (w ⬝ᵥ w - r * r) = (kk - W ⬝ᵥ W) + (W ⬝ᵥ W - w ⬝ᵥ w) + -(rr - r * r) by ring]
    linarith
  have h5 : |kk - rr| ≤ 14 * (M * M) := by
    have := abs_add_le ((kk - rr) - (w ⬝ᵥ w - r * r)) (w ⬝ᵥ w - r * r)
    rw [sub_add_cancel] at this; linarith
  have h6 : t * |kk - rr| ≤ t * (14 * (M * M)) := by gcongr
  refine ⟨?_, hsz⟩
  have := abs_add_le (k - (kk - rr)) ((kk - rr) - (w ⬝ᵥ w - r * r))
  rw [sub_add_sub_cancel] at this
  linarith

/-- the discriminant -/
theorem disc_real {t h M b b' k k' bb d : ℝ} (ht : 0 < t) (htl : t ≤ 1 / 64) (hhM : h ≤ t * (M * M)) (hM : 0 ≤ M)
    (hb : |b| ≤ 7 / 2 * M) (hb' : |b' - b| ≤ 48 * (t * M)) (hk' : |k' - k| ≤ 96 * (t * (M * M)))
    (hD : |b * b - k| ≤ 12 * (M * M)) (hbb : |bb - b' * b'| ≤ t * |b' * b'| + h) (hd : |d - (bb - k')| ≤ t * |bb - k'|) :
    |d - (b * b - k)| ≤ 512 * (t * (M * M)) := by
  have tMM : t * (M * M) ≤ 1 / 64 * (M * M) := by gcongr
  have tM : t * M ≤ 1 / 64 * M := by gcongr
  have MM : 0 ≤ M * M := by positivity
  have tMM0 : 0 ≤ t * (M * M) := by positivity
  have hb2 : |b'| ≤ 17 / 4 * M := by
    have := abs_add_le (b' - b) b; rw [sub_add_cancel] at this; linarith
  have h1 : |b' * b' - b * b| ≤ 48 * (t * M) * (31 / 4 * M) := by
    rw [show b' * b' - b * b = (b' - b) * (b' + b) by ring, abs_mul]
    exact mul_le_mul hb' ((abs_add_le _ _).trans (by linarith)) (abs_nonneg _) (by positivity)
  have h2 : t * |b' * b'| ≤ t * (17 / 4 * M * (17 / 4 * M)) := by
    rw [abs_mul]; gcongr
  have h3 : |(bb - k') - (b * b - k)| ≤ 488 * (t * (M * M)) := by
    have a1 := abs_add_le ((bb - b' * b') + (b' * b' - b * b)) (-(k' - k))
    have a2 := abs_add_le (bb - b' * b') (b' * b' - b * b)
    rw [abs_neg] at a1
    rw [show (bb - k') - (b * b - k) = (bb - b' * b') + (b' * b' - b * b) + -(k' - k) by ring]
    linarith
  have h4 : |bb - k'| ≤ 20 * (M * M) := by
    have := abs_add_le ((bb - k') - (b * b - k)) (b * b - k)
    rw [sub_add_cancel] at this; linarith
  have h5 : t * |bb - k'| ≤ t * (20 * (M * M)) := by gcongr
  have := abs_add_le (d - (bb - k')) ((bb - k') - (b * b - k))
  rw [sub_add_sub_cancel] at this
  linarith

/-- the square root of the discriminant; `s` is the computed root of the computed `d` -/
theorem root_real {t M d D s σ : ℝ} (ht : 0 < t) (htl : t ≤ 1 / 64) (hσ : 0 < σ) (hσD : σ * σ = D) (hσM : σ ≤ M)
    (hd : |d - D| ≤ 512 * (t * (M * M))) (hD : 512 * (t * (M * M)) ≤ D) (hs : 0 ≤ s) (h1 : (1 - t) ^ 2 * d ≤ s ^ 2)
    (h2 : s ^ 2 ≤ (1 + t) ^ 2 * d) : |s - σ| ≤ 33 / 32 * (512 * (t * (M * M)) / σ) := by
  set Δ := 512 * (t * (M * M)) with hΔ
  have hM : 0 < M := hσ.trans_le hσM
  have hΔ0 : 0 < Δ := by positivity
  obtain ⟨d1, d2⟩ := abs_le.mp hd
  have hd0 : 0 ≤ d := by linarith
  set y := Real.sqrt d with hy
  have hy0 : 0 ≤ y := Real.sqrt_nonneg _
  have hyy : y * y = d := Real.mul_self_sqrt hd0
  set g := Δ / σ with hg
  have hgσ : g * σ = Δ := div_mul_cancel₀ _ hσ.ne'
  have hg0 : 0 < g := by positivity
  -- `y` is near `σ`
  have hyσ : |y - σ| ≤ g := by
    have e : |y - σ| * (y + σ) ≤ Δ := by
      rw [← abs_of_nonneg (show 0 ≤ y + σ by linarith), ← abs_mul, show (y - σ) * (y + σ) = d - D by rw [← hyy, ← hσD]; ring]
      exact hd
    have : |y - σ| * σ ≤ g * σ := by
      rw [hgσ]; exact le_trans (mul_le_mul_of_nonneg_left (by linarith) (abs_nonneg _)) e
    exact le_of_mul_le_mul_right this hσ
  -- `s` is near `y`
  have hs1 : (1 - t) * y ≤ s := by
    refine abs_le_of_sq_le_sq' (a := (1 - t) * y) ?_ hs |>.2
    calc ((1 - t) * y) ^ 2 = (1 - t) ^ 2 * d := by rw [← hyy]; ring
      _ ≤ s ^ 2 := h1
  have hs2 : s ≤ (1 + t) * y := by
    refine abs_le_of_sq_le_sq' (b := (1 + t) * y) ?_ (by positivity) |>.2
    calc s ^ 2 ≤ (1 + t) ^ 2 * d := h2
      _ = ((1 + t) * y) ^ 2 := by rw [← hyy]; ring
  have hsy : |s - y| ≤ t * y := by rw [abs_le]; constructor <;> linarith
  obtain ⟨y1, y2⟩ := abs_le.mp hyσ
  have hty : t * y ≤ t * (M + g) := by gcongr; linarith
  have htg : t * g ≤ 1 / 64 * g := by gcongr
  have htM : 512 * (t * M) ≤ g := by
    rw [hg, le_div_iff₀ hσ, hΔ]
    have : t * M * σ ≤ t * M * M := by gcongr
    linarith
  have := abs_add_le (s - y) (y - σ)
  rw [sub_add_sub_cancel] at this
  linarith

/-- one root; `ε` is `1` or `-1` -/
theorem param_real {t M b b' s σ ε p : ℝ} (ht : 0 < t) (htl : t ≤ 1 / 64) (hσ : 0 < σ) (hσM : σ ≤ M)
    (hD : 512 * (t * (M * M)) ≤ σ * σ) (hb : |b| ≤ 7 / 2 * M) (hb' : |b' - b| ≤ 48 * (t * M))
    (hs : |s - σ| ≤ 33 / 32 * (512 * (t * (M * M)) / σ)) (hε : |ε| = 1) (hp : |p - (-b' + ε * s)| ≤ t * |(-b' + ε * s)|) :
    |p - (-b + ε * σ)| ≤ 5 / 4 * (512 * (t * (M * M)) / σ) := by
  have hM : 0 < M := hσ.trans_le hσM
  set g := 512 * (t * (M * M)) / σ with hg
  have hgσ : g * σ = 512 * (t * (M * M)) := div_mul_cancel₀ _ hσ.ne'
  have htM : 512 * (t * M) ≤ g := by
    rw [hg, le_div_iff₀ hσ]
    have : t * M * σ ≤ t * M * M := by gcongr
    linarith
  have hgM : g ≤ M := by
    have : g * σ ≤ σ * σ := by rw [hgσ]; exact hD
    exact (le_of_mul_le_mul_right this hσ).trans hσM
  have tM : t * M ≤ 1 / 64 * M := by gcongr
  have h1 : |(-b' + ε * s) - (-b + ε * σ)| ≤ 48 * (t * M) + 33 / 32 * g := by
    rw [show (-b' + ε * s) - (-b + ε * σ) = -(b' - b) + ε * (s - σ) by ring]
    refine (abs_add_le _ _).trans (add_le_add (by rwa [abs_neg]) ?_)
    rw [abs_mul, hε, one_mul]; exact hs
  have h2 : |-b + ε * σ| ≤ 9 / 2 * M := by
    refine (abs_add_le _ _).trans ?_
    rw [abs_neg, abs_mul, hε, one_mul, abs_of_pos hσ]; linarith
  have h3 : |-b' + ε * s| ≤ 7 * M := by
    have := abs_add_le ((-b' + ε * s) - (-b + ε * σ)) (-b + ε * σ)
    rw [sub_add_cancel] at this; linarith
  have h4 : t * |-b' + ε * s| ≤ t * (7 * M) := by gcongr
  have hg0 : 0 < g := by positivity
  have := abs_add_le (p - (-b' + ε * s)) ((-b' + ε * s) - (-b + ε * σ))
  rw [sub_add_sub_cancel] at this
  linarith

/-- the decisions of the code from the computed quantities `B`, `Q`, `P`, `R` for `b`, `κ` and the two roots -/
theorem decide_real {b σ g Δ x y B Q P R : ℝ} (hσ : 0 < σ) (hx : 0 < x) (hy : 0 < y) (hΔ : Δ = 512 * y) (hg : g * σ = Δ)
    (hxg : 512 * x ≤ g) (hB : |B - b| ≤ 48 * x) (hQ : |Q - (b - σ) * (b + σ)| ≤ 96 * y) (hP : |P - (-b - σ)| ≤ 5 / 4 * g)
    (hR : |R - (-b + σ)| ≤ 5 / 4 * g) :
    (-b + σ < -(5 / 2 * g) → 0 < B ∧ 0 < Q) ∧
    (-b - σ < -(5 / 2 * g) → 5 / 2 * g < -b + σ → Q ≤ 0 ∧ P < 0) ∧
    (5 / 2 * g < -b - σ → B ≤ 0 ∧ 0 ≤ P ∧ 0 ≤ R ∧ (R ≤ P → |R - (-b - σ)| ≤ 5 / 4 * g)) := by
  obtain ⟨b1, b2⟩ := abs_le.mp hB
  obtain ⟨q1, q2⟩ := abs_le.mp hQ
  obtain ⟨p1, p2⟩ := abs_le.mp hP
  obtain ⟨r1, r2⟩ := abs_le.mp hR
  refine ⟨fun h => ⟨by linarith, ?_⟩, fun h h' => ⟨?_, by linarith⟩, fun h => ⟨by linarith, by linarith, by linarith, fun h' => ?_⟩⟩
  · have : 5 / 2 * g * (2 * σ) ≤ (b - σ) * (b + σ) := mul_le_mul (by linarith) (by linarith) (by linarith) (by linarith)
    linarith
  · have : 5 / 2 * g * σ ≤ (b + σ) * (σ - b) := by
      rcases le_total 0 b with h0 | h0
      · rw [mul_comm (b + σ)]; exact mul_le_mul (by linarith) (by linarith) hσ.le (by linarith)
      · exact mul_le_mul (by linarith) (by linarith) hσ.le (by linarith)
    linarith
  · rw [abs_le]; constructor <;> linarith

/-- C66, what the exact quantities mean: the point at signed distance `t` along the line is in the ball exactly when
`-b - √D ≤ t ≤ -b + √D`, and no point is when `D < 0`. -/
theorem C66_chord {o d c : R3} (hd : d ≠ 0) {r : ℝ} (hr : 0 ≤ r) (t : ℝ) :
    let b := (o - c) ⬝ᵥ unit d
    let D := b * b - ((o - c) ⬝ᵥ (o - c) - r * r)
    euc (o + t • unit d - c) ≤ r ↔ 0 ≤ D ∧ -b - Real.sqrt D ≤ t ∧ t ≤ -b + Real.sqrt D := by
  intro b D
  rw [mem_ball_iff (unit_of hd) hr]
  show t * t + 2 * t * b + _ ≤ 0 ↔ _
  have e : t * t + 2 * t * b + ((o - c) ⬝ᵥ (o - c) - r * r) = (t + b) * (t + b) - D := by show _ = _ - (b * b - _); ring
  rw [e]
  constructor
  · intro h
    have h0 : 0 ≤ D := by nlinarith [mul_self_nonneg (t + b)]
    have := abs_le_of_sq_le_sq' (a := t + b) (b := Real.sqrt D) (by rw [Real.sq_sqrt h0, sq]; linarith) (Real.sqrt_nonneg _)
    exact ⟨h0, by linarith [this.1], by linarith [this.2]⟩
  · rintro ⟨h0, h1, h2⟩
    have := sq_le_sq' (show -Real.sqrt D ≤ t + b by linarith) (show t + b ≤ Real.sqrt D by linarith)
    rw [Real.sq_sqrt h0, sq] at this
    linarith

/-- concrete case -/
example := C66_chord (o := 0) (c := ![3, 2, 0]) diag_ne (r := 1) zero_le_one 3

/-! ### the floats -/

section floats

variable {K : Type} [Field K] [LinearOrder K] [IsStrictOrderedRing K] [Fmt K] [LawfulFmt K] [RndErr K]

theorem dot_bound {a b : V3 K} {A B : Fin 3 → K} (ha : a.Holds A) (hb : b.Holds B) {d : K} (hd : (V3.dotp a b).Is d) :
    |d - (A 0 * B 0 + A 1 * B 1 + A 2 * B 2)| ≤ 4 * u * (|A 0| * |B 0| + |A 1| * |B 1| + |A 2| * |B 2|) + 4 * eta := by
  refine ((dot3_appr (ha 0) (ha 1) (ha 2) (hb 0) (hb 1) (hb 2)).err d hd).trans (add_le_add ?_ ?_)
  · rw [abs_mul, abs_mul, abs_mul]
    exact mul_le_mul_of_nonneg_right pow3_le (by positivity)
  · have hu := u_pos (K := K)
    have hl := u_le (K := K)
    have : (1 + u : K) ^ 2 ≤ (65 / 64) ^ 2 := by gcongr; linarith
    nlinarith [eta_pos (K := K)]

variable (φ : K →+* ℝ) (hφ : StrictMono φ)

include hφ

/-- what the code computes before taking the root -/
theorem raySphere_float {a c e : V3 K} {x : Fl K} {A C E : Fin 3 → K} {r : K} (ha : a.Holds A) (hc : c.Holds C) (hE : e.Holds E)
    (hx : x.Holds r) {k : R3} (hk : k ⬝ᵥ k = 1) (hK : ∀ i, |φ (E i) - k i| ≤ 5 * φ u * |k i| + φ eta) {M : K}
    (hA : ∀ i, |A i| ≤ M) (hC : ∀ i, |C i| ≤ M) (hr : |r| ≤ M) (he : (eta : K) ≤ u) (heM : (eta : K) ≤ u * (M * M))
    (hM : 64 * (M * M + M + 1) ≤ (omega : K)) :
    ∃ b q d, (V3.dotp (V3.sub a c) e).Holds b ∧ (V3.dotp (V3.sub a c) (V3.sub a c) - x * x).Holds q ∧
      (V3.dotp (V3.sub a c) e * V3.dotp (V3.sub a c) e - (V3.dotp (V3.sub a c) (V3.sub a c) - x * x)).Holds d ∧
      |d| ≤ omega ∧ |b| ≤ 5 * M ∧ 
      |φ b - (toR φ A - toR φ C) ⬝ᵥ k| ≤ 48 * (φ u * φ M) ∧
      |φ q - ((toR φ A - toR φ C) ⬝ᵥ (toR φ A - toR φ C) - φ r * φ r)| ≤ 96 * (φ u * (φ M * φ M)) ∧
      |φ d - ((toR φ A - toR φ C) ⬝ᵥ k * ((toR φ A - toR φ C) ⬝ᵥ k) -
        ((toR φ A - toR φ C) ⬝ᵥ (toR φ A - toR φ C) - φ r * φ r))| ≤ 512 * (φ u * (φ M * φ M)) := by
  obtain ⟨hu, hul, heta⟩ := phi_u φ hφ
  have hu' := u_pos (K := K)
  have hl' := u_le (K := K)
  have he0 := eta_pos (K := K)
  have hM0 : 0 ≤ M := (abs_nonneg _).trans (hA 0)
  have hMM : 0 ≤ M * M := mul_nonneg hM0 hM0
  have hM' : 0 ≤ φ M := by have := hφ.monotone hM0; rwa [map_zero] at this
  have he64 : (eta : K) ≤ 1 / 64 := he.trans hl'
  have he' : φ eta ≤ φ u := hφ.monotone he
  have heM' : φ eta ≤ φ u * (φ M * φ M) := by have := hφ.monotone heM; rwa [map_mul, map_mul] at this
  have heM1 : φ eta ≤ φ u * φ M := by
    rcases le_total 1 (φ M) with h | h
    · nlinarith
    · refine heM'.trans ?_
      have : φ M * φ M ≤ φ M * 1 := by gcongr
      rw [mul_one] at this
      gcongr
  have hr' : |φ r| ≤ φ M := phi_le φ hφ hr
  have hE2 := normal_le_two φ hφ hk hK he64
  -- the difference
  have lW (i : Fin 3) : Lim (a.val[i] - c.val[i]) (65 / 64 * (M + M)) := Lim.sub ⟨_, ha i, hA i⟩ ⟨_, hc i, hC i⟩ (by linarith)
  obtain ⟨W0, w0, -⟩ := lW 0
  obtain ⟨W1, w1, -⟩ := lW 1
  obtain ⟨W2, w2, -⟩ := lW 2
  have hW : (V3.sub a c).Holds ![W0, W1, W2] := by
    intro i; fin_cases i
    · exact w0
    · exact w1
    · exact w2
  set W : Fin 3 → K := ![W0, W1, W2] with hWe
  have hWi (i : Fin 3) : (a.val[i] - c.val[i]).Holds (W i) := by
    fin_cases i
    · exact w0
    · exact w1
    · exact w2
  have hWL (i : Fin 3) : |W i| ≤ 65 / 64 * (M + M) := (lW i).is_le (hWi i).1
  have hWe (i : Fin 3) : |φ (W i) - (toR φ A - toR φ C) i| ≤ φ u * |(toR φ A - toR φ C) i| := by
    have := hφ.monotone (Fl.sub_err (ha i).1 (hc i).1 (ha i).2 (hc i).2 (hWi i).1)
    simp only [map_sub, map_mul, map_abs_mono φ hφ] at this
    exact this
  have hw (i : Fin 3) : |(toR φ A - toR φ C) i| ≤ 2 * φ M := by
    refine (abs_sub _ _).trans ?_
    have h1 := phi_le φ hφ (hA i)
    have h2 := phi_le φ hφ (hC i)
    show |φ (A i)| + |φ (C i)| ≤ _
    linarith
  set w := toR φ A - toR φ C with hwe
  -- the projection
  obtain ⟨b, hb, -⟩ : Lim (V3.dotp (V3.sub a c) e) (4 * (65 / 64 * (M + M) * 2 + 1)) :=
    Lim.dot3 ⟨_, hW 0, hWL 0⟩ ⟨_, hW 1, hWL 1⟩ ⟨_, hW 2, hWL 2⟩ ⟨_, hE 0, hE2 0⟩ ⟨_, hE 1, hE2 1⟩ ⟨_, hE 2, hE2 2⟩
      (he64.trans (by norm_num)) (by linarith)
  have hb1 : |φ b - w ⬝ᵥ k| ≤ 48 * (φ u * φ M) := by
    refine proj_real (W := toR φ W) (E := toR φ E) hu hul heta he' heM1 hM' hk hw hWe hK ?_
    have := hφ.monotone (dot_bound hW hE hb.1)
    simp only [map_add, map_sub, map_mul, map_ofNat, map_abs_mono φ hφ] at this
    rw [dotProduct, Fin.sum_univ_three]
    exact this
  have hbw : |w ⬝ᵥ k| ≤ 7 / 2 * φ M := by
    have hs := unit_abs_sum hk
    rw [dotProduct, Fin.sum_univ_three]
    have a1 := abs_add_le (w 0 * k 0 + w 1 * k 1) (w 2 * k 2)
    have a2 := abs_add_le (w 0 * k 0) (w 1 * k 1)
    have p (i : Fin 3) : |w i * k i| ≤ 2 * φ M * |k i| := by
      rw [abs_mul]; exact mul_le_mul_of_nonneg_right (hw i) (abs_nonneg _)
    have : 2 * φ M * (|k 0| + |k 1| + |k 2|) ≤ 2 * φ M * (7 / 4) := by gcongr
    linarith [p 0, p 1, p 2]
  have tM : φ u * φ M ≤ 1 / 64 * φ M := by gcongr
  have hb5 : |b| ≤ 5 * M := by
    rw [← hφ.le_iff_le, map_abs_mono φ hφ, map_mul, map_ofNat]
    have := abs_add_le (φ b - w ⬝ᵥ k) (w ⬝ᵥ k)
    rw [sub_add_cancel] at this
    linarith
  -- the power
  have lkk : Lim (V3.dotp (V3.sub a c) (V3.sub a c)) (4 * (65 / 64 * (M + M) * (65 / 64 * (M + M)) + 1)) :=
    Lim.dot3 ⟨_, hW 0, hWL 0⟩ ⟨_, hW 1, hWL 1⟩ ⟨_, hW 2, hWL 2⟩ ⟨_, hW 0, hWL 0⟩ ⟨_, hW 1, hWL 1⟩ ⟨_, hW 2, hWL 2⟩
      (he64.trans (by norm_num)) (by linarith)
  have lrr : Lim (x * x) (65 / 64 * (M * M) + eta) := Lim.mul ⟨_, hx, hr⟩ ⟨_, hx, hr⟩ (by linarith)
  have lq := lkk.sub lrr (by linarith)
  obtain ⟨kk, hkk, -⟩ := id lkk
  obtain ⟨rr, hrr, -⟩ := id lrr
  obtain ⟨q, hq, -⟩ := id lq
  obtain ⟨hq1, hqs⟩ := power_real (W := toR φ W) (w := w) (r := φ r) (kk := φ kk) (rr := φ rr) (k := φ q) hu hul heM' hM' hw hWe hr'
    (by
      have := hφ.monotone (dot_bound hW hW hkk.1)
      simp only [map_add, map_sub, map_mul, map_ofNat, map_abs_mono φ hφ] at this
      rw [dotProduct, Fin.sum_univ_three]
      exact this)
    (by
      have := hφ.monotone (Fl.mul_err hx.1 hx.1 hrr.1)
      simpa only [map_add, map_sub, map_mul, map_abs_mono φ hφ] using this)
    (by
      have := hφ.monotone (Fl.sub_err hkk.1 hrr.1 hkk.2 hrr.2 hq.1)
      simpa only [map_add, map_sub, map_mul, map_abs_mono φ hφ] using this)
  -- the discriminant
  have lbb : Lim (V3.dotp (V3.sub a c) e * V3.dotp (V3.sub a c) e) (65 / 64 * (5 * M * (5 * M)) + eta) :=
    Lim.mul ⟨_, hb, hb5⟩ ⟨_, hb, hb5⟩ (by linarith)
  obtain ⟨bb, hbb, -⟩ := id lbb
  have ld := lbb.sub lq (by linarith)
  obtain ⟨d, hd, hdL⟩ := id ld
  refine ⟨b, q, d, hb, hq, hd, hdL.trans (by linarith), hb5, hb1, hq1, ?_⟩
  refine disc_real (b' := φ b) (k' := φ q) (bb := φ bb) hu hul heM' hM' hbw hb1 hq1 ?_
    (by
      have := hφ.monotone (Fl.mul_err hb.1 hb.1 hbb.1)
      simpa only [map_add, map_sub, map_mul, map_abs_mono φ hφ] using this)
    (by
      have := hφ.monotone (Fl.sub_err hbb.1 hq.1 hbb.2 hq.2 hd.1)
      simpa only [map_add, map_sub, map_mul, map_abs_mono φ hφ] using this)
  -- size of the exact discriminant
  have hcs := cauchy_sq w hk
  have r0 := mul_self_nonneg (φ r)
  have rM : φ r * φ r ≤ φ M * φ M := by rw [← abs_mul_abs_self]; exact mul_le_mul hr' hr' (abs_nonneg _) hM'
  obtain ⟨q1, q2⟩ := abs_le.mp hqs
  have b0 := mul_self_nonneg (w ⬝ᵥ k)
  have MM := mul_nonneg hM' hM'
  rw [abs_le]
  constructor <;> linarith

/-- the computed point at parameter `p` of a ray -/
theorem along_float {e a : V3 K} {E A : Fin 3 → K} {F : Fl K} {p M : K} (hE : e.Holds E) (ha : a.Holds A) {k : R3} (hk : k ⬝ᵥ k = 1)
    (hK : ∀ i, |φ (E i) - k i| ≤ 5 * φ u * |k i| + φ eta) (hA : ∀ i, |A i| ≤ M) (he : (eta : K) ≤ 1 / 64) (hF : F.Holds p)
    (hp : |p| ≤ 9 * M) (hM : 64 * (M + 1) ≤ (omega : K)) {T W : ℝ} (hT : 0 ≤ T) (w1 : 16 * (φ u * T) ≤ W) (w2 : 8 * φ eta ≤ W)
    (w3 : 40 * (φ u * φ M) ≤ W) (w4 : 8 * (φ eta * T) ≤ W) (hQ : |φ p - T| ≤ 2 * W) :
    ∃ P : Fin 3 → K, (V3.add (V3.scl e F) a).Holds P ∧ ∀ i, |φ (P i) - (toR φ A + T • k) i| ≤ 4 * W := by
  obtain ⟨hu0, hul, heta⟩ := phi_u φ hφ
  have he' : φ eta ≤ 1 / 64 := by have := hφ.monotone he; rwa [map_div₀, map_one, map_ofNat] at this
  have hM0 : 0 ≤ M := (abs_nonneg _).trans (hA 0)
  have hE2 := normal_le_two φ hφ hk hK he
  have key (i : Fin 3) : ∃ P, (e.val[i] * F + a.val[i]).Holds P ∧ |φ P - (toR φ A i + T * k i)| ≤ 4 * W := by
    have lm : Lim (e.val[i] * F) _ := Lim.mul ⟨_, hE i, hE2 i⟩ ⟨_, hF, hp⟩ (by linarith)
    obtain ⟨y, hy, -⟩ := id lm
    obtain ⟨P, hP, -⟩ := Lim.add lm ⟨_, ha i, hA i⟩ (by linarith)
    refine ⟨P, hP, ?_⟩
    have e1 := hφ.monotone (Fl.mul_err (hE i).1 hF.1 hy.1)
    have e2 := hφ.monotone (Fl.add_err hy.1 (ha i).1 hy.2 (ha i).2 hP.1)
    simp only [map_add, map_sub, map_mul, map_abs_mono φ hφ] at e1 e2
    exact along_real (Q := φ p) (q := φ p) hu0 hul heta he' hT (unit_abs_le hk i) (hK i) (phi_le φ hφ (hA i)) w1 w2 w3 w4 hQ
      (by rw [sub_self, abs_zero]; positivity) e1 e2
  obtain ⟨P0, p0, q0⟩ := key 0
  obtain ⟨P1, p1, q1⟩ := key 1
  obtain ⟨P2, p2, q2⟩ := key 2
  refine ⟨![P0, P1, P2], ?_, fun i => ?_⟩
  · intro i; fin_cases i
    · exact p0
    · exact p1
    · exact p2
  · fin_cases i
    · exact q0
    · exact q1
    · exact q2

/-- the two roots the code computes from `B` and `C` -/
theorem roots_float {B C : Fl K} {b' d' M : K} (hb' : B.Holds b') (hd1 : (B * B - C).Holds d') (hb5 : |b'| ≤ 5 * M) (hdo : |d'| ≤ omega)
    (hM : 64 * (M + 1) ≤ (omega : K)) {b D : ℝ} (eb : |φ b' - b| ≤ 48 * (φ u * φ M))
    (ed : |φ d' - D| ≤ 512 * (φ u * (φ M * φ M))) (hM0 : 0 < φ M) (hb72 : |b| ≤ 7 / 2 * φ M) (hDM : D ≤ φ M * φ M)
    (h : 512 * (φ u * (φ M * φ M)) ≤ D) :
    ∃ p1 p2, (-B - Fl.sqrt (B * B - C)).Holds p1 ∧ (-B + Fl.sqrt (B * B - C)).Holds p2 ∧ |p1| ≤ 65 / 64 * (5 * M + 3 * M) ∧
      |p2| ≤ 65 / 64 * (5 * M + 3 * M) ∧ |φ p1 - (-b - Real.sqrt D)| ≤ 5 / 4 * (512 * (φ u * (φ M * φ M)) / Real.sqrt D) ∧
      |φ p2 - (-b + Real.sqrt D)| ≤ 5 / 4 * (512 * (φ u * (φ M * φ M)) / Real.sqrt D) := by
  obtain ⟨hu0, hul, heta⟩ := phi_u φ hφ
  have hD0 : 0 < D := lt_of_lt_of_le (by positivity) h
  have hM1 : 0 ≤ M := by rw [← hφ.le_iff_le, map_zero]; exact hM0.le
  obtain ⟨d1, d2⟩ := abs_le.mp ed
  set σ := Real.sqrt D with hσe
  have hσ : 0 < σ := Real.sqrt_pos.mpr hD0
  have hσD : σ * σ = D := Real.mul_self_sqrt hD0.le
  have hσM : σ ≤ φ M := by
    rw [mul_self_le_mul_self_iff hσ.le hM0.le, hσD]; exact hDM
  have hd0 : 0 ≤ d' := by rw [← hφ.le_iff_le, map_zero]; linarith
  obtain ⟨s', hs'⟩ := Fl.sqrt_fin hd1.1 hd0 ((le_abs_self _).trans hdo)
  have hsH : (Fl.sqrt (B * B - C)).Holds s' := ⟨hs', Fl.wf_sqrt _⟩
  obtain ⟨r0, r1, r2⟩ := Fl.sqrt_err hd1.1 hd1.2 hs'
  have r0' := hφ.monotone r0
  have r1' := hφ.monotone r1
  have r2' := hφ.monotone r2
  simp only [map_zero, map_mul, map_pow, map_sub, map_add, map_one] at r0' r1' r2'
  have hroot := root_real hu0 hul hσ hσD hσM ed h r0' r1' r2'
  have hgσ' : 512 * (φ u * (φ M * φ M)) / σ ≤ σ := by rw [div_le_iff₀ hσ, hσD]; exact h
  obtain ⟨s1, s2⟩ := abs_le.mp hroot
  have hs3 : |s'| ≤ 3 * M := by
    rw [abs_of_nonneg r0, ← hφ.le_iff_le, map_mul, map_ofNat]; linarith
  have lp1 : Lim (-B - Fl.sqrt (B * B - C)) (65 / 64 * (5 * M + 3 * M)) :=
    Lim.sub (Lim.neg ⟨_, hb', hb5⟩) ⟨_, hsH, hs3⟩ (by linarith)
  have lp2 : Lim (-B + Fl.sqrt (B * B - C)) (65 / 64 * (5 * M + 3 * M)) :=
    Lim.add (Lim.neg ⟨_, hb', hb5⟩) ⟨_, hsH, hs3⟩ (by linarith)
  obtain ⟨p1, hp1, lp1⟩ := lp1
  obtain ⟨p2, hp2, lp2⟩ := lp2
  refine ⟨p1, p2, hp1, hp2, lp1, lp2, ?_, ?_⟩
  · have := hφ.monotone (Fl.sub_err hb'.1.kneg hsH.1 hb'.2.neg hsH.2 hp1.1)
    simp only [map_mul, map_sub, map_neg, map_abs_mono φ hφ] at this
    have := param_real (ε := -1) (p := φ p1) (s := φ s') hu0 hul hσ hσM (hσD ▸ h) hb72 eb hroot (by norm_num)
      (by rwa [neg_one_mul, ← sub_eq_add_neg])
    rwa [neg_one_mul, ← sub_eq_add_neg] at this
  · have := hφ.monotone (Fl.add_err hb'.1.kneg hsH.1 hb'.2.neg hsH.2 hp2.1)
    simp only [map_mul, map_add, map_sub, map_neg, map_abs_mono φ hφ] at this
    have := param_real (ε := 1) (p := φ p2) (s := φ s') hu0 hul hσ hσM (hσD ▸ h) hb72 eb hroot (by norm_num)
      (by rwa [one_mul])
    rwa [one_mul] at this

omit hφ in
/-- margin of the discriminant -/
noncomputable def discMargin (M : K) : ℝ := 512 * (φ u * (φ M * φ M))

/-- C66: a ray constructed from `o` and `d` and a sphere constructed from `c` and `r ≥ 0`, all finite and within range.  `b` is the
exact projection of `o - c` on the direction and `D` the exact discriminant, so that the line is in the ball between the signed
distances `-b - √D` and `-b + √D` (`C66_chord`).  If the line clearly passes by the ball, or clearly leaves it before the origin of
the ray, no intersection is reported.  If the origin is clearly inside, the reported location is near the point where the ray
leaves the ball; if the ball is clearly ahead, it is near the point where the ray enters it. -/
theorem C66_raySphere {l l' k : List (Fl K)} {x : Fl K} {s : Ray3 K} {t : Sphere K} {o d c : Fin 3 → K} {r : K}
    (hl : ListIn l o) (hl' : ListIn l' d) (hs : Ray3.init l l' = .ok s) (hk : ListIn k c) (hx : x.Holds r)
    (ht : Sphere.init k x = .ok t) (hd0 : d ≠ 0) (hd : ∀ i, d i = 0 ∨ nu ≤ d i * d i) (hd' : ∀ i, 8 * (d i * d i) ≤ omega)
    {M : K} (hoM : ∀ i, |o i| ≤ M) (hcM : ∀ i, |c i| ≤ M) (hr0 : 0 ≤ r) (hrM : r ≤ M) (he : (eta : K) ≤ u)
    (heM : (eta : K) ≤ u * (M * M)) (hM : 64 * (M * M + M + 1) ≤ (omega : K)) :
    let b := (toR φ o - toR φ c) ⬝ᵥ unit (toR φ d)
    let D := b * b - ((toR φ o - toR φ c) ⬝ᵥ (toR φ o - toR φ c) - φ r * φ r)
    let Δ := discMargin φ M
    let τ := 5 / 2 * (Δ / Real.sqrt D)
    (D < -Δ → Shape.getIntersect 2 (.ray s) (.sphere t) = .ok (false, none)) ∧
    (Δ ≤ D → -b + Real.sqrt D < -τ → Shape.getIntersect 2 (.ray s) (.sphere t) = .ok (false, none)) ∧
    (Δ ≤ D → -b - Real.sqrt D < -τ → τ < -b + Real.sqrt D →
      ∃ loc P, Shape.getIntersect 2 (.ray s) (.sphere t) = .ok (true, some loc) ∧ loc.Holds P ∧
        ∀ i, |φ (P i) - (toR φ o + (-b + Real.sqrt D) • unit (toR φ d)) i| ≤ τ) ∧
    (Δ ≤ D → τ < -b - Real.sqrt D →
      ∃ loc P, Shape.getIntersect 2 (.ray s) (.sphere t) = .ok (true, some loc) ∧ loc.Holds P ∧
        ∀ i, |φ (P i) - (toR φ o + (-b - Real.sqrt D) • unit (toR φ d)) i| ≤ τ) := by
  obtain ⟨hori, E, hE, hcE⟩ := Ray3.init_facts φ hφ hl hl' hs hd0 hd hd'
  obtain ⟨hcen, hrad⟩ := Sphere.init_facts hk hx ht
  have hde := unit_of_ne φ hφ hd0
  have hud := unit_of hde
  obtain ⟨hu0, hul, heta⟩ := phi_u φ hφ
  have hu' := u_pos (K := K)
  have hl64 := u_le (K := K)
  have he64 : (eta : K) ≤ 1 / 64 := he.trans hl64
  have he64' : φ eta ≤ 1 / 64 := by have := hφ.monotone he64; rwa [map_div₀, map_one, map_ofNat] at this
  have hM0 : 0 ≤ M := (abs_nonneg _).trans (hoM 0)
  have hMM : 0 ≤ M * M := mul_nonneg hM0 hM0
  have hM' : 0 ≤ φ M := by have := hφ.monotone hM0; rwa [map_zero] at this
  have hMM' : 0 ≤ φ M * φ M := mul_nonneg hM' hM'
  have he' : φ eta ≤ φ u := hφ.monotone he
  have heM' : φ eta ≤ φ u * (φ M * φ M) := by have := hφ.monotone heM; rwa [map_mul, map_mul] at this
  have hr0' : 0 ≤ φ r := by have := hφ.monotone hr0; rwa [map_zero] at this
  have hrM' : φ r ≤ φ M := hφ.monotone hrM
  have hE2 := normal_le_two φ hφ hud hcE he64
  obtain ⟨b', q', d', hb', hq', hd1, hdo, hb5, eb, eq, ed⟩ := raySphere_float φ hφ hori hcen hE hrad hud hcE hoM hcM
    (by rwa [abs_of_nonneg hr0]) he heM hM
  intro b D Δ τ
  have hchord := fun t => C66_chord (o := toR φ o) (c := toR φ c) hde hr0' t
  change |φ b' - b| ≤ _ at eb
  change |φ d' - D| ≤ _ at ed
  set κ := (toR φ o - toR φ c) ⬝ᵥ (toR φ o - toR φ c) - φ r * φ r with hκ
  change ∀ t : ℝ, euc (toR φ o + t • unit (toR φ d) - toR φ c) ≤ φ r ↔ 0 ≤ D ∧ -b - Real.sqrt D ≤ t ∧ t ≤ -b + Real.sqrt D at hchord
  have hDe : D = b * b - κ := rfl
  have hΔ : Δ = 512 * (φ u * (φ M * φ M)) := rfl
  have hΔ0 : 0 ≤ Δ := by rw [hΔ]; positivity
  -- sizes
  have hb72 : |b| ≤ 7 / 2 * φ M := by
    have hs := unit_abs_sum hud
    have hw (i : Fin 3) : |(toR φ o - toR φ c) i| ≤ 2 * φ M := by
      refine (abs_sub _ _).trans ?_
      have h1 := phi_le φ hφ (hoM i)
      have h2 := phi_le φ hφ (hcM i)
      show |φ (o i)| + |φ (c i)| ≤ _
      linarith
    show |(toR φ o - toR φ c) ⬝ᵥ unit (toR φ d)| ≤ _
    set w := toR φ o - toR φ c
    set k := unit (toR φ d)
    rw [dotProduct, Fin.sum_univ_three]
    have a1 := abs_add_le (w 0 * k 0 + w 1 * k 1) (w 2 * k 2)
    have a2 := abs_add_le (w 0 * k 0) (w 1 * k 1)
    have p (i : Fin 3) : |w i * k i| ≤ 2 * φ M * |k i| := by
      rw [abs_mul]; exact mul_le_mul_of_nonneg_right (hw i) (abs_nonneg _)
    have : 2 * φ M * (|k 0| + |k 1| + |k 2|) ≤ 2 * φ M * (7 / 4) := by gcongr
    linarith [p 0, p 1, p 2]
  have hDM : D ≤ φ M * φ M := by
    have h1 := cauchy_sq (toR φ o - toR φ c) hud
    have h2 : φ r * φ r ≤ φ M * φ M := by gcongr
    have : b * b ≤ (toR φ o - toR φ c) ⬝ᵥ (toR φ o - toR φ c) := h1
    rw [hDe, hκ]; linarith
  -- the code
  have hcode : Shape.getIntersect 2 (.ray s) (.sphere t) = if AABB.overlap (Shape.ray s).aabb (Shape.sphere t).aabb then
      core (.ray s) (.sphere t) else .ok (false, none) := getIntersect_eq 0 _ _
  have hcore : core (.ray s) (.sphere t) = Ray3.intersectSphere s (Shape.sphere t).getShapeData := rfl
  unfold Ray3.intersectSphere at hcore
  simp only [vecAt_sphere, sliceGet_sphere, Res.ok_bind, V3.minus_eq, V3.dot_eq, V3.scale_eq, V3.plus_eq,
    unwrap_some, Res.pure_eq] at hcore
  generalize V3.dotp (V3.sub s.ori t.ori) s.dir = B at *
  generalize V3.dotp (V3.sub s.ori t.ori) (V3.sub s.ori t.ori) - t.radius * t.radius = C at *
  have hz : (0 : Fl K).Is 0 := rfl
  have hmiss (h : core (.ray s) (.sphere t) = .ok (false, none)) :
      Shape.getIntersect 2 (.ray s) (.sphere t) = .ok (false, none) := by
    rw [hcode, h]; split <;> rfl
  have hhit (T : ℝ) (hT : 0 ≤ T) (h0 : 0 ≤ D) (h1 : -b - Real.sqrt D ≤ T) (h2 : T ≤ -b + Real.sqrt D) :
      Shape.getIntersect 2 (.ray s) (.sphere t) = core (.ray s) (.sphere t) := by
    have := C60_pretest hφ (.ray s) (.sphere t) _ _ (Shape.MadeIn.ray (v := s.vicinity) hl hl' hs)
      (Shape.MadeIn.sphere (v := t.vicinity) hk hx ht)
      ⟨toR φ o + T • unit (toR φ d), (rayPts_unit hde).mpr ⟨T, hT, rfl⟩, (hchord T).mpr ⟨h0, h1, h2⟩⟩
    rw [Shape.getBound_eq, Shape.getBound_eq, AABB.intersect_eq] at this
    rw [hcode, if_pos (Except.ok.inj this)]
  have hMpos : 0 < φ M := by
    rcases hM'.eq_or_lt with h | h
    · rw [← h] at heM'; simp at heM'; linarith
    · exact h
  have heM1 : φ eta ≤ φ u * φ M := by
    rcases le_total 1 (φ M) with h | h
    · nlinarith
    · refine heM'.trans ?_
      have : φ M * φ M ≤ φ M * 1 := by gcongr
      rw [mul_one] at this
      gcongr
  obtain ⟨b1, b2⟩ := abs_le.mp eb
  obtain ⟨q1, q2⟩ := abs_le.mp eq
  obtain ⟨d1, d2⟩ := abs_le.mp ed
  have uMM : 0 < φ u * (φ M * φ M) := by positivity
  have uM : 0 < φ u * φ M := by positivity
  refine ⟨fun h => ?_, ?_⟩
  · apply hmiss
    have : d' < 0 := by rw [← hφ.lt_iff_lt, map_zero]; linarith
    rw [hcore, (hd1.1.klt hz).mpr this]
    split <;> rfl
  -- from here on the line clearly meets the ball
  suffices H : Δ ≤ D →
      (-b + Real.sqrt D < -τ → Shape.getIntersect 2 (.ray s) (.sphere t) = .ok (false, none)) ∧
      (-b - Real.sqrt D < -τ → τ < -b + Real.sqrt D →
        ∃ loc P, Shape.getIntersect 2 (.ray s) (.sphere t) = .ok (true, some loc) ∧ loc.Holds P ∧
          ∀ i, |φ (P i) - (toR φ o + (-b + Real.sqrt D) • unit (toR φ d)) i| ≤ τ) ∧
      (τ < -b - Real.sqrt D →
        ∃ loc P, Shape.getIntersect 2 (.ray s) (.sphere t) = .ok (true, some loc) ∧ loc.Holds P ∧
          ∀ i, |φ (P i) - (toR φ o + (-b - Real.sqrt D) • unit (toR φ d)) i| ≤ τ) from
    ⟨fun h => (H h).1, fun h => (H h).2.1, fun h => (H h).2.2⟩
  intro h
  have hD0 : 0 < D := by linarith
  set σ := Real.sqrt D with hσe
  have hσ : 0 < σ := Real.sqrt_pos.mpr hD0
  have hσD : σ * σ = D := Real.mul_self_sqrt hD0.le
  have hσM : σ ≤ φ M := by
    rw [mul_self_le_mul_self_iff hσ.le hM', hσD]; exact hDM
  set g := 512 * (φ u * (φ M * φ M)) / σ with hg
  have hgσ : g * σ = Δ := div_mul_cancel₀ _ hσ.ne'
  have hg0 : 0 < g := by positivity
  have hτ : τ = 5 / 2 * g := rfl
  have htM : 512 * (φ u * φ M) ≤ g := by
    rw [hg, le_div_iff₀ hσ]
    have : φ u * φ M * σ ≤ φ u * φ M * φ M := by gcongr
    linarith
  have hgσ' : g ≤ σ := by
    have : g * σ ≤ σ * σ := by rw [hgσ, hσD]; exact h
    exact le_of_mul_le_mul_right this hσ
  have hd0 : 0 ≤ d' := by rw [← hφ.le_iff_le, map_zero]; linarith
  have hnl : Fl.lt (B * B - C) 0 = false := by rw [← Bool.not_eq_true, hd1.1.klt hz]; exact not_lt.mpr hd0
  obtain ⟨p1, p2, hp1, hp2, lp1, lp2, e1, e2⟩ := roots_float φ hφ hb' hd1 hb5 hdo (by linarith) eb ed hMpos hb72 hDM h
  obtain ⟨z1, z2⟩ := abs_le.mp hb72
  have hκ' : κ = (b - σ) * (b + σ) := by
    rw [show (b - σ) * (b + σ) = b * b - σ * σ by ring, hσD, hDe]; ring
  have hloc (F : Fl K) (p : K) (hF : F.Holds p) (hpM : |p| ≤ 65 / 64 * (5 * M + 3 * M)) (T : ℝ) (hT : 0 ≤ T) (hTM : T ≤ 9 / 2 * φ M)
      (hpT : |φ p - T| ≤ 5 / 4 * g) : ∃ P : Fin 3 → K, (V3.add (V3.scl s.dir F) s.ori).Holds P ∧
        ∀ i, |φ (P i) - (toR φ o + T • unit (toR φ d)) i| ≤ τ := by
    have uT : φ u * T ≤ φ u * (9 / 2 * φ M) := by gcongr
    have hT' : φ eta * T ≤ φ u * (9 / 2 * φ M) := by gcongr
    obtain ⟨P, hP, h⟩ := along_float φ hφ hE hori hud hcE hoM he64 hF (hpM.trans (by linarith)) (by linarith) hT (W := 5 / 8 * g)
      (by linarith) (by linarith) (by linarith) (by linarith) (by linarith)
    exact ⟨P, hP, fun i => (h i).trans (by rw [hτ]; linarith)⟩
  obtain ⟨k1, k2, k3⟩ := decide_real hσ uM uMM hΔ hgσ htM eb (hκ' ▸ eq) e1 e2
  have hτ0 : 0 < τ := by rw [hτ]; positivity
  refine ⟨fun h1 => ?_, fun h1 h2 => ?_, fun h1 => ?_⟩
  · -- behind the origin
    obtain ⟨hb0, hq0⟩ := k1 h1
    apply hmiss
    rw [hcore, (hz.klt hb'.1).mpr (by rwa [← hφ.lt_iff_lt, map_zero]), (hz.klt hq'.1).mpr (by rwa [← hφ.lt_iff_lt, map_zero])]; rfl
  · -- inside
    obtain ⟨hq0, hp0⟩ := k2 h1 h2
    have hc : (Fl.lt 0 B && Fl.lt 0 C) = false := by
      rw [Bool.and_eq_false_iff]; right
      rw [← Bool.not_eq_true, hz.klt hq'.1, not_lt, ← hφ.le_iff_le, map_zero]; exact hq0
    have hp1n : Fl.lt (-B - Fl.sqrt (B * B - C)) 0 = true := by
      rw [hp1.1.klt hz, ← hφ.lt_iff_lt, map_zero]; exact hp0
    have h0 : 0 ≤ -b + σ := (hτ0.trans h2).le
    obtain ⟨P, hP, hPe⟩ := hloc _ p2 hp2 lp2 (-b + σ) h0 (by linarith only [z1, hσM]) e2
    refine ⟨_, P, ?_, hP, hPe⟩
    rw [hhit (-b + σ) h0 hD0.le (by linarith only [hσ]) le_rfl, hcore, hc, hnl, hp1n]
    rfl
  · -- ahead
    obtain ⟨hb0, hp0, hr0, hpr⟩ := k3 h1
    have hc : (Fl.lt 0 B && Fl.lt 0 C) = false := by
      rw [Bool.and_eq_false_iff]; left
      rw [← Bool.not_eq_true, hz.klt hb'.1, not_lt, ← hφ.le_iff_le, map_zero]; exact hb0
    have hp1n : Fl.lt (-B - Fl.sqrt (B * B - C)) 0 = false := by
      rw [← Bool.not_eq_true, hp1.1.klt hz, not_lt, ← hφ.le_iff_le, map_zero]; exact hp0
    have hp2n : Fl.lt (-B + Fl.sqrt (B * B - C)) 0 = false := by
      rw [← Bool.not_eq_true, hp2.1.klt hz, not_lt, ← hφ.le_iff_le, map_zero]; exact hr0
    have h0 : 0 ≤ -b - σ := (hτ0.trans h1).le
    have h9 : -b - σ ≤ 9 / 2 * φ M := by linarith only [z1, hσ, hM']
    rw [hhit (-b - σ) h0 hD0.le le_rfl (by linarith only [hσ]), hcore, hc, hnl, hp1n, hp2n]
    by_cases hlt : p1 < p2
    · rw [(hp1.1.klt hp2.1).mpr hlt]
      obtain ⟨P, hP, hPe⟩ := hloc _ p1 hp1 lp1 (-b - σ) h0 h9 e1
      exact ⟨_, P, rfl, hP, hPe⟩
    · have hf : Fl.lt (-B - Fl.sqrt (B * B - C)) (-B + Fl.sqrt (B * B - C)) = false := by
        rw [← Bool.not_eq_true, hp1.1.klt hp2.1]; exact hlt
      rw [hf]
      obtain ⟨P, hP, hPe⟩ := hloc _ p2 hp2 lp2 (-b - σ) h0 h9 (hpr (hφ.monotone (not_lt.mp hlt)))
      exact ⟨_, P, rfl, hP, hPe⟩

/-- concrete case -/
example := C66_raySphere BinQ.real BinQ.real_strictMono listA listB rfl listB one64_holds rfl B405_ne B405_lo B405_hi
  (M := 5) A123_five B405_five zero_le_one (by norm_num) eta_u (by linarith [eta_u, u_pos (K := Q64)]) (by linarith [omega_big])

end floats

/-! ### binary64 -/

theorem f64_discMargin (M : Q64) : discMargin BinQ.real M = 2 ^ (-44 : ℤ) * (M.real * M.real) := by
  obtain ⟨cu, -⟩ := C55_constants
  have e : (u : Q64).real = 2 ^ (-53 : ℤ) := by
    rw [cu]; show (((2 : ℚ) ^ (-53 : ℤ) : ℚ) : ℝ) = _; push_cast; rfl
  show 512 * ((u : Q64).real * (M.real * M.real)) = _
  rw [e, show (-44 : ℤ) = 9 + -53 by norm_num, zpow_add₀ (by norm_num)]
  norm_num
  ring

theorem f64_sq_range {M : Q64} (h1 : ((2 : ℚ) ^ (-500 : ℤ) : ℚ) ≤ M) (h2 : M ≤ ((2 : ℚ) ^ (500 : ℤ) : ℚ)) :
    (eta : Q64) ≤ u ∧ (eta : Q64) ≤ u * (M * M) ∧ 64 * (M * M + M + 1) ≤ (omega : Q64) := by
  obtain ⟨cu, ce, -, co, -⟩ := C55_constants
  rw [cu, ce, co]
  refine ⟨?_, ?_, ?_⟩
  · show (2 : ℚ) ^ (-1075 : ℤ) ≤ 2 ^ (-53 : ℤ)
    exact zpow_le_zpow_right₀ (by norm_num) (by norm_num)
  · have key (m : ℚ) (h : 2 ^ (-500 : ℤ) ≤ m) : (2 : ℚ) ^ (-1075 : ℤ) ≤ 2 ^ (-53 : ℤ) * (m * m) := by
      have h3 : (0 : ℚ) < 2 ^ (-500 : ℤ) := by positivity
      calc (2 : ℚ) ^ (-1075 : ℤ) ≤ 2 ^ (-53 : ℤ) * (2 ^ (-500 : ℤ) * 2 ^ (-500 : ℤ)) := by
            rw [← zpow_add₀ (by norm_num), ← zpow_add₀ (by norm_num)]; exact zpow_le_zpow_right₀ (by norm_num) (by norm_num)
        _ ≤ _ := mul_le_mul_of_nonneg_left (mul_le_mul h h h3.le (h3.le.trans h)) (by positivity)
    exact key M h1
  · have key (m : ℚ) (h0 : 2 ^ (-500 : ℤ) ≤ m) (h : m ≤ 2 ^ (500 : ℤ)) : 64 * (m * m + m + 1) ≤ (2 : ℚ) ^ (1023 : ℤ) := by
      have h1 : (1 : ℚ) ≤ 2 ^ (500 : ℤ) := one_le_zpow₀ (by norm_num) (by norm_num)
      have hm : 0 ≤ m := le_trans (by positivity) h0
      have e : ((2 : ℚ) ^ (1023 : ℤ) : ℚ) = 2 ^ (23 : ℤ) * (2 ^ (500 : ℤ) * 2 ^ (500 : ℤ)) := by
        rw [← zpow_add₀ (by norm_num), ← zpow_add₀ (by norm_num)]; norm_num
      rw [e]
      clear e h2 h0
      generalize (2 : ℚ) ^ (500 : ℤ) = a at *
      have h5 : m * m ≤ a * a := by gcongr
      have h6 : a ≤ a * a := by nlinarith
      norm_num
      linarith
    exact key M h1 h2

/-- C66 for `f64`: direction components `0` or between `2^-511` and `2^510`, coordinates and radius up to `M`, where
`2^-500 ≤ M ≤ 2^500`; the margin of the discriminant is `2^-44 M²`. -/
theorem C66_raySphere_f64 {l l' k : List (Fl Q64)} {x : Fl Q64} {s : Ray3 Q64} {t : Sphere Q64} {o d c : Fin 3 → Q64} {r : Q64}
    (hl : ListIn l o) (hl' : ListIn l' d) (hs : Ray3.init l l' = .ok s) (hk : ListIn k c) (hx : x.Holds r)
    (ht : Sphere.init k x = .ok t) (hd0 : d ≠ 0) (hd : ∀ i, d i = 0 ∨ ((2 : ℚ) ^ (-511 : ℤ) : ℚ) ≤ |d i|)
    (hd' : ∀ i, |d i| ≤ ((2 : ℚ) ^ (510 : ℤ) : ℚ))
    {M : Q64} (hoM : ∀ i, |o i| ≤ M) (hcM : ∀ i, |c i| ≤ M) (hr0 : 0 ≤ r) (hrM : r ≤ M)
    (hM : ((2 : ℚ) ^ (-500 : ℤ) : ℚ) ≤ M) (hM' : M ≤ ((2 : ℚ) ^ (500 : ℤ) : ℚ)) :
    let b := (toR BinQ.real o - toR BinQ.real c) ⬝ᵥ unit (toR BinQ.real d)
    let D := b * b - ((toR BinQ.real o - toR BinQ.real c) ⬝ᵥ (toR BinQ.real o - toR BinQ.real c) - r.real * r.real)
    let Δ := 2 ^ (-44 : ℤ) * (M.real * M.real)
    let τ := 5 / 2 * (Δ / Real.sqrt D)
    (D < -Δ → Shape.getIntersect 2 (.ray s) (.sphere t) = .ok (false, none)) ∧
    (Δ ≤ D → -b + Real.sqrt D < -τ → Shape.getIntersect 2 (.ray s) (.sphere t) = .ok (false, none)) ∧
    (Δ ≤ D → -b - Real.sqrt D < -τ → τ < -b + Real.sqrt D →
      ∃ loc P, Shape.getIntersect 2 (.ray s) (.sphere t) = .ok (true, some loc) ∧ loc.Holds P ∧
        ∀ i, |(P i).real - (toR BinQ.real o + (-b + Real.sqrt D) • unit (toR BinQ.real d)) i| ≤ τ) ∧
    (Δ ≤ D → τ < -b - Real.sqrt D →
      ∃ loc P, Shape.getIntersect 2 (.ray s) (.sphere t) = .ok (true, some loc) ∧ loc.Holds P ∧
        ∀ i, |(P i).real - (toR BinQ.real o + (-b - Real.sqrt D) • unit (toR BinQ.real d)) i| ≤ τ) := by
  obtain ⟨s1, s2, -⟩ := f64_range hd hd'
  obtain ⟨m1, m2, m3⟩ := f64_sq_range hM hM'
  have := C66_raySphere BinQ.real BinQ.real_strictMono hl hl' hs hk hx ht hd0 s1 s2 hoM hcM hr0 hrM m1 m2 m3
  rw [f64_discMargin] at this
  exact this

/-- concrete case -/
example := C66_raySphere_f64 listA listB rfl listB one64_holds rfl B405_ne (B405_lo64 (by norm_num)) (B405_hi64 (by norm_num))
  (M := 5) A123_five B405_five zero_le_one (by norm_num) ((pow_le_one64 (by norm_num)).trans (by norm_num : (1 : Q64) ≤ 5)) (five_le (by norm_num))

/-- C66, non-vacuity: the ray from the origin in direction `(1,2,2)` (whose unit vector is not representable) and balls ahead,
around the origin, aside and behind. -/
example : ∃ (s : Ray3 Q64) (t t' t'' t3 : Sphere Q64) (p p' : V3 Q64), Ray3.init [0, 0, 0] [1, .fin 2, .fin 2] = .ok s ∧
    Sphere.init [.fin 3, .fin 6, .fin 7] (.fin 2) = .ok t ∧ Sphere.init [1, 1, 1] (.fin 3) = .ok t' ∧
    Sphere.init [.fin 3, .fin 2, 0] 1 = .ok t'' ∧ Sphere.init [.fin (-3), .fin (-6), .fin (-7)] (.fin 8) = .ok t3 ∧
    Shape.getIntersect 2 (.ray s) (.sphere t) = .ok (true, some p) ∧ Shape.getIntersect 2 (.ray s) (.sphere t') = .ok (true, some p') ∧
    Shape.getIntersect 2 (.ray s) (.sphere t'') = .ok (false, none) ∧
    Shape.getIntersect 2 (.ray s) (.sphere t3) = .ok (false, none) := by
  refine ⟨_, _, _, _, _, ⟨#v[.fin (5862744871334245 / 2251799813685248 : ℚ), .fin (5862744871334245 / 1125899906842624 : ℚ),
    .fin (5862744871334245 / 1125899906842624 : ℚ)]⟩, ⟨#v[.fin (3474825955703971 / 2251799813685248 : ℚ),
    .fin (3474825955703971 / 1125899906842624 : ℚ), .fin (3474825955703971 / 1125899906842624 : ℚ)]⟩, rfl, rfl, rfl, rfl, rfl,
    by decide +kernel, by decide +kernel, by decide +kernel, by decide +kernel⟩

/-- C66, the hypotheses hold: the ball ahead. -/
example : let b : ℝ := (![0, 0, 0] - ![3, 6, 7]) ⬝ᵥ unit ![1, 2, 2]
    let D : ℝ := b * b - ((![0, 0, 0] - ![3, 6, 7]) ⬝ᵥ (![0, 0, 0] - ![3, 6, 7]) - 2 * 2)
    let Δ : ℝ := 2 ^ (-44 : ℤ) * (7 * 7)
    Δ ≤ D ∧ 5 / 2 * (Δ / Real.sqrt D) < -b - Real.sqrt D := by
  intro b D Δ
  have h3 : euc ![(1 : ℝ), 2, 2] = 3 := by
    have h : euc ![(1 : ℝ), 2, 2] * euc ![(1 : ℝ), 2, 2] = 3 * 3 := by
      rw [euc_sq]; simp [dotProduct, Fin.sum_univ_three]; norm_num
    exact (mul_self_inj (euc_nonneg _) (by norm_num)).mp h
  have eb : b = -(29 / 3) := by
    show _ ⬝ᵥ ((euc ![(1 : ℝ), 2, 2])⁻¹ • _) = _
    rw [h3, dotProduct_smul]; simp [dotProduct, Fin.sum_univ_three]; norm_num
  have eD : D = 31 / 9 := by
    show b * b - _ = _
    rw [eb]; simp [dotProduct, Fin.sum_univ_three]; norm_num
  have k1 : Δ ≤ 1 / 16 := by
    have : ((2 : ℝ) ^ (-44 : ℤ)) ≤ 2 ^ (-10 : ℤ) := zpow_le_zpow_right₀ (by norm_num) (by norm_num)
    show (2 : ℝ) ^ (-44 : ℤ) * (7 * 7) ≤ _
    generalize (2 : ℝ) ^ (-44 : ℤ) = a at *
    norm_num at this
    linarith
  rw [eD, eb]
  have h1 : 1 ≤ Real.sqrt (31 / 9) := by rw [Real.one_le_sqrt]; norm_num
  have h2 : Real.sqrt (31 / 9) ≤ 2 := by rw [Real.sqrt_le_left (by norm_num)]; norm_num
  have h4 : Δ / Real.sqrt (31 / 9) ≤ 1 / 16 := by rw [div_le_iff₀ (by linarith)]; linarith
  constructor <;> linarith

/-- C66: the margin is needed on both sides.  The first ray passes the centre of a ball of radius 2 at distance `√2` and is
reported as missing it; the second passes the centre of a ball of radius 1 at distance `√2` and is reported as hitting it. -/
theorem C66_exact_false : ∃ (s s' : Ray3 Q64) (t t' : Sphere Q64) (loc : V3 Q64),
    Ray3.init [0, 0, 0] [1, .fin 2, .fin 2] = .ok s ∧ Ray3.init [0, 0, 0] [1, 1, 1] = .ok s' ∧
    Sphere.init [.fin 134217733, .fin 268435467, .fin 268435465] (.fin 2) = .ok t ∧
    Sphere.init [.fin 67108864, .fin 67108865, .fin 67108863] 1 = .ok t' ∧
    (rayPts ![0, 0, 0] ![1, 2, 2] ∩ ballPts ![134217733, 268435467, 268435465] 2).Nonempty ∧
    Shape.getIntersect 2 (.ray s) (.sphere t) = .ok (false, none) ∧
    rayPts ![0, 0, 0] ![1, 1, 1] ∩ ballPts ![67108864, 67108865, 67108863] 1 = ∅ ∧
    Shape.getIntersect 2 (.ray s') (.sphere t') = .ok (true, some loc) := by
  refine ⟨_, _, _, _, ⟨#v[.fin (562949941558029 / 8388608 : ℚ), .fin (562949941558029 / 8388608 : ℚ), .fin (562949941558029 / 8388608 : ℚ)]⟩, rfl, rfl, rfl, rfl, ⟨_, ⟨134217733, by norm_num, rfl⟩, ?_⟩, by decide +kernel, ?_, by decide +kernel⟩
  · show euc _ ≤ 2
    rw [mul_self_le_mul_self_iff (euc_nonneg _) (by norm_num), euc_sq]
    simp [dotProduct, Fin.sum_univ_three]; norm_num
  · ext q
    simp only [Set.mem_inter_iff, Set.mem_empty_iff_false, iff_false, not_and]
    rintro ⟨τ, hτ, rfl⟩ (h : euc _ ≤ 1)
    rw [mul_self_le_mul_self_iff (euc_nonneg _) (by norm_num), euc_sq] at h
    simp [dotProduct, Fin.sum_univ_three] at h
    nlinarith [mul_self_nonneg (τ - 67108864)]

end Mazth
