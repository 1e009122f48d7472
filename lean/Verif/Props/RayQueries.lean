import Verif.Props.SphereQueries

/-!
# Ray-sphere (C42) and ray-plane (C43) queries, in exact arithmetic
-/

set_option linter.unusedSectionVars false
set_option autoImplicit false

namespace Mazth

open Matrix

/-- the unit vector in direction `d` -/
noncomputable abbrev unit (d : R3) : R3 := (euc d)⁻¹ • d

theorem euc_unit {d : R3} (hd : d ≠ 0) : euc (unit d) = 1 := by
  rw [euc_smul, abs_of_pos (inv_pos.mpr (euc_pos hd)), inv_mul_cancel₀ (euc_pos hd).ne']

/-- the ray can be parametrised by length -/
theorem rayPts_unit {o d p : R3} (hd : d ≠ 0) : p ∈ rayPts o d ↔ ∃ t : ℝ, 0 ≤ t ∧ p = o + t • unit d := by
  have h := euc_pos hd
  constructor
  · rintro ⟨t, ht, rfl⟩
    exact ⟨t * euc d, mul_nonneg ht h.le, by rw [smul_smul, mul_assoc, mul_inv_cancel₀ h.ne', mul_one]⟩
  · rintro ⟨t, ht, rfl⟩
    exact ⟨t * (euc d)⁻¹, mul_nonneg ht (inv_pos.mpr h).le, by rw [smul_smul]⟩

/-! ## C42 -/

theorem dot_expand (w u : R3) (t : ℝ) : (w + t • u) ⬝ᵥ (w + t • u) = w ⬝ᵥ w + 2 * t * (w ⬝ᵥ u) + t * t * (u ⬝ᵥ u) := by
  rw [add_dotProduct, dotProduct_add, dotProduct_add, smul_dotProduct, smul_dotProduct, dotProduct_smul, dotProduct_smul,
    dotProduct_comm u w]
  simp only [smul_eq_mul]; ring

theorem euc_along {u : R3} (hu : euc u = 1) (o : R3) {t : ℝ} (ht : 0 ≤ t) : euc (o + t • u - o) = t := by
  rw [add_sub_cancel_left, euc_smul, hu, mul_one, abs_of_nonneg ht]

/-- the point at parameter `t` lies in the ball iff the quadratic is non-positive -/
theorem mem_ball_iff {o c u : R3} (hu : u ⬝ᵥ u = 1) {r : ℝ} (hr : 0 ≤ r) (t : ℝ) :
    euc (o + t • u - c) ≤ r ↔ t * t + 2 * t * ((o - c) ⬝ᵥ u) + ((o - c) ⬝ᵥ (o - c) - r * r) ≤ 0 := by
  have e : o + t • u - c = (o - c) + t • u := by abel
  rw [mul_self_le_mul_self_iff (euc_nonneg _) hr, euc_sq, e, dot_expand, hu]
  constructor <;> intro h <;> linarith

/-- the sphere-ray computation on real numbers: the parameter of the reported point -/
noncomputable def hitParam (b c : ℝ) : ℝ :=
  let t1 := -b - Real.sqrt (b * b - c)
  let t2 := -b + Real.sqrt (b * b - c)
  if t1 < 0 then t2 else if t2 < 0 then t1 else if t1 < t2 then t1 else t2

theorem raySphere_core (s : Ray3 ℝ) (t : Sphere ℝ) (o d c : R3) (r : ℝ) (hs : s.Made o d) (ht : t.Made c r) :
    let b := (o - c) ⬝ᵥ unit d
    let k := (o - c) ⬝ᵥ (o - c) - r * r
    ((0 < b ∧ 0 < k) ∨ b * b - k < 0 → core (.ray s) (.sphere t) = .ok (false, none)) ∧
    (¬ ((0 < b ∧ 0 < k) ∨ b * b - k < 0) → ∃ loc, core (.ray s) (.sphere t) = .ok (true, some loc) ∧
      loc.IsR (o + hitParam b k • unit d)) := by
  obtain ⟨ho, hd, _⟩ := hs.facts
  obtain ⟨hc, hr, _⟩ := ht.facts
  intro b k
  have hB : (V3.dotp (V3.sub s.ori t.ori) s.dir).Is b := V3.is_dotp (V3.isR_sub ho hc) hd
  have hK : (V3.dotp (V3.sub s.ori t.ori) (V3.sub s.ori t.ori) - t.radius * t.radius).Is k :=
    (V3.is_dotp (V3.isR_sub ho hc) (V3.isR_sub ho hc)).sub (hr.mul hr)
  show (_ → Ray3.intersectSphere _ _ = _) ∧ (_ → ∃ loc, Ray3.intersectSphere _ _ = _ ∧ _)
  unfold Ray3.intersectSphere
  simp only [vecAt_sphere, sliceGet_sphere, Res.ok_bind, V3.minus_eq, V3.dot_eq, V3.scale_eq, V3.plus_eq, unwrap_some, Res.pure_eq]
  generalize V3.dotp (V3.sub s.ori t.ori) s.dir = B at *
  generalize V3.dotp (V3.sub s.ori t.ori) (V3.sub s.ori t.ori) - t.radius * t.radius = C at *
  have hD : (B * B - C).Is (b * b - k) := (hB.mul hB).sub hK
  rw [Fl.is_zero.lt hB, Fl.is_zero.lt hK, hD.lt Fl.is_zero]
  constructor
  · rintro (⟨h1, h2⟩ | h)
    · simp [h1, h2]
    · simp [h]
  · intro h
    have h1 : ¬ (0 < b ∧ 0 < k) := fun h' => h (.inl h')
    have h2 : ¬ (b * b - k < 0) := fun h' => h (.inr h')
    have hS := hD.sqrt (not_lt.mp h2)
    have hT1 := hB.neg.sub hS
    have hT2 := hB.neg.add hS
    rw [if_neg (by simpa using h1), if_neg (by simpa using h2)]
    refine ⟨_, rfl, ?_⟩
    have hT : (if Fl.lt (-B - Fl.sqrt (B * B - C)) 0 then -B + Fl.sqrt (B * B - C)
        else if Fl.lt (-B + Fl.sqrt (B * B - C)) 0 then -B - Fl.sqrt (B * B - C)
        else if Fl.lt (-B - Fl.sqrt (B * B - C)) (-B + Fl.sqrt (B * B - C)) then -B - Fl.sqrt (B * B - C)
        else -B + Fl.sqrt (B * B - C)).Is (hitParam b k) := by
      rw [hT1.lt Fl.is_zero, hT2.lt Fl.is_zero, hT1.lt hT2]
      unfold hitParam
      simp only [decide_eq_true_eq]
      split
      · exact hT2
      · split
        · exact hT1
        · split
          · exact hT1
          · exact hT2
    have := V3.isR_add (V3.isR_scl hd hT) ho
    rwa [add_comm] at this

theorem hitParam_spec {b k : ℝ} (h : ¬ ((0 < b ∧ 0 < k) ∨ b * b - k < 0)) :
    0 ≤ hitParam b k ∧ hitParam b k * hitParam b k + 2 * hitParam b k * b + k = 0 ∧
    (0 ≤ k → ∀ t, 0 ≤ t → t * t + 2 * t * b + k ≤ 0 → hitParam b k ≤ t) := by
  push Not at h
  obtain ⟨h1, h2⟩ := h
  unfold hitParam
  set q := Real.sqrt (b * b - k) with hq
  have hq0 : 0 ≤ q := Real.sqrt_nonneg _
  have hqq : q * q = b * b - k := Real.mul_self_sqrt h2
  have root1 : (-b - q) * (-b - q) + 2 * (-b - q) * b + k = 0 := by linear_combination hqq
  have root2 : (-b + q) * (-b + q) + 2 * (-b + q) * b + k = 0 := by linear_combination hqq
  have first (t : ℝ) (ht : t * t + 2 * t * b + k ≤ 0) : -b - q ≤ t := by
    by_contra hc
    push Not at hc
    nlinarith
  simp only
  split_ifs with c1 c2 c3
  · -- t1 < 0
    have hk : 0 ≤ -b + q := by
      by_contra hc
      push Not at hc
      have hb : 0 < b := by linarith
      have := h1 hb
      nlinarith
    refine ⟨hk, root2, ?_⟩
    intro hk0 t ht0 ht
    rcases hk0.lt_or_eq with hk0 | hk0
    · have : b ≤ 0 := by
        by_contra hc; push Not at hc
        have := h1 hc; linarith
      nlinarith
    · -- k = 0: q = |b|
      rw [← hk0] at ht hqq
      have : q = b ∨ q = -b := by
        have : (q - b) * (q + b) = 0 := by linear_combination hqq
        rcases mul_eq_zero.mp this with h | h
        · left; linarith
        · right; linarith
      rcases this with e | e
      · rw [e]; linarith
      · rw [e] at c1; linarith
  · exact absurd c2 (by linarith)
  · exact ⟨not_lt.mp c1, root1, fun _ t _ ht => first t ht⟩
  · have : q = 0 := by linarith
    rw [this] at root2 c1 first ⊢
    refine ⟨by linarith, root2, fun _ t _ ht => ?_⟩
    have := first t ht; linarith

/-- C42: a ray and a sphere of non-negative radius intersect for the code exactly when some point of the ray is in the
closed ball. The location is on the ray and on the sphere; and if the ray does not start inside the ball, it is the first
point of the ray in the ball. -/
theorem C42_raySphere (s : Ray3 ℝ) (t : Sphere ℝ) (o d c : R3) (r : ℝ) (hs : s.Made o d) (ht : t.Made c r) (hr : 0 ≤ r) :
    ((rayPts o d ∩ ballPts c r).Nonempty → ∃ p, Shape.Finds (.ray s) (.sphere t) p ∧ p ∈ rayPts o d ∧ euc (p - c) = r ∧
      (r ≤ euc (o - c) → ∀ q ∈ rayPts o d ∩ ballPts c r, euc (p - o) ≤ euc (q - o))) ∧
    (¬ (rayPts o d ∩ ballPts c r).Nonempty → Shape.Misses (.ray s) (.sphere t)) := by
  have hd := hs.1
  have hu := unit_of hd
  have heu := euc_unit hd
  obtain ⟨hno, hyes⟩ := raySphere_core s t o d c r hs ht
  set b := (o - c) ⬝ᵥ unit d with hb
  set k := (o - c) ⬝ᵥ (o - c) - r * r with hk
  -- a reported point is on the ray and on the sphere
  have sound (h : ¬ ((0 < b ∧ 0 < k) ∨ b * b - k < 0)) :
      o + hitParam b k • unit d ∈ rayPts o d ∧ euc (o + hitParam b k • unit d - c) = r := by
    obtain ⟨h0, hroot, _⟩ := hitParam_spec h
    refine ⟨(rayPts_unit hd).mpr ⟨_, h0, rfl⟩, ?_⟩
    have e : o + hitParam b k • unit d - c = (o - c) + hitParam b k • unit d := by abel
    have : euc (o + hitParam b k • unit d - c) * euc (o + hitParam b k • unit d - c) = r * r := by
      rw [euc_sq, e, dot_expand, hu, ← hb]
      linear_combination hroot - hk
    exact (mul_self_inj (euc_nonneg _) hr).mp this
  constructor
  · intro hne
    have hcond : ¬ ((0 < b ∧ 0 < k) ∨ b * b - k < 0) := by
      obtain ⟨q, hq, hq'⟩ := hne
      obtain ⟨τ, hτ, rfl⟩ := (rayPts_unit hd).mp hq
      have hq' := (mem_ball_iff hu hr τ).mp hq'
      rw [← hb, ← hk] at hq'
      rintro (⟨h1, h2⟩ | h)
      · nlinarith [mul_nonneg hτ h1.le, mul_self_nonneg τ]
      · nlinarith [mul_self_nonneg (τ + b)]
    obtain ⟨loc, hl, hl'⟩ := hyes hcond
    refine ⟨_, ⟨loc, by rw [query_meet (.ray hs) (.sphere ht) hne, hl], hl'⟩, (sound hcond).1, (sound hcond).2, ?_⟩
    rintro hout q ⟨hq, hq'⟩
    obtain ⟨h0, _, hfirst⟩ := hitParam_spec hcond
    obtain ⟨τ, hτ, rfl⟩ := (rayPts_unit hd).mp hq
    have hq' := (mem_ball_iff hu hr τ).mp hq'
    have hk0 : 0 ≤ k := by
      rw [hk, ← euc_sq]; nlinarith [mul_self_le_mul_self hr hout]
    have := hfirst hk0 τ hτ hq'
    rw [euc_along heu o h0, euc_along heu o hτ]
    exact this
  · intro hne
    unfold Shape.Misses
    rcases query_cases (.ray s) (.sphere t) with h | h
    · rw [h]
      apply hno
      by_contra hcond
      exact hne ⟨_, (sound hcond).1, (sound hcond).2.le⟩
    · exact h

/-- C42, non-vacuity: a ray that meets a sphere from outside, exact and in binary64. -/
example : ∃ s t, Ray3.Made s ![-5, 0, 0] ![2, 0, 0] ∧ Sphere.Made t 0 1 ∧
    (rayPts ![-5, 0, 0] ![2, 0, 0] ∩ ballPts 0 1).Nonempty := by
  obtain ⟨s, hs, _⟩ := Ray3.exists_made ![-5, 0, 0] (d := ![2, 0, 0]) (fun h => by simpa using congrFun h 0) 0
  obtain ⟨t, ht, _⟩ := Sphere.exists_made 0 1 0
  refine ⟨s, t, hs, ht, 0, ⟨5 / 2, by norm_num, ?_⟩, ?_⟩
  · ext i; fin_cases i <;> simp
  · show euc _ ≤ 1
    rw [sub_self, (euc_eq_zero _).mpr rfl]; norm_num
example : ∃ (s : Ray3 Q64) (t : Sphere Q64), Ray3.init [.fin (-5), 0, 0] [.fin 2, 0, 0] = .ok s ∧ Sphere.init [0, 0, 0] 1 = .ok t ∧
    Shape.getIntersect 2 (.ray s) (.sphere t) = .ok (true, some ⟨#v[.fin (-1), 0, 0]⟩) :=
  ⟨_, _, rfl, rfl, by decide +kernel⟩

/-! ## C43 -/

theorem rayPlane_query (s : Ray3 ℝ) (t : Plane ℝ) (o d a n : R3) (hs : s.Made o d) (ht : t.Made a n) :
    Shape.getIntersect 2 (.ray s) (.plane t) = core (.ray s) (.plane t) := by
  rw [getIntersect_eq 0, if_pos]
  show AABB.overlap s.bound t.bound = true
  rw [ht.facts.2.2]
  exact AABB.overlap_of_has _ _ (hs.facts.2.2 o ⟨0, le_refl 0, by simp⟩) (AABB.default_hasR o)

/-- the ray-plane computation on real numbers -/
theorem rayPlane_core (s : Ray3 ℝ) (t : Plane ℝ) (o d a n : R3) (hs : s.Made o d) (ht : t.Made a n) :
    let num := (a - o) ⬝ᵥ unit n
    let den := unit d ⬝ᵥ unit n
    (den = 0 ∧ num = 0 → Shape.Finds (.ray s) (.plane t) o) ∧
    (den < 0 ∧ 0 ≤ num / den → Shape.Finds (.ray s) (.plane t) (o + (num / den) • unit d)) ∧
    (den = 0 ∧ num ≠ 0 ∨ 0 < den ∨ den < 0 ∧ num / den < 0 → Shape.Misses (.ray s) (.plane t)) := by
  obtain ⟨ho, hd, _⟩ := hs.facts
  obtain ⟨ha, hn, _⟩ := ht.facts
  intro num den
  unfold Shape.Finds Shape.Misses
  rw [rayPlane_query s t o d a n hs ht]
  show (_ → ∃ loc, Ray3.intersectPlane _ _ = _ ∧ _) ∧ (_ → ∃ loc, Ray3.intersectPlane _ _ = _ ∧ _) ∧ (_ → Ray3.intersectPlane _ _ = _)
  unfold Ray3.intersectPlane
  simp only [vecAt_plane0, vecAt_plane3, Res.ok_bind, V3.dot_eq, V3.scale_eq, V3.plus_eq, unwrap_some, Res.pure_eq]
  have hnum : (V3.dotp t.offset t.normal - V3.dotp t.normal s.ori).Is num :=
    ((V3.is_dotp ha hn).sub (V3.is_dotp hn ho)).cast (by
      show _ = (a - o) ⬝ᵥ unit n; rw [sub_dotProduct, dotProduct_comm (unit n) o])
  have hden : (V3.dotp t.normal s.dir).Is den := (V3.is_dotp hn hd).cast (dotProduct_comm _ _)
  have hc1 := V3.is_dotp ha hn
  have hc2 := V3.is_dotp ho hn
  have hcc : (a ⬝ᵥ unit n = o ⬝ᵥ unit n) ↔ num = 0 := by
    show _ ↔ (a - o) ⬝ᵥ unit n = 0
    rw [sub_dotProduct, sub_eq_zero]
  rw [hden.feq Fl.is_zero, Fl.is_zero.lt hden, hc1.feq hc2]
  simp only [decide_eq_true_eq]
  refine ⟨?_, ?_, ?_⟩
  · rintro ⟨h1, h2⟩
    rw [if_pos h1, if_pos (hcc.mpr h2)]
    exact ⟨_, rfl, ho⟩
  · rintro ⟨h1, h2⟩
    have hq := hnum.div hden h1.ne
    rw [if_neg h1.ne, if_neg h1.not_gt, hq.lt Fl.is_zero, decide_eq_false (not_lt.mpr h2)]
    refine ⟨_, rfl, ?_⟩
    have := V3.isR_add (V3.isR_scl hd hq) ho
    rwa [add_comm] at this
  · rintro (⟨h1, h2⟩ | h1 | ⟨h1, h2⟩)
    · rw [if_pos h1, if_neg (fun h => h2 (hcc.mp h))]
    · rw [if_neg h1.ne', if_pos h1]
    · have hq := hnum.div hden h1.ne
      rw [if_neg h1.ne, if_neg h1.not_gt, hq.lt Fl.is_zero, decide_eq_true h2]; rfl

/-- the point at parameter `t` is on the plane iff `num = t·den` -/
theorem mem_plane_iff {o d a n : R3} (hn : n ≠ 0) (t : ℝ) :
    o + t • unit d ∈ planePts a n ↔ t * (unit d ⬝ᵥ unit n) = (a - o) ⬝ᵥ unit n := by
  have h := euc_pos hn
  show (o + t • unit d - a) ⬝ᵥ n = 0 ↔ _
  have e : (o + t • unit d - a) ⬝ᵥ n = euc n * (t * (unit d ⬝ᵥ unit n) - (a - o) ⬝ᵥ unit n) := by
    rw [dotProduct_smul (euc n)⁻¹ (unit d), dotProduct_smul (euc n)⁻¹ (a - o), sub_dotProduct, add_dotProduct,
      sub_dotProduct, smul_dotProduct t]
    simp only [smul_eq_mul]
    field_simp; ring
  rw [e, mul_eq_zero, or_iff_right h.ne', sub_eq_zero]

theorem sign_dot {d n : R3} (hd : d ≠ 0) (hn : n ≠ 0) : ∃ k : ℝ, 0 < k ∧ unit d ⬝ᵥ unit n = k * (d ⬝ᵥ n) :=
  ⟨(euc d)⁻¹ * (euc n)⁻¹, mul_pos (inv_pos.mpr (euc_pos hd)) (inv_pos.mpr (euc_pos hn)), by
    rw [smul_dotProduct, dotProduct_smul]; simp only [smul_eq_mul]; ring⟩

/-- C43, soundness: a reported location is on the ray and on the plane. -/
theorem C43_sound (s : Ray3 ℝ) (t : Plane ℝ) (o d a n : R3) (hs : s.Made o d) (ht : t.Made a n) (p : R3)
    (h : Shape.Finds (.ray s) (.plane t) p) : p ∈ rayPts o d ∩ planePts a n := by
  obtain ⟨h1, h2, h3⟩ := rayPlane_core s t o d a n hs ht
  rcases lt_trichotomy (unit d ⬝ᵥ unit n) 0 with c | c | c
  · by_cases hq : 0 ≤ (a - o) ⬝ᵥ unit n / (unit d ⬝ᵥ unit n)
    · rw [h.unique (h2 ⟨c, hq⟩)]
      exact ⟨(rayPts_unit hs.1).mpr ⟨_, hq, rfl⟩, (mem_plane_iff ht.1 _).mpr (div_mul_cancel₀ _ c.ne)⟩
    · exact absurd (h3 (.inr (.inr ⟨c, not_le.mp hq⟩))) h.not_misses
  · by_cases hq : (a - o) ⬝ᵥ unit n = 0
    · rw [h.unique (h1 ⟨c, hq⟩)]
      have e : o = o + (0 : ℝ) • unit d := by simp
      refine ⟨⟨0, le_refl 0, by simp⟩, ?_⟩
      rw [e, mem_plane_iff ht.1, c, hq, mul_zero]
    · exact absurd (h3 (.inl ⟨c, hq⟩)) h.not_misses
  · exact absurd (h3 (.inr (.inl c))) h.not_misses

/-- concrete case: whatever is found for this ray and plane is on both -/
example := C43_sound _ _ _ _ _ _ (mkRay_made ![0, 0, 3] (d := ![1, 0, -1]) (fun h => by simpa using congrFun h 0) 0) (mkPlane_made 0 upZ_ne 0)

/-- C43: the answer is true exactly when the ray meets the plane and does not run along its normal
(`d · n ≤ 0`: against the normal, or within the plane); otherwise it is false. -/
theorem C43_rayPlane (s : Ray3 ℝ) (t : Plane ℝ) (o d a n : R3) (hs : s.Made o d) (ht : t.Made a n) :
    (d ⬝ᵥ n ≤ 0 ∧ (rayPts o d ∩ planePts a n).Nonempty → ∃ p ∈ rayPts o d ∩ planePts a n, Shape.Finds (.ray s) (.plane t) p) ∧
    (¬ (d ⬝ᵥ n ≤ 0 ∧ (rayPts o d ∩ planePts a n).Nonempty) → Shape.Misses (.ray s) (.plane t)) := by
  have sound := C43_sound s t o d a n hs ht
  obtain ⟨h1, h2, h3⟩ := rayPlane_core s t o d a n hs ht
  obtain ⟨k, hk, he⟩ := sign_dot hs.1 ht.1
  constructor
  · rintro ⟨hle, q, hq, hq'⟩
    obtain ⟨τ, hτ, rfl⟩ := (rayPts_unit hs.1).mp hq
    have hq' := (mem_plane_iff ht.1 τ).mp hq'
    rcases (show unit d ⬝ᵥ unit n ≤ 0 by rw [he]; exact mul_nonpos_of_nonneg_of_nonpos hk.le hle).lt_or_eq with c | c
    · have e : (a - o) ⬝ᵥ unit n / (unit d ⬝ᵥ unit n) = τ := by rw [← hq', mul_div_cancel_right₀ _ c.ne]
      have := h2 ⟨c, by rw [e]; exact hτ⟩
      exact ⟨_, sound _ this, this⟩
    · have := h1 ⟨c, by rw [← hq', c, mul_zero]⟩
      exact ⟨_, sound _ this, this⟩
  · intro hno
    rcases lt_trichotomy (unit d ⬝ᵥ unit n) 0 with c | c | c
    · by_cases hq : 0 ≤ (a - o) ⬝ᵥ unit n / (unit d ⬝ᵥ unit n)
      · exact absurd ⟨by by_contra hc; push Not at hc; rw [he] at c; nlinarith [mul_pos hk hc], _, sound _ (h2 ⟨c, hq⟩)⟩ hno
      · exact h3 (.inr (.inr ⟨c, not_le.mp hq⟩))
    · by_cases hq : (a - o) ⬝ᵥ unit n = 0
      · refine absurd ⟨?_, _, sound _ (h1 ⟨c, hq⟩)⟩ hno
        rw [he] at c
        rcases mul_eq_zero.mp c with h | h
        · exact absurd h hk.ne'
        · exact h.le
      · exact h3 (.inl ⟨c, hq⟩)
    · exact h3 (.inr (.inl c))

/-- concrete case: a ray that goes down to a horizontal plane -/
example : ∃ p, Shape.Finds (.ray (mkRay ![0, 0, 3] (d := ![1, 0, -1]) (fun h => by simpa using congrFun h 0) 0)) (.plane (mkPlane 0 upZ_ne 0)) p := by
  obtain ⟨p, _, h⟩ := (C43_rayPlane _ _ _ _ _ _ (mkRay_made ![0, 0, 3] (d := ![1, 0, -1]) (fun h => by simpa using congrFun h 0) 0)
    (mkPlane_made 0 upZ_ne 0)).1 ⟨by simp [dotProduct, Fin.sum_univ_three], ![3, 0, 0],
      ⟨3, by norm_num, by ext i; fin_cases i <;> simp⟩, by show _ ⬝ᵥ _ = (0 : ℝ); simp [dotProduct, Fin.sum_univ_three]⟩
  exact ⟨p, h⟩

/-- C43: back-facing hits are reported as misses: no ray that runs along the normal is ever found, although it meets the
plane if it starts behind it. -/
theorem C43_back_false (s : Ray3 ℝ) (t : Plane ℝ) (o d a n : R3) (hs : s.Made o d) (ht : t.Made a n) (h : 0 < d ⬝ᵥ n)
    (hb : (o - a) ⬝ᵥ n ≤ 0) : (rayPts o d ∩ planePts a n).Nonempty ∧ Shape.Misses (.ray s) (.plane t) := by
  refine ⟨⟨o + (-((o - a) ⬝ᵥ n) / (d ⬝ᵥ n)) • d, ⟨_, div_nonneg (by linarith) h.le, rfl⟩, ?_⟩,
    (C43_rayPlane s t o d a n hs ht).2 (fun h' => by linarith [h'.1])⟩
  show (_ - a) ⬝ᵥ n = 0
  rw [show o + (-((o - a) ⬝ᵥ n) / (d ⬝ᵥ n)) • d - a = (o - a) + (-((o - a) ⬝ᵥ n) / (d ⬝ᵥ n)) • d by abel, add_dotProduct,
    smul_dotProduct, smul_eq_mul, div_mul_cancel₀ _ h.ne']
  ring

/-- concrete case: a ray that comes from behind -/
example := C43_back_false _ _ _ _ _ _ (mkRay_made ![0, 0, -3] (d := ![1, 2, 2]) diag_ne 0) (mkPlane_made 0 upZ_ne 0)
  (by simp [dotProduct, Fin.sum_univ_three]) (by simp [dotProduct, Fin.sum_univ_three])

/-- C43, the same in binary64: the ray from `(0,0,-1)` upwards misses the plane `z = 0` with normal `(0,0,1)`, and hits it
with the opposite normal. -/
theorem C43_f64_false : ∃ (s : Ray3 Q64) (t t' : Plane Q64), Ray3.init [0, 0, .fin (-1)] [0, 0, 1] = .ok s ∧
    Plane.init [0, 0, 0] [0, 0, 1] = .ok t ∧ Plane.init [0, 0, 0] [0, 0, .fin (-1)] = .ok t' ∧
    Shape.getIntersect 2 (.ray s) (.plane t) = .ok (false, none) ∧
    Shape.getIntersect 2 (.ray s) (.plane t') = .ok (true, some ⟨#v[0, 0, 0]⟩) :=
  ⟨_, _, _, rfl, rfl, rfl, by decide +kernel, by decide +kernel⟩

/-- C43, non-vacuity. -/
example : ∃ s t, Ray3.Made s ![0, 0, 3] ![1, 0, -1] ∧ Plane.Made t 0 ![0, 0, 1] ∧
    (![1, 0, -1] : R3) ⬝ᵥ ![0, 0, 1] ≤ 0 ∧ (rayPts ![0, 0, 3] ![1, 0, -1] ∩ planePts 0 ![0, 0, 1]).Nonempty := by
  obtain ⟨s, hs, _⟩ := Ray3.exists_made ![0, 0, 3] (d := ![1, 0, -1]) (fun h => by simpa using congrFun h 0) 0
  obtain ⟨t, ht, _⟩ := Plane.exists_made 0 (n := ![0, 0, 1]) (fun h => by simpa using congrFun h 2) 0
  refine ⟨s, t, hs, ht, ?_, ![3, 0, 0], ⟨3, by norm_num, ?_⟩, ?_⟩
  · simp
  · ext i; fin_cases i <;> simp
  · show (_ - _) ⬝ᵥ _ = 0
    simp

end Mazth
