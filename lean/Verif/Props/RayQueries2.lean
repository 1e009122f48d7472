import Verif.Props.RayQueries

/-!
# Ray-point (C47) and ray-ray (C48) queries, in exact arithmetic
-/

set_option linter.unusedSectionVars false
set_option autoImplicit false

namespace Mazth

open Matrix

/-! ## C47 -/

/-- neither NaN nor finite comparison partners: a quotient by zero -/
def Fl.Bad (x : Fl ℝ) : Prop := x = .nan ∨ ∃ s, x = .inf s

theorem within_bad_left {v a b : Fl ℝ} {ε y : ℝ} (hv : v.Is ε) (ha : a.Bad) (hb : b.Is y) : withinVicinity v a b = false := by
  rcases ha with rfl | ⟨s, rfl⟩
  · exact C53_nan _ _ _ (.inr (.inl rfl))
  · unfold withinVicinity
    have add_inf {w : Fl ℝ} {e : ℝ} (hw : w.Is e) : Fl.inf s + w = Fl.inf s := by
      rcases hw.cases with rfl | ⟨rfl, _⟩ <;> rfl
    rw [Fl.sub_eq, add_inf hv, add_inf hv.neg]
    rcases hb.cases with rfl | ⟨rfl, _⟩ <;> cases s <;> simp [Fl.le]

theorem within_bad_right {v a b : Fl ℝ} {ε x : ℝ} (hv : v.Is ε) (ha : a.Is x) (hb : b.Bad) : withinVicinity v a b = false := by
  rcases hb with rfl | ⟨s, rfl⟩
  · exact C53_nan _ _ _ (.inr (.inr rfl))
  · unfold withinVicinity
    have h1 := ha.add hv
    have h2 := ha.sub hv
    generalize a + v = y at *
    generalize a - v = z at *
    rcases h1.cases with rfl | ⟨rfl, _⟩ <;> rcases h2.cases with rfl | ⟨rfl, _⟩ <;> cases s <;> simp [Fl.le]

theorem div_bad {x y : Fl ℝ} {a : ℝ} (hx : x.Is a) (hy : y.Is 0) : (x / y).Bad := by
  by_cases h : a = 0
  · subst h; exact .inl (hx.div_zero_zero hy)
  · exact .inr (hx.div_zero hy h)

theorem rayPoint_core_eq (s : Ray3 ℝ) (t : Point3 ℝ) : core (.ray s) (.point t) =
    (let q := V3.dv (V3.sub t.ori s.ori) s.dir
     .ok (if !withinVicinity s.vicinity q.val[0] q.val[1] || !withinVicinity s.vicinity q.val[1] q.val[2] then (false, none)
      else if Fl.le 0 q.val[0] then (true, some (V3.add (V3.scl s.dir q.val[0]) s.ori)) else (false, none))) := by
  show Ray3.intersectPoint _ _ = _
  unfold Ray3.intersectPoint
  simp only [vecAt_point, Res.ok_bind, V3.minus_eq, V3.div_eq, V3.scale_eq, V3.plus_eq, unwrap_some, Res.pure_eq]
  split
  · rfl
  · split <;> rfl

/-- C47: a ray whose direction has a zero component never reports any point (in particular not its own points). -/
theorem C47_zero_never (s : Ray3 ℝ) (t : Point3 ℝ) (o d p : R3) (hs : s.Made o d) (ht : t.Made p) (ε : ℝ) (hv : s.vicinity.Is ε)
    (i : Fin 3) (hi : d i = 0) : Shape.Misses (.ray s) (.point t) := by
  have hd := hs.1
  obtain ⟨ho, hu, _⟩ := hs.facts
  obtain ⟨hp, _⟩ := ht.facts
  unfold Shape.Misses
  rcases query_cases (.ray s) (.point t) with h | h
  swap
  · exact h
  rw [h, rayPoint_core_eq]
  obtain ⟨a0, a1, a2⟩ := Mat3x1.isR_iff.mp (V3.isR_sub hp ho)
  obtain ⟨u0, u1, u2⟩ := Mat3x1.isR_iff.mp hu
  have hz (j : Fin 3) : unit d j = 0 ↔ d j = 0 := by
    show (euc d)⁻¹ * d j = 0 ↔ _
    rw [mul_eq_zero, or_iff_right (inv_pos.mpr (euc_pos hd)).ne']
  have c0 : ((V3.sub t.ori s.ori).val[0] / s.dir.val[0]).Bad ∧ d 0 = 0 ∨
      (∃ x, ((V3.sub t.ori s.ori).val[0] / s.dir.val[0]).Is x) ∧ d 0 ≠ 0 := by
    by_cases h : d 0 = 0
    · exact .inl ⟨div_bad a0 (u0.cast ((hz 0).mpr h)), h⟩
    · exact .inr ⟨⟨_, a0.div u0 (fun h' => h ((hz 0).mp h'))⟩, h⟩
  have c1 : ((V3.sub t.ori s.ori).val[1] / s.dir.val[1]).Bad ∧ d 1 = 0 ∨
      (∃ x, ((V3.sub t.ori s.ori).val[1] / s.dir.val[1]).Is x) ∧ d 1 ≠ 0 := by
    by_cases h : d 1 = 0
    · exact .inl ⟨div_bad a1 (u1.cast ((hz 1).mpr h)), h⟩
    · exact .inr ⟨⟨_, a1.div u1 (fun h' => h ((hz 1).mp h'))⟩, h⟩
  have c2 : ((V3.sub t.ori s.ori).val[2] / s.dir.val[2]).Bad ∧ d 2 = 0 ∨
      (∃ x, ((V3.sub t.ori s.ori).val[2] / s.dir.val[2]).Is x) ∧ d 2 ≠ 0 := by
    by_cases h : d 2 = 0
    · exact .inl ⟨div_bad a2 (u2.cast ((hz 2).mpr h)), h⟩
    · exact .inr ⟨⟨_, a2.div u2 (fun h' => h ((hz 2).mp h'))⟩, h⟩
  have e0 : (V3.dv (V3.sub t.ori s.ori) s.dir).val[0] = (V3.sub t.ori s.ori).val[0] / s.dir.val[0] := rfl
  have e1 : (V3.dv (V3.sub t.ori s.ori) s.dir).val[1] = (V3.sub t.ori s.ori).val[1] / s.dir.val[1] := rfl
  have e2 : (V3.dv (V3.sub t.ori s.ori) s.dir).val[2] = (V3.sub t.ori s.ori).val[2] / s.dir.val[2] := rfl
  simp only [e0, e1, e2]
  rw [if_pos]
  rw [Bool.or_eq_true, Bool.not_eq_true', Bool.not_eq_true']
  rcases c0 with ⟨b0, z0⟩ | ⟨⟨x0, f0⟩, n0⟩ <;> rcases c1 with ⟨b1, z1⟩ | ⟨⟨x1, f1⟩, n1⟩ <;> rcases c2 with ⟨b2, z2⟩ | ⟨⟨x2, f2⟩, n2⟩
  · refine absurd ?_ hd
    ext j; fin_cases j <;> assumption
  · exact .inr (within_bad_left hv b1 f2)
  · exact .inl (within_bad_left hv b0 f1)
  · exact .inl (within_bad_left hv b0 f1)
  · exact .inl (within_bad_right hv f0 b1)
  · exact .inl (within_bad_right hv f0 b1)
  · exact .inr (within_bad_right hv f1 b2)
  · fin_cases i
    · exact absurd hi n0
    · exact absurd hi n1
    · exact absurd hi n2

/-- concrete case: the origin of the `x` axis is on it, yet it is not found -/
example : Shape.Misses (.ray (mkRay 0 axX_ne (.fin 1))) (.point (mkPoint 0 0)) :=
  C47_zero_never _ _ _ _ _ (mkRay_made ..) (mkPoint_made ..) 1 (mkRay_vicIs ..) 1 rfl

/-- the computation for directions without zero components -/
theorem rayPoint_core (s : Ray3 ℝ) (t : Point3 ℝ) (o d p : R3) (hs : s.Made o d) (ht : t.Made p) (ε : ℝ) (hv : s.vicinity.Is ε)
    (hd : ∀ i, d i ≠ 0) :
    let q := fun i => (p i - o i) / unit d i
    (|q 0 - q 1| ≤ ε ∧ |q 1 - q 2| ≤ ε ∧ 0 ≤ q 0 → ∃ loc, core (.ray s) (.point t) = .ok (true, some loc) ∧
      loc.IsR (o + q 0 • unit d)) ∧
    (¬ (|q 0 - q 1| ≤ ε ∧ |q 1 - q 2| ≤ ε ∧ 0 ≤ q 0) → core (.ray s) (.point t) = .ok (false, none)) := by
  obtain ⟨ho, hu, _⟩ := hs.facts
  obtain ⟨hp, _⟩ := ht.facts
  intro q
  obtain ⟨a0, a1, a2⟩ := Mat3x1.isR_iff.mp (V3.isR_sub hp ho)
  obtain ⟨u0, u1, u2⟩ := Mat3x1.isR_iff.mp hu
  have hz (j : Fin 3) : unit d j ≠ 0 := mul_ne_zero (inv_pos.mpr (euc_pos hs.1)).ne' (hd j)
  have q0 : (V3.dv (V3.sub t.ori s.ori) s.dir).val[0].Is (q 0) := a0.div u0 (hz 0)
  have q1 : (V3.dv (V3.sub t.ori s.ori) s.dir).val[1].Is (q 1) := a1.div u1 (hz 1)
  have q2 : (V3.dv (V3.sub t.ori s.ori) s.dir).val[2].Is (q 2) := a2.div u2 (hz 2)
  rw [rayPoint_core_eq]
  simp only
  rw [withinVicinity_real hv q0 q1, withinVicinity_real hv q1 q2, Fl.is_zero.le q0]
  constructor
  · rintro ⟨h1, h2, h3⟩
    refine ⟨V3.add (V3.scl s.dir (V3.dv (V3.sub t.ori s.ori) s.dir).val[0]) s.ori, by simp [h1, h2, h3], ?_⟩
    have := V3.isR_add (V3.isR_scl hu q0) ho
    rwa [add_comm] at this
  · intro h
    congr 1
    by_cases h1 : |q 0 - q 1| ≤ ε
    · by_cases h2 : |q 1 - q 2| ≤ ε
      · have h3 : ¬ (0 ≤ q 0) := fun h3 => h ⟨h1, h2, h3⟩
        simp [h1, h2, h3]
      · simp [h2]
    · simp [h1]

/-- C47, completeness: if no component of the direction is zero, every point of the ray is found and returned. -/
theorem C47_on_ray (s : Ray3 ℝ) (t : Point3 ℝ) (o d p : R3) (hs : s.Made o d) (ht : t.Made p) (ε : ℝ) (hv : s.vicinity.Is ε)
    (h0 : 0 ≤ ε) (hd : ∀ i, d i ≠ 0) (h : p ∈ rayPts o d) : Shape.Finds (.ray s) (.point t) p := by
  have hz (j : Fin 3) : unit d j ≠ 0 := mul_ne_zero (inv_pos.mpr (euc_pos hs.1)).ne' (hd j)
  obtain ⟨τ, hτ, e⟩ := (rayPts_unit hs.1).mp h
  have hq (i : Fin 3) : (p i - o i) / unit d i = τ := by
    rw [e]
    show (o i + τ * unit d i - o i) / unit d i = τ
    have := hz i
    field_simp; ring
  obtain ⟨loc, hl, hl'⟩ := (rayPoint_core s t o d p hs ht ε hv hd).1 (by
    simp only [hq]; simp [h0, hτ])
  refine ⟨loc, by rw [query_meet (.ray hs) (.point ht) ⟨p, h, rfl⟩, hl], ?_⟩
  simp only [hq] at hl'
  rwa [← e] at hl'

/-- concrete case -/
example : Shape.Finds (.ray (mkRay 0 diag_ne (.fin 0))) (.point (mkPoint ![3, 6, 6] 0)) ![3, 6, 6] :=
  C47_on_ray _ _ _ _ _ (mkRay_made ..) (mkPoint_made ..) 0 (mkRay_vicIs ..) le_rfl (fun i => by fin_cases i <;> simp)
    ⟨3, by norm_num, by ext i; fin_cases i <;> simp <;> norm_num⟩

/-- C47, soundness: a reported location is on the ray, has the `x` coordinate of the point, and differs from the point by
at most the tolerance in `y` and twice the tolerance in `z`. -/
theorem C47_sound (s : Ray3 ℝ) (t : Point3 ℝ) (o d p q : R3) (hs : s.Made o d) (ht : t.Made p) (ε : ℝ) (hv : s.vicinity.Is ε)
    (h : Shape.Finds (.ray s) (.point t) q) : q ∈ rayPts o d ∧ q 0 = p 0 ∧ |q 1 - p 1| ≤ ε ∧ |q 2 - p 2| ≤ 2 * ε := by
  by_cases hd : ∀ i, d i ≠ 0
  swap
  · push Not at hd
    obtain ⟨i, hi⟩ := hd
    exact absurd (C47_zero_never s t o d p hs ht ε hv i hi) h.not_misses
  have hz (j : Fin 3) : unit d j ≠ 0 := mul_ne_zero (inv_pos.mpr (euc_pos hs.1)).ne' (hd j)
  have hle (j : Fin 3) : |unit d j| ≤ 1 := (euc_coord_le _ j).trans (euc_unit hs.1).le
  obtain ⟨hyes, hno⟩ := rayPoint_core s t o d p hs ht ε hv hd
  by_cases hc : |(p 0 - o 0) / unit d 0 - (p 1 - o 1) / unit d 1| ≤ ε ∧ |(p 1 - o 1) / unit d 1 - (p 2 - o 2) / unit d 2| ≤ ε ∧
      0 ≤ (p 0 - o 0) / unit d 0
  swap
  · exfalso
    apply h.not_misses
    unfold Shape.Misses
    rcases query_cases (.ray s) (.point t) with h' | h'
    · rw [h', hno hc]
    · exact h'
  obtain ⟨loc, hl, hl'⟩ := hyes hc
  obtain ⟨loc', e, hq⟩ := h
  have : loc' = loc := by
    rcases query_cases (.ray s) (.point t) with h' | h'
    · rw [h', hl] at e; simpa using e.symm
    · rw [h'] at e; simp at e
  subst this
  obtain ⟨r0, r1, r2⟩ := Mat3x1.isR_iff.mp hl'
  obtain ⟨s0, s1, s2⟩ := Mat3x1.isR_iff.mp hq
  have f0 := s0.unique r0
  have f1 := s1.unique r1
  have f2 := s2.unique r2
  simp only [Pi.add_apply, Pi.smul_apply (_ : ℝ) (unit d), smul_eq_mul (_ : ℝ) (unit d _)] at f0 f1 f2
  obtain ⟨h1, h2, h3⟩ := hc
  have k0 : (p 0 - o 0) / unit d 0 * unit d 0 = p 0 - o 0 := div_mul_cancel₀ _ (hz 0)
  have k1 : (p 1 - o 1) / unit d 1 * unit d 1 = p 1 - o 1 := div_mul_cancel₀ _ (hz 1)
  have k2 : (p 2 - o 2) / unit d 2 * unit d 2 = p 2 - o 2 := div_mul_cancel₀ _ (hz 2)
  generalize (p 0 - o 0) / unit d 0 = t0 at *
  generalize (p 1 - o 1) / unit d 1 = t1 at *
  generalize (p 2 - o 2) / unit d 2 = t2 at *
  have bound (x y : ℝ) (j : Fin 3) (h : |x - y| ≤ ε) : |x * unit d j - y * unit d j| ≤ ε := by
    rw [← sub_mul, abs_mul]
    calc _ ≤ |x - y| * 1 := mul_le_mul_of_nonneg_left (hle j) (abs_nonneg _)
      _ ≤ ε := by rw [mul_one]; exact h
  refine ⟨(rayPts_unit hs.1).mpr ⟨t0, h3, ?_⟩, ?_, ?_, ?_⟩
  · ext i; fin_cases i
    · exact f0
    · exact f1
    · exact f2
  · linarith
  · rw [show q 1 - p 1 = t0 * unit d 1 - t1 * unit d 1 by linarith]
    exact bound _ _ 1 h1
  · rw [show q 2 - p 2 = (t0 * unit d 2 - t1 * unit d 2) + (t1 * unit d 2 - t2 * unit d 2) by linarith]
    have := abs_add_le (t0 * unit d 2 - t1 * unit d 2) (t1 * unit d 2 - t2 * unit d 2)
    linarith [bound _ _ 2 h1, bound _ _ 2 h2]

/-- concrete case: with tolerance 1 -/
example := C47_sound _ _ _ _ _ ![3, 6, 6] (mkRay_made 0 diag_ne (.fin 1)) (mkPoint_made ![3, 7, 8] 0) 1 (mkRay_vicIs ..)

/-- C47: with tolerance zero and no zero component, the query decides "the point is on the ray". -/
theorem C47_exact (s : Ray3 ℝ) (t : Point3 ℝ) (o d p : R3) (hs : s.Made o d) (ht : t.Made p) (hv : s.vicinity.Is 0)
    (hd : ∀ i, d i ≠ 0) : (∃ q, Shape.Finds (.ray s) (.point t) q) ↔ p ∈ rayPts o d := by
  refine ⟨fun ⟨q, h⟩ => ?_, fun h => ⟨p, C47_on_ray s t o d p hs ht 0 hv (le_refl 0) hd h⟩⟩
  obtain ⟨h1, h2, h3, h4⟩ := C47_sound s t o d p q hs ht 0 hv h
  have : q = p := by
    ext i; fin_cases i
    · exact h2
    · exact sub_eq_zero.mp (abs_nonpos_iff.mp h3)
    · exact sub_eq_zero.mp (abs_nonpos_iff.mp (h4.trans (by norm_num)))
  rwa [this] at h1

/-- concrete case -/
example := C47_exact _ _ _ _ _ (mkRay_made 0 diag_ne (.fin 0)) (mkPoint_made ![3, 7, 8] 0) (mkRay_vicIs ..) (fun i => by fin_cases i <;> simp)

/-- C47: so "a point on the ray is found" is false of the code for every ray with a zero component in its direction. -/
theorem C47_zero_false (s : Ray3 ℝ) (o d : R3) (hs : s.Made o d) (ε : ℝ) (hv : s.vicinity.Is ε) (i : Fin 3) (hi : d i = 0) :
    ∃ p ∈ rayPts o d, ∃ t, Point3.Made t p ∧ Shape.Misses (.ray s) (.point t) := by
  obtain ⟨t, ht, _⟩ := Point3.exists_made (o + (1 : ℝ) • d) 0
  exact ⟨_, ⟨1, zero_le_one, rfl⟩, t, ht, C47_zero_never s t o d _ hs ht ε hv i hi⟩

/-- concrete case -/
example := C47_zero_false _ _ _ (mkRay_made ![1, 2, 3] axX_ne (.fin 1)) 1 (mkRay_vicIs ..) 2 rfl

/-- C47, binary64: the ray from the origin along `x` does not report the point `(1,0,0)`; a ray along the space diagonal
does report a point. -/
theorem C47_f64_false : ∃ (s s' : Ray3 Q64) (t t' : Point3 Q64), Ray3.init [0, 0, 0] [1, 0, 0] = .ok s ∧
    Point3.init [1, 0, 0] = .ok t ∧ Shape.getIntersect 2 (.ray s) (.point t) = .ok (false, none) ∧
    Ray3.init [0, 0, 0] [1, .fin 2, .fin 2] = .ok s' ∧ Point3.init [.fin 3, .fin 6, .fin 6] = .ok t' ∧
    ∃ loc, Shape.getIntersect 2 (.ray s') (.point t') = .ok (true, some loc) := by
  refine ⟨_, _, _, _, rfl, rfl, by decide +kernel, rfl, rfl, ⟨#v[.fin 3, .fin 6, .fin 6]⟩, by decide +kernel⟩

/-- C47, non-vacuity. -/
example : ∃ s t, Ray3.Made s 0 ![1, 2, 2] ∧ Point3.Made t ![3, 6, 6] ∧ (![3, 6, 6] : R3) ∈ rayPts 0 ![1, 2, 2] ∧
    ∀ i, (![1, 2, 2] : R3) i ≠ 0 := by
  obtain ⟨s, hs, _⟩ := Ray3.exists_made 0 (d := ![1, 2, 2]) (fun h => by simpa using congrFun h 0) 0
  obtain ⟨t, ht, _⟩ := Point3.exists_made ![3, 6, 6] 0
  refine ⟨s, t, hs, ht, ⟨3, by norm_num, ?_⟩, ?_⟩
  · ext i; fin_cases i <;> simp <;> norm_num
  · intro i; fin_cases i <;> simp

/-! ## C48 -/

/-- the ray-ray computation on real numbers, for a tolerance `≥ 0` -/
theorem rayRay_core (s t : Ray3 ℝ) (o d o' d' : R3) (hs : s.Made o d) (ht : t.Made o' d') (ε : ℝ) (hv : s.vicinity.Is ε)
    (h0 : 0 ≤ ε) :
    let u := unit d
    let w := unit d'
    ((∃ i, 1 / 10000 < |(u ⨯₃ w) i|) → ∃ loc, core (.ray s) (.ray t) = .ok (true, some loc) ∧
      loc.IsR (o + (euc ((o' - o) ⨯₃ w) / euc (u ⨯₃ w)) • u)) ∧
    ((∀ i, |(u ⨯₃ w) i| ≤ 1 / 10000) → ε < euc (u ⨯₃ (o' - o)) → core (.ray s) (.ray t) = .ok (false, none)) ∧
    ((∀ i, |(u ⨯₃ w) i| ≤ 1 / 10000) → euc (u ⨯₃ (o' - o)) ≤ ε → (o' - o) ⬝ᵥ u < 0 →
      ∃ loc, core (.ray s) (.ray t) = .ok (true, some loc) ∧ loc.IsR o) ∧
    ((∀ i, |(u ⨯₃ w) i| ≤ 1 / 10000) → euc (u ⨯₃ (o' - o)) ≤ ε → 0 ≤ (o' - o) ⬝ᵥ u →
      ∃ loc, core (.ray s) (.ray t) = .ok (true, some loc) ∧ loc.IsR (o + euc (o' - o) • u)) := by
  obtain ⟨ho, hu, _⟩ := hs.facts
  obtain ⟨ho', hw, _⟩ := ht.facts
  have hd := hs.1
  have eu : euc (unit d) = 1 := euc_unit hd
  intro u w
  have hV := V3.isR_crs hu hw
  have hVC : (V3.dotp (V3.crs s.dir t.dir) (V3.sub t.dir s.dir)).Is 0 :=
    (V3.is_dotp hV (V3.isR_sub hw hu)).cast (by
      rw [dotProduct_comm, sub_dotProduct, dot_cross_self, dot_self_cross, sub_zero])
  have hD := V3.isR_sub ho' ho
  have hA := V3.is_mag (V3.isR_crs hu hD)
  have hdu := V3.is_dotp hD hu
  have hEq := V3.eqv_real hV V3.isR_zero (s := Fl.lit (1 / 10000)) (Fl.is_lit _)
  simp only [Pi.zero_apply, sub_zero] at hEq
  show (_ → ∃ loc, Ray3.intersectRay _ _ = _ ∧ _) ∧ (_ → _ → Ray3.intersectRay _ _ = _) ∧
    (_ → _ → _ → ∃ loc, Ray3.intersectRay _ _ = _ ∧ _) ∧ (_ → _ → _ → ∃ loc, Ray3.intersectRay _ _ = _ ∧ _)
  unfold Ray3.intersectRay
  simp only [vecAt_ray0, vecAt_ray3, Res.ok_bind, V3.minus_eq, V3.dot_eq, V3.cross_eq, V3.scale_eq, V3.plus_eq, V3.magnitude_eq,
    V3.isEqual_eq, unwrap_some, Res.pure_eq]
  rw [withinVicinity_real hv hVC Fl.is_zero, withinVicinity_real hv hA Fl.is_zero, hdu.lt Fl.is_zero]
  have e1 : decide (|(0 : ℝ) - 0| ≤ ε) = true := by simp [h0]
  have e2 : |euc (unit d ⨯₃ (o' - o)) - 0| = euc (unit d ⨯₃ (o' - o)) := by rw [sub_zero, abs_of_nonneg (euc_nonneg _)]
  rw [e1, e2]
  have hmag := V3.is_mag hD
  have hmu := (V3.is_mag hu).cast eu
  refine ⟨?_, ?_, ?_, ?_⟩
  · rintro ⟨i, hi⟩
    have hne : ¬ (V3.eqv (V3.crs s.dir t.dir) Mat3x1.default (Fl.lit (1 / 10000)) = true) := by
      rw [hEq]; intro h; exact absurd (h i) (not_le.mpr hi)
    have hv0 : euc (u ⨯₃ w) ≠ 0 := by
      intro h
      have := (euc_eq_zero _).mp h
      rw [this] at hi
      norm_num at hi
    have hT := (V3.is_mag (V3.isR_crs hD hw)).div (V3.is_mag hV) hv0
    rw [Bool.eq_false_of_not_eq_true hne, hT.lt Fl.is_zero, decide_eq_false (not_lt.mpr (div_nonneg (euc_nonneg _) (euc_nonneg _)))]
    refine ⟨_, rfl, ?_⟩
    have := V3.isR_add (V3.isR_scl hu hT) ho
    rwa [add_comm] at this
  · intro hp ha
    rw [hEq.mpr hp, decide_eq_false (not_le.mpr ha)]; rfl
  · intro hp ha hneg
    rw [hEq.mpr hp, decide_eq_true ha, decide_eq_true hneg]
    have hpos : 0 < euc (o' - o) := by
      refine euc_pos fun h => ?_
      rw [h] at hneg; simp at hneg
    have hdist := ((Fl.is_one.neg.mul hmag).div hmu one_ne_zero)
    have hlt := hdist.lt Fl.is_zero
    rw [decide_eq_true (by simpa using hpos)] at hlt
    refine ⟨s.ori, ?_, ho⟩
    simp only [Bool.not_true, Bool.false_eq_true, if_false, if_true]
    rw [if_pos hlt]
  · intro hp ha hnn
    rw [hEq.mpr hp, decide_eq_true ha, decide_eq_false (not_lt.mpr hnn)]
    have hdist := ((Fl.is_one.mul hmag).div hmu one_ne_zero)
    have hlt := hdist.lt Fl.is_zero
    rw [decide_eq_false (by simpa using euc_nonneg (o' - o))] at hlt
    refine ⟨V3.add (V3.scl s.dir (1 * V3.mag (V3.sub t.ori s.ori) / V3.mag s.dir)) s.ori, ?_, ?_⟩
    · simp only [Bool.not_true, Bool.false_eq_true, if_false, if_true]
      rw [if_neg (by rw [hlt]; simp)]
    · have := V3.isR_add (V3.isR_scl hu (hdist.cast (show 1 * euc (o' - o) / 1 = euc (o' - o) by ring))) ho
      rwa [add_comm] at this

theorem rayBound_overlap {o d o' d' : Fl ℝ} {x y x' y' : ℝ} (ho : o.Is x) (hd : d.Is y) (ho' : o'.Is x') (hd' : d'.Is y') :
    (Fl.lt (AABB.rayBound o' d').2 (AABB.rayBound o d).1 = false ∧ Fl.lt (AABB.rayBound o d).2 (AABB.rayBound o' d').1 = false) ↔
    ∃ τ σ, 0 ≤ τ ∧ 0 ≤ σ ∧ x + τ * y = x' + σ * y' := by
  constructor
  swap
  · rintro ⟨τ, σ, hτ, hσ, e⟩
    have h1 := rayBound_has ho hd hτ
    have h2 := rayBound_has ho' hd' hσ
    rw [← e] at h2
    have h3 := Fl.le_trans h1.1 h2.2
    have h4 := Fl.le_trans h2.1 h1.2
    exact ⟨by rw [Fl.lt_eq_not_le (Fl.le_ne_nan h3).2 (Fl.le_ne_nan h3).1, h3]; rfl,
      by rw [Fl.lt_eq_not_le (Fl.le_ne_nan h4).2 (Fl.le_ne_nan h4).1, h4]; rfl⟩
  · intro h
    have key (z : ℝ) (h1 : 0 < y → x ≤ z) (h2 : y < 0 → z ≤ x) (h3 : y = 0 → x = z) : ∃ τ, 0 ≤ τ ∧ x + τ * y = z := by
      rcases lt_trichotomy y 0 with hy | hy | hy
      · exact ⟨(z - x) / y, div_nonneg_of_nonpos (by linarith [h2 hy]) hy.le, by rw [div_mul_cancel₀ _ hy.ne]; ring⟩
      · exact ⟨0, le_rfl, by simpa using h3 hy⟩
      · exact ⟨(z - x) / y, div_nonneg (by linarith [h1 hy]) hy.le, by field_simp; ring⟩
    have key' (z : ℝ) (h1 : 0 < y' → x' ≤ z) (h2 : y' < 0 → z ≤ x') (h3 : y' = 0 → x' = z) : ∃ τ, 0 ≤ τ ∧ x' + τ * y' = z := by
      rcases lt_trichotomy y' 0 with hy | hy | hy
      · exact ⟨(z - x') / y', div_nonneg_of_nonpos (by linarith [h2 hy]) hy.le, by rw [div_mul_cancel₀ _ hy.ne]; ring⟩
      · exact ⟨0, le_rfl, by simpa using h3 hy⟩
      · exact ⟨(z - x') / y', div_nonneg (by linarith [h1 hy]) hy.le, by field_simp; ring⟩
    have fin (z : ℝ) (g1 : 0 < y → x ≤ z) (g2 : y < 0 → z ≤ x) (g3 : y = 0 → x = z) (h1 : 0 < y' → x' ≤ z) (h2 : y' < 0 → z ≤ x')
        (h3 : y' = 0 → x' = z) : ∃ τ σ, 0 ≤ τ ∧ 0 ≤ σ ∧ x + τ * y = x' + σ * y' := by
      obtain ⟨τ, a, b⟩ := key z g1 g2 g3
      obtain ⟨σ, a', b'⟩ := key' z h1 h2 h3
      exact ⟨τ, σ, a, a', b.trans b'.symm⟩
    unfold AABB.rayBound at h
    rw [Fl.is_zero.lt hd, hd.lt Fl.is_zero, Fl.is_zero.lt hd', hd'.lt Fl.is_zero] at h
    rcases lt_trichotomy y 0 with hy | hy | hy <;> rcases lt_trichotomy y' 0 with hy' | hy' | hy' <;>
      simp only [hy, hy', hy.not_gt, hy'.not_gt, lt_irrefl, decide_true, decide_false, if_true, if_false, Bool.false_eq_true,
        ho.lt ho', ho'.lt ho, decide_eq_false_iff_not, not_lt] at h
    · apply fin (min x x') <;> intro h' <;> first | (exfalso; linarith) | simp
    · apply fin x' <;> intro h' <;> first | (exfalso; linarith) | linarith [h.2]
    · apply fin x' <;> intro h' <;> first | (exfalso; linarith) | linarith [h.2]
    · apply fin x <;> intro h' <;> first | (exfalso; linarith) | linarith [h.1]
    · apply fin x <;> intro h' <;> first | (exfalso; linarith) | linarith [h.1, h.2]
    · apply fin x <;> intro h' <;> first | (exfalso; linarith) | linarith [h.2]
    · apply fin x <;> intro h' <;> first | (exfalso; linarith) | linarith [h.1]
    · apply fin x' <;> intro h' <;> first | (exfalso; linarith) | linarith [h.1]
    · apply fin (max x x') <;> intro h' <;> first | (exfalso; linarith) | simp

/-- the bounds of two rays overlap exactly when their projections to each axis meet -/
theorem rays_overlap {s t : Ray3 ℝ} {o d o' d' : R3} (hs : s.Made o d) (ht : t.Made o' d') :
    AABB.overlap s.bound t.bound = true ↔ ∀ i, ∃ τ σ, 0 ≤ τ ∧ 0 ≤ σ ∧ o i + τ * d i = o' i + σ * d' i := by
  obtain ⟨_, l, l', s0, v, ⟨x0, x1, x2, rfl, h0, h1, h2⟩, ⟨y0, y1, y2, rfl, k0, k1, k2⟩, hi, rfl⟩ := hs
  obtain ⟨_, m, m', t0, v', ⟨z0, z1, z2, rfl, i0, i1, i2⟩, ⟨w0, w1, w2, rfl, j0, j1, j2⟩, hi', rfl⟩ := ht
  have hi : Except.ok _ = Except.ok s0 := hi
  injection hi with hi
  subst hi
  have hi' : Except.ok _ = Except.ok t0 := hi'
  injection hi' with hi'
  subst hi'
  rw [AABB.overlap_iff]
  simp only [Fin.forall_fin_succ, IsEmpty.forall_iff, and_true]
  exact and_congr (rayBound_overlap h0 k0 i0 j0) (and_congr (rayBound_overlap h1 k1 i1 j1) (rayBound_overlap h2 k2 i2 j2))

theorem lagrange (u v : R3) (hu : u ⬝ᵥ u = 1) : euc (v - (v ⬝ᵥ u) • u) = euc (u ⨯₃ v) := by
  apply (mul_self_inj (euc_nonneg _) (euc_nonneg _)).mp
  rw [euc_sq, euc_sq, cross_dot_cross, hu, show v - (v ⬝ᵥ u) • u = v + (-(v ⬝ᵥ u)) • u by module, dot_expand, hu, dotProduct_comm u v]
  ring

theorem axes_cut : ∃ i, 1 / 10000 < |(unit ![1, 0, 0] ⨯₃ unit ![0, 1, 0]) i| := by
  have e1 : euc (![1, 0, 0] : R3) = 1 := by
    rw [euc_eq, Fin.sum_univ_three]; simp
  have e2 : euc (![0, 1, 0] : R3) = 1 := by
    rw [euc_eq, Fin.sum_univ_three]; simp
  refine ⟨2, ?_⟩
  rw [unit, unit, e1, e2, cross_apply]; simp; norm_num

/-- C48: two rays that meet in a point `p` and whose directions are not nearly parallel (some component of the cross
product of the unit directions exceeds the cut-off `0.0001`) are reported, with location exactly `p`. -/
theorem C48_meet (s t : Ray3 ℝ) (o d o' d' p : R3) (hs : s.Made o d) (ht : t.Made o' d') (ε : ℝ) (hv : s.vicinity.Is ε)
    (h0 : 0 ≤ ε) (hcut : ∃ i, 1 / 10000 < |(unit d ⨯₃ unit d') i|) (hp : p ∈ rayPts o d) (hp' : p ∈ rayPts o' d') :
    Shape.Finds (.ray s) (.ray t) p := by
  obtain ⟨loc, hl, hl'⟩ := (rayRay_core s t o d o' d' hs ht ε hv h0).1 hcut
  refine ⟨loc, by rw [query_meet (.ray hs) (.ray ht) ⟨p, hp, hp'⟩, hl], ?_⟩
  obtain ⟨τ, hτ, rfl⟩ := (rayPts_unit hs.1).mp hp
  obtain ⟨σ, hσ, e⟩ := (rayPts_unit ht.1).mp hp'
  have hD : o' - o = τ • unit d - σ • unit d' := by
    rw [eq_sub_iff_add_eq.mpr e.symm]; abel
  have hv0 : euc (unit d ⨯₃ unit d') ≠ 0 := by
    intro h
    obtain ⟨i, hi⟩ := hcut
    rw [(euc_eq_zero _).mp h] at hi
    norm_num at hi
  have : euc ((o' - o) ⨯₃ unit d') / euc (unit d ⨯₃ unit d') = τ := by
    rw [hD]
    generalize unit d = u at *
    generalize unit d' = w at *
    rw [show (τ • u - σ • w) ⨯₃ w = τ • (u ⨯₃ w) by simp, euc_smul, abs_of_nonneg hτ, mul_div_cancel_right₀ _ hv0]
  simp only [this] at hl'
  exact hl'

/-- concrete case: two rays that cross in the origin at a right angle -/
example : Shape.Finds (.ray (mkRay ![-3, 0, 0] axX_ne (.fin 0))) (.ray (mkRay ![0, -2, 0] axY_ne 0)) 0 :=
  C48_meet _ _ _ _ _ _ _ (mkRay_made ..) (mkRay_made ..) 0 (mkRay_vicIs ..) le_rfl axes_cut
    ⟨3, by norm_num, by ext i; fin_cases i <;> simp⟩ ⟨2, by norm_num, by ext i; fin_cases i <;> simp⟩

/-- C48: beyond the cut-off the only test is the one on the bounds: the code never answers false for rays whose bounds
overlap (their projections to each axis meet), because its coplanarity test compares the directions only and always succeeds. -/
theorem C48_always (s t : Ray3 ℝ) (o d o' d' : R3) (hs : s.Made o d) (ht : t.Made o' d') (ε : ℝ) (hv : s.vicinity.Is ε)
    (h0 : 0 ≤ ε) (hcut : ∃ i, 1 / 10000 < |(unit d ⨯₃ unit d') i|)
    (hb : ∀ i, ∃ τ σ, 0 ≤ τ ∧ 0 ≤ σ ∧ o i + τ * d i = o' i + σ * d' i) :
    ∃ p ∈ rayPts o d, Shape.Finds (.ray s) (.ray t) p := by
  obtain ⟨loc, hl, hl'⟩ := (rayRay_core s t o d o' d' hs ht ε hv h0).1 hcut
  refine ⟨_, (rayPts_unit hs.1).mpr ⟨_, div_nonneg (euc_nonneg _) (euc_nonneg _), rfl⟩, loc, ?_, hl'⟩
  rw [getIntersect_eq 0, if_pos (show AABB.overlap (Shape.ray s).aabb (Shape.ray t).aabb = true from (rays_overlap hs ht).mpr hb), hl]

/-- concrete case: the same two rays -/
example := C48_always _ _ _ _ _ _ (mkRay_made ![-3, 0, 0] axX_ne (.fin 0)) (mkRay_made ![0, -2, 0] axY_ne 0) 0 (mkRay_vicIs ..) le_rfl
  axes_cut (fun i => ⟨3, 2, by norm_num, by norm_num, by fin_cases i <;> simp⟩)

/-- C48: skew rays are reported as intersecting. Witness: from the origin along `(1,1,1)` and from `(1,0,0)` along `y`. -/
theorem C48_skew_false : ∃ (s t : Ray3 ℝ) (o d o' d' : R3), s.Made o d ∧ t.Made o' d' ∧ s.vicinity = defaultVicinity ∧
    rayPts o d ∩ rayPts o' d' = ∅ ∧ ∃ p, Shape.Finds (.ray s) (.ray t) p := by
  have hd : (![1, 1, 1] : R3) ≠ 0 := fun h => by simpa using congrFun h 0
  have hd' : (![0, 1, 0] : R3) ≠ 0 := fun h => by simpa using congrFun h 1
  obtain ⟨s, hs, hv⟩ := Ray3.exists_made 0 hd defaultVicinity
  obtain ⟨t, ht, _⟩ := Ray3.exists_made ![1, 0, 0] hd' defaultVicinity
  refine ⟨s, t, _, _, _, _, hs, ht, hv, ?_, ?_⟩
  · ext p
    simp only [Set.mem_inter_iff, Set.mem_empty_iff_false, iff_false, not_and]
    rintro ⟨τ, hτ, rfl⟩ ⟨σ, hσ, e⟩
    have e0 := congrFun e 0
    have e2 := congrFun e 2
    simp at e0 e2
    linarith
  · have hcut : ∃ i, 1 / 10000 < |(unit ![1, 1, 1] ⨯₃ unit ![0, 1, 0]) i| := by
      have e1 : euc (![1, 1, 1] : R3) = Real.sqrt 3 := by
        rw [euc_eq, Fin.sum_univ_three]; simp; norm_num
      have e2 : euc (![0, 1, 0] : R3) = 1 := by
        rw [euc_eq, Fin.sum_univ_three]; simp
      refine ⟨2, ?_⟩
      have h3 : Real.sqrt 3 < 2 := by
        rw [Real.sqrt_lt' (by norm_num)]; norm_num
      have h3' : 0 < Real.sqrt 3 := Real.sqrt_pos.mpr (by norm_num)
      rw [unit, unit, e1, e2, cross_apply]
      simp
      rw [abs_of_pos h3']
      rw [lt_inv_comm₀ (by norm_num) h3']
      linarith
    have hb : ∀ i, ∃ τ σ, 0 ≤ τ ∧ 0 ≤ σ ∧ (0 : R3) i + τ * (![1, 1, 1] : R3) i = (![1, 0, 0] : R3) i + σ * (![0, 1, 0] : R3) i := by
      intro i
      fin_cases i
      · exact ⟨1, 0, by norm_num, le_rfl, by simp⟩
      · exact ⟨0, 0, le_rfl, le_rfl, by simp⟩
      · exact ⟨0, 0, le_rfl, le_rfl, by simp⟩
    obtain ⟨p, _, hp⟩ := C48_always s t _ _ _ _ hs ht (1 / 1000000) (hv ▸ Fl.is_lit _) (by norm_num) hcut hb
    exact ⟨p, hp⟩

/-- C48: rays whose lines meet behind both origins are reported, at a point of neither intersection. Witness: from the
origin along `(1,1,0)` and from `(2,0,0)` along `(3,1,0)`; the lines meet in `(-1,-1,0)`, the answer is `(1,1,0)`. -/
theorem C48_behind_false : ∃ (s t : Ray3 ℝ) (o d o' d' : R3), s.Made o d ∧ t.Made o' d' ∧ s.vicinity = defaultVicinity ∧
    rayPts o d ∩ rayPts o' d' = ∅ ∧ Shape.Finds (.ray s) (.ray t) ![1, 1, 0] := by
  have hd : (![1, 1, 0] : R3) ≠ 0 := fun h => by simpa using congrFun h 0
  have hd' : (![3, 1, 0] : R3) ≠ 0 := fun h => by simpa using congrFun h 1
  obtain ⟨s, hs, hv⟩ := Ray3.exists_made 0 hd defaultVicinity
  obtain ⟨t, ht, _⟩ := Ray3.exists_made ![2, 0, 0] hd' defaultVicinity
  refine ⟨s, t, _, _, _, _, hs, ht, hv, ?_, ?_⟩
  · ext p
    simp only [Set.mem_inter_iff, Set.mem_empty_iff_false, iff_false, not_and]
    rintro ⟨τ, hτ, rfl⟩ ⟨σ, hσ, e⟩
    have e0 := congrFun e 0
    have e2 := congrFun e 1
    simp at e0 e2
    linarith
  · have p1 : 0 < euc (![1, 1, 0] : R3) := euc_pos hd
    have p2 : 0 < euc (![3, 1, 0] : R3) := euc_pos hd'
    have e1 : euc (![1, 1, 0] : R3) = Real.sqrt 2 := by
      rw [euc_eq, Fin.sum_univ_three]; simp; norm_num
    have e2 : euc (![3, 1, 0] : R3) = Real.sqrt 10 := by
      rw [euc_eq, Fin.sum_univ_three]; simp; norm_num
    have hx : unit ![1, 1, 0] ⨯₃ unit ![3, 1, 0] = (euc ![1, 1, 0])⁻¹ • (euc ![3, 1, 0])⁻¹ • (![0, 0, -2] : R3) := by
      rw [unit, unit, cross_apply]
      ext i; fin_cases i <;> simp; ring
    have hy : ((![2, 0, 0] : R3) - 0) ⨯₃ unit ![3, 1, 0] = (euc ![3, 1, 0])⁻¹ • (![0, 0, 2] : R3) := by
      rw [unit, cross_apply]
      ext i; fin_cases i <;> simp; ring
    have n1 : euc (![0, 0, -2] : R3) = 2 := by
      have := euc_single 2 (-2)
      rw [show (Pi.single 2 (-2) : R3) = ![0, 0, -2] by ext i; fin_cases i <;> simp] at this
      rw [this]; norm_num
    have n2 : euc (![0, 0, 2] : R3) = 2 := by
      have := euc_single 2 2
      rw [show (Pi.single 2 2 : R3) = ![0, 0, 2] by ext i; fin_cases i <;> simp] at this
      rw [this]; norm_num
    have hcut : ∃ i, 1 / 10000 < |(unit ![1, 1, 0] ⨯₃ unit ![3, 1, 0]) i| := by
      refine ⟨2, ?_⟩
      have h2 : euc (![1, 1, 0] : R3) < 4 := by
        rw [e1, Real.sqrt_lt' (by norm_num)]; norm_num
      have h10 : euc (![3, 1, 0] : R3) < 4 := by
        rw [e2, Real.sqrt_lt' (by norm_num)]; norm_num
      rw [hx]
      generalize euc ![1, 1, 0] = a at *
      generalize euc ![3, 1, 0] = b at *
      have ha : 1 / 4 < a⁻¹ := by rw [one_div, inv_lt_inv₀ (by norm_num) p1]; exact h2
      have hb : 1 / 4 < b⁻¹ := by rw [one_div, inv_lt_inv₀ (by norm_num) p2]; exact h10
      show _ < |a⁻¹ * (b⁻¹ * (-2))|
      rw [abs_mul, abs_mul, abs_of_pos (inv_pos.mpr p1), abs_of_pos (inv_pos.mpr p2)]
      norm_num at ha hb ⊢
      nlinarith
    have hb : ∀ i, ∃ τ σ, 0 ≤ τ ∧ 0 ≤ σ ∧ (0 : R3) i + τ * (![1, 1, 0] : R3) i = (![2, 0, 0] : R3) i + σ * (![3, 1, 0] : R3) i := by
      intro i
      fin_cases i
      · exact ⟨2, 0, by norm_num, le_rfl, by simp⟩
      · exact ⟨0, 0, le_rfl, le_rfl, by simp⟩
      · exact ⟨0, 0, le_rfl, le_rfl, by simp⟩
    obtain ⟨loc, hl, hl'⟩ := (rayRay_core s t _ _ _ _ hs ht (1 / 1000000) (hv ▸ Fl.is_lit _) (by norm_num)).1 hcut
    refine ⟨loc, ?_, ?_⟩
    · rw [getIntersect_eq 0, if_pos (show AABB.overlap (Shape.ray s).aabb (Shape.ray t).aabb = true from (rays_overlap hs ht).mpr hb), hl]
    · rw [hx, hy, euc_smul, euc_smul, euc_smul, n1, n2] at hl'
      refine hl'.cast ?_
      rw [unit, abs_of_pos (inv_pos.mpr p1), abs_of_pos (inv_pos.mpr p2), smul_smul]
      generalize euc ![1, 1, 0] = a at *
      generalize euc ![3, 1, 0] = b at *
      rw [show b⁻¹ * 2 / (a⁻¹ * (b⁻¹ * 2)) * a⁻¹ = 1 by field_simp]
      simp

/-- the unit vector of a multiple -/
theorem unit_smul {d : R3} (hd : d ≠ 0) {k : ℝ} (hk : k ≠ 0) : 0 < k ∧ unit (k • d) = unit d ∨ k < 0 ∧ unit (k • d) = -unit d := by
  have h := (euc_pos hd).ne'
  rcases lt_or_gt_of_ne hk with h' | h'
  · refine .inr ⟨h', ?_⟩
    rw [unit, unit, euc_smul, abs_of_neg h', smul_smul, show (-k * euc d)⁻¹ * k = -(euc d)⁻¹ by field_simp, neg_smul]
  · refine .inl ⟨h', ?_⟩
    rw [unit, unit, euc_smul, abs_of_pos h', smul_smul, show (k * euc d)⁻¹ * k = (euc d)⁻¹ by field_simp]

/-- C48: parallel rays that share a point are reported, with a shared point. -/
theorem C48_parallel_meet (s t : Ray3 ℝ) (o d o' : R3) (k : ℝ) (hk : k ≠ 0) (hs : s.Made o d) (ht : t.Made o' (k • d))
    (ε : ℝ) (hv : s.vicinity.Is ε) (h0 : 0 ≤ ε) (h : (rayPts o d ∩ rayPts o' (k • d)).Nonempty) :
    ∃ p ∈ rayPts o d ∩ rayPts o' (k • d), Shape.Finds (.ray s) (.ray t) p := by
  obtain ⟨_, _, c3, c4⟩ := rayRay_core s t _ _ _ _ hs ht ε hv h0
  have hq := query_meet (.ray hs) (.ray ht) h
  obtain ⟨q, h1, h2⟩ := h
  obtain ⟨τ, hτ, rfl⟩ := (rayPts_unit hs.1).mp h1
  obtain ⟨σ, hσ, e⟩ := (rayPts_unit ht.1).mp h2
  have hu : unit d ⬝ᵥ unit d = 1 := by rw [← euc_sq, euc_unit hs.1, one_mul]
  have m1 : ∀ x : ℝ, 0 ≤ x → o + x • unit d ∈ rayPts o d := fun x hx => (rayPts_unit hs.1).mpr ⟨x, hx, rfl⟩
  have m2 : ∀ x : ℝ, 0 ≤ x → o' + x • unit (k • d) ∈ rayPts o' (k • d) := fun x hx => (rayPts_unit ht.1).mpr ⟨x, hx, rfl⟩
  have eu : euc (unit d) = 1 := euc_unit hs.1
  rcases unit_smul hs.1 hk with ⟨_, hw⟩ | ⟨_, hw⟩
  · rw [hw] at c3 c4 e m2
    generalize unit d = u at *
    have hD : o' - o = (τ - σ) • u := by rw [sub_smul, eq_sub_iff_add_eq.mpr e.symm]; abel
    simp only [hD, cross_self, map_smul, smul_zero, Pi.zero_apply, abs_zero] at c3 c4
    have z : euc (0 : R3) ≤ ε := by rw [(euc_eq_zero _).mpr rfl]; exact h0
    have du : ((τ - σ) • u) ⬝ᵥ u = τ - σ := by rw [smul_dotProduct, hu]; simp
    rw [du] at c3 c4
    rcases lt_or_ge (τ - σ) 0 with hc | hc
    · obtain ⟨loc, a, b⟩ := c3 (by norm_num) z hc
      refine ⟨o, ⟨by simpa using m1 0 le_rfl, ?_⟩, loc, by rw [hq, a], b⟩
      have := m2 (-(τ - σ)) (by linarith)
      rwa [show o' + (-(τ - σ)) • u = o by rw [neg_smul, ← hD]; abel] at this
    · obtain ⟨loc, a, b⟩ := c4 (by norm_num) z hc
      rw [euc_smul, eu, abs_of_nonneg hc, mul_one] at b
      refine ⟨_, ⟨m1 _ hc, ?_⟩, loc, by rw [hq, a], b⟩
      rw [← hD, add_sub_cancel]
      have := m2 0 le_rfl
      rwa [zero_smul, add_zero] at this
  · rw [hw] at c3 c4 e m2
    generalize unit d = u at *
    have hD : o' - o = (τ + σ) • u := by
      rw [add_smul, eq_sub_iff_add_eq.mpr e.symm, smul_neg]; abel
    have hc : 0 ≤ τ + σ := add_nonneg hτ hσ
    have z : euc (0 : R3) ≤ ε := by rw [(euc_eq_zero _).mpr rfl]; exact h0
    have du : ((τ + σ) • u) ⬝ᵥ u = τ + σ := by rw [smul_dotProduct, hu]; simp
    simp only [hD, cross_self, map_smul, map_neg, smul_zero, neg_zero, Pi.zero_apply, abs_zero, du] at c4
    obtain ⟨loc, a, b⟩ := c4 (by norm_num) z hc
    rw [euc_smul, eu, abs_of_nonneg hc, mul_one] at b
    refine ⟨_, ⟨m1 _ hc, ?_⟩, loc, by rw [hq, a], b⟩
    rw [← hD, add_sub_cancel]
    have := m2 0 le_rfl
    rwa [zero_smul, add_zero] at this

/-- concrete case: two opposite rays that share a segment -/
example := C48_parallel_meet _ _ _ _ _ (-2) (by norm_num) (mkRay_made 0 axX_ne (.fin 1))
  (mkRay_made ![3, 0, 0] (smul_ne_zero (by norm_num : (-2 : ℝ) ≠ 0) axX_ne) 0) 1 (mkRay_vicIs ..) (by norm_num)
  ⟨![1, 0, 0], ⟨1, by norm_num, by ext i; fin_cases i <;> simp⟩, ⟨1, by norm_num, by ext i; fin_cases i <;> simp; norm_num⟩⟩

/-- C48: parallel rays all of whose points are further apart than the tolerance are not reported. -/
theorem C48_parallel_miss (s t : Ray3 ℝ) (o d o' : R3) (k : ℝ) (hk : k ≠ 0) (hs : s.Made o d) (ht : t.Made o' (k • d))
    (ε : ℝ) (hv : s.vicinity.Is ε) (h0 : 0 ≤ ε) (h : ∀ p ∈ rayPts o d, ∀ q ∈ rayPts o' (k • d), ε < euc (p - q)) :
    Shape.Misses (.ray s) (.ray t) := by
  obtain ⟨_, c2, _, _⟩ := rayRay_core s t _ _ _ _ hs ht ε hv h0
  have hu : unit d ⬝ᵥ unit d = 1 := by rw [← euc_sq, euc_unit hs.1, one_mul]
  have m1 : ∀ x : ℝ, 0 ≤ x → o + x • unit d ∈ rayPts o d := fun x hx => (rayPts_unit hs.1).mpr ⟨x, hx, rfl⟩
  have m2 : ∀ x : ℝ, 0 ≤ x → o' + x • unit (k • d) ∈ rayPts o' (k • d) := fun x hx => (rayPts_unit ht.1).mpr ⟨x, hx, rfl⟩
  rcases lt_or_ge ε (euc (unit d ⨯₃ (o' - o))) with hc | hc
  · have hm := c2 (by
      intro i
      rcases unit_smul hs.1 hk with ⟨_, hw⟩ | ⟨_, hw⟩ <;> rw [hw] <;> simp) hc
    rcases query_cases (.ray s) (.ray t) with hq | hq
    · exact hq.trans hm
    · exact hq
  · have hl := lagrange (unit d) (o' - o) hu
    rw [← hl] at hc
    unfold Shape.Misses
    rcases unit_smul hs.1 hk with ⟨_, hw⟩ | ⟨hk', hw⟩
    · exfalso
      rw [hw] at m2
      generalize unit d = u at *
      rcases le_total 0 ((o' - o) ⬝ᵥ u) with hn | hn
      · have := h _ (m1 _ hn) _ (m2 0 le_rfl)
        rw [euc_sub_comm] at this
        rw [show o' + (0 : ℝ) • u - (o + ((o' - o) ⬝ᵥ u) • u) = o' - o - ((o' - o) ⬝ᵥ u) • u by module] at this
        linarith
      · have := h _ (m1 0 le_rfl) _ (m2 (-((o' - o) ⬝ᵥ u)) (by linarith))
        rw [euc_sub_comm] at this
        rw [show o' + (-((o' - o) ⬝ᵥ u)) • u - (o + (0 : ℝ) • u) = o' - o - ((o' - o) ⬝ᵥ u) • u by module] at this
        linarith
    · rw [hw] at m2
      rcases le_or_gt 0 ((o' - o) ⬝ᵥ unit d) with hn | hn
      · exfalso
        generalize unit d = u at *
        have := h _ (m1 _ hn) _ (m2 0 le_rfl)
        rw [euc_sub_comm] at this
        rw [show o' + (0 : ℝ) • (-u) - (o + ((o' - o) ⬝ᵥ u) • u) = o' - o - ((o' - o) ⬝ᵥ u) • u by module] at this
        linarith
      · have hov : AABB.overlap (Shape.ray s).aabb (Shape.ray t).aabb = false := by
          rw [Bool.eq_false_iff]
          intro hov
          have hov := (rays_overlap hs ht).mp hov
          have hn' : (o' - o) ⬝ᵥ d < 0 := by
            have : (o' - o) ⬝ᵥ unit d = (euc d)⁻¹ * ((o' - o) ⬝ᵥ d) := dotProduct_smul _ _ _
            rw [this] at hn
            by_contra hge
            exact absurd (mul_nonneg (inv_pos.mpr (euc_pos hs.1)).le (not_lt.mp hge)) (not_le.mpr hn)
          have nn : ∀ i, 0 ≤ (o' - o) i * d i := by
            intro i
            obtain ⟨τ, σ, hτ, hσ, e⟩ := hov i
            have e : o i + τ * d i = o' i + σ * (k * d i) := e
            show 0 ≤ (o' i - o i) * d i
            have : o' i - o i = (τ - σ * k) * d i := by linarith
            rw [this, mul_assoc]
            exact mul_nonneg (by nlinarith) (mul_self_nonneg _)
          exact absurd (Finset.sum_nonneg fun i (_ : i ∈ Finset.univ) => nn i) (not_le.mpr hn')
        rw [getIntersect_eq 0, hov]; rfl

/-- concrete case: parallel rays at distance 2, tolerance 1 -/
example : Shape.Misses (.ray (mkRay 0 axX_ne (.fin 1)))
    (.ray (mkRay ![0, 2, 0] (smul_ne_zero (by norm_num : (-1 : ℝ) ≠ 0) axX_ne) 0)) :=
  C48_parallel_miss _ _ _ _ _ (-1) (by norm_num) (mkRay_made ..) (mkRay_made ..) 1 (mkRay_vicIs ..) (by norm_num) (by
    rintro p ⟨τ, _, rfl⟩ q ⟨σ, _, rfl⟩
    refine lt_of_lt_of_le ?_ (euc_coord_le _ 1)
    simp)

/-- C48: rays that meet in a single point but are nearly parallel (below the cut-off) are missed. Witness: along `x` from the
origin and along `(1, 1/20000, 0)` from `(0, -1/20000, 0)`; they cross in `(1,0,0)`, distance about `1` from both origins,
with the default tolerance. -/
theorem C48_near_false : ∃ (s t : Ray3 ℝ) (o d o' d' : R3), s.Made o d ∧ t.Made o' d' ∧ s.vicinity = defaultVicinity ∧
    rayPts o d ∩ rayPts o' d' = {![1, 0, 0]} ∧ Shape.Misses (.ray s) (.ray t) := by
  have hd : (![1, 0, 0] : R3) ≠ 0 := fun h => by simpa using congrFun h 0
  have hd' : (![1, 1 / 20000, 0] : R3) ≠ 0 := fun h => by simpa using congrFun h 0
  obtain ⟨s, hs, hv⟩ := Ray3.exists_made 0 hd defaultVicinity
  obtain ⟨t, ht, _⟩ := Ray3.exists_made ![0, -1 / 20000, 0] hd' defaultVicinity
  have e1 : euc (![1, 0, 0] : R3) = 1 := by
    rw [euc_eq, Fin.sum_univ_three]; simp
  have e2 : 1 ≤ euc (![1, 1 / 20000, 0] : R3) := by
    simpa using euc_coord_le ![1, 1 / 20000, 0] 0
  refine ⟨s, t, _, _, _, _, hs, ht, hv, ?_, ?_⟩
  · ext p
    simp only [Set.mem_inter_iff, Set.mem_singleton_iff]
    constructor
    · rintro ⟨⟨τ, hτ, rfl⟩, ⟨σ, hσ, e⟩⟩
      have e0 := congrFun e 0
      have e2 := congrFun e 1
      simp at e0 e2
      have : τ = 1 := by linarith
      subst this
      simp
    · rintro rfl
      refine ⟨⟨1, by norm_num, by simp⟩, ⟨1, by norm_num, ?_⟩⟩
      ext i; fin_cases i <;> simp; norm_num
  · have hu : unit (![1, 0, 0] : R3) = ![1, 0, 0] := by rw [unit, e1]; simp
    have hx : unit ![1, 0, 0] ⨯₃ unit ![1, 1 / 20000, 0] = (euc ![1, 1 / 20000, 0])⁻¹ • (![0, 0, 1 / 20000] : R3) := by
      rw [hu, unit, cross_apply]
      ext i; fin_cases i <;> simp
    have hm := (rayRay_core s t _ _ _ _ hs ht (1 / 1000000) (hv ▸ Fl.is_lit _) (by norm_num)).2.1 (by
      intro i
      rw [hx]
      generalize euc ![1, 1 / 20000, 0] = a at *
      have ha : a⁻¹ ≤ 1 := inv_le_one_of_one_le₀ e2
      have ha' : 0 < a⁻¹ := inv_pos.mpr (by linarith)
      show |a⁻¹ * (![0, 0, 1 / 20000] : R3) i| ≤ _
      rw [abs_mul, abs_of_pos ha']
      fin_cases i <;> simp
      linarith) (by
      refine lt_of_lt_of_le ?_ (euc_coord_le _ 2)
      rw [hu, cross_apply]
      simp
      rw [abs_of_neg (by norm_num)]; norm_num)
    rcases query_cases (.ray s) (.ray t) with hq | hq
    · exact hq.trans hm
    · exact hq

end Mazth
