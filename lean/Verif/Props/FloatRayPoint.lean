import Verif.Props.FloatRaySphere
import Verif.Props.FloatSupport

/-!
# C80: ray against point in floating point

The query divides `p - o` by the direction componentwise and accepts when neighbouring quotients agree up to the tolerance
(/repo/lib/ray.rs:141-165).
-/

set_option autoImplicit false
set_option linter.unusedSectionVars false

namespace Mazth

open RndErr Matrix

section shape

variable {K : Type} [Field K] [LinearOrder K] [IsStrictOrderedRing K] [Fmt K] [LawfulFmt K] [RndErr K]

theorem rayPoint_core_K (s : Ray3 K) (t : Point3 K) : core (.ray s) (.point t) =
    (let q := V3.dv (V3.sub t.ori s.ori) s.dir
     .ok (if !withinVicinity s.vicinity q.val[0] q.val[1] || !withinVicinity s.vicinity q.val[1] q.val[2] then (false, none)
      else if Fl.le 0 q.val[0] then (true, some (V3.add (V3.scl s.dir q.val[0]) s.ori)) else (false, none))) := by
  show Ray3.intersectPoint _ _ = _
  unfold Ray3.intersectPoint
  simp only [vecAt_point, Res.ok_bind, V3.minus_eq, V3.div_eq, V3.scale_eq, V3.plus_eq, unwrap_some, Res.pure_eq]
  split
  · rfl
  · split <;> rfl

/-- a float between two finite ones is finite -/
theorem finite_between {x y z : Fl K} {a c : K} (hx : x.Is a) (hz : z.Is c) (h1 : Fl.le x y = true) (h2 : Fl.le y z = true) : ∃ b, y.Is b := by
  cases y with
  | nan => exact absurd rfl (Fl.le_ne_nan h2).1
  | inf s =>
    cases s
    · rcases hz.kcases with rfl | ⟨rfl, -⟩ <;> simp [Fl.le] at h2
    · rcases hx.kcases with rfl | ⟨rfl, -⟩ <;> simp [Fl.le] at h1
  | nzero => exact ⟨0, rfl⟩
  | fin v => exact ⟨v, rfl⟩

theorem within_parts {v a b : Fl K} (h : withinVicinity v a b = true) : Fl.le b (a + v) = true ∧ Fl.le (a - v) b = true := by
  unfold withinVicinity at h; simpa using h

theorem within_left_finite {v a b : Fl K} {ε y : K} (hv : v.Is ε) (hb : b.Is y) (h : withinVicinity v a b = true) : ∃ x, a.Is x := by
  obtain ⟨h1, h2⟩ := within_parts h
  have ainf (s : Bool) {w : Fl K} {e : K} (hw : w.Is e) : Fl.inf s + w = Fl.inf s := by
    rcases hw.kcases with rfl | ⟨rfl, _⟩ <;> rfl
  cases a with
  | nan => rw [C53_nan _ _ _ (.inr (.inl rfl))] at h; cases h
  | inf s =>
    rw [ainf s hv] at h1
    rw [Fl.sub_eq, ainf s hv.kneg] at h2
    cases s
    · rcases hb.kcases with rfl | ⟨rfl, -⟩ <;> simp [Fl.le] at h2
    · rcases hb.kcases with rfl | ⟨rfl, -⟩ <;> simp [Fl.le] at h1
  | nzero => exact ⟨0, rfl⟩
  | fin x => exact ⟨x, rfl⟩

theorem lit_zero_is : (Fl.lit (0 : K)).Is 0 := by rw [Fl.lit_zero]; rfl

theorem sub_le_bound {v a b : Fl K} {ε x y : K} (ha : a.Holds x) (hv : v.Holds ε) (hb : b.Is y) (h : Fl.le (a - v) b = true) :
    x - ε ≤ 2 * |y| := by
  by_contra hc
  push Not at hc
  have h0 : 0 < x - ε := lt_of_le_of_lt (by positivity) hc
  obtain ⟨c, hc'⟩ := finite_between lit_zero_is hb (Fl.le_trans (Fl.lit_mono h0.le) (ha.1.sub_lit hv.1).2) h
  have h1 := Fl.sub_err ha.1 hv.1 ha.2 hv.2 hc'
  rw [abs_of_pos h0] at h1
  have h2 := (hc'.kle hb).mp h
  have h3 : u * (x - ε) ≤ 1 / 64 * (x - ε) := mul_le_mul_of_nonneg_right (by have := u_le (K := K); linarith) h0.le
  linarith [(abs_le.mp h1).1, le_abs_self y]

theorem add_ge_bound {v a b : Fl K} {ε x y : K} (ha : a.Holds x) (hv : v.Holds ε) (hb : b.Is y) (h : Fl.le b (a + v) = true) :
    -(2 * |y|) ≤ x + ε := by
  by_contra hc
  push Not at hc
  have h0 : x + ε < 0 := lt_of_lt_of_le hc (by simp)
  obtain ⟨c, hc'⟩ := finite_between hb lit_zero_is h (Fl.le_trans (ha.1.add_lit hv.1).1 (Fl.lit_mono h0.le))
  have h1 := Fl.add_err ha.1 hv.1 ha.2 hv.2 hc'
  rw [abs_of_neg h0] at h1
  have h2 := (hb.kle hc').mp h
  have h3 : u * -(x + ε) ≤ 1 / 64 * -(x + ε) := mul_le_mul_of_nonneg_right (by have := u_le (K := K); linarith) (by linarith)
  linarith [(abs_le.mp h1).2, neg_abs_le y]

/-- accepted values agree up to the tolerance and rounding -/
theorem within_err {v a b : Fl K} {ε x y M : K} (ha : a.Holds x) (hv : v.Holds ε) (hb : b.Is y) (hε : 0 ≤ ε) (hεM : ε ≤ M) (hx : |x| ≤ 15 * M)
    (hM : 64 * (M + 1) ≤ (omega : K)) (h : withinVicinity v a b = true) : |x - y| ≤ ε + 16 * u * M := by
  obtain ⟨h1, h2⟩ := within_parts h
  have hu := u_pos (K := K)
  have a1 : |x + ε| ≤ 16 * M := (abs_add_le _ _).trans (by rw [abs_of_nonneg hε]; linarith)
  have a2 : |x - ε| ≤ 16 * M := (abs_sub _ _).trans (by rw [abs_of_nonneg hε]; linarith)
  obtain ⟨c, hc⟩ := Fl.add_fin ha.1 hv.1 (a1.trans (by linarith))
  obtain ⟨e, he⟩ := Fl.sub_fin ha.1 hv.1 (a2.trans (by linarith))
  have b1 := Fl.add_err ha.1 hv.1 ha.2 hv.2 hc
  have b2 := Fl.sub_err ha.1 hv.1 ha.2 hv.2 he
  have c1 := (hb.kle hc).mp h1
  have c2 := (he.kle hb).mp h2
  have d1 := mul_le_mul_of_nonneg_left a1 hu.le
  have d2 := mul_le_mul_of_nonneg_left a2 hu.le
  have := (abs_le.mp b1).2
  have := (abs_le.mp b2).1
  rw [abs_le]
  constructor <;> linarith

/-- values that agree up to the tolerance with room for rounding are accepted -/
theorem within_of {v a b : Fl K} {ε x y M : K} (ha : a.Holds x) (hv : v.Holds ε) (hb : b.Is y) (hε : 0 ≤ ε) (hεM : ε ≤ M) (hx : |x| ≤ 15 * M)
    (hM : 64 * (M + 1) ≤ (omega : K)) (h : |x - y| ≤ ε - 16 * u * M) : withinVicinity v a b = true := by
  have hu := u_pos (K := K)
  have a1 : |x + ε| ≤ 16 * M := (abs_add_le _ _).trans (by rw [abs_of_nonneg hε]; linarith)
  have a2 : |x - ε| ≤ 16 * M := (abs_sub _ _).trans (by rw [abs_of_nonneg hε]; linarith)
  obtain ⟨c, hc⟩ := Fl.add_fin ha.1 hv.1 (a1.trans (by linarith))
  obtain ⟨e, he⟩ := Fl.sub_fin ha.1 hv.1 (a2.trans (by linarith))
  have b1 := Fl.add_err ha.1 hv.1 ha.2 hv.2 hc
  have b2 := Fl.sub_err ha.1 hv.1 ha.2 hv.2 he
  have d1 := mul_le_mul_of_nonneg_left a1 hu.le
  have d2 := mul_le_mul_of_nonneg_left a2 hu.le
  have := (abs_le.mp b1).1
  have := (abs_le.mp b2).2
  obtain ⟨k1, k2⟩ := abs_le.mp h
  unfold withinVicinity
  rw [Bool.and_eq_true, hb.kle hc, he.kle hb]
  constructor <;> linarith

theorem step_left {v a b : Fl K} {ε y M : K} (ha : a.WF) (hv : v.Holds ε) (hb : b.Is y) (hε : 0 ≤ ε) (hεM : ε ≤ M) (hy : |y| ≤ 13 / 2 * M)
    (hM : 64 * (M + 1) ≤ (omega : K)) (h : withinVicinity v a b = true) : ∃ x, a.Holds x ∧ |x - y| ≤ ε + 16 * u * M ∧ |x| ≤ |y| + 5 / 4 * M := by
  obtain ⟨x, hx⟩ := within_left_finite hv.1 hb h
  have hx : a.Holds x := ⟨hx, ha⟩
  obtain ⟨h1, h2⟩ := within_parts h
  have k1 := sub_le_bound hx hv hb h2
  have k2 := add_ge_bound hx hv hb h1
  have k3 := within_err hx hv hb hε hεM (abs_le.mpr ⟨by linarith, by linarith⟩) hM h
  refine ⟨x, hx, k3, ?_⟩
  have h4 : u * M ≤ 1 / 64 * M := mul_le_mul_of_nonneg_right (by have := u_le (K := K); linarith) (hε.trans hεM)
  have h3 := abs_add_le (x - y) y
  rw [sub_add_cancel] at h3
  linarith

theorem step_right {v a b : Fl K} {ε x M : K} (ha : a.Holds x) (hbw : b.WF) (hv : v.Holds ε) (hε : 0 ≤ ε) (hεM : ε ≤ M) (hx : |x| ≤ 13 / 2 * M)
    (hM : 64 * (M + 1) ≤ (omega : K)) (h : withinVicinity v a b = true) : ∃ y, b.Holds y ∧ |x - y| ≤ ε + 16 * u * M ∧ |y| ≤ |x| + 5 / 4 * M := by
  obtain ⟨h1, h2⟩ := within_parts h
  have hM0 := hε.trans hεM
  have a1 : |x + ε| ≤ 16 * M := (abs_add_le _ _).trans (by rw [abs_of_nonneg hε]; linarith)
  have a2 : |x - ε| ≤ 16 * M := (abs_sub _ _).trans (by rw [abs_of_nonneg hε]; linarith)
  obtain ⟨c, hc⟩ := Fl.add_fin ha.1 hv.1 (a1.trans (by linarith))
  obtain ⟨e, he⟩ := Fl.sub_fin ha.1 hv.1 (a2.trans (by linarith))
  obtain ⟨y, hy⟩ := finite_between he hc h2 h1
  have k3 := within_err ha hv hy hε hεM (hx.trans (by linarith)) hM h
  refine ⟨y, ⟨hy, hbw⟩, k3, ?_⟩
  have h4 : u * M ≤ 1 / 64 * M := mul_le_mul_of_nonneg_right (by have := u_le (K := K); linarith) hM0
  have h3 := abs_sub x (x - y)
  rw [sub_sub_cancel] at h3
  linarith

theorem u_omega_le : (u * omega : K) ≤ omega := by
  have : (0 : K) < omega := by have := four_le (K := K); linarith
  have := u_le (K := K)
  nlinarith

/-- the sign of a quotient -/
theorem div_nonneg_is {x y : Fl K} {a b c : K} (hx : x.Is a) (hy : y.Is b) (hb : b ≠ 0) (h : (x / y).Is c) (h0 : 0 ≤ a / b) : 0 ≤ c := by
  by_cases ha : a = 0
  · have key : ∀ (s : Bool) (b : K), b ≠ 0 → (Fl.divFin s 0 b).Is c → 0 ≤ c := by
      intro s b hb h
      unfold Fl.divFin at h
      rw [if_neg hb, if_pos rfl] at h
      exact ((Fl.kzeroIs s).kunique h).le
    subst ha
    rcases hx.kcases with rfl | ⟨rfl, -⟩ <;> rcases hy.kcases with rfl | ⟨rfl, rfl⟩
    · exact key _ _ hb h
    · exact absurd rfl hb
    · exact key _ _ hb h
    · exact absurd rfl hb
  · rcases Fl.div_core hx hy hb h with ⟨h1, -⟩ | h
    · exact absurd h1 ha
    · rw [← Fl.lit_of_ne (div_ne_zero ha hb)] at h
      exact (lit_zero_is.kle h).mp (Fl.lit_mono h0)

theorem div_finite_den {x y : Fl K} {a b c : K} (hx : x.Is a) (hy : y.Is b) (h : (x / y).Is c) : b ≠ 0 := by
  rintro rfl
  have key : ∀ (s : Bool) (a : K), ¬ (Fl.divFin s a 0).Is c := by
    intro s a h
    unfold Fl.divFin at h
    rw [if_pos rfl] at h
    split at h <;> cases h
  rcases hx.kcases with rfl | ⟨rfl, -⟩ <;> rcases hy.kcases with rfl | ⟨rfl, -⟩ <;> first | exact key _ _ h | cases h

end shape

section real

/-- some component of a unit vector is large -/
theorem unit_large {k : R3} (hk : k ⬝ᵥ k = 1) : ∃ i, 57 / 100 ≤ |k i| := by
  by_contra hc
  push Not at hc
  have h (i : Fin 3) : k i * k i ≤ 57 / 100 * (57 / 100) := by
    rw [← abs_mul_abs_self]; exact mul_le_mul (hc i).le (hc i).le (abs_nonneg _) (by norm_num)
  rw [dotProduct, Fin.sum_univ_three] at hk
  linarith [h 0, h 1, h 2]

theorem euc_le_two {v : R3} {B : ℝ} (hB : 0 ≤ B) (h : ∀ i, |v i| ≤ B) : euc v ≤ 2 * B := by
  have e := euc_sq v
  rw [dotProduct, Fin.sum_univ_three] at e
  have sq (j : Fin 3) : v j * v j ≤ B * B := by
    rw [← abs_mul_abs_self]; exact mul_le_mul (h j) (h j) (abs_nonneg _) hB
  refine abs_le_of_sq_le_sq' ?_ (by linarith) |>.2
  nlinarith [sq 0, sq 1, sq 2, mul_nonneg hB hB]

/-- one coordinate of the point against the point of the ray at parameter `S` -/
theorem raypoint_real {w W E e T S t h M δ : ℝ} (ht : 0 < t) (htl : t ≤ 1 / 64) (hh : 0 < h) (e1 : h ≤ t) (e2 : h ≤ t * M) (hM : 0 < M)
    (hw : |w| ≤ 2 * M) (hW : |W - w| ≤ t * |w|) (hE0 : E ≠ 0) (he : |e| ≤ 1) (hE : |E - e| ≤ 5 * t * |e| + h) (hT : |T - W / E| ≤ t * |W / E| + h)
    (hS : |S| ≤ 8 * M) (hδ : |T - S| ≤ δ) (hδM : δ ≤ 4 * M) : |w - S * e| ≤ δ + 80 * t * M := by
  have a1 : t * |w| ≤ 2 * (t * M) := by nlinarith
  have a2 : |W| ≤ 33 / 16 * M := by
    have := abs_add_le (W - w) w
    rw [sub_add_cancel] at this
    have : t * M ≤ 1 / 64 * M := mul_le_mul_of_nonneg_right htl hM.le
    linarith
  have a3 : |E - e| ≤ 6 * t := by
    have : 5 * t * |e| ≤ 5 * t * 1 := mul_le_mul_of_nonneg_left he (by linarith)
    linarith
  have a4 : |E| ≤ 1 + 6 * t := by
    have := abs_add_le (E - e) e
    rw [sub_add_cancel] at this; linarith
  have a5 : |W - T * E| ≤ t * |W| + h * |E| := by
    have h1 := mul_le_mul_of_nonneg_right hT (abs_nonneg E)
    rw [← abs_mul, sub_mul, div_mul_cancel₀ _ hE0, add_mul, mul_assoc, ← abs_mul, div_mul_cancel₀ _ hE0, abs_sub_comm] at h1
    exact h1
  have a6 : t * |W| ≤ 33 / 16 * (t * M) := by nlinarith
  have a7 : h * |E| ≤ 2 * (t * M) := by nlinarith [abs_nonneg E]
  have a8 : |(T - S) * E| ≤ δ + 24 * (t * M) := by
    rw [abs_mul]
    have hδ0 : 0 ≤ δ := (abs_nonneg _).trans hδ
    have : |T - S| * |E| ≤ δ * (1 + 6 * t) := mul_le_mul hδ a4 (abs_nonneg _) hδ0
    nlinarith
  have a9 : |S * (E - e)| ≤ 48 * (t * M) := by
    rw [abs_mul]
    have : |S| * |E - e| ≤ 8 * M * (6 * t) := mul_le_mul hS a3 (abs_nonneg _) (by linarith)
    nlinarith
  have e0 : w - S * e = -(W - w) + (W - T * E) + (T - S) * E + S * (E - e) := by ring
  rw [e0]
  have b1 := abs_add_le (-(W - w) + (W - T * E) + (T - S) * E) (S * (E - e))
  have b2 := abs_add_le (-(W - w) + (W - T * E)) ((T - S) * E)
  have b3 := abs_add_le (-(W - w)) (W - T * E)
  rw [abs_neg] at b3
  nlinarith

/-- the computed quotient -/
theorem quotient_real {w W E e T t h M : ℝ} (ht : 0 < t) (htl : t ≤ 1 / 64) (hh : 0 < h) (e2 : h ≤ t * M) (hM : 0 < M)
    (hW : |W - w| ≤ t * |w|) (hE0 : e ≠ 0) (hE : |E - e| ≤ 5 * t * |e| + h) (hlo : h ≤ t * |e|)
    (hT : E ≠ 0 → |T - W / E| ≤ t * |W / E| + h) (hτ : |w / e| ≤ 6 * M) :
    E ≠ 0 ∧ |W / E| ≤ 7 * M ∧ (0 ≤ w / e → 0 ≤ W / E) ∧ |T - w / e| ≤ 56 * t * M := by
  have pe := abs_pos.mpr hE0
  have a1 : |E - e| ≤ 6 * t * |e| := by linarith
  have a2 : 6 * t * |e| ≤ 6 / 64 * |e| := by nlinarith
  have a3 : 58 / 64 * |e| ≤ |E| := by
    have := abs_sub E (E - e)
    rw [sub_sub_cancel] at this; linarith
  have pE : 0 < |E| := by linarith
  have nE : E ≠ 0 := abs_pos.mp pE
  have ew : |w| = |w / e| * |e| := by rw [← abs_mul, div_mul_cancel₀ _ hE0]
  have b1 : |W / E - w / e| ≤ 8 * t * |w / e| := by
    have e0 : W / E - w / e = ((W - w) * e - w * (E - e)) / (E * e) := by field_simp; ring
    rw [e0, abs_div, abs_mul E e, div_le_iff₀ (mul_pos pE pe)]
    have h1 := abs_sub ((W - w) * e) (w * (E - e))
    rw [abs_mul, abs_mul] at h1
    have h2 : |W - w| * |e| ≤ t * |w| * |e| := mul_le_mul_of_nonneg_right hW pe.le
    have h3 : |w| * |E - e| ≤ |w| * (6 * t * |e|) := mul_le_mul_of_nonneg_left a1 (abs_nonneg _)
    have h4 : 8 * t * |w / e| * |e| * (58 / 64 * |e|) ≤ 8 * t * |w / e| * |e| * |E| := mul_le_mul_of_nonneg_left a3 (by positivity)
    have h5 : 0 ≤ t * |w / e| * |e| * |e| := by positivity
    rw [ew] at *
    nlinarith
  have b2 : 8 * t * |w / e| ≤ 1 / 8 * |w / e| := mul_le_mul_of_nonneg_right (by linarith) (abs_nonneg _)
  have b3 : |W / E| ≤ 9 / 8 * |w / e| := by
    have := abs_add_le (W / E - w / e) (w / e)
    rw [sub_add_cancel] at this; linarith
  refine ⟨nE, by linarith, fun h0 => ?_, ?_⟩
  · rw [abs_of_nonneg h0] at *
    linarith [(abs_le.mp b1).1]
  · have c1 := hT nE
    have c2 : t * |W / E| ≤ t * (9 / 8 * |w / e|) := mul_le_mul_of_nonneg_left b3 ht.le
    have c3 := abs_add_le (T - W / E) (W / E - w / e)
    rw [sub_add_sub_cancel] at c3
    have c4 : t * |w / e| ≤ t * (6 * M) := mul_le_mul_of_nonneg_left hτ ht.le
    nlinarith

end real

section floats

variable {K : Type} [Field K] [LinearOrder K] [IsStrictOrderedRing K] [Fmt K] [LawfulFmt K] [RndErr K]
variable (φ : K →+* ℝ) (hφ : StrictMono φ)

theorem dv_sub_get (a b e : V3 K) (i : Fin 3) : (V3.dv (V3.sub a b) e).val[i] = (a.val[i] - b.val[i]) / e.val[i] := by fin_cases i <;> rfl

theorem Point3.init_facts {l : List (Fl K)} {t : Point3 K} {p : Fin 3 → K} (hl : ListIn l p) (h : Point3.init l = .ok t) : t.ori.Holds p := by
  obtain ⟨x, y, z, rfl, h0, h1, h2⟩ := hl
  cases h
  intro i; fin_cases i
  · exact h0
  · exact h1
  · exact h2

include hφ

/-- accepted: all three quotients are finite and bounded -/
theorem rayPoint_accept {a o e v : V3 K} {w : Fl K} {A O E : Fin 3 → K} {ε M : K} (ha : a.Holds A) (ho : o.Holds O) (hE : e.Holds E)
    (hw : w.Holds ε) (hε : 0 ≤ ε) (hεM : ε ≤ M) (hA : ∀ i, |A i| ≤ M) (hO : ∀ i, |O i| ≤ M) (e2 : (eta : K) ≤ u * M)
    (hM : 64 * (M + 1) ≤ (omega : K)) {k : R3} (hk : k ⬝ᵥ k = 1) (hK : ∀ i, |φ (E i) - k i| ≤ 5 * φ u * |k i| + φ eta) (e1 : (eta : K) ≤ u)
    (hv : v = V3.dv (V3.sub a o) e) (h1 : withinVicinity w v.val[0] v.val[1] = true) (h2 : withinVicinity w v.val[1] v.val[2] = true) :
    ∃ T : Fin 3 → K, v.Holds T ∧ (∀ i, |T i| ≤ 8 * M) ∧ |T 1 - T 0| ≤ ε + 16 * u * M ∧ |T 2 - T 0| ≤ 2 * ε + 32 * u * M := by
  obtain ⟨hu0, hul, heta⟩ := phi_u φ hφ
  have hu := u_pos (K := K)
  have hul' := u_le (K := K)
  have he := eta_pos (K := K)
  have hM0 : 0 < M := by by_contra hc; nlinarith
  have hwf (i : Fin 3) : (v.val[i]).WF := by rw [hv, dv_sub_get]; exact Fl.wf_div _ _
  have w0 : (v.val[0]).WF := hwf 0
  have w1 : (v.val[1]).WF := hwf 1
  have w2 : (v.val[2]).WF := hwf 2
  -- the quotient by the largest component
  obtain ⟨j, hj⟩ := unit_large hk
  have hEj : 1 / 2 ≤ |E j| := by
    rw [← hφ.le_iff_le, map_abs_mono φ hφ, map_div₀, map_one, map_ofNat]
    have a1 := abs_sub (φ (E j)) (φ (E j) - k j)
    rw [sub_sub_cancel] at a1
    have a2 : 5 * φ u * |k j| ≤ 5 / 64 * |k j| := mul_le_mul_of_nonneg_right (by linarith) (abs_nonneg _)
    have a3 : φ eta ≤ φ u := hφ.monotone e1
    linarith [hK j]
  have hEj0 : E j ≠ 0 := fun h => by rw [h, abs_zero] at hEj; norm_num at hEj
  obtain ⟨T, hT, hTj⟩ : ∃ T, (v.val[j]).Holds T ∧ |T| ≤ 5 * M := by
    have hd : |A j - O j| ≤ 2 * M := (abs_sub _ _).trans (by linarith [hA j, hO j])
    obtain ⟨W, hW⟩ := Fl.sub_fin (ha j).1 (ho j).1 (hd.trans (by linarith))
    have hWe := Fl.sub_err (ha j).1 (ho j).1 (ha j).2 (ho j).2 hW
    have hW2 : |W| ≤ 33 / 16 * M := by
      have h3 := abs_add_le (W - (A j - O j)) (A j - O j)
      rw [sub_add_cancel] at h3
      have h4 : u * |A j - O j| ≤ 1 / 64 * (2 * M) := mul_le_mul (by linarith) hd (abs_nonneg _) (by norm_num)
      linarith
    have hq : |W / E j| ≤ 33 / 8 * M := by
      rw [abs_div, div_le_iff₀ (by linarith)]
      nlinarith
    obtain ⟨T, hT⟩ := Fl.div_fin hW (hE j).1 hEj0 (hq.trans (by linarith))
    have hTe := Fl.div_err hW (hE j).1 hEj0 hT
    refine ⟨T, ⟨by rw [hv, dv_sub_get]; exact hT, hwf j⟩, ?_⟩
    have h3 := abs_add_le (T - W / E j) (W / E j)
    rw [sub_add_cancel] at h3
    have h4 : u * |W / E j| ≤ 1 / 64 * (33 / 8 * M) := mul_le_mul (by linarith) hq (abs_nonneg _) (by norm_num)
    have h5 : u * M ≤ 1 / 64 * M := mul_le_mul_of_nonneg_right (by linarith) hM0.le
    linarith
  have pack (x y z : K) (hx : (v.val[0]).Holds x) (hy : (v.val[1]).Holds y) (hz : (v.val[2]).Holds z) (bx : |x| ≤ 8 * M) (by' : |y| ≤ 8 * M)
      (bz : |z| ≤ 8 * M) (d1 : |x - y| ≤ ε + 16 * u * M) (d2 : |y - z| ≤ ε + 16 * u * M) :
      ∃ T : Fin 3 → K, v.Holds T ∧ (∀ i, |T i| ≤ 8 * M) ∧ |T 1 - T 0| ≤ ε + 16 * u * M ∧ |T 2 - T 0| ≤ 2 * ε + 32 * u * M := by
    refine ⟨![x, y, z], fun i => ?_, fun i => ?_, by rw [abs_sub_comm]; exact d1, ?_⟩
    · fin_cases i
      · exact hx
      · exact hy
      · exact hz
    · fin_cases i
      · exact bx
      · exact by'
      · exact bz
    · have h3 := abs_add_le (x - y) (y - z)
      rw [sub_add_sub_cancel, abs_sub_comm] at h3
      exact h3.trans (by linarith)
  fin_cases j
  · obtain ⟨y, hy, dy, by'⟩ := step_right hT w1 hw hε hεM (by linarith) hM h1
    obtain ⟨z, hz, dz, bz⟩ := step_right hy w2 hw hε hεM (by linarith) hM h2
    exact pack T y z hT hy hz (by linarith) (by linarith) (by linarith) dy dz
  · obtain ⟨x, hx, dx, bx⟩ := step_left w0 hw hT.1 hε hεM (by linarith) hM h1
    obtain ⟨z, hz, dz, bz⟩ := step_right hT w2 hw hε hεM (by linarith) hM h2
    exact pack x T z hx hT hz (by linarith) (by linarith) (by linarith) dx dz
  · obtain ⟨y, hy, dy, by'⟩ := step_left w1 hw hT.1 hε hεM (by linarith) hM h2
    obtain ⟨x, hx, dx, bx⟩ := step_left w0 hw hy.1 hε hεM (by linarith) hM h1
    exact pack x y T hx hy hT (by linarith) (by linarith) (by linarith) dx dy

/-- C80, soundness.  A reported location is finite and within `512 u M` per coordinate of a point `q` of the exact ray, and `q` differs from
the point by at most `128 u M` in `x`, the tolerance plus `128 u M` in `y` and twice the tolerance plus `128 u M` in `z`. -/
theorem C80_sound {l l' k : List (Fl K)} {r : Ray3 K} {v : Fl K} {t : Point3 K} {o d p : Fin 3 → K} {ε M : K} (hl : ListIn l o) (hl' : ListIn l' d)
    (hr : Ray3.init l l' = .ok r) (hk : ListIn k p) (ht : Point3.init k = .ok t) (hv : v.Holds ε) (hε : 0 ≤ ε) (hεM : ε ≤ M) (hd0 : d ≠ 0)
    (hd : ∀ i, d i = 0 ∨ nu ≤ d i * d i) (hd' : ∀ i, 8 * (d i * d i) ≤ omega) (hoM : ∀ i, |o i| ≤ M) (hpM : ∀ i, |p i| ≤ M)
    (e1 : (eta : K) ≤ u) (e2 : (eta : K) ≤ u * M) (hM : 64 * (M + 1) ≤ (omega : K)) {loc : V3 K}
    (h : Shape.getIntersect 2 (.ray { r with vicinity := v }) (.point t) = .ok (true, some loc) ∨
      Shape.getIntersect 2 (.point t) (.ray { r with vicinity := v }) = .ok (true, some loc)) :
    ∃ P, loc.Holds P ∧ ∃ q ∈ rayPts (toR φ o) (toR φ d), (∀ i, |φ (P i) - q i| ≤ 512 * φ u * φ M) ∧
      |φ (p 0) - q 0| ≤ 128 * φ u * φ M ∧ |φ (p 1) - q 1| ≤ φ ε + 128 * φ u * φ M ∧ |φ (p 2) - q 2| ≤ 2 * φ ε + 128 * φ u * φ M := by
  obtain ⟨hori, E, hE, hcE⟩ := Ray3.init_facts φ hφ hl hl' hr hd0 hd hd'
  have hp := Point3.init_facts hk ht
  obtain ⟨hu0, hul, heta⟩ := phi_u φ hφ
  have he := eta_pos (K := K)
  have hu := u_pos (K := K)
  have hM0 : 0 < M := by by_contra hc; nlinarith
  have hM' : 0 < φ M := by have := hφ hM0; rwa [map_zero] at this
  have hne := unit_of_ne φ hφ hd0
  have hud : unit (toR φ d) ⬝ᵥ unit (toR φ d) = 1 := unit_of hne
  have hcore : core (.ray { r with vicinity := v }) (.point t) = .ok (true, some loc) := by
    rcases h with h | h <;> rw [getIntersect_eq 0] at h <;> split at h
    · exact h
    · cases h
    · exact h
    · cases h
  rw [rayPoint_core_K] at hcore
  simp only at hcore
  obtain ⟨V, hV⟩ : ∃ V, V = V3.dv (V3.sub t.ori r.ori) r.dir := ⟨_, rfl⟩
  rw [← hV] at hcore
  have hcore := Except.ok.inj hcore
  split at hcore
  · cases hcore
  next hc =>
  split at hcore
  swap
  · cases hcore
  next hc0 =>
  have hloc : V3.add (V3.scl r.dir V.val[0]) r.ori = loc := by simpa using hcore
  obtain ⟨h1, h2⟩ : withinVicinity v V.val[0] V.val[1] = true ∧ withinVicinity v V.val[1] V.val[2] = true := by simpa using hc
  obtain ⟨T, hT, hTb, d1, d2⟩ := rayPoint_accept φ hφ hp hori hE hv hε hεM hpM hoM e2 hM hud hcE e1 hV h1 h2
  have hT0 : 0 ≤ T 0 := (Fl.Is.kle (x := (0 : Fl K)) rfl (hT 0).1).mp hc0
  have hT0' : 0 ≤ φ (T 0) := by have := hφ.monotone hT0; rwa [map_zero] at this
  have e1' : φ eta ≤ φ u := hφ.monotone e1
  have e2' : φ eta ≤ φ u * φ M := by have := hφ.monotone e2; rwa [map_mul] at this
  have hTb' (i : Fin 3) : |φ (T i)| ≤ 8 * φ M := by have := phi_le φ hφ (hTb i); rwa [map_mul, map_ofNat] at this
  have huM : φ u * φ M ≤ 1 / 64 * φ M := mul_le_mul_of_nonneg_right hul hM'.le
  obtain ⟨P, hP, hPe⟩ := along_float φ hφ (e := r.dir) (a := r.ori) (F := V.val[0]) (p := T 0) hE hori hud hcE hoM
    (e1.trans u_le) (hT 0) ((hTb 0).trans (by linarith)) hM (T := φ (T 0)) (W := 128 * φ u * φ M) hT0'
    (by nlinarith [le_trans (le_abs_self _) (hTb' 0)]) (by nlinarith) (by nlinarith)
    (by
      have a1 : φ (T 0) ≤ 8 * φ M := (le_abs_self _).trans (hTb' 0)
      have a2 : φ eta * φ (T 0) ≤ φ u * (8 * φ M) := mul_le_mul e1' a1 hT0' hu0.le
      nlinarith) (by rw [sub_self, abs_zero]; positivity)
  rw [hloc] at hP
  have coord (i : Fin 3) (δ : ℝ) (hδ : |φ (T i) - φ (T 0)| ≤ δ) (hδM : δ ≤ 4 * φ M) :
      |φ (p i) - (toR φ o + φ (T 0) • unit (toR φ d)) i| ≤ δ + 80 * φ u * φ M := by
    have hTi := (hT i).1
    rw [hV, dv_sub_get] at hTi
    have hdi : |p i - o i| ≤ 2 * M := (abs_sub _ _).trans (by linarith [hpM i, hoM i])
    obtain ⟨W, hW⟩ := Fl.sub_fin (hp i).1 (hori i).1 (hdi.trans (by linarith))
    have hWe := hφ.monotone (Fl.sub_err (hp i).1 (hori i).1 (hp i).2 (hori i).2 hW)
    have hE0 := div_finite_den hW (hE i).1 hTi
    have hTe := hφ.monotone (Fl.div_err hW (hE i).1 hE0 hTi)
    have hdi' := phi_le φ hφ hdi
    simp only [map_add, map_sub, map_mul, map_div₀, map_abs_mono φ hφ, map_ofNat] at hWe hTe hdi'
    have := raypoint_real (w := φ (p i) - φ (o i)) (e := unit (toR φ d) i) hu0 hul heta e1' e2' hM' hdi' hWe
      (fun h => hE0 (hφ.injective (by rw [h, map_zero]))) (unit_abs_le hud i) (hcE i) hTe (hTb' 0) hδ hδM
    rw [show φ (p i) - (toR φ o + φ (T 0) • unit (toR φ d)) i = φ (p i) - φ (o i) - φ (T 0) * unit (toR φ d) i by
      show _ - (φ (o i) + φ (T 0) * unit (toR φ d) i) = _; ring]
    exact this
  have hε' : φ ε ≤ φ M := hφ.monotone hεM
  have D1 := phi_le φ hφ d1
  have D2 := phi_le φ hφ d2
  simp only [map_add, map_sub, map_mul, map_ofNat] at D1 D2
  refine ⟨P, hP, _, (rayPts_unit hne).mpr ⟨φ (T 0), hT0', rfl⟩, fun i => (hPe i).trans (by linarith), ?_, ?_, ?_⟩
  · have := coord 0 0 (by rw [sub_self, abs_zero]) (by linarith)
    nlinarith
  · have := coord 1 _ D1 (by nlinarith)
    nlinarith
  · have := coord 2 _ D2 (by nlinarith)
    nlinarith

/-- C80, rejection: a point further than `2 ε + 128 u M` from every point of the ray in some coordinate is not reported. -/
theorem C80_rejects {l l' k : List (Fl K)} {r : Ray3 K} {v : Fl K} {t : Point3 K} {o d p : Fin 3 → K} {ε M : K} (hl : ListIn l o) (hl' : ListIn l' d)
    (hr : Ray3.init l l' = .ok r) (hk : ListIn k p) (ht : Point3.init k = .ok t) (hv : v.Holds ε) (hε : 0 ≤ ε) (hεM : ε ≤ M) (hd0 : d ≠ 0)
    (hd : ∀ i, d i = 0 ∨ nu ≤ d i * d i) (hd' : ∀ i, 8 * (d i * d i) ≤ omega) (hoM : ∀ i, |o i| ≤ M) (hpM : ∀ i, |p i| ≤ M)
    (e1 : (eta : K) ≤ u) (e2 : (eta : K) ≤ u * M) (hM : 64 * (M + 1) ≤ (omega : K))
    (hfar : ∀ q ∈ rayPts (toR φ o) (toR φ d), ∃ i, 2 * φ ε + 128 * φ u * φ M < |φ (p i) - q i|) :
    Shape.getIntersect 2 (.ray { r with vicinity := v }) (.point t) = .ok (false, none) ∧
      Shape.getIntersect 2 (.point t) (.ray { r with vicinity := v }) = .ok (false, none) := by
  have hε' : 0 ≤ φ ε := by have := hφ.monotone hε; rwa [map_zero] at this
  have no (loc : V3 K) (h : Shape.getIntersect 2 (.ray { r with vicinity := v }) (.point t) = .ok (true, some loc) ∨
      Shape.getIntersect 2 (.point t) (.ray { r with vicinity := v }) = .ok (true, some loc)) : False := by
    obtain ⟨-, -, q, hq, -, h0, h1, h2⟩ := C80_sound φ hφ hl hl' hr hk ht hv hε hεM hd0 hd hd' hoM hpM e1 e2 hM h
    obtain ⟨i, hi⟩ := hfar q hq
    fin_cases i
    · exact absurd hi (not_lt.mpr (h0.trans (by linarith)))
    · exact absurd hi (not_lt.mpr (h1.trans (by linarith)))
    · exact absurd hi (not_lt.mpr h2)
  have all (h : core (.ray { r with vicinity := v }) (.point t) = .ok (false, none) ∨
      ∃ loc, core (.ray { r with vicinity := v }) (.point t) = .ok (true, some loc)) :
      Shape.getIntersect 2 (.ray { r with vicinity := v }) (.point t) = .ok (false, none) ∧
      Shape.getIntersect 2 (.point t) (.ray { r with vicinity := v }) = .ok (false, none) := by
    rw [getIntersect_eq 0, getIntersect_eq 0, AABB.overlap_comm (Shape.point t).aabb]
    split
    · next hov =>
      rcases h with h | ⟨loc, h⟩
      · exact ⟨h, h⟩
      · exact (no loc (.inl (by rw [getIntersect_eq 0, if_pos hov, h]))).elim
    · exact ⟨rfl, rfl⟩
  apply all
  rw [rayPoint_core_K]
  simp only
  split
  · exact .inl rfl
  · split
    · exact .inr ⟨_, rfl⟩
    · exact .inl rfl

/-- C80, completeness: let `τ i` be the exact quotients.  If they are non-negative and neighbours agree up to the tolerance minus `128 u M`, the
point is reported, in either order and with the same location. -/
theorem C80_finds {l l' k : List (Fl K)} {r : Ray3 K} {v : Fl K} {t : Point3 K} {o d p : Fin 3 → K} {ε M : K} (hl : ListIn l o) (hl' : ListIn l' d)
    (hr : Ray3.init l l' = .ok r) (hk : ListIn k p) (ht : Point3.init k = .ok t) (hv : v.Holds ε) (hε : 0 ≤ ε) (hεM : ε ≤ M)
    (hdn : ∀ i, nu ≤ d i * d i) (hd' : ∀ i, 8 * (d i * d i) ≤ omega) (hoM : ∀ i, |o i| ≤ M) (hpM : ∀ i, |p i| ≤ M)
    (e1 : (eta : K) ≤ u) (e2 : (eta : K) ≤ u * M) (hM : 64 * (M + 1) ≤ (omega : K))
    (hlo : ∀ i, φ eta ≤ φ u * |unit (toR φ d) i|) {τ : R3} (hτ : ∀ i, φ (p i) = φ (o i) + τ i * unit (toR φ d) i) (hτ0 : ∀ i, 0 ≤ τ i)
    (h01 : |τ 0 - τ 1| ≤ φ ε - 128 * φ u * φ M) (h12 : |τ 1 - τ 2| ≤ φ ε - 128 * φ u * φ M) :
    ∃ loc P, Shape.getIntersect 2 (.ray { r with vicinity := v }) (.point t) = .ok (true, some loc) ∧
      Shape.getIntersect 2 (.point t) (.ray { r with vicinity := v }) = .ok (true, some loc) ∧ loc.Holds P ∧
      |φ (P 0) - φ (p 0)| ≤ 640 * φ u * φ M ∧ |φ (P 1) - φ (p 1)| ≤ φ ε + 640 * φ u * φ M ∧ |φ (P 2) - φ (p 2)| ≤ 2 * φ ε + 640 * φ u * φ M := by
  have hd0 : d ≠ 0 := by
    intro h
    have := hdn 0
    rw [congrFun h 0, Pi.zero_apply, mul_zero] at this
    exact absurd this (not_le.mpr nu_pos)
  obtain ⟨hori, E, hE, hcE⟩ := Ray3.init_facts φ hφ hl hl' hr hd0 (fun i => .inr (hdn i)) hd'
  have hp := Point3.init_facts hk ht
  obtain ⟨hu0, hul, heta⟩ := phi_u φ hφ
  have he := eta_pos (K := K)
  have hu := u_pos (K := K)
  have hM0 : 0 < M := by by_contra hc; nlinarith
  have hM' : 0 < φ M := by have := hφ hM0; rwa [map_zero] at this
  have hne := unit_of_ne φ hφ hd0
  have hud : unit (toR φ d) ⬝ᵥ unit (toR φ d) = 1 := unit_of hne
  have e2' : φ eta ≤ φ u * φ M := by have := hφ.monotone e2; rwa [map_mul] at this
  have hε' : φ ε ≤ φ M := hφ.monotone hεM
  have huM : φ u * φ M ≤ 1 / 64 * φ M := mul_le_mul_of_nonneg_right hul hM'.le
  have huM0 : 0 < φ u * φ M := mul_pos hu0 hM'
  have hd1 (i : Fin 3) : |φ (p i) - φ (o i)| ≤ 2 * φ M := (abs_sub _ _).trans (by
    have := phi_le φ hφ (hpM i); have := phi_le φ hφ (hoM i); linarith)
  have hei (i : Fin 3) : unit (toR φ d) i ≠ 0 := fun h => by
    have := hlo i; rw [h, abs_zero, mul_zero] at this; linarith
  have hτe (i : Fin 3) : τ i = (φ (p i) - φ (o i)) / unit (toR φ d) i := by
    rw [hτ i, add_sub_cancel_left, mul_div_cancel_right₀ _ (hei i)]
  -- the exact quotients are bounded
  have hτb : ∀ i, τ i ≤ 6 * φ M := by
    obtain ⟨j, hj⟩ := unit_large hud
    have hjb : τ j ≤ 4 * φ M := by
      have h1 := hd1 j
      rw [hτ j, add_sub_cancel_left, abs_mul, abs_of_nonneg (hτ0 j)] at h1
      have := mul_le_mul_of_nonneg_left hj (hτ0 j)
      linarith
    obtain ⟨a1, a2⟩ := abs_le.mp h01
    obtain ⟨a3, a4⟩ := abs_le.mp h12
    have b : τ 0 ≤ 6 * φ M ∧ τ 1 ≤ 6 * φ M ∧ τ 2 ≤ 6 * φ M := by
      fin_cases j
      · have hjb : τ 0 ≤ 4 * φ M := hjb
        refine ⟨?_, ?_, ?_⟩ <;> linarith
      · have hjb : τ 1 ≤ 4 * φ M := hjb
        refine ⟨?_, ?_, ?_⟩ <;> linarith
      · have hjb : τ 2 ≤ 4 * φ M := hjb
        refine ⟨?_, ?_, ?_⟩ <;> linarith
    intro i; fin_cases i
    · exact b.1
    · exact b.2.1
    · exact b.2.2
  -- the computed quotients
  have hT (i : Fin 3) : ∃ T, (V3.dv (V3.sub t.ori r.ori) r.dir).val[i].Holds T ∧ |φ T - τ i| ≤ 56 * φ u * φ M ∧ 0 ≤ T := by
    rw [dv_sub_get]
    have hdi : |p i - o i| ≤ 2 * M := (abs_sub _ _).trans (by linarith [hpM i, hoM i])
    obtain ⟨W, hW⟩ := Fl.sub_fin (hp i).1 (hori i).1 (hdi.trans (by linarith))
    have hWe := hφ.monotone (Fl.sub_err (hp i).1 (hori i).1 (hp i).2 (hori i).2 hW)
    simp only [map_sub, map_mul, map_abs_mono φ hφ] at hWe
    have hτi : |(φ (p i) - φ (o i)) / unit (toR φ d) i| ≤ 6 * φ M := by rw [← hτe i, abs_of_nonneg (hτ0 i)]; exact hτb i
    obtain ⟨n0, nb, ns, -⟩ := quotient_real (T := φ W / φ (E i)) hu0 hul heta e2' hM' hWe (hei i) (hcE i) (hlo i)
      (fun _ => by rw [sub_self, abs_zero]; positivity) hτi
    have hE0 : E i ≠ 0 := fun h => n0 (by rw [h, map_zero])
    have hq : |W / E i| ≤ 7 * M := by
      rw [← hφ.le_iff_le, map_abs_mono φ hφ, map_div₀, map_mul, map_ofNat]; exact nb
    obtain ⟨T, hT⟩ := Fl.div_fin hW (hE i).1 hE0 (hq.trans (by linarith))
    have hTe := hφ.monotone (Fl.div_err hW (hE i).1 hE0 hT)
    simp only [map_add, map_sub, map_mul, map_div₀, map_abs_mono φ hφ] at hTe
    refine ⟨T, ⟨hT, Fl.wf_div _ _⟩, ?_, div_nonneg_is hW (hE i).1 hE0 hT ?_⟩
    · rw [hτe i]
      exact (quotient_real (T := φ T) hu0 hul heta e2' hM' hWe (hei i) (hcE i) (hlo i) (fun _ => hTe) hτi).2.2.2
    · rw [← hφ.le_iff_le, map_zero, map_div₀]
      exact ns (by rw [← hτe i]; exact hτ0 i)
  choose T hT hTe hT0 using hT
  have hTb (i : Fin 3) : |T i| ≤ 15 * M := by
    rw [← hφ.le_iff_le, map_abs_mono φ hφ, map_mul, map_ofNat]
    have h1 := abs_add_le (φ (T i) - τ i) (τ i)
    rw [sub_add_cancel, abs_of_nonneg (hτ0 i)] at h1
    linarith [hTe i, hτb i]
  have hc {i j : Fin 3} (h : |τ i - τ j| ≤ φ ε - 128 * φ u * φ M) : |T i - T j| ≤ ε - 16 * u * M := by
    rw [← hφ.le_iff_le, map_abs_mono φ hφ, map_sub, map_sub, map_mul, map_mul, map_ofNat]
    have h1 := abs_add_le (φ (T i) - τ i + (τ i - τ j)) (-(φ (T j) - τ j))
    have h2 := abs_add_le (φ (T i) - τ i) (τ i - τ j)
    rw [abs_neg, show φ (T i) - τ i + (τ i - τ j) + -(φ (T j) - τ j) = φ (T i) - φ (T j) by ring] at h1
    linarith [hTe i, hTe j]
  have hcore : ∃ loc, core (.ray { r with vicinity := v }) (.point t) = .ok (true, some loc) := by
    have w1 : withinVicinity v (V3.dv (V3.sub t.ori r.ori) r.dir).val[0] (V3.dv (V3.sub t.ori r.ori) r.dir).val[1] = true :=
      within_of (hT 0) hv (hT 1).1 hε hεM (hTb 0) hM (hc h01)
    have w2 : withinVicinity v (V3.dv (V3.sub t.ori r.ori) r.dir).val[1] (V3.dv (V3.sub t.ori r.ori) r.dir).val[2] = true :=
      within_of (hT 1) hv (hT 2).1 hε hεM (hTb 1) hM (hc h12)
    have w0 : Fl.le 0 (V3.dv (V3.sub t.ori r.ori) r.dir).val[0] = true := (Fl.Is.kle (x := (0 : Fl K)) rfl (hT 0).1).mpr (hT0 0)
    rw [rayPoint_core_K]
    simp only
    rw [w1, w2, w0]
    exact ⟨_, rfl⟩
  obtain ⟨loc, hcore⟩ := hcore
  have hov : AABB.overlap (Shape.ray { r with vicinity := v }).aabb (Shape.point t).aabb = true := by
    refine AABB.overlap_of_has _ _ (p := fun i => t.ori.val[i]) ?_ ?_
    · have hrp (i : Fin 3) : ∀ e ∈ ({φ (p i)} : Set ℝ), ∃ s : ℝ, 0 ≤ s ∧ e = φ (o i) + s * φ (d i) := by
        rintro e rfl
        refine ⟨τ i * (euc (toR φ d))⁻¹, mul_nonneg (hτ0 i) (inv_nonneg.mpr (euc_nonneg _)), ?_⟩
        rw [hτ i, mul_assoc]; rfl
      obtain ⟨x, y, z, rfl, h0, h1, h2⟩ := hl
      obtain ⟨x', y', z', rfl, k0, k1, k2⟩ := hl'
      cases hr
      have key {x x' : Fl K} (i : Fin 3) (h : x.Holds (o i)) (h' : x'.Holds (d i)) :
          Fl.le (AABB.rayBound x x').1 t.ori.val[i] = true ∧ Fl.le t.ori.val[i] (AABB.rayBound x x').2 = true := by
        obtain ⟨b1, b2⟩ := rayBound_spans hφ h h' (hrp i)
        exact ⟨b1.meets hφ (.self (hp i) (by rintro e rfl; exact le_rfl)) rfl rfl,
          Below.meets hφ (.self (hp i) (by rintro e rfl; exact le_rfl)) b2 rfl rfl⟩
      intro i; fin_cases i
      · exact key 0 h0 k0
      · exact key 1 h1 k1
      · exact key 2 h2 k2
    · obtain ⟨x, y, z, rfl, h0, h1, h2⟩ := hk
      cases ht
      have key {x : Fl K} {a : K} (h : x.Holds a) : Fl.le x x = true ∧ Fl.le x x = true :=
        ⟨Fl.le_refl h.1.kne_nan, Fl.le_refl h.1.kne_nan⟩
      intro i; fin_cases i
      · exact key h0
      · exact key h1
      · exact key h2
  have g1 : Shape.getIntersect 2 (.ray { r with vicinity := v }) (.point t) = .ok (true, some loc) := by
    rw [getIntersect_eq 0, if_pos hov, hcore]
  have g2 : Shape.getIntersect 2 (.point t) (.ray { r with vicinity := v }) = .ok (true, some loc) := by
    rw [getIntersect_eq 0, AABB.overlap_comm, if_pos hov]; exact hcore
  obtain ⟨P, hP, q, -, hPq, q0, q1, q2⟩ := C80_sound φ hφ hl hl' hr hk ht hv hε hεM hd0 (fun i => .inr (hdn i)) hd' hoM hpM e1 e2 hM (.inl g1)
  have tri (i : Fin 3) : |φ (P i) - φ (p i)| ≤ |φ (P i) - q i| + |φ (p i) - q i| := by
    rw [abs_sub_comm (φ (p i))]; exact abs_sub_le _ _ _
  exact ⟨loc, P, g1, g2, hP, by linarith [tri 0, hPq 0], by linarith [tri 1, hPq 1], by linarith [tri 2, hPq 2]⟩

end floats

/-! ## binary64 -/

theorem f64_rayPoint {M : Q64} (h1 : ((2 : ℚ) ^ (-1000 : ℤ) : ℚ) ≤ M) (h2 : M ≤ ((2 : ℚ) ^ (960 : ℤ) : ℚ)) :
    (eta : Q64) ≤ u * M ∧ 64 * (M + 1) ≤ (omega : Q64) := by
  obtain ⟨cu, ce, -, co, -⟩ := C55_constants
  have key (m : ℚ) (h : (2 : ℚ) ^ (-1000 : ℤ) ≤ m) : (2 : ℚ) ^ (-1075 : ℤ) ≤ (2 : ℚ) ^ (-53 : ℤ) * m := by
    calc (2 : ℚ) ^ (-1075 : ℤ) ≤ (2 : ℚ) ^ (-1053 : ℤ) := zpow_le_zpow_right₀ (by norm_num) (by norm_num)
      _ = (2 : ℚ) ^ (-53 : ℤ) * (2 : ℚ) ^ (-1000 : ℤ) := by rw [← zpow_add₀ (by norm_num)]; norm_num
      _ ≤ _ := by gcongr
  refine ⟨by rw [ce, cu]; exact key M h1, (f64_omega' h2).trans u_omega_le⟩

/-- C80 for `f64`, soundness: components of the direction `0` or between `2^-511` and `2^510`, coordinates and tolerance up to `M`. -/
theorem C80_sound_f64 {l l' k : List (Fl Q64)} {r : Ray3 Q64} {v : Fl Q64} {t : Point3 Q64} {o d p : Fin 3 → Q64} {ε M : Q64}
    (hl : ListIn l o) (hl' : ListIn l' d) (hr : Ray3.init l l' = .ok r) (hk : ListIn k p) (ht : Point3.init k = .ok t) (hv : v.Holds ε)
    (hε : 0 ≤ ε) (hεM : ε ≤ M) (hd0 : d ≠ 0) (hd : ∀ i, d i = 0 ∨ ((2 : ℚ) ^ (-511 : ℤ) : ℚ) ≤ |d i|)
    (hd' : ∀ i, |d i| ≤ ((2 : ℚ) ^ (510 : ℤ) : ℚ)) (hoM : ∀ i, |o i| ≤ M) (hpM : ∀ i, |p i| ≤ M)
    (hM : ((2 : ℚ) ^ (-1000 : ℤ) : ℚ) ≤ M) (hM' : M ≤ ((2 : ℚ) ^ (960 : ℤ) : ℚ)) :
    (∀ loc, Shape.getIntersect 2 (.ray { r with vicinity := v }) (.point t) = .ok (true, some loc) ∨
        Shape.getIntersect 2 (.point t) (.ray { r with vicinity := v }) = .ok (true, some loc) →
      ∃ P, loc.Holds P ∧ ∃ q ∈ rayPts (toR BinQ.real o) (toR BinQ.real d), (∀ i, |(P i).real - q i| ≤ 512 * 2 ^ (-53 : ℤ) * M.real) ∧
        |(p 0).real - q 0| ≤ 128 * 2 ^ (-53 : ℤ) * M.real ∧ |(p 1).real - q 1| ≤ ε.real + 128 * 2 ^ (-53 : ℤ) * M.real ∧
        |(p 2).real - q 2| ≤ 2 * ε.real + 128 * 2 ^ (-53 : ℤ) * M.real) ∧
    ((∀ q ∈ rayPts (toR BinQ.real o) (toR BinQ.real d), ∃ i, 2 * ε.real + 128 * 2 ^ (-53 : ℤ) * M.real < |(p i).real - q i|) →
      Shape.getIntersect 2 (.ray { r with vicinity := v }) (.point t) = .ok (false, none) ∧
      Shape.getIntersect 2 (.point t) (.ray { r with vicinity := v }) = .ok (false, none)) := by
  obtain ⟨s1, s2, -⟩ := f64_range hd hd'
  obtain ⟨e2, hom⟩ := f64_rayPoint hM hM'
  constructor
  · intro loc h
    have := C80_sound BinQ.real BinQ.real_strictMono hl hl' hr hk ht hv hε hεM hd0 s1 s2 hoM hpM eta_u e2 hom h
    rwa [real_u] at this
  · intro h
    exact C80_rejects BinQ.real BinQ.real_strictMono hl hl' hr hk ht hv hε hεM hd0 s1 s2 hoM hpM eta_u e2 hom (by rw [real_u]; exact h)

theorem real_pow (q : Q64) (n : ℤ) (h : q = ((2 : ℚ) ^ n : ℚ)) : q.real = (2 : ℝ) ^ n := by
  subst h
  show (((2 : ℚ) ^ n : ℚ) : ℝ) = _
  push_cast; rfl

/-- C80 for `f64`, completeness: components of the direction between `2^-400` and `2^400`. -/
theorem C80_finds_f64 {l l' k : List (Fl Q64)} {r : Ray3 Q64} {v : Fl Q64} {t : Point3 Q64} {o d p : Fin 3 → Q64} {ε M : Q64}
    (hl : ListIn l o) (hl' : ListIn l' d) (hr : Ray3.init l l' = .ok r) (hk : ListIn k p) (ht : Point3.init k = .ok t) (hv : v.Holds ε)
    (hε : 0 ≤ ε) (hεM : ε ≤ M) (hd : ∀ i, ((2 : ℚ) ^ (-400 : ℤ) : ℚ) ≤ |d i|) (hd' : ∀ i, |d i| ≤ ((2 : ℚ) ^ (400 : ℤ) : ℚ))
    (hoM : ∀ i, |o i| ≤ M) (hpM : ∀ i, |p i| ≤ M) (hM : ((2 : ℚ) ^ (-1000 : ℤ) : ℚ) ≤ M) (hM' : M ≤ ((2 : ℚ) ^ (960 : ℤ) : ℚ))
    {τ : R3} (hτ : ∀ i, (p i).real = (o i).real + τ i * unit (toR BinQ.real d) i) (hτ0 : ∀ i, 0 ≤ τ i)
    (h01 : |τ 0 - τ 1| ≤ ε.real - 128 * 2 ^ (-53 : ℤ) * M.real) (h12 : |τ 1 - τ 2| ≤ ε.real - 128 * 2 ^ (-53 : ℤ) * M.real) :
    ∃ loc P, Shape.getIntersect 2 (.ray { r with vicinity := v }) (.point t) = .ok (true, some loc) ∧
      Shape.getIntersect 2 (.point t) (.ray { r with vicinity := v }) = .ok (true, some loc) ∧ loc.Holds P ∧
      |(P 0).real - (p 0).real| ≤ 640 * 2 ^ (-53 : ℤ) * M.real ∧ |(P 1).real - (p 1).real| ≤ ε.real + 640 * 2 ^ (-53 : ℤ) * M.real ∧
      |(P 2).real - (p 2).real| ≤ 2 * ε.real + 640 * 2 ^ (-53 : ℤ) * M.real := by
  have w1 (i : Fin 3) : ((2 : ℚ) ^ (-511 : ℤ) : ℚ) ≤ |d i| :=
    le_trans (zpow_le_zpow_right₀ (by norm_num) (by norm_num) : (2 : ℚ) ^ (-511 : ℤ) ≤ (2 : ℚ) ^ (-400 : ℤ)) (hd i)
  have w2 (i : Fin 3) : |d i| ≤ ((2 : ℚ) ^ (510 : ℤ) : ℚ) :=
    le_trans (hd' i) (zpow_le_zpow_right₀ (by norm_num) (by norm_num) : (2 : ℚ) ^ (400 : ℤ) ≤ (2 : ℚ) ^ (510 : ℤ))
  obtain ⟨s1, s2, -⟩ := f64_range (fun i => .inr (w1 i)) w2
  have dne (i : Fin 3) : d i ≠ 0 := fun h => by
    have := hd i
    rw [h, abs_zero] at this
    exact absurd this (not_le.mpr (zpow_pos (by norm_num) _ : (0 : ℚ) < (2 : ℚ) ^ (-400 : ℤ)))
  obtain ⟨e2, hom⟩ := f64_rayPoint hM hM'
  have := C80_finds BinQ.real BinQ.real_strictMono hl hl' hr hk ht hv hε hεM (fun i => (s1 i).resolve_left (dne i)) s2 hoM hpM eta_u e2 hom
    ?_ hτ hτ0 (by rw [real_u]; exact h01) (by rw [real_u]; exact h12)
  · rwa [real_u] at this
  intro i
  have q1 (j : Fin 3) : (2 : ℝ) ^ (-400 : ℤ) ≤ |(d j).real| := by
    have := BinQ.real_strictMono.monotone (hd j)
    rw [map_abs_mono BinQ.real BinQ.real_strictMono] at this
    rwa [real_pow _ (-400 : ℤ) rfl] at this
  have q2 (j : Fin 3) : |(d j).real| ≤ (2 : ℝ) ^ (400 : ℤ) := by
    have := BinQ.real_strictMono.monotone (hd' j)
    rw [map_abs_mono BinQ.real BinQ.real_strictMono] at this
    rwa [real_pow _ (400 : ℤ) rfl] at this
  have hB : (0 : ℝ) < (2 : ℝ) ^ (400 : ℤ) := zpow_pos (by norm_num) _
  have hle : euc (toR BinQ.real d) ≤ 2 * (2 : ℝ) ^ (400 : ℤ) := euc_le_two hB.le q2
  have hpos : 0 < euc (toR BinQ.real d) := euc_pos (unit_of_ne BinQ.real BinQ.real_strictMono fun h => dne 0 (congrFun h 0))
  rw [real_u, real_eta]
  show _ ≤ _ * |(euc (toR BinQ.real d))⁻¹ * (d i).real|
  rw [abs_mul, abs_inv, abs_of_pos hpos]
  calc (2 : ℝ) ^ (-1075 : ℤ) ≤ (2 : ℝ) ^ (-854 : ℤ) := zpow_le_zpow_right₀ (by norm_num) (by norm_num)
    _ = (2 : ℝ) ^ (-53 : ℤ) * ((2 * (2 : ℝ) ^ (400 : ℤ))⁻¹ * (2 : ℝ) ^ (-400 : ℤ)) := by
      rw [mul_inv, ← zpow_neg, ← zpow_neg_one, ← zpow_add₀ (by norm_num), ← zpow_add₀ (by norm_num), ← zpow_add₀ (by norm_num)]; norm_num
    _ ≤ _ := by
      have := inv_anti₀ hpos hle
      have := q1 i
      gcongr

/-! ### concrete cases -/

def Z3 : Fin 3 → Q64 := ![(0 : ℚ), (0 : ℚ), (0 : ℚ)]
def D122 : Fin 3 → Q64 := ![(1 : ℚ), (2 : ℚ), (2 : ℚ)]
def P366 : Fin 3 → Q64 := ![(3 : ℚ), (6 : ℚ), (6 : ℚ)]
def eps10 : Q64 := (1 / 1024 : ℚ)
def eightQ : Q64 := (8 : ℚ)

/-- the hypotheses of `C80_finds_f64` hold for the ray from the origin along `(1, 2, 2)`, the point `(3, 6, 6)`, tolerance `1/1024` and
`M = 8`; the unit direction `(1/3, 2/3, 2/3)` is not representable -/
example (r : Ray3 Q64) (t : Point3 Q64)
    (hr : Ray3.init (K := Q64) [.fin (0 : ℚ), .fin (0 : ℚ), .fin (0 : ℚ)] [.fin (1 : ℚ), .fin (2 : ℚ), .fin (2 : ℚ)] = .ok r)
    (ht : Point3.init (K := Q64) [.fin (3 : ℚ), .fin (6 : ℚ), .fin (6 : ℚ)] = .ok t) :
    ∃ loc P, Shape.getIntersect 2 (.ray { r with vicinity := .fin (1 / 1024 : ℚ) }) (.point t) = .ok (true, some loc) ∧
      Shape.getIntersect 2 (.point t) (.ray { r with vicinity := .fin (1 / 1024 : ℚ) }) = .ok (true, some loc) ∧ loc.Holds P ∧
      |(P 0).real - (P366 0).real| ≤ 640 * 2 ^ (-53 : ℤ) * eightQ.real ∧
      |(P 1).real - (P366 1).real| ≤ eps10.real + 640 * 2 ^ (-53 : ℤ) * eightQ.real ∧
      |(P 2).real - (P366 2).real| ≤ 2 * eps10.real + 640 * 2 ^ (-53 : ℤ) * eightQ.real := by
  have hz : (Fl.fin (0 : ℚ) : Fl Q64).Holds ((0 : ℚ) : Q64) := int_holds rfl (.inl rfl)
  have h1 : (Fl.fin (1 : ℚ) : Fl Q64).Holds ((1 : ℚ) : Q64) := int_holds rfl (.inr (.inl rfl))
  have h2 : (Fl.fin (2 : ℚ) : Fl Q64).Holds ((2 : ℚ) : Q64) := int_holds rfl (.inr (.inr rfl))
  have h3 : (Fl.fin (3 : ℚ) : Fl Q64).Holds ((3 : ℚ) : Q64) := ⟨rfl, .inr (by decide +kernel)⟩
  have h6 : (Fl.fin (6 : ℚ) : Fl Q64).Holds ((6 : ℚ) : Q64) := ⟨rfl, .inr (by decide +kernel)⟩
  have hv : (Fl.fin (1 / 1024 : ℚ) : Fl Q64).Holds eps10 := ⟨rfl, .inr (by decide +kernel)⟩
  have lo (a : ℚ) (h : 1 ≤ |a|) : ((2 : ℚ) ^ (-400 : ℤ) : ℚ) ≤ |(a : Q64)| := by
    have : (2 : ℚ) ^ (-400 : ℤ) ≤ |a| := (zpow_le_one_of_nonpos₀ (by norm_num) (by norm_num)).trans h
    exact this
  have hi (a : ℚ) (h : |a| ≤ 2) : |(a : Q64)| ≤ ((2 : ℚ) ^ (400 : ℤ) : ℚ) := by
    have : |a| ≤ (2 : ℚ) ^ (400 : ℤ) := h.trans ((by norm_num : (2 : ℚ) ≤ 2 ^ (1 : ℤ)).trans (zpow_le_zpow_right₀ (by norm_num) (by norm_num)))
    exact this
  have qb (a : ℚ) (h : |a| ≤ 8) : |(a : Q64)| ≤ eightQ := h
  have eD : toR BinQ.real D122 = ![1, 2, 2] := by
    ext i; fin_cases i
    · exact Rat.cast_one
    · exact Rat.cast_ofNat 2
    · exact Rat.cast_ofNat 2
  have eE : euc (![1, 2, 2] : R3) = 3 := by
    rw [euc_eq, Fin.sum_univ_three]
    simp
    rw [show (1 + 2 * 2 + 2 * 2 : ℝ) = 3 ^ 2 by norm_num]
    exact Real.sqrt_sq (by norm_num)
  have k0 : BinQ.real (Z3 0) = 0 := Rat.cast_zero
  have k1 : BinQ.real (Z3 1) = 0 := Rat.cast_zero
  have k2 : BinQ.real (Z3 2) = 0 := Rat.cast_zero
  have p0 : BinQ.real (P366 0) = 3 := Rat.cast_ofNat 3
  have p1 : BinQ.real (P366 1) = 6 := Rat.cast_ofNat 6
  have p2 : BinQ.real (P366 2) = 6 := Rat.cast_ofNat 6
  have ve : BinQ.real eps10 = 1 / 1024 := (by norm_num : (((1 / 1024 : ℚ) : ℚ) : ℝ) = 1 / 1024)
  have e8 : BinQ.real eightQ = 8 := Rat.cast_ofNat 8
  have mrg : |(9 : ℝ) - 9| ≤ BinQ.real eps10 - 128 * 2 ^ (-53 : ℤ) * BinQ.real eightQ := by rw [ve, e8]; norm_num
  refine C80_finds_f64 (o := Z3) (d := D122) (p := P366) (ε := eps10) (M := eightQ) (τ := fun _ => 9) ⟨_, _, _, rfl, hz, hz, hz⟩
    ⟨_, _, _, rfl, h1, h2, h2⟩ hr ⟨_, _, _, rfl, h3, h6, h6⟩ ht hv (by decide +kernel) (by decide +kernel) ?_ ?_ ?_ ?_ ?_ ?_ ?_ (fun _ => by norm_num)
    mrg mrg
  · intro i; fin_cases i
    · exact lo 1 (by norm_num)
    · exact lo 2 (by norm_num)
    · exact lo 2 (by norm_num)
  · intro i; fin_cases i
    · exact hi 1 (by norm_num)
    · exact hi 2 (by norm_num)
    · exact hi 2 (by norm_num)
  · intro i; fin_cases i <;> exact qb 0 (by norm_num)
  · intro i; fin_cases i
    · exact qb 3 (by norm_num [abs_of_pos])
    · exact qb 6 (by norm_num [abs_of_pos])
    · exact qb 6 (by norm_num [abs_of_pos])
  · have : (2 : ℚ) ^ (-1000 : ℤ) ≤ 8 := (zpow_le_one_of_nonpos₀ (by norm_num) (by norm_num)).trans (by norm_num)
    exact this
  · have : (8 : ℚ) ≤ 2 ^ (960 : ℤ) := (by norm_num : (8 : ℚ) ≤ 2 ^ (3 : ℤ)).trans (zpow_le_zpow_right₀ (by norm_num) (by norm_num))
    exact this
  · rw [eD, unit, eE]
    intro i; fin_cases i
    · show BinQ.real (P366 0) = BinQ.real (Z3 0) + 9 * (3⁻¹ * 1); rw [p0, k0]; norm_num
    · show BinQ.real (P366 1) = BinQ.real (Z3 1) + 9 * (3⁻¹ * 2); rw [p1, k1]; norm_num
    · show BinQ.real (P366 2) = BinQ.real (Z3 2) + 9 * (3⁻¹ * 2); rw [p2, k2]; norm_num

/-- concrete case for `C80_sound_f64`: constructed ray and point, tolerance `1/1024` -/
example := C80_sound_f64 listA listB rfl listB rfl (v := .fin (1 / 1024 : ℚ)) (ε := eps10) (M := 5) ⟨rfl, .inr (by decide +kernel)⟩
  (by decide +kernel) (by decide +kernel) B405_ne (B405_lo64 (by norm_num)) (B405_hi64 (by norm_num)) A123_five B405_five

/-- C80: the margin is needed.  The point `2^34 (1, 3, 7)` lies exactly on the ray from the origin along `(1, 3, 7)`; with the default tolerance
`1e-6` it is not found, because the three quotients of size `1.3e11` differ in the last bit. -/
theorem C80_exact_false : ∃ (s : Ray3 Q64) (t : Point3 Q64), Ray3.init [0, 0, 0] [1, .fin 3, .fin 7] = .ok s ∧
    Point3.init [.fin (2 ^ 34), .fin (3 * 2 ^ 34), .fin (7 * 2 ^ 34)] = .ok t ∧
    (![2 ^ 34, 3 * 2 ^ 34, 7 * 2 ^ 34] : R3) ∈ rayPts 0 ![1, 3, 7] ∧
    Shape.getIntersect 2 (.ray s) (.point t) = .ok (false, none) ∧ Shape.getIntersect 2 (.point t) (.ray s) = .ok (false, none) := by
  refine ⟨_, _, rfl, rfl, ⟨2 ^ 34, by norm_num, ?_⟩, by decide +kernel, by decide +kernel⟩
  ext i; fin_cases i <;> simp <;> norm_num

end Mazth
