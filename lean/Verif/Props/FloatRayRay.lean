import Verif.Props.FloatRayPoint
import Verif.Props.FloatPrismPoint
import Verif.Props.RayQueries2

/-!
# C81: ray against ray in floating point

The query compares the cross product of the stored directions with a cut-off and divides two magnitudes (/repo/lib/ray.rs:58-140).
-/

set_option autoImplicit false
set_option linter.unusedSectionVars false

namespace Mazth

open RndErr Matrix

section real

theorem cross_perturb {a a' b b' : R3} {δ γ X Y : ℝ} (ha : ∀ i, |a' i - a i| ≤ δ) (hb : ∀ i, |b' i - b i| ≤ γ) (hX : ∀ i, |a i| ≤ X)
    (hY : ∀ i, |b' i| ≤ Y) (i : Fin 3) : |(a' ⨯₃ b') i - (a ⨯₃ b) i| ≤ 2 * (δ * Y) + 2 * (X * γ) := by
  have e : a' ⨯₃ b' - a ⨯₃ b = (a' - a) ⨯₃ b' + a ⨯₃ (b' - b) := by simp
  have e' := congrFun e i
  rw [Pi.sub_apply, Pi.add_apply] at e'
  rw [e']
  exact (abs_add_le _ _).trans (add_le_add (cross_bound ha hY i) (cross_bound hX hb i))

theorem euc_lip (a b : R3) : |euc a - euc b| ≤ euc (a - b) := by
  have a1 := euc_add_le (a - b) b
  have a2 := euc_add_le a ((-1 : ℝ) • (a - b))
  rw [sub_add_cancel] at a1
  rw [euc_smul, abs_neg, abs_one, one_mul, show a + (-1 : ℝ) • (a - b) = b by module] at a2
  rw [abs_le]; constructor <;> linarith

/-- the quotient of the two magnitudes -/
theorem quotient_mag {n ν v κ q t h M T : ℝ} (ht : 0 < t) (htl : t ≤ 1 / 64) (hM : 0 ≤ M) (hT : 0 ≤ T) (hh : h ≤ t * M) (h0 : 0 ≤ h)
    (hκ : 256 * t ≤ κ) (hκ1 : κ ≤ 1) (hν : ν = T * κ) (hn : |n - ν| ≤ 100 * (t * M)) (hv : |v - κ| ≤ 70 * t) :
    18 / 25 * κ ≤ v ∧ |n / v - T| ≤ (139 * (t * M) + 98 * (t * T)) / κ ∧
      (|q - n / v| ≤ t * |n / v| + h → |q - T| ≤ 160 * (t * (M + T)) / κ) := by
  have k0 : 0 < κ := by linarith
  have v0 : 18 / 25 * κ ≤ v := by linarith [(abs_le.mp hv).1]
  have vp : 0 < v := by linarith
  have tM := mul_nonneg ht.le hM
  have tT := mul_nonneg ht.le hT
  have r1 : |n / v - T| ≤ (139 * (t * M) + 98 * (t * T)) / κ := by
    have e : n / v - T = ((n - ν) - T * (v - κ)) / v := by rw [hν]; field_simp; ring
    rw [e, abs_div, abs_of_pos vp, div_le_div_iff₀ vp k0]
    have a1 := abs_sub (n - ν) (T * (v - κ))
    rw [abs_mul, abs_of_nonneg hT] at a1
    have a2 : T * |v - κ| ≤ T * (70 * t) := mul_le_mul_of_nonneg_left hv hT
    have a3 : |n - ν - T * (v - κ)| ≤ 100 * (t * M) + 70 * (t * T) := by linarith
    have a4 := mul_le_mul_of_nonneg_right a3 k0.le
    have a5 : (139 * (t * M) + 98 * (t * T)) * (18 / 25 * κ) ≤ (139 * (t * M) + 98 * (t * T)) * v := mul_le_mul_of_nonneg_left v0 (by positivity)
    have a6 := mul_nonneg tM k0.le
    have a7 := mul_nonneg tT k0.le
    linarith
  refine ⟨v0, r1, fun hq => ?_⟩
  set r := (139 * (t * M) + 98 * (t * T)) / κ with hr
  have hrk : r * κ = 139 * (t * M) + 98 * (t * T) := by rw [hr]; field_simp
  have r0 : 0 ≤ r := (abs_nonneg _).trans r1
  have b1 := abs_add_le (q - n / v) (n / v - T)
  rw [sub_add_sub_cancel] at b1
  have b2 := abs_add_le (n / v - T) T
  rw [sub_add_cancel, abs_of_nonneg hT] at b2
  have b3 : t * |n / v| ≤ t * (r + T) := mul_le_mul_of_nonneg_left (by linarith) ht.le
  have b4 : |q - T| ≤ r + t * T + t * r + h := by linarith
  rw [le_div_iff₀ k0]
  have b5 := mul_le_mul_of_nonneg_right b4 k0.le
  have b6 : t * T * κ ≤ t * T * 1 := mul_le_mul_of_nonneg_left hκ1 tT
  have b7 : h * κ ≤ h * 1 := mul_le_mul_of_nonneg_left hκ1 h0
  have b8 : t * (r * κ) ≤ 1 / 64 * (r * κ) := mul_le_mul_of_nonneg_right htl (by positivity)
  rw [show (r + t * T + t * r + h) * κ = r * κ + t * T * κ + t * (r * κ) + h * κ by ring] at b5
  rw [hrk] at b5 b8
  linarith

/-- the signed distance the parallel branch computes -/
theorem quotient_par {y m s q t h M : ℝ} (ht : 0 < t) (htl : 3000000 * t ≤ 1) (hM : 0 < M) (hh : h ≤ t * M) (hy : |y - s| ≤ 21 * (t * M))
    (hs : |s| ≤ 7 / 2 * M) (hm : |m - 1| ≤ 16 * t) (hq : |q - y / m| ≤ t * |y / m| + h) : |q - s| ≤ 96 * (t * M) ∧ |y / m| ≤ 4 * M := by
  have htM := mul_pos ht hM
  have hm' := abs_le.mp hm
  have m0 : 99 / 100 ≤ m := by linarith
  have mp : 0 < m := by linarith
  have tM1 : 3000000 * (t * M) ≤ M := by nlinarith
  have h1 : |y / m - s| ≤ 78 * (t * M) := by
    rw [show y / m - s = (y - s * m) / m by field_simp, abs_div, abs_of_pos mp, div_le_iff₀ mp]
    have e : y - s * m = (y - s) - s * (m - 1) := by ring
    have a1 := abs_sub (y - s) (s * (m - 1))
    rw [← e, abs_mul] at a1
    have a2 : |s| * |m - 1| ≤ 7 / 2 * M * (16 * t) := mul_le_mul hs hm (abs_nonneg _) (by linarith)
    have a3 : 78 * (t * M) * (99 / 100) ≤ 78 * (t * M) * m := mul_le_mul_of_nonneg_left m0 (by linarith)
    linarith
  have h2 : |y / m| ≤ 36 / 10 * M := by
    have := abs_add_le (y / m - s) s
    rw [sub_add_cancel] at this
    linarith
  have h3 : t * |y / m| ≤ t * (36 / 10 * M) := mul_le_mul_of_nonneg_left h2 ht.le
  have h4 := abs_add_le (q - y / m) (y / m - s)
  rw [sub_add_sub_cancel] at h4
  exact ⟨by linarith, by linarith⟩

/-- the distance from a point to a line through the origin, seen from the point as far along the line as the given one -/
theorem along_near {α δ : R3} (hα : α ⬝ᵥ α = 1) {c : ℝ} (hc : -c ≤ δ ⬝ᵥ α) (hc0 : 0 ≤ c) (i : Fin 3) :
    |(euc δ • α - δ) i| ≤ 2 * euc (α ⨯₃ δ) + 2 * c := by
  have hL : (α ⨯₃ δ) ⬝ᵥ (α ⨯₃ δ) = δ ⬝ᵥ δ - (δ ⬝ᵥ α) * (δ ⬝ᵥ α) := by
    rw [cross_dot_cross, hα, dotProduct_comm α δ]; ring
  have e1 := euc_sq δ
  have e2 := euc_sq (α ⨯₃ δ)
  rw [hL] at e2
  have n1 := euc_nonneg δ
  have n2 := euc_nonneg (α ⨯₃ δ)
  set x := δ ⬝ᵥ α with hx
  have hp : euc (x • α - δ) = euc (α ⨯₃ δ) := by
    have h := euc_sq (x • α - δ)
    have : (x • α - δ) ⬝ᵥ (x • α - δ) = δ ⬝ᵥ δ - x * x := by
      simp only [sub_dotProduct, dotProduct_sub, smul_dotProduct, dotProduct_smul, hα, smul_eq_mul, dotProduct_comm α δ, ← hx]; ring
    rw [this] at h
    nlinarith [euc_nonneg (x • α - δ)]
  have hd : euc δ ≤ |x| + euc (α ⨯₃ δ) := by
    have := abs_nonneg x
    have := abs_mul_abs_self x
    nlinarith
  have hd' : |x| ≤ euc δ := by
    have := abs_nonneg x
    have := abs_mul_abs_self x
    nlinarith [mul_self_nonneg (euc (α ⨯₃ δ))]
  have hx2 : |x| ≤ x + 2 * c := by
    rcases le_total 0 x with h | h
    · rw [abs_of_nonneg h]; linarith
    · rw [abs_of_nonpos h]; linarith
  have h1 := euc_coord (x • α - δ) i
  rw [hp] at h1
  have e : (euc δ • α - δ) i = (euc δ - x) * α i + (x • α - δ) i := by
    simp only [Pi.sub_apply, Pi.smul_apply, smul_eq_mul]; ring
  rw [e]
  refine (abs_add_le _ _).trans ?_
  rw [abs_mul, abs_of_nonneg (by linarith [le_abs_self x] : 0 ≤ euc δ - x)]
  have : (euc δ - x) * |α i| ≤ (euc δ - x) * 1 := mul_le_mul_of_nonneg_left (unit_abs_le hα i) (by linarith [le_abs_self x])
  linarith

end real

section floats

variable {K : Type} [Field K] [LinearOrder K] [IsStrictOrderedRing K] [Fmt K] [LawfulFmt K] [RndErr K]
variable (φ : K →+* ℝ) (hφ : StrictMono φ)

/-- the ray-ray computation, without the monad -/
theorem rayRay_core_K (s t : Ray3 K) : core (.ray s) (.ray t) =
    (let v := V3.crs s.dir t.dir
     let d := V3.sub t.ori s.ori
     .ok (if !withinVicinity s.vicinity (V3.dotp v (V3.sub t.dir s.dir)) 0 then (false, none)
      else if V3.eqv v Mat3x1.default (Fl.lit (1 / 10000)) then
        if !withinVicinity s.vicinity (V3.mag (V3.crs s.dir d)) 0 then (false, none)
        else
          let dist := (if Fl.lt (V3.dotp d s.dir) 0 then -1 else 1) * V3.mag d / V3.mag s.dir
          if Fl.lt dist 0 then (true, some s.ori) else (true, some (V3.add (V3.scl s.dir dist) s.ori))
      else
        let q := V3.mag (V3.crs d t.dir) / V3.mag v
        if Fl.lt q 0 then (false, none) else (true, some (V3.add (V3.scl s.dir q) s.ori)))) := by
  show Ray3.intersectRay _ _ = _
  unfold Ray3.intersectRay
  simp only [vecAt_ray0, vecAt_ray3, Res.ok_bind, V3.minus_eq, V3.dot_eq, V3.cross_eq, V3.scale_eq, V3.plus_eq, V3.magnitude_eq,
    V3.isEqual_eq, unwrap_some, Res.pure_eq]
  repeat' split
  all_goals rfl

/-- a component of a cross product -/
theorem det2_float {x y z w : Fl K} {a b c d X Y : K} (hx : x.Holds a) (hy : y.Holds b) (hz : z.Holds c) (hw : w.Holds d)
    (ha : |a| ≤ X) (hb : |b| ≤ Y) (hc : |c| ≤ X) (hd : |d| ≤ Y) (he : (eta : K) ≤ u * (X * Y)) (ho : 3 * (X * Y) ≤ omega) :
    ∃ r, (x * y - z * w).Holds r ∧ |r| ≤ 3 * (X * Y) ∧ |r - (a * b - c * d)| ≤ 8 * (u * (X * Y)) := by
  have hu := u_pos (K := K)
  have hl := u_le (K := K)
  have hη := eta_pos (K := K)
  have hX : 0 ≤ X := (abs_nonneg _).trans ha
  have hY : 0 ≤ Y := (abs_nonneg _).trans hb
  have hXY : 0 ≤ X * Y := mul_nonneg hX hY
  have hη' : u * (X * Y) ≤ 1 / 64 * (X * Y) := mul_le_mul_of_nonneg_right hl hXY
  obtain ⟨r, hr, hb'⟩ := (((Lim.leaf hx ha).mul (Lim.leaf hy hb) (by linarith)).sub ((Lim.leaf hz hc).mul (Lim.leaf hw hd) (by linarith))
    (by linarith)).mono (B := 3 * (X * Y)) (by linarith)
  refine ⟨r, hr, hb', ?_⟩
  have e := (det2_appr hx hz hy hw).err r hr.1
  refine e.trans ?_
  have s1 : |a * b| ≤ X * Y := by rw [abs_mul]; exact mul_le_mul ha hb (abs_nonneg _) hX
  have s2 : |c * d| ≤ X * Y := by rw [abs_mul]; exact mul_le_mul hc hd (abs_nonneg _) hX
  have g : (1 + u : K) ^ 2 - 1 ≤ 5 / 2 * u := by nlinarith
  have g0 : 0 ≤ (1 + u : K) ^ 2 - 1 := by nlinarith
  have h1 := mul_le_mul g (add_le_add s1 s2) (by positivity) (by linarith)
  have h2 : 2 * (1 + u) * eta ≤ (5 / 2 * eta : K) := mul_le_mul_of_nonneg_right (by linarith) hη.le
  linarith

/-- the computed cross product -/
theorem cross_float {a b : V3 K} {A B : Fin 3 → K} {X Y : K} (ha : a.Holds A) (hb : b.Holds B) (hA : ∀ i, |A i| ≤ X) (hB : ∀ i, |B i| ≤ Y)
    (he : (eta : K) ≤ u * (X * Y)) (ho : 3 * (X * Y) ≤ omega) :
    ∃ C, (V3.crs a b).Holds C ∧ (∀ i, |C i| ≤ 3 * (X * Y)) ∧ ∀ i, |C i - (A ⨯₃ B) i| ≤ 8 * (u * (X * Y)) := by
  obtain ⟨r0, h0, b0, e0⟩ := det2_float (ha 1) (hb 2) (ha 2) (hb 1) (hA 1) (hB 2) (hA 2) (hB 1) he ho
  obtain ⟨r1, h1, b1, e1⟩ := det2_float (ha 2) (hb 0) (ha 0) (hb 2) (hA 2) (hB 0) (hA 0) (hB 2) he ho
  obtain ⟨r2, h2, b2, e2⟩ := det2_float (ha 0) (hb 1) (ha 1) (hb 0) (hA 0) (hB 1) (hA 1) (hB 0) he ho
  refine ⟨![r0, r1, r2], mk_holds (k := ![r0, r1, r2]) h0 h1 h2, fun i => ?_, fun i => ?_⟩
  · fin_cases i
    · exact b0
    · exact b1
    · exact b2
  · rw [cross_apply]
    fin_cases i
    · exact e0
    · exact e1
    · exact e2

theorem toR_cross (A B : Fin 3 → K) : toR φ (A ⨯₃ B) = toR φ A ⨯₃ toR φ B := by
  rw [cross_apply, cross_apply]
  ext i; fin_cases i <;> simp [toR]

/-- the computed difference -/
theorem sub_float {a b : V3 K} {A B : Fin 3 → K} {M : K} (ha : a.Holds A) (hb : b.Holds B) (hA : ∀ i, |A i| ≤ M) (hB : ∀ i, |B i| ≤ M)
    (ho : 2 * M ≤ omega) : ∃ D, (V3.sub a b).Holds D ∧ (∀ i, |D i| ≤ 65 / 32 * M) ∧ ∀ i, |D i - (A i - B i)| ≤ 2 * (u * M) := by
  have key (i : Fin 3) : ∃ D, (a.val[i] - b.val[i]).Holds D ∧ |D| ≤ 65 / 32 * M ∧ |D - (A i - B i)| ≤ 2 * (u * M) := by
    obtain ⟨D, hD, hb'⟩ := Lim.dif (ha i) (hb i) (hA i) (hB i) ho
    refine ⟨D, hD, hb', (Fl.sub_err (ha i).1 (hb i).1 (ha i).2 (hb i).2 hD.1).trans ?_⟩
    have : |A i - B i| ≤ 2 * M := (abs_sub _ _).trans (by linarith [hA i, hB i])
    have := mul_le_mul_of_nonneg_left this (u_pos (K := K)).le
    linarith
  obtain ⟨r0, h0, b0, e0⟩ := key 0
  obtain ⟨r1, h1, b1, e1⟩ := key 1
  obtain ⟨r2, h2, b2, e2⟩ := key 2
  refine ⟨![r0, r1, r2], mk_holds (k := ![r0, r1, r2]) h0 h1 h2, fun i => ?_, fun i => ?_⟩ <;> fin_cases i
  · exact b0
  · exact b1
  · exact b2
  · exact e0
  · exact e1
  · exact e2

theorem kdot_bound {x y : Fin 3 → K} {A B : K} (hx : ∀ i, |x i| ≤ A) (hy : ∀ i, |y i| ≤ B) : |x ⬝ᵥ y| ≤ 3 * (A * B) := by
  have hA := (abs_nonneg _).trans (hx 0)
  have p (i : Fin 3) : |x i * y i| ≤ A * B := by rw [abs_mul]; exact mul_le_mul (hx i) (hy i) (abs_nonneg _) hA
  rw [dotProduct, Fin.sum_univ_three]
  have h1 := abs_add_le (x 0 * y 0 + x 1 * y 1) (x 2 * y 2)
  have h2 := abs_add_le (x 0 * y 0) (x 1 * y 1)
  linarith [p 0, p 1, p 2]

theorem kcross_bound {x y : Fin 3 → K} {A B : K} (hx : ∀ i, |x i| ≤ A) (hy : ∀ i, |y i| ≤ B) (i : Fin 3) : |(x ⨯₃ y) i| ≤ 2 * (A * B) := by
  have hA := (abs_nonneg _).trans (hx 0)
  have p (i j : Fin 3) : |x i * y j| ≤ A * B := by rw [abs_mul]; exact mul_le_mul (hx i) (hy j) (abs_nonneg _) hA
  have key (i j k l : Fin 3) : |x i * y j - x k * y l| ≤ 2 * (A * B) := (abs_sub _ _).trans (by linarith [p i j, p k l])
  rw [cross_apply]
  fin_cases i <;> exact key _ _ _ _

/-- the value the code compares with its tolerance to decide that the rays are coplanar is rounding noise -/
theorem coplanar_float {a b : V3 K} {A B : Fin 3 → K} (ha : a.Holds A) (hb : b.Holds B) (hA : ∀ i, |A i| ≤ 9 / 8) (hB : ∀ i, |B i| ≤ 9 / 8)
    (e1 : (eta : K) ≤ u) (ho : 64 ≤ (omega : K)) : ∃ x, (V3.dotp (V3.crs a b) (V3.sub b a)).Holds x ∧ |x| ≤ 200 * u := by
  have hu := u_pos (K := K)
  have hl := u_le (K := K)
  obtain ⟨V, hV, bV, eV⟩ := cross_float ha hb hA hB (by linarith) (by linarith)
  obtain ⟨C, hC, bC, eC⟩ := sub_float hb ha hB hA (by linarith)
  obtain ⟨x, hx⟩ := dotp_range hV hC (R := 4) (B := 5 / 2) (fun i => (bV i).trans (by norm_num)) (fun i => (bC i).trans (by norm_num))
    (by linarith) (by linarith)
  refine ⟨x, ⟨hx, Fl.wf_add _ _⟩, ?_⟩
  have h1 := dotp_err hV hC (R := 4) (fun i => (bV i).trans (by norm_num)) hx
  have h2 : norm1 C ≤ 7 := by unfold norm1; linarith [bC 0, bC 1, bC 2]
  have h3 : V ⬝ᵥ C = (V - A ⨯₃ B) ⬝ᵥ C + (A ⨯₃ B) ⬝ᵥ (C - (B - A)) := by
    rw [sub_dotProduct, dotProduct_sub, dotProduct_comm (A ⨯₃ B) (B - A), sub_dotProduct, dot_cross_self, dot_self_cross]; ring
  have h4 := kdot_bound (x := V - A ⨯₃ B) (y := C) (fun i => eV i) bC
  have h5 := kdot_bound (x := A ⨯₃ B) (y := C - (B - A)) (kcross_bound hA hB) (fun i => eC i)
  have h6 := abs_add_le ((V - A ⨯₃ B) ⬝ᵥ C) ((A ⨯₃ B) ⬝ᵥ (C - (B - A)))
  rw [← h3] at h6
  have h7 := abs_add_le (x - V ⬝ᵥ C) (V ⬝ᵥ C)
  rw [sub_add_cancel] at h7
  have h8 : 7 / 2 * u * (4 * norm1 C) ≤ 7 / 2 * u * (4 * 7) := mul_le_mul_of_nonneg_left (by linarith) (by linarith)
  linarith

theorem cut_holds (e1 : (eta : K) ≤ u) : ∃ c, (Fl.lit (1 / 10000 : K)).Holds c ∧ |c - 1 / 10000| ≤ 2 * u := by
  have h0 : (1 / 10000 : K) ≠ 0 := by norm_num
  have h4 := four_le (K := K)
  have ha : |(1 / 10000 : K)| = 1 / 10000 := abs_of_pos (by norm_num)
  obtain ⟨c, hc⟩ := rnd_fin (1 / 10000 : K) (by rw [ha]; linarith)
  refine ⟨c, ⟨by rw [Fl.lit_of_ne h0]; exact hc, Fl.wf_lit _⟩, ?_⟩
  have := rnd_err _ _ hc
  rw [ha] at this
  linarith [u_pos (K := K)]

/-- the two ends of the interval the code compares a component with -/
theorem cut_ends (e1 : (eta : K) ≤ u) : ∃ c d, ((0 : Fl K) - Fl.lit (1 / 10000 : K)).Is c ∧ ((0 : Fl K) + Fl.lit (1 / 10000 : K)).Is d ∧
    |c + 1 / 10000| ≤ 3 * u ∧ |d - 1 / 10000| ≤ 3 * u := by
  obtain ⟨k, hk, he⟩ := cut_holds (K := K) e1
  have hu := u_pos (K := K)
  have hl := u_le (K := K)
  have h4 := four_le (K := K)
  have hz : (0 : Fl K).Holds 0 := ⟨rfl, .inl rfl⟩
  obtain ⟨k1, k2⟩ := abs_le.mp he
  have kb : |k| ≤ 1 := abs_le.mpr ⟨by linarith, by linarith⟩
  obtain ⟨c, hc⟩ := Fl.sub_fin hz.1 hk.1 (by rw [zero_sub, abs_neg]; linarith)
  obtain ⟨d, hd⟩ := Fl.add_fin hz.1 hk.1 (by rw [zero_add]; linarith)
  have h1 := Fl.sub_err hz.1 hk.1 hz.2 hk.2 hc
  have h2 := Fl.add_err hz.1 hk.1 hz.2 hk.2 hd
  rw [zero_sub, abs_neg] at h1
  rw [zero_add] at h2
  have h3 : u * |k| ≤ u * 1 := mul_le_mul_of_nonneg_left kb hu.le
  obtain ⟨a1, a2⟩ := abs_le.mp h1
  obtain ⟨b1, b2⟩ := abs_le.mp h2
  refine ⟨c, d, hc, hd, abs_le.mpr ⟨by linarith, by linarith⟩, abs_le.mpr ⟨by linarith, by linarith⟩⟩

theorem eqv_small {v : V3 K} {V : Fin 3 → K} (hv : v.Holds V) (e1 : (eta : K) ≤ u) (h : ∀ i, |V i| ≤ 1 / 10000 - 3 * u) :
    V3.eqv v Mat3x1.default (Fl.lit (1 / 10000)) = true := by
  obtain ⟨c, d, hc, hd, ec, ed⟩ := cut_ends (K := K) e1
  obtain ⟨c1, c2⟩ := abs_le.mp ec
  obtain ⟨d1, d2⟩ := abs_le.mp ed
  have key (i : Fin 3) : Fl.le ((0 : Fl K) - Fl.lit (1 / 10000 : K)) v.val[i] = true ∧ Fl.le v.val[i] ((0 : Fl K) + Fl.lit (1 / 10000 : K)) = true := by
    obtain ⟨h1, h2⟩ := abs_le.mp (h i)
    exact ⟨(hc.kle (hv i).1).mpr (by linarith), ((hv i).1.kle hd).mpr (by linarith)⟩
  have k0 : Fl.le ((0 : Fl K) - Fl.lit (1 / 10000 : K)) v.val[0] = true ∧ Fl.le v.val[0] ((0 : Fl K) + Fl.lit (1 / 10000 : K)) = true := key 0
  have k1 : Fl.le ((0 : Fl K) - Fl.lit (1 / 10000 : K)) v.val[1] = true ∧ Fl.le v.val[1] ((0 : Fl K) + Fl.lit (1 / 10000 : K)) = true := key 1
  have k2 : Fl.le ((0 : Fl K) - Fl.lit (1 / 10000 : K)) v.val[2] = true ∧ Fl.le v.val[2] ((0 : Fl K) + Fl.lit (1 / 10000 : K)) = true := key 2
  show (Fl.le ((0 : Fl K) - Fl.lit (1 / 10000 : K)) v.val[0] && Fl.le v.val[0] ((0 : Fl K) + Fl.lit (1 / 10000 : K)) &&
    Fl.le ((0 : Fl K) - Fl.lit (1 / 10000 : K)) v.val[1] && Fl.le v.val[1] ((0 : Fl K) + Fl.lit (1 / 10000 : K)) &&
    Fl.le ((0 : Fl K) - Fl.lit (1 / 10000 : K)) v.val[2] && Fl.le v.val[2] ((0 : Fl K) + Fl.lit (1 / 10000 : K))) = true
  rw [k0.1, k0.2, k1.1, k1.2, k2.1, k2.2]; rfl

theorem eqv_big {v : V3 K} {V : Fin 3 → K} (hv : v.Holds V) (e1 : (eta : K) ≤ u) {i : Fin 3} (h : 1 / 10000 + 3 * u < |V i|) :
    V3.eqv v Mat3x1.default (Fl.lit (1 / 10000)) = false := by
  obtain ⟨c, d, hc, hd, ec, ed⟩ := cut_ends (K := K) e1
  obtain ⟨c1, c2⟩ := abs_le.mp ec
  obtain ⟨d1, d2⟩ := abs_le.mp ed
  by_contra hne
  rw [Bool.not_eq_false] at hne
  have hne : (Fl.le ((0 : Fl K) - Fl.lit (1 / 10000 : K)) v.val[0] && Fl.le v.val[0] ((0 : Fl K) + Fl.lit (1 / 10000 : K)) &&
    Fl.le ((0 : Fl K) - Fl.lit (1 / 10000 : K)) v.val[1] && Fl.le v.val[1] ((0 : Fl K) + Fl.lit (1 / 10000 : K)) &&
    Fl.le ((0 : Fl K) - Fl.lit (1 / 10000 : K)) v.val[2] && Fl.le v.val[2] ((0 : Fl K) + Fl.lit (1 / 10000 : K))) = true := hne
  simp only [Bool.and_eq_true] at hne
  obtain ⟨⟨⟨⟨⟨k1, k2⟩, k3⟩, k4⟩, k5⟩, k6⟩ := hne
  have key : Fl.le ((0 : Fl K) - Fl.lit (1 / 10000 : K)) v.val[i] = true ∧ Fl.le v.val[i] ((0 : Fl K) + Fl.lit (1 / 10000 : K)) = true := by
    fin_cases i
    · exact ⟨k1, k2⟩
    · exact ⟨k3, k4⟩
    · exact ⟨k5, k6⟩
  have a1 := (hc.kle (hv i).1).mp key.1
  have a2 := ((hv i).1.kle hd).mp key.2
  exact absurd h (not_lt.mpr (abs_le.mpr ⟨by linarith, by linarith⟩))

include hφ

/-- the computed magnitude -/
theorem mag_float {a : V3 K} {A : Fin 3 → K} (ha : a.Holds A) {B : K} (hB : ∀ i, |A i| ≤ B) (he : (eta : K) ≤ 1) (ho : 4 * (B * B + 1) ≤ omega) :
    ∃ m, (V3.mag a).Holds m ∧ 0 ≤ m ∧ |φ m - euc (toR φ A)| ≤ 3 * φ u * euc (toR φ A) + 2 * √(φ eta) := by
  obtain ⟨t, ht⟩ := (Lim.dot3 (.leaf (ha 0) (hB 0)) (.leaf (ha 1) (hB 1)) (.leaf (ha 2) (hB 2)) (.leaf (ha 0) (hB 0)) (.leaf (ha 1) (hB 1))
    (.leaf (ha 2) (hB 2)) he ho)
  have hsq : ∃ m, (V3.mag a).Is m := by
    refine Fl.sqrt_fin ht.1.1 ?_ (((abs_le.mp ht.2).2).trans ho)
    have hnn := ((Fl.nonNeg_sq a.val[0]).add (Fl.nonNeg_sq a.val[1])).add (Fl.nonNeg_sq a.val[2])
    have ht : (a.val[0] * a.val[0] + a.val[1] * a.val[1] + a.val[2] * a.val[2]).Is t := ht.1.1
    generalize (a.val[0] * a.val[0] + a.val[1] * a.val[1] + a.val[2] * a.val[2]) = z at hnn ht
    rcases hnn with rfl | rfl | ⟨w, hw, rfl⟩
    · exact absurd ht (by simp [Fl.Is, Fl.val])
    · exact absurd ht (by simp [Fl.Is, Fl.val])
    · exact (show w = t from Option.some.inj ht) ▸ hw
  obtain ⟨m, hm⟩ := hsq
  obtain ⟨x, hx, hacc⟩ := C55_magnitude_abs φ hφ a A ha
  obtain rfl : x = V3.mag a := by rw [V3.magnitude_eq] at hx; exact (Option.some.inj hx).symm
  obtain ⟨h0, hmr⟩ := hacc m hm
  refine ⟨m, ⟨hm, Fl.wf_sqrt _⟩, ?_, hmr⟩
  rw [← hφ.le_iff_le, map_zero]; exact h0

theorem dir_float {E : Fin 3 → K} {k : R3} (hk : k ⬝ᵥ k = 1) (hK : ∀ i, |φ (E i) - k i| ≤ 5 * φ u * |k i| + φ eta) (e1 : (eta : K) ≤ u) :
    (∀ i, |φ (E i) - k i| ≤ 6 * φ u) ∧ ∀ i, |E i| ≤ 9 / 8 := by
  obtain ⟨hu0, hul, heta⟩ := phi_u φ hφ
  have e1' : φ eta ≤ φ u := hφ.monotone e1
  have h1 (i : Fin 3) : |φ (E i) - k i| ≤ 6 * φ u := by
    have : 5 * φ u * |k i| ≤ 5 * φ u * 1 := mul_le_mul_of_nonneg_left (unit_abs_le hk i) (by linarith)
    linarith [hK i]
  refine ⟨h1, fun i => ?_⟩
  rw [← hφ.le_iff_le, map_abs_mono φ hφ, map_div₀, map_ofNat, map_ofNat]
  have h2 := abs_add_le (φ (E i) - k i) (k i)
  rw [sub_add_cancel] at h2
  linarith [h1 i, unit_abs_le hk i]

/-- the computed cross product of the stored directions -/
theorem cross_dirs {a b : V3 K} {A B : Fin 3 → K} (ha : a.Holds A) (hb : b.Holds B) {α β : R3} (hα : α ⬝ᵥ α = 1)
    (hA : ∀ i, |φ (A i) - α i| ≤ 6 * φ u) (hB : ∀ i, |φ (B i) - β i| ≤ 6 * φ u) (bA : ∀ i, |A i| ≤ 9 / 8) (bB : ∀ i, |B i| ≤ 9 / 8)
    (e1 : (eta : K) ≤ u) : ∃ V, (V3.crs a b).Holds V ∧ (∀ i, |V i| ≤ 4) ∧ ∀ i, |φ (V i) - (α ⨯₃ β) i| ≤ 36 * φ u := by
  have hu := u_pos (K := K)
  have h4 := four_le (K := K)
  obtain ⟨hu0, hul, heta⟩ := phi_u φ hφ
  obtain ⟨V, hV, bV, eV⟩ := cross_float ha hb bA bB (by linarith) (by linarith)
  refine ⟨V, hV, fun i => (bV i).trans (by norm_num), fun i => ?_⟩
  have h1 := phi_le φ hφ (eV i)
  rw [map_sub, show φ ((A ⨯₃ B) i) = (toR φ A ⨯₃ toR φ B) i from congrFun (toR_cross φ A B) i] at h1
  simp only [map_mul, map_div₀, map_ofNat] at h1
  have h2 := cross_perturb (a := α) (a' := toR φ A) (b := β) (b' := toR φ B) (X := 1) (Y := 9 / 8) hA hB (unit_abs_le hα)
    (fun j => by have := phi_le φ hφ (bB j); rwa [map_div₀, map_ofNat, map_ofNat] at this) i
  have h3 := abs_add_le (φ (V i) - (toR φ A ⨯₃ toR φ B) i) ((toR φ A ⨯₃ toR φ B) i - (α ⨯₃ β) i)
  rw [sub_add_sub_cancel] at h3
  linarith

/-- the computed cross product of an offset and a stored direction -/
theorem cross_offset {d b : V3 K} {D B : Fin 3 → K} {M : K} (hd : d.Holds D) (hb : b.Holds B) {δ β : R3}
    (hD : ∀ i, |φ (D i) - δ i| ≤ 2 * (φ u * φ M)) (hδ : ∀ i, |δ i| ≤ 2 * φ M) (bD : ∀ i, |D i| ≤ 65 / 32 * M)
    (hB : ∀ i, |φ (B i) - β i| ≤ 6 * φ u) (bB : ∀ i, |B i| ≤ 9 / 8) (hM : 0 < M) (e2 : (eta : K) ≤ u * M) (ho : 7 * M ≤ (omega : K)) :
    ∃ N, (V3.crs d b).Holds N ∧ (∀ i, |N i| ≤ 7 * M) ∧ ∀ i, |φ (N i) - (δ ⨯₃ β) i| ≤ 48 * (φ u * φ M) := by
  have hu := u_pos (K := K)
  obtain ⟨hu0, hul, heta⟩ := phi_u φ hφ
  have hM' : 0 < φ M := by have := hφ hM; rwa [map_zero] at this
  have huM := mul_pos hu0 hM'
  have hukM := mul_pos hu hM
  obtain ⟨N, hN, bN, eN⟩ := cross_float hd hb bD bB (by linarith) (by linarith)
  refine ⟨N, hN, fun i => (bN i).trans (by linarith), fun i => ?_⟩
  have h1 := phi_le φ hφ (eN i)
  rw [map_sub, show φ ((D ⨯₃ B) i) = (toR φ D ⨯₃ toR φ B) i from congrFun (toR_cross φ D B) i] at h1
  simp only [map_mul, map_div₀, map_ofNat] at h1
  have h2 := cross_perturb (a := δ) (a' := toR φ D) (b := β) (b' := toR φ B) (X := 2 * φ M) (Y := 9 / 8) hD hB hδ
    (fun j => by have := phi_le φ hφ (bB j); rwa [map_div₀, map_ofNat, map_ofNat] at this) i
  have h3 := abs_add_le (φ (N i) - (toR φ D ⨯₃ toR φ B) i) ((toR φ D ⨯₃ toR φ B) i - (δ ⨯₃ β) i)
  rw [sub_add_sub_cancel] at h3
  linarith

omit hφ in
theorem sqrt_eta {M : K} (hφ : StrictMono φ) (hM : 0 ≤ M) (h : 4 * (eta : K) ≤ u * M * (u * M)) : 2 * √(φ eta) ≤ φ u * φ M := by
  obtain ⟨hu0, hul, heta⟩ := phi_u φ hφ
  have hM' : 0 ≤ φ M := by have := hφ.monotone hM; rwa [map_zero] at this
  have h' := hφ.monotone h
  simp only [map_mul, map_ofNat] at h'
  have := Real.sqrt_le_sqrt h'
  rwa [Real.sqrt_mul_self (by positivity), show (4 : ℝ) * φ eta = 2 ^ 2 * φ eta by ring, Real.sqrt_mul (by norm_num),
    Real.sqrt_sq (by norm_num)] at this

/-- the numeric hypotheses about two rays with origins bounded by `M` and tolerance `ε`: precision, no underflow, no overflow -/
structure RayPair (O O' : Fin 3 → K) (ε M : K) : Prop where
  b : ∀ i, |O i| ≤ M
  b' : ∀ i, |O' i| ≤ M
  pos : 0 < M
  prec : 3000000 * (u : K) ≤ 1
  e0 : 4 * (eta : K) ≤ u * u
  e1 : 4 * (eta : K) ≤ u * M * (u * M)
  tol : 512 * (u : K) ≤ ε
  tolM : 128 * (ε + 2) ≤ (omega : K)
  top : 10000000 * ((M + 1) * (M + 1)) ≤ (omega : K)


namespace RayPair

omit hφ
variable {O O' : Fin 3 → K} {ε M : K} (R : RayPair O O' ε M)
include R

theorem eu : (eta : K) ≤ u := by
  have hu := u_pos (K := K)
  have := u_le (K := K)
  nlinarith [R.e0]

theorem euM : (eta : K) ≤ u * M := by
  have hu := u_pos (K := K)
  have := u_le (K := K)
  have h1 := R.eu
  have h2 := mul_pos hu R.pos
  rcases le_total (u * M) 4 with h | h
  · nlinarith [R.e1]
  · linarith

theorem tops : 64 ≤ (omega : K) ∧ 10000000 * (M + 1) ≤ (omega : K) ∧ 4 * (7 * M * (7 * M) + 1) ≤ (omega : K) := by
  have h := R.pos
  have t := R.top
  refine ⟨?_, ?_, ?_⟩ <;> nlinarith

/-- the coplanarity test of the code succeeds on any two directions -/
theorem coplanar {a b : V3 K} {A B : Fin 3 → K} (ha : a.Holds A) (hb : b.Holds B) (hA : ∀ i, |A i| ≤ 9 / 8) (hB : ∀ i, |B i| ≤ 9 / 8)
    {w : Fl K} (hw : w.Holds ε) : withinVicinity w (V3.dotp (V3.crs a b) (V3.sub b a)) 0 = true := by
  have hu := u_pos (K := K)
  have hl := u_le (K := K)
  have ht := R.tol
  obtain ⟨x, hx, bx⟩ := coplanar_float ha hb hA hB R.eu R.tops.1
  refine within_of (M := ε + 1) hx hw (y := 0) rfl (by linarith) (by linarith) (by linarith) (by linarith [R.tolM]) ?_
  rw [sub_zero]
  nlinarith

end RayPair

/-- beyond the cut-off: the computed parameter -/
theorem param_float {s t : Ray3 K} {O O' A B : Fin 3 → K} {ε M : K} (R : RayPair O O' ε M) (hO : s.ori.Holds O) (hO' : t.ori.Holds O')
    (ha : s.dir.Holds A) (hb : t.dir.Holds B) {α β : R3} (hα : α ⬝ᵥ α = 1) (hβ : β ⬝ᵥ β = 1)
    (hA : ∀ i, |φ (A i) - α i| ≤ 5 * φ u * |α i| + φ eta) (hB : ∀ i, |φ (B i) - β i| ≤ 5 * φ u * |β i| + φ eta)
    {i : Fin 3} (hcut : 1 / 10000 + 40 * φ u < |(α ⨯₃ β) i|) {T : ℝ} (hT : T = euc ((toR φ O' - toR φ O) ⨯₃ β) / euc (α ⨯₃ β)) :
    V3.eqv (V3.crs s.dir t.dir) Mat3x1.default (Fl.lit (1 / 10000)) = false ∧
    ∃ q, (V3.mag (V3.crs (V3.sub t.ori s.ori) t.dir) / V3.mag (V3.crs s.dir t.dir)).Holds q ∧ 0 ≤ q ∧
      |φ q - T| ≤ 160 * (φ u * (φ M + T)) / euc (α ⨯₃ β) ∧ |q| ≤ 100000 * M := by
  obtain ⟨hu0, hul, heta⟩ := phi_u φ hφ
  have hu := u_pos (K := K)
  have hM := R.pos
  have hM' : 0 < φ M := by have := hφ hM; rwa [map_zero] at this
  obtain ⟨o1, o2, o3⟩ := R.tops
  have hprec : 3000000 * φ u ≤ 1 := by have := hφ.monotone R.prec; rwa [map_mul, map_ofNat, map_one] at this
  obtain ⟨dA, bA⟩ := dir_float φ hφ hα hA R.eu
  obtain ⟨dB, bB⟩ := dir_float φ hφ hβ hB R.eu
  obtain ⟨V, hV, bV, eV⟩ := cross_dirs φ hφ ha hb hα dA dB bA bB R.eu
  obtain ⟨D, hD, bD, eD⟩ := sub_float hO' hO R.b' R.b (by linarith)
  have eD' (j : Fin 3) : |φ (D j) - (toR φ O' - toR φ O) j| ≤ 2 * (φ u * φ M) := by
    have := phi_le φ hφ (eD j)
    simp only [map_sub, map_mul, map_ofNat] at this
    exact this
  have bδ (j : Fin 3) : |(toR φ O' - toR φ O) j| ≤ 2 * φ M := by
    have h1 : |toR φ O j| ≤ φ M := phi_le φ hφ (R.b j)
    have h2 : |toR φ O' j| ≤ φ M := phi_le φ hφ (R.b' j)
    exact (abs_sub _ _).trans (by linarith)
  obtain ⟨N, hN, bN, eN⟩ := cross_offset φ hφ hD hb eD' bδ bD dB bB hM R.euM (by linarith)
  have hη1 : (eta : K) ≤ 1 := R.eu.trans ((u_le (K := K)).trans (by norm_num))
  obtain ⟨n, hn, n0, en⟩ := mag_float φ hφ hN bN hη1 o3
  obtain ⟨v, hv, v0, ev⟩ := mag_float φ hφ hV bV hη1 (by nlinarith)
  have sM := sqrt_eta φ hφ hM.le R.e1
  have s1 := sqrt_eta φ hφ (M := 1) zero_le_one (by rw [mul_one]; exact R.e0)
  rw [map_one, mul_one] at s1
  -- the magnitudes
  set κ := euc (α ⨯₃ β) with hκ
  set ν := euc ((toR φ O' - toR φ O) ⨯₃ β) with hν
  have κ0 : 1 / 10000 + 40 * φ u < κ := hcut.trans_le (euc_coord _ i)
  have κ1 : κ ≤ 1 := by
    have := euc_cross_le α β
    have e (x : R3) (h : x ⬝ᵥ x = 1) : euc x = 1 := by
      have := euc_sq x; rw [h] at this; nlinarith [euc_nonneg x]
    rwa [e α hα, e β hβ, mul_one] at this
  have κp : 0 < κ := by linarith
  have euM := mul_pos hu0 hM'
  have euM1 : φ u * φ M ≤ 1 / 64 * φ M := mul_le_mul_of_nonneg_right hul hM'.le
  have ev' : |φ v - κ| ≤ 70 * φ u := by
    have h1 := euc_lip (toR φ V) (α ⨯₃ β)
    have h2 := euc_le_of (c := toR φ V - α ⨯₃ β) eV
    have h3 := abs_add_le (φ v - euc (toR φ V)) (euc (toR φ V) - κ)
    rw [sub_add_sub_cancel] at h3
    have h4 : euc (toR φ V) ≤ 11 / 10 := by linarith [(abs_le.mp h1).2]
    have h5 : 3 * φ u * euc (toR φ V) ≤ 3 * φ u * (11 / 10) := mul_le_mul_of_nonneg_left h4 (by linarith)
    linarith
  have νb : ν ≤ 7 / 2 * φ M := by
    have h1 := euc_cross_le (toR φ O' - toR φ O) β
    have h2 := euc_le_of bδ
    have e : euc β = 1 := by have := euc_sq β; rw [hβ] at this; nlinarith [euc_nonneg β]
    rw [e, mul_one] at h1
    linarith
  have en' : |φ n - ν| ≤ 100 * (φ u * φ M) := by
    have h1 := euc_lip (toR φ N) ((toR φ O' - toR φ O) ⨯₃ β)
    have h2 := euc_le_of (c := toR φ N - (toR φ O' - toR φ O) ⨯₃ β) eN
    have h3 := abs_add_le (φ n - euc (toR φ N)) (euc (toR φ N) - ν)
    rw [sub_add_sub_cancel] at h3
    have h4 : euc (toR φ N) ≤ 4 * φ M := by
      have : 84 * (φ u * φ M) ≤ 1 / 2 * φ M := by nlinarith
      linarith [(abs_le.mp h1).2]
    have h5 : 3 * φ u * euc (toR φ N) ≤ 3 * φ u * (4 * φ M) := mul_le_mul_of_nonneg_left h4 (by linarith)
    linarith
  have T0 : 0 ≤ T := by rw [hT]; exact div_nonneg (euc_nonneg _) (euc_nonneg _)
  have hνT : ν = T * κ := by rw [hT]; field_simp
  have hηM : φ eta ≤ φ u * φ M := by have := hφ.monotone R.euM; rwa [map_mul] at this
  have Q (q : ℝ) := quotient_mag (q := q) hu0 hul hM'.le T0 hηM heta.le (by linarith) κ1 hνT en' ev'
  obtain ⟨vlo, qe, -⟩ := Q 0
  have vK : 1 / 20000 ≤ v := by
    rw [← hφ.le_iff_le, map_div₀, map_one, map_ofNat]; linarith
  have nK : n ≤ 4 * M := by
    rw [← hφ.le_iff_le, map_mul, map_ofNat]
    have : 100 * (φ u * φ M) ≤ 1 / 2 * φ M := by nlinarith
    linarith [(abs_le.mp en').2]
  have vp : 0 < v := by linarith
  have qK : |n / v| ≤ 80000 * M := by
    rw [abs_of_nonneg (div_nonneg n0 v0), div_le_iff₀ vp]
    nlinarith
  obtain ⟨q, hq⟩ := Fl.div_fin hn.1 hv.1 vp.ne' (qK.trans (by linarith))
  have eq := Fl.div_err hn.1 hv.1 vp.ne' hq
  have q0 := div_nonneg_is hn.1 hv.1 vp.ne' hq (div_nonneg n0 v0)
  refine ⟨eqv_big hV R.eu (i := i) ?_, q, ⟨hq, Fl.wf_div _ _⟩, q0, (Q (φ q)).2.2 ?_, ?_⟩
  · rw [← hφ.lt_iff_lt, map_abs_mono φ hφ]
    simp only [map_add, map_mul, map_div₀, map_one, map_ofNat]
    have h1 := abs_sub (φ (V i)) (φ (V i) - (α ⨯₃ β) i)
    rw [sub_sub_cancel] at h1
    linarith [eV i]
  · have := phi_le φ hφ eq
    simpa only [map_sub, map_add, map_mul, map_div₀, map_abs_mono φ hφ] using this
  · have h1 := abs_add_le (q - n / v) (n / v)
    rw [sub_add_cancel] at h1
    have h2 : u * |n / v| ≤ 1 / 64 * (80000 * M) := mul_le_mul u_le qK (abs_nonneg _) (by norm_num)
    have h3 : u * M ≤ 1 / 64 * M := mul_le_mul_of_nonneg_right u_le hM.le
    linarith [R.euM]

/-- beyond the cut-off: two rays whose bounds overlap are always reported -/
theorem apart_float {s t : Ray3 K} {O O' A B : Fin 3 → K} {ε M : K} (R : RayPair O O' ε M) (hw : s.vicinity.Holds ε) (hO : s.ori.Holds O)
    (hO' : t.ori.Holds O') (ha : s.dir.Holds A) (hb : t.dir.Holds B) {α β : R3} (hα : α ⬝ᵥ α = 1) (hβ : β ⬝ᵥ β = 1)
    (hA : ∀ i, |φ (A i) - α i| ≤ 5 * φ u * |α i| + φ eta) (hB : ∀ i, |φ (B i) - β i| ≤ 5 * φ u * |β i| + φ eta)
    {i : Fin 3} (hcut : 1 / 10000 + 40 * φ u < |(α ⨯₃ β) i|) {T : ℝ} (hT : T = euc ((toR φ O' - toR φ O) ⨯₃ β) / euc (α ⨯₃ β)) :
    ∃ loc P, core (.ray s) (.ray t) = .ok (true, some loc) ∧ loc.Holds P ∧
      ∀ i, |φ (P i) - (toR φ O + T • α) i| ≤ 320 * (φ u * (φ M + T)) / euc (α ⨯₃ β) := by
  obtain ⟨hu0, hul, heta⟩ := phi_u φ hφ
  have hM := R.pos
  have hM' : 0 < φ M := by have := hφ hM; rwa [map_zero] at this
  obtain ⟨o1, o2, o3⟩ := R.tops
  obtain ⟨-, bA⟩ := dir_float φ hφ hα hA R.eu
  obtain ⟨-, bB⟩ := dir_float φ hφ hβ hB R.eu
  obtain ⟨hne, q, hq, q0, eq, qb⟩ := param_float φ hφ R hO hO' ha hb hα hβ hA hB hcut hT
  have hprec : 3000000 * φ u ≤ 1 := by have := hφ.monotone R.prec; rwa [map_mul, map_ofNat, map_one] at this
  have κ0 : 1 / 10000 + 40 * φ u < euc (α ⨯₃ β) := hcut.trans_le (euc_coord _ i)
  have κ1 : euc (α ⨯₃ β) ≤ 1 := by
    have := euc_cross_le α β
    have e (x : R3) (h : x ⬝ᵥ x = 1) : euc x = 1 := by
      have := euc_sq x; rw [h] at this; nlinarith [euc_nonneg x]
    rwa [e α hα, e β hβ, mul_one] at this
  have T0 : 0 ≤ T := by rw [hT]; exact div_nonneg (euc_nonneg _) (euc_nonneg _)
  generalize euc (α ⨯₃ β) = κ at *
  have κp : 0 < κ := by linarith
  obtain ⟨W, hW⟩ : ∃ W, W = 80 * (φ u * (φ M + T)) / κ := ⟨_, rfl⟩
  have hW1 : 80 * (φ u * (φ M + T)) ≤ W := by
    rw [hW, le_div_iff₀ κp]
    exact mul_le_of_le_one_right (by positivity) κ1
  have eq2 : |φ q - T| ≤ 2 * W := eq.trans (by rw [hW, ← mul_div_assoc]; apply le_of_eq; ring)
  have hsm : 2 * W ≤ φ M + T := by
    rw [hW, ← mul_div_assoc, div_le_iff₀ κp]
    have : 160 * φ u ≤ κ := by linarith
    have := mul_le_mul_of_nonneg_right this (by linarith : 0 ≤ φ M + T)
    linarith
  have hqR : φ |q| ≤ φ M + 2 * T := by
    rw [map_abs_mono φ hφ]
    have := abs_add_le (φ q - T) T
    rw [sub_add_cancel, abs_of_nonneg T0] at this
    linarith
  have e1' : φ eta ≤ φ u := hφ.monotone R.eu
  have e2' : φ eta ≤ φ u * φ M := by have := hφ.monotone R.euM; rwa [map_mul] at this
  have uT := mul_nonneg hu0.le T0
  have uM := mul_pos hu0 hM'
  obtain ⟨P, hP, eP⟩ := along_float φ hφ (e := s.dir) (a := s.ori) (M := M + |q|) (T := T) (W := W) ha hO hα hA
    (fun j => (R.b j).trans (by linarith [abs_nonneg q])) (R.eu.trans u_le) hq (by linarith [abs_nonneg q]) (by linarith) T0
    (by linarith) (by linarith)
    (by
      rw [map_add]
      have := mul_le_mul_of_nonneg_left hqR hu0.le
      linarith)
    (by
      have : φ eta * T ≤ φ u * T := mul_le_mul_of_nonneg_right e1' T0
      linarith) eq2
  refine ⟨_, P, ?_, hP, fun j => (eP j).trans (by rw [hW, ← mul_div_assoc]; apply le_of_eq; ring)⟩
  have hcp := R.coplanar ha hb bA bB hw
  have hlt : Fl.lt (V3.mag (V3.crs (V3.sub t.ori s.ori) t.dir) / V3.mag (V3.crs s.dir t.dir)) 0 = false := by
    rw [← Bool.not_eq_true, Fl.Is.klt (y := (0 : Fl K)) hq.1 rfl, not_lt]; exact q0
  rw [rayRay_core_K]
  simp only
  rw [hcp, hne, hlt]
  rfl

/-- the computed cross product of a stored direction and an offset -/
theorem offset_cross {d a : V3 K} {D A : Fin 3 → K} {M : K} (hd : d.Holds D) (ha : a.Holds A) {δ α : R3} (hα : α ⬝ᵥ α = 1)
    (hD : ∀ i, |φ (D i) - δ i| ≤ 2 * (φ u * φ M)) (bD : ∀ i, |D i| ≤ 65 / 32 * M)
    (hA : ∀ i, |φ (A i) - α i| ≤ 6 * φ u) (bA : ∀ i, |A i| ≤ 9 / 8) (hM : 0 < M) (e2 : (eta : K) ≤ u * M) (ho : 7 * M ≤ (omega : K)) :
    ∃ N, (V3.crs a d).Holds N ∧ (∀ i, |N i| ≤ 7 * M) ∧ ∀ i, |φ (N i) - (α ⨯₃ δ) i| ≤ 48 * (φ u * φ M) := by
  have hu := u_pos (K := K)
  obtain ⟨hu0, hul, heta⟩ := phi_u φ hφ
  have hM' : 0 < φ M := by have := hφ hM; rwa [map_zero] at this
  have huM := mul_pos hu0 hM'
  have hukM := mul_pos hu hM
  obtain ⟨N, hN, bN, eN⟩ := cross_float ha hd bA bD (by linarith) (by linarith)
  refine ⟨N, hN, fun i => (bN i).trans (by linarith), fun i => ?_⟩
  have h1 := phi_le φ hφ (eN i)
  rw [map_sub, show φ ((A ⨯₃ D) i) = (toR φ A ⨯₃ toR φ D) i from congrFun (toR_cross φ A D) i] at h1
  simp only [map_mul, map_div₀, map_ofNat] at h1
  have h2 := cross_perturb (a := α) (a' := toR φ A) (b := δ) (b' := toR φ D) (X := 1) (Y := 65 / 32 * φ M) hA hD (unit_abs_le hα)
    (fun j => by have := phi_le φ hφ (bD j); rwa [map_mul, map_div₀, map_ofNat, map_ofNat] at this) i
  have h3 := abs_add_le (φ (N i) - (toR φ A ⨯₃ toR φ D) i) ((toR φ A ⨯₃ toR φ D) i - (α ⨯₃ δ) i)
  rw [sub_add_sub_cancel] at h3
  linarith

/-- the computed dot product of an offset and a stored direction -/
theorem offset_dot {d a : V3 K} {D A : Fin 3 → K} {M : K} (hd : d.Holds D) (ha : a.Holds A) {δ α : R3}
    (hD : ∀ i, |φ (D i) - δ i| ≤ 2 * (φ u * φ M)) (hδ : ∀ i, |δ i| ≤ 2 * φ M) (bD : ∀ i, |D i| ≤ 65 / 32 * M)
    (hA : ∀ i, |φ (A i) - α i| ≤ 6 * φ u) (bA : ∀ i, |A i| ≤ 9 / 8) (hM : 0 < M) (e2 : (eta : K) ≤ u * M) (e1 : (eta : K) ≤ 1)
    (ho : 10 * (M + 1) ≤ (omega : K)) : ∃ x, (V3.dotp d a).Is x ∧ |φ x - δ ⬝ᵥ α| ≤ 72 * (φ u * φ M) := by
  have hu := u_pos (K := K)
  obtain ⟨hu0, hul, heta⟩ := phi_u φ hφ
  have hM' : 0 < φ M := by have := hφ hM; rwa [map_zero] at this
  have huM := mul_pos hu hM
  obtain ⟨x, hx⟩ := dotp_range hd ha bD bA e1 (by linarith)
  refine ⟨x, hx, ?_⟩
  have h0 := dotp_err hd ha bD hx
  have hn : norm1 A ≤ 27 / 8 := by unfold norm1; linarith [bA 0, bA 1, bA 2]
  have h1 : |x - D ⬝ᵥ A| ≤ 29 * (u * M) := by
    have : 7 / 2 * u * (65 / 32 * M * norm1 A) ≤ 7 / 2 * u * (65 / 32 * M * (27 / 8)) :=
      mul_le_mul_of_nonneg_left (mul_le_mul_of_nonneg_left hn (by linarith)) (by linarith)
    linarith
  have h2 := phi_le φ hφ h1
  have eD : φ (D ⬝ᵥ A) = toR φ D ⬝ᵥ toR φ A := by simp [dotProduct, toR]
  rw [map_sub, eD] at h2
  simp only [map_mul, map_ofNat] at h2
  have h3 : |toR φ D ⬝ᵥ toR φ A - δ ⬝ᵥ α| ≤ 43 * (φ u * φ M) := by
    have key (i : Fin 3) : |toR φ D i * toR φ A i - δ i * α i| ≤ 43 / 3 * (φ u * φ M) := by
      have e : toR φ D i * toR φ A i - δ i * α i = (φ (D i) - δ i) * φ (A i) + δ i * (φ (A i) - α i) := by simp only [toR]; ring
      rw [e]
      refine (abs_add_le _ _).trans ?_
      rw [abs_mul, abs_mul]
      have a1 : |φ (A i)| ≤ 9 / 8 := by have := phi_le φ hφ (bA i); rwa [map_div₀, map_ofNat, map_ofNat] at this
      have := mul_le_mul (hD i) a1 (abs_nonneg _) (by positivity)
      have := mul_le_mul (hδ i) (hA i) (abs_nonneg _) (by positivity)
      have := mul_pos hu0 hM'
      linarith
    have e : toR φ D ⬝ᵥ toR φ A - δ ⬝ᵥ α = (toR φ D 0 * toR φ A 0 - δ 0 * α 0) + (toR φ D 1 * toR φ A 1 - δ 1 * α 1)
        + (toR φ D 2 * toR φ A 2 - δ 2 * α 2) := by
      simp only [dotProduct, Fin.sum_univ_three]; ring
    rw [e]
    refine (abs_add_le _ _).trans ?_
    linarith [abs_add_le (toR φ D 0 * toR φ A 0 - δ 0 * α 0) (toR φ D 1 * toR φ A 1 - δ 1 * α 1), key 0, key 1, key 2]
  have h4 := abs_add_le (φ x - toR φ D ⬝ᵥ toR φ A) (toR φ D ⬝ᵥ toR φ A - δ ⬝ᵥ α)
  rw [sub_add_sub_cancel] at h4
  linarith

/-- within the cut-off: the answer is that of the distance between the first line and the second origin -/
theorem parallel_float {s t : Ray3 K} {O O' A B : Fin 3 → K} {ε M : K} (R : RayPair O O' ε M) (hw : s.vicinity.Holds ε) (hO : s.ori.Holds O)
    (hO' : t.ori.Holds O') (ha : s.dir.Holds A) (hb : t.dir.Holds B) {α β : R3} (hα : α ⬝ᵥ α = 1) (hβ : β ⬝ᵥ β = 1)
    (hA : ∀ i, |φ (A i) - α i| ≤ 5 * φ u * |α i| + φ eta) (hB : ∀ i, |φ (B i) - β i| ≤ 5 * φ u * |β i| + φ eta)
    (hcut : ∀ i, |(α ⨯₃ β) i| ≤ 1 / 10000 - 40 * φ u) {δ : R3} (hδ : δ = toR φ O' - toR φ O) :
    (φ ε + 128 * (φ u * (φ M + φ ε)) < euc (α ⨯₃ δ) → core (.ray s) (.ray t) = .ok (false, none)) ∧
    (euc (α ⨯₃ δ) ≤ φ ε - 128 * (φ u * (φ M + φ ε)) → ∃ loc P, core (.ray s) (.ray t) = .ok (true, some loc) ∧ loc.Holds P ∧
      ((δ ⬝ᵥ α ≤ 72 * (φ u * φ M) ∧ ∀ i, |φ (P i) - toR φ O i| ≤ 384 * (φ u * φ M)) ∨
        (-(72 * (φ u * φ M)) ≤ δ ⬝ᵥ α ∧ ∀ i, |φ (P i) - (toR φ O + euc δ • α) i| ≤ 384 * (φ u * φ M)))) := by
  obtain ⟨hu0, hul, heta⟩ := phi_u φ hφ
  have hu := u_pos (K := K)
  have hM := R.pos
  have hM' : 0 < φ M := by have := hφ hM; rwa [map_zero] at this
  obtain ⟨o1, o2, o3⟩ := R.tops
  have hprec : 3000000 * φ u ≤ 1 := by have := hφ.monotone R.prec; rwa [map_mul, map_ofNat, map_one] at this
  obtain ⟨dA, bA⟩ := dir_float φ hφ hα hA R.eu
  obtain ⟨dB, bB⟩ := dir_float φ hφ hβ hB R.eu
  obtain ⟨V, hV, bV, eV⟩ := cross_dirs φ hφ ha hb hα dA dB bA bB R.eu
  obtain ⟨D, hD, bD, eD⟩ := sub_float hO' hO R.b' R.b (by linarith)
  have eD' (j : Fin 3) : |φ (D j) - δ j| ≤ 2 * (φ u * φ M) := by
    have := phi_le φ hφ (eD j)
    simp only [map_sub, map_mul, map_ofNat] at this
    rw [hδ]; exact this
  have bδ (j : Fin 3) : |δ j| ≤ 2 * φ M := by
    have h1 : |toR φ O j| ≤ φ M := phi_le φ hφ (R.b j)
    have h2 : |toR φ O' j| ≤ φ M := phi_le φ hφ (R.b' j)
    rw [hδ]; exact (abs_sub _ _).trans (by linarith)
  obtain ⟨N, hN, bN, eN⟩ := offset_cross φ hφ hD ha hα eD' bD dA bA hM R.euM (by linarith)
  have hη1 : (eta : K) ≤ 1 := R.eu.trans ((u_le (K := K)).trans (by norm_num))
  obtain ⟨x, hx, ex⟩ := offset_dot φ hφ hD ha eD' bδ bD dA bA hM R.euM hη1 (by linarith)
  obtain ⟨n, hn, n0, en⟩ := mag_float φ hφ hN bN hη1 o3
  obtain ⟨m, hm, m0, em⟩ := mag_float φ hφ ha bA hη1 (by linarith)
  obtain ⟨l, hl, l0, el⟩ := mag_float φ hφ hD (fun i => (bD i).trans (by linarith : 65 / 32 * M ≤ 7 * M)) hη1 o3
  have sM := sqrt_eta φ hφ hM.le R.e1
  have s1 := sqrt_eta φ hφ (M := 1) zero_le_one (by rw [mul_one]; exact R.e0)
  rw [map_one, mul_one] at s1
  have uM := mul_pos hu0 hM'
  have uM1 : 3000000 * (φ u * φ M) ≤ φ M := by nlinarith
  have αe : euc α = 1 := by have := euc_sq α; rw [hα] at this; nlinarith [euc_nonneg α]
  have δb : euc δ ≤ 7 / 2 * φ M := (euc_le_of bδ).trans (by linarith)
  -- the three magnitudes
  set ν := euc (α ⨯₃ δ) with hν
  have νb : ν ≤ 7 / 2 * φ M := by
    have h1 := euc_cross_le α δ
    rw [αe, one_mul] at h1
    linarith
  have en' : |φ n - ν| ≤ 100 * (φ u * φ M) := by
    have h1 := euc_lip (toR φ N) (α ⨯₃ δ)
    have h2 := euc_le_of (c := toR φ N - α ⨯₃ δ) eN
    have h3 := abs_add_le (φ n - euc (toR φ N)) (euc (toR φ N) - ν)
    rw [sub_add_sub_cancel] at h3
    have h4 : euc (toR φ N) ≤ 4 * φ M := by linarith [(abs_le.mp h1).2]
    have h5 : 3 * φ u * euc (toR φ N) ≤ 3 * φ u * (4 * φ M) := mul_le_mul_of_nonneg_left h4 (by linarith)
    linarith
  have em' : |φ m - 1| ≤ 16 * φ u := by
    have h1 := euc_lip (toR φ A) α
    have h2 := euc_le_of (c := toR φ A - α) dA
    have h3 := abs_add_le (φ m - euc (toR φ A)) (euc (toR φ A) - euc α)
    rw [sub_add_sub_cancel, αe] at h3
    rw [αe] at h1
    have h4 : euc (toR φ A) ≤ 11 / 10 := by linarith [(abs_le.mp h1).2]
    have h5 : 3 * φ u * euc (toR φ A) ≤ 3 * φ u * (11 / 10) := mul_le_mul_of_nonneg_left h4 (by linarith)
    linarith
  have el' : |φ l - euc δ| ≤ 16 * (φ u * φ M) := by
    have h1 := euc_lip (toR φ D) δ
    have h2 := euc_le_of (c := toR φ D - δ) eD'
    have h3 := abs_add_le (φ l - euc (toR φ D)) (euc (toR φ D) - euc δ)
    rw [sub_add_sub_cancel] at h3
    have h4 : euc (toR φ D) ≤ 18 / 5 * φ M := by linarith [(abs_le.mp h1).2]
    have h5 : 3 * φ u * euc (toR φ D) ≤ 3 * φ u * (18 / 5 * φ M) := mul_le_mul_of_nonneg_left h4 (by linarith)
    linarith
  -- the two tests
  have hcp := R.coplanar ha hb bA bB hw
  have heq : V3.eqv (V3.crs s.dir t.dir) Mat3x1.default (Fl.lit (1 / 10000)) = true := by
    refine eqv_small hV R.eu fun j => ?_
    rw [← hφ.le_iff_le, map_abs_mono φ hφ]
    simp only [map_sub, map_mul, map_div₀, map_one, map_ofNat]
    have h1 := abs_add_le (φ (V j) - (α ⨯₃ β) j) ((α ⨯₃ β) j)
    rw [sub_add_cancel] at h1
    linarith [eV j, hcut j]
  have ε0 : 0 ≤ ε := by linarith [R.tol]
  have nK : n ≤ 4 * M := by
    rw [← hφ.le_iff_le, map_mul, map_ofNat]
    linarith [(abs_le.mp en').2]
  have hom : 64 * (M + ε + 1) ≤ (omega : K) := by linarith [R.tolM]
  have nab : |n| ≤ 15 * (M + ε) := by rw [abs_of_nonneg n0]; linarith
  have ε0' : 0 ≤ φ ε := by have := hφ.monotone ε0; rwa [map_zero] at this
  have uε := mul_nonneg hu0.le ε0'
  have tail : 16 * φ u * (φ M + φ ε) = 16 * (φ u * φ M) + 16 * (φ u * φ ε) := by ring
  rw [rayRay_core_K]
  simp only
  rw [hcp, heq]
  simp only [Bool.not_true, Bool.false_eq_true, if_false, if_true]
  refine ⟨fun hfar => ?_, fun hnear => ?_⟩
  · rw [if_pos]
    rw [Bool.not_eq_true', ← Bool.not_eq_true]
    intro h
    have h1 := phi_le φ hφ (within_err (M := M + ε) hn hw (show (0 : Fl K).Is 0 from rfl) ε0 (by linarith) nab hom h)
    rw [sub_zero] at h1
    simp only [map_add, map_mul, map_ofNat] at h1
    linarith [le_abs_self (φ n), (abs_le.mp en').1]
  · have hin : withinVicinity s.vicinity (V3.mag (V3.crs s.dir (V3.sub t.ori s.ori))) 0 = true := by
      refine within_of (M := M + ε) hn hw (y := 0) rfl ε0 (by linarith) nab hom ?_
      rw [sub_zero, abs_of_nonneg n0, ← hφ.le_iff_le]
      simp only [map_sub, map_add, map_mul, map_ofNat]
      linarith [(abs_le.mp en').2]
    rw [hin]
    simp only [Bool.not_true, Bool.false_eq_true, if_false]
    -- the signed distance
    have hdist (σ : K) (hσ : σ = 1 ∨ σ = -1) {g : Fl K} (hg : g.Is σ) : ∃ q, (g * V3.mag (V3.sub t.ori s.ori) / V3.mag s.dir).Holds q ∧
        |φ q - φ σ * euc δ| ≤ 96 * (φ u * φ M) ∧ |q| ≤ 9 * M := by
      have aσ : |σ| = 1 := by rcases hσ with rfl | rfl <;> simp
      have aσ' : |φ σ| = 1 := by rw [← map_abs_mono φ hφ, aσ, map_one]
      have lK : l ≤ 4 * M := by
        rw [← hφ.le_iff_le, map_mul, map_ofNat]
        linarith [(abs_le.mp el').2]
      have ab : |σ * l| ≤ 4 * M := by rw [abs_mul, aσ, one_mul, abs_of_nonneg l0]; exact lK
      obtain ⟨y, hy⟩ := Fl.mul_fin hg hl.1 (ab.trans (by linarith))
      have ey := phi_le φ hφ (Fl.mul_err hg hl.1 hy)
      simp only [map_sub, map_add, map_mul, map_abs_mono φ hφ] at ey
      rw [abs_mul, aσ', one_mul] at ey
      have lR : |φ l| ≤ 4 * φ M := by
        have := phi_le φ hφ ((abs_of_nonneg l0).trans_le lK)
        rwa [map_mul, map_ofNat] at this
      have hηM : φ eta ≤ φ u * φ M := by have := hφ.monotone R.euM; rwa [map_mul] at this
      have ey' : |φ y - φ σ * euc δ| ≤ 21 * (φ u * φ M) := by
        have h1 := abs_add_le (φ y - φ σ * φ l) (φ σ * φ l - φ σ * euc δ)
        rw [sub_add_sub_cancel, ← mul_sub, abs_mul (φ σ), aσ', one_mul] at h1
        have h2 : φ u * |φ l| ≤ φ u * (4 * φ M) := mul_le_mul_of_nonneg_left lR hu0.le
        linarith
      have bs : |φ σ * euc δ| ≤ 7 / 2 * φ M := by rw [abs_mul, aσ', one_mul, abs_of_nonneg (euc_nonneg _)]; exact δb
      have Q (q : ℝ) := quotient_par (q := q) hu0 hprec hM' hηM ey' bs em'
      have mp : 0 < m := by
        rw [← hφ.lt_iff_lt, map_zero]; linarith [(abs_le.mp em').1]
      have yb := (Q (φ y / φ m) (by simpa using by positivity)).2
      have yK : |y / m| ≤ 4 * M := by
        rw [← hφ.le_iff_le, map_abs_mono φ hφ, map_div₀, map_mul, map_ofNat]; exact yb
      obtain ⟨q, hq⟩ := Fl.div_fin hy hm.1 mp.ne' (yK.trans (by linarith))
      have eq := phi_le φ hφ (Fl.div_err hy hm.1 mp.ne' hq)
      simp only [map_sub, map_add, map_mul, map_div₀, map_abs_mono φ hφ] at eq
      have := (Q (φ q) eq).1
      refine ⟨q, ⟨hq, Fl.wf_div _ _⟩, this, ?_⟩
      rw [← hφ.le_iff_le, map_abs_mono φ hφ, map_mul, map_ofNat]
      have h1 := abs_add_le (φ q - φ σ * euc δ) (φ σ * euc δ)
      rw [sub_add_cancel] at h1
      linarith
    have hηM : φ eta ≤ φ u * φ M := by have := hφ.monotone R.euM; rwa [map_mul] at this
    have hηu : φ eta ≤ φ u := hφ.monotone R.eu
    have hη64 : (eta : K) ≤ 1 / 64 := R.eu.trans u_le
    have hfinal {F : Fl K} {q : K} {T : ℝ} (hF : F.Holds q) (qb : |q| ≤ 9 * M) (hT : 0 ≤ T) (hTb : T ≤ 7 / 2 * φ M)
        (h : |φ q - T| ≤ 192 * (φ u * φ M)) : ∃ P, (V3.add (V3.scl s.dir F) s.ori).Holds P ∧
        ∀ i, |φ (P i) - (toR φ O + T • α) i| ≤ 384 * (φ u * φ M) := by
      have uT : φ u * T ≤ φ u * (7 / 2 * φ M) := mul_le_mul_of_nonneg_left hTb hu0.le
      obtain ⟨P, hP, eP⟩ := along_float φ hφ (e := s.dir) (a := s.ori) (T := T) (W := 96 * (φ u * φ M)) ha hO hα hA R.b hη64 hF qb (by linarith) hT
        (by linarith) (by linarith) (by linarith)
        (by
          have : φ eta * T ≤ φ u * T := mul_le_mul_of_nonneg_right hηu hT
          linarith)
        (by linarith)
      exact ⟨P, hP, fun i => (eP i).trans (by linarith)⟩
    have stay : ∀ i, |φ (O i) - toR φ O i| ≤ 384 * (φ u * φ M) := fun i => by
      rw [show φ (O i) - toR φ O i = 0 from sub_self _, abs_zero]; linarith
    by_cases hneg : Fl.lt (V3.dotp (V3.sub t.ori s.ori) s.dir) 0 = true
    · have x0 : x < 0 := (Fl.Is.klt (y := (0 : Fl K)) hx rfl).mp hneg
      have x0' : φ x < 0 := by have := hφ x0; rwa [map_zero] at this
      obtain ⟨q, hq, eq, qb⟩ := hdist (-1) (.inr rfl) (g := -1) ((Fl.Is.kneg (x := (1 : Fl K)) rfl))
      rw [map_neg, map_one, neg_one_mul] at eq
      rw [if_pos hneg]
      have side : δ ⬝ᵥ α ≤ 72 * (φ u * φ M) := by linarith [(abs_le.mp ex).1]
      by_cases hq0 : Fl.lt ((-1 : Fl K) * V3.mag (V3.sub t.ori s.ori) / V3.mag s.dir) 0 = true
      · rw [if_pos hq0]
        exact ⟨_, O, rfl, hO, .inl ⟨side, stay⟩⟩
      · rw [if_neg hq0]
        have q0 : 0 ≤ q := by
          rw [Fl.Is.klt (y := (0 : Fl K)) hq.1 rfl, not_lt] at hq0; exact hq0
        have q0' : 0 ≤ φ q := by have := hφ.monotone q0; rwa [map_zero] at this
        obtain ⟨P, hP, eP⟩ := hfinal (T := 0) hq qb le_rfl (by linarith) (by
          rw [sub_zero, abs_of_nonneg q0']; linarith [(abs_le.mp eq).2, euc_nonneg δ])
        rw [zero_smul, add_zero] at eP
        exact ⟨_, P, rfl, hP, .inl ⟨side, eP⟩⟩
    · have x0 : 0 ≤ x := by rw [Fl.Is.klt (y := (0 : Fl K)) hx rfl, not_lt] at hneg; exact hneg
      have x0' : 0 ≤ φ x := by have := hφ.monotone x0; rwa [map_zero] at this
      obtain ⟨q, hq, eq, qb⟩ := hdist 1 (.inl rfl) (g := 1) rfl
      rw [map_one, one_mul] at eq
      rw [if_neg hneg]
      have side : -(72 * (φ u * φ M)) ≤ δ ⬝ᵥ α := by linarith [(abs_le.mp ex).2]
      by_cases hq0 : Fl.lt ((1 : Fl K) * V3.mag (V3.sub t.ori s.ori) / V3.mag s.dir) 0 = true
      · rw [if_pos hq0]
        have q0 : q < 0 := (Fl.Is.klt (y := (0 : Fl K)) hq.1 rfl).mp hq0
        have q0' : φ q < 0 := by have := hφ q0; rwa [map_zero] at this
        refine ⟨_, O, rfl, hO, .inr ⟨side, fun i => ?_⟩⟩
        have e : φ (O i) - (toR φ O + euc δ • α) i = -(euc δ * α i) := by
          simp only [Pi.add_apply, Pi.smul_apply, smul_eq_mul, toR]; ring
        rw [e, abs_neg, abs_mul, abs_of_nonneg (euc_nonneg _)]
        have : euc δ * |α i| ≤ euc δ * 1 := mul_le_mul_of_nonneg_left (unit_abs_le hα i) (euc_nonneg _)
        linarith [(abs_le.mp eq).1]
      · rw [if_neg hq0]
        obtain ⟨P, hP, eP⟩ := hfinal (T := euc δ) hq qb (euc_nonneg _) δb (by linarith)
        exact ⟨_, P, rfl, hP, .inr ⟨side, eP⟩⟩

/-- rays whose projections to each axis meet pass the test on the bounds -/
theorem rays_overlap_K {s t : Ray3 K} {S T : Set R3} (hs : (Shape.ray s).MadeIn φ S) (ht : (Shape.ray t).MadeIn φ T)
    (h : ∀ i, ∃ p ∈ S, ∃ q ∈ T, p i = q i) : AABB.overlap (Shape.ray s).aabb (Shape.ray t).aabb = true := by
  refine (AABB.overlap_iff _ _).mpr fun i => ?_
  obtain ⟨p, hp, q, hq, e⟩ := h i
  have a := (hs.spans hφ i).1.meets hφ (ht.spans hφ i).2 ⟨p, hp, rfl⟩ ⟨q, hq, e.symm⟩
  have b := (ht.spans hφ i).1.meets hφ (hs.spans hφ i).2 ⟨q, hq, rfl⟩ ⟨p, hp, e⟩
  exact ⟨by rw [Fl.lt_eq_not_le (Fl.le_ne_nan a).2 (Fl.le_ne_nan a).1, a]; rfl,
    by rw [Fl.lt_eq_not_le (Fl.le_ne_nan b).2 (Fl.le_ne_nan b).1, b]; rfl⟩

variable {l l' m m' : List (Fl K)} {s t : Ray3 K} {v w : Fl K} {o d o' d' : Fin 3 → K} {ε M : K}

/-- C81, not nearly parallel: two rays whose projections to each axis meet are always reported.  The location is, up to rounding, the point of
the first ray at distance `|(o' - o) × e'| / |e × e'|`, where `e`, `e'` are the unit directions. -/
theorem C81_always (hl : ListIn l o) (hl' : ListIn l' d) (hs : Ray3.init l l' = .ok s) (hm : ListIn m o') (hm' : ListIn m' d')
    (ht : Ray3.init m m' = .ok t) (hv : v.Holds ε) (hd0 : d ≠ 0) (hd : ∀ i, d i = 0 ∨ nu ≤ d i * d i) (hd' : ∀ i, 8 * (d i * d i) ≤ omega)
    (hd0' : d' ≠ 0) (hdd : ∀ i, d' i = 0 ∨ nu ≤ d' i * d' i) (hdd' : ∀ i, 8 * (d' i * d' i) ≤ omega) (R : RayPair o o' ε M)
    (hcut : ∃ i, 1 / 10000 + 40 * φ u < |(unit (toR φ d) ⨯₃ unit (toR φ d')) i|)
    (hb : ∀ i, ∃ p ∈ rayPts (toR φ o) (toR φ d), ∃ q ∈ rayPts (toR φ o') (toR φ d'), p i = q i)
    {T : ℝ} (hT : T = euc ((toR φ o' - toR φ o) ⨯₃ unit (toR φ d')) / euc (unit (toR φ d) ⨯₃ unit (toR φ d'))) :
    ∃ loc P, Shape.getIntersect 2 (.ray { s with vicinity := v }) (.ray { t with vicinity := w }) = .ok (true, some loc) ∧ loc.Holds P ∧
      ∀ i, |φ (P i) - (toR φ o + T • unit (toR φ d)) i| ≤
        320 * (φ u * (φ M + T)) / euc (unit (toR φ d) ⨯₃ unit (toR φ d')) := by
  obtain ⟨hO, A, hA, eA⟩ := Ray3.init_facts φ hφ hl hl' hs hd0 hd hd'
  obtain ⟨hO', B, hB, eB⟩ := Ray3.init_facts φ hφ hm hm' ht hd0' hdd hdd'
  obtain ⟨i, hi⟩ := hcut
  obtain ⟨loc, P, hc, hP, eP⟩ := apart_float φ hφ (s := { s with vicinity := v }) (t := { t with vicinity := w }) R hv hO hO' hA hB
    (unit_of (unit_of_ne φ hφ hd0)) (unit_of (unit_of_ne φ hφ hd0')) eA eB hi hT
  refine ⟨loc, P, ?_, hP, eP⟩
  rw [getIntersect_eq 0, if_pos (rays_overlap_K φ hφ (.ray hl hl' hs) (.ray hm hm' ht) hb), hc]

/-- C81, not nearly parallel: two rays that meet in a point `p` are reported, with a location within `320 u (M + |p - o|) / |e × e'|` of `p` in
each coordinate. -/
theorem C81_meet (hl : ListIn l o) (hl' : ListIn l' d) (hs : Ray3.init l l' = .ok s) (hm : ListIn m o') (hm' : ListIn m' d')
    (ht : Ray3.init m m' = .ok t) (hv : v.Holds ε) (hd0 : d ≠ 0) (hd : ∀ i, d i = 0 ∨ nu ≤ d i * d i) (hd' : ∀ i, 8 * (d i * d i) ≤ omega)
    (hd0' : d' ≠ 0) (hdd : ∀ i, d' i = 0 ∨ nu ≤ d' i * d' i) (hdd' : ∀ i, 8 * (d' i * d' i) ≤ omega) (R : RayPair o o' ε M)
    (hcut : ∃ i, 1 / 10000 + 40 * φ u < |(unit (toR φ d) ⨯₃ unit (toR φ d')) i|)
    {p : R3} (hp : p ∈ rayPts (toR φ o) (toR φ d)) (hp' : p ∈ rayPts (toR φ o') (toR φ d')) :
    ∃ loc P, Shape.getIntersect 2 (.ray { s with vicinity := v }) (.ray { t with vicinity := w }) = .ok (true, some loc) ∧ loc.Holds P ∧
      ∀ i, |φ (P i) - p i| ≤ 320 * (φ u * (φ M + euc (p - toR φ o))) / euc (unit (toR φ d) ⨯₃ unit (toR φ d')) := by
  have hne := unit_of_ne φ hφ hd0
  have hud := unit_of hne
  obtain ⟨hu0, -, -⟩ := phi_u φ hφ
  have hv0 : euc (unit (toR φ d) ⨯₃ unit (toR φ d')) ≠ 0 := by
    intro h
    obtain ⟨i, hi⟩ := hcut
    rw [(euc_eq_zero _).mp h, Pi.zero_apply, abs_zero] at hi
    linarith
  obtain ⟨τ, hτ, e1⟩ := (rayPts_unit hne).mp hp
  obtain ⟨σ, hσ, e2⟩ := (rayPts_unit (unit_of_ne φ hφ hd0')).mp hp'
  have hT : τ = euc ((toR φ o' - toR φ o) ⨯₃ unit (toR φ d')) / euc (unit (toR φ d) ⨯₃ unit (toR φ d')) := by
    have hD : toR φ o' - toR φ o = τ • unit (toR φ d) - σ • unit (toR φ d') := by
      rw [eq_sub_iff_add_eq.mpr (e2.symm.trans e1)]; abel
    rw [hD]
    generalize unit (toR φ d) = a at *
    generalize unit (toR φ d') = b at *
    rw [show (τ • a - σ • b) ⨯₃ b = τ • (a ⨯₃ b) by simp, euc_smul, abs_of_nonneg hτ, mul_div_cancel_right₀ _ hv0]
  obtain ⟨loc, P, g, hP, eP⟩ := C81_always φ hφ (w := w) hl hl' hs hm hm' ht hv hd0 hd hd' hd0' hdd hdd' R hcut
    (fun i => ⟨p, hp, p, hp', rfl⟩) hT
  have hpo : euc (p - toR φ o) = τ := by
    have eu : euc (unit (toR φ d)) = 1 := euc_unit hne
    rw [e1, add_sub_cancel_left, euc_smul, eu, mul_one, abs_of_nonneg hτ]
  refine ⟨loc, P, g, hP, fun i => ?_⟩
  rw [hpo]
  have := eP i
  rwa [← e1] at this

/-- C81, nearly parallel, far: if the second origin is farther than the tolerance plus `128 u (M + ε)` from the first line, the answer is false. -/
theorem C81_parallel_far (hl : ListIn l o) (hl' : ListIn l' d) (hs : Ray3.init l l' = .ok s) (hm : ListIn m o') (hm' : ListIn m' d')
    (ht : Ray3.init m m' = .ok t) (hv : v.Holds ε) (hd0 : d ≠ 0) (hd : ∀ i, d i = 0 ∨ nu ≤ d i * d i) (hd' : ∀ i, 8 * (d i * d i) ≤ omega)
    (hd0' : d' ≠ 0) (hdd : ∀ i, d' i = 0 ∨ nu ≤ d' i * d' i) (hdd' : ∀ i, 8 * (d' i * d' i) ≤ omega) (R : RayPair o o' ε M)
    (hcut : ∀ i, |(unit (toR φ d) ⨯₃ unit (toR φ d')) i| ≤ 1 / 10000 - 40 * φ u)
    (hfar : ∀ τ : ℝ, φ ε + 128 * (φ u * (φ M + φ ε)) < euc (toR φ o' - (toR φ o + τ • toR φ d))) :
    Shape.getIntersect 2 (.ray { s with vicinity := v }) (.ray { t with vicinity := w }) = .ok (false, none) := by
  obtain ⟨hO, A, hA, eA⟩ := Ray3.init_facts φ hφ hl hl' hs hd0 hd hd'
  obtain ⟨hO', B, hB, eB⟩ := Ray3.init_facts φ hφ hm hm' ht hd0' hdd hdd'
  have hud := unit_of (unit_of_ne φ hφ hd0)
  have hc := (parallel_float φ hφ (s := { s with vicinity := v }) (t := { t with vicinity := w }) R hv hO hO' hA hB hud
    (unit_of (unit_of_ne φ hφ hd0')) eA eB hcut rfl).1
  rw [getIntersect_eq 0]
  split
  · refine hc ?_
    have h := hfar (((toR φ o' - toR φ o) ⬝ᵥ unit (toR φ d)) * (euc (toR φ d))⁻¹)
    have e : toR φ o' - (toR φ o + (((toR φ o' - toR φ o) ⬝ᵥ unit (toR φ d)) * (euc (toR φ d))⁻¹) • toR φ d) =
        (toR φ o' - toR φ o) - ((toR φ o' - toR φ o) ⬝ᵥ unit (toR φ d)) • unit (toR φ d) := by
      rw [mul_smul, show (euc (toR φ d))⁻¹ • toR φ d = unit (toR φ d) from rfl]; abel
    rwa [e, lagrange _ _ hud] at h
  · rfl

/-- C81, nearly parallel, near: if the second origin is within the tolerance less `128 u (M + ε)` of the first line and the projections of the
rays to each axis meet, they are reported.  The location is either within `384 u M` of the first origin in each coordinate, and then the second
origin is not ahead of it, or within twice the distance plus `528 u M` of the second origin. -/
theorem C81_parallel_near (hl : ListIn l o) (hl' : ListIn l' d) (hs : Ray3.init l l' = .ok s) (hm : ListIn m o') (hm' : ListIn m' d')
    (ht : Ray3.init m m' = .ok t) (hv : v.Holds ε) (hd0 : d ≠ 0) (hd : ∀ i, d i = 0 ∨ nu ≤ d i * d i) (hd' : ∀ i, 8 * (d i * d i) ≤ omega)
    (hd0' : d' ≠ 0) (hdd : ∀ i, d' i = 0 ∨ nu ≤ d' i * d' i) (hdd' : ∀ i, 8 * (d' i * d' i) ≤ omega) (R : RayPair o o' ε M)
    (hcut : ∀ i, |(unit (toR φ d) ⨯₃ unit (toR φ d')) i| ≤ 1 / 10000 - 40 * φ u)
    (hb : ∀ i, ∃ p ∈ rayPts (toR φ o) (toR φ d), ∃ q ∈ rayPts (toR φ o') (toR φ d'), p i = q i)
    {τ : ℝ} (hnear : euc (toR φ o' - (toR φ o + τ • toR φ d)) ≤ φ ε - 128 * (φ u * (φ M + φ ε))) :
    ∃ loc P, Shape.getIntersect 2 (.ray { s with vicinity := v }) (.ray { t with vicinity := w }) = .ok (true, some loc) ∧ loc.Holds P ∧
      (((toR φ o' - toR φ o) ⬝ᵥ unit (toR φ d) ≤ 72 * (φ u * φ M) ∧ ∀ i, |φ (P i) - toR φ o i| ≤ 384 * (φ u * φ M)) ∨
        (-(72 * (φ u * φ M)) ≤ (toR φ o' - toR φ o) ⬝ᵥ unit (toR φ d) ∧
          ∀ i, |φ (P i) - toR φ o' i| ≤ 2 * euc (toR φ o' - (toR φ o + τ • toR φ d)) + 528 * (φ u * φ M))) := by
  obtain ⟨hO, A, hA, eA⟩ := Ray3.init_facts φ hφ hl hl' hs hd0 hd hd'
  obtain ⟨hO', B, hB, eB⟩ := Ray3.init_facts φ hφ hm hm' ht hd0' hdd hdd'
  have hne := unit_of_ne φ hφ hd0
  have hud := unit_of hne
  obtain ⟨hu0, -, -⟩ := phi_u φ hφ
  have hM' : 0 < φ M := by have := hφ R.pos; rwa [map_zero] at this
  have huM := mul_pos hu0 hM'
  have hle : euc (unit (toR φ d) ⨯₃ (toR φ o' - toR φ o)) ≤ euc (toR φ o' - (toR φ o + τ • toR φ d)) := by
    have h1 := euc_cross_le (unit (toR φ d)) (toR φ o' - (toR φ o + τ • toR φ d))
    have e : unit (toR φ d) ⨯₃ (toR φ o' - (toR φ o + τ • toR φ d)) = unit (toR φ d) ⨯₃ (toR φ o' - toR φ o) := by
      have h0 : unit (toR φ d) ⨯₃ toR φ d = 0 := by rw [unit, map_smul, LinearMap.smul_apply, cross_self, smul_zero]
      rw [show toR φ o' - (toR φ o + τ • toR φ d) = (toR φ o' - toR φ o) - τ • toR φ d by abel]
      generalize unit (toR φ d) = a at h0 ⊢
      rw [map_sub, map_smul, h0, smul_zero, sub_zero]
    rwa [e, euc_unit hne, one_mul] at h1
  obtain ⟨loc, P, hc, hP, hor⟩ := (parallel_float φ hφ (s := { s with vicinity := v }) (t := { t with vicinity := w }) R hv hO hO' hA hB hud
    (unit_of (unit_of_ne φ hφ hd0')) eA eB hcut rfl).2 (hle.trans hnear)
  refine ⟨loc, P, ?_, hP, hor.imp id fun ⟨h1, h2⟩ => ⟨h1, fun i => ?_⟩⟩
  · rw [getIntersect_eq 0, if_pos (rays_overlap_K φ hφ (.ray hl hl' hs) (.ray hm hm' ht) hb), hc]
  · have h3 := along_near hud h1 (by linarith) i
    have h4 := abs_add_le (φ (P i) - (toR φ o + euc (toR φ o' - toR φ o) • unit (toR φ d)) i)
      ((euc (toR φ o' - toR φ o) • unit (toR φ d) - (toR φ o' - toR φ o)) i)
    have e : φ (P i) - (toR φ o + euc (toR φ o' - toR φ o) • unit (toR φ d)) i +
        (euc (toR φ o' - toR φ o) • unit (toR φ d) - (toR φ o' - toR φ o)) i = φ (P i) - toR φ o' i := by
      simp only [Pi.add_apply, Pi.sub_apply, Pi.smul_apply]; ring
    rw [e] at h4
    linarith [h2 i]

/-- C81, parallel: two rays with parallel directions that share a point are reported, with a location within `456 u M` of a shared point in
each coordinate. -/
theorem C81_parallel_meet (hl : ListIn l o) (hl' : ListIn l' d) (hs : Ray3.init l l' = .ok s) (hm : ListIn m o') (hm' : ListIn m' d')
    (ht : Ray3.init m m' = .ok t) (hv : v.Holds ε) (hd0 : d ≠ 0) (hd : ∀ i, d i = 0 ∨ nu ≤ d i * d i) (hd' : ∀ i, 8 * (d i * d i) ≤ omega)
    (hdd : ∀ i, d' i = 0 ∨ nu ≤ d' i * d' i) (hdd' : ∀ i, 8 * (d' i * d' i) ≤ omega) (R : RayPair o o' ε M)
    (hεM : 128 * (φ u * (φ M + φ ε)) ≤ φ ε) {k : ℝ} (hk : k ≠ 0) (hpar : toR φ d' = k • toR φ d)
    (hmeet : (rayPts (toR φ o) (toR φ d) ∩ rayPts (toR φ o') (toR φ d')).Nonempty) :
    ∃ loc P, Shape.getIntersect 2 (.ray { s with vicinity := v }) (.ray { t with vicinity := w }) = .ok (true, some loc) ∧ loc.Holds P ∧
      ∃ p ∈ rayPts (toR φ o) (toR φ d) ∩ rayPts (toR φ o') (toR φ d'), ∀ i, |φ (P i) - p i| ≤ 456 * (φ u * φ M) := by
  have hne := unit_of_ne φ hφ hd0
  have hne' : toR φ d' ≠ 0 := by rw [hpar]; exact smul_ne_zero hk hne
  have hd0' : d' ≠ 0 := by
    rintro rfl
    exact hne' (by ext i; simp [toR])
  obtain ⟨hO, A, hA, eA⟩ := Ray3.init_facts φ hφ hl hl' hs hd0 hd hd'
  obtain ⟨hO', B, hB, eB⟩ := Ray3.init_facts φ hφ hm hm' ht hd0' hdd hdd'
  have hud := unit_of hne
  obtain ⟨hu0, -, -⟩ := phi_u φ hφ
  have hM' : 0 < φ M := by have := hφ R.pos; rwa [map_zero] at this
  have huM := mul_pos hu0 hM'
  have hprec : 3000000 * φ u ≤ 1 := by have := hφ.monotone R.prec; rwa [map_mul, map_ofNat, map_one] at this
  obtain ⟨q, q1, q2⟩ := id hmeet
  obtain ⟨τ, hτ, rfl⟩ := (rayPts_unit hne).mp q1
  obtain ⟨σ, hσ, e⟩ := (rayPts_unit hne').mp q2
  have hus := unit_smul hne hk
  rw [← hpar] at hus
  -- the offset is a multiple of the direction
  obtain ⟨x, hD, hx⟩ : ∃ x : ℝ, toR φ o' - toR φ o = x • unit (toR φ d) ∧ (0 ≤ x ∨ unit (toR φ d') = unit (toR φ d)) := by
    rcases hus with ⟨_, hw⟩ | ⟨_, hw⟩
    · refine ⟨τ - σ, ?_, .inr hw⟩
      rw [hw] at e
      rw [sub_smul, eq_sub_iff_add_eq.mpr e.symm]; abel
    · refine ⟨τ + σ, ?_, .inl (add_nonneg hτ hσ)⟩
      rw [hw] at e
      rw [add_smul, eq_sub_iff_add_eq.mpr e.symm, smul_neg]; abel
  have hcz : unit (toR φ d) ⨯₃ (toR φ o' - toR φ o) = 0 := by rw [hD, map_smul, cross_self, smul_zero]
  have huz : unit (toR φ d) ⨯₃ unit (toR φ d') = 0 := by
    rcases hus with ⟨_, hw⟩ | ⟨_, hw⟩ <;> rw [hw] <;> simp
  have hdx : (toR φ o' - toR φ o) ⬝ᵥ unit (toR φ d) = x := by rw [hD, smul_dotProduct, hud]; simp
  have hex : euc (toR φ o' - toR φ o) = |x| := by rw [hD, euc_smul, euc_unit hne, mul_one]
  obtain ⟨loc, P, hc, hP, hor⟩ := (parallel_float φ hφ (s := { s with vicinity := v }) (t := { t with vicinity := w }) R hv hO hO' hA hB hud
    (unit_of (unit_of_ne φ hφ hd0')) eA eB (fun i => by rw [huz, Pi.zero_apply, abs_zero]; linarith) rfl).2
    (by rw [hcz, (euc_eq_zero _).mpr rfl]; linarith)
  have ho2 : 0 ≤ x → toR φ o' ∈ rayPts (toR φ o) (toR φ d) ∩ rayPts (toR φ o') (toR φ d') := fun h =>
    ⟨(rayPts_unit hne).mpr ⟨x, h, by rw [← hD]; abel⟩, (rayPts_unit hne').mpr ⟨0, le_rfl, by rw [zero_smul, add_zero]⟩⟩
  have ho1 : x < 0 → toR φ o ∈ rayPts (toR φ o) (toR φ d) ∩ rayPts (toR φ o') (toR φ d') := fun h =>
    ⟨(rayPts_unit hne).mpr ⟨0, le_rfl, by rw [zero_smul, add_zero]⟩, (rayPts_unit hne').mpr ⟨-x, by linarith, by
      rw [hx.resolve_left (by linarith), neg_smul, ← hD]; abel⟩⟩
  have off (i : Fin 3) : |(x • unit (toR φ d)) i| ≤ |x| := by
    rw [Pi.smul_apply, smul_eq_mul, abs_mul]
    exact mul_le_of_le_one_right (abs_nonneg _) (unit_abs_le hud i)
  refine ⟨loc, P, ?_, hP, ?_⟩
  · rw [getIntersect_eq 0, if_pos (rays_overlap_K φ hφ (.ray hl hl' hs) (.ray hm hm' ht) (fun i => ⟨_, hmeet.some_mem.1, _, hmeet.some_mem.2, rfl⟩)), hc]
  · rw [hdx, hex] at hor
    rcases hor with ⟨h1, h2⟩ | ⟨h1, h2⟩
    · rcases lt_or_ge x 0 with h | h
      · exact ⟨_, ho1 h, fun i => (h2 i).trans (by linarith)⟩
      · refine ⟨_, ho2 h, fun i => ?_⟩
        have h3 := abs_sub (φ (P i) - toR φ o i) ((x • unit (toR φ d)) i)
        rw [← hD, Pi.sub_apply, sub_sub_sub_cancel_right, ← Pi.sub_apply, hD] at h3
        have := off i
        rw [abs_of_nonneg h] at this
        linarith [h2 i]
    · rcases lt_or_ge x 0 with h | h
      · refine ⟨_, ho1 h, fun i => ?_⟩
        have h3 := abs_add_le (φ (P i) - (toR φ o + |x| • unit (toR φ d)) i) ((|x| • unit (toR φ d)) i)
        rw [Pi.add_apply, ← sub_sub, sub_add_cancel] at h3
        have := off i
        rw [abs_of_neg h] at this h2 h3
        rw [neg_smul, Pi.neg_apply, abs_neg] at h3
        have h4 := h2 i
        rw [Pi.add_apply, ← sub_sub, neg_smul, Pi.neg_apply] at h4
        linarith
      · rw [abs_of_nonneg h, ← hD, add_sub_cancel] at h2
        exact ⟨_, ho2 h, fun i => (h2 i).trans (by linarith)⟩

end floats

/-! ## binary64 -/

theorem f64_rayPair {o o' : Fin 3 → Q64} {ε M : Q64} (ho : ∀ i, |o i| ≤ M) (ho' : ∀ i, |o' i| ≤ M) (hM : ((2 : ℚ) ^ (-480 : ℤ) : ℚ) ≤ M)
    (hM' : M ≤ ((2 : ℚ) ^ (480 : ℤ) : ℚ)) (hε : ((2 : ℚ) ^ (-44 : ℤ) : ℚ) ≤ ε) (hε' : ε ≤ ((2 : ℚ) ^ (900 : ℤ) : ℚ)) : RayPair o o' ε M := by
  obtain ⟨cu, ce, -, co, -⟩ := C55_constants
  have p480 : (0 : ℚ) < 2 ^ (-480 : ℤ) := zpow_pos (by norm_num) _
  refine ⟨ho, ho', lt_of_lt_of_le (b := (((2 : ℚ) ^ (-480 : ℤ) : ℚ) : Q64)) p480 hM, ?_, ?_, ?_, ?_, ?_, ?_⟩
  · rw [cu]
    have : 3000000 * (2 : ℚ) ^ (-53 : ℤ) ≤ 1 := by norm_num
    exact this
  · rw [ce, cu]
    have : 4 * (2 : ℚ) ^ (-1075 : ℤ) ≤ (2 : ℚ) ^ (-53 : ℤ) * (2 : ℚ) ^ (-53 : ℤ) := by
      rw [show (4 : ℚ) = 2 ^ (2 : ℤ) by norm_num, ← zpow_add₀ (by norm_num), ← zpow_add₀ (by norm_num)]
      exact zpow_le_zpow_right₀ (by norm_num) (by norm_num)
    exact this
  · rw [ce, cu]
    have key (m : ℚ) (h : (2 : ℚ) ^ (-480 : ℤ) ≤ m) : 4 * (2 : ℚ) ^ (-1075 : ℤ) ≤ (2 : ℚ) ^ (-53 : ℤ) * m * ((2 : ℚ) ^ (-53 : ℤ) * m) := by
      have h0 : (2 : ℚ) ^ (-53 : ℤ) * (2 : ℚ) ^ (-480 : ℤ) ≤ (2 : ℚ) ^ (-53 : ℤ) * m := mul_le_mul_of_nonneg_left h (zpow_nonneg (by norm_num) _)
      refine le_trans ?_ (mul_le_mul h0 h0 (mul_nonneg (zpow_nonneg (by norm_num) _) p480.le) ((mul_nonneg (zpow_nonneg (by norm_num) _) p480.le).trans h0))
      rw [show (4 : ℚ) = 2 ^ (2 : ℤ) by norm_num, ← zpow_add₀ (by norm_num), ← zpow_add₀ (by norm_num), ← zpow_add₀ (by norm_num)]
      exact zpow_le_zpow_right₀ (by norm_num) (by norm_num)
    exact key M hM
  · rw [cu]
    have key (e : ℚ) (h : (2 : ℚ) ^ (-44 : ℤ) ≤ e) : 512 * (2 : ℚ) ^ (-53 : ℤ) ≤ e := by
      refine le_trans (le_of_eq ?_) h
      rw [show (512 : ℚ) = 2 ^ (9 : ℤ) by norm_num, ← zpow_add₀ (by norm_num)]; norm_num
    exact key ε hε
  · rw [co]
    have key (e : ℚ) (h : e ≤ (2 : ℚ) ^ (900 : ℤ)) : 128 * (e + 2) ≤ (2 : ℚ) ^ (1023 : ℤ) := by
      have h1 : (2 : ℚ) ≤ 2 ^ (900 : ℤ) := (by norm_num : (2 : ℚ) ≤ 2 ^ (1 : ℤ)).trans (zpow_le_zpow_right₀ (by norm_num) (by norm_num))
      have e1 : (2 : ℚ) ^ (8 : ℤ) * 2 ^ (900 : ℤ) ≤ (2 : ℚ) ^ (1023 : ℤ) := by
        rw [← zpow_add₀ (by norm_num)]; exact zpow_le_zpow_right₀ (by norm_num) (by norm_num)
      rw [show ((2 : ℚ) ^ (8 : ℤ) : ℚ) = 256 by norm_num] at e1
      generalize (2 : ℚ) ^ (900 : ℤ) = a at *
      generalize (2 : ℚ) ^ (1023 : ℤ) = b at *
      linarith
    exact key ε hε'
  · rw [co]
    have key (m : ℚ) (h0 : 0 ≤ m) (h : m ≤ (2 : ℚ) ^ (480 : ℤ)) : 10000000 * ((m + 1) * (m + 1)) ≤ (2 : ℚ) ^ (1023 : ℤ) := by
      have h1 : (1 : ℚ) ≤ 2 ^ (480 : ℤ) := one_le_zpow₀ (by norm_num) (by norm_num)
      have h2 : m + 1 ≤ 2 ^ (481 : ℤ) := by
        rw [show (481 : ℤ) = 480 + 1 by norm_num, zpow_add₀ (by norm_num), zpow_one]
        generalize (2 : ℚ) ^ (480 : ℤ) = a at *
        linarith
      have h3 : (m + 1) * (m + 1) ≤ 2 ^ (481 : ℤ) * 2 ^ (481 : ℤ) := mul_le_mul h2 h2 (by linarith) (zpow_nonneg (by norm_num) _)
      calc 10000000 * ((m + 1) * (m + 1)) ≤ 2 ^ (24 : ℤ) * (2 ^ (481 : ℤ) * 2 ^ (481 : ℤ)) :=
            mul_le_mul (by norm_num) h3 (by positivity) (zpow_nonneg (by norm_num) _)
        _ ≤ _ := by
          rw [← zpow_add₀ (by norm_num), ← zpow_add₀ (by norm_num)]; exact zpow_le_zpow_right₀ (by norm_num) (by norm_num)
    exact key M (p480.le.trans hM) hM'

variable {l l' m m' : List (Fl Q64)} {s t : Ray3 Q64} {v w : Fl Q64} {o d o' d' : Fin 3 → Q64} {ε M : Q64}

/-- C81 for `f64`, not nearly parallel: two rays that meet are reported next to the meeting point.  Components of the directions `0` or between
`2^-511` and `2^510`, origins up to `M`, tolerance at least `2^-44`. -/
theorem C81_meet_f64 (hl : ListIn l o) (hl' : ListIn l' d) (hs : Ray3.init l l' = .ok s) (hm : ListIn m o') (hm' : ListIn m' d')
    (ht : Ray3.init m m' = .ok t) (hv : v.Holds ε) (hd0 : d ≠ 0) (hd : ∀ i, d i = 0 ∨ ((2 : ℚ) ^ (-511 : ℤ) : ℚ) ≤ |d i|)
    (hd' : ∀ i, |d i| ≤ ((2 : ℚ) ^ (510 : ℤ) : ℚ)) (hd0' : d' ≠ 0) (hdd : ∀ i, d' i = 0 ∨ ((2 : ℚ) ^ (-511 : ℤ) : ℚ) ≤ |d' i|)
    (hdd' : ∀ i, |d' i| ≤ ((2 : ℚ) ^ (510 : ℤ) : ℚ)) (ho : ∀ i, |o i| ≤ M) (ho' : ∀ i, |o' i| ≤ M) (hM : ((2 : ℚ) ^ (-480 : ℤ) : ℚ) ≤ M)
    (hM' : M ≤ ((2 : ℚ) ^ (480 : ℤ) : ℚ)) (hε : ((2 : ℚ) ^ (-44 : ℤ) : ℚ) ≤ ε) (hε' : ε ≤ ((2 : ℚ) ^ (900 : ℤ) : ℚ))
    (hcut : ∃ i, 1 / 10000 + 40 * 2 ^ (-53 : ℤ) < |(unit (toR BinQ.real d) ⨯₃ unit (toR BinQ.real d')) i|)
    {p : R3} (hp : p ∈ rayPts (toR BinQ.real o) (toR BinQ.real d)) (hp' : p ∈ rayPts (toR BinQ.real o') (toR BinQ.real d')) :
    ∃ loc P, Shape.getIntersect 2 (.ray { s with vicinity := v }) (.ray { t with vicinity := w }) = .ok (true, some loc) ∧ loc.Holds P ∧
      ∀ i, |(P i).real - p i| ≤ 320 * (2 ^ (-53 : ℤ) * (M.real + euc (p - toR BinQ.real o))) /
        euc (unit (toR BinQ.real d) ⨯₃ unit (toR BinQ.real d')) := by
  obtain ⟨s1, s2, -⟩ := f64_range hd hd'
  obtain ⟨t1, t2, -⟩ := f64_range hdd hdd'
  have := C81_meet BinQ.real BinQ.real_strictMono (w := w) hl hl' hs hm hm' ht hv hd0 s1 s2 hd0' t1 t2 (f64_rayPair ho ho' hM hM' hε hε')
    (by rw [real_u]; exact hcut) hp hp'
  rwa [real_u] at this

/-- C81 for `f64`, parallel: rays with parallel directions that share a point are reported next to a shared point; rays with nearly parallel
directions are not reported if the second origin is clearly farther than the tolerance from the first line. -/
theorem C81_parallel_f64 (hl : ListIn l o) (hl' : ListIn l' d) (hs : Ray3.init l l' = .ok s) (hm : ListIn m o') (hm' : ListIn m' d')
    (ht : Ray3.init m m' = .ok t) (hv : v.Holds ε) (hd0 : d ≠ 0) (hd : ∀ i, d i = 0 ∨ ((2 : ℚ) ^ (-511 : ℤ) : ℚ) ≤ |d i|)
    (hd' : ∀ i, |d i| ≤ ((2 : ℚ) ^ (510 : ℤ) : ℚ)) (hd0' : d' ≠ 0) (hdd : ∀ i, d' i = 0 ∨ ((2 : ℚ) ^ (-511 : ℤ) : ℚ) ≤ |d' i|)
    (hdd' : ∀ i, |d' i| ≤ ((2 : ℚ) ^ (510 : ℤ) : ℚ)) (ho : ∀ i, |o i| ≤ M) (ho' : ∀ i, |o' i| ≤ M) (hM : ((2 : ℚ) ^ (-480 : ℤ) : ℚ) ≤ M)
    (hM' : M ≤ ((2 : ℚ) ^ (480 : ℤ) : ℚ)) (hε : ((2 : ℚ) ^ (-44 : ℤ) : ℚ) ≤ ε) (hε' : ε ≤ ((2 : ℚ) ^ (900 : ℤ) : ℚ)) :
    (128 * (2 ^ (-53 : ℤ) * (M.real + ε.real)) ≤ ε.real →
      ∀ k : ℝ, k ≠ 0 → toR BinQ.real d' = k • toR BinQ.real d →
      (rayPts (toR BinQ.real o) (toR BinQ.real d) ∩ rayPts (toR BinQ.real o') (toR BinQ.real d')).Nonempty →
      ∃ loc P, Shape.getIntersect 2 (.ray { s with vicinity := v }) (.ray { t with vicinity := w }) = .ok (true, some loc) ∧ loc.Holds P ∧
        ∃ p ∈ rayPts (toR BinQ.real o) (toR BinQ.real d) ∩ rayPts (toR BinQ.real o') (toR BinQ.real d'),
          ∀ i, |(P i).real - p i| ≤ 456 * (2 ^ (-53 : ℤ) * M.real)) ∧
    ((∀ i, |(unit (toR BinQ.real d) ⨯₃ unit (toR BinQ.real d')) i| ≤ 1 / 10000 - 40 * 2 ^ (-53 : ℤ)) →
      (∀ τ : ℝ, ε.real + 128 * (2 ^ (-53 : ℤ) * (M.real + ε.real)) < euc (toR BinQ.real o' - (toR BinQ.real o + τ • toR BinQ.real d))) →
      Shape.getIntersect 2 (.ray { s with vicinity := v }) (.ray { t with vicinity := w }) = .ok (false, none)) := by
  obtain ⟨s1, s2, -⟩ := f64_range hd hd'
  obtain ⟨t1, t2, -⟩ := f64_range hdd hdd'
  have R := f64_rayPair ho ho' hM hM' hε hε'
  refine ⟨fun h k hk hpar hne => ?_, fun h h2 => ?_⟩
  · have := C81_parallel_meet BinQ.real BinQ.real_strictMono (w := w) hl hl' hs hm hm' ht hv hd0 s1 s2 t1 t2 R (by rw [real_u]; exact h) hk hpar hne
    rwa [real_u] at this
  · exact C81_parallel_far BinQ.real BinQ.real_strictMono (w := w) hl hl' hs hm hm' ht hv hd0 s1 s2 hd0' t1 t2 R (by rw [real_u]; exact h)
      (by rw [real_u]; exact h2)

/-! ### concrete cases -/

def D010 : Fin 3 → Q64 := ![(0 : ℚ), (1 : ℚ), (0 : ℚ)]
def O306 : Fin 3 → Q64 := ![(3 : ℚ), (0 : ℚ), (6 : ℚ)]

theorem holdsZ : (Fl.fin (0 : ℚ) : Fl Q64).Holds ((0 : ℚ) : Q64) := int_holds rfl (.inl rfl)
theorem holds1 : (Fl.fin (1 : ℚ) : Fl Q64).Holds ((1 : ℚ) : Q64) := int_holds rfl (.inr (.inl rfl))
theorem holds2 : (Fl.fin (2 : ℚ) : Fl Q64).Holds ((2 : ℚ) : Q64) := int_holds rfl (.inr (.inr rfl))

theorem small_lo (a : ℚ) (h : a = 0 ∨ 1 ≤ |a|) : (a : Q64) = 0 ∨ ((2 : ℚ) ^ (-511 : ℤ) : ℚ) ≤ |(a : Q64)| := by
  refine h.imp id fun h => ?_
  have : (2 : ℚ) ^ (-511 : ℤ) ≤ |a| := (zpow_le_one_of_nonpos₀ (by norm_num) (by norm_num)).trans h
  exact this

theorem small_hi (a : ℚ) (h : |a| ≤ 2) : |(a : Q64)| ≤ ((2 : ℚ) ^ (510 : ℤ) : ℚ) := by
  have : |a| ≤ (2 : ℚ) ^ (510 : ℤ) := h.trans ((by norm_num : (2 : ℚ) ≤ 2 ^ (1 : ℤ)).trans (zpow_le_zpow_right₀ (by norm_num) (by norm_num)))
  exact this

theorem D122_lo (i : Fin 3) : D122 i = 0 ∨ ((2 : ℚ) ^ (-511 : ℤ) : ℚ) ≤ |D122 i| := by
  fin_cases i
  · exact small_lo 1 (.inr (by norm_num))
  · exact small_lo 2 (.inr (by norm_num))
  · exact small_lo 2 (.inr (by norm_num))

theorem D122_hi (i : Fin 3) : |D122 i| ≤ ((2 : ℚ) ^ (510 : ℤ) : ℚ) := by
  fin_cases i
  · exact small_hi 1 (by norm_num)
  · exact small_hi 2 (by norm_num)
  · exact small_hi 2 (by norm_num)

theorem D010_lo (i : Fin 3) : D010 i = 0 ∨ ((2 : ℚ) ^ (-511 : ℤ) : ℚ) ≤ |D010 i| := by
  fin_cases i
  · exact .inl rfl
  · exact small_lo 1 (.inr (by norm_num))
  · exact .inl rfl

theorem D010_hi (i : Fin 3) : |D010 i| ≤ ((2 : ℚ) ^ (510 : ℤ) : ℚ) := by
  fin_cases i
  · exact small_hi 0 (by norm_num)
  · exact small_hi 1 (by norm_num)
  · exact small_hi 0 (by norm_num)

theorem eight_of (a : ℚ) (h : |a| ≤ 8) : |(a : Q64)| ≤ eightQ := h
theorem eight_lo : ((2 : ℚ) ^ (-480 : ℤ) : ℚ) ≤ eightQ := by
  have : (2 : ℚ) ^ (-480 : ℤ) ≤ 8 := (zpow_le_one_of_nonpos₀ (by norm_num) (by norm_num)).trans (by norm_num)
  exact this
theorem eight_hi : eightQ ≤ ((2 : ℚ) ^ (480 : ℤ) : ℚ) := by
  have : (8 : ℚ) ≤ 2 ^ (480 : ℤ) := (by norm_num : (8 : ℚ) ≤ 2 ^ (3 : ℤ)).trans (zpow_le_zpow_right₀ (by norm_num) (by norm_num))
  exact this
theorem eps10_lo : ((2 : ℚ) ^ (-44 : ℤ) : ℚ) ≤ eps10 := by
  have : (2 : ℚ) ^ (-44 : ℤ) ≤ 1 / 1024 := by norm_num
  exact this
theorem eps10_hi : eps10 ≤ ((2 : ℚ) ^ (900 : ℤ) : ℚ) := by
  have : (1 / 1024 : ℚ) ≤ 2 ^ (900 : ℤ) := (by norm_num : (1 / 1024 : ℚ) ≤ 1).trans (one_le_zpow₀ (by norm_num) (by norm_num))
  exact this
theorem Z3_eight (i : Fin 3) : |Z3 i| ≤ eightQ := by fin_cases i <;> exact eight_of 0 (by norm_num)
theorem O306_eight (i : Fin 3) : |O306 i| ≤ eightQ := by
  fin_cases i
  · exact eight_of 3 (by norm_num [abs_of_pos])
  · exact eight_of 0 (by norm_num)
  · exact eight_of 6 (by norm_num [abs_of_pos])
theorem eps10_holds : (Fl.fin (1 / 1024 : ℚ) : Fl Q64).Holds eps10 := ⟨rfl, .inr (by decide +kernel)⟩

theorem toR_D122 : toR BinQ.real D122 = ![1, 2, 2] := by
  ext i; fin_cases i
  · exact Rat.cast_one
  · exact Rat.cast_ofNat 2
  · exact Rat.cast_ofNat 2

theorem toR_D010 : toR BinQ.real D010 = ![0, 1, 0] := by
  ext i; fin_cases i
  · exact Rat.cast_zero
  · exact Rat.cast_one
  · exact Rat.cast_zero

theorem toR_Z3 : toR BinQ.real Z3 = 0 := by
  ext i; fin_cases i <;> exact Rat.cast_zero

theorem toR_O306 : toR BinQ.real O306 = ![3, 0, 6] := by
  ext i; fin_cases i
  · exact Rat.cast_ofNat 3
  · exact Rat.cast_zero
  · exact Rat.cast_ofNat 6

theorem euc_122 : euc (![1, 2, 2] : R3) = 3 := by
  rw [euc_eq, Fin.sum_univ_three]
  simp
  rw [show (1 + 2 * 2 + 2 * 2 : ℝ) = 3 ^ 2 by norm_num]
  exact Real.sqrt_sq (by norm_num)

theorem euc_010 : euc (![0, 1, 0] : R3) = 1 := by
  rw [euc_eq, Fin.sum_univ_three]; simp

theorem D122_ne : D122 ≠ 0 := fun h => absurd (congrFun h 0) (by decide +kernel)
theorem D010_ne : D010 ≠ 0 := fun h => absurd (congrFun h 1) (by decide +kernel)
theorem lZ3 : ListIn (K := Q64) [.fin (0 : ℚ), .fin (0 : ℚ), .fin (0 : ℚ)] Z3 := ⟨_, _, _, rfl, holdsZ, holdsZ, holdsZ⟩
theorem lD122 : ListIn (K := Q64) [.fin (1 : ℚ), .fin (2 : ℚ), .fin (2 : ℚ)] D122 := ⟨_, _, _, rfl, holds1, holds2, holds2⟩
theorem lD010 : ListIn (K := Q64) [.fin (0 : ℚ), .fin (1 : ℚ), .fin (0 : ℚ)] D010 := ⟨_, _, _, rfl, holdsZ, holds1, holdsZ⟩
theorem lO306 : ListIn (K := Q64) [.fin (3 : ℚ), .fin (0 : ℚ), .fin (6 : ℚ)] O306 :=
  ⟨_, _, _, rfl, ⟨rfl, .inr (by decide +kernel)⟩, holdsZ, ⟨rfl, .inr (by decide +kernel)⟩⟩

/-- the ray from the origin along `(1, 2, 2)` and the ray from `(3, 0, 6)` along `y` meet in `(3, 6, 6)` -/
example (w : Fl Q64) := C81_meet_f64 (w := w) lZ3 lD122 rfl lO306 lD010 rfl eps10_holds D122_ne D122_lo D122_hi D010_ne D010_lo D010_hi
  Z3_eight O306_eight eight_lo eight_hi eps10_lo eps10_hi
  (by
    refine ⟨0, ?_⟩
    rw [toR_D122, toR_D010, unit, unit, euc_122, euc_010, cross_apply]
    simp
    norm_num [abs_of_pos])
  (p := ![3, 6, 6])
  (by
    rw [toR_Z3, toR_D122]
    exact ⟨3, by norm_num, by ext i; fin_cases i <;> norm_num⟩)
  (by
    rw [toR_O306, toR_D010]
    exact ⟨6, by norm_num, by ext i; fin_cases i <;> norm_num⟩)

/-- the hypotheses of the first part of `C81_parallel_f64`: two rays along `(1, 2, 2)` from the same origin -/
example (w : Fl Q64) := (C81_parallel_f64 (w := w) lZ3 lD122 rfl lZ3 lD122 rfl eps10_holds D122_ne D122_lo D122_hi D122_ne D122_lo D122_hi
  Z3_eight Z3_eight eight_lo eight_hi eps10_lo eps10_hi).1
  (by
    have ve : BinQ.real eps10 = 1 / 1024 := (by norm_num : (((1 / 1024 : ℚ) : ℚ) : ℝ) = 1 / 1024)
    have e8 : BinQ.real eightQ = 8 := Rat.cast_ofNat 8
    rw [ve, e8]; norm_num)
  1 one_ne_zero (one_smul _ _).symm ⟨_, ⟨0, le_rfl, rfl⟩, ⟨0, le_rfl, rfl⟩⟩

/-- the hypotheses of the second part of `C81_parallel_f64`: two rays along `y`, from the origin and from `(3, 0, 6)` -/
example (w : Fl Q64) := (C81_parallel_f64 (w := w) lZ3 lD010 rfl lO306 lD010 rfl eps10_holds D010_ne D010_lo D010_hi D010_ne D010_lo D010_hi
  Z3_eight O306_eight eight_lo eight_hi eps10_lo eps10_hi).2
  (fun i => by rw [cross_self, Pi.zero_apply, abs_zero]; norm_num)
  (fun τ => by
    have ve : BinQ.real eps10 = 1 / 1024 := (by norm_num : (((1 / 1024 : ℚ) : ℚ) : ℝ) = 1 / 1024)
    have e8 : BinQ.real eightQ = 8 := Rat.cast_ofNat 8
    rw [ve, e8, toR_Z3, toR_O306, toR_D010]
    refine lt_of_lt_of_le ?_ (euc_coord _ 0)
    norm_num)

/-- the hypotheses of `C81_parallel_near`: two rays along `(1, 2, 2)` from the same origin -/
example (w : Fl Q64) := by
  obtain ⟨s1, s2, -⟩ := f64_range D122_lo D122_hi
  exact C81_parallel_near BinQ.real BinQ.real_strictMono (w := w) lZ3 lD122 rfl lZ3 lD122 rfl eps10_holds D122_ne s1 s2 D122_ne s1 s2
    (f64_rayPair Z3_eight Z3_eight eight_lo eight_hi eps10_lo eps10_hi)
    (fun i => by rw [cross_self, Pi.zero_apply, abs_zero, real_u]; norm_num)
    (fun i => ⟨_, ⟨0, le_rfl, rfl⟩, _, ⟨0, le_rfl, rfl⟩, rfl⟩) (τ := 0)
    (by
      have ve : BinQ.real eps10 = 1 / 1024 := (by norm_num : (((1 / 1024 : ℚ) : ℚ) : ℝ) = 1 / 1024)
      have e8 : BinQ.real eightQ = 8 := Rat.cast_ofNat 8
      rw [real_u, ve, e8, zero_smul, add_zero, sub_self, show euc 0 = 0 by rw [euc_eq]; simp]
      norm_num)

/-- C81: the location is not exact.  The rays from the origin along `(1, 3, 7)` and from `(3, 0, 21)` along `y` meet in `(3, 9, 21)`; the code
reports a point that differs from it in each coordinate. -/
theorem C81_exact_false : ∃ (s t : Ray3 Q64) (loc : V3 Q64), Ray3.init [0, 0, 0] [1, .fin 3, .fin 7] = .ok s ∧
    Ray3.init [.fin 3, 0, .fin 21] [0, 1, 0] = .ok t ∧
    (![3, 9, 21] : R3) ∈ rayPts 0 ![1, 3, 7] ∩ rayPts ![3, 0, 21] ![0, 1, 0] ∧
    Shape.getIntersect 2 (.ray s) (.ray t) = .ok (true, some loc) ∧
    loc.val[0] ≠ .fin 3 ∧ loc.val[1] ≠ .fin 9 ∧ loc.val[2] ≠ .fin 21 := by
  refine ⟨_, _, ⟨#v[.fin (3 + 1 / 2 ^ 51), .fin (9 + 1 / 2 ^ 49), .fin (21 + 1 / 2 ^ 48)]⟩, rfl, rfl,
    ⟨⟨3, by norm_num, ?_⟩, ⟨9, by norm_num, ?_⟩⟩, by decide +kernel, by decide +kernel, by decide +kernel, by decide +kernel⟩
  · ext i; fin_cases i <;> norm_num
  · ext i; fin_cases i <;> norm_num

/-- C81: the margin is needed.  The rays along `(1, 3, 7)` from the origin and from `2^34 (1, 3, 7)` overlap; with the default tolerance `1e-6`
they are not reported. -/
theorem C81_parallel_false : ∃ s t : Ray3 Q64, Ray3.init [0, 0, 0] [1, .fin 3, .fin 7] = .ok s ∧
    Ray3.init [.fin (2 ^ 34), .fin (3 * 2 ^ 34), .fin (7 * 2 ^ 34)] [1, .fin 3, .fin 7] = .ok t ∧
    rayPts ![2 ^ 34, 3 * 2 ^ 34, 7 * 2 ^ 34] ![1, 3, 7] ⊆ rayPts 0 ![1, 3, 7] ∧
    Shape.getIntersect 2 (.ray s) (.ray t) = .ok (false, none) := by
  refine ⟨_, _, rfl, rfl, ?_, by decide +kernel⟩
  rintro _ ⟨τ, hτ, rfl⟩
  refine ⟨τ + 2 ^ 34, by linarith [show (0 : ℝ) ≤ 2 ^ 34 by norm_num], ?_⟩
  ext i; fin_cases i <;> simp <;> ring

/-- C81: in binary64 too, skew rays are reported as intersecting.  Witness: from the origin along `(1, 1, 1)` and from `(1, 0, 0)` along `y`. -/
theorem C81_skew_false : ∃ (s t : Ray3 Q64) (loc : V3 Q64), Ray3.init [0, 0, 0] [1, 1, 1] = .ok s ∧ Ray3.init [1, 0, 0] [0, 1, 0] = .ok t ∧
    rayPts 0 ![1, 1, 1] ∩ rayPts ![1, 0, 0] ![0, 1, 0] = ∅ ∧ Shape.getIntersect 2 (.ray s) (.ray t) = .ok (true, some loc) := by
  refine ⟨_, _, ⟨#v[.fin (6369051672525773 / 2 ^ 53), .fin (6369051672525773 / 2 ^ 53), .fin (6369051672525773 / 2 ^ 53)]⟩, rfl, rfl, ?_,
    by decide +kernel⟩
  ext p
  simp only [Set.mem_inter_iff, Set.mem_empty_iff_false, iff_false, not_and]
  rintro ⟨τ, hτ, rfl⟩ ⟨σ, hσ, e⟩
  have e0 := congrFun e 0
  have e2 := congrFun e 2
  simp at e0 e2
  linarith

end Mazth
