import Verif.Props.Undo
import Verif.Props.FloatPrismLine

/-!
# C101: rigid motions, rotating with `rotate_vector` and translating with `plus`
-/

set_option linter.unusedSectionVars false
set_option autoImplicit false

namespace Mazth

open Quaternion Matrix RndErr

section exact

variable {p q : Quat (Fl ℝ)} {P Q : ℍ[ℝ]} {s t v v' : Mat3x1 (Fl ℝ)} {S T U U' : Fin 3 → ℝ}

namespace Motion

theorem plus_isR (hs : s.IsR S) (ht : t.IsR T) : ∃ c, s.plus t = some c ∧ c.IsR (S + T) :=
  (C54_vectorSpace .mat3x1 s t S T hs ht 0 0 Fl.is_zero).1

theorem minus_isR (hs : s.IsR S) (ht : t.IsR T) : ∃ c, s.minus t = some c ∧ c.IsR (S - T) :=
  (C54_vectorSpace .mat3x1 s t S T hs ht 0 0 Fl.is_zero).2.1

theorem rotR_sub (h1 : ‖Q‖ = 1) (u v : R3) : rotR Q (u - v) = rotR Q u - rotR Q v := by
  have := rotR_add h1 (u - v) v
  rw [sub_add_cancel] at this
  exact eq_sub_of_add_eq this.symm

end Motion

/-- C101: moving by `(q, t)` and then by `(p, s)` is moving by the product of the quaternions and the moved translation. -/
theorem C101_compose (hp : p.IsR P) (hP : ‖P‖ = 1) (hq : q.IsR Q) (hQ : ‖Q‖ = 1) (hs : s.IsR S) (ht : t.IsR T) (hv : v.IsR U) :
    ∃ y z s' d w, (q.rotateVector v).plus t = some y ∧ (p.rotateVector y).plus s = some z ∧
      (p.rotateVector t).plus s = some s' ∧ ((p.mul q).rotateVector v).plus s' = some d ∧ z.IsR w ∧ d.IsR w := by
  obtain ⟨y, e1, r1⟩ := Motion.plus_isR (C20_rotate hq hQ v U hv) ht
  obtain ⟨z, e2, r2⟩ := Motion.plus_isR (C20_rotate hp hP y _ r1) hs
  obtain ⟨s', e3, r3⟩ := Motion.plus_isR (C20_rotate hp hP t T ht) hs
  obtain ⟨w, h1, h2⟩ := C20_compose hp hq v U hv
  obtain ⟨d, e4, r4⟩ := Motion.plus_isR h1 r3
  have hw : w = rotR P (rotR Q U) := VecTy.readsR_unique (t := .mat3x1) h2 (C20_rotate hp hP _ _ (C20_rotate hq hQ v U hv))
  refine ⟨y, z, s', d, _, e1, e2, e3, e4, r2, ?_⟩
  rw [rotR_add hP, add_assoc, ← hw]
  exact r4

/-- C101: a motion is undone by subtracting the translation and rotating with the inverse or the conjugate quaternion. -/
theorem C101_undo (hq : q.IsR Q) (hQ : ‖Q‖ = 1) (ht : t.IsR T) (hv : v.IsR U) :
    ∃ i y b, q.inverse = .ok i ∧ (q.rotateVector v).plus t = some y ∧ y.minus t = some b ∧ (i.rotateVector b).IsR U ∧
      (q.conjugate.rotateVector b).IsR U := by
  obtain ⟨y, e1, r1⟩ := Motion.plus_isR (C20_rotate hq hQ v U hv) ht
  obtain ⟨b, e2, r2⟩ := Motion.minus_isR r1 ht
  rw [add_sub_cancel_right] at r2
  have h0 : Q ≠ 0 := by rintro rfl; simp at hQ
  obtain ⟨i, hi, ri⟩ := hq.inverse h0
  rw [unit_inv hQ] at ri
  have hs : ‖star Q‖ = 1 := by rw [Quaternion.norm_star, hQ]
  have h1 := C20_rotate ri hs b _ r2
  have h2 := C20_rotate hq.conjugate hs b _ r2
  rw [rotR_back hQ] at h1 h2
  exact ⟨i, y, b, hi, e1, e2, h1, h2⟩

/-- C101: a motion preserves distances. -/
theorem C101_distance (hq : q.IsR Q) (hQ : ‖Q‖ = 1) (ht : t.IsR T) (hv : v.IsR U) (hv' : v'.IsR U') :
    ∃ y y' a b m m' l, (q.rotateVector v).plus t = some y ∧ (q.rotateVector v').plus t = some y' ∧ y.minus y' = some a ∧
      v.minus v' = some b ∧ a.magnitude = some m ∧ b.magnitude = some m' ∧ m.Is l ∧ m'.Is l := by
  obtain ⟨y, e1, r1⟩ := Motion.plus_isR (C20_rotate hq hQ v U hv) ht
  obtain ⟨y', e2, r2⟩ := Motion.plus_isR (C20_rotate hq hQ v' U' hv') ht
  obtain ⟨a, e3, r3⟩ := Motion.minus_isR r1 r2
  obtain ⟨b, e4, r4⟩ := Motion.minus_isR hv hv'
  obtain ⟨⟨m', m, l, f1, f2, g1, g2⟩, -, -⟩ := C20_isometry hq hQ b b _ _ r4 r4
  refine ⟨y, y', a, b, _, m', _, e1, e2, e3, e4, rfl, f1, V3.is_mag r3, ?_⟩
  obtain rfl := Option.some.inj f1
  have := V3.is_mag r4
  rw [add_sub_add_right_eq_sub, ← Motion.rotR_sub hQ, euc_of_dot (rotR_dot hQ _ _)]
  exact this

/-- C101: the matrices of the library do not compose to a motion: the rotation matrix followed by the translation matrix sends every point
to half the translation. -/
theorem C101_matrix (hq : q.IsR Q) (hQ : ‖Q‖ = 1) (ht : t.IsR T) (v4 : Mat4x1 (Fl ℝ)) (h4 : VecTy.ReadsR .mat4x1 v4 ![U 0, U 1, U 2, 1]) :
    ∃ c d, (q.toRotationMatrix true).mulMat4x1 v4 = some c ∧
      ((Quat.initFromTranslation t).toTranslationMatrix true).mulMat4x1 c = some d ∧
      VecTy.ReadsR .mat4x1 d ![T 0 / 2, T 1 / 2, T 2 / 2, 1] := by
  obtain ⟨c, e, r⟩ := C06_mulCol .mat4 _ v4 _ _ (rotM_reads hq) h4
  have h : rotM Q *ᵥ ![U 0, U 1, U 2, 1] = _ := rotM_vec hQ U 1
  have r' : VecTy.ReadsR .mat4x1 c ![rotR Q U 0, rotR Q U 1, rotR Q U 2, 1] := by rw [← h]; exact r
  obtain ⟨d, e', r2⟩ := C30_partial T (rotR Q U) t c ht r'
  exact ⟨c, d, e, e', r2⟩

/-- C101 is false of the matrices: the result is not the moved point. -/
theorem C101_matrix_false : ¬ ∀ (q : Quat (Fl ℝ)) (Q : ℍ[ℝ]) (t : Mat3x1 (Fl ℝ)) (T U : Fin 3 → ℝ) (v4 c d : Mat4x1 (Fl ℝ)), q.IsR Q → ‖Q‖ = 1 →
    t.IsR T → VecTy.ReadsR .mat4x1 v4 ![U 0, U 1, U 2, 1] → (q.toRotationMatrix true).mulMat4x1 v4 = some c →
    ((Quat.initFromTranslation t).toTranslationMatrix true).mulMat4x1 c = some d →
    VecTy.ReadsR .mat4x1 d ![rotR Q U 0 + T 0, rotR Q U 1 + T 1, rotR Q U 2 + T 2, 1] := by
  intro h
  have v1 : VecTy.ReadsR .mat4x1 (⟨#v[.fin 0, .fin 0, .fin 0, .fin 1]⟩ : Mat4x1 (Fl ℝ)) ![0, 0, 0, 1] :=
    VecTy.readsR_iff.mpr fun i => by fin_cases i <;> exact Fl.is_fin _
  obtain ⟨c, d, e, e', r⟩ := C101_matrix (U := ![0, 0, 0]) (quatR_isR turn) turn_unit (vec3R_reads 2 0 0) _ v1
  have r' := h _ _ _ _ ![0, 0, 0] _ c d (quatR_isR turn) turn_unit (vec3R_reads 2 0 0) v1 e e'
  have := congrFun (VecTy.readsR_unique r r') (0 : Fin 4)
  rw [show rotR turn ![0, 0, 0] 0 = 0 by rw [rotR_coords turn_unit]; simp] at this
  norm_num at this

/-- concrete cases -/
example := C101_matrix (U := ![3, -1, 2]) (quatR_isR turn) turn_unit (vec3R_reads 2 4 6) ⟨#v[.fin 3, .fin (-1), .fin 2, .fin 1]⟩
  (VecTy.readsR_iff.mpr fun i => by fin_cases i <;> exact Fl.is_fin _)
example := C101_compose (quatR_isR turn) turn_unit (quatR_isR turn) turn_unit (vec3R_reads 1 0 2) (vec3R_reads 3 (-1) 2) (vec3R_reads 1 2 3)
example := C101_undo (quatR_isR turn) turn_unit (vec3R_reads 3 (-1) 2) (vec3R_reads 1 2 3)
example := C101_distance (quatR_isR turn) turn_unit (vec3R_reads 3 (-1) 2) (vec3R_reads 1 2 3) (vec3R_reads 0 5 3)

end exact

section floats

variable {K : Type} [Field K] [LinearOrder K] [IsStrictOrderedRing K] [Fmt K] [LawfulFmt K] [RndErr K]
variable (φ : K →+* ℝ) (hφ : StrictMono φ)

/-- a quaternion within `d` of the unit one, and a finite translation -/
def MotionNear (d : ℝ) (m : Quat (Fl K) × Mat3x1 (Fl K)) (s : ℍ[ℝ] × R3) : Prop :=
  NearU φ d m.1 s.1 ∧ ∃ T, m.2.Holds T ∧ s.2 = toR φ T

include hφ

namespace Motion

/-- a sum of two vectors -/
theorem plus_near {w t : Mat3x1 (Fl K)} {W T : Fin 3 → K} (hw : w.Holds W) (ht : t.Holds T) (ho : ∀ i, |W i + T i| ≤ omega) :
    ∃ c C, w.plus t = some c ∧ c.Holds C ∧ euc (toR φ C - (toR φ W + toR φ T)) ≤ φ u * euc (toR φ W + toR φ T) := by
  obtain ⟨c, e, h⟩ := VecTy.plus_get .mat3x1 w t
  have a (i : Fin 3) : (c.val[i]).Acc (W i + T i) (u * |W i + T i|) := by
    have : c.val[i] = w.val[i] + t.val[i] := h i
    rw [this]; exact .add (hw i) (ht i)
  choose C hC using fun i => (a i).fin (ho i)
  refine ⟨c, C, e, fun i => ⟨hC i, (a i).wf⟩, euc_rel (by have := hφ (u_pos (K := K)); rw [map_zero] at this; exact this.le) fun i => ?_⟩
  have := hφ.monotone ((a i).err _ (hC i))
  rw [map_abs_mono φ hφ, map_sub, map_mul, map_abs_mono φ hφ, map_add] at this
  exact this

/-- a difference of two vectors -/
theorem minus_near {w t : Mat3x1 (Fl K)} {W T : Fin 3 → K} (hw : w.Holds W) (ht : t.Holds T) (ho : ∀ i, |W i - T i| ≤ omega) :
    ∃ c C, w.minus t = some c ∧ c.Holds C ∧ euc (toR φ C - (toR φ W - toR φ T)) ≤ φ u * euc (toR φ W - toR φ T) := by
  obtain ⟨c, e, h⟩ := VecTy.minus_get .mat3x1 w t
  have a (i : Fin 3) : (c.val[i]).Acc (W i - T i) (u * |W i - T i|) := by
    have : c.val[i] = w.val[i] - t.val[i] := h i
    rw [this]; exact .sub (hw i) (ht i)
  choose C hC using fun i => (a i).fin (ho i)
  refine ⟨c, C, e, fun i => ⟨hC i, (a i).wf⟩, euc_rel (by have := hφ (u_pos (K := K)); rw [map_zero] at this; exact this.le) fun i => ?_⟩
  have := hφ.monotone ((a i).err _ (hC i))
  rw [map_abs_mono φ hφ, map_sub, map_mul, map_abs_mono φ hφ, map_sub] at this
  exact this

theorem coord_le {V : Fin 3 → K} {B : K} (h : euc (toR φ V) ≤ φ B) (i : Fin 3) : |V i| ≤ B := by
  by_contra hc
  have h1 := hφ (not_le.mp hc)
  rw [map_abs_mono φ hφ] at h1
  have h2 := euc_coord (toR φ V) i
  have : |toR φ V i| = |φ (V i)| := rfl
  linarith

/-- one motion -/
theorem step {E d L : ℝ} {m : Quat (Fl K) × Mat3x1 (Fl K)} {s : ℍ[ℝ] × R3} (hm : MotionNear φ d m s) (hd : d ≤ 1 / 8)
    {v : Mat3x1 (Fl K)} {V : Fin 3 → K} {X : R3} (hv : v.Holds V) (hX : euc X + euc s.2 ≤ L) (hE : euc (toR φ V - X) ≤ E)
    {B : K} (hB : L + E ≤ φ B) (ho : 256 * (B + 1) ≤ omega) (he : (eta : K) ≤ u) (hs : 9 / 2 * d + 154 * φ u ≤ 1 / 2) :
    euc (rotR s.1 X + s.2) ≤ euc X + euc s.2 ∧ ∃ c C, (m.1.rotateVector v).plus m.2 = some c ∧ c.Holds C ∧
      euc (toR φ C - (rotR s.1 X + s.2)) ≤ E + ((9 / 2 * d + 154 * φ u) * (L + E) + 33 * φ eta) := by
  obtain ⟨hq, T, hT, eT⟩ := hm
  obtain ⟨hu, hul, heta⟩ := phi_u φ hφ
  have E0 : 0 ≤ E := (euc_nonneg _).trans hE
  have d0 := hq.nonneg
  have x0 := euc_nonneg X
  have t0 := euc_nonneg s.2
  have hV : euc (toR φ V) ≤ φ B := by
    have := euc_add_le (toR φ V - X) X
    rw [sub_add_cancel] at this; linarith
  obtain ⟨hX', W, hW, hW'⟩ := rot_step φ hφ hq hd hv rfl hE (coord_le φ hφ hV) ho he
  have tri := euc_add_le (rotR s.1 X) s.2
  rw [hX'] at tri
  set κ := 9 / 2 * d + 152 * φ u with hκ
  have κ0 : 0 ≤ κ := by positivity
  have κ1 : κ ≤ 3 / 4 := by rw [hκ]; linarith
  have up : κ * (euc X + E) + 32 * φ eta ≤ κ * (L + E) + 32 * φ eta := by
    have := mul_le_mul_of_nonneg_left (show euc X + E ≤ L + E by linarith) κ0
    linarith
  have eE : φ eta ≤ φ u := hφ.monotone he
  have e1 : euc (toR φ W + toR φ T - (rotR s.1 X + s.2)) ≤ E + (κ * (L + E) + 32 * φ eta) := by
    rw [← eT, add_sub_add_right_eq_sub]; linarith
  have e2 : euc (toR φ W + toR φ T) ≤ L + (E + (κ * (L + E) + 32 * φ eta)) := by
    have := euc_add_le (toR φ W + toR φ T - (rotR s.1 X + s.2)) (rotR s.1 X + s.2)
    rw [sub_add_cancel] at this; linarith
  have b0 : 0 ≤ φ B := (euc_nonneg _).trans hV
  have e3 : euc (toR φ W + toR φ T) ≤ 2 * (L + E) + 32 * φ eta := by
    have := mul_le_mul_of_nonneg_right κ1 (show 0 ≤ L + E by linarith)
    linarith
  have e4 : euc (toR φ fun i => W i + T i) ≤ φ (256 * (B + 1)) := by
    have : (toR φ fun i => W i + T i) = toR φ W + toR φ T := by funext i; simp [toR]
    rw [this, map_mul, map_add, map_one, map_ofNat]; linarith
  obtain ⟨c, C, ec, hC, hc⟩ := plus_near φ hφ hW hT fun i => (coord_le φ hφ e4 i).trans ho
  refine ⟨tri, c, C, ec, hC, ?_⟩
  have f1 := euc_add_le (toR φ C - (toR φ W + toR φ T)) (toR φ W + toR φ T - (rotR s.1 X + s.2))
  rw [sub_add_sub_cancel] at f1
  have f2 := mul_le_mul_of_nonneg_left e3 hu.le
  have f3 : φ u * (32 * φ eta) ≤ 1 / 32 * (32 * φ eta) := mul_le_mul_of_nonneg_right (by linarith) (by positivity)
  linarith [show (9 / 2 * d + 154 * φ u) * (L + E) = κ * (L + E) + 2 * (φ u * (L + E)) by rw [hκ]; ring]

/-- the induction behind `C101_chain`: `k` motions done -/
theorem chain {d L : ℝ} (hd0 : 0 ≤ d) (hd : d ≤ 1 / 8) {ms : List (Quat (Fl K) × Mat3x1 (Fl K))} {ss : List (ℍ[ℝ] × R3)}
    (hms : List.Forall₂ (MotionNear φ d) ms ss) {B : K} (hLB : L ≤ φ B) (ho : 256 * (2 * B + 2) ≤ omega) (he : 64 * (eta : K) ≤ u) (k : ℕ)
    {v : Mat3x1 (Fl K)} {V : Fin 3 → K} {X : R3} (hv : v.Holds V) (hX : euc X + (ss.map fun s => euc s.2).sum ≤ L)
    (hE : euc (toR φ V - X) ≤ 2 * k * ((9 / 2 * d + 154 * φ u) * L + 33 * φ eta))
    (hk : (k + ms.length) * (9 / 2 * d + 154 * φ u) ≤ 1 / 2) :
    ∃ w W, ms.foldlM (fun v m => (m.1.rotateVector v).plus m.2) v = some w ∧ w.Holds W ∧
      euc (toR φ W - ss.foldl (fun x s => rotR s.1 x + s.2) X) ≤ 2 * (k + ms.length) * ((9 / 2 * d + 154 * φ u) * L + 33 * φ eta) := by
  obtain ⟨hu, hul, heta⟩ := phi_u φ hφ
  have he' : 64 * φ eta ≤ φ u := by have := hφ.monotone he; rwa [map_mul, map_ofNat] at this
  induction hms generalizing v V X k with
  | nil => exact ⟨v, V, rfl, hv, by simpa using hE⟩
  | @cons m s ms ss h hs ih =>
    rw [List.map_cons, List.sum_cons] at hX
    have S0 : 0 ≤ (ss.map fun s => euc s.2).sum := List.sum_nonneg fun x hx => by
      obtain ⟨y, -, rfl⟩ := List.mem_map.mp hx; exact euc_nonneg _
    have x0 := euc_nonneg X
    have s0 := euc_nonneg s.2
    have L0 : 0 ≤ L := by linarith
    rw [List.length_cons] at hk ⊢
    push_cast at hk ⊢
    set κ := 9 / 2 * d + 154 * φ u with hκ
    have κ0 : 0 ≤ κ := by positivity
    have n0 : (0 : ℝ) ≤ ms.length := by positivity
    have k0 : (0 : ℝ) ≤ k := by positivity
    have kκ : k * κ ≤ 1 / 2 := by nlinarith
    have c0 : 0 ≤ κ * L + 33 * φ eta := by positivity
    have b1 : 2 * k * (κ * L + 33 * φ eta) ≤ L + 1 := by
      have a1 : 2 * (k * κ) * L ≤ 1 * L := mul_le_mul_of_nonneg_right (by linarith) L0
      have a2 : (k : ℝ) * (154 * φ u) ≤ k * κ := mul_le_mul_of_nonneg_left (by rw [hκ]; linarith) k0
      have a3 : (k : ℝ) * (64 * φ eta) ≤ k * φ u := mul_le_mul_of_nonneg_left he' k0
      have a4 : 0 ≤ (k : ℝ) * φ u := by positivity
      have a5 : 0 ≤ (k : ℝ) * φ eta := by positivity
      linarith
    have hB : L + 2 * k * (κ * L + 33 * φ eta) ≤ φ (2 * B + 1) := by
      rw [map_add, map_mul, map_ofNat, map_one]; linarith
    obtain ⟨hX', c, C, ec, hC, hE'⟩ := step φ hφ h hd hv (by linarith) hE hB (by linarith) (by linarith [eta_pos (K := K)])
      (by nlinarith)
    have key : 2 * k * (κ * L + 33 * φ eta) + (κ * (L + 2 * k * (κ * L + 33 * φ eta)) + 33 * φ eta) ≤
        2 * ((k + 1 : ℕ) : ℝ) * (κ * L + 33 * φ eta) := by
      have a1 : 2 * (k * κ) * (κ * L + 33 * φ eta) ≤ 1 * (κ * L + 33 * φ eta) := mul_le_mul_of_nonneg_right (by linarith) c0
      push_cast
      linarith
    obtain ⟨w, W, ew, hW, r⟩ := ih (k + 1) hC (by linarith) (hE'.trans key) (by push_cast; linarith)
    refine ⟨w, W, ?_, hW, r.trans (le_of_eq ?_)⟩
    · rw [List.foldlM_cons, ec]; exact ew
    · push_cast; ring

end Motion

/-- C101: moving a point `n` times, each time rotating it with a quaternion within `d` of a unit one and adding a translation.  Nothing
overflows, and the result is within `n ((9 d + 308 u) L + 66 eta)` of the exact one, where `L` is the sum of the lengths of the point and of
all the translations. -/
theorem C101_chain {d : ℝ} (hd0 : 0 ≤ d) (hd : d ≤ 1 / 8) {ms : List (Quat (Fl K) × Mat3x1 (Fl K))} {ss : List (ℍ[ℝ] × R3)}
    (hms : List.Forall₂ (MotionNear φ d) ms ss) {v : Mat3x1 (Fl K)} {V : Fin 3 → K} (hv : v.Holds V) {B : K}
    (hB : euc (toR φ V) + (ss.map fun s => euc s.2).sum ≤ φ B) (ho : 512 * (B + 1) ≤ omega) (he : 64 * (eta : K) ≤ u)
    (hn : ms.length * (9 / 2 * d + 154 * φ u) ≤ 1 / 2) :
    ∃ w W, ms.foldlM (fun v m => (m.1.rotateVector v).plus m.2) v = some w ∧ w.Holds W ∧
      euc (toR φ W - ss.foldl (fun x s => rotR s.1 x + s.2) (toR φ V)) ≤
        ms.length * ((9 * d + 308 * φ u) * (euc (toR φ V) + (ss.map fun s => euc s.2).sum) + 66 * φ eta) := by
  obtain ⟨w, W, e, hW, r⟩ := Motion.chain φ hφ hd0 hd hms hB (by linarith) he 0 hv le_rfl
    (by simp [(euc_eq_zero (0 : R3)).mpr rfl]) (by simpa using hn)
  refine ⟨w, W, e, hW, r.trans (le_of_eq ?_)⟩
  push_cast; ring

/-- C101: moving a point and undoing the motion, by subtracting the translation and rotating with the conjugate quaternion, gives it back
up to `(18 d + 620 u) (|v| + |t|) + 200 eta`. -/
theorem C101_undo_float {d : ℝ} (hd0 : 0 ≤ d) {q : Quat (Fl K)} {t : Mat3x1 (Fl K)} {U : ℍ[ℝ]} {T : Fin 3 → K} (hq : NearU φ d q U)
    (ht : t.Holds T) {v : Mat3x1 (Fl K)} {V : Fin 3 → K} (hv : v.Holds V) {B : K}
    (hB : euc (toR φ V) + euc (toR φ T) ≤ φ B) (ho : 1024 * (B + 1) ≤ omega) (he : 64 * (eta : K) ≤ u)
    (hn : 9 / 2 * d + 154 * φ u ≤ 1 / 2) :
    ∃ y b B', (q.rotateVector v).plus t = some y ∧ y.minus t = some b ∧ (q.conjugate.rotateVector b).Holds B' ∧
      euc (toR φ B' - toR φ V) ≤ (18 * d + 620 * φ u) * (euc (toR φ V) + euc (toR φ T)) + 200 * φ eta := by
  obtain ⟨hu, hul, heta⟩ := phi_u φ hφ
  have he' : 64 * φ eta ≤ φ u := by have := hφ.monotone he; rwa [map_mul, map_ofNat] at this
  have hd : d ≤ 1 / 8 := by linarith
  have heu : (eta : K) ≤ u := by linarith [eta_pos (K := K)]
  have v0 := euc_nonneg (toR φ V)
  have t0 := euc_nonneg (toR φ T)
  set L := euc (toR φ V) + euc (toR φ T) with hL
  have b0 : 0 ≤ φ B := by linarith
  have B0 : 0 ≤ B := by
    by_contra hc
    have := hφ (not_le.mp hc); rw [map_zero] at this; linarith
  obtain ⟨-, y, Y, ey, hY, h1⟩ := Motion.step φ hφ (E := 0) (L := L) (m := (q, t)) (s := (U, toR φ T)) ⟨hq, T, ht, rfl⟩ hd hv le_rfl
    (by simp [(euc_eq_zero (0 : R3)).mpr rfl]) (B := B) (by linarith) (by linarith) heu hn
  rw [zero_add, add_zero] at h1
  dsimp only at h1 ey
  set κ := 9 / 2 * d + 154 * φ u with hκ
  have κ0 : 0 ≤ κ := by positivity
  have κL : κ * L ≤ 1 / 2 * L := mul_le_mul_of_nonneg_right hn (by linarith)
  have hX : euc (rotR U (toR φ V)) = euc (toR φ V) := euc_of_dot (rotR_dot hq.1 _ _)
  have g1 : euc (toR φ Y - toR φ T - rotR U (toR φ V)) ≤ κ * L + 33 * φ eta := by
    rw [sub_sub, add_comm (toR φ T)]; exact h1
  have g2 : euc (toR φ Y - toR φ T) ≤ 2 * L + 33 * φ eta := by
    have := euc_add_le (toR φ Y - toR φ T - rotR U (toR φ V)) (rotR U (toR φ V))
    rw [sub_add_cancel] at this; linarith
  have e4 : euc (toR φ fun i => Y i - T i) ≤ φ (1024 * (B + 1)) := by
    have : (toR φ fun i => Y i - T i) = toR φ Y - toR φ T := by funext i; simp [toR]
    rw [this, map_mul, map_add, map_one, map_ofNat]; linarith
  obtain ⟨b, C, eb, hC, hb⟩ := Motion.minus_near φ hφ hY ht fun i => (Motion.coord_le φ hφ e4 i).trans ho
  have m1 := mul_le_mul_of_nonneg_left g2 hu.le
  have m2 : φ u * (33 * φ eta) ≤ 1 / 33 * (33 * φ eta) := mul_le_mul_of_nonneg_right (by linarith) (by positivity)
  have g3 : euc (toR φ C - rotR U (toR φ V)) ≤ (κ + 2 * φ u) * L + 34 * φ eta := by
    have := euc_add_le (toR φ C - (toR φ Y - toR φ T)) (toR φ Y - toR φ T - rotR U (toR φ V))
    rw [sub_add_sub_cancel] at this
    linarith
  have hs : NearU φ d q.conjugate (star U) := by
    obtain ⟨h1, Q, hQ, h⟩ := hq
    refine ⟨by rw [Quaternion.norm_star, h1], star Q, star_holds hQ, ?_⟩
    have : toH φ (star Q) - star U = star (toH φ Q - U) := by
      ext <;> simp
    rw [this, Quaternion.norm_star]; exact h
  have uL : φ u * L ≤ 1 / 64 * L := mul_le_mul_of_nonneg_right hul (by linarith)
  have hC' : euc (toR φ C) ≤ φ (2 * B + 1) := by
    have := euc_add_le (toR φ C - rotR U (toR φ V)) (rotR U (toR φ V))
    rw [sub_add_cancel] at this
    rw [map_add, map_mul, map_ofNat, map_one]
    linarith
  obtain ⟨-, D, hD, h2⟩ := rot_step φ hφ hs hd hC hX g3 (Motion.coord_le φ hφ hC') (by linarith) heu
  rw [rotR_back hq.1] at h2
  refine ⟨y, b, D, ey, eb, hD, h2.trans ?_⟩
  have k0 : 0 ≤ 9 / 2 * d + 152 * φ u := by positivity
  have n1 := mul_le_mul_of_nonneg_left (show euc (toR φ V) + ((κ + 2 * φ u) * L + 34 * φ eta) ≤ 7 / 4 * L + 34 * φ eta by linarith) k0
  have n2 : (9 / 2 * d + 152 * φ u) * (34 * φ eta) ≤ 1 / 2 * (34 * φ eta) :=
    mul_le_mul_of_nonneg_right (by rw [hκ] at hn; linarith) (by positivity)
  have n3 : 0 ≤ d * L := mul_nonneg hd0 (by linarith)
  have n4 : 0 ≤ φ u * L := mul_nonneg hu.le (by linarith)
  have n5 : (κ + 2 * φ u) * L = 9 / 2 * (d * L) + 156 * (φ u * L) := by rw [hκ]; ring
  have n6 : (9 / 2 * d + 152 * φ u) * (7 / 4 * L + 34 * φ eta) =
    63 / 8 * (d * L) + 266 * (φ u * L) + (9 / 2 * d + 152 * φ u) * (34 * φ eta) := by ring
  rw [n6] at n1
  rw [n5] at n1 ⊢
  linarith [show (18 * d + 620 * φ u) * L = 18 * (d * L) + 620 * (φ u * L) by ring]

end floats

/-! ### binary64 -/

/-- a quaternion normalised by the library and a finite translation -/
def Motion64 (m : Quat (Fl Q64) × Mat3x1 (Fl Q64)) (s : ℍ[Q64] × (Fin 3 → Q64)) : Prop := Norm64 m.1 s.1 ∧ m.2.Holds s.2

namespace Motion

def p1000 : Q64 := ((2 : ℚ) ^ (1000 : ℤ) : ℚ)

theorem p1000_real : BinQ.real p1000 = 2 ^ (1000 : ℤ) := by
  show (((2 : ℚ) ^ (1000 : ℤ) : ℚ) : ℝ) = _
  rw [Rat.cast_zpow]; rfl

theorem forall_near {ms : List (Quat (Fl Q64) × Mat3x1 (Fl Q64))} {ss : List (ℍ[Q64] × (Fin 3 → Q64))} (h : List.Forall₂ Motion64 ms ss) :
    List.Forall₂ (MotionNear BinQ.real (8 * BinQ.real (u : Q64))) ms (ss.map fun s => (unit64 s.1, toR BinQ.real s.2)) := by
  induction h with
  | nil => exact .nil
  | cons h _ ih => exact .cons ⟨h.1.near, _, h.2, rfl⟩ ih

theorem unit_fold {ms : List (Quat (Fl Q64) × Mat3x1 (Fl Q64))} {ss : List (ℍ[Q64] × (Fin 3 → Q64))} (h : List.Forall₂ Motion64 ms ss) (X : R3) :
    (ss.map fun s => (unit64 s.1, toR BinQ.real s.2)).foldl (fun x s => rotR s.1 x + s.2) X =
      ss.foldl (fun x s => rotR (toH BinQ.real s.1) x + toR BinQ.real s.2) X := by
  induction h generalizing X with
  | nil => rfl
  | @cons m s ms ss h _ ih =>
    obtain ⟨⟨q, _, h0, _⟩, _⟩ := h
    rw [List.map_cons, List.foldl_cons, List.foldl_cons]
    dsimp only
    rw [show rotR (unit64 s.1) X = rotR (toH BinQ.real s.1) X from rotR_scale (unitQ BinQ.real BinQ.real_strictMono h0).2 _ X]
    exact ih _

/-- exact motions preserve distances -/
theorem dist_fold {ms : List (Quat (Fl Q64) × Mat3x1 (Fl Q64))} {ss : List (ℍ[Q64] × (Fin 3 → Q64))} (h : List.Forall₂ Motion64 ms ss) (X Y : R3) :
    euc (ss.foldl (fun x s => rotR (toH BinQ.real s.1) x + toR BinQ.real s.2) X -
      ss.foldl (fun x s => rotR (toH BinQ.real s.1) x + toR BinQ.real s.2) Y) = euc (X - Y) := by
  rw [← unit_fold h, ← unit_fold h]
  induction h generalizing X Y with
  | nil => rfl
  | @cons m s ms ss h _ ih =>
    rw [List.map_cons, List.foldl_cons, List.foldl_cons, ih]
    dsimp only
    rw [add_sub_add_right_eq_sub, ← rotR_sub h.1.near.1, euc_of_dot (rotR_dot h.1.near.1 _ _)]

end Motion

/-- C101 for `f64`, up to `2^44` motions of one point: the error is at most `n (2^-44 L + 2^-1068)`, where `L` is the sum of the lengths of
the point and of all the translations. -/
theorem C101_chain_f64 {ms : List (Quat (Fl Q64) × Mat3x1 (Fl Q64))} {ss : List (ℍ[Q64] × (Fin 3 → Q64))} (h : List.Forall₂ Motion64 ms ss)
    (hn : ms.length ≤ 2 ^ 44) {v : Mat3x1 (Fl Q64)} {V : Fin 3 → Q64} (hv : v.Holds V)
    (hB : euc (toR BinQ.real V) + (ss.map fun s => euc (toR BinQ.real s.2)).sum ≤ 2 ^ (1000 : ℤ)) :
    ∃ w W, ms.foldlM (fun v m => (m.1.rotateVector v).plus m.2) v = some w ∧ w.Holds W ∧
      euc (toR BinQ.real W - ss.foldl (fun x s => rotR (toH BinQ.real s.1) x + toR BinQ.real s.2) (toR BinQ.real V)) ≤
        ms.length * (2 ^ (-44 : ℤ) * (euc (toR BinQ.real V) + (ss.map fun s => euc (toR BinQ.real s.2)).sum) + 2 ^ (-1068 : ℤ)) := by
  obtain ⟨hu, hη⟩ := f64_consts
  have n0 : (0 : ℝ) ≤ ms.length := by positivity
  have hn' : (ms.length : ℝ) ≤ 2 ^ 44 := by exact_mod_cast hn
  have hsum : ((ss.map fun s => (unit64 s.1, toR BinQ.real s.2)).map fun s => euc s.2) = ss.map fun s => euc (toR BinQ.real s.2) := by
    rw [List.map_map]; rfl
  have S0 : 0 ≤ (ss.map fun s => euc (toR BinQ.real s.2)).sum := List.sum_nonneg fun x hx => by
    obtain ⟨y, -, rfl⟩ := List.mem_map.mp hx; exact euc_nonneg _
  have L0 := add_nonneg (euc_nonneg (toR BinQ.real V)) S0
  obtain ⟨w, W, e, hW, r⟩ := C101_chain BinQ.real BinQ.real_strictMono (d := 8 * BinQ.real (u : Q64)) (by rw [hu]; positivity)
    (by rw [hu]; norm_num) (Motion.forall_near h) hv (B := Motion.p1000) (by rw [hsum, Motion.p1000_real]; exact hB)
    (by have := f64_vec_range (M := Motion.p1000) le_rfl
        have h0 : 0 ≤ Motion.p1000 := show (0 : ℚ) ≤ (2 : ℚ) ^ (1000 : ℤ) by positivity
        linarith)
    eta_u64 (by rw [hu]; norm_num; linarith)
  refine ⟨w, W, e, hW, ?_⟩
  rw [Motion.unit_fold h, hsum] at r
  refine r.trans (mul_le_mul_of_nonneg_left ?_ n0)
  rw [hu, hη, show (2 : ℝ) ^ (-1068 : ℤ) = 128 * 2 ^ (-1075 : ℤ) by
    rw [show (-1068 : ℤ) = 7 + (-1075) by norm_num, zpow_add₀ (by norm_num)]; norm_num]
  have : (9 * (8 * (2 : ℝ) ^ (-53 : ℤ)) + 308 * 2 ^ (-53 : ℤ)) ≤ 2 ^ (-44 : ℤ) := by norm_num
  have := mul_le_mul_of_nonneg_right this L0
  have : (0 : ℝ) < 2 ^ (-1075 : ℤ) := by positivity
  linarith

/-- C101 for `f64`: two points moved together by up to `2^44` motions keep their distance up to `n (2^-43 L + 2^-1067)`, where `L` is the
sum of the lengths of both points and of all the translations. -/
theorem C101_shape_f64 {ms : List (Quat (Fl Q64) × Mat3x1 (Fl Q64))} {ss : List (ℍ[Q64] × (Fin 3 → Q64))} (h : List.Forall₂ Motion64 ms ss)
    (hn : ms.length ≤ 2 ^ 44) {v v' : Mat3x1 (Fl Q64)} {V V' : Fin 3 → Q64} (hv : v.Holds V) (hv' : v'.Holds V')
    (hB : euc (toR BinQ.real V) + euc (toR BinQ.real V') + (ss.map fun s => euc (toR BinQ.real s.2)).sum ≤ 2 ^ (1000 : ℤ)) :
    ∃ w w' W W', ms.foldlM (fun v m => (m.1.rotateVector v).plus m.2) v = some w ∧ w.Holds W ∧
      ms.foldlM (fun v m => (m.1.rotateVector v).plus m.2) v' = some w' ∧ w'.Holds W' ∧
      |euc (toR BinQ.real W - toR BinQ.real W') - euc (toR BinQ.real V - toR BinQ.real V')| ≤
        ms.length * (2 ^ (-43 : ℤ) * (euc (toR BinQ.real V) + euc (toR BinQ.real V') + (ss.map fun s => euc (toR BinQ.real s.2)).sum) +
          2 ^ (-1067 : ℤ)) := by
  have v0 := euc_nonneg (toR BinQ.real V)
  have v0' := euc_nonneg (toR BinQ.real V')
  obtain ⟨w, W, e, hW, r⟩ := C101_chain_f64 h hn hv (by linarith)
  obtain ⟨w', W', e', hW', r'⟩ := C101_chain_f64 h hn hv' (by linarith)
  refine ⟨w, w', W, W', e, hW, e', hW', ?_⟩
  rw [← Motion.dist_fold h (toR BinQ.real V)]
  set A := ss.foldl (fun x s => rotR (toH BinQ.real s.1) x + toR BinQ.real s.2) (toR BinQ.real V)
  set A' := ss.foldl (fun x s => rotR (toH BinQ.real s.1) x + toR BinQ.real s.2) (toR BinQ.real V')
  have a1 := euc_lip (toR BinQ.real W - toR BinQ.real W') (A - A')
  have a2 := euc_add_le (toR BinQ.real W - A) (A' - toR BinQ.real W')
  rw [euc_sub_comm A', show toR BinQ.real W - A + (A' - toR BinQ.real W') = toR BinQ.real W - toR BinQ.real W' - (A - A') by abel] at a2
  refine a1.trans (a2.trans ((add_le_add r r').trans ?_))
  rw [← mul_add]
  refine mul_le_mul_of_nonneg_left ?_ (by positivity)
  have e1 : (2 : ℝ) ^ (-43 : ℤ) = 2 * 2 ^ (-44 : ℤ) := by norm_num
  have e2 : (2 : ℝ) ^ (-1067 : ℤ) = 2 * 2 ^ (-1068 : ℤ) := by
    rw [show (-1067 : ℤ) = 1 + (-1068) by norm_num, zpow_add₀ (by norm_num)]; norm_num
  rw [e1, e2]
  have : (0 : ℝ) < 2 ^ (-44 : ℤ) := by positivity
  nlinarith

/-- C101 for `f64`: moving a point and undoing the motion gives it back up to `2^-43 (|v| + |t|) + 2^-1067`. -/
theorem C101_undo_f64 {n : Quat (Fl Q64)} {Q : ℍ[Q64]} (hq : Norm64 n Q) {t v : Mat3x1 (Fl Q64)} {T V : Fin 3 → Q64} (ht : t.Holds T)
    (hv : v.Holds V) (hB : euc (toR BinQ.real V) + euc (toR BinQ.real T) ≤ 2 ^ (1000 : ℤ)) :
    ∃ y b D, (n.rotateVector v).plus t = some y ∧ y.minus t = some b ∧ (n.conjugate.rotateVector b).Holds D ∧
      euc (toR BinQ.real D - toR BinQ.real V) ≤ 2 ^ (-43 : ℤ) * (euc (toR BinQ.real V) + euc (toR BinQ.real T)) + 2 ^ (-1067 : ℤ) := by
  obtain ⟨hu, hη⟩ := f64_consts
  obtain ⟨y, b, D, e1, e2, hD, r⟩ := C101_undo_float BinQ.real BinQ.real_strictMono (d := 8 * BinQ.real (u : Q64)) (by rw [hu]; positivity)
    hq.near ht hv (B := Motion.p1000) (by rw [Motion.p1000_real]; exact hB) (f64_vec_range le_rfl) eta_u64 (by rw [hu]; norm_num)
  refine ⟨y, b, D, e1, e2, hD, r.trans ?_⟩
  rw [hu, hη, show (2 : ℝ) ^ (-1067 : ℤ) = 256 * 2 ^ (-1075 : ℤ) by
    rw [show (-1067 : ℤ) = 8 + (-1075) by norm_num, zpow_add₀ (by norm_num)]; norm_num]
  have : (18 * (8 * (2 : ℝ) ^ (-53 : ℤ)) + 620 * 2 ^ (-53 : ℤ)) ≤ 2 ^ (-43 : ℤ) := by norm_num
  have := mul_le_mul_of_nonneg_right this (add_nonneg (euc_nonneg (toR BinQ.real V)) (euc_nonneg (toR BinQ.real T)))
  have : (0 : ℝ) < 2 ^ (-1075 : ℤ) := by positivity
  linarith

theorem norm_one : Norm64 ⟨0, 0, 0, 1⟩ ⟨1, 0, 0, 0⟩ := by
  have z : (0 : Fl Q64).Holds 0 := ⟨rfl, .inr (by decide +kernel)⟩
  refine ⟨⟨0, 0, 0, 1⟩, ⟨z, z, z, one64_holds⟩, fun h => ?_, fun i => ?_, fun i => ?_, by decide +kernel⟩
  · have := congrArg (·.re) h; simp at this
  · fin_cases i
    · exact .inl rfl
    · exact .inl rfl
    · exact .inl rfl
    · refine .inr (show (2 : ℚ) ^ (-511 : ℤ) ≤ |(1 : ℚ)| from ?_)
      rw [abs_one]; exact zpow_le_one_of_nonpos₀ (by norm_num) (by norm_num)
  · have h1 : (1 : ℚ) ≤ 2 ^ (510 : ℤ) := one_le_zpow₀ (by norm_num) (by norm_num)
    fin_cases i
    · exact (show |(0 : ℚ)| ≤ (2 : ℚ) ^ (510 : ℤ) from abs_zero.trans_le (zero_le_one.trans h1))
    · exact (show |(0 : ℚ)| ≤ (2 : ℚ) ^ (510 : ℤ) from abs_zero.trans_le (zero_le_one.trans h1))
    · exact (show |(0 : ℚ)| ≤ (2 : ℚ) ^ (510 : ℤ) from abs_zero.trans_le (zero_le_one.trans h1))
    · exact (show |(1 : ℚ)| ≤ (2 : ℚ) ^ (510 : ℤ) from abs_one.trans_le h1)

/-- C101 is false if the error of moving and undoing is measured by the length of the point alone: moved by `2^60` and back, the point
`(1, 0, 0)` becomes the origin. -/
theorem C101_undo_false : ∃ (n : Quat (Fl Q64)) (Q : ℍ[Q64]) (t v y b : Mat3x1 (Fl Q64)) (T : Fin 3 → Q64), Norm64 n Q ∧ t.Holds T ∧
    v.Holds ![1, 0, 0] ∧ (n.rotateVector v).plus t = some y ∧ y.minus t = some b ∧ (n.conjugate.rotateVector b).Holds ![0, 0, 0] := by
  have e1 : ((⟨0, 0, 0, 1⟩ : Quat (Fl Q64)).rotateVector ⟨#v[1, 0, 0]⟩).plus ⟨#v[.fin (2 ^ 60 : ℚ), 0, 0]⟩ =
    some ⟨#v[.fin (2 ^ 60 : ℚ), 0, 0]⟩ := by decide +kernel
  have e2 : (⟨#v[.fin (2 ^ 60 : ℚ), 0, 0]⟩ : Mat3x1 (Fl Q64)).minus ⟨#v[.fin (2 ^ 60 : ℚ), 0, 0]⟩ = some ⟨#v[0, 0, 0]⟩ := by decide +kernel
  have e3 : (⟨0, 0, 0, 1⟩ : Quat (Fl Q64)).conjugate.rotateVector ⟨#v[0, 0, 0]⟩ = ⟨#v[0, 0, 0]⟩ := by decide +kernel
  refine ⟨⟨0, 0, 0, 1⟩, ⟨1, 0, 0, 0⟩, ⟨#v[.fin (2 ^ 60 : ℚ), 0, 0]⟩, ⟨#v[1, 0, 0]⟩, _, _, ![(2 ^ 60 : ℚ), 0, 0], norm_one, ?_, ?_, e1, e2, ?_⟩
  · exact mk_holds ⟨rfl, .inr (by decide +kernel)⟩ ⟨rfl, .inr (by decide +kernel)⟩ ⟨rfl, .inr (by decide +kernel)⟩
  · exact mk_holds ⟨rfl, .inr (by decide +kernel)⟩ ⟨rfl, .inr (by decide +kernel)⟩ ⟨rfl, .inr (by decide +kernel)⟩
  · rw [e3]
    exact mk_holds ⟨rfl, .inr (by decide +kernel)⟩ ⟨rfl, .inr (by decide +kernel)⟩ ⟨rfl, .inr (by decide +kernel)⟩

/-! ### concrete cases -/

namespace Motion

theorem b405_len : euc (toR BinQ.real B405) ≤ 10 := by
  refine (euc_le_two (B := 5) (by norm_num) fun i => ?_).trans (by norm_num)
  have := BinQ.real_strictMono.monotone (B405_five i)
  rw [map_abs_mono _ BinQ.real_strictMono, map_ofNat] at this
  exact this

theorem big {x : ℝ} (h : x ≤ 10 ^ 8) : x ≤ 2 ^ (1000 : ℤ) :=
  h.trans (le_trans (b := 2 ^ (40 : ℤ)) (by norm_num) (zpow_le_zpow_right₀ (by norm_num) (by norm_num)))

theorem list (n : Quat (Fl Q64)) (h : Norm64 n H2341) (k : ℕ) : List.Forall₂ Motion64 (List.replicate k (n, b405)) (List.replicate k (H2341, B405)) := by
  induction k with
  | zero => exact .nil
  | succ k ih => exact .cons ⟨h, b405_holds⟩ ih

theorem list_sum (k : ℕ) : ((List.replicate k (H2341, B405)).map fun s => euc (toR BinQ.real s.2)).sum ≤ 10 * k := by
  rw [List.map_replicate, List.sum_replicate, nsmul_eq_mul, mul_comm]
  exact mul_le_mul_of_nonneg_right b405_len (by positivity)

theorem list_big {k : ℕ} (hk : k ≤ 10 ^ 6) :
    euc (toR BinQ.real B405) + euc (toR BinQ.real B405) + ((List.replicate k (H2341, B405)).map fun s => euc (toR BinQ.real s.2)).sum ≤
      2 ^ (1000 : ℤ) := by
  have h1 := list_sum k
  have h2 := b405_len
  have h3 : (k : ℝ) ≤ 10 ^ 6 := by exact_mod_cast hk
  exact big (by linarith)

theorem range20 : 1024 * ((20 : Q64) + 1) ≤ (omega : Q64) := f64_vec_range (M := 20) (show (20 : ℚ) ≤ 2 ^ (1000 : ℤ) from
  le_trans (b := 2 ^ (5 : ℤ)) (by norm_num) (zpow_le_zpow_right₀ (by norm_num) (by norm_num)))

end Motion

/-- concrete case: a million motions, a turn about an oblique axis and the translation by `(4, 0, 5)` -/
example := norm_2341.imp fun n h => C101_chain_f64 (Motion.list n h (10 ^ 6)) (by rw [List.length_replicate]; norm_num) b405_holds
  (le_trans (by linarith [euc_nonneg (toR BinQ.real B405)]) (Motion.list_big (k := 10 ^ 6) le_rfl))
example := norm_2341.imp fun n h => C101_shape_f64 (Motion.list n h (10 ^ 6)) (by rw [List.length_replicate]; norm_num) b405_holds
  b405_holds (Motion.list_big le_rfl)
example := norm_2341.imp fun n h => C101_undo_f64 h b405_holds b405_holds (Motion.big (by linarith [Motion.b405_len]))
/-- concrete cases of the general theorems -/
example := norm_2341.imp fun n h => C101_chain BinQ.real BinQ.real_strictMono (d := 8 * BinQ.real (u : Q64)) (by rw [f64_consts.1]; positivity)
  (by rw [f64_consts.1]; norm_num) (Motion.forall_near (Motion.list n h 1)) b405_holds (B := 20) (by
    have h1 := Motion.list_sum 1; have h2 := Motion.b405_len
    rw [List.map_map, map_ofNat]
    refine le_trans (add_le_add h2 h1) ?_
    norm_num)
  (by have := Motion.range20; linarith) eta_u64 (by rw [f64_consts.1]; norm_num)
example := norm_2341.imp fun n h => C101_undo_float BinQ.real BinQ.real_strictMono (d := 8 * BinQ.real (u : Q64)) (by rw [f64_consts.1]; positivity)
  h.near b405_holds b405_holds (B := 20) (by have := Motion.b405_len; rw [map_ofNat]; linarith) Motion.range20 eta_u64
  (by rw [f64_consts.1]; norm_num)

end Mazth
