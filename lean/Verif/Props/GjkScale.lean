import Verif.Props.PowerScaleQuery
import Verif.Props.FloatGjkLoop

/-!
# C94: the collision query of two spheres in another unit of length

If the centres and radii of two spheres are multiplied by `2^k`, the GJK query must give the same answer.  In binary64 it does,
turn by turn, for any number of turns: directions are normalised before use, the support points therefore stay on a fixed
grid, and everything the loop computes in the other unit is an exact multiple of what it computes in the first.
-/

set_option linter.unusedSectionVars false
set_option autoImplicit false

namespace Mazth

open Bin Gjk

namespace GjkScale

open Fl

/-! ### numbers -/

/-- zero or NaN -/
def Zr (x : Fl Q64) : Prop := x = .nan ∨ x.val = some 0

theorem Zr.ext {e b : ℤ} {x : Fl Q64} (h : Zr x) : x.Ext e b := by
  rcases h with rfl | h
  · exact .inr (.inl rfl)
  · exact .inl ⟨0, h, Gr.zero e, by rw [BinQ.q_zero, abs_zero]; exact (pow2_pos b).le⟩

theorem zr_zero (s : Bool) : Zr (Fl.zero s) := by cases s <;> exact .inr rfl

theorem Zr.neg {x : Fl Q64} (h : Zr x) : Zr (-x) := by
  rcases x with _ | s | _ | v
  · exact .inl rfl
  · rcases h with h | h <;> cases h
  · exact .inr rfl
  · rcases h with h | h
    · cases h
    · obtain rfl : v = 0 := Option.some.inj h
      exact .inr rfl

theorem Zr.add {x y : Fl Q64} (hx : Zr x) (hy : Zr y) : Zr (x + y) := by
  rcases x with _ | s | _ | v
  · exact .inl rfl
  · rcases hx with h | h <;> cases h
  all_goals
    rcases y with _ | s | _ | w
    · exact .inl rfl
    · rcases hy with h | h <;> cases h
    all_goals
      (try obtain rfl : v = 0 := by rcases hx with h | h <;> cases h; rfl)
      (try obtain rfl : w = 0 := by rcases hy with h | h <;> cases h; rfl)
      right; decide +kernel

theorem Zr.sub {x y : Fl Q64} (hx : Zr x) (hy : Zr y) : Zr (x - y) := hx.add hy.neg

theorem Zr.mul {x : Fl Q64} (hx : Zr x) (y : Fl Q64) : Zr (x * y) := by
  have e1 (s : Bool) (w : Q64) : Zr (mulFin s 0 w) := by
    unfold mulFin; rw [if_pos (zero_mul w)]; exact zr_zero s
  rcases x with _ | s | _ | v
  · exact .inl rfl
  · rcases hx with h | h <;> cases h
  · rcases y with _ | s | _ | w
    · exact .inl rfl
    · exact .inl rfl
    · exact .inr rfl
    · exact e1 _ w
  · obtain rfl : v = 0 := by rcases hx with h | h <;> cases h; rfl
    rcases y with _ | s | _ | w
    · exact .inl rfl
    · left
      show mulInf (xor (decide ((0 : Q64) < 0)) s) (0 : Q64) = _
      unfold mulInf; rw [if_pos rfl]
    · exact e1 (!(decide ((0 : Q64) < 0))) 0
    · exact e1 _ w

theorem Zr.mul_right {y : Fl Q64} (x : Fl Q64) (hy : Zr y) : Zr (x * y) := by
  rw [Fl.mul_comm']; exact hy.mul x

theorem Zr.div {x : Fl Q64} (hx : Zr x) (y : Fl Q64) : Zr (x / y) := by
  have e1 (s : Bool) (w : Q64) : Zr (divFin s 0 w) := by
    unfold divFin
    by_cases h : w = 0
    · rw [if_pos h, if_pos rfl]; exact .inl rfl
    · rw [if_neg h, if_pos rfl]; exact zr_zero s
  rcases x with _ | s | _ | v
  · exact .inl rfl
  · rcases hx with h | h <;> cases h
  · rcases y with _ | s | _ | w
    · exact .inl rfl
    · exact zr_zero _
    · exact .inl rfl
    · exact e1 _ w
  · obtain rfl : v = 0 := by rcases hx with h | h <;> cases h; rfl
    rcases y with _ | s | _ | w
    · exact .inl rfl
    · exact zr_zero _
    · exact e1 (!(decide ((0 : Q64) < 0))) 0
    · exact e1 _ w

/-- a sum with one term not small, for rational values -/
theorem gr_absorb {x y : ℚ} {k : ℤ} (hx : Fl.Rep (K := Q64) x) (hy : Fl.Rep (K := Q64) y) (h : pow2 k ≤ |x|) :
    Gr (k - 53) (rndQ 53 (-1074) (x + y)) := by
  have ha' := Gr.of_rep (p := 53) (emin := -1074) (emax := 1024) hx h
  rcases le_or_gt (pow2 (k - 1)) |y| with hb | hb
  · have hb' := Gr.of_rep (p := 53) (emin := -1074) (emax := 1024) hy hb
    exact ((ha'.mono (by push_cast; omega)).add (hb'.mono (by push_cast; omega))).rnd
  · refine Gr.mono (Gr.rnd_big (k := k - 1) ?_) (by push_cast; omega)
    have h1 : pow2 k = 2 * pow2 (k - 1) := by
      rw [← pow2_one, ← pow2_add]; congr 1; ring
    have h2 := abs_sub_abs_le_abs_sub x (-y)
    rw [abs_neg, sub_neg_eq_add] at h2
    linarith

theorem abs_rnd (v : ℚ) : |rndQ 53 (-1074) v| = rndQ 53 (-1074) |v| := by
  rcases le_total 0 v with h | h
  · rw [abs_of_nonneg h, abs_of_nonneg (rndQ_nonneg h)]
  · rw [abs_of_nonpos h, rndQ_neg, abs_of_nonpos]
    have := rndQ_nonneg (p := 53) (emin := -1074) (v := -v) (by linarith)
    rw [rndQ_neg] at this; linarith

theorem le_abs_rnd {v : ℚ} {k : ℤ} (h : pow2 k ≤ |v|) (hk : -1074 ≤ k) : pow2 k ≤ |rndQ 53 (-1074) v| := by
  rw [abs_rnd]; exact pow2_le_rnd h hk

theorem abs_rnd_le {v : ℚ} {k : ℤ} (h : |v| ≤ pow2 k) (hk : -1074 ≤ k) : |rndQ 53 (-1074) v| ≤ pow2 k := by
  rw [abs_rnd]
  rcases (abs_nonneg v).eq_or_lt with h0 | h0
  · rw [← h0, rndQ_zero]; exact (pow2_pos k).le
  · rw [← rndQ_pow2 (p := 53) (emin := -1074) (by norm_num) hk]
    exact rndQ_mono_pos (by norm_num) h0 h

theorem within_gr {M : ℤ} {c : Fl Q64} (h : c.Within M) {a : Q64} (ha : c.Is a) : Gr (-(M + 52)) a.q := by
  rcases h.2 a ha with h0 | ⟨h1, h2⟩
  · rw [h0]; exact Gr.zero _
  · have := Gr.of_rep (p := 53) (emin := -1074) (emax := 1024) (v := a.q) (ha.wf_rep h.1) h1
    exact this.mono (by push_cast; omega)

/-- One coordinate of the support point of the Minkowski difference is on the grid `2^-114`, however small the coordinate of
the direction, if one of the centres is off the origin along this axis. -/
theorem coord_gr {M : ℤ} (hM : 0 ≤ M) (hM' : 3 * M ≤ 125) {c0 c1 r0 r1 n : Fl Q64} (hc0 : c0.Within M) (hc1 : c1.Within M) (hr0 : r0.Within M) (hr1 : r1.Within M)
    (h : ¬(c0.val = some 0 ∧ c1.val = some 0)) {a : Q64} (ha : ((c0 + n * r0) - (c1 + -n * r1)).Is a) : Gr (-(3 * M + 54)) a.q := by
  obtain ⟨u0, u1, h0, h1⟩ := Fl.sub_finite ha
  obtain ⟨g0, w0, hg0, hw0⟩ := Fl.add_finite h0
  obtain ⟨g1, w1, hg1, hw1⟩ := Fl.add_finite h1
  obtain ⟨ν, ρ0, hν, hρ0⟩ := Fl.mul_finite hw0
  obtain ⟨ν', ρ1, hν', hρ1⟩ := Fl.mul_finite hw1
  have eν : ν' = -ν := Option.some.inj (hν'.symm.trans hν.kneg)
  subst eν
  have R0 := h0.wf_rep (wf_add _ _)
  have R1 := h1.wf_rep (wf_add _ _)
  have ea := Fl.sub_rndQ h0 h1 ha
  have e0 := Fl.add_rndQ hg0 hw0 h0
  have e1 := Fl.add_rndQ hg1 hw1 h1
  have f0 := Fl.mul_rndQ hν hρ0 hw0
  have f1 := Fl.mul_rndQ hν' hρ1 hw1
  have G0 := within_gr hc0 hg0
  have G1 := within_gr hc1 hg1
  have eneg : |(-ν).q| = |ν.q| := abs_neg ν.q
  rcases le_total (pow2 (-(2 * M + 2))) |ν.q| with hb | hb
  · have key (ρ μ : Q64) (hμ : pow2 (-(2 * M + 2)) ≤ |μ.q|) (hρ : ρ.q = 0 ∨ pow2 (-M) ≤ |ρ.q| ∧ |ρ.q| ≤ pow2 M) : Gr (-(3 * M + 54)) (rndQ 53 (-1074) (μ.q * ρ.q)) := by
      rcases hρ with h | ⟨h, -⟩
      · rw [h, mul_zero, rndQ_zero]; exact Gr.zero _
      · refine Gr.mono (Gr.rnd_big (k := -(3 * M + 2)) ?_) (by push_cast; omega)
        rw [abs_mul, show -(3 * M + 2) = -(2 * M + 2) + -M by ring, pow2_add]
        exact mul_le_mul hμ h (pow2_pos _).le (abs_nonneg _)
    rw [ea, e0, e1, f0, f1]
    exact (((G0.mono (by omega)).add (key ρ0 ν hb (hr0.2 _ hρ0))).rnd.add ((G1.mono (by omega)).add (key ρ1 (-ν) (by rw [eneg]; exact hb) (hr1.2 _ hρ1))).rnd.neg).rnd
  · have small (ρ μ : Q64) (hμ : |μ.q| ≤ pow2 (-(2 * M + 2))) (hρ : ρ.q = 0 ∨ pow2 (-M) ≤ |ρ.q| ∧ |ρ.q| ≤ pow2 M) : |rndQ 53 (-1074) (μ.q * ρ.q)| ≤ pow2 (-(M + 2)) := by
      refine abs_rnd_le ?_ (by omega)
      have : |ρ.q| ≤ pow2 M := by
        rcases hρ with h | ⟨-, h⟩
        · rw [h, abs_zero]; exact (pow2_pos _).le
        · exact h
      rw [abs_mul, show -(M + 2) = -(2 * M + 2) + M by ring, pow2_add]
      exact mul_le_mul hμ this (abs_nonneg _) (pow2_pos _).le
    have big {γ ω : ℚ} (hγ : pow2 (-M) ≤ |γ|) (hω : |ω| ≤ pow2 (-(M + 2))) : pow2 (-(M + 1)) ≤ |rndQ 53 (-1074) (γ + ω)| := by
      refine le_abs_rnd ?_ (by omega)
      have h2 := abs_sub_abs_le_abs_sub γ (-ω)
      rw [abs_neg, sub_neg_eq_add] at h2
      have p1 : pow2 (-M) = 4 * pow2 (-(M + 2)) := by
        rw [show (4 : ℚ) = pow2 2 by decide +kernel, ← pow2_add]; congr 1; ring
      have p2 : pow2 (-(M + 1)) = 2 * pow2 (-(M + 2)) := by
        rw [← pow2_one, ← pow2_add]; congr 1; ring
      have := pow2_pos (-(M + 2))
      linarith
    have s0 := small ρ0 ν hb (hr0.2 _ hρ0)
    have s1 := small ρ1 (-ν) (by rw [eneg]; exact hb) (hr1.2 _ hρ1)
    rw [← f0] at s0
    rw [← f1] at s1
    rw [ea]
    by_cases hz : c0.val = some 0
    · have hz1 : ¬ c1.val = some 0 := fun h1 => h ⟨hz, h1⟩
      have b1 := (hc1.2 _ hg1).resolve_left fun h0 => hz1 (by rw [show c1.val = some g1 from hg1]; exact congrArg some (BinQ.q_inj h0))
      have := big b1.1 s1
      rw [← e1] at this
      rw [add_comm u0.q]
      refine (gr_absorb (k := -(M + 1)) ?_ R0 (by rw [abs_neg]; exact this)).mono (by omega)
      exact h1.kneg.wf_rep (wf_add _ _).neg
    · have b0 := (hc0.2 _ hg0).resolve_left fun h0 => hz (by rw [show c0.val = some g0 from hg0]; exact congrArg some (BinQ.q_inj h0))
      have := big b0.1 s0
      rw [← e0] at this
      exact (gr_absorb (k := -(M + 1)) R0 (h1.kneg.wf_rep (wf_add _ _).neg) this).mono (by omega)

theorem ext_gr {x : Fl Q64} {e f b : ℤ} (h : x.Ext e b) (hg : ∀ a : Q64, x.Is a → Gr f a.q) : x.Ext f b := by
  rcases h with ⟨a, h1, -, h3⟩ | h
  · exact .inl ⟨a, h1, hg a h1, h3⟩
  · exact .inr h

/-! ### support points -/

section
variable {k M : ℤ} (hM : 0 ≤ M) (hk : 3 * M - k ≤ 125) (hk' : 3 * M + k ≤ 125)

include hM hk hk' in
theorem coord_sc {c0 c1 r0 r1 n c0' c1' r0' r1' n' : Fl Q64} (hc0 : c0.Within M) (hc1 : c1.Within M) (hr0 : r0.Within M) (hr1 : r1.Within M)
    (sc0 : Fl.Sc (-(M + 52)) M k c0 c0') (sc1 : Fl.Sc (-(M + 52)) M k c1 c1') (sr0 : Fl.Sc (-(M + 52)) M k r0 r0') (sr1 : Fl.Sc (-(M + 52)) M k r1 r1')
    (hn : Fl.Sc (-(12 * M + 230)) 1 0 n n') (h : c0.val = some 0 ∧ c1.val = some 0 → Zr n) :
    Fl.Sc (-(3 * M + 54)) (M + 3) k ((c0 + n * r0) - (c1 + -n * r1)) ((c0' + n' * r0') - (c1' + -n' * r1')) ∧
      (c0.val = some 0 ∧ c1.val = some 0 → Zr ((c0 + n * r0) - (c1 + -n * r1))) := by
  have z : c0.val = some 0 ∧ c1.val = some 0 → Zr ((c0 + n * r0) - (c1 + -n * r1)) := fun h0 =>
    (Zr.add (.inr h0.1) ((h h0).mul _)).sub (Zr.add (.inr h0.2) ((h h0).neg.mul _))
  have q0 : Fl.Sc (-(13 * M + 282)) (M + 1) k (n * r0) (n' * r0') := ((hn.mul sr0).cast (n := k)).mono
  have q1 : Fl.Sc (-(13 * M + 282)) (M + 1) k (-n * r1) (-n' * r1') := ((hn.neg.mul sr1).cast (n := k)).mono
  have p0 : Fl.Sc (-(13 * M + 282)) (M + 2) k (c0 + n * r0) (c0' + n' * r0') := (sc0.add q0).mono
  have p1 : Fl.Sc (-(13 * M + 282)) (M + 2) k (c1 + -n * r1) (c1' + -n' * r1') := (sc1.add q1).mono
  have x : Fl.Sc (-(13 * M + 282)) (M + 3) k ((c0 + n * r0) - (c1 + -n * r1)) ((c0' + n' * r0') - (c1' + -n' * r1')) := (p0.sub p1).mono
  refine ⟨⟨?_, x.2⟩, z⟩
  by_cases hb : c0.val = some 0 ∧ c1.val = some 0
  · exact (z hb).ext
  · exact ext_gr x.1 fun a ha => coord_gr hM (by omega) hc0 hc1 hr0 hr1 hb ha

end

/-- data of the format in all coordinates -/
def WFv (v : V3 Q64) : Prop := v.val[0].WF ∧ v.val[1].WF ∧ v.val[2].WF

theorem scl_neg {v : V3 Q64} (h : WFv v) : V3.scl v (-1) = ⟨#v[-v.val[0], -v.val[1], -v.val[2]]⟩ := by
  have e {x : Fl Q64} (h : x.WF) : x * (-1) = -x := by
    show x * -1 = -x
    rw [mul_neg', mul_one' h]
  unfold V3.scl
  rw [e h.1, e h.2.1, e h.2.2]

theorem mag_neg {v : V3 Q64} (h : WFv v) : V3.mag (V3.scl v (-1)) = V3.mag v := by
  rw [scl_neg h]
  show Fl.sqrt (-v.val[0] * -v.val[0] + -v.val[1] * -v.val[1] + -v.val[2] * -v.val[2]) = Fl.sqrt (v.val[0] * v.val[0] + v.val[1] * v.val[1] + v.val[2] * v.val[2])
  rw [neg_mul_neg', neg_mul_neg', neg_mul_neg']

theorem nrm_neg {v : V3 Q64} (h : WFv v) : V3.nrm (V3.scl v (-1)) = ⟨#v[-(V3.nrm v).val[0], -(V3.nrm v).val[1], -(V3.nrm v).val[2]]⟩ := by
  unfold V3.nrm
  rw [mag_neg h, scl_neg h]
  show (⟨#v[-v.val[0] / _, -v.val[1] / _, -v.val[2] / _]⟩ : V3 Q64) = ⟨#v[-(v.val[0] / _), -(v.val[1] / _), -(v.val[2] / _)]⟩
  rw [Fl.neg_div', Fl.neg_div', Fl.neg_div']

/-- the support point of the Minkowski difference as computed -/
def sup (s t : Sphere Q64) (d : V3 Q64) : V3 Q64 :=
  let n := V3.nrm d
  ⟨#v[(s.ori.val[0] + n.val[0] * s.radius) - (t.ori.val[0] + -n.val[0] * t.radius),
      (s.ori.val[1] + n.val[1] * s.radius) - (t.ori.val[1] + -n.val[1] * t.radius),
      (s.ori.val[2] + n.val[2] * s.radius) - (t.ori.val[2] + -n.val[2] * t.radius)]⟩

theorem magNz (v : V3 Q64) : magnitudeNonzero v = !Fl.feq (V3.mag v) 0 := by
  unfold magnitudeNonzero; rw [V3.magnitude_eq]

theorem support_eq (s t : Sphere Q64) {d : V3 Q64} (h : WFv d) :
    support (.sphere s) (.sphere t) d = .ok (if Fl.feq (V3.mag d) 0 = true then none else some (sup s t d)) := by
  have key (s : Sphere Q64) (v : V3 Q64) : (Shape.sphere s).getSupport v = .ok (if Fl.feq (V3.mag v) 0 = true then none else some (V3.add s.ori (V3.scl (V3.nrm v) s.radius))) := by
    show Sphere.getSupport s v = _
    unfold Sphere.getSupport
    rw [magNz]
    cases Fl.feq (V3.mag v) 0
    · simp [V3.normalize_eq, V3.scale_eq, V3.plus_eq]
    · rfl
  unfold support
  rw [key, Res.ok_bind]
  cases hm : Fl.feq (V3.mag d) 0
  · simp only [Bool.false_eq_true, if_false, V3.scale_eq, unwrap_some, Res.ok_bind]
    rw [key, mag_neg h, hm, Res.ok_bind]
    simp only [Bool.false_eq_true, if_false, V3.minus_eq, unwrap_some, Res.ok_bind]
    rw [nrm_neg h]; rfl
  · rfl

/-! ### the loop -/

/-- zero along the second and third axis, if so required -/
def Zs (b c : Prop) (v : V3 Q64) : Prop := (b → Zr v.val[1]) ∧ (c → Zr v.val[2])

/-- a corner of the simplex in two units -/
def Pt (M k : ℤ) (b c : Prop) (p p' : V3 Q64) : Prop := V3.Sc (-(3 * M + 54)) (M + 3) k p p' ∧ Zs b c p

/-- a search direction in two units -/
def Dir (M k : ℤ) (b c : Prop) (d d' : V3 Q64) : Prop :=
  (∃ m, (m = 0 ∨ m = 3 * k) ∧ V3.Sc (-(9 * M + 162)) (3 * M + 14) m d d') ∧ WFv d ∧ WFv d' ∧ Zs b c d

/-- two spheres of moderate size in two units -/
structure Balls (M k : ℤ) (s t s' t' : Sphere Q64) : Prop where
  ws : (s.ori.val[0].Within M ∧ s.ori.val[1].Within M ∧ s.ori.val[2].Within M) ∧ s.radius.Within M
  wt : (t.ori.val[0].Within M ∧ t.ori.val[1].Within M ∧ t.ori.val[2].Within M) ∧ t.radius.Within M
  ss : V3.Sc (-(M + 52)) M k s.ori s'.ori ∧ Fl.Sc (-(M + 52)) M k s.radius s'.radius
  st : V3.Sc (-(M + 52)) M k t.ori t'.ori ∧ Fl.Sc (-(M + 52)) M k t.radius t'.radius
  off : ¬(s.ori.val[0].val = some 0 ∧ t.ori.val[0].val = some 0)

section
variable {k M : ℤ} {b c : Prop}

theorem wfv_scl (u : V3 Q64) (x : Fl Q64) : WFv (V3.scl u x) := ⟨wf_mul _ _, wf_mul _ _, wf_mul _ _⟩

theorem wfv_crs (u v : V3 Q64) : WFv (V3.crs u v) := ⟨wf_sub _ _, wf_sub _ _, wf_sub _ _⟩

theorem Zs.sub {u v : V3 Q64} (hu : Zs b c u) (hv : Zs b c v) : Zs b c (V3.sub u v) :=
  ⟨fun h => (hu.1 h).sub (hv.1 h), fun h => (hu.2 h).sub (hv.2 h)⟩

theorem Zs.scl {u : V3 Q64} (hu : Zs b c u) (x : Fl Q64) : Zs b c (V3.scl u x) := ⟨fun h => (hu.1 h).mul x, fun h => (hu.2 h).mul x⟩

/-- a direction in the plane of two vectors has no component along an axis along which they have none -/
theorem Zs.tri {u v : V3 Q64} (hu : Zs b c u) (hv : Zs b c v) : Zs b c (V3.crs (V3.crs u v) v) := by
  constructor
  · intro h
    have h0 : Zr (V3.crs u v).val[0] := ((hu.1 h).mul _).sub ((hv.1 h).mul_right _)
    have h2 : Zr (V3.crs u v).val[2] := ((hv.1 h).mul_right _).sub ((hu.1 h).mul _)
    exact (h2.mul _).sub (h0.mul _)
  · intro h
    have h0 : Zr (V3.crs u v).val[0] := ((hv.2 h).mul_right _).sub ((hu.2 h).mul _)
    have h1 : Zr (V3.crs u v).val[1] := ((hu.2 h).mul _).sub ((hv.2 h).mul_right _)
    exact (h0.mul _).sub (h1.mul _)

variable (hM : 0 ≤ M) (hk : 3 * M - k ≤ 125) (hk' : 3 * M + k ≤ 125)
include hM hk hk'

theorem tri_dir {u v u' v' : V3 Q64} (hu : V3.Sc (-(3 * M + 54)) (M + 4) k u u') (hv : V3.Sc (-(3 * M + 54)) (M + 4) k v v') (zu : Zs b c u) (zv : Zs b c v) :
    Dir M k b c (V3.crs (V3.crs u v) v) (V3.crs (V3.crs u' v') v') :=
  ⟨⟨3 * k, .inr rfl, (((hu.crs hv).crs hv).cast (n := 3 * k)).mono⟩, wfv_crs _ _, wfv_crs _ _, zu.tri zv⟩

theorem Pt.sub {p p' q q' : V3 Q64} (hp : Pt M k b c p p') (hq : Pt M k b c q q') : V3.Sc (-(3 * M + 54)) (M + 4) k (V3.sub p q) (V3.sub p' q') ∧ Zs b c (V3.sub p q) :=
  ⟨(hp.1.sub hq.1).mono, hp.2.sub hq.2⟩

theorem Pt.opp {p p' : V3 Q64} (hp : Pt M k b c p p') : V3.Sc (-(3 * M + 54)) (M + 4) k (V3.scl p (-1)) (V3.scl p' (-1)) ∧ Zs b c (V3.scl p (-1)) :=
  ⟨((hp.1.scl (Fl.Sc.of_ext (e := 0) (b := 0) (x := -1) (.inl (Rg.one le_rfl le_rfl).neg))).cast (n := k)).mono, hp.2.scl _⟩

theorem Dir.dot {p p' d d' : V3 Q64} (hp : Pt M k b c p p') (hd : Dir M k b c d d') : Fl.lt 0 (V3.dotp p' d') = Fl.lt 0 (V3.dotp p d) := by
  obtain ⟨⟨m, hm, h⟩, -⟩ := hd
  have := hp.1
  rcases hm with rfl | rfl <;> exact (this.dot h).gt0

theorem Dir.dot_opp {p p' d d' : V3 Q64} (hp : Pt M k b c p p') (hd : Dir M k b c d d') :
    Fl.lt 0 (V3.dotp d' (V3.scl p' (-1))) = Fl.lt 0 (V3.dotp d (V3.scl p (-1))) := by
  have hp := (hp.opp hM hk hk').1
  obtain ⟨⟨m, hm, h⟩, -⟩ := hd
  rcases hm with rfl | rfl <;> exact (h.dot hp).gt0

theorem Dir.mag0 {d d' : V3 Q64} (hd : Dir M k b c d d') : Fl.feq (V3.mag d') 0 = Fl.feq (V3.mag d) 0 := by
  obtain ⟨⟨m, hm, h⟩, -⟩ := hd
  rcases hm with rfl | rfl <;> exact h.mag.feq0

theorem Dir.nrm {d d' : V3 Q64} (hd : Dir M k b c d d') : V3.Sc (-(12 * M + 230)) 1 0 (V3.nrm d) (V3.nrm d') ∧ Zs b c (V3.nrm d) := by
  refine ⟨?_, fun h => (hd.2.2.2.1 h).div _, fun h => (hd.2.2.2.2 h).div _⟩
  obtain ⟨⟨m, hm, h⟩, -⟩ := hd
  rcases hm with rfl | rfl <;> exact h.nrm.mono

theorem sup_sc {s t s' t' : Sphere Q64} (H : Balls M k s t s' t') {d d' : V3 Q64}
    (hd : Dir M k (s.ori.val[1].val = some 0 ∧ t.ori.val[1].val = some 0) (s.ori.val[2].val = some 0 ∧ t.ori.val[2].val = some 0) d d') :
    Pt M k (s.ori.val[1].val = some 0 ∧ t.ori.val[1].val = some 0) (s.ori.val[2].val = some 0 ∧ t.ori.val[2].val = some 0) (sup s t d) (sup s' t' d') := by
  obtain ⟨⟨n0, n1, n2⟩, z1, z2⟩ := hd.nrm hM hk hk'
  obtain ⟨⟨⟨a0, a1, a2⟩, ar⟩, ⟨⟨b0, b1, b2⟩, br⟩, ⟨⟨c0, c1, c2⟩, cr⟩, ⟨⟨e0, e1, e2⟩, er⟩, off⟩ := H
  obtain ⟨x0, -⟩ := coord_sc hM hk hk' a0 b0 ar br c0 e0 cr er n0 fun h => absurd h off
  obtain ⟨x1, y1⟩ := coord_sc hM hk hk' a1 b1 ar br c1 e1 cr er n1 z1
  obtain ⟨x2, y2⟩ := coord_sc hM hk hk' a2 b2 ar br c2 e2 cr er n2 z2
  exact ⟨⟨x0, x1, x2⟩, y1, y2⟩

omit hM hk hk' in
theorem none_bind {α β : Type} (f : α → Res β) : (unwrap (none : Option α) >>= f) = .error .unwrapNone := rfl

omit hM hk hk' in
theorem step_no (a b : Shape Q64) (n : ℕ) (l : List (V3 Q64)) (d : V3 Q64) :
    ((Except.ok (false, l, d) : Res (Bool × List (V3 Q64) × V3 Q64)) >>= fun r => if r.1 then .ok (some true) else queryLoop a b n r.2.1 r.2.2) = queryLoop a b n l d := by
  rw [Res.ok_bind]; simp only [Bool.false_eq_true, if_false]

omit hM hk hk' in
theorem step_yes (a b : Shape Q64) (n : ℕ) (l : List (V3 Q64)) (d : V3 Q64) :
    ((Except.ok (true, l, d) : Res (Bool × List (V3 Q64) × V3 Q64)) >>= fun r => if r.1 then .ok (some true) else queryLoop a b n r.2.1 r.2.2) = .ok (some true) := by
  rw [Res.ok_bind]; simp only [if_true]

theorem loop_sc {s t s' t' : Sphere Q64} (H : Balls M k s t s' t') (n : ℕ) : ∀ {l l' : List (V3 Q64)} {d d' : V3 Q64},
    l.length = 1 ∨ l.length = 2 →
    List.Forall₂ (Pt M k (s.ori.val[1].val = some 0 ∧ t.ori.val[1].val = some 0) (s.ori.val[2].val = some 0 ∧ t.ori.val[2].val = some 0)) l l' →
    Dir M k (s.ori.val[1].val = some 0 ∧ t.ori.val[1].val = some 0) (s.ori.val[2].val = some 0 ∧ t.ori.val[2].val = some 0) d d' →
    queryLoop (.sphere s') (.sphere t') n l' d' = queryLoop (.sphere s) (.sphere t) n l d := by
  induction n with
  | zero => intros; rfl
  | succ n ih =>
    intro l l' d d' hl hp hd
    have hll := hp.length_eq
    have e := support_eq s t hd.2.1
    have e' := support_eq s' t' hd.2.2.1
    rw [hd.mag0 hM hk hk'] at e'
    have hs := sup_sc hM hk hk' H hd
    generalize sup s t d = x at e hs
    generalize sup s' t' d' = x' at e' hs
    cases hm : Fl.feq (V3.mag d) 0
    · rw [hm, if_neg Bool.false_ne_true] at e e'
      rw [queryLoop_succ _ _ n l (by omega) d x e, queryLoop_succ _ _ n l' (by omega) d' x' e', hd.dot hM hk hk' hs]
      cases Fl.lt 0 (V3.dotp x d)
      · rw [if_neg Bool.false_ne_true, if_neg Bool.false_ne_true]
      · rw [if_pos rfl, if_pos rfl]
        rcases hl with hl | hl
        · obtain ⟨p, rfl⟩ := List.length_eq_one_iff.mp hl
          obtain ⟨p', rfl⟩ := List.length_eq_one_iff.mp (hll ▸ hl)
          cases hp with
          | cons hp _ =>
          rw [List.singleton_append, List.singleton_append, contains2, contains2]
          have hD := tri_dir hM hk hk' (hp.sub hM hk hk' hs).1 (hs.opp hM hk hk').1 (hp.sub hM hk hk' hs).2 (hs.opp hM hk hk').2
          rw [hD.mag0 hM hk hk']
          cases Fl.feq (V3.mag (V3.crs (V3.crs (V3.sub p x) (V3.scl x (-1))) (V3.scl x (-1)))) 0
          · rw [if_neg Bool.false_ne_true, if_neg Bool.false_ne_true, step_no, step_no]
            exact ih (.inr rfl) (.cons hp (.cons hs .nil)) hD
          · rw [if_pos rfl, if_pos rfl, step_yes, step_yes]
        · obtain ⟨p, q, rfl⟩ := List.length_eq_two.mp hl
          obtain ⟨p', q', rfl⟩ := List.length_eq_two.mp (hll ▸ hl)
          cases hp with
          | cons hp hq =>
          cases hq with
          | cons hq _ =>
          rw [List.cons_append, List.singleton_append, List.cons_append, List.singleton_append, contains3, contains3]
          have hpx := hp.sub hM hk hk' hs
          have hqx := hq.sub hM hk hk' hs
          have hD1 := tri_dir hM hk hk' hpx.1 hqx.1 hpx.2 hqx.2
          have hD2 := tri_dir hM hk hk' hqx.1 hpx.1 hqx.2 hpx.2
          rw [hD1.dot_opp hM hk hk' hs, hD2.dot_opp hM hk hk' hs]
          cases Fl.lt 0 (V3.dotp (V3.crs (V3.crs (V3.sub p x) (V3.sub q x)) (V3.sub q x)) (V3.scl x (-1)))
          · cases Fl.lt 0 (V3.dotp (V3.crs (V3.crs (V3.sub q x) (V3.sub p x)) (V3.sub p x)) (V3.scl x (-1)))
            · rw [if_neg Bool.false_ne_true, if_neg Bool.false_ne_true, if_neg Bool.false_ne_true, if_neg Bool.false_ne_true, step_yes, step_yes]
            · rw [if_neg Bool.false_ne_true, if_neg Bool.false_ne_true, if_pos rfl, if_pos rfl, step_no, step_no]
              exact ih (.inr rfl) (.cons hp (.cons hs .nil)) hD2
          · rw [if_pos rfl, if_pos rfl, step_no, step_no]
            exact ih (.inr rfl) (.cons hq (.cons hs .nil)) hD1
    · rw [hm] at e e'
      rw [queryLoop, queryLoop, e, e', Res.ok_bind, Res.ok_bind, if_pos rfl, if_pos rfl, none_bind, none_bind]

theorem start_sc {s t s' t' : Sphere Q64} (H : Balls M k s t s' t') (n : ℕ) {d : V3 Q64}
    (d1 : Dir M k (s.ori.val[1].val = some 0 ∧ t.ori.val[1].val = some 0) (s.ori.val[2].val = some 0 ∧ t.ori.val[2].val = some 0) d d)
    (d2 : Dir M k (s.ori.val[1].val = some 0 ∧ t.ori.val[1].val = some 0) (s.ori.val[2].val = some 0 ∧ t.ori.val[2].val = some 0) (V3.scl d (-1)) (V3.scl d (-1))) :
    (do let x ← unwrap (← support (.sphere s') (.sphere t') d); let d ← unwrap (d.scale (-1)); queryLoop (.sphere s') (.sphere t') n [x] d) =
    (do let x ← unwrap (← support (.sphere s) (.sphere t) d); let d ← unwrap (d.scale (-1)); queryLoop (.sphere s) (.sphere t) n [x] d) := by
  rw [support_eq s t d1.2.1, support_eq s' t' d1.2.1]
  cases Fl.feq (V3.mag d) 0
  · simp only [Bool.false_eq_true, if_false, Res.ok_bind, unwrap_some, V3.scale_eq]
    exact loop_sc hM hk hk' H n (.inl rfl) (.cons (sup_sc hM hk hk' H d1) .nil) d2
  · simp only [if_true, Res.ok_bind, none_bind]

theorem query_sc {s t s' t' : Sphere Q64} (H : Balls M k s t s' t') (n : ℕ) :
    queryIntersect n (.sphere s') (.sphere t') = queryIntersect n (.sphere s) (.sphere t) := by
  have wm : (-1 : Fl Q64).WF := by right; decide +kernel
  refine start_sc hM hk hk' H n (d := ⟨#v[-1, 0, 0]⟩) ?_ ?_
  · exact ⟨⟨0, .inl rfl, .of_ext (.inl (Rg.one (by omega) (by omega)).neg), .zero, .zero⟩, ⟨wm, .inl rfl, .inl rfl⟩, ⟨wm, .inl rfl, .inl rfl⟩,
      fun _ => .inr rfl, fun _ => .inr rfl⟩
  · have r0 : (-1 : Fl Q64).Ext 0 0 := .inl (Rg.one le_rfl le_rfl).neg
    exact ⟨⟨0, .inl rfl, (V3.Sc.scl (m := 0) (n := 0) (u := ⟨#v[-1, 0, 0]⟩) (u' := ⟨#v[-1, 0, 0]⟩) ⟨.of_ext r0, .zero, .zero⟩ (.of_ext r0)).mono⟩,
      wfv_scl _ _, wfv_scl _ _, Zs.scl ⟨fun _ => .inr rfl, fun _ => .inr rfl⟩ _⟩

end

end GjkScale
/-! ## C94 -/

/-- C94: in another unit of length (a power of two) the collision query of two spheres gives the same answer or the same panic, after the
same number of turns of its loop; in particular it runs for ever in one unit if and only if it does in the other.  All numbers are zero, not finite
or of size between `2^-m` and `2^m`, the shift `k` satisfies `|k| + 3 m ≤ 125`, and the centres are not both at zero along the first axis. -/
theorem C94_gjk {k m : ℤ} (hm : 0 ≤ m) (hk : |k| + 3 * m ≤ 125) {x y z r x' y' z' r' : Fl Q64} (hs : ∀ v ∈ [x, y, z, r], v.Within m) (ht : ∀ v ∈ [x', y', z', r'], v.Within m)
    (hx : ¬(x.val = some 0 ∧ x'.val = some 0)) {s t : Sphere Q64} (es : Sphere.init [x, y, z] r = .ok s) (et : Sphere.init [x', y', z'] r' = .ok t) :
    ∃ s' t', Sphere.init [Fl.scale2 k x, Fl.scale2 k y, Fl.scale2 k z] (Fl.scale2 k r) = .ok s' ∧
      Sphere.init [Fl.scale2 k x', Fl.scale2 k y', Fl.scale2 k z'] (Fl.scale2 k r') = .ok t' ∧
      ∀ turns, queryIntersect turns (.sphere s') (.sphere t') = queryIntersect turns (.sphere s) (.sphere t) := by
  obtain ⟨k1, k2⟩ := abs_le.mp (show |k| ≤ 125 - 3 * m by omega)
  obtain rfl := Except.ok.inj es
  obtain rfl := Except.ok.inj et
  have e {v : Fl Q64} (h : v.Within m) : Fl.Sc (-(m + 52)) m k v (Fl.scale2 k v) := ⟨PSQ.within_ext h, rfl⟩
  simp only [List.forall_mem_cons] at hs ht
  obtain ⟨h0, h1, h2, h3, -⟩ := hs
  obtain ⟨g0, g1, g2, g3, -⟩ := ht
  refine ⟨_, _, rfl, rfl, fun n => ?_⟩
  apply GjkScale.query_sc hm (show 3 * m - k ≤ 125 by omega) (by omega)
  exact ⟨⟨⟨h0, h1, h2⟩, h3⟩, ⟨⟨g0, g1, g2⟩, g3⟩, ⟨⟨e h0, e h1, e h2⟩, e h3⟩, ⟨⟨e g0, e g1, e g2⟩, e g3⟩, hx⟩

/-! ### concrete cases -/

namespace GjkScale

theorem within_of {M : ℤ} {v : Q64} (hw : Fl.Rep v) (h1 : pow2 (-M) ≤ |v.q|) (h2 : |v.q| ≤ pow2 M) : (Fl.fin v).Within M :=
  ⟨hw, fun a ha => .inr (by obtain rfl : v = a := Option.some.inj ha; exact ⟨h1, h2⟩)⟩

theorem within_zero {M : ℤ} : (0 : Fl Q64).Within M := ⟨.inl rfl, fun a ha => .inl (by obtain rfl : (0 : Q64) = a := Option.some.inj ha; rfl)⟩

end GjkScale

/-- two balls apart, in range; the query says so -/
example : ∃ s t : Sphere Q64, Sphere.init [1, 0, 0] 1 = .ok s ∧ Sphere.init [.fin (3 / 2), .fin 5, 0] 1 = .ok t ∧
    (∀ v ∈ [(1 : Fl Q64), 0, 0, 1], v.Within 20) ∧ (∀ v ∈ [(.fin (3 / 2) : Fl Q64), .fin 5, 0, 1], v.Within 20) ∧
    ¬((1 : Fl Q64).val = some 0 ∧ (Fl.fin (3 / 2) : Fl Q64).val = some 0) ∧
    queryIntersect 5 (.sphere s) (.sphere t) = .ok (some false) := by
  have w1 : (1 : Fl Q64).Within 20 := GjkScale.within_of (.inr (by decide +kernel)) (by decide +kernel) (by decide +kernel)
  refine ⟨_, _, rfl, rfl, ?_, ?_, by decide +kernel, by decide +kernel⟩
  · simp only [List.forall_mem_cons]
    exact ⟨w1, GjkScale.within_zero, GjkScale.within_zero, w1, by simp⟩
  · simp only [List.forall_mem_cons]
    exact ⟨GjkScale.within_of (.inr (by decide +kernel)) (by decide +kernel) (by decide +kernel),
      GjkScale.within_of (.inr (by decide +kernel)) (by decide +kernel) (by decide +kernel), GjkScale.within_zero, w1, by simp⟩

/-- the same in a unit `2^60` times smaller -/
example : ∃ s t : Sphere Q64, Sphere.init [Fl.scale2 60 1, Fl.scale2 60 0, Fl.scale2 60 0] (Fl.scale2 60 1) = .ok s ∧
    Sphere.init [Fl.scale2 60 (.fin (3 / 2)), Fl.scale2 60 (.fin 5), Fl.scale2 60 0] (Fl.scale2 60 1) = .ok t ∧
    queryIntersect 5 (.sphere s) (.sphere t) = .ok (some false) :=
  ⟨_, _, rfl, rfl, by decide +kernel⟩

/-- C94: there are balls clearly apart on which the query runs for ever, in every unit `2^k` with `|k| ≤ 35`
(those of `C83_terminates_false`). -/
theorem C94_forever {k : ℤ} (hk : |k| ≤ 35) : ∃ s t : Sphere Q64,
    Sphere.init [Fl.scale2 k (.fin (16778240 : ℚ)), Fl.scale2 k (.fin (-3 / 1073741824 : ℚ)), Fl.scale2 k (.fin (-5 / 2147483648 : ℚ))]
      (Fl.scale2 k (.fin (16777216 : ℚ))) = .ok s ∧
    Sphere.init [Fl.scale2 k 0, Fl.scale2 k 0, Fl.scale2 k 0] (Fl.scale2 k 0) = .ok t ∧
    ∀ turns, queryIntersect turns (.sphere s) (.sphere t) = .error .diverge := by
  obtain ⟨s, t, es, et, -, -, h⟩ := C83_terminates_false
  have w {v : Q64} := GjkScale.within_of (M := 30) (v := v)
  have z := GjkScale.within_zero (M := 30)
  obtain ⟨s', t', h1, h2, h3⟩ := C94_gjk (k := k) (m := 30) (by norm_num) (by omega)
    (x := .fin (16778240 : ℚ)) (y := .fin (-3 / 1073741824 : ℚ)) (z := .fin (-5 / 2147483648 : ℚ)) (r := .fin (16777216 : ℚ)) (x' := 0) (y' := 0) (z' := 0) (r' := 0)
    (by simp only [List.forall_mem_cons]
        exact ⟨w (.inr (by decide +kernel)) (by decide +kernel) (by decide +kernel), w (.inr (by decide +kernel)) (by decide +kernel) (by decide +kernel),
          w (.inr (by decide +kernel)) (by decide +kernel) (by decide +kernel), w (.inr (by decide +kernel)) (by decide +kernel) (by decide +kernel), by simp⟩)
    (by simp only [List.forall_mem_cons]; exact ⟨z, z, z, z, by simp⟩) (fun h => by
      have := h.1
      revert this
      decide +kernel) es et
  exact ⟨s', t', h1, h2, fun n => (h3 n).trans (h n)⟩

/-- concrete case: unit `2^-10` -/
example := C94_forever (k := -10) (by norm_num)

/-- C94 fails outside the range: the two balls above are apart, but after dividing all lengths by `2^400` the query reports an
intersection, because the search direction is a product of three lengths and becomes zero. -/
theorem C94_range_false : ∃ s t s' t' : Sphere Q64, Sphere.init [1, 0, 0] 1 = .ok s ∧ Sphere.init [.fin (3 / 2), .fin 5, 0] 1 = .ok t ∧
    Sphere.init [Fl.scale2 (-400) 1, Fl.scale2 (-400) 0, Fl.scale2 (-400) 0] (Fl.scale2 (-400) 1) = .ok s' ∧
    Sphere.init [Fl.scale2 (-400) (.fin (3 / 2)), Fl.scale2 (-400) (.fin 5), Fl.scale2 (-400) 0] (Fl.scale2 (-400) 1) = .ok t' ∧
    queryIntersect 5 (.sphere s) (.sphere t) = .ok (some false) ∧ queryIntersect 5 (.sphere s') (.sphere t') = .ok (some true) :=
  ⟨_, _, _, _, rfl, rfl, rfl, rfl, by decide +kernel, by decide +kernel⟩

end Mazth
