import Verif.Props.GjkScale
import Verif.Props.FloatBounds

/-!
# C97: the collision query on two spheres one beside the other along the first axis, in binary64

The query starts along the first axis.  If the first sphere ends before the second begins along that axis it answers at once that they
are apart: for all floats, whatever the other coordinates.  If the centres differ in the first coordinate only and the first centre is the larger
one, it answers at once that they intersect: whatever the distance.
-/

set_option linter.unusedSectionVars false
set_option autoImplicit false

namespace Mazth

open Bin Gjk
open Fl (Same)

namespace GjkAxis

open GjkScale (WFv sup support_eq Zr)

/-! ### zeros -/

theorem z_cases {x : Fl Q64} (h : x.val = some 0) : x = 0 ∨ x = .nzero := NaN.val_zero h

theorem z_add {x y : Fl Q64} (hx : x.val = some 0) (hy : y.val = some 0) : (x + y).val = some 0 := by
  rcases z_cases hx with rfl | rfl <;> rcases z_cases hy with rfl | rfl <;> decide +kernel

theorem z_neg {x : Fl Q64} (hx : x.val = some 0) : (-x).val = some 0 := by
  rcases z_cases hx with rfl | rfl <;> decide +kernel

theorem z_sub {x y : Fl Q64} (hx : x.val = some 0) (hy : y.val = some 0) : (x - y).val = some 0 := z_add hx (z_neg hy)

theorem z_mul {x y : Fl Q64} (hx : x.val = some 0) (hy : y.Finite) : (x * y).val = some 0 := by
  have h := (Fl.zero_mul_same hx (x' := 0) rfl y).trans (Fl.zero_mul_same' hy)
  rcases h with h | h
  · rw [h]; rfl
  · exact h.1

theorem z_mul_right {x y : Fl Q64} (hx : x.val = some 0) (hy : y.Finite) : (y * x).val = some 0 := by
  rw [Fl.mul_comm']; exact z_mul hx hy

theorem z_fin {x : Fl Q64} (h : x.val = some 0) : x.Finite := ⟨0, h⟩

theorem add_z {x y : Fl Q64} (hx : x.WF) (hy : y.val = some 0) : Same (x + y) x := by
  rw [Fl.add_comm']
  refine (Fl.zero_add_same 0 hy rfl x).trans ?_
  exact Fl.zero_add_same' hx

/-- a product with a zero is a zero or not a number -/
theorem zr_mul (x : Fl Q64) {y : Fl Q64} (hy : y.val = some 0) : x * y = .nan ∨ (x * y).val = some 0 := zn_mul_zero x hy

/-- adding zeros or NaNs does not make a number positive -/
theorem not_pos {x y z : Fl Q64} (hx : x.WF) (h : Fl.lt 0 x = false) (hy : y = .nan ∨ y.val = some 0) (hz : z = .nan ∨ z.val = some 0) :
    Fl.lt 0 (x + y + z) = false := by
  have nan_add (w : Fl Q64) : Fl.nan + w = .nan := by cases w <;> rfl
  have add_nan (w : Fl Q64) : w + Fl.nan = .nan := by rw [Fl.add_comm', nan_add]
  rcases hy with rfl | hy
  · rw [add_nan, nan_add]; rfl
  · rcases hz with rfl | hz
    · rw [add_nan]; rfl
    · rw [Fl.lt_same (.refl _) ((add_z (Fl.wf_add x y) hz).trans (add_z hx hy)), h]

theorem pos_of {x y z : Fl Q64} (hx : x.WF) (hy : y.val = some 0) (hz : z.val = some 0) : Fl.lt 0 (x + y + z) = Fl.lt 0 x :=
  Fl.lt_same (.refl _) ((add_z (Fl.wf_add x y) hz).trans (add_z hx hy))

/-! ### the first turn -/

/-- the second search direction -/
def d1 : V3 Q64 := ⟨#v[1, -0, -0]⟩

theorem n0 : V3.nrm (⟨#v[-1, 0, 0]⟩ : V3 Q64) = ⟨#v[-1, 0, 0]⟩ := by decide +kernel
theorem n1 : V3.nrm d1 = d1 := by decide +kernel
theorem m0 : Fl.feq (V3.mag (⟨#v[-1, 0, 0]⟩ : V3 Q64)) 0 = false := by decide +kernel
theorem m1 : Fl.feq (V3.mag d1) 0 = false := by decide +kernel
theorem s0 : V3.scl (⟨#v[-1, 0, 0]⟩ : V3 Q64) (-1) = d1 := by decide +kernel
theorem w0 : WFv (⟨#v[-1, 0, 0]⟩ : V3 Q64) := ⟨by right; decide +kernel, .inl rfl, .inl rfl⟩
theorem neg_zero : (-0 : Fl Q64) = .nzero := by decide +kernel
theorem w1 : WFv d1 := by
  unfold d1
  rw [neg_zero]
  exact ⟨by right; decide +kernel, trivial, trivial⟩

theorem query_eq (n : ℕ) (s t : Sphere Q64) : queryIntersect (n + 1) (.sphere s) (.sphere t) =
    if Fl.lt 0 (V3.dotp (sup s t d1) d1) = true then
      containsMinkowskiOrigin ([sup s t ⟨#v[-1, 0, 0]⟩] ++ [sup s t d1]) d1 >>= fun r =>
        if r.1 then .ok (some true) else queryLoop (.sphere s) (.sphere t) n r.2.1 r.2.2
    else .ok (some false) := by
  have e0 := support_eq s t w0
  have e1 := support_eq s t w1
  rw [m0, if_neg Bool.false_ne_true] at e0
  rw [m1, if_neg Bool.false_ne_true] at e1
  have hq : queryIntersect (n + 1) (.sphere s) (.sphere t) = queryLoop (.sphere s) (.sphere t) (n + 1) [sup s t ⟨#v[-1, 0, 0]⟩] d1 := by
    unfold queryIntersect
    show (support (.sphere s) (.sphere t) ⟨#v[-1, 0, 0]⟩ >>= _) = _
    rw [e0]
    simp only [Res.ok_bind, unwrap_some, V3.scale_eq, s0]
  rw [hq, queryLoop_succ _ _ n _ (by simp) d1 _ e1]

/-- the first coordinate of the second corner -/
theorem sup_x {s t : Sphere Q64} (hr : s.radius.WF) (hr' : t.radius.WF) :
    (sup s t d1).val[0] = (s.ori.val[0] + s.radius) - (t.ori.val[0] - t.radius) := by
  show (s.ori.val[0] + (V3.nrm d1).val[0] * s.radius) - (t.ori.val[0] + -(V3.nrm d1).val[0] * t.radius) = _
  rw [n1]
  show (s.ori.val[0] + (1 : Fl Q64) * s.radius) - (t.ori.val[0] + -(1 : Fl Q64) * t.radius) = _
  rw [Fl.one_mul' hr, Fl.neg_mul', Fl.one_mul' hr']
  rfl

theorem left {s t : Sphere Q64} (hr : s.radius.WF) (hr' : t.radius.WF)
    (h : Fl.lt 0 ((s.ori.val[0] + s.radius) - (t.ori.val[0] - t.radius)) = false) (n : ℕ) :
    queryIntersect (n + 1) (.sphere s) (.sphere t) = .ok (some false) := by
  have e : Fl.lt 0 (V3.dotp (sup s t d1) d1) = false := by
    have hw : ((sup s t d1).val[0]).WF := Fl.wf_sub _ _
    show Fl.lt 0 ((sup s t d1).val[0] * (1 : Fl Q64) + (sup s t d1).val[1] * (-0 : Fl Q64) + (sup s t d1).val[2] * (-0 : Fl Q64)) = false
    rw [Fl.mul_one' hw]
    refine not_pos hw ?_ (zr_mul _ ?_) (zr_mul _ ?_)
    · rw [sup_x hr hr', h]
    · decide +kernel
    · decide +kernel
  rw [query_eq, e, if_neg Bool.false_ne_true]

/-- rounded sums of ordered numbers do not have a positive difference -/
theorem not_pos_of_le {x y : Fl Q64} (h : Fl.le x y = true) : Fl.lt 0 (x - y) = false := by
  rw [Fl.sub_eq]
  cases x with
  | nan => simp at h
  | inf s =>
    cases y with
    | nan => simp at h
    | inf t => cases s <;> cases t <;> first | rfl | (simp [Fl.le] at h)
    | nzero => cases s <;> first | rfl | (simp [Fl.le] at h)
    | fin b =>
      cases s
      · simp [Fl.le] at h
      · show Fl.lt 0 (Fl.add (.inf true) (if b = 0 then Fl.nzero else Fl.fin (-b))) = false
        by_cases hb : b = 0
        · rw [if_pos hb]; rfl
        · rw [if_neg hb]; rfl
  | nzero =>
    cases y with
    | nan => simp at h
    | inf t => cases t <;> first | rfl | (simp [Fl.le] at h)
    | nzero => decide +kernel
    | fin b =>
      have e := ((show (Fl.nzero : Fl Q64).Is 0 from rfl).sub_lit (show (Fl.fin b : Fl Q64).Is b from rfl)).1
      rw [Fl.sub_eq] at e
      have hb : (0 : Q64) - b ≤ 0 := by simp [Fl.le] at h; rw [zero_sub]; exact neg_nonpos.mpr h
      have e2 := Fl.le_trans e (Fl.lit_nonpos_le hb)
      rw [Fl.lt_eq_not_le (by decide) (Fl.le_ne_nan e).1]
      exact congrArg _ e2
  | fin a =>
    cases y with
    | nan => simp at h
    | inf t => cases t <;> first | rfl | (simp [Fl.le] at h)
    | nzero =>
      have e := ((show (Fl.fin a : Fl Q64).Is a from rfl).sub_lit (show (Fl.nzero : Fl Q64).Is 0 from rfl)).1
      rw [Fl.sub_eq] at e
      have hb : a - (0 : Q64) ≤ 0 := by simp [Fl.le] at h; rw [sub_zero]; exact h
      have e2 := Fl.le_trans e (Fl.lit_nonpos_le hb)
      rw [Fl.lt_eq_not_le (by decide) (Fl.le_ne_nan e).1]
      exact congrArg _ e2
    | fin b =>
      have e := ((show (Fl.fin a : Fl Q64).Is a from rfl).sub_lit (show (Fl.fin b : Fl Q64).Is b from rfl)).1
      rw [Fl.sub_eq] at e
      have hb : a - b ≤ 0 := by simp [Fl.le] at h; exact sub_nonpos.mpr h
      have e2 := Fl.le_trans e (Fl.lit_nonpos_le hb)
      rw [Fl.lt_eq_not_le (by decide) (Fl.le_ne_nan e).1]
      exact congrArg _ e2

/-! ### centres that differ in the first coordinate only -/

/-- finite first coordinate, the others zero -/
def OnX (v : V3 Q64) : Prop := v.val[0].Finite ∧ v.val[1].val = some 0 ∧ v.val[2].val = some 0

theorem tri_zero {u v : V3 Q64} (hu : OnX u) (hv : OnX v) : Fl.feq (V3.mag (V3.crs (V3.crs u v) v)) 0 = true := by
  obtain ⟨u0, u1, u2⟩ := hu
  obtain ⟨v0, v1, v2⟩ := hv
  have c0 : (V3.crs u v).val[0].val = some 0 := z_sub (z_mul u1 (z_fin v2)) (z_mul u2 (z_fin v1))
  have c1 : (V3.crs u v).val[1].val = some 0 := z_sub (z_mul u2 v0) (z_mul_right v2 u0)
  have c2 : (V3.crs u v).val[2].val = some 0 := z_sub (z_mul_right v1 u0) (z_mul u1 v0)
  generalize V3.crs u v = w at c0 c1 c2
  have e0 : (V3.crs w v).val[0].val = some 0 := z_sub (z_mul c1 (z_fin v2)) (z_mul c2 (z_fin v1))
  have e1 : (V3.crs w v).val[1].val = some 0 := z_sub (z_mul c2 v0) (z_mul c0 (z_fin v2))
  have e2 : (V3.crs w v).val[2].val = some 0 := z_sub (z_mul c0 (z_fin v1)) (z_mul c1 v0)
  generalize V3.crs w v = r at e0 e1 e2
  have : (r.val[0].powi2 + r.val[1].powi2 + r.val[2].powi2).val = some 0 :=
    z_add (z_add (z_mul e0 (z_fin e0)) (z_mul e1 (z_fin e1))) (z_mul e2 (z_fin e2))
  show Fl.feq (Fl.sqrt (r.val[0].powi2 + r.val[1].powi2 + r.val[2].powi2)) 0 = true
  rcases z_cases this with h | h <;> rw [h] <;> decide +kernel

theorem self_coord {y r r' : Fl Q64} {n : Fl Q64} (hn : n.val = some 0) (hy : y.Finite) (wy : y.WF) (hr : r.Finite) (hr' : r'.Finite) :
    ((y + n * r) - (y + -n * r')).val = some 0 := by
  have h1 := add_z wy (z_mul hn hr)
  have h2 := add_z wy (z_mul (z_neg hn) hr')
  have h := h1.sub h2
  rw [finite_sub_self hy] at h
  rcases h with h | h
  · rw [h]; rfl
  · exact h.1

theorem bound_add {x y : Fl Q64} {a b : Q64} {k : ℤ} (hx : x.Is a) (hy : y.Is b) (ha : |a.q| ≤ pow2 k) (hb : |b.q| ≤ pow2 k) (h0 : -1074 ≤ k)
    (h1 : k ≤ 1022) : ∃ c : Q64, (x + y).Is c ∧ |c.q| ≤ pow2 (k + 1) := by
  have hs : |a.q + b.q| ≤ pow2 (k + 1) := by
    rw [pow2_add, show pow2 1 = 2 from by decide +kernel]
    have := abs_add_le a.q b.q; linarith
  obtain ⟨c, hc⟩ := Fl.add_fin hx hy (by
    rw [← BinQ.q_le, q_omega]
    exact hs.trans (pow2_le.mpr (by omega)))
  refine ⟨c, hc, ?_⟩
  rw [Fl.add_rndQ hx hy hc]
  exact rndQ_bound (by norm_num) hs (by omega)

theorem bound_sub {x y : Fl Q64} {a b : Q64} {k : ℤ} (hx : x.Is a) (hy : y.Is b) (ha : |a.q| ≤ pow2 k) (hb : |b.q| ≤ pow2 k) (h0 : -1074 ≤ k)
    (h1 : k ≤ 1022) : ∃ c : Q64, (x - y).Is c ∧ |c.q| ≤ pow2 (k + 1) := by
  rw [Fl.sub_eq]
  exact bound_add hx hy.kneg ha (by rwa [BinQ.q_neg, abs_neg]) h0 h1

theorem axis {s t : Sphere Q64} {a b r r' : Q64} (ha : s.ori.val[0].Is a) (hb : t.ori.val[0].Is b) (hr : s.radius.Is r) (hr' : t.radius.Is r')
    (w : s.radius.WF) (w' : t.radius.WF)
    (ba : |a.q| ≤ pow2 1000) (bb : |b.q| ≤ pow2 1000) (br : |r.q| ≤ pow2 1000) (br' : |r'.q| ≤ pow2 1000)
    (ey : t.ori.val[1] = s.ori.val[1]) (ez : t.ori.val[2] = s.ori.val[2]) (hy : s.ori.val[1].Finite) (hz : s.ori.val[2].Finite)
    (wy : s.ori.val[1].WF) (wz : s.ori.val[2].WF) (n : ℕ) :
    queryIntersect (n + 1) (.sphere s) (.sphere t) = .ok (some (Fl.lt 0 ((s.ori.val[0] + s.radius) - (t.ori.val[0] - t.radius)))) := by
  have nz : (-0 : Fl Q64).val = some 0 := by decide +kernel
  have fr : s.radius.Finite := ⟨_, hr⟩
  have fr' : t.radius.Finite := ⟨_, hr'⟩
  -- the two corners
  obtain ⟨A, hA, bA⟩ := bound_add ha hr ba br (by norm_num) (by norm_num)
  obtain ⟨B, hB, bB⟩ := bound_sub hb hr' bb br' (by norm_num) (by norm_num)
  obtain ⟨X, hX, bX⟩ := bound_sub hA hB bA bB (by norm_num) (by norm_num)
  obtain ⟨A', hA', bA'⟩ := bound_sub ha hr ba br (by norm_num) (by norm_num)
  obtain ⟨B', hB', bB'⟩ := bound_add hb hr' bb br' (by norm_num) (by norm_num)
  obtain ⟨X', hX', bX'⟩ := bound_sub hA' hB' bA' bB' (by norm_num) (by norm_num)
  have q0 : (sup s t d1).val[0] = (s.ori.val[0] + s.radius) - (t.ori.val[0] - t.radius) := sup_x w w'
  have p0 : (sup s t ⟨#v[-1, 0, 0]⟩).val[0] = (s.ori.val[0] - s.radius) - (t.ori.val[0] + t.radius) := by
    show (s.ori.val[0] + (V3.nrm (⟨#v[-1, 0, 0]⟩ : V3 Q64)).val[0] * s.radius) - (t.ori.val[0] + -(V3.nrm (⟨#v[-1, 0, 0]⟩ : V3 Q64)).val[0] * t.radius) = _
    rw [n0]
    show (s.ori.val[0] + -(1 : Fl Q64) * s.radius) - (t.ori.val[0] + - -(1 : Fl Q64) * t.radius) = _
    rw [Fl.neg_neg', Fl.one_mul' w', Fl.neg_mul', Fl.one_mul' w]
    rfl
  have hq : OnX (sup s t d1) := by
    refine ⟨q0 ▸ ⟨_, hX⟩, ?_, ?_⟩
    · show ((s.ori.val[1] + (V3.nrm d1).val[1] * s.radius) - (t.ori.val[1] + -(V3.nrm d1).val[1] * t.radius)).val = some 0
      rw [n1, ey]; exact self_coord nz hy wy fr fr'
    · show ((s.ori.val[2] + (V3.nrm d1).val[2] * s.radius) - (t.ori.val[2] + -(V3.nrm d1).val[2] * t.radius)).val = some 0
      rw [n1, ez]; exact self_coord nz hz wz fr fr'
  have hp : OnX (sup s t ⟨#v[-1, 0, 0]⟩) := by
    refine ⟨p0 ▸ ⟨_, hX'⟩, ?_, ?_⟩
    · show ((s.ori.val[1] + (V3.nrm (⟨#v[-1, 0, 0]⟩ : V3 Q64)).val[1] * s.radius) - (t.ori.val[1] + -(V3.nrm (⟨#v[-1, 0, 0]⟩ : V3 Q64)).val[1] * t.radius)).val = some 0
      rw [n0, ey]; exact self_coord (n := 0) rfl hy wy fr fr'
    · show ((s.ori.val[2] + (V3.nrm (⟨#v[-1, 0, 0]⟩ : V3 Q64)).val[2] * s.radius) - (t.ori.val[2] + -(V3.nrm (⟨#v[-1, 0, 0]⟩ : V3 Q64)).val[2] * t.radius)).val = some 0
      rw [n0, ez]; exact self_coord (n := 0) rfl hz wz fr fr'
  have hX'' : (sup s t d1).val[0].Is X := q0 ▸ hX
  have hX''' : (sup s t ⟨#v[-1, 0, 0]⟩).val[0].Is X' := p0 ▸ hX'
  have ed : Fl.lt 0 (V3.dotp (sup s t d1) d1) = Fl.lt 0 ((s.ori.val[0] + s.radius) - (t.ori.val[0] - t.radius)) := by
    have hw : ((sup s t d1).val[0]).WF := Fl.wf_sub _ _
    show Fl.lt 0 ((sup s t d1).val[0] * (1 : Fl Q64) + (sup s t d1).val[1] * (-0 : Fl Q64) + (sup s t d1).val[2] * (-0 : Fl Q64)) = _
    rw [Fl.mul_one' hw, pos_of hw (z_mul hq.2.1 (z_fin nz)) (z_mul hq.2.2 (z_fin nz)), q0]
  rw [query_eq, ed]
  cases Fl.lt 0 ((s.ori.val[0] + s.radius) - (t.ori.val[0] - t.radius))
  · rw [if_neg Bool.false_ne_true]
  · rw [if_pos rfl, List.singleton_append, contains2]
    have hu : OnX (V3.sub (sup s t ⟨#v[-1, 0, 0]⟩) (sup s t d1)) := by
      obtain ⟨c, hc, -⟩ := bound_sub hX''' hX'' bX' bX (by norm_num) (by norm_num)
      exact ⟨⟨c, hc⟩, z_sub hp.2.1 hq.2.1, z_sub hp.2.2 hq.2.2⟩
    have hv : OnX (V3.scl (sup s t d1) (-1)) := by
      have f1 : (-1 : Fl Q64).Finite := ⟨-1, by show (-1 : Fl Q64).val = some (-1); decide +kernel⟩
      refine ⟨?_, z_mul hq.2.1 f1, z_mul hq.2.2 f1⟩
      have hw : ((sup s t d1).val[0]).WF := Fl.wf_sub _ _
      refine ⟨-X, ?_⟩
      show ((sup s t d1).val[0] * -(1 : Fl Q64)).Is (-X)
      rw [Fl.mul_neg', Fl.mul_one' hw]; exact hX''.kneg
    rw [tri_zero hu hv, if_pos rfl, GjkScale.step_yes]

theorem gr_rnd (v : ℚ) : Gr (-1074) (rndQ 53 (-1074) v) := by
  unfold rndQ
  exact Gr.mono ⟨_, rfl⟩ (by unfold ulpExp; omega)

/-- two finite floats, the first larger, have a positive rounded difference -/
theorem sub_pos_float {x y : Fl Q64} {a b : Q64} (hx : x.Is a) (hy : y.Is b) (ga : Gr (-1074) a.q) (gb : Gr (-1074) b.q) (h : b < a) :
    Fl.lt 0 (x - y) = true := by
  have e := (hx.sub_lit hy).2
  have hg : pow2 (-1074) ≤ a.q - b.q := by
    have hpos : 0 < a.q - b.q := sub_pos.mpr h
    rcases (ga.add gb.neg).lower with h' | h'
    · rw [← sub_eq_add_neg] at h'; exact absurd h' hpos.ne'
    · rwa [← sub_eq_add_neg, abs_of_pos hpos] at h'
  have r1 : Fl.Rep (pq (-1074)) := .inr (by decide +kernel)
  have e1 : Fl.le (.fin (pq (-1074))) (Fl.lit (a - b)) = true := by
    rw [← Fl.lit_rep r1]; exact Fl.lit_mono hg
  have e2 := Fl.le_trans e1 e
  refine Fl.lt_of_lt_of_le ?_ e2
  decide +kernel

end GjkAxis

/-! ## C97 -/

/-- C97, first before second: if, along the first axis, the first sphere ends before the second begins (or where it begins), the query answers
`Some(false)` in its first turn.  The first coordinates and the radii are finite and of any size and sign, the other coordinates any floats at all. -/
theorem C97_before {x y z r x' y' z' r' : Fl Q64} {a b ρ ρ' : Q64} (hx : x.Is a) (hx' : x'.Is b) (hr : r.Holds ρ) (hr' : r'.Holds ρ')
    (h : a + ρ ≤ b - ρ') {s t : Sphere Q64} (es : Sphere.init [x, y, z] r = .ok s) (et : Sphere.init [x', y', z'] r' = .ok t) (n : ℕ) :
    queryIntersect (n + 1) (.sphere s) (.sphere t) = .ok (some false) := by
  obtain rfl := Except.ok.inj es
  obtain rfl := Except.ok.inj et
  refine GjkAxis.left hr.2 hr'.2 (GjkAxis.not_pos_of_le ?_) n
  exact Fl.le_trans (hx.add_lit hr.1).1 (Fl.le_trans (Fl.lit_mono h) (hx'.sub_lit hr'.1).2)

/-- concrete case: the first sphere touches the second from the left at infinite and undefined height -/
example : ∃ s t : Sphere Q64, Sphere.init [1, .inf true, .nan] 1 = .ok s ∧ Sphere.init [.fin 4, 0, 0] (.fin 2) = .ok t ∧
    queryIntersect 1 (.sphere s) (.sphere t) = .ok (some false) := by
  refine ⟨_, _, rfl, rfl, ?_⟩
  exact C97_before (x := 1) (x' := .fin 4) (r := 1) (r' := .fin 2) (a := 1) (b := 4) (ρ := 1) (ρ' := 2) rfl rfl ⟨rfl, by right; decide +kernel⟩ ⟨rfl, by right; decide +kernel⟩ (by decide +kernel) rfl rfl 0

/-- C97, centres that differ in the first coordinate only: the query answers in its first turn, and the answer only depends on whether, along the
first axis, the first sphere ends before the second begins, as computed.  All numbers are at most `2^1000`. -/
theorem C97_axis {x y z r x' r' : Fl Q64} {a b ρ ρ' : Q64} (hx : x.Is a) (hx' : x'.Is b) (hr : r.Holds ρ) (hr' : r'.Holds ρ')
    (hy : y.Finite) (hz : z.Finite) (wy : y.WF) (wz : z.WF)
    (ba : |a.q| ≤ pow2 1000) (bb : |b.q| ≤ pow2 1000) (br : |ρ.q| ≤ pow2 1000) (br' : |ρ'.q| ≤ pow2 1000)
    {s t : Sphere Q64} (es : Sphere.init [x, y, z] r = .ok s) (et : Sphere.init [x', y, z] r' = .ok t) (n : ℕ) :
    queryIntersect (n + 1) (.sphere s) (.sphere t) = .ok (some (Fl.lt 0 ((x + r) - (x' - r')))) := by
  have key := @GjkAxis.axis s t a b ρ ρ'
  obtain rfl := Except.ok.inj es
  obtain rfl := Except.ok.inj et
  exact key hx hx' hr.1 hr'.1 hr.2 hr'.2 ba bb br br' rfl rfl hy hz wy wz n

/-- C97, second before first: if the centres differ in the first coordinate only and the centre of the first sphere is the larger one, the query answers
`Some(true)`, whatever the distance.  (Radii not negative; all numbers at most `2^1000`.) -/
theorem C97_behind {x y z r x' r' : Fl Q64} {a b ρ ρ' : Q64} (hx : x.Holds a) (hx' : x'.Holds b) (hr : r.Holds ρ) (hr' : r'.Holds ρ')
    (hy : y.Finite) (hz : z.Finite) (wy : y.WF) (wz : z.WF)
    (ba : |a.q| ≤ pow2 1000) (bb : |b.q| ≤ pow2 1000) (br : |ρ.q| ≤ pow2 1000) (br' : |ρ'.q| ≤ pow2 1000) (h : b < a) (h0 : 0 ≤ ρ) (h0' : 0 ≤ ρ')
    {s t : Sphere Q64} (es : Sphere.init [x, y, z] r = .ok s) (et : Sphere.init [x', y, z] r' = .ok t) (n : ℕ) :
    queryIntersect (n + 1) (.sphere s) (.sphere t) = .ok (some true) := by
  rw [C97_axis hx.1 hx'.1 hr hr' hy hz wy wz ba bb br br' es et]
  obtain ⟨A, hA, -⟩ := GjkAxis.bound_add hx.1 hr.1 ba br (by norm_num) (by norm_num)
  obtain ⟨B, hB, -⟩ := GjkAxis.bound_sub hx'.1 hr'.1 bb br' (by norm_num) (by norm_num)
  have gA : Gr (-1074) A.q := by rw [Fl.add_rndQ hx.1 hr.1 hA]; exact GjkAxis.gr_rnd _
  have gB : Gr (-1074) B.q := by rw [Fl.sub_rndQ hx'.1 hr'.1 hB]; exact GjkAxis.gr_rnd _
  have z0 : (0 : Fl Q64).Is (0 : Q64) := rfl
  have l1 := (hx.1.kle hA).mp (Fl.le_add_nonneg hx.2 ⟨_, hx.1⟩ ((z0.kle hr.1).mpr h0))
  have l2 := (hB.kle hx'.1).mp (Fl.sub_nonneg_le hx'.2 ⟨_, hx'.1⟩ ((z0.kle hr'.1).mpr h0'))
  rw [GjkAxis.sub_pos_float hA hB gA gB (l2.trans_lt (h.trans_le l1))]

/-- C97, the answer should be that two balls are apart if they are: two unit balls, `2^100` apart, are said to intersect (a concrete case of
`C97_behind`). -/
theorem C97_separated_false : ∃ s t : Sphere Q64, Sphere.init [.fin (2 ^ 100), .fin 5, 1] 1 = .ok s ∧ Sphere.init [0, .fin 5, 1] 1 = .ok t ∧
    ∀ n, queryIntersect (n + 1) (.sphere s) (.sphere t) = .ok (some true) := by
  refine ⟨_, _, rfl, rfl, ?_⟩
  exact C97_behind (x := .fin (2 ^ 100)) (x' := 0) (r := 1) (r' := 1) (a := 2 ^ 100) (b := 0) (ρ := 1) (ρ' := 1) (y := .fin 5) (z := 1) ⟨rfl, by right; decide +kernel⟩ ⟨rfl, .inl rfl⟩
    ⟨rfl, by right; decide +kernel⟩ ⟨rfl, by right; decide +kernel⟩ ⟨_, rfl⟩ ⟨_, rfl⟩ (by right; decide +kernel) (by right; decide +kernel)
    (by decide +kernel) (by decide +kernel) (by decide +kernel) (by decide +kernel) (by decide +kernel) (by decide +kernel) (by decide +kernel) rfl rfl

/-- C97 needs the bound on the numbers: beyond the range of the format the query says that overlapping balls are apart. -/
theorem C97_range_false : ∃ s t : Sphere Q64, Sphere.init [.fin (2 ^ 1023), 0, 0] (.fin (2 ^ 1023)) = .ok s ∧
    Sphere.init [.fin (2 ^ 1022), 0, 0] (.fin (2 ^ 1023)) = .ok t ∧ queryIntersect 5 (.sphere s) (.sphere t) = .ok (some false) :=
  ⟨_, _, rfl, rfl, by decide +kernel⟩

end Mazth
