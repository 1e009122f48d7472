import Verif.Props.GjkTouch
import Verif.Props.GjkTurns
import Verif.Props.FloatGjk
import Verif.Props.FloatSphere
import Verif.Props.FloatGjkDeep
import Verif.Props.SphereQueries

/-!
# C106: the two collision queries on spheres, compared

`query_intersect` and `get_intersect` both tell whether two spheres meet.  They are different algorithms, written
independently; the theorems say when their answers agree, and that the answer of the first does not depend on the order.
-/

set_option linter.unusedSectionVars false
set_option autoImplicit false

namespace Mazth

open Matrix GjkGeom Gjk

/-! ## Exact arithmetic -/

/-- C106: off the axis, whenever the loop of `query_intersect` returns for two spheres that do not just touch, it returns what `get_intersect`
returns. -/
theorem C106_agree (s t : Sphere ℝ) (ca cb : R3) (ra rb : ℝ) (hs : s.Made ca ra) (ht : t.Made cb rb) (hra : 0 ≤ ra) (hrb : 0 ≤ rb)
    (hR : 0 < ra + rb) (h : ¬(ca 1 = cb 1 ∧ ca 2 = cb 2)) (hne : euc (ca - cb) ≠ ra + rb) (n : ℕ) (b : Bool)
    (hn : queryIntersect n (.sphere s) (.sphere t) = .ok (some b)) :
    (b = true ∧ ∃ p, Shape.Finds (.sphere s) (.sphere t) p) ∨ (b = false ∧ Shape.Misses (.sphere s) (.sphere t)) := by
  obtain ⟨h1, h2⟩ := C40_sphereSphere s t ca cb ra rb hs ht hra hrb hR
  rcases C52_sound s t ca cb ra rb hs ht hra hrb hR h n with e | ⟨e, hd⟩ | ⟨e, hd⟩
  · rw [e] at hn; simp at hn
  · rw [e] at hn
    refine .inr ⟨by simpa using hn.symm, h2 fun hm => ?_⟩
    have h3 := (balls_meet hra hrb).mp hm
    obtain ⟨-, h4⟩ := C52_terminates s t ca cb ra rb hs ht hR h
    obtain ⟨h5, -⟩ := C52_terminates s t ca cb ra rb hs ht hR h
    rw [euc_sub_comm] at h3
    obtain ⟨k, hk⟩ := h5 (lt_of_le_of_ne (by linarith) hne)
    have h6 := C52_fuel n k (.sphere s) (.sphere t) (by rw [e]; simp)
    rw [hk (n + k) (by omega), e] at h6
    simp at h6
  · rw [e] at hn
    obtain ⟨p, -, -, hp⟩ := h1 hd
    exact .inl ⟨by simpa using hn.symm, p, hp⟩

/-- C106: and it does return, after a number of turns that depends on the distance from touching only: the two queries then agree. -/
theorem C106_both (s t : Sphere ℝ) (ca cb : R3) (ra rb : ℝ) (hs : s.Made ca ra) (ht : t.Made cb rb) (hra : 0 ≤ ra) (hrb : 0 ≤ rb)
    (hR : 0 < ra + rb) (h : ¬(ca 1 = cb 1 ∧ ca 2 = cb 2)) (k : ℕ) (hk : 2 * (ra + rb) ≤ |euc (ca - cb) - (ra + rb)| * 2 ^ k)
    (n : ℕ) (hn : k + 5 ≤ n) :
    (queryIntersect n (.sphere s) (.sphere t) = .ok (some true) ∧ ∃ p, Shape.Finds (.sphere s) (.sphere t) p) ∨
    (queryIntersect n (.sphere s) (.sphere t) = .ok (some false) ∧ Shape.Misses (.sphere s) (.sphere t)) := by
  have hne : euc (ca - cb) ≠ ra + rb := by
    intro e
    rw [e, sub_self, abs_zero, zero_mul] at hk
    linarith
  rcases C84_turns s t ca cb ra rb hs ht hR h k hk n hn with ⟨-, e⟩ | ⟨-, e⟩
  · rcases C106_agree s t ca cb ra rb hs ht hra hrb hR h hne n _ e with ⟨-, hp⟩ | ⟨h', -⟩
    · exact .inl ⟨e, hp⟩
    · simp at h'
  · rcases C106_agree s t ca cb ra rb hs ht hra hrb hR h hne n _ e with ⟨h', -⟩ | ⟨-, hp⟩
    · simp at h'
    · exact .inr ⟨e, hp⟩

/-- C106: off the axis the answers for `(s, t)` and `(t, s)` are the same, whenever both are given; the spheres may touch. -/
theorem C106_swap (s t : Sphere ℝ) (ca cb : R3) (ra rb : ℝ) (hs : s.Made ca ra) (ht : t.Made cb rb)
    (hR : 0 < ra + rb) (h : ¬(ca 1 = cb 1 ∧ ca 2 = cb 2)) (n m : ℕ) (b b' : Bool)
    (hn : queryIntersect n (.sphere s) (.sphere t) = .ok (some b)) (hm : queryIntersect m (.sphere t) (.sphere s) = .ok (some b')) : b = b' := by
  have h' : ¬(cb 1 = ca 1 ∧ cb 2 = ca 2) := fun ⟨e1, e2⟩ => h ⟨e1.symm, e2.symm⟩
  have hR' : 0 < rb + ra := by linarith
  by_cases hne : euc (ca - cb) = ra + rb
  · have q1 := C52_touching s t ca cb ra rb hs ht hR h hne n
    have q2 := C52_touching t s cb ca rb ra ht hs hR' h' (by rw [euc_sub_comm, hne, add_comm]) m
    rw [hn] at q1; rw [hm] at q2
    rcases q1 with q1 | q1 <;> rcases q2 with q2 | q2 <;> simp_all
  · rcases query_answers hs ht hR h n with e | ⟨e, hd⟩ | ⟨e, hd⟩
    · rw [e] at hn; simp at hn
    all_goals
      rcases query_answers ht hs hR' h' m with e' | ⟨e', hd'⟩ | ⟨e', hd'⟩
      · rw [e'] at hm; simp at hm
      all_goals
        rw [e] at hn; rw [e'] at hm
        rw [euc_sub_comm cb ca] at hd'
        first
          | (simp_all; done)
          | (exfalso; exact hne (by linarith))

/-! Concrete cases: the spheres about `(2, 4, 0)` and the origin -/

theorem d240 : euc (![2, 4, 0] - ![0, 0, 0]) = Real.sqrt 20 := by
  rw [euc_eq]; simp [Fin.sum_univ_three]; norm_num

theorem d240_lt : 3 + 1 < euc (![2, 4, 0] - ![0, 0, 0]) := by
  rw [d240, Real.lt_sqrt (by norm_num)]; norm_num

example := C106_both _ _ _ _ _ _ (mkSphere_made ![2, 4, 0] 1 0) (mkSphere_made ![0, 0, 0] 2 0) (by norm_num) (by norm_num) (by norm_num) (by simp) 3
  (by
    have := d240_lt
    rw [abs_of_pos (by linarith)]; linarith) 8 le_rfl

example (n m : ℕ) (b b' : Bool) := C106_swap _ _ _ _ _ _ (mkSphere_made ![2, 4, 0] 1 0) (mkSphere_made ![0, 0, 0] 2 0) (by norm_num) (by simp) n m b b'

/-- the hypotheses of `C106_swap` and `C106_agree` are met: both orders return -/
example : ∃ n, queryIntersect n (.sphere (mkSphere ![2, 4, 0] 1 0)) (.sphere (mkSphere ![0, 0, 0] 2 0)) = .ok (some false) ∧
    queryIntersect n (.sphere (mkSphere ![0, 0, 0] 2 0)) (.sphere (mkSphere ![2, 4, 0] 1 0)) = .ok (some false) ∧
    Shape.Misses (.sphere (mkSphere ![2, 4, 0] 1 0)) (.sphere (mkSphere ![0, 0, 0] 2 0)) := by
  have hs := mkSphere_made ![2, 4, 0] 1 0
  have ht := mkSphere_made ![0, 0, 0] 2 0
  have hd := d240_lt
  obtain ⟨n, hn⟩ := (C52_terminates _ _ _ _ _ _ hs ht (by norm_num) (by simp)).2 (by linarith)
  obtain ⟨m, hm⟩ := (C52_terminates _ _ _ _ _ _ ht hs (by norm_num) (by simp)).2 (by rw [euc_sub_comm]; linarith)
  refine ⟨max n m, hn _ (le_max_left _ _), hm _ (le_max_right _ _), ?_⟩
  rcases C106_agree _ _ _ _ _ _ hs ht (by norm_num) (by norm_num) (by norm_num) (by simp) (by linarith) n _ (hn n le_rfl) with ⟨h, -⟩ | ⟨-, h⟩
  · simp at h
  · exact h

/-- C106 fails for spheres that touch: `get_intersect` finds the point of contact; `query_intersect` never says so. -/
theorem C106_touching_false (s t : Sphere ℝ) (ca cb : R3) (ra rb : ℝ) (hs : s.Made ca ra) (ht : t.Made cb rb) (hra : 0 ≤ ra) (hrb : 0 ≤ rb)
    (hR : 0 < ra + rb) (h : ¬(ca 1 = cb 1 ∧ ca 2 = cb 2)) (htouch : euc (ca - cb) = ra + rb) (n : ℕ) :
    queryIntersect n (.sphere s) (.sphere t) ≠ .ok (some true) ∧ ∃ p, Shape.Finds (.sphere s) (.sphere t) p := by
  constructor
  · rcases C52_touching s t ca cb ra rb hs ht hR h htouch n with e | e <;> rw [e] <;> simp
  · obtain ⟨h1, -⟩ := C40_sphereSphere s t ca cb ra rb hs ht hra hrb hR
    obtain ⟨p, -, -, hp⟩ := h1 ((balls_meet hra hrb).mpr (by rw [euc_sub_comm, htouch]))
    exact ⟨p, hp⟩

theorem d340 : euc (![3, 4, 0] - ![0, 0, 0]) = 5 := by
  have h := euc_sq (![3, 4, 0] - ![0, 0, 0])
  have h0 := euc_nonneg (![3, 4, 0] - ![0, 0, 0])
  simp only [dot3, Pi.sub_apply, Matrix.cons_val_zero, Matrix.cons_val_one, Matrix.cons_val] at h
  nlinarith

example (n : ℕ) := C106_touching_false _ _ _ _ _ _ (mkSphere_made ![3, 4, 0] 2 0) (mkSphere_made ![0, 0, 0] 3 0) (by norm_num) (by norm_num)
  (by norm_num) (by simp) (by rw [d340]; norm_num) n

/-- C106 fails on the axis: for two spheres one beside the other along the first axis with a gap between them, the answers of
`query_intersect` for the two orders differ, and one of them differs from that of `get_intersect`. -/
theorem C106_axis_false (s t : Sphere ℝ) (ca cb : R3) (ra rb : ℝ) (hs : s.Made ca ra) (ht : t.Made cb rb) (hra : 0 ≤ ra) (hrb : 0 ≤ rb)
    (hR : 0 < ra + rb) (h : ca 1 = cb 1 ∧ ca 2 = cb 2) (hx : cb 0 + rb < ca 0 - ra) (n : ℕ) :
    queryIntersect (n + 1) (.sphere s) (.sphere t) = .ok (some true) ∧ queryIntersect (n + 1) (.sphere t) (.sphere s) = .ok (some false) ∧
    Shape.Misses (.sphere s) (.sphere t) ∧ Shape.Misses (.sphere t) (.sphere s) := by
  obtain ⟨e, hd⟩ := C52_axis_false s t ca cb ra rb hs ht hra hrb h hx n
  refine ⟨e, (C52_axis t s cb ca rb ra ht hs (.inl ⟨h.1.symm, h.2.symm⟩) n).2 (by linarith), ?_, ?_⟩
  · exact (C40_sphereSphere s t ca cb ra rb hs ht hra hrb hR).2 (by rw [hd]; simp)
  · exact (C40_sphereSphere t s cb ca rb ra ht hs hrb hra (by linarith)).2 (by rw [Set.inter_comm, hd]; simp)

example (n : ℕ) := C106_axis_false _ _ _ _ _ _ (mkSphere_made ![5, 2, 3] 1 0) (mkSphere_made ![0, 2, 3] 2 0) (by norm_num) (by norm_num)
  (by norm_num) ⟨rfl, rfl⟩ (by simp; norm_num) n

/-! ## binary64 -/

section f64

variable {c1 c2 : Fin 3 → Q64} {r1 r2 M : Q64} {l1 l2 : List (Fl Q64)} {x1 x2 : Fl Q64} {s t : Sphere Q64}

theorem real_le_of_abs {a b : Q64} (h : |a| ≤ b) : a.real ≤ b.real := BinQ.real_strictMono.monotone ((le_abs_self a).trans h)

/-- the two margins compared -/
theorem margins_106 {R m : ℝ} (hm : (2 : ℝ) ^ (-30 : ℤ) ≤ m) (h : R ≤ 2 * m) :
    R - 2 ^ (-46 : ℤ) * m ≤ (1 - 2 ^ (-50 : ℤ)) * R - 2 ^ (-535 : ℤ) ∧ (1 + 2 ^ (-50 : ℤ)) * R + 2 ^ (-535 : ℤ) ≤ R + 2 ^ (-46 : ℤ) * m := by
  have e : (2 : ℝ) ^ (-535 : ℤ) ≤ 2 ^ (-50 : ℤ) * 2 ^ (-30 : ℤ) := by
    rw [← zpow_add₀ (by norm_num)]
    exact zpow_le_zpow_right₀ (by norm_num) (by norm_num)
  have e2 : (2 : ℝ) ^ (-46 : ℤ) = 16 * 2 ^ (-50 : ℤ) := by
    rw [show (-46 : ℤ) = 4 + -50 by norm_num, zpow_add₀ (by norm_num)]; norm_num
  have hk : (0 : ℝ) < 2 ^ (-50 : ℤ) := zpow_pos (by norm_num) _
  rw [e2]
  generalize (2 : ℝ) ^ (-535 : ℤ) = a at *
  generalize (2 : ℝ) ^ (-50 : ℤ) = k at *
  have h1 : k * 2 ^ (-30 : ℤ) ≤ k * m := mul_le_mul_of_nonneg_left hm hk.le
  have h2 : k * R ≤ k * (2 * m) := mul_le_mul_of_nonneg_left h hk.le
  have h3 : 0 ≤ k * m := le_trans (by positivity) h1
  constructor <;> nlinarith

/-- C106 in binary64: off by more than `2^-46 M` from touching, the answer of `query_intersect` agrees with that of `get_intersect` in
these cases: spheres that overlap, and spheres reported to be disjoint. -/
theorem C106_f64 (H : SphPair c1 c2 r1 r2 M) (hl1 : ListIn l1 c1) (hx1 : x1.Holds r1) (hs : Sphere.init l1 x1 = .ok s)
    (hl2 : ListIn l2 c2) (hx2 : x2.Holds r2) (ht : Sphere.init l2 x2 = .ok t) (hr1 : 0 ≤ r1) (hr2 : 0 ≤ r2)
    (hne : 2 ^ (-46 : ℤ) * M.real < |euc (toR BinQ.real c1 - toR BinQ.real c2) - (r1.real + r2.real)|) (n : ℕ) :
    queryIntersect n (.sphere s) (.sphere t) = .error .diverge ∨
    (queryIntersect n (.sphere s) (.sphere t) = .ok (some true) ∧
      (euc (toR BinQ.real c1 - toR BinQ.real c2) < r1.real + r2.real → ∃ loc P, Shape.getIntersect 2 (.sphere s) (.sphere t) = .ok (true, some loc) ∧ loc.Holds P)) ∨
    (queryIntersect n (.sphere s) (.sphere t) = .ok (some false) ∧ Shape.getIntersect 2 (.sphere s) (.sphere t) = .ok (false, none)) := by
  have hM : ((2 : ℚ) ^ (-30 : ℤ) : ℚ) ≤ M := by
    rcases H.first with h | h
    · exact ((H.lo1 0).resolve_left h).trans (H.hi1 0)
    · exact ((H.lo2 0).resolve_left h).trans (H.hi2 0)
  have hMr : (2 : ℝ) ^ (-30 : ℤ) ≤ M.real := by
    have := BinQ.real_strictMono.monotone hM
    have e : (BinQ.real : Q64 →+* ℝ) ((2 : ℚ) ^ (-30 : ℤ) : ℚ) = 2 ^ (-30 : ℤ) := by
      show (((2 : ℚ) ^ (-30 : ℤ) : ℚ) : ℝ) = _
      push_cast; rfl
    rwa [e] at this
  have big : M ≤ ((2 : ℚ) ^ (500 : ℤ) : ℚ) := H.le.trans (zpow_le_zpow_right₀ (by norm_num : (1 : ℚ) ≤ 2) (by norm_num))
  obtain ⟨m1, m2⟩ := margins_106 (R := r1.real + r2.real) hMr (by linarith [real_le_of_abs H.rhi1, real_le_of_abs H.rhi2])
  obtain ⟨g1, g2⟩ := C61_sphereSphere_f64 hl1 hx1 hs hl2 hx2 ht hr1 hr2 (fun i => (H.hi1 i).trans big) (fun i => (H.hi2 i).trans big)
    (((le_abs_self _).trans H.rhi1).trans big) (((le_abs_self _).trans H.rhi2).trans big)
  rw [euc_sub_comm] at g1 g2
  rcases C82_no_panic_f64 H hl1 hx1 hs hl2 hx2 ht n with ⟨b, hb⟩ | hb
  · cases b
    · refine .inr (.inr ⟨hb, g2 (m2.trans ?_)⟩)
      have := C82_disjoint_f64 H hl1 hx1 hs hl2 hx2 ht n hb
      rcases le_total 0 (euc (toR BinQ.real c1 - toR BinQ.real c2) - (r1.real + r2.real)) with h | h
      · rw [abs_of_nonneg h] at hne; linarith
      · rw [abs_of_nonpos h] at hne; linarith
    · refine .inr (.inl ⟨hb, fun h => g1 (le_trans ?_ m1)⟩)
      rw [abs_of_neg (by linarith)] at hne
      linarith
  · exact .inl hb

theorem real_two : (BinQ.real : Q64 →+* ℝ) (2 : ℚ) = 2 := by
  show (((2 : ℚ) : ℚ) : ℝ) = 2
  norm_num

theorem real_eight : BinQ.real eightQ = 8 := by
  show (((8 : ℚ) : ℚ) : ℝ) = 8
  norm_num

/-- the overlapping spheres of radius 2 about `(1, 2, 2)` and the origin -/
example (n : ℕ) := C106_f64 pair_122 lD122 holds2 rfl lZ3 holds2 rfl (show (0 : ℚ) ≤ 2 by norm_num) (show (0 : ℚ) ≤ 2 by norm_num) (by
  rw [toR_D122, toR_Z3, sub_zero, euc_122, real_two, real_eight]
  norm_num) n

end f64

end Mazth
