import Verif.Proofs.Scale2
import Verif.Proofs.ShapeBasic

/-!
# Pairs of floats that differ by a power of two

`Fl.Sc e b m x x'`: the binary64 number `x` is not finite or in the range `Fl.Rg e b`, and `x'` is `x · 2^m` exactly.  The
side conditions of the lemmas on ranges are discharged by `omega`.
-/

set_option linter.unusedSectionVars false
set_option autoImplicit false

namespace Mazth

open Bin

/-- `x'` is exactly `x · 2^m`, where `x` is in the given range or not finite -/
def Fl.Sc (e b m : ℤ) (x x' : Fl Q64) : Prop := x.Ext e b ∧ x' = Fl.scale2 m x

namespace Fl

variable {e b f c m n k : ℤ} {x x' y y' z z' : Fl Q64}

theorem Sc.mono (h : Sc e b m x x') (he : f ≤ e := by omega) (hb : b ≤ c := by omega) : Sc f c m x x' := ⟨h.1.mono he hb, h.2⟩

theorem Sc.cast (h : Sc e b m x x') (hm : m = n := by omega) : Sc e b n x x' := hm ▸ h

theorem Sc.zero : Sc e b m 0 0 := ⟨.inl Rg.zero, scale2_zero.symm⟩

theorem Sc.of_ext (h : x.Ext e b) : Sc e b 0 x x := ⟨h, by
  cases x <;> first | rfl | skip
  rename_i v
  exact congrArg fin (BinQ.q_inj (by show v.q = v.q * pow2 0; rw [pow2_zero, mul_one]))⟩

theorem Sc.neg (h : Sc e b m x x') : Sc e b m (-x) (-x') := by
  obtain ⟨h, rfl⟩ := h
  refine ⟨?_, neg_scale2 x⟩
  rcases h with h | rfl | ⟨s, rfl⟩
  · exact .inl h.neg
  · exact .inr (.inl rfl)
  · exact .inr (.inr ⟨!s, rfl⟩)

theorem Sc.abs (h : Sc e b m x x') : Sc e b m (Fl.abs x) (Fl.abs x') := by
  obtain ⟨h, rfl⟩ := h
  refine ⟨?_, abs_scale2 x⟩
  rcases h with h | rfl | ⟨s, rfl⟩
  · exact .inl h.abs
  · exact .inr (.inl rfl)
  · exact .inr (.inr ⟨false, rfl⟩)

theorem Sc.lt (h : Sc e b m x x') (h' : Sc f c m y y') : Fl.lt x' y' = Fl.lt x y := by rw [h.2, h'.2, lt_scale2]
theorem Sc.le (h : Sc e b m x x') (h' : Sc f c m y y') : Fl.le x' y' = Fl.le x y := by rw [h.2, h'.2, le_scale2]
theorem Sc.feq (h : Sc e b m x x') (h' : Sc f c m y y') : Fl.feq x' y' = Fl.feq x y := by unfold Fl.feq; rw [h.le h', h'.le h]
theorem Sc.lt0 (h : Sc e b m x x') : Fl.lt x' 0 = Fl.lt x 0 := h.lt (Sc.zero (e := 0) (b := 0))
theorem Sc.gt0 (h : Sc e b m x x') : Fl.lt 0 x' = Fl.lt 0 x := (Sc.zero (e := 0) (b := 0)).lt h
theorem Sc.le0 (h : Sc e b m x x') : Fl.le 0 x' = Fl.le 0 x := (Sc.zero (e := 0) (b := 0)).le h
theorem Sc.feq0 (h : Sc e b m x x') : Fl.feq x' 0 = Fl.feq x 0 := h.feq (Sc.zero (e := 0) (b := 0))

theorem Sc.add (hx : Sc e b m x x') (hy : Sc f c m y y') (h0 : -1074 ≤ max b c + 1 := by omega) (h1 : max b c + 1 < 1024 := by omega)
    (h2 : -1074 ≤ min e f := by omega) (h3 : -1074 ≤ min e f + m := by omega) (h4 : max b c + 1 + m < 1024 := by omega) :
    Sc (min e f) (max b c + 1) m (x + y) (x' + y') := by
  obtain ⟨hx, rfl⟩ := hx
  obtain ⟨hy, rfl⟩ := hy
  rcases hx with hx | rfl | ⟨s, rfl⟩ <;> rcases hy with hy | rfl | ⟨t, rfl⟩
  · have hx' := hx.mono (min_le_left e f) (le_max_left b c)
    have hy' := hy.mono (min_le_right e f) (le_max_right b c)
    exact ⟨.inl (Rg.add (by norm_num) hx' hy' h0 h1), add_scale2 (by norm_num) hx' hy' h0 h1 h2 h3 h4⟩
  · cases x <;> exact ⟨.inr (.inl rfl), rfl⟩
  · rcases hx.cases with rfl | ⟨u, rfl, -, -⟩ <;> exact ⟨.inr (.inr ⟨t, rfl⟩), rfl⟩
  · exact ⟨.inr (.inl rfl), rfl⟩
  · exact ⟨.inr (.inl rfl), rfl⟩
  · exact ⟨.inr (.inl rfl), rfl⟩
  · rcases hy.cases with rfl | ⟨u, rfl, -, -⟩ <;> exact ⟨.inr (.inr ⟨s, rfl⟩), rfl⟩
  · exact ⟨.inr (.inl rfl), rfl⟩
  · cases s <;> cases t <;> first | exact ⟨.inr (.inr ⟨_, rfl⟩), rfl⟩ | exact ⟨.inr (.inl rfl), rfl⟩

theorem Sc.sub (hx : Sc e b m x x') (hy : Sc f c m y y') (h0 : -1074 ≤ max b c + 1 := by omega) (h1 : max b c + 1 < 1024 := by omega)
    (h2 : -1074 ≤ min e f := by omega) (h3 : -1074 ≤ min e f + m := by omega) (h4 : max b c + 1 + m < 1024 := by omega) :
    Sc (min e f) (max b c + 1) m (x - y) (x' - y') := hx.add hy.neg

theorem Sc.mul (hx : Sc e b m x x') (hy : Sc f c n y y') (h0 : -1074 ≤ b + c := by omega) (h1 : b + c < 1024 := by omega)
    (h2 : -1074 ≤ e + f := by omega) (h3 : -1074 ≤ e + f + (m + n) := by omega) (h4 : b + c + (m + n) < 1024 := by omega) :
    Sc (e + f) (b + c) (m + n) (x * y) (x' * y') := by
  have inf_l (s : Bool) {v : Q64} : ((inf s : Fl Q64) * fin v).Ext (e + f) (b + c) ∧ inf s * scale2 n (fin v) = scale2 (m + n) (inf s * fin v) := by
    show (mulInf (xor s (decide (v < 0))) v).Ext (e + f) (b + c) ∧ mulInf (xor s (decide (v.sc n < 0))) (v.sc n) = scale2 (m + n) (mulInf (xor s (decide (v < 0))) v)
    unfold mulInf
    by_cases h : v = 0
    · rw [if_pos h, if_pos (BinQ.sc_eq_zero.mpr h)]; exact ⟨.inr (.inl rfl), rfl⟩
    · rw [if_neg h, if_neg (fun h' => h (BinQ.sc_eq_zero.mp h')), show decide (v.sc n < 0) = decide (v < 0) from decide_eq_decide.mpr BinQ.sc_neg_iff]
      exact ⟨.inr (.inr ⟨_, rfl⟩), rfl⟩
  have inf_r (s : Bool) {v : Q64} : (fin v * (inf s : Fl Q64)).Ext (e + f) (b + c) ∧ scale2 m (fin v) * inf s = scale2 (m + n) (fin v * inf s) := by
    show (mulInf (xor (decide (v < 0)) s) v).Ext (e + f) (b + c) ∧ mulInf (xor (decide (v.sc m < 0)) s) (v.sc m) = scale2 (m + n) (mulInf (xor (decide (v < 0)) s) v)
    unfold mulInf
    by_cases h : v = 0
    · rw [if_pos h, if_pos (BinQ.sc_eq_zero.mpr h)]; exact ⟨.inr (.inl rfl), rfl⟩
    · rw [if_neg h, if_neg (fun h' => h (BinQ.sc_eq_zero.mp h')), show decide (v.sc m < 0) = decide (v < 0) from decide_eq_decide.mpr BinQ.sc_neg_iff]
      exact ⟨.inr (.inr ⟨_, rfl⟩), rfl⟩
  obtain ⟨hx, rfl⟩ := hx
  obtain ⟨hy, rfl⟩ := hy
  rcases hx with hx | rfl | ⟨s, rfl⟩ <;> rcases hy with hy | rfl | ⟨t, rfl⟩
  · exact ⟨.inl (Rg.mul (by norm_num) hx hy h0 h1), mul_scale2 (by norm_num) hx hy h0 h1 h2 h3 h4⟩
  · cases x <;> exact ⟨.inr (.inl rfl), rfl⟩
  · rcases hx.cases with rfl | ⟨u, rfl, -, -⟩
    · exact ⟨.inr (.inl rfl), rfl⟩
    · exact inf_r t
  · exact ⟨.inr (.inl rfl), rfl⟩
  · exact ⟨.inr (.inl rfl), rfl⟩
  · exact ⟨.inr (.inl rfl), rfl⟩
  · rcases hy.cases with rfl | ⟨u, rfl, -, -⟩
    · exact ⟨.inr (.inl rfl), rfl⟩
    · exact inf_l s
  · exact ⟨.inr (.inl rfl), rfl⟩
  · exact ⟨.inr (.inr ⟨_, rfl⟩), rfl⟩

theorem Sc.div (hx : Sc e b m x x') (hy : Sc f c n y y') (h0 : -1074 ≤ b - f := by omega) (h1 : b - f < 1024 := by omega)
    (h2 : -1022 ≤ e - c := by omega) (h3 : -1022 ≤ e - c + (m - n) := by omega) (h4 : b - f + (m - n) < 1024 := by omega) :
    Sc (e - c - 52) (b - f) (m - n) (x / y) (x' / y') := by
  refine ⟨(hx.1.div (by norm_num) hy.1 h0 h1).mono (by norm_num) le_rfl, ?_⟩
  obtain ⟨hx, rfl⟩ := hx
  obtain ⟨hy, rfl⟩ := hy
  have sg (k : ℤ) (u : Q64) : decide (u.sc k < 0) = decide (u < 0) := decide_eq_decide.mpr BinQ.sc_neg_iff
  rcases hx with hx | rfl | ⟨s, rfl⟩ <;> rcases hy with hy | rfl | ⟨t, rfl⟩
  · exact div_scale2 (by norm_num) hx hy h0 h1 (by omega) (by omega) h4
  · cases x <;> rfl
  · rcases hx.cases with rfl | ⟨u, rfl, -, -⟩
    · exact (scale2_kzero _).symm
    · show Fl.zero (xor (decide (u.sc m < 0)) t) = scale2 (m - n) (Fl.zero (xor (decide (u < 0)) t))
      rw [sg, scale2_kzero]
  · rfl
  · rfl
  · rfl
  · rcases hy.cases with rfl | ⟨u, rfl, -, -⟩
    · rfl
    · show inf (xor s (decide (u.sc n < 0))) = scale2 (m - n) (inf (xor s (decide (u < 0))))
      rw [sg]; rfl
  · rfl
  · rfl

/-- a quotient of numbers in the same unit -/
theorem Sc.div_same (hx : Sc e b m x x') (hy : Sc f c m y y') : x' / y' = x / y := by rw [hx.2, hy.2, div_scale2_same]

theorem Sc.sqrt (hx : Sc e b (m + m) x x') (h0 : -1074 ≤ (b + 1) / 2 := by omega) (h1 : (b + 1) / 2 < 1024 := by omega)
    (h2 : -1022 ≤ e / 2 := by omega) (h3 : -1022 ≤ e / 2 + m := by omega) (h4 : (b + 1) / 2 + m < 1024 := by omega) :
    Sc (e / 2 - 52) ((b + 1) / 2) m (Fl.sqrt x) (Fl.sqrt x') := by
  refine ⟨(hx.1.sqrt h0 h1 (by norm_num)).mono (by norm_num) le_rfl, ?_⟩
  obtain ⟨hx, rfl⟩ := hx
  rw [← two_mul]
  rcases hx with hx | rfl | ⟨s, rfl⟩
  · exact sqrt_scale2 (by norm_num) hx h0 h1 (by omega) (by omega) h4
  · rfl
  · cases s <;> rfl

/-! ### the quotient of a coordinate by the length -/

theorem pow2_le_rnd {v : ℚ} {k : ℤ} (h : pow2 k ≤ v) (hk : -1074 ≤ k) : pow2 k ≤ rndQ 53 (-1074) v := by
  have h1 : rndQ 53 (-1074) (pow2 k) = pow2 k := by
    refine Gr.rnd_eq (e := k) ⟨1, by push_cast; rw [one_mul]⟩ ?_
    have : ilog2 |pow2 k| ≤ k := ilog2_le (by rw [abs_of_pos (pow2_pos k)]; exact pow2_pos k) (by rw [abs_of_pos (pow2_pos k)]; exact pow2_lt.mpr (by omega))
    unfold ulpExp; omega
  rw [← h1]
  exact rndQ_mono_pos (by norm_num) (pow2_pos k) h

theorem pow2_le_sqrtQ {v : ℚ} {k : ℤ} (hv : 0 < v) (h : pow2 (2 * k) ≤ v) (hk : -1074 ≤ k) : pow2 k ≤ sqrtQ 53 (-1074) v := by
  have hl := le_ilog2 hv h
  refine (pow2_le.mpr (show k ≤ ilog2 v / 2 by omega)).trans ?_
  have h' : pow2 (ilog2 v / 2) * pow2 (ilog2 v / 2) ≤ v := by
    rw [← pow2_add]; exact (pow2_le.mpr (by omega)).trans (ilog2_spec hv).1
  unfold sqrtQ; simp only
  have hu : ulpExp 53 (-1074) (ilog2 v / 2) ≤ ilog2 v / 2 := by unfold ulpExp; omega
  set j := ilog2 v / 2
  set u := ulpExp 53 (-1074) j
  have hu0 := pow2_pos u
  obtain ⟨m, hm1, hm⟩ := pow2_int (show 0 ≤ j - u by omega)
  have e : pow2 j = m * pow2 u := by rw [← hm, ← pow2_add]; congr 1; ring
  have : m ≤ rneSqrt (v / (pow2 u * pow2 u)) := by
    apply le_rneSqrt (by positivity)
    rw [le_div_iff₀ (by positivity)]
    rw [e] at h'; linarith
  rw [e]
  have : (m : ℚ) ≤ (rneSqrt (v / (pow2 u * pow2 u)) : ℚ) := by exact_mod_cast this
  gcongr

/-- finite and at least `2^k`, or not finite -/
def Lo (k : ℤ) (x : Fl Q64) : Prop := ∀ a : Q64, x.Is a → pow2 k ≤ a.q

/-- finite and not negative, or not finite -/
def Nn (x : Fl Q64) : Prop := ∀ a : Q64, x.Is a → 0 ≤ a.q

theorem Nn.sq (x : Fl Q64) : Nn (x * x) := by
  intro a h
  rcases x with _ | s | _ | v
  · exact absurd h (by simp [Is, val, HMul.hMul, Mul.mul, Fl.mul])
  · cases s <;> exact absurd h (by simp [Is, val, HMul.hMul, Mul.mul, Fl.mul])
  · rw [show a = 0 from (Option.some.inj h).symm]; exact le_rfl
  · rw [Fl.mul_rndQ (x := fin v) (y := fin v) (a := v) (b := v) rfl rfl h]; exact rndQ_nonneg (mul_self_nonneg v.q)

theorem is_of_add {a : Q64} (h : (x + y).Is a) : ∃ u v : Q64, x.Is u ∧ y.Is v := by
  cases x <;> cases y <;> first | exact ⟨_, _, rfl, rfl⟩ | skip
  all_goals exact absurd h (by simp [Is, val, HAdd.hAdd, Add.add, Fl.add] <;> split_ifs <;> simp)

theorem Nn.add (hx : Nn x) (hy : Nn y) : Nn (x + y) := by
  intro a h
  obtain ⟨u, v, hu, hv⟩ := is_of_add h
  rw [Fl.add_rndQ hu hv h]; exact rndQ_nonneg (add_nonneg (hx u hu) (hy v hv))

theorem Lo.add_left (hx : Lo k x) (hy : Nn y) (hk : -1074 ≤ k) : Lo k (x + y) := by
  intro a h
  obtain ⟨u, v, hu, hv⟩ := is_of_add h
  rw [Fl.add_rndQ hu hv h]
  refine pow2_le_rnd ?_ hk
  have := hx u hu; have := hy v hv
  show pow2 k ≤ u.q + v.q
  linarith

theorem Lo.add_right (hx : Nn x) (hy : Lo k y) (hk : -1074 ≤ k) : Lo k (x + y) := by
  intro a h
  obtain ⟨u, v, hu, hv⟩ := is_of_add h
  rw [Fl.add_rndQ hu hv h]
  refine pow2_le_rnd ?_ hk
  have := hx u hu; have := hy v hv
  show pow2 k ≤ u.q + v.q
  linarith

theorem Lo.sq {v : Q64} (hv : pow2 k ≤ |v.q|) (hk : -1074 ≤ 2 * k) : Lo (2 * k) (fin v * fin v) := by
  intro a h
  rw [Fl.mul_rndQ (x := fin v) (y := fin v) (a := v) (b := v) rfl rfl h]
  refine pow2_le_rnd ?_ hk
  rw [show v.q * v.q = |v.q| * |v.q| from (abs_mul_abs_self _).symm, two_mul, pow2_add]
  exact mul_le_mul hv hv (pow2_pos _).le (abs_nonneg _)

theorem zero_div_ext (x y : Fl Q64) (h : x.val = some 0) : (x / y).Ext e b := by
  have key (s : Bool) (v : Q64) : (divFin s 0 v).Ext e b := by
    unfold divFin
    by_cases h : v = 0
    · rw [if_pos h, if_pos rfl]; exact .inr (.inl rfl)
    · rw [if_neg h, if_pos rfl]; exact .inl (zero_rg s)
  rcases x with _ | s | _ | u
  · cases h
  · cases h
  · rcases y with _ | t | _ | v
    · exact .inr (.inl rfl)
    · exact .inl (zero_rg _)
    · exact .inr (.inl rfl)
    · exact key _ v
  · obtain rfl : u = 0 := Option.some.inj h
    rcases y with _ | t | _ | v
    · exact .inr (.inl rfl)
    · exact .inl (zero_rg _)
    · exact key (!(decide ((0 : Q64) < 0))) 0
    · exact key _ v

theorem div_special_ext (u : Q64) (y : Fl Q64) (h : y = nan ∨ (∃ s, y = inf s) ∨ y = nzero ∨ y = fin 0) : (fin u / y).Ext e b := by
  have key (s : Bool) : (divFin s u 0).Ext e b := by
    unfold divFin
    rw [if_pos rfl]
    split_ifs with h
    · exact .inr (.inl rfl)
    · exact .inr (.inr ⟨s, rfl⟩)
  rcases h with rfl | ⟨s, rfl⟩ | rfl | rfl
  · exact .inr (.inl rfl)
  · exact .inl (zero_rg _)
  · exact key _
  · exact key _

theorem inf_div_ext (s : Bool) (y : Fl Q64) : ((inf s : Fl Q64) / y).Ext e b := by
  cases y <;> first | exact .inr (.inl rfl) | exact .inr (.inr ⟨_, rfl⟩)

/-- a coordinate over the root of something at least as large as its square is at most two -/
theorem Ext.unit (hx : x.Ext e b) (hs : y.Ext f c) (h : ∀ v : Q64, x = fin v → ∀ j, -537 ≤ j → pow2 j ≤ |v.q| → Lo (2 * j) y)
    (he : -537 ≤ e) (h0 : -1074 ≤ (c + 1) / 2) : (x / Fl.sqrt y).Ext (e - (c + 1) / 2 - 52) 1 := by
  rcases hx with hx | rfl | ⟨s, rfl⟩
  · rcases hx.cases with rfl | ⟨u, rfl, gu, bu⟩
    · exact zero_div_ext _ _ rfl
    by_cases hu : u = 0
    · subst hu; exact zero_div_ext _ _ rfl
    have lu : pow2 e ≤ |u.q| := gu.lower.resolve_left fun h => hu (BinQ.q_inj h)
    have pu : 0 < |u.q| := (pow2_pos e).trans_le lu
    rcases hs with hs | rfl | ⟨s, rfl⟩
    · rcases hs.cases with rfl | ⟨a, rfl, ga, ba⟩
      · exact div_special_ext _ _ (.inr (.inr (.inl rfl)))
      have hl := h u rfl (ilog2 |u.q|) (by have := le_ilog2 pu lu; omega) (ilog2_spec pu).1 a rfl
      have pa : 0 < a.q := (pow2_pos _).trans_le hl
      have er : Fl.sqrt (fin a) = finish 1024 false (sqrtQ 53 (-1074) a.q) := by
        show (if a < 0 then nan else if a = 0 then fin 0 else Fmt.rsqrt a) = _
        rw [if_neg (show ¬ a < 0 from not_lt.mpr pa.le), if_neg (show ¬ a = 0 from pa.ne')]; rfl
      have lr := pow2_le_sqrtQ pa hl (by have := le_ilog2 pu lu; omega)
      have pr := (pow2_pos _).trans_le lr
      rw [er]
      unfold finish
      rw [if_neg pr.ne']
      split_ifs with hov
      · exact div_special_ext _ _ (.inr (.inl ⟨false, rfl⟩))
      · rw [abs_of_pos pa] at ba
        have l2 : ilog2 a.q ≤ c := ilog2_le pa (ba.trans_lt (pow2_lt.mpr (by omega)))
        have hr : sqrtQ 53 (-1074) a.q ≤ pow2 ((c + 1) / 2) := by
          refine sqrtQ_le_pow2 pa ?_ (ba.trans ?_)
          · unfold ulpExp; omega
          · rw [← pow2_add]; exact pow2_le.mpr (by omega)
        generalize sqrtQ 53 (-1074) a.q = r at *
        have key (s : Bool) (w : Q64) (hw : ¬ w = 0) : divFin s u w = Fmt.rnd (u / w) := by unfold divFin; rw [if_neg hw, if_neg hu]
        show (divFin _ u (r : Q64)).Ext _ _
        rw [key _ r pr.ne']
        refine .inl ((Ext.div.rnd_div (p := 53) (by norm_num) (v := u / (show Q64 from r)) (l := e - (c + 1) / 2) ?_ ?_ (by norm_num) (by norm_num)).mono (by norm_num) le_rfl)
        · show pow2 _ ≤ |u.q / r|
          rw [abs_div, abs_of_pos pr, le_div_iff₀ pr]
          refine _root_.le_trans (mul_le_mul_of_nonneg_left hr (pow2_pos _).le) ?_
          rw [← pow2_add, sub_add_cancel]; exact lu
        · show |u.q / r| ≤ _
          rw [abs_div, abs_of_pos pr, div_le_iff₀ pr]
          refine _root_.le_trans (ilog2_spec pu).2.le ?_
          rw [add_comm, pow2_add]
          exact mul_le_mul_of_nonneg_left lr (pow2_pos _).le
    · exact div_special_ext _ _ (.inl rfl)
    · cases s
      · exact div_special_ext _ _ (.inr (.inl ⟨_, rfl⟩))
      · exact div_special_ext _ _ (.inl rfl)
  · exact .inr (.inl rfl)
  · exact inf_div_ext s _

end Fl

/-! ### vectors -/

/-- `a'` is `a` in another unit -/
def V3.Sc (e b m : ℤ) (a a' : V3 Q64) : Prop :=
  Fl.Sc e b m a.val[0] a'.val[0] ∧ Fl.Sc e b m a.val[1] a'.val[1] ∧ Fl.Sc e b m a.val[2] a'.val[2]

namespace V3

variable {e b f c m n k : ℤ} {u u' v v' : V3 Q64} {s s' : Fl Q64}

theorem Sc.mono (h : Sc e b m u u') (he : f ≤ e := by omega) (hb : b ≤ c := by omega) : Sc f c m u u' :=
  ⟨h.1.mono he hb, h.2.1.mono he hb, h.2.2.mono he hb⟩

theorem Sc.cast (h : Sc e b m u u') (hm : m = n := by omega) : Sc e b n u u' := hm ▸ h

theorem Sc.neg (h : Sc e b m u u') : Sc e b m ⟨#v[-u.val[0], -u.val[1], -u.val[2]]⟩ ⟨#v[-u'.val[0], -u'.val[1], -u'.val[2]]⟩ := ⟨h.1.neg, h.2.1.neg, h.2.2.neg⟩

section
variable (hu : Sc e b m u u') (hv : Sc f c m v v')
include hu hv

theorem Sc.add (h0 : -1074 ≤ max b c + 1 := by omega) (h1 : max b c + 1 < 1024 := by omega)
    (h2 : -1074 ≤ min e f := by omega) (h3 : -1074 ≤ min e f + m := by omega) (h4 : max b c + 1 + m < 1024 := by omega) :
    Sc (min e f) (max b c + 1) m (V3.add u v) (V3.add u' v') :=
  ⟨hu.1.add hv.1, hu.2.1.add hv.2.1, hu.2.2.add hv.2.2⟩

theorem Sc.sub (h0 : -1074 ≤ max b c + 1 := by omega) (h1 : max b c + 1 < 1024 := by omega)
    (h2 : -1074 ≤ min e f := by omega) (h3 : -1074 ≤ min e f + m := by omega) (h4 : max b c + 1 + m < 1024 := by omega) :
    Sc (min e f) (max b c + 1) m (V3.sub u v) (V3.sub u' v') :=
  ⟨hu.1.sub hv.1, hu.2.1.sub hv.2.1, hu.2.2.sub hv.2.2⟩

end

theorem Sc.scl (hu : Sc e b m u u') (hs : Fl.Sc f c n s s') (h0 : -1074 ≤ b + c := by omega) (h1 : b + c < 1024 := by omega)
    (h2 : -1074 ≤ e + f := by omega) (h3 : -1074 ≤ e + f + (m + n) := by omega) (h4 : b + c + (m + n) < 1024 := by omega) :
    Sc (e + f) (b + c) (m + n) (V3.scl u s) (V3.scl u' s') :=
  ⟨hu.1.mul hs, hu.2.1.mul hs, hu.2.2.mul hs⟩

theorem Sc.dv (hu : Sc e b m u u') (hv : Sc f c n v v') (h0 : -1074 ≤ b - f := by omega) (h1 : b - f < 1024 := by omega)
    (h2 : -1022 ≤ e - c := by omega) (h3 : -1022 ≤ e - c + (m - n) := by omega) (h4 : b - f + (m - n) < 1024 := by omega) :
    Sc (e - c - 52) (b - f) (m - n) (V3.dv u v) (V3.dv u' v') :=
  ⟨hu.1.div hv.1, hu.2.1.div hv.2.1, hu.2.2.div hv.2.2⟩

theorem Sc.dot (hu : Sc e b m u u') (hv : Sc f c n v v') (h0 : -1074 ≤ b + c := by omega) (h1 : b + c + 2 < 1024 := by omega)
    (h2 : -1074 ≤ e + f := by omega) (h3 : -1074 ≤ e + f + (m + n) := by omega) (h4 : b + c + 2 + (m + n) < 1024 := by omega) :
    Fl.Sc (e + f) (b + c + 2) (m + n) (V3.dotp u v) (V3.dotp u' v') :=
  (((hu.1.mul hv.1).add (hu.2.1.mul hv.2.1)).add (hu.2.2.mul hv.2.2)).mono

theorem Sc.crs (hu : Sc e b m u u') (hv : Sc f c n v v') (h0 : -1074 ≤ b + c := by omega) (h1 : b + c + 1 < 1024 := by omega)
    (h2 : -1074 ≤ e + f := by omega) (h3 : -1074 ≤ e + f + (m + n) := by omega) (h4 : b + c + 1 + (m + n) < 1024 := by omega) :
    Sc (e + f) (b + c + 1) (m + n) (V3.crs u v) (V3.crs u' v') :=
  ⟨((hu.2.1.mul hv.2.2).sub (hu.2.2.mul hv.2.1)).mono, ((hu.2.2.mul hv.1).sub (hu.1.mul hv.2.2)).mono,
    ((hu.1.mul hv.2.1).sub (hu.2.1.mul hv.1)).mono⟩

theorem Sc.mag (hu : Sc e b m u u') (h0 : -537 ≤ b := by omega) (h1 : b + b + 2 < 1024 := by omega)
    (h2 : -537 ≤ e := by omega) (h3 : -537 ≤ e + m := by omega) (h4 : b + b + 2 + (m + m) < 1024 := by omega) :
    Fl.Sc (e - 52) (b + 2) m (V3.mag u) (V3.mag u') :=
  (Fl.Sc.sqrt (hu.dot hu)).mono

/-- the unit vector does not depend on the unit of length, bit for bit -/
theorem Sc.nrm_eq (hu : Sc e b m u u') (h0 : -537 ≤ b := by omega) (h1 : b + b + 2 < 1024 := by omega)
    (h2 : -537 ≤ e := by omega) (h3 : -537 ≤ e + m := by omega) (h4 : b + b + 2 + (m + m) < 1024 := by omega) :
    V3.nrm u' = V3.nrm u := by
  have hm := hu.mag
  unfold V3.nrm
  rw [hu.1.div_same hm, hu.2.1.div_same hm, hu.2.2.div_same hm]

theorem Sc.nrm (hu : Sc e b m u u') (h0 : -537 ≤ b := by omega) (h1 : b + b + 2 < 1024 := by omega)
    (h2 : -537 ≤ e := by omega) (h3 : -537 ≤ e + m := by omega) (h4 : b + b + 2 + (m + m) < 1024 := by omega) :
    Sc (e - b - 54) 1 0 (V3.nrm u) (V3.nrm u') := by
  rw [hu.nrm_eq]
  have hd := (hu.dot hu).1
  have q (x : Fl Q64) := Fl.Nn.sq x
  have L {x : Fl Q64} {v : Q64} (hx : x = .fin v) {j : ℤ} (hj : -537 ≤ j) (hv : Bin.pow2 j ≤ |v.q|) : Fl.Lo (2 * j) (x * x) := by
    rw [hx]; exact Fl.Lo.sq hv (by omega)
  refine ⟨.of_ext ((Fl.Ext.unit hu.1.1 hd ?_ h2 (by omega)).mono (by omega) le_rfl),
    .of_ext ((Fl.Ext.unit hu.2.1.1 hd ?_ h2 (by omega)).mono (by omega) le_rfl),
    .of_ext ((Fl.Ext.unit hu.2.2.1 hd ?_ h2 (by omega)).mono (by omega) le_rfl)⟩
  · intro v hx j hj hv
    exact ((L hx hj hv).add_left (q _) (by omega)).add_left (q _) (by omega)
  · intro v hx j hj hv
    exact ((L hx hj hv).add_right (q _) (by omega)).add_left (q _) (by omega)
  · intro v hx j hj hv
    exact (L hx hj hv).add_right ((q _).add (q _)) (by omega)

end V3

end Mazth
