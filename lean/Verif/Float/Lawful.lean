import Verif.Float.Exact

/-!
# Laws of a rounding

`LawfulFmt K` collects the facts about the rounding of `K` that the "for all floats" theorems use: monotone, odd, idempotent,
sign-preserving, exact on 1 and on doubling (unless it overflows).  They are proved for exact arithmetic here and for
binary64/binary32 in `Verif/Float/BinaryLawful.lean`.

`x.WF` ("well-formed") says that `x` really is a datum of the format: special, zero, or a finite value that rounds to
itself.  All operations produce well-formed data (`WF.add`, …), so in the Rust code every float is well-formed.
-/

set_option linter.unusedSectionVars false
set_option autoImplicit false

namespace Mazth

/-- The rounding laws. -/
class LawfulFmt (K : Type) [Field K] [LinearOrder K] [Fmt K] : Prop where
  rnd_pos : ∀ v : K, 0 < v → Fmt.rnd v = .inf false ∨ ∃ w, 0 ≤ w ∧ Fmt.rnd v = .fin w
  rnd_neg : ∀ v : K, 0 < v → Fmt.rnd (-v) = -(Fmt.rnd v : Fl K)
  rnd_mono : ∀ v w : K, 0 < v → v ≤ w → Fl.le (Fmt.rnd v) (Fmt.rnd w) = true
  rnd_idem : ∀ v w : K, 0 < v → Fmt.rnd v = .fin w → 0 < w → Fmt.rnd w = .fin w
  rnd_one : (Fmt.rnd 1 : Fl K) = .fin 1
  rnd_two : (Fmt.rnd 2 : Fl K) = .fin 2
  rnd_double : ∀ v : K, 0 < v → Fmt.rnd v = .fin v → Fmt.rnd (2 * v) = .fin (2 * v) ∨ Fmt.rnd (2 * v) = .inf false
  rsqrt_pos : ∀ v : K, 0 < v → Fmt.rsqrt v = .inf false ∨
    ∃ w, 0 ≤ w ∧ Fmt.rsqrt v = .fin w ∧ (w = 0 ∨ Fmt.rnd w = .fin w)
  eps_pos : (0 : K) < Fmt.eps

noncomputable instance : LawfulFmt ℝ where
  rnd_pos v hv := .inr ⟨v, hv.le, rfl⟩
  rnd_neg v hv := by
    show Fl.fin (-v) = Fl.neg (Fl.fin v)
    simp [Fl.neg, hv.ne']
  rnd_mono v w _ h := by simp [Fl.le, h]
  rnd_idem v w _ _ _ := rfl
  rnd_one := rfl
  rnd_two := rfl
  rnd_double v _ _ := .inl rfl
  rsqrt_pos v _ := .inr ⟨_, Real.sqrt_nonneg v, rfl, .inr rfl⟩
  eps_pos := by unfold Fmt.eps instFmtReal; positivity

namespace Fl

variable {K : Type} [Field K] [LinearOrder K] [IsStrictOrderedRing K] [Fmt K]

/-- finite (not NaN, not infinite) -/
def Finite (x : Fl K) : Prop := ∃ v, x.Is v

/-- `v` is a value of the format -/
def Rep (v : K) : Prop := v = 0 ∨ Fmt.rnd v = .fin v

/-- `x` is a datum of the format -/
def WF : Fl K → Prop
  | fin v => Rep v
  | _ => True

/-! ### `le`/`lt` as orders (no rounding involved) -/

section order
omit [Fmt K]
variable {x y z : Fl K}

theorem le_refl (h : x ≠ nan) : le x x = true := by
  cases x <;> simp_all [le]

theorem le_trans (h : le x y = true) (h' : le y z = true) : le x z = true := by
  cases x <;> cases y <;> cases z <;> simp_all [le] <;> first | linarith | (rcases h with h | h <;> simp_all)

theorem le_total (hx : x ≠ nan) (hy : y ≠ nan) : le x y = true ∨ le y x = true := by
  cases x <;> cases y <;> simp_all [le] <;> first | exact _root_.le_total _ _ | (rename_i s t; cases s <;> cases t <;> simp)

theorem le_ne_nan (h : le x y = true) : x ≠ nan ∧ y ≠ nan := by
  constructor <;> rintro rfl
  · simp [le] at h
  · cases x <;> simp [le] at h

theorem lt_ne_nan (h : lt x y = true) : x ≠ nan ∧ y ≠ nan := by
  constructor <;> rintro rfl
  · simp [lt] at h
  · cases x <;> simp [lt] at h

theorem lt_eq_not_le (hx : x ≠ nan) (hy : y ≠ nan) : lt x y = !le y x := by
  cases x <;> cases y <;> simp_all [le, lt] <;>
    first | (rename_i a b; cases a <;> cases b <;> rfl) | (rw [← decide_not, decide_eq_decide]; exact not_le.symm)

theorem neg_neg' (x : Fl K) : -(-x) = x := by
  show neg (neg x) = x
  cases x with
  | nan => rfl
  | inf s => simp [neg]
  | nzero => simp [neg]
  | fin v =>
    by_cases h : v = 0
    · simp [neg, h]
    · simp [neg, h]

@[simp] theorem le_nan_left : le (nan : Fl K) x = false := by cases x <;> rfl
@[simp] theorem le_nan_right : le x (nan : Fl K) = false := by cases x <;> rfl
@[simp] theorem lt_nan_left : lt (nan : Fl K) x = false := by cases x <;> rfl
@[simp] theorem lt_nan_right : lt x (nan : Fl K) = false := by cases x <;> rfl

theorem Finite.ne_nan (h : Finite x) : x ≠ nan := by
  rintro rfl; obtain ⟨v, h⟩ := h; simp [Is, val] at h
theorem Finite.ne_inf (h : Finite x) (s : Bool) : x ≠ inf s := by
  rintro rfl; obtain ⟨v, h⟩ := h; simp [Is, val] at h
theorem finite_fin (v : K) : Finite (fin v) := ⟨v, rfl⟩
theorem finite_nzero : Finite (nzero : Fl K) := ⟨0, rfl⟩
theorem finite_iff : Finite x ↔ x ≠ nan ∧ x ≠ inf true ∧ x ≠ inf false := by
  constructor
  · exact fun h => ⟨h.ne_nan, h.ne_inf _, h.ne_inf _⟩
  · rintro ⟨h1, h2, h3⟩
    cases x with
    | nan => exact absurd rfl h1
    | inf s => cases s <;> contradiction
    | nzero => exact finite_nzero
    | fin v => exact finite_fin v

end order

/-! ### commutativity (no law needed) -/

theorem addFin_eq (a b : K) : addFin a b = lit (a + b) := rfl

theorem add_comm' (x y : Fl K) : x + y = y + x := by
  show Fl.add x y = Fl.add y x
  cases x <;> cases y <;> simp only [Fl.add, addFin_eq, add_comm]
  rename_i s t
  by_cases h : s = t
  · simp [h]
  · simp [h, Ne.symm h]

theorem mul_comm' (x y : Fl K) : x * y = y * x := by
  show Fl.mul x y = Fl.mul y x
  cases x <;> cases y <;> simp only [Fl.mul, mulFin, mul_comm, Bool.xor_comm]

/-! ### rounding -/

section lawful
variable [LawfulFmt K] {x y z : Fl K} {v w : K}

theorem lit_zero : lit (0 : K) = fin 0 := by simp [lit]

theorem lit_of_ne (h : v ≠ 0) : lit v = Fmt.rnd v := by simp [lit, h]

theorem lit_rep (h : Rep v) : lit v = fin v := by
  unfold lit; split
  · simp_all
  · rcases h with h | h
    · contradiction
    · exact h

theorem rnd_neg' (h : v ≠ 0) : Fmt.rnd (-v) = -(Fmt.rnd v : Fl K) := by
  rcases lt_or_gt_of_ne h with h | h
  · have := LawfulFmt.rnd_neg (-v) (neg_pos.mpr h)
    rw [neg_neg] at this
    rw [this, neg_neg']
  · exact LawfulFmt.rnd_neg v h

theorem Rep.neg (h : Rep v) : Rep (-v) := by
  rcases h with rfl | h
  · left; simp
  · by_cases h0 : v = 0
    · left; simp [h0]
    · right; rw [rnd_neg' h0, h]
      show Fl.neg (fin v) = _
      simp [Fl.neg, h0]

theorem rep_one : Rep (1 : K) := .inr LawfulFmt.rnd_one
theorem rep_two : Rep (2 : K) := .inr LawfulFmt.rnd_two
theorem rep_zero : Rep (0 : K) := .inl rfl

theorem lit_ne_nan (v : K) : lit v ≠ nan := by
  rcases lt_trichotomy v 0 with h | h | h
  · rw [lit_of_ne h.ne, ← neg_neg v, LawfulFmt.rnd_neg _ (neg_pos.mpr h)]
    rcases LawfulFmt.rnd_pos (-v) (neg_pos.mpr h) with e | ⟨w, _, e⟩ <;> rw [e]
    · show neg _ ≠ _; simp [neg]
    · show neg _ ≠ _; simp only [neg]; split <;> simp
  · rw [h, lit_zero]; simp
  · rw [lit_of_ne h.ne']
    rcases LawfulFmt.rnd_pos v h with e | ⟨w, _, e⟩ <;> rw [e] <;> simp

/-- rounding a positive value gives `+∞` or a non-negative value -/
theorem lit_nonneg (h : 0 ≤ v) : lit v = inf false ∨ ∃ w, 0 ≤ w ∧ lit v = fin w := by
  rcases h.eq_or_lt with h | h
  · right; exact ⟨0, le_rfl, by rw [← h, lit_zero]⟩
  · rw [lit_of_ne h.ne']; exact LawfulFmt.rnd_pos v h

theorem neg_le_neg (h : le x y = true) : le (-y) (-x) = true := by
  show le (neg y) (neg x) = true
  have key : ∀ v : K, neg (fin v) = if v = 0 then nzero else fin (-v) := fun _ => rfl
  cases x with
  | nan => simp at h
  | inf s =>
    cases y with
    | fin b =>
      rw [key]
      by_cases hb : b = 0 <;> simp_all [le, neg]
    | inf t => cases s <;> cases t <;> simp_all [le, neg]
    | _ => simp_all [le, neg]
  | nzero =>
    cases y with
    | fin b =>
      rw [key]
      by_cases hb : b = 0 <;> simp_all [le, neg]
    | _ => simp_all [le, neg]
  | fin a =>
    cases y with
    | fin b =>
      rw [key, key]
      by_cases ha : a = 0 <;> by_cases hb : b = 0 <;> simp_all [le]
    | inf s =>
      rw [key]
      by_cases ha : a = 0 <;> simp_all [le, neg]
    | nzero =>
      rw [key]
      by_cases ha : a = 0 <;> simp_all [le, neg]
    | nan => simp at h

theorem lit_neg_of_ne (h : v ≠ 0) : lit (-v) = -(lit v) := by
  rw [lit_of_ne h, lit_of_ne (neg_ne_zero.mpr h), rnd_neg' h]

theorem lit_nonneg_le (h : 0 ≤ v) : le (fin 0) (lit v) = true := by
  rcases lit_nonneg h with e | ⟨w, hw, e⟩ <;> rw [e] <;> simp [le, *]

theorem lit_nonpos_le (h : v ≤ 0) : le (lit v) (fin 0) = true := by
  by_cases h0 : v = 0
  · rw [h0, lit_zero]; simp [le]
  · have := neg_le_neg (lit_nonneg_le (neg_nonneg.mpr h))
    rw [lit_neg_of_ne h0] at this
    rw [neg_neg'] at this
    exact le_trans this (by show le (neg (fin 0)) _ = _; simp [neg, le])

/-- rounding is monotone -/
theorem lit_mono (h : v ≤ w) : le (lit v) (lit w) = true := by
  rcases le_or_gt v 0 with hv | hv
  · rcases le_or_gt 0 w with hw | hw
    · exact le_trans (lit_nonpos_le hv) (lit_nonneg_le hw)
    · have hv' : v < 0 := h.trans_lt hw
      have := neg_le_neg (LawfulFmt.rnd_mono (-w) (-v) (neg_pos.mpr hw) (_root_.neg_le_neg h))
      rw [← rnd_neg' (neg_ne_zero.mpr hv'.ne), ← rnd_neg' (neg_ne_zero.mpr hw.ne), neg_neg, neg_neg] at this
      rwa [lit_of_ne hv'.ne, lit_of_ne hw.ne]
  · rw [lit_of_ne hv.ne', lit_of_ne (hv.trans_le h).ne']
    exact LawfulFmt.rnd_mono v w hv h

/-! ### well-formedness is preserved -/

theorem wf_lit (v : K) : WF (lit v) := by
  have pos : ∀ u : K, 0 < u → WF (Fmt.rnd u : Fl K) := by
    intro u hu
    rcases LawfulFmt.rnd_pos u hu with e | ⟨w, hw, e⟩ <;> rw [e]
    · trivial
    · rcases hw.eq_or_lt with h | h
      · exact .inl h.symm
      · exact .inr (LawfulFmt.rnd_idem u w hu e h)
  rcases lt_trichotomy v 0 with h | h | h
  · rw [lit_of_ne h.ne, ← neg_neg v, LawfulFmt.rnd_neg _ (neg_pos.mpr h)]
    have := pos (-v) (neg_pos.mpr h)
    revert this
    generalize (Fmt.rnd (-v) : Fl K) = x
    intro hx
    show WF (neg x)
    cases x <;> simp only [neg]
    · trivial
    · trivial
    · exact rep_zero
    · split
      · trivial
      · exact Rep.neg hx
  · rw [h, lit_zero]; exact rep_zero
  · rw [lit_of_ne h.ne']; exact pos v h

theorem wf_rnd (h : v ≠ 0) : WF (Fmt.rnd v : Fl K) := by rw [← lit_of_ne h]; exact wf_lit v

theorem wf_zero (s : Bool) : WF (zero s : Fl K) := by
  unfold zero; split
  · trivial
  · exact rep_zero

theorem WF.neg (h : WF x) : WF (-x) := by
  show WF (Fl.neg x)
  cases x <;> simp only [Fl.neg]
  · trivial
  · trivial
  · exact rep_zero
  · split
    · trivial
    · exact Rep.neg h

theorem wf_add (x y : Fl K) : WF (x + y) := by
  show WF (Fl.add x y)
  cases x <;> cases y <;> simp only [Fl.add, addFin_eq] <;> first | trivial | exact wf_lit _ | (split <;> trivial)

theorem wf_sub (x y : Fl K) : WF (x - y) := wf_add x (-y)

theorem wf_mul (x y : Fl K) : WF (x * y) := by
  have h1 : ∀ s (a b : K), WF (mulFin s a b) := by
    intro s a b; unfold mulFin; split
    · exact wf_zero s
    · exact wf_rnd ‹_›
  have h2 : ∀ s (b : K), WF (mulInf s b) := by intro s b; unfold mulInf; split <;> trivial
  show WF (Fl.mul x y)
  cases x <;> cases y <;> simp only [Fl.mul] <;> first | trivial | exact h1 _ _ _ | exact h2 _ _ | exact rep_zero

theorem wf_div (x y : Fl K) : WF (x / y) := by
  have h1 : ∀ s (a b : K), WF (divFin s a b) := by
    intro s a b; unfold divFin; split
    · split <;> trivial
    · split
      · exact wf_zero s
      · exact wf_rnd (div_ne_zero ‹_› ‹_›)
  show WF (Fl.div x y)
  cases x <;> cases y <;> simp only [Fl.div] <;> first | trivial | exact h1 _ _ _ | exact wf_zero _

theorem wf_sqrt (x : Fl K) : WF (Fl.sqrt x) := by
  cases x <;> simp only [Fl.sqrt]
  · trivial
  · split <;> trivial
  · trivial
  · split
    · trivial
    · split
      · exact rep_zero
      · rename_i v h1 h2
        rcases LawfulFmt.rsqrt_pos v (lt_of_le_of_ne (not_lt.mp h1) (Ne.symm h2)) with e | ⟨w, hw, e, h⟩ <;> rw [e]
        · trivial
        · exact h

theorem WF.abs (h : WF x) : WF (Fl.abs x) := by
  cases x <;> simp only [Fl.abs]
  · trivial
  · trivial
  · exact rep_zero
  · rename_i v
    rcases abs_choice v with e | e <;> show Rep _ <;> rw [e]
    · exact h
    · exact Rep.neg h

/-! ### monotonicity of the operations -/

/-- adding on the right is monotone (as long as no NaN arises) -/
theorem add_le_add_right' (h : le x y = true) (h1 : x + z ≠ nan) (h2 : y + z ≠ nan) : le (x + z) (y + z) = true := by
  change Fl.add x z ≠ nan at h1
  change Fl.add y z ≠ nan at h2
  show le (Fl.add x z) (Fl.add y z) = true
  have hn : ∀ v : K, lit v ≠ nan := lit_ne_nan
  have hl : ∀ v : K, ∀ t, le (inf t) (lit v) = true ∨ t = false := by
    intro v t; cases t
    · right; rfl
    · left; cases h : lit v <;> simp_all [le]
  have hr : ∀ v : K, le (lit v) (inf false) = true := by
    intro v; cases h : lit v <;> simp_all [le]
  have hl' : ∀ v : K, le (inf true) (lit v) = true := by
    intro v; cases h : lit v <;> simp_all [le]
  have zz : ∀ v : K, 0 ≤ v → le nzero (lit v) = true := by
    intro v hv; exact le_trans (y := fin 0) (by simp [le]) (lit_nonneg_le hv)
  have zz' : ∀ v : K, v ≤ 0 → le (lit v) nzero = true := by
    intro v hv; exact le_trans (y := fin 0) (lit_nonpos_le hv) (by simp [le])
  cases x <;> cases y <;> cases z <;>
    simp only [Fl.add, addFin_eq, zero_add, add_zero, le, decide_eq_true_eq, Bool.or_eq_true, Bool.not_eq_true',
      Bool.false_eq_true, ne_eq, not_true, reduceCtorEq, not_false_eq_true] at h h1 h2 ⊢ <;>
    first
    | exact lit_mono (by linarith)
    | exact zz _ h
    | exact zz' _ h
    | exact le_refl (hn _)
    | (simp_all [le])


/-- adding a non-negative datum does not decrease a finite datum of the format -/
theorem le_add_nonneg (hx : WF x) (hf : Finite x) {e : Fl K} (he : le 0 e = true) : le x (x + e) = true := by
  have h0 : le x (0 + x) = true := by
    show le x (Fl.add (fin 0) x) = true
    cases x with
    | nan => exact absurd rfl hf.ne_nan
    | inf s => exact absurd rfl (hf.ne_inf s)
    | nzero => simp [Fl.add, addFin, le]
    | fin v => simp only [Fl.add, addFin_eq, zero_add]; rw [lit_rep hx]; exact le_refl (by simp)
  have hn : ∀ y : Fl K, y ≠ nan → y + x ≠ nan := by
    intro y hy
    show Fl.add y x ≠ nan
    cases x with
    | nan => exact absurd rfl hf.ne_nan
    | inf s => exact absurd rfl (hf.ne_inf s)
    | nzero => cases y <;> simp_all [Fl.add, addFin_eq, lit_ne_nan]
    | fin v => cases y <;> simp_all [Fl.add, addFin_eq, lit_ne_nan]
  have := add_le_add_right' (z := x) he (hn _ (le_ne_nan he).1) (hn _ (le_ne_nan he).2)
  rw [add_comm' x e]
  exact le_trans h0 this

theorem add_ne_nan (hf : Finite x) (hy : y ≠ nan) : x + y ≠ nan := by
  show Fl.add x y ≠ nan
  cases x with
  | nan => exact absurd rfl hf.ne_nan
  | inf s => exact absurd rfl (hf.ne_inf s)
  | nzero => cases y <;> simp_all [Fl.add, addFin_eq, lit_ne_nan]
  | fin v => cases y <;> simp_all [Fl.add, addFin_eq, lit_ne_nan]

theorem neg_ne_nan (hy : y ≠ nan) : -y ≠ nan := by
  show Fl.neg y ≠ nan
  cases y <;> simp_all [Fl.neg]
  split <;> simp

/-- adding to a finite datum is monotone -/
theorem add_mono_left (hf : Finite x) (h : le y z = true) : le (x + y) (x + z) = true := by
  rw [add_comm' x y, add_comm' x z]
  refine add_le_add_right' h ?_ ?_
  · rw [add_comm']; exact add_ne_nan hf (le_ne_nan h).1
  · rw [add_comm']; exact add_ne_nan hf (le_ne_nan h).2

theorem sub_mono_right (hf : Finite x) (h : le y z = true) : le (x - z) (x - y) = true :=
  add_mono_left hf (neg_le_neg h)

theorem sub_nonneg_le (hx : WF x) (hf : Finite x) {e : Fl K} (he : le 0 e = true) : le (x - e) x = true := by
  have hn : WF (-x) := hx.neg
  have hfn : Finite (-x) := by
    obtain ⟨v, hv⟩ := hf
    cases x with
    | nan => simp [Is, val] at hv
    | inf s => simp [Is, val] at hv
    | nzero => exact finite_fin 0
    | fin w =>
      show Finite (Fl.neg (fin w))
      simp only [Fl.neg]; split
      · exact finite_nzero
      · exact finite_fin _
  have h1 := neg_le_neg (le_add_nonneg hn hfn he)
  rw [neg_neg'] at h1
  refine le_trans ?_ h1
  -- -( -x + e) = x - e up to the sign of zero
  show le (Fl.add x (Fl.neg e)) (Fl.neg (Fl.add (Fl.neg x) e)) = true
  have key : ∀ v : K, le (lit v) (Fl.neg (lit (-v))) = true := by
    intro v
    by_cases h0 : v = 0
    · subst h0; simp [lit_zero, Fl.neg, le]
    · rw [lit_neg_of_ne h0]
      show le (lit v) (-(-(lit v))) = true
      rw [neg_neg']; exact le_refl (lit_ne_nan v)
  cases x with
  | nan => exact absurd rfl hf.ne_nan
  | inf s => exact absurd rfl (hf.ne_inf s)
  | nzero =>
    cases e with
    | nan => simp at he
    | inf s => simp [Fl.add, Fl.neg, le]
    | nzero => simp [Fl.add, Fl.neg, le, addFin]
    | fin b =>
      by_cases hb : b = 0
      · subst hb; simp [Fl.add, Fl.neg, le, addFin]
      · simp only [Fl.neg, if_neg hb, Fl.add, addFin_eq, zero_add]
        have := key (-b)
        rwa [neg_neg] at this
  | fin a =>
    cases e with
    | nan => simp at he
    | inf s =>
      by_cases ha : a = 0 <;> simp [Fl.add, Fl.neg, le, ha]
    | nzero =>
      by_cases ha : a = 0
      · subst ha; simp [Fl.add, Fl.neg, le, addFin]
      · simp only [Fl.neg, if_neg ha, Fl.add, addFin_eq, add_zero]; exact key a
    | fin b =>
      by_cases ha : a = 0
      · subst ha
        by_cases hb : b = 0
        · subst hb; simp [Fl.add, Fl.neg, le, addFin]
        · simp only [Fl.neg, if_neg hb, Fl.add, addFin_eq, zero_add, if_true]
          have := key (-b)
          rwa [neg_neg] at this
      · by_cases hb : b = 0
        · subst hb; simp only [Fl.neg, if_neg ha, Fl.add, addFin_eq, add_zero, if_true]; exact key a
        · simp only [Fl.neg, if_neg ha, if_neg hb, Fl.add, addFin_eq]
          have := key (a + -b)
          rwa [show -(a + -b) = -a + b by ring] at this

/-! ### squares, sums and roots are not negative -/

/-- NaN, `+∞` or a finite value `≥ 0` that is not `-0` -/
def NonNeg (x : Fl K) : Prop := x = nan ∨ x = inf false ∨ ∃ v, 0 ≤ v ∧ x = fin v

theorem NonNeg.isNeg (h : NonNeg x) : x.isNeg = false := by
  rcases h with rfl | rfl | ⟨v, hv, rfl⟩ <;> simp [Fl.isNeg, *]

theorem nonNeg_sq (x : Fl K) : NonNeg (x * x) := by
  show NonNeg (Fl.mul x x)
  cases x with
  | nan => exact .inl rfl
  | inf s => simp [Fl.mul, NonNeg]
  | nzero => simp [Fl.mul, NonNeg]
  | fin v =>
    simp only [Fl.mul, mulFin, Bool.xor_self]
    split
    · simp [zero, NonNeg]
    · right
      exact LawfulFmt.rnd_pos _ (lt_of_le_of_ne (mul_self_nonneg v) (Ne.symm ‹_›))

theorem NonNeg.add (h : NonNeg x) (h' : NonNeg y) : NonNeg (x + y) := by
  show NonNeg (Fl.add x y)
  rcases h with rfl | rfl | ⟨v, hv, rfl⟩ <;> rcases h' with rfl | rfl | ⟨w, hw, rfl⟩ <;>
    simp only [Fl.add] <;> first | (simp [NonNeg]; done) | exact .inr (lit_nonneg (add_nonneg hv hw))

theorem NonNeg.sqrt (h : NonNeg x) : NonNeg (Fl.sqrt x) := by
  rcases h with rfl | rfl | ⟨v, hv, rfl⟩
  · simp [Fl.sqrt, NonNeg]
  · simp [Fl.sqrt, NonNeg]
  · simp only [Fl.sqrt, if_neg (not_lt.mpr hv)]
    split
    · exact .inr (.inr ⟨0, le_rfl, rfl⟩)
    · rcases LawfulFmt.rsqrt_pos v (lt_of_le_of_ne hv (Ne.symm ‹_›)) with e | ⟨w, hw, e, _⟩
      · exact .inr (.inl e)
      · exact .inr (.inr ⟨w, hw, e⟩)

end lawful

end Fl
end Mazth
