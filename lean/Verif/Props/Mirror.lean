import Verif.Props.Translate

/-!
# C76: mirroring everything mirrors the answer, also in floating point

For every lawful format and all floats: flipping the signs of some coordinates commutes with rounding, so that a query on
mirrored shapes answers with the mirrored location, up to the signs of zeros.
-/

set_option linter.unusedSectionVars false
set_option autoImplicit false

namespace Mazth

variable {K : Type} [Field K] [LinearOrder K] [IsStrictOrderedRing K] [Fmt K] [LawfulFmt K]

/-- the sign flipped, if `b` -/
def Fl.flip (b : Bool) (x : Fl K) : Fl K := if b then -x else x

namespace Fl

variable {x y z x' y' : Fl K} {b c : Bool}

@[simp] theorem flip_false (x : Fl K) : flip false x = x := rfl
@[simp] theorem flip_true (x : Fl K) : flip true x = -x := rfl

theorem Same.flip (h : Same x y) : Same (flip b x) (flip b y) := by cases b <;> [exact h; exact h.neg]

theorem mul_neg' (x y : Fl K) : x * -y = -(x * y) := by rw [mul_comm', neg_mul', mul_comm']

theorem flip_mul (x y : Fl K) : flip b x * flip c y = flip (b ^^ c) (x * y) := by
  cases b <;> cases c
  · rfl
  · exact mul_neg' x y
  · exact neg_mul' x y
  · exact neg_mul_neg' x y

theorem flip_mul_left (x y : Fl K) : flip b x * y = flip b (x * y) := by
  cases b <;> [rfl; exact neg_mul' x y]

theorem flip_add (x y : Fl K) : Same (flip b x + flip b y) (flip b (x + y)) := by
  cases b <;> [exact .refl _; exact neg_add_same x y]

theorem flip_sub (x y : Fl K) : Same (flip b x - flip b y) (flip b (x - y)) := by
  cases b
  · exact .refl _
  · show Same (-x - -y) (-(x - y))
    rw [sub_eq, sub_eq]; exact neg_add_same x (-y)

theorem flip_div (x y : Fl K) : flip b x / y = flip b (x / y) := by
  cases b <;> [rfl; exact neg_div' x y]

theorem div_neg' (x y : Fl K) : x / -y = -(x / y) := by
  have hz (s : Bool) : Fl.neg (zero s : Fl K) = zero !s := neg_zero' s
  have hr {v : K} (h : v ≠ 0) : Fl.neg (Fmt.rnd v : Fl K) = Fmt.rnd (-v) := (rnd_neg' h).symm
  show Fl.div x (Fl.neg y) = Fl.neg (Fl.div x y)
  cases y with
  | nan => cases x <;> rfl
  | inf s =>
    cases x with
    | nan => rfl
    | inf t => rfl
    | nzero => cases s <;> simp [Fl.div, Fl.neg, zero]
    | fin a =>
      show zero _ = Fl.neg (zero _)
      rw [hz]; simp
  | nzero =>
    cases x with
    | nan => rfl
    | inf s => simp [Fl.div, Fl.neg]
    | nzero => simp [Fl.div, Fl.neg, divFin]
    | fin a =>
      by_cases h : a = 0
      · subst h; simp [Fl.div, Fl.neg, divFin]
      · simp [Fl.div, Fl.neg, divFin, h]
  | fin b =>
    by_cases h : b = 0
    · subst h
      cases x with
      | nan => simp [Fl.div, Fl.neg]
      | inf s => simp [Fl.div, Fl.neg]
      | nzero => simp [Fl.div, Fl.neg, divFin]
      | fin a =>
        by_cases h' : a = 0
        · subst h'; simp [Fl.div, Fl.neg, divFin]
        · simp [Fl.div, Fl.neg, divFin, h']
    · simp only [Fl.neg, if_neg h]
      change _ = Fl.neg _
      cases x with
      | nan => rfl
      | inf s => simp only [Fl.div, dec_neg h, Fl.neg]; simp
      | nzero => simp only [Fl.div, divFin, neg_eq_zero, if_neg h, if_true, dec_neg h, hz]
      | fin a =>
        simp only [Fl.div, divFin, neg_eq_zero, if_neg h, dec_neg h]
        by_cases ha : a = 0
        · subst ha; simp only [if_true, hz]; simp
        · rw [if_neg ha, if_neg ha, hr (div_ne_zero ha h), div_neg]

theorem Same.div_left (h : Same x x') (y : Fl K) : Same (x / y) (x' / y) := by
  rcases h with rfl | ⟨h, h'⟩
  · exact .refl _
  · have key {x : Fl K} (h : x.val = some 0) :
        x / y = if y = nan ∨ y.val = some 0 then nan else zero ((x / y).isNeg) := by
      show Fl.div x y = if _ then _ else zero (Fl.div x y).isNeg
      rcases NaN.val_zero h with rfl | rfl <;> cases y with
      | nan => simp [Fl.div]
      | inf s => cases s <;> simp [Fl.div, zero, val, isNeg]
      | nzero => simp [Fl.div, divFin, val]
      | fin b =>
        by_cases hb : b = 0 <;> by_cases hd : b < 0 <;> simp [Fl.div, divFin, val, hb, zero, hd, isNeg]
    have hv (s : Bool) : (zero s : Fl K).val = some 0 := by cases s <;> simp [zero, val]
    by_cases hy : y = nan ∨ y.val = some 0
    · left; rw [key h, key h', if_pos hy, if_pos hy]
    · right; rw [key h, key h', if_neg hy, if_neg hy]; exact ⟨hv _, hv _⟩

/-- a mirrored numerator (up to the sign of zero) over a mirrored denominator -/
theorem div_flip (h : Same x' (flip b x)) (y : Fl K) : Same (x' / flip b y) (x / y) := by
  refine (h.div_left _).trans ?_
  cases b
  · exact .refl _
  · show Same (-x / -y) _
    rw [neg_div', div_neg', neg_neg']; exact .refl _

theorem Same.eq_of_ne (h : Same x y) (hx : x.val ≠ some 0) : x = y := h.elim id fun h => absurd h.1 hx

theorem Same.val_zero (h : Same x y) : x.val = some 0 ↔ y.val = some 0 := by
  rcases h with rfl | h
  · rfl
  · simp [h.1, h.2]

theorem lt_same (h : Same x x') (h' : Same y y') : lt x y = lt x' y' := by
  have k1 {x x' : Fl K} (h : Same x x') (y : Fl K) : lt x y = lt x' y := by
    rcases h with rfl | ⟨h, h'⟩
    · rfl
    · rcases NaN.val_zero h with rfl | rfl <;> rcases NaN.val_zero h' with rfl | rfl <;> cases y <;> simp [lt]
  have k2 {y y' : Fl K} (h : Same y y') (x : Fl K) : lt x y = lt x y' := by
    rcases h with rfl | ⟨h, h'⟩
    · rfl
    · rcases NaN.val_zero h with rfl | rfl <;> rcases NaN.val_zero h' with rfl | rfl <;> cases x <;> simp [lt]
  rw [k1 h, k2 h']

theorem feq_same (h : Same x x') (h' : Same y y') : feq x y = feq x' y' := by
  unfold feq; rw [le_congr h h', le_congr h' h]

theorem Same.sqrt (h : Same x y) : Same (sqrt x) (sqrt y) := by
  rcases h with rfl | ⟨h, h'⟩
  · exact .refl _
  · right
    rcases NaN.val_zero h with rfl | rfl <;> rcases NaN.val_zero h' with rfl | rfl <;> simp [Fl.sqrt, val]

theorem le_neg (x y : Fl K) : le (-x) (-y) = le y x := by
  show le (Fl.neg x) (Fl.neg y) = _
  cases x with
  | nan => cases y <;> rfl
  | inf s =>
    cases y with
    | nan => rfl
    | inf t => cases s <;> cases t <;> rfl
    | nzero => cases s <;> rfl
    | fin b => by_cases h : b = 0 <;> cases s <;> simp [Fl.neg, le, h]
  | nzero =>
    cases y with
    | nan => rfl
    | inf t => cases t <;> rfl
    | nzero => simp [Fl.neg, le]
    | fin b => by_cases h : b = 0 <;> simp [Fl.neg, le, h]
  | fin a =>
    cases y with
    | nan => by_cases h : a = 0 <;> simp [Fl.neg, le, h]
    | inf t => by_cases h : a = 0 <;> cases t <;> simp [Fl.neg, le, h]
    | nzero => by_cases h : a = 0 <;> simp [Fl.neg, le, h]
    | fin b => by_cases h : a = 0 <;> by_cases h' : b = 0 <;> simp [Fl.neg, le, h, h']

theorem lt_neg (x y : Fl K) : lt (-x) (-y) = lt y x := by
  show lt (Fl.neg x) (Fl.neg y) = _
  cases x with
  | nan => cases y <;> rfl
  | inf s =>
    cases y with
    | nan => rfl
    | inf t => cases s <;> cases t <;> rfl
    | nzero => cases s <;> rfl
    | fin b => by_cases h : b = 0 <;> cases s <;> simp [Fl.neg, lt, h]
  | nzero =>
    cases y with
    | nan => rfl
    | inf t => cases t <;> rfl
    | nzero => simp [Fl.neg, lt]
    | fin b => by_cases h : b = 0 <;> simp [Fl.neg, lt, h]
  | fin a =>
    cases y with
    | nan => by_cases h : a = 0 <;> simp [Fl.neg, lt, h]
    | inf t => by_cases h : a = 0 <;> cases t <;> simp [Fl.neg, lt, h]
    | nzero => by_cases h : a = 0 <;> simp [Fl.neg, lt, h]
    | fin b => by_cases h : a = 0 <;> by_cases h' : b = 0 <;> simp [Fl.neg, lt, h, h']

theorem neg_sub_same (x y : Fl K) : Same (-x - y) (-(x + y)) := by rw [sub_eq]; exact neg_add_same x y
theorem neg_add_same' (x y : Fl K) : Same (-x + y) (-(x - y)) := by
  have := neg_add_same x (-y); rwa [neg_neg', ← sub_eq] at this

end Fl

open Fl (Same flip)

theorem within_same {v x x' y y' : Fl K} (h : Same x x') (h' : Same y y') : withinVicinity v x y = withinVicinity v x' y' := by
  unfold withinVicinity
  rw [Fl.le_congr h' (h.add (.refl v)), Fl.le_congr (h.sub (.refl v)) h']

theorem within_flip (v : Fl K) (b : Bool) (x y : Fl K) : withinVicinity v (flip b x) (flip b y) = withinVicinity v x y := by
  cases b
  · rfl
  · show (Fl.le (-y) (-x + v) && Fl.le (-x - v) (-y)) = (Fl.le y (x + v) && Fl.le (x - v) y)
    rw [Fl.le_congr (.refl _) (Fl.neg_add_same' x v), Fl.le_congr (Fl.neg_sub_same x v) (.refl _), Fl.le_neg, Fl.le_neg, Bool.and_comm]

/-- the first vector, with the coordinates selected by `σ` negated, is the second one, up to the signs of zeros -/
def V3.Mir (σ : Fin 3 → Bool) (a a' : V3 K) : Prop :=
  Same a'.val[0] (flip (σ 0) a.val[0]) ∧ Same a'.val[1] (flip (σ 1) a.val[1]) ∧ Same a'.val[2] (flip (σ 2) a.val[2])

/-- the vector with the coordinates selected by `σ` negated -/
def V3.flip (σ : Fin 3 → Bool) (a : V3 K) : V3 K := ⟨#v[Fl.flip (σ 0) a.val[0], Fl.flip (σ 1) a.val[1], Fl.flip (σ 2) a.val[2]]⟩

namespace V3

variable {σ ρ : Fin 3 → Bool} {a a' c c' : V3 K} {s s' : Fl K}

theorem flip_mir (σ : Fin 3 → Bool) (a : V3 K) : Mir σ a (a.flip σ) := ⟨.refl _, .refl _, .refl _⟩

theorem Mir.sub (h : Mir σ a a') (k : Mir σ c c') : Mir σ (sub a c) (sub a' c') :=
  ⟨(h.1.sub k.1).trans (Fl.flip_sub _ _), (h.2.1.sub k.2.1).trans (Fl.flip_sub _ _), (h.2.2.sub k.2.2).trans (Fl.flip_sub _ _)⟩

theorem Mir.add (h : Mir σ a a') (k : Mir σ c c') : Mir σ (add a c) (add a' c') :=
  ⟨(h.1.add k.1).trans (Fl.flip_add _ _), (h.2.1.add k.2.1).trans (Fl.flip_add _ _), (h.2.2.add k.2.2).trans (Fl.flip_add _ _)⟩

theorem Mir.scl (h : Mir σ a a') (k : Same s' s) : Mir σ (scl a s) (scl a' s') := by
  refine ⟨(h.1.mul k).trans ?_, (h.2.1.mul k).trans ?_, (h.2.2.mul k).trans ?_⟩ <;> rw [Fl.flip_mul_left] <;> exact .refl _

theorem Mir.dotp {b : Bool} (h : Mir ρ a a') (k : Mir σ c c') (e : ∀ i, (ρ i ^^ σ i) = b) : Same (dotp a' c') (Fl.flip b (dotp a c)) := by
  have m {i : Fin 3} {x x' y y' : Fl K} (h : Same x' (Fl.flip (ρ i) x)) (k : Same y' (Fl.flip (σ i) y)) : Same (x' * y') (Fl.flip b (x * y)) := by
    refine (h.mul k).trans ?_
    rw [Fl.flip_mul, e]; exact .refl _
  exact ((((m h.1 k.1).add (m h.2.1 k.2.1)).trans (Fl.flip_add _ _)).add (m h.2.2 k.2.2)).trans (Fl.flip_add _ _)

theorem Mir.dot (h : Mir σ a a') (k : Mir σ c c') : Same (V3.dotp a' c') (V3.dotp a c) := h.dotp k (b := false) (by simp)

/-- is the mirror map orientation reversing? -/
def odd (σ : Fin 3 → Bool) : Bool := σ 0 ^^ σ 1 ^^ σ 2

theorem Mir.crs (h : Mir σ a a') (k : Mir σ c c') : Mir (fun i => odd σ ^^ σ i) (crs a c) (crs a' c') := by
  have m {i j l : Fin 3} (e : (σ i ^^ σ j) = (odd σ ^^ σ l)) {x x' y y' z z' w w' : Fl K} (h : Same x' (Fl.flip (σ i) x)) (k : Same y' (Fl.flip (σ j) y))
      (h' : Same z' (Fl.flip (σ j) z)) (k' : Same w' (Fl.flip (σ i) w)) : Same (x' * y' - z' * w') (Fl.flip (odd σ ^^ σ l) (x * y - z * w)) := by
    refine ((h.mul k).sub (h'.mul k')).trans ?_
    rw [Fl.flip_mul, Fl.flip_mul, Bool.xor_comm (σ j), e]; exact Fl.flip_sub _ _
  refine ⟨m (i := 1) (j := 2) (l := 0) ?_ h.2.1 k.2.2 h.2.2 k.2.1, m (i := 2) (j := 0) (l := 1) ?_ h.2.2 k.1 h.1 k.2.2,
    m (i := 0) (j := 1) (l := 2) ?_ h.1 k.2.1 h.2.1 k.1⟩ <;> unfold odd <;> cases σ 0 <;> cases σ 1 <;> cases σ 2 <;> rfl

theorem Mir.mag (h : Mir σ a a') : mag a' = mag a := by
  have m {b : Bool} {x x' : Fl K} (h : Same x' (Fl.flip b x)) : x'.powi2 = x.powi2 := by
    unfold Fl.powi2
    rw [h.sq, Fl.flip_mul]; simp
  unfold V3.mag; rw [m h.1, m h.2.1, m h.2.2]

theorem Mir.nrm (h : Mir σ a a') : Mir σ (nrm a) (nrm a') := by
  have m {b : Bool} {x x' : Fl K} (k : Same x' (Fl.flip b x)) : Same (x' / V3.mag a') (Fl.flip b (x / V3.mag a)) := by
    rw [h.mag, ← Fl.flip_div]; exact k.div_left _
  exact ⟨m h.1, m h.2.1, m h.2.2⟩

theorem nrm_flip (a : V3 K) : nrm (a.flip σ) = (nrm a).flip σ := by
  have m := (flip_mir σ a).mag
  unfold nrm; rw [m]
  show (⟨#v[Fl.flip (σ 0) a.val[0] / mag a, Fl.flip (σ 1) a.val[1] / mag a, Fl.flip (σ 2) a.val[2] / mag a]⟩ : V3 K) =
    ⟨#v[Fl.flip (σ 0) (a.val[0] / mag a), Fl.flip (σ 1) (a.val[1] / mag a), Fl.flip (σ 2) (a.val[2] / mag a)]⟩
  rw [Fl.flip_div, Fl.flip_div, Fl.flip_div]

theorem eqv_mir (h : Mir σ a a') (e : Fl K) : eqv a' Mat3x1.default e = eqv a Mat3x1.default e := by
  have m {b : Bool} {x x' : Fl K} (h : Same x' (Fl.flip b x)) :
      (Fl.le (0 - e) x' && Fl.le x' (0 + e)) = (Fl.le (0 - e) x && Fl.le x (0 + e)) := by
    rw [Fl.le_congr (.refl _) h, Fl.le_congr h (.refl _)]
    cases b
    · rfl
    · have h1 : Same (0 - e) (-(0 + e)) := by
        have := Fl.neg_sub_same (0 : Fl K) e
        refine Same.trans ?_ this
        exact Same.sub (.inr ⟨rfl, by show (Fl.neg (.fin 0)).val = _; simp [Fl.neg, Fl.val]⟩) (.refl _)
      have h2 : Same (0 + e) (-(0 - e)) := by
        have := Fl.neg_add_same' (0 : Fl K) e
        refine Same.trans ?_ this
        exact Same.add (.inr ⟨rfl, by show (Fl.neg (.fin 0)).val = _; simp [Fl.neg, Fl.val]⟩) (.refl _)
      show (Fl.le (0 - e) (-x) && Fl.le (-x) (0 + e)) = _
      rw [Fl.le_congr h1 (.refl _), Fl.le_congr (.refl _) h2, Fl.le_neg, Fl.le_neg, Bool.and_comm]
  have e0 := m h.1; have e1 := m h.2.1; have e2 := m h.2.2
  show ((((((Fl.le (0 - e) _ && Fl.le _ (0 + e)) && Fl.le (0 - e) _) && Fl.le _ (0 + e)) && Fl.le (0 - e) _) && Fl.le _ (0 + e))) =
    ((((((Fl.le (0 - e) _ && Fl.le _ (0 + e)) && Fl.le (0 - e) _) && Fl.le _ (0 + e)) && Fl.le (0 - e) _) && Fl.le _ (0 + e)))
  rw [Bool.and_assoc (_ && _) (Fl.le (0 - e) a'.val[1]), Bool.and_assoc (_ && _) (Fl.le (0 - e) a'.val[2]), e0, e1, e2]
  simp only [Bool.and_assoc]

end V3

/-! ### bounds -/

/-- the bounds of a mirrored shape: the two corners change places along the mirrored axes -/
def AABB.Mir (σ : Fin 3 → Bool) (b b' : AABB (Fl K)) : Prop := ∀ i : Fin 3,
  Same b'.lower[i] (if σ i then -b.upper[i] else b.lower[i]) ∧ Same b'.upper[i] (if σ i then -b.lower[i] else b.upper[i])

section
variable {σ : Fin 3 → Bool}

theorem AABB.Mir.overlap {a a' b b' : AABB (Fl K)} (ha : a.Mir σ a') (hb : b.Mir σ b') : AABB.overlap a' b' = AABB.overlap a b := by
  rw [Bool.eq_iff_iff, AABB.overlap_iff, AABB.overlap_iff]
  refine forall_congr' fun i => ?_
  obtain ⟨a1, a2⟩ := ha i
  obtain ⟨b1, b2⟩ := hb i
  rw [Fl.lt_same b2 a1, Fl.lt_same a2 b1]
  cases σ i
  · rfl
  · simp only [if_true, Fl.lt_neg]; exact and_comm

theorem AABB.mir_mk {l0 l1 l2 u0 u1 u2 l0' l1' l2' u0' u1' u2' : Fl K}
    (h0 : Same l0' (if σ 0 then -u0 else l0) ∧ Same u0' (if σ 0 then -l0 else u0))
    (h1 : Same l1' (if σ 1 then -u1 else l1) ∧ Same u1' (if σ 1 then -l1 else u1))
    (h2 : Same l2' (if σ 2 then -u2 else l2) ∧ Same u2' (if σ 2 then -l2 else u2)) :
    AABB.Mir σ ⟨#v[l0, l1, l2], #v[u0, u1, u2]⟩ ⟨#v[l0', l1', l2'], #v[u0', u1', u2']⟩ := by
  intro i; fin_cases i <;> assumption

theorem mir_around (b : Bool) (x r : Fl K) : Same (flip b x - r) (if b then -(x + r) else x - r) ∧ Same (flip b x + r) (if b then -(x - r) else x + r) := by
  cases b
  · exact ⟨.refl _, .refl _⟩
  · exact ⟨Fl.neg_sub_same x r, Fl.neg_add_same' x r⟩

theorem mir_point (b : Bool) (x : Fl K) : Same (flip b x) (if b then -x else x) ∧ Same (flip b x) (if b then -x else x) := by
  cases b <;> exact ⟨.refl _, .refl _⟩

theorem Fl.lt_zero_neg (x : Fl K) : Fl.lt 0 (-x) = Fl.lt x 0 := by
  rw [← Fl.lt_neg 0 x]
  exact Fl.lt_same (.inr ⟨rfl, by show (Fl.neg (.fin 0)).val = _; simp [Fl.neg, Fl.val]⟩) (.refl _)

theorem Fl.lt_neg_zero (x : Fl K) : Fl.lt (-x) 0 = Fl.lt 0 x := by
  rw [← Fl.lt_neg x 0]
  exact Fl.lt_same (.refl _) (.inr ⟨rfl, by show (Fl.neg (.fin 0)).val = _; simp [Fl.neg, Fl.val]⟩)

theorem mir_ray (b : Bool) (o d : Fl K) : Same (AABB.rayBound (flip b o) (flip b d)).1 (if b then -(AABB.rayBound o d).2 else (AABB.rayBound o d).1) ∧
    Same (AABB.rayBound (flip b o) (flip b d)).2 (if b then -(AABB.rayBound o d).1 else (AABB.rayBound o d).2) := by
  cases b
  · exact ⟨.refl _, .refl _⟩
  · unfold AABB.rayBound
    simp only [Fl.flip_true, if_true, Fl.lt_zero_neg, Fl.lt_neg_zero]
    by_cases h1 : Fl.lt 0 d = true
    · have h2 : Fl.lt d 0 ≠ true := by
        intro h2
        cases d with
        | nan => simp [Fl.lt] at h1
        | inf s => cases s <;> simp [Fl.lt] at h1 h2
        | nzero => simp [Fl.lt] at h1
        | fin v => simp [Fl.lt] at h1 h2; exact absurd h1 (not_lt.mpr h2.le)
      simp only [if_pos h1, if_neg h2]; exact ⟨.inl rfl, .refl _⟩
    · by_cases h2 : Fl.lt d 0 = true
      · simp only [if_pos h2, if_neg h1]; exact ⟨.refl _, .inl rfl⟩
      · simp only [if_neg h2, if_neg h1]; exact ⟨.refl _, .refl _⟩

theorem mir_default : AABB.Mir σ (AABB.default : AABB (Fl K)) AABB.default := by
  refine AABB.mir_mk ?_ ?_ ?_ <;> cases σ _ <;> exact ⟨.inl rfl, .inl rfl⟩

/-! ### shapes and answers -/

/-- the second shape is the first one mirrored -/
def Shape.Mir (σ : Fin 3 → Bool) : Shape K → Shape K → Prop
  | .point s, .point t => t.ori = s.ori.flip σ ∧ t.vicinity = s.vicinity ∧ s.bound.Mir σ t.bound
  | .ray s, .ray t => t.ori = s.ori.flip σ ∧ t.dir = s.dir.flip σ ∧ t.vicinity = s.vicinity ∧ s.bound.Mir σ t.bound
  | .sphere s, .sphere t => t.ori = s.ori.flip σ ∧ t.radius = s.radius ∧ t.vicinity = s.vicinity ∧ s.bound.Mir σ t.bound
  | .plane s, .plane t => t.offset = s.offset.flip σ ∧ t.normal = s.normal.flip σ ∧ t.vicinity = s.vicinity ∧ s.bound.Mir σ t.bound
  | .box s, .box t => t.ori = s.ori.flip σ ∧ t.size = s.size ∧ t.vicinity = s.vicinity ∧ s.bound.Mir σ t.bound
  | .line s, .line t => t.a = s.a.flip σ ∧ t.b = s.b.flip σ ∧ t.vicinity = s.vicinity ∧ s.bound.Mir σ t.bound
  | .triPrism s, .triPrism t => (s.triBase[0].Mir σ t.triBase[0] ∧ s.triBase[1].Mir σ t.triBase[1] ∧ s.triBase[2].Mir σ t.triBase[2]) ∧
      s.triBase2[0].Mir σ t.triBase2[0] ∧ s.normalHeight.Mir σ t.normalHeight ∧ t.vicinity = s.vicinity ∧ s.bound.Mir σ t.bound
  | _, _ => False

/-- the same flag, and the location mirrored, up to the signs of zeros -/
def MirHit (σ : Fin 3 → Bool) (h h' : Hit K) : Prop := h'.1 = h.1 ∧ Option.Rel (V3.Mir σ) h.2 h'.2

/-- the same panic, or the mirrored answer -/
abbrev MirRes (σ : Fin 3 → Bool) (r r' : Res (Hit K)) : Prop := RelRes (MirHit σ) r r'

theorem mir_none : MirRes σ (.ok (false, none) : Res (Hit K)) (.ok (false, none)) := .inr ⟨_, _, rfl, rfl, rfl, .none⟩
theorem mir_some {p q : V3 K} (h : V3.Mir σ p q) : MirRes σ (.ok (true, some p) : Res (Hit K)) (.ok (true, some q)) :=
  .inr ⟨_, _, rfl, rfl, rfl, .some h⟩
theorem mir_error (e : Panic) : MirRes σ (.error e : Res (Hit K)) (.error e) := .inl ⟨e, rfl, rfl⟩

theorem mir_ite {c c' : Bool} (h : c' = c) {a a' b b' : Res (Hit K)} (ha : MirRes σ a a') (hb : c = false → MirRes σ b b') :
    MirRes σ (if c = true then a else b) (if c' = true then a' else b') := by
  subst h
  cases c'
  · exact hb rfl
  · exact ha

/-! ### the queries -/

theorem rayRay_mir {r r' s s' : Ray3 K} (ho : V3.Mir σ r.ori r'.ori) (hd : V3.Mir σ r.dir r'.dir) (hv : r'.vicinity = r.vicinity)
    (ho' : V3.Mir σ s.ori s'.ori) (hd' : V3.Mir σ s.dir s'.dir) :
    MirRes σ (r.intersectRay (Shape.ray s).getShapeData) (r'.intersectRay (Shape.ray s').getShapeData) := by
  unfold Ray3.intersectRay
  simp only [vecAt_ray0, vecAt_ray3, Res.ok_bind, V3.minus_eq, V3.cross_eq, V3.dot_eq, V3.isEqual_eq, V3.magnitude_eq, V3.scale_eq, V3.plus_eq,
    unwrap_some, Res.pure_eq, hv]
  have hx := hd.crs hd'
  have hc := hd'.sub hd
  have hdot : Same _ _ := hx.dotp hc (b := V3.odd σ) (fun i => by cases V3.odd σ <;> cases σ i <;> rfl)
  have hdd := ho'.sub ho
  have z (b : Bool) : Same (0 : Fl K) (flip b 0) := by
    cases b
    · exact .refl _
    · exact .inr ⟨rfl, by show (Fl.neg (.fin 0)).val = _; simp [Fl.neg, Fl.val]⟩
  refine mir_ite ?_ mir_none fun _ => ?_
  · rw [within_same hdot (z (V3.odd σ)), within_flip]
  refine mir_ite (V3.eqv_mir hx _) ?_ fun _ => ?_
  · refine mir_ite ?_ mir_none fun _ => ?_
    · rw [(hd.crs hdd).mag]
    · have e : Fl.lt (V3.dotp (V3.sub s'.ori r'.ori) r'.dir) 0 = Fl.lt (V3.dotp (V3.sub s.ori r.ori) r.dir) 0 :=
        Fl.lt_same (hdd.dot hd) (.refl _)
      rw [e, hdd.mag, hd.mag]
      exact mir_ite rfl (mir_some ho) fun _ => mir_some ((hd.scl (.refl _)).add ho)
  · rw [(hdd.crs hd').mag, hx.mag]
    exact mir_ite rfl mir_none fun _ => mir_some ((hd.scl (.refl _)).add ho)

theorem rayPoint_mir {r r' : Ray3 K} {s s' : Point3 K} (ho : V3.Mir σ r.ori r'.ori) (hd : r'.dir = r.dir.flip σ) (hv : r'.vicinity = r.vicinity)
    (ho' : V3.Mir σ s.ori s'.ori) :
    MirRes σ (r.intersectPoint (Shape.point s).getShapeData) (r'.intersectPoint (Shape.point s').getShapeData) := by
  unfold Ray3.intersectPoint
  simp only [vecAt_point, Res.ok_bind, V3.minus_eq, V3.div_eq, V3.scale_eq, V3.plus_eq, unwrap_some, Res.pure_eq, hv]
  have hs := ho'.sub ho
  have h0 : Same (V3.dv (V3.sub s'.ori r'.ori) r'.dir).val[0] (V3.dv (V3.sub s.ori r.ori) r.dir).val[0] := by
    rw [hd]; exact Fl.div_flip hs.1 _
  have h1 : Same (V3.dv (V3.sub s'.ori r'.ori) r'.dir).val[1] (V3.dv (V3.sub s.ori r.ori) r.dir).val[1] := by
    rw [hd]; exact Fl.div_flip hs.2.1 _
  have h2 : Same (V3.dv (V3.sub s'.ori r'.ori) r'.dir).val[2] (V3.dv (V3.sub s.ori r.ori) r.dir).val[2] := by
    rw [hd]; exact Fl.div_flip hs.2.2 _
  refine mir_ite ?_ mir_none fun _ => mir_ite ?_ (mir_some (V3.Mir.add ?_ ho)) fun _ => mir_none
  · rw [within_same h0 h1, within_same h1 h2]
  · exact Fl.le_congr (.refl _) h0
  · exact V3.Mir.scl (hd ▸ V3.flip_mir σ _) h0

theorem raySphere_mir {r r' : Ray3 K} {s s' : Sphere K} (ho : V3.Mir σ r.ori r'.ori) (hd : V3.Mir σ r.dir r'.dir)
    (ho' : V3.Mir σ s.ori s'.ori) (hr : s'.radius = s.radius) :
    MirRes σ (r.intersectSphere (Shape.sphere s).getShapeData) (r'.intersectSphere (Shape.sphere s').getShapeData) := by
  unfold Ray3.intersectSphere
  simp only [vecAt_sphere, sliceGet_sphere, Res.ok_bind, V3.minus_eq, V3.dot_eq, V3.scale_eq, V3.plus_eq, unwrap_some, Res.pure_eq, hr]
  have hs := ho.sub ho'
  have hb := hs.dot hd
  have hc := (hs.dot hs).sub (Same.refl (s.radius * s.radius))
  have hD := (hb.mul hb).sub hc
  have h1 := hb.neg.sub hD.sqrt
  have h2 := hb.neg.add hD.sqrt
  refine mir_ite ?_ mir_none fun _ => mir_ite (Fl.lt_same hD (.refl _)) mir_none fun _ => mir_some (V3.Mir.add (hd.scl ?_) ho)
  · rw [Fl.lt_same (.refl _) hb, Fl.lt_same (.refl _) hc]
  · rw [Fl.lt_same h1 (.refl _), Fl.lt_same h2 (.refl _), Fl.lt_same h1 h2]
    split
    · exact h2
    · split
      · exact h1
      · split
        · exact h1
        · exact h2

theorem rayPlane_mir {r r' : Ray3 K} {s s' : Plane K} (ho : V3.Mir σ r.ori r'.ori) (hd : V3.Mir σ r.dir r'.dir)
    (ho' : V3.Mir σ s.offset s'.offset) (hn : V3.Mir σ s.normal s'.normal) :
    MirRes σ (r.intersectPlane (Shape.plane s).getShapeData) (r'.intersectPlane (Shape.plane s').getShapeData) := by
  unfold Ray3.intersectPlane
  simp only [vecAt_plane0, vecAt_plane3, Res.ok_bind, V3.dot_eq, V3.scale_eq, V3.plus_eq, unwrap_some, Res.pure_eq]
  have hk := ho'.dot hn
  have hnum := hk.sub (hn.dot ho)
  have hden := hn.dot hd
  refine mir_ite (Fl.feq_same hden (.refl _)) (mir_ite (Fl.feq_same hk (ho.dot hn)) (mir_some ho) fun _ => mir_none) fun hz =>
    mir_ite (Fl.lt_same (.refl _) hden) mir_none fun _ => ?_
  have e : V3.dotp s'.normal r'.dir = V3.dotp s.normal r.dir := by
    rcases hden with h | h
    · exact h
    · have := Fl.feq_same (Same.refl (V3.dotp s.normal r.dir)) (y := 0) (y' := 0) (.refl _)
      rcases NaN.val_zero h.2 with h' | h' <;> rw [h'] at hz <;> simp [Fl.feq, Fl.le] at hz
  rw [e]
  exact mir_ite (Fl.lt_same (hnum.div_left _) (.refl _)) mir_none fun _ => mir_some ((hd.scl (hnum.div_left _)).add ho)

theorem sphereSphere_mir {r r' s s' : Sphere K} (ho : V3.Mir σ r.ori r'.ori) (hr : r'.radius = r.radius)
    (ho' : V3.Mir σ s.ori s'.ori) (hr' : s'.radius = s.radius) :
    MirRes σ (r.intersectSphere (Shape.sphere s).getShapeData) (r'.intersectSphere (Shape.sphere s').getShapeData) := by
  unfold Sphere.intersectSphere
  simp only [vecAt_sphere, sliceGet_sphere, Res.ok_bind, V3.minus_eq, V3.magnitude_eq, V3.scale_eq, V3.plus_eq, unwrap_some, Res.pure_eq, hr, hr']
  have hs := ho'.sub ho
  rw [hs.mag]
  exact mir_ite rfl mir_none fun _ => mir_some (ho.add (hs.scl (.refl _)))

theorem spherePlane_mir {r r' : Sphere K} {s s' : Plane K} (ho : V3.Mir σ r.ori r'.ori) (hr : r'.radius = r.radius)
    (ho' : V3.Mir σ s.offset s'.offset) (hn : V3.Mir σ s.normal s'.normal) :
    MirRes σ (r.intersectPlane (Shape.plane s).getShapeData) (r'.intersectPlane (Shape.plane s').getShapeData) := by
  unfold Sphere.intersectPlane
  simp only [vecAt_plane0, vecAt_plane3, Res.ok_bind, V3.dot_eq, V3.scale_eq, V3.plus_eq, unwrap_some, Res.pure_eq, hr]
  have ht := (hn.dot ho).sub (hn.dot ho')
  exact mir_ite (Fl.lt_same (.refl _) ht) mir_none fun _ => mir_some ((hn.scl ht.neg).add ho)

theorem planePoint_mir {r r' : Plane K} {s s' : Point3 K} (ho : V3.Mir σ r.offset r'.offset) (hn : V3.Mir σ r.normal r'.normal)
    (hv : r'.vicinity = r.vicinity) (ho' : V3.Mir σ s.ori s'.ori) :
    MirRes σ (r.intersectPoint (Shape.point s).getShapeData) (r'.intersectPoint (Shape.point s').getShapeData) := by
  unfold Plane.intersectPoint
  simp only [vecAt_point, Res.ok_bind, V3.dot_eq, unwrap_some, Res.pure_eq, hv]
  have ht := (hn.dot ho).sub (hn.dot ho')
  refine mir_ite ?_ mir_none fun _ => mir_some ho'
  rw [within_same ht (.refl _)]

theorem pointPoint_mir {v : Fl K} {p p' q q' : V3 K} (h : V3.Mir σ p p') (k : V3.Mir σ q q') :
    MirRes σ (.ok (if !withinVicinity v p.val[0] q.val[0] || !withinVicinity v p.val[1] q.val[1] ||
        !withinVicinity v p.val[2] q.val[2] then (false, none) else (true, some p)))
      (.ok (if !withinVicinity v p'.val[0] q'.val[0] || !withinVicinity v p'.val[1] q'.val[1] ||
        !withinVicinity v p'.val[2] q'.val[2] then (false, none) else (true, some p'))) := by
  rw [within_same h.1 k.1, within_same h.2.1 k.2.1, within_same h.2.2 k.2.2, within_flip, within_flip, within_flip]
  split
  · exact mir_none
  · exact mir_some h

/-! ### prisms and segments, for the rotations by half a turn -/

theorem V3.Mir.crs_even {a a' c c' : V3 K} (ho : V3.odd σ = false) (h : V3.Mir σ a a') (k : V3.Mir σ c c') : V3.Mir σ (V3.crs a c) (V3.crs a' c') := by
  have := h.crs k
  rw [ho] at this
  simpa using this

/-- pairs of a vertex and a normal, mirrored -/
def MirPair (σ : Fin 3 → Bool) (x y : V3 K × V3 K) : Prop := V3.Mir σ x.1 y.1 ∧ V3.Mir σ x.2 y.2

theorem all_mir {p p' : V3 K} (hp : V3.Mir σ p p') {ts ts' : List (V3 K × V3 K)} (h : List.Forall₂ (MirPair σ) ts ts') :
    (ts'.all fun vn => !Fl.lt 0 (V3.dotp (V3.sub p' vn.1) vn.2)) = ts.all fun vn => !Fl.lt 0 (V3.dotp (V3.sub p vn.1) vn.2) := by
  induction h with
  | nil => rfl
  | cons h _ ih => rw [List.all_cons, List.all_cons, ih, Fl.lt_same (.refl _) ((hp.sub h.1).dot h.2)]

theorem testsP_mir (ho : V3.odd σ = false) {s s' : TriPrism K} (h : Shape.Mir σ (.triPrism s) (.triPrism s')) :
    List.Forall₂ (MirPair σ) s.testsP s'.testsP := by
  obtain ⟨⟨h0, h1, h2⟩, k, hn, -⟩ := h
  exact .cons ⟨h0, hn.scl (.refl _)⟩ (.cons ⟨k, hn⟩ (.cons ⟨h0, (h1.sub h0).crs_even ho hn⟩ (.cons ⟨h1, (h2.sub h1).crs_even ho hn⟩
    (.cons ⟨h2, (h0.sub h2).crs_even ho hn⟩ .nil))))

theorem prismPoint_mir (ho : V3.odd σ = false) {r r' : TriPrism K} {s s' : Point3 K} (h : Shape.Mir σ (.triPrism r) (.triPrism r'))
    (hp : V3.Mir σ s.ori s'.ori) : MirRes σ (r.intersectPoint (Shape.point s).getShapeData) (r'.intersectPoint (Shape.point s').getShapeData) := by
  rw [prismPoint_eq, prismPoint_eq]
  have e : r'.inside s'.ori = r.inside s.ori := all_mir hp (testsP_mir ho h)
  rw [e]
  cases r.inside s.ori
  · exact mir_none
  · exact mir_some hp

/-- planes with mirrored data -/
def MirPlane (σ : Fin 3 → Bool) (s s' : Plane K) : Prop := V3.Mir σ s.offset s'.offset ∧ V3.Mir σ s.normal s'.normal ∧ s.bound.Mir σ s'.bound

theorem facetLoop_mir {r r' : Ray3 K} (ho : V3.Mir σ r.ori r'.ori) (hd : V3.Mir σ r.dir r'.dir) (hb : r.bound.Mir σ r'.bound)
    {ts ts' : List (V3 K × V3 K)} (ht : List.Forall₂ (MirPair σ) ts ts') {a a' : V3 K} (ha : V3.Mir σ a a') (m : Fl K)
    {fs fs' : List (Plane K)} (hf : List.Forall₂ (MirPlane σ) fs fs') :
    MirRes σ (TriPrism.facetLoop r ts a m fs) (TriPrism.facetLoop r' ts' a' m fs') := by
  induction hf with
  | nil => exact mir_none
  | @cons f f' fs fs' h _ ih =>
    have key : MirRes σ (r.getIntersect (.plane f)) (r'.getIntersect (.plane f')) := by
      unfold Ray3.getIntersect
      simp only [Shape.getBound_eq, AABB.intersect_eq, Res.ok_bind, Res.pure_eq]
      refine mir_ite ?_ mir_none fun _ => rayPlane_mir ho hd h.1 h.2.1
      exact congrArg (! ·) (hb.overlap h.2.2)
    rw [TriPrism.facetLoop, TriPrism.facetLoop]
    obtain ⟨⟨h1, h2⟩, e, hc⟩ := Ray3.getIntersect_plane r f
    rw [e] at key ⊢
    rcases key with ⟨_, h, _⟩ | ⟨_, ⟨h1', h2'⟩, h, e', hh, hr⟩
    · cases h
    · cases h
      simp only at hh hr; subst hh
      rw [e']
      cases h1' with
      | false => simpa using ih
      | true =>
        obtain ⟨p, hp⟩ := hc.mp rfl
        simp only at hp; subst hp
        cases hr with
        | some hr =>
          simp only [Res.ok_bind, unwrap_some, V3.minus_eq, V3.magnitude_eq, allInside_ok, if_true]
          exact mir_ite (by rw [all_mir hr ht, (hr.sub ha).mag]) ih fun _ => mir_some hr

theorem rayOf_mir {a a' d d' : V3 K} (h : V3.Mir σ a a') (k : V3.Mir σ d d') : AABB.Mir σ (rayOf a d).bound (rayOf a' d').bound := by
  have key {b : Bool} {x x' y y' : Fl K} (h : Same x' (flip b x)) (k : Same y' (flip b y)) :
      Same (AABB.rayBound x' y').1 (if b then -(AABB.rayBound x y).2 else (AABB.rayBound x y).1) ∧
      Same (AABB.rayBound x' y').2 (if b then -(AABB.rayBound x y).1 else (AABB.rayBound x y).2) := by
    obtain ⟨m1, m2⟩ := mir_ray b x y
    have e : Same (AABB.rayBound x' y').1 (AABB.rayBound (flip b x) (flip b y)).1 ∧
        Same (AABB.rayBound x' y').2 (AABB.rayBound (flip b x) (flip b y)).2 := by
      unfold AABB.rayBound
      rw [Fl.lt_same (.refl 0) k, Fl.lt_same k (.refl 0)]
      split
      · exact ⟨h, .refl _⟩
      · split
        · exact ⟨.refl _, h⟩
        · exact ⟨h, h⟩
    exact ⟨e.1.trans m1, e.2.trans m2⟩
  exact AABB.mir_mk (key h.1 k.1) (key h.2.1 k.2.1) (key h.2.2 k.2.2)

theorem planeOf_mir {a a' d d' : V3 K} (h : V3.Mir σ a a') (k : V3.Mir σ d d') : MirPlane σ (planeOf a d) (planeOf a' d') :=
  ⟨h, k.nrm, mir_default⟩

theorem facetsP_mir (ho : V3.odd σ = false) {s s' : TriPrism K} (h : Shape.Mir σ (.triPrism s) (.triPrism s')) :
    List.Forall₂ (MirPlane σ) s.facetsP s'.facetsP := by
  obtain ⟨⟨h0, h1, h2⟩, k, hn, -⟩ := h
  exact .cons (planeOf_mir h0 (hn.scl (.refl _))) (.cons (planeOf_mir k hn) (.cons (planeOf_mir h0 ((h1.sub h0).crs_even ho hn))
    (.cons (planeOf_mir h1 ((h2.sub h1).crs_even ho hn)) (.cons (planeOf_mir h2 ((h0.sub h2).crs_even ho hn)) .nil))))

theorem prismLine_mir (ho : V3.odd σ = false) {r r' : TriPrism K} {s s' : Line3 K} (h : Shape.Mir σ (.triPrism r) (.triPrism r'))
    (ha : V3.Mir σ s.a s'.a) (hb : V3.Mir σ s.b s'.b) :
    MirRes σ (r.intersectLine (Shape.line s).getShapeData) (r'.intersectLine (Shape.line s').getShapeData) := by
  unfold TriPrism.intersectLine
  simp only [vecAt_line0, vecAt_line3, Res.ok_bind, TriPrism.tests_eq, allInside_ok, Res.pure_eq, V3.minus_eq,
    V3.magnitude_eq, unwrap_some, facets_eq, ray_init_toList]
  have hv := hb.sub ha
  have ht := testsP_mir ho h
  refine mir_ite (all_mir ha ht) (mir_some ha) fun _ => mir_ite (all_mir hb ht) (mir_some hb) fun _ => ?_
  rw [hv.mag]
  exact facetLoop_mir (r := rayOf _ _) (r' := rayOf _ _) ha hv.nrm (rayOf_mir ha hv) ht ha _ (facetsP_mir ho h)

/-! ### all pairs -/

/-- the pairs for which the answer is mirrored: any, except a sphere with a point (see `C76_sphere_point_false`); a prism
with a point or a segment only if the orientation is kept -/
def MirPairs (σ : Fin 3 → Bool) (a b : ShapeType) : Prop :=
  (a, b) ≠ (.sphere, .point) ∧ (a, b) ≠ (.point, .sphere) ∧ (a = .triPrism ∨ b = .triPrism → V3.odd σ = false)

theorem Shape.Mir.point {s : Point3 K} {a' : Shape K} (h : Shape.Mir σ (.point s) a') : ∃ s', a' = .point s' := by
  cases a' <;> first | exact ⟨_, rfl⟩ | exact h.elim
theorem Shape.Mir.ray {s : Ray3 K} {a' : Shape K} (h : Shape.Mir σ (.ray s) a') : ∃ s', a' = .ray s' := by
  cases a' <;> first | exact ⟨_, rfl⟩ | exact h.elim
theorem Shape.Mir.sphere {s : Sphere K} {a' : Shape K} (h : Shape.Mir σ (.sphere s) a') : ∃ s', a' = .sphere s' := by
  cases a' <;> first | exact ⟨_, rfl⟩ | exact h.elim
theorem Shape.Mir.plane {s : Plane K} {a' : Shape K} (h : Shape.Mir σ (.plane s) a') : ∃ s', a' = .plane s' := by
  cases a' <;> first | exact ⟨_, rfl⟩ | exact h.elim
theorem Shape.Mir.box {s : RecBox K} {a' : Shape K} (h : Shape.Mir σ (.box s) a') : ∃ s', a' = .box s' := by
  cases a' <;> first | exact ⟨_, rfl⟩ | exact h.elim
theorem Shape.Mir.triPrism {s : TriPrism K} {a' : Shape K} (h : Shape.Mir σ (.triPrism s) a') : ∃ s', a' = .triPrism s' := by
  cases a' <;> first | exact ⟨_, rfl⟩ | exact h.elim
theorem Shape.Mir.line {s : Line3 K} {a' : Shape K} (h : Shape.Mir σ (.line s) a') : ∃ s', a' = .line s' := by
  cases a' <;> first | exact ⟨_, rfl⟩ | exact h.elim
theorem Shape.Mir.type {a a' : Shape K} (h : a.Mir σ a') : a'.getType = a.getType := by
  cases a <;> cases a' <;> first | rfl | exact h.elim

theorem core_mir (a b : Shape K) {a' b' : Shape K} (ha : a.Mir σ a') (hb : b.Mir σ b') (h : MirPairs σ a.getType b.getType) :
    MirRes σ (core a b) (core a' b') := by
  by_cases hs : Supported a.getType b.getType
  · match a, b, ha, hb, h, hs with
    | .point s, .point t, ha, hb, h, _ =>
      obtain ⟨s', rfl⟩ := ha.point; obtain ⟨t', rfl⟩ := hb.point
      simp only [core]; rw [ha.2.1]
      exact pointPoint_mir (ha.1 ▸ V3.flip_mir σ _) (hb.1 ▸ V3.flip_mir σ _)
    | .point s, .ray t, ha, hb, h, _ =>
      obtain ⟨s', rfl⟩ := ha.point; obtain ⟨t', rfl⟩ := hb.ray
      exact rayPoint_mir (hb.1 ▸ V3.flip_mir σ _) hb.2.1 hb.2.2.1 (ha.1 ▸ V3.flip_mir σ _)
    | .point s, .sphere t, ha, hb, h, _ =>
      obtain ⟨s', rfl⟩ := ha.point; obtain ⟨t', rfl⟩ := hb.sphere
      exact absurd rfl h.2.1
    | .point s, .plane t, ha, hb, h, _ =>
      obtain ⟨s', rfl⟩ := ha.point; obtain ⟨t', rfl⟩ := hb.plane
      exact planePoint_mir (hb.1 ▸ V3.flip_mir σ _) (hb.2.1 ▸ V3.flip_mir σ _) hb.2.2.1 (ha.1 ▸ V3.flip_mir σ _)
    | .point s, .box t, ha, hb, h, _ =>
      obtain ⟨s', rfl⟩ := ha.point; obtain ⟨t', rfl⟩ := hb.box
      exact mir_some (ha.1 ▸ V3.flip_mir σ _)
    | .point s, .triPrism t, ha, hb, h, _ =>
      obtain ⟨s', rfl⟩ := ha.point; obtain ⟨t', rfl⟩ := hb.triPrism
      exact prismPoint_mir (h.2.2 (.inr rfl)) hb (ha.1 ▸ V3.flip_mir σ _)
    | .ray s, .point t, ha, hb, h, _ =>
      obtain ⟨s', rfl⟩ := ha.ray; obtain ⟨t', rfl⟩ := hb.point
      exact rayPoint_mir (ha.1 ▸ V3.flip_mir σ _) ha.2.1 ha.2.2.1 (hb.1 ▸ V3.flip_mir σ _)
    | .ray s, .ray t, ha, hb, h, _ =>
      obtain ⟨s', rfl⟩ := ha.ray; obtain ⟨t', rfl⟩ := hb.ray
      exact rayRay_mir (ha.1 ▸ V3.flip_mir σ _) (ha.2.1 ▸ V3.flip_mir σ _) ha.2.2.1 (hb.1 ▸ V3.flip_mir σ _) (hb.2.1 ▸ V3.flip_mir σ _)
    | .ray s, .sphere t, ha, hb, h, _ =>
      obtain ⟨s', rfl⟩ := ha.ray; obtain ⟨t', rfl⟩ := hb.sphere
      exact raySphere_mir (ha.1 ▸ V3.flip_mir σ _) (ha.2.1 ▸ V3.flip_mir σ _) (hb.1 ▸ V3.flip_mir σ _) hb.2.1
    | .ray s, .plane t, ha, hb, h, _ =>
      obtain ⟨s', rfl⟩ := ha.ray; obtain ⟨t', rfl⟩ := hb.plane
      exact rayPlane_mir (ha.1 ▸ V3.flip_mir σ _) (ha.2.1 ▸ V3.flip_mir σ _) (hb.1 ▸ V3.flip_mir σ _) (hb.2.1 ▸ V3.flip_mir σ _)
    | .sphere s, .point t, ha, hb, h, _ =>
      obtain ⟨s', rfl⟩ := ha.sphere; obtain ⟨t', rfl⟩ := hb.point
      exact absurd rfl h.1
    | .sphere s, .ray t, ha, hb, h, _ =>
      obtain ⟨s', rfl⟩ := ha.sphere; obtain ⟨t', rfl⟩ := hb.ray
      exact raySphere_mir (hb.1 ▸ V3.flip_mir σ _) (hb.2.1 ▸ V3.flip_mir σ _) (ha.1 ▸ V3.flip_mir σ _) ha.2.1
    | .sphere s, .sphere t, ha, hb, h, _ =>
      obtain ⟨s', rfl⟩ := ha.sphere; obtain ⟨t', rfl⟩ := hb.sphere
      exact sphereSphere_mir (ha.1 ▸ V3.flip_mir σ _) ha.2.1 (hb.1 ▸ V3.flip_mir σ _) hb.2.1
    | .sphere s, .plane t, ha, hb, h, _ =>
      obtain ⟨s', rfl⟩ := ha.sphere; obtain ⟨t', rfl⟩ := hb.plane
      exact spherePlane_mir (ha.1 ▸ V3.flip_mir σ _) ha.2.1 (hb.1 ▸ V3.flip_mir σ _) (hb.2.1 ▸ V3.flip_mir σ _)
    | .plane s, .point t, ha, hb, h, _ =>
      obtain ⟨s', rfl⟩ := ha.plane; obtain ⟨t', rfl⟩ := hb.point
      exact planePoint_mir (ha.1 ▸ V3.flip_mir σ _) (ha.2.1 ▸ V3.flip_mir σ _) ha.2.2.1 (hb.1 ▸ V3.flip_mir σ _)
    | .plane s, .ray t, ha, hb, h, _ =>
      obtain ⟨s', rfl⟩ := ha.plane; obtain ⟨t', rfl⟩ := hb.ray
      exact rayPlane_mir (hb.1 ▸ V3.flip_mir σ _) (hb.2.1 ▸ V3.flip_mir σ _) (ha.1 ▸ V3.flip_mir σ _) (ha.2.1 ▸ V3.flip_mir σ _)
    | .plane s, .sphere t, ha, hb, h, _ =>
      obtain ⟨s', rfl⟩ := ha.plane; obtain ⟨t', rfl⟩ := hb.sphere
      exact spherePlane_mir (hb.1 ▸ V3.flip_mir σ _) hb.2.1 (ha.1 ▸ V3.flip_mir σ _) (ha.2.1 ▸ V3.flip_mir σ _)
    | .box s, .point t, ha, hb, h, _ =>
      obtain ⟨s', rfl⟩ := ha.box; obtain ⟨t', rfl⟩ := hb.point
      exact mir_some (hb.1 ▸ V3.flip_mir σ _)
    | .triPrism s, .point t, ha, hb, h, _ =>
      obtain ⟨s', rfl⟩ := ha.triPrism; obtain ⟨t', rfl⟩ := hb.point
      exact prismPoint_mir (h.2.2 (.inl rfl)) ha (hb.1 ▸ V3.flip_mir σ _)
    | .triPrism s, .line t, ha, hb, h, _ =>
      obtain ⟨s', rfl⟩ := ha.triPrism; obtain ⟨t', rfl⟩ := hb.line
      exact prismLine_mir (h.2.2 (.inl rfl)) ha (hb.1 ▸ V3.flip_mir σ _) (hb.2.1 ▸ V3.flip_mir σ _)
    | .line s, .triPrism t, ha, hb, h, _ =>
      obtain ⟨s', rfl⟩ := ha.line; obtain ⟨t', rfl⟩ := hb.triPrism
      exact prismLine_mir (h.2.2 (.inr rfl)) hb (ha.1 ▸ V3.flip_mir σ _) (ha.2.1 ▸ V3.flip_mir σ _)
  · rw [core_unsupported a b hs, core_unsupported a' b' (by rwa [ha.type, hb.type])]
    exact mir_error _

/-! ### the box around mirrored points -/

theorem Fl.same_of_le {x y : Fl K} (h : Fl.le x y = true) (h' : Fl.le y x = true) : Same x y := by
  cases x with
  | nan => simp [Fl.le] at h
  | inf s =>
    cases y with
    | nan => simp [Fl.le] at h
    | inf t => left; cases s <;> cases t <;> simp_all [Fl.le]
    | nzero => cases s <;> simp [Fl.le] at h h'
    | fin b => cases s <;> simp [Fl.le] at h h'
  | nzero =>
    cases y with
    | nan => simp [Fl.le] at h
    | inf t => cases t <;> simp [Fl.le] at h h'
    | nzero => exact .refl _
    | fin b => right; simp [Fl.le] at h h'; simp [Fl.val]; exact le_antisymm h' h
  | fin a =>
    cases y with
    | nan => simp [Fl.le] at h
    | inf t => cases t <;> simp [Fl.le] at h h'
    | nzero => right; simp [Fl.le] at h h'; simp [Fl.val]; exact le_antisymm h h'
    | fin b => left; simp [Fl.le] at h h'; rw [le_antisymm h h']

theorem forall₂_left {α β : Type} {R : α → β → Prop} {l : List α} {l' : List β} (h : List.Forall₂ R l l') : ∀ x ∈ l, ∃ y ∈ l', R x y := by
  induction h with
  | nil => simp
  | cons h _ ih =>
    intro x hx
    rcases List.mem_cons.mp hx with rfl | hx
    · exact ⟨_, List.mem_cons_self, h⟩
    · obtain ⟨y, hy, hr⟩ := ih x hx
      exact ⟨y, List.mem_cons_of_mem _ hy, hr⟩

theorem forall₂_right {α β : Type} {R : α → β → Prop} {l : List α} {l' : List β} (h : List.Forall₂ R l l') : ∀ y ∈ l', ∃ x ∈ l, R x y := by
  induction h with
  | nil => simp
  | cons h _ ih =>
    intro x hx
    rcases List.mem_cons.mp hx with rfl | hx
    · exact ⟨_, List.mem_cons_self, h⟩
    · obtain ⟨y, hy, hr⟩ := ih x hx
      exact ⟨y, List.mem_cons_of_mem _ hy, hr⟩

theorem mnL_spec {x : Fl K} {l : List (Fl K)} (h : ∀ y ∈ x :: l, y ≠ Fl.nan) : mnL x l ∈ x :: l ∧ ∀ y ∈ x :: l, Fl.le (mnL x l) y = true := by
  obtain ⟨h1, h2, h3⟩ := foldl_min l (h x (by simp)) fun y hy => h y (List.mem_cons_of_mem _ hy)
  exact ⟨List.mem_cons.mpr h1, fun y hy => (List.mem_cons.mp hy).elim (fun e => e ▸ h2) (h3 y)⟩

theorem mxL_spec {x : Fl K} {l : List (Fl K)} (h : ∀ y ∈ x :: l, y ≠ Fl.nan) : mxL x l ∈ x :: l ∧ ∀ y ∈ x :: l, Fl.le y (mxL x l) = true := by
  obtain ⟨h1, h2, h3⟩ := foldl_max l (h x (by simp)) fun y hy => h y (List.mem_cons_of_mem _ hy)
  exact ⟨List.mem_cons.mpr h1, fun y hy => (List.mem_cons.mp hy).elim (fun e => e ▸ h2) (h3 y)⟩

theorem Fl.flip_ne_nan {b : Bool} {x : Fl K} (h : x ≠ .nan) : flip b x ≠ .nan := by cases b <;> [exact h; exact Fl.neg_ne_nan h]

theorem Fl.Same.ne_nan {x y : Fl K} (h : Same x y) (hy : y ≠ .nan) : x ≠ .nan := by
  rintro rfl
  rcases h with h | h
  · exact hy h.symm
  · simp [Fl.val] at h

theorem minmax_mir {b : Bool} {x x' : Fl K} {l l' : List (Fl K)} (h : List.Forall₂ (fun y y' => Same y' (flip b y)) (x :: l) (x' :: l'))
    (hn : ∀ y ∈ x :: l, y ≠ Fl.nan) :
    Same (mnL x' l') (if b then -mxL x l else mnL x l) ∧ Same (mxL x' l') (if b then -mnL x l else mxL x l) := by
  have hn' : ∀ y ∈ x' :: l', y ≠ Fl.nan := by
    intro y hy
    obtain ⟨z, hz, hr⟩ := forall₂_right h y hy
    exact hr.ne_nan (Fl.flip_ne_nan (hn z hz))
  obtain ⟨m1, m2⟩ := mnL_spec hn
  obtain ⟨k1, k2⟩ := mxL_spec hn
  obtain ⟨m1', m2'⟩ := mnL_spec hn'
  obtain ⟨k1', k2'⟩ := mxL_spec hn'
  obtain ⟨y1, hy1, r1⟩ := forall₂_left h _ m1
  obtain ⟨y2, hy2, r2⟩ := forall₂_left h _ k1
  obtain ⟨z1, hz1, s1⟩ := forall₂_right h _ m1'
  obtain ⟨z2, hz2, s2⟩ := forall₂_right h _ k1'
  cases b <;> simp only [Fl.flip_false, Fl.flip_true] at r1 r2 s1 s2
  · refine ⟨Fl.same_of_le ?_ ?_, Fl.same_of_le ?_ ?_⟩
    · have := m2' y1 hy1; rwa [Fl.le_congr (.refl _) r1] at this
    · have := m2 z1 hz1; rwa [Fl.le_congr (.refl _) s1.symm] at this
    · have := k2 z2 hz2; rwa [Fl.le_congr s2.symm (.refl _)] at this
    · have := k2' y2 hy2; rwa [Fl.le_congr r2 (.refl _)] at this
  · refine ⟨Fl.same_of_le ?_ ?_, Fl.same_of_le ?_ ?_⟩
    · have := m2' y2 hy2; rwa [Fl.le_congr (.refl _) r2] at this
    · have := k2 z1 hz1; rw [← Fl.le_neg] at this; rwa [Fl.le_congr (.refl _) s1.symm] at this
    · have := m2 z2 hz2; rw [← Fl.le_neg] at this; rwa [Fl.le_congr s2.symm (.refl _)] at this
    · have := k2' y1 hy1; rwa [Fl.le_congr r1 (.refl _)] at this

/-- no coordinate is NaN -/
def V3.NoNaN (v : V3 K) : Prop := v.val[0] ≠ .nan ∧ v.val[1] ≠ .nan ∧ v.val[2] ≠ .nan

theorem boxL_mir {v v' : V3 K} {l l' : List (V3 K)} (h : List.Forall₂ (V3.Mir σ) (v :: l) (v' :: l')) (hn : ∀ u ∈ v :: l, u.NoNaN) :
    AABB.Mir σ (boxL v l) (boxL v' l') := by
  have key (g : V3 K → Fl K) (b : Bool) (hg : ∀ u u', V3.Mir σ u u' → Same (g u') (flip b (g u))) (hn : ∀ u ∈ v :: l, g u ≠ .nan) :
      Same (mnL (g v') (l'.map g)) (if b then -mxL (g v) (l.map g) else mnL (g v) (l.map g)) ∧
      Same (mxL (g v') (l'.map g)) (if b then -mnL (g v) (l.map g) else mxL (g v) (l.map g)) := by
    refine minmax_mir ?_ ?_
    · have : List.Forall₂ (fun y y' => Same y' (flip b y)) ((v :: l).map g) ((v' :: l').map g) := by
        rw [List.forall₂_map_left_iff, List.forall₂_map_right_iff]
        exact h.imp hg
      exact this
    · intro y hy
      rw [← List.map_cons] at hy
      obtain ⟨u, hu, rfl⟩ := List.mem_map.mp hy
      exact hn u hu
  exact AABB.mir_mk (key (·.val[0]) (σ 0) (fun _ _ h => h.1) fun u hu => (hn u hu).1)
    (key (·.val[1]) (σ 1) (fun _ _ h => h.2.1) fun u hu => (hn u hu).2.1) (key (·.val[2]) (σ 2) (fun _ _ h => h.2.2) fun u hu => (hn u hu).2.2)

end

/-! ## Specification: a mirrored constructor call -/

/-- a list of coordinates, three by three, with the signs selected by `σ` flipped -/
def flipList (σ : Fin 3 → Bool) (l : List (Fl K)) : List (Fl K) := l.mapIdx fun i x => if σ (Fin.ofNat 3 i) then -x else x

/-- the call with mirrored positions, directions and normals; radii, sides and heights stay -/
def Ctor.mirrored (σ : Fin 3 → Bool) : Ctor K → Ctor K
  | .point o => .point (flipList σ o)
  | .ray o d => .ray (flipList σ o) (flipList σ d)
  | .sphere o r => .sphere (flipList σ o) r
  | .plane o n => .plane (flipList σ o) (flipList σ n)
  | .box o h => .box (flipList σ o) h
  | .line a b => .line (flipList σ a) (flipList σ b)
  | .triPrism v h => .triPrism (flipList σ v) h

/-- the vertices of a segment or a prism have no NaN coordinate -/
def Shape.CornersNoNaN : Shape K → Prop
  | .line s => s.a.NoNaN ∧ s.b.NoNaN
  | .triPrism s => (s.triBase[0].NoNaN ∧ s.triBase[1].NoNaN ∧ s.triBase[2].NoNaN) ∧
      s.triBase2[0].NoNaN ∧ s.triBase2[1].NoNaN ∧ s.triBase2[2].NoNaN
  | _ => True

section ctor
variable (σ : Fin 3 → Bool)

theorem flipList3 (x y z : Fl K) : flipList σ [x, y, z] = [flip (σ 0) x, flip (σ 1) y, flip (σ 2) z] := rfl

theorem flipList9 (a b c a' b' c' a'' b'' c'' : Fl K) : flipList σ [a, b, c, a', b', c', a'', b'', c''] =
    [flip (σ 0) a, flip (σ 1) b, flip (σ 2) c, flip (σ 0) a', flip (σ 1) b', flip (σ 2) c',
      flip (σ 0) a'', flip (σ 1) b'', flip (σ 2) c''] := by
  simp only [flipList, List.mapIdx_cons, List.mapIdx_nil]
  rfl

theorem flip_mk (x y z : Fl K) : V3.flip σ ⟨#v[x, y, z]⟩ = ⟨#v[flip (σ 0) x, flip (σ 1) y, flip (σ 2) z]⟩ := rfl

theorem point_mir {o : List (Fl K)} {s : Point3 K} (h : Point3.init o = .ok s) :
    ∃ s', Point3.init (flipList σ o) = .ok s' ∧ Shape.Mir σ (.point s) (.point s') := by
  by_cases h1 : o.length = 3
  · obtain ⟨x, y, z, rfl⟩ := list3 h1
    obtain rfl := Except.ok.inj h
    exact ⟨_, rfl, rfl, rfl, AABB.mir_mk (mir_point _ _) (mir_point _ _) (mir_point _ _)⟩
  · simp [Point3.init, beq_false_of_ne h1] at h

theorem sphere_mir {o : List (Fl K)} {r : Fl K} {s : Sphere K} (h : Sphere.init o r = .ok s) :
    ∃ s', Sphere.init (flipList σ o) r = .ok s' ∧ Shape.Mir σ (.sphere s) (.sphere s') := by
  by_cases h1 : o.length = 3
  · obtain ⟨x, y, z, rfl⟩ := list3 h1
    obtain rfl := Except.ok.inj h
    exact ⟨_, rfl, rfl, rfl, rfl, AABB.mir_mk (mir_around _ _ _) (mir_around _ _ _) (mir_around _ _ _)⟩
  · simp [Sphere.init, beq_false_of_ne h1] at h

theorem box_mir {o : List (Fl K)} {r : Fl K} {s : RecBox K} (h : RecBox.init o r = .ok s) :
    ∃ s', RecBox.init (flipList σ o) r = .ok s' ∧ Shape.Mir σ (.box s) (.box s') := by
  by_cases h1 : o.length = 3
  · obtain ⟨x, y, z, rfl⟩ := list3 h1
    obtain rfl := Except.ok.inj h
    exact ⟨_, rfl, rfl, rfl, rfl, AABB.mir_mk (mir_around _ _ _) (mir_around _ _ _) (mir_around _ _ _)⟩
  · simp [RecBox.init, beq_false_of_ne h1] at h

theorem ray_mir {o d : List (Fl K)} {s : Ray3 K} (h : Ray3.init o d = .ok s) :
    ∃ s', Ray3.init (flipList σ o) (flipList σ d) = .ok s' ∧ Shape.Mir σ (.ray s) (.ray s') := by
  by_cases h1 : o.length = 3
  · by_cases h2 : d.length = 3
    · obtain ⟨x, y, z, rfl⟩ := list3 h1
      obtain ⟨x', y', z', rfl⟩ := list3 h2
      obtain rfl := Except.ok.inj h
      exact ⟨_, rfl, rfl, V3.nrm_flip ⟨#v[x', y', z']⟩, rfl, AABB.mir_mk (mir_ray _ _ _) (mir_ray _ _ _) (mir_ray _ _ _)⟩
    · simp [Ray3.init, h1, beq_false_of_ne h2] at h
  · simp [Ray3.init, beq_false_of_ne h1] at h

theorem plane_mir {o d : List (Fl K)} {s : Plane K} (h : Plane.init o d = .ok s) :
    ∃ s', Plane.init (flipList σ o) (flipList σ d) = .ok s' ∧ Shape.Mir σ (.plane s) (.plane s') := by
  by_cases h1 : o.length = 3
  · by_cases h2 : d.length = 3
    · obtain ⟨x, y, z, rfl⟩ := list3 h1
      obtain ⟨x', y', z', rfl⟩ := list3 h2
      obtain rfl := Except.ok.inj h
      exact ⟨_, rfl, rfl, V3.nrm_flip ⟨#v[x', y', z']⟩, rfl, mir_default⟩
    · simp [Plane.init, h1, beq_false_of_ne h2] at h
  · simp [Plane.init, beq_false_of_ne h1] at h

theorem line_mir {a b : List (Fl K)} {s : Line3 K} (h : Line3.init a b = .ok s) (hn : s.a.NoNaN ∧ s.b.NoNaN) :
    ∃ s', Line3.init (flipList σ a) (flipList σ b) = .ok s' ∧ Shape.Mir σ (.line s) (.line s') := by
  by_cases h1 : a.length = 3
  · by_cases h2 : b.length = 3
    · obtain ⟨x, y, z, rfl⟩ := list3 h1
      obtain ⟨x', y', z', rfl⟩ := list3 h2
      rw [line_init] at h
      obtain rfl := Except.ok.inj h
      rw [flipList3, flipList3, line_init]
      refine ⟨_, rfl, rfl, rfl, rfl, boxL_mir (.cons (V3.flip_mir σ _) (.cons (V3.flip_mir σ _) .nil)) ?_⟩
      intro u hu
      simp only [List.mem_cons, List.not_mem_nil, or_false] at hu
      rcases hu with rfl | rfl
      · exact hn.1
      · exact hn.2
    · simp [Line3.init, h1, beq_false_of_ne h2] at h
  · simp [Line3.init, beq_false_of_ne h1] at h

theorem prism_mir (ho : V3.odd σ = false) {v : List (Fl K)} {h : Fl K} {s : TriPrism K} (hs : TriPrism.init v h = .ok s)
    (hn : (Shape.triPrism s).CornersNoNaN) : ∃ s', TriPrism.init (flipList σ v) h = .ok s' ∧ Shape.Mir σ (.triPrism s) (.triPrism s') := by
  by_cases h1 : v.length = 9
  · rcases v with _ | ⟨a, _ | ⟨b, _ | ⟨c, _ | ⟨a', _ | ⟨b', _ | ⟨c', _ | ⟨a'', _ | ⟨b'', _ | ⟨c'', _ | _⟩⟩⟩⟩⟩⟩⟩⟩⟩ <;> simp at h1
    rw [prism_init] at hs
    obtain rfl := Except.ok.inj hs
    rw [flipList9, prism_init]
    have m0 := V3.flip_mir σ (⟨#v[a, b, c]⟩ : V3 K)
    have m1 := V3.flip_mir σ (⟨#v[a', b', c']⟩ : V3 K)
    have m2 := V3.flip_mir σ (⟨#v[a'', b'', c'']⟩ : V3 K)
    have mn := (((m1.sub m0).crs_even ho (m2.sub m0)).nrm).scl (.refl h)
    refine ⟨_, rfl, ⟨m0, m1, m2⟩, m0.add mn, mn, rfl, boxL_mir
      (.cons m0 (.cons m1 (.cons m2 (.cons (m0.add mn) (.cons (m1.add mn) (.cons (m2.add mn) .nil)))))) ?_⟩
    obtain ⟨⟨n0, n1, n2⟩, n3, n4, n5⟩ := hn
    intro u hu
    simp only [List.mem_cons, List.not_mem_nil, or_false] at hu
    rcases hu with rfl | rfl | rfl | rfl | rfl | rfl <;> assumption
  · simp [TriPrism.init, beq_false_of_ne h1] at hs

theorem Ctor.made_mir (c : Ctor K) {s : Shape K} (h : c.make = .ok s) (hn : s.CornersNoNaN) (ho : s.getType = .triPrism → V3.odd σ = false) :
    ∃ s', (c.mirrored σ).make = .ok s' ∧ s.Mir σ s' := by
  cases c with
  | point o => obtain ⟨p, hp, rfl⟩ := map_ok h
               obtain ⟨p', h1, h2⟩ := point_mir σ hp
               exact ⟨_, congrArg (Except.map Shape.point) h1, h2⟩
  | ray o d => obtain ⟨p, hp, rfl⟩ := map_ok h
               obtain ⟨p', h1, h2⟩ := ray_mir σ hp
               exact ⟨_, congrArg (Except.map Shape.ray) h1, h2⟩
  | sphere o r => obtain ⟨p, hp, rfl⟩ := map_ok h
                  obtain ⟨p', h1, h2⟩ := sphere_mir σ hp
                  exact ⟨_, congrArg (Except.map Shape.sphere) h1, h2⟩
  | plane o n => obtain ⟨p, hp, rfl⟩ := map_ok h
                 obtain ⟨p', h1, h2⟩ := plane_mir σ hp
                 exact ⟨_, congrArg (Except.map Shape.plane) h1, h2⟩
  | box o r => obtain ⟨p, hp, rfl⟩ := map_ok h
               obtain ⟨p', h1, h2⟩ := box_mir σ hp
               exact ⟨_, congrArg (Except.map Shape.box) h1, h2⟩
  | line a b => obtain ⟨p, hp, rfl⟩ := map_ok h
                obtain ⟨p', h1, h2⟩ := line_mir σ hp hn
                exact ⟨_, congrArg (Except.map Shape.line) h1, h2⟩
  | triPrism v r => obtain ⟨p, hp, rfl⟩ := map_ok h
                    obtain ⟨p', h1, h2⟩ := prism_mir σ (ho rfl) hp hn
                    exact ⟨_, congrArg (Except.map Shape.triPrism) h1, h2⟩

theorem aabb_mir {a a' : Shape K} (h : a.Mir σ a') : a.aabb.Mir σ a'.aabb := by
  cases a <;> cases a' <;> first | exact h.2.2 | exact h.2.2.2 | exact h.2.2.2.2 | exact h.elim

theorem setVicinity_mir {a a' : Shape K} (h : a.Mir σ a') (e : Fl K) : (a.setVicinity e).Mir σ (a'.setVicinity e) := by
  cases a <;> cases a' <;> first
    | exact ⟨h.1, rfl, h.2.2⟩
    | exact ⟨h.1, h.2.1, rfl, h.2.2.2⟩
    | exact ⟨h.1, h.2.1, h.2.2.1, rfl, h.2.2.2.2⟩
    | exact h.elim

theorem getIntersect_mir (n : ℕ) {a b a' b' : Shape K} (ha : a.Mir σ a') (hb : b.Mir σ b') (h : MirPairs σ a.getType b.getType) :
    MirRes σ (Shape.getIntersect (n + 2) a b) (Shape.getIntersect (n + 2) a' b') := by
  rw [getIntersect_eq, getIntersect_eq]
  refine mir_ite ((aabb_mir σ ha).overlap (aabb_mir σ hb)) (core_mir a b ha hb h) fun _ => mir_none

end ctor

/-! ## C76 -/

/-- C76: flipping the signs of any coordinates (of positions, directions and normals alike) of two shapes leaves the flag or
panic of the query unchanged and flips the signs of the reported location, bit for bit up to the signs of zeros: for all floats of every lawful format, with
the default tolerances and with any tolerances set.  Not for a sphere with a point (see `C76_sphere_point_false`), and for prisms
only if an even number of axes is flipped, that is, for half turns. -/
theorem C76_query (σ : Fin 3 → Bool) {a b : Ctor K} {A B : Shape K} (hA : a.make = .ok A) (hB : b.make = .ok B)
    (hnA : A.CornersNoNaN) (hnB : B.CornersNoNaN) (h : MirPairs σ A.getType B.getType) :
    ∃ A' B', (a.mirrored σ).make = .ok A' ∧ (b.mirrored σ).make = .ok B' ∧
      (∀ n, MirRes σ (Shape.getIntersect (n + 2) A B) (Shape.getIntersect (n + 2) A' B')) ∧
      ∀ n e f, MirRes σ (Shape.getIntersect (n + 2) (A.setVicinity e) (B.setVicinity f))
        (Shape.getIntersect (n + 2) (A'.setVicinity e) (B'.setVicinity f)) := by
  obtain ⟨A', h1, m1⟩ := a.made_mir σ hA hnA fun e => h.2.2 (.inl e)
  obtain ⟨B', h2, m2⟩ := b.made_mir σ hB hnB fun e => h.2.2 (.inr e)
  refine ⟨A', B', h1, h2, fun n => getIntersect_mir σ n m1 m2 h, fun n e f => ?_⟩
  refine getIntersect_mir σ n (setVicinity_mir σ m1 e) (setVicinity_mir σ m2 f) ?_
  have t1 : (A.setVicinity e).getType = A.getType := by cases A <;> rfl
  have t2 : (B.setVicinity f).getType = B.getType := by cases B <;> rfl
  rwa [t1, t2]

/-- a half turn about the `z` axis keeps the orientation, a mirror image in `x` does not -/
example : V3.odd ![true, true, false] = false ∧ V3.odd ![true, false, false] = true := by decide

/-- concrete case: a ball and a ray that meets it in binary64, mirrored in `x` -/
example : ∃ A B : Shape Q64, (Ctor.sphere [.fin 3, 0, 0] 1 : Ctor Q64).make = .ok A ∧
    (Ctor.ray [0, 0, 0] [1, 0, 0] : Ctor Q64).make = .ok B ∧ A.CornersNoNaN ∧ B.CornersNoNaN ∧
    MirPairs ![true, false, false] A.getType B.getType ∧ Shape.getIntersect 2 A B = .ok (true, some ⟨#v[.fin 2, 0, 0]⟩) :=
  ⟨_, _, rfl, rfl, trivial, trivial, ⟨by decide, by decide, by decide⟩, by decide +kernel⟩

/-- ... and what follows for the mirrored call -/
example : ∃ A' B' : Shape Q64, ((Ctor.sphere [.fin 3, 0, 0] 1 : Ctor Q64).mirrored ![true, false, false]).make = .ok A' ∧
    ((Ctor.ray [0, 0, 0] [1, 0, 0] : Ctor Q64).mirrored ![true, false, false]).make = .ok B' ∧
    Shape.getIntersect 2 A' B' = .ok (true, some ⟨#v[.fin (-2), 0, 0]⟩) :=
  ⟨_, _, rfl, rfl, by decide +kernel⟩

/-- concrete case: a prism and a point inside it, turned by half a turn about `z` -/
example : ∃ A B : Shape Q64, (Ctor.triPrism [0, 0, 0, .fin 4, 0, 0, 0, .fin 4, 0] 1 : Ctor Q64).make = .ok A ∧
    (Ctor.point [1, 1, .fin (1 / 2)] : Ctor Q64).make = .ok B ∧ A.CornersNoNaN ∧ B.CornersNoNaN ∧
    MirPairs ![true, true, false] A.getType B.getType ∧
    Shape.getIntersect 2 A B = .ok (true, some ⟨#v[1, 1, .fin (1 / 2)]⟩) := by
  refine ⟨_, _, rfl, rfl, ?_, trivial, ⟨by decide, by decide, by decide⟩, ?_⟩
  · unfold Shape.CornersNoNaN V3.NoNaN; decide +kernel
  · decide +kernel

/-- C76, a sphere with a point in exact arithmetic: the flag is kept and the location mirrored. -/
theorem C76_sphere_point_exact (σ : Fin 3 → Bool) (s s' : Sphere ℝ) (t t' : Point3 ℝ) (c p : R3) (r : ℝ) (hs : s.Made c r) (ht : t.Made p)
    (hs' : s'.Made (fun i => if σ i then -c i else c i) r) (ht' : t'.Made fun i => if σ i then -p i else p i) :
    (Shape.Finds (.sphere s) (.point t) p ∧ Shape.Finds (.sphere s') (.point t') fun i => if σ i then -p i else p i) ∨
      (Shape.Misses (.sphere s) (.point t) ∧ Shape.Misses (.sphere s') (.point t')) := by
  have key : (fun i => if σ i then -p i else p i) ∈ cubePts (fun i => if σ i then -c i else c i) r ↔ p ∈ cubePts c r := by
    refine forall_congr' fun i => ?_
    show |(if σ i then -p i else p i) - (if σ i then -c i else c i)| ≤ r ↔ |p i - c i| ≤ r
    cases σ i
    · rfl
    · show |-p i - -c i| ≤ r ↔ |p i - c i| ≤ r
      rw [show -p i - -c i = -(p i - c i) by ring, abs_neg]
  by_cases h : p ∈ cubePts c r
  · exact .inl ⟨(C41_cube s t c p r hs ht).1 h, (C41_cube s' t' _ _ r hs' ht').1 (key.mpr h)⟩
  · exact .inr ⟨(C41_cube s t c p r hs ht).2 h, (C41_cube s' t' _ _ r hs' ht').2 fun h' => h (key.mp h')⟩

/-- concrete case: the unit ball around `(1, 2, 3)` and the point `(1, 2, 4)`, mirrored in `y` -/
example := C76_sphere_point_exact ![false, true, false] _ _ _ _ ![1, 2, 3] ![1, 2, 4] 1 (mkSphere_made _ _ 0) (mkPoint_made _ 0)
  (mkSphere_made _ _ 0) (mkPoint_made _ 0)

/-- C76 fails for a sphere with a point in binary64: the sphere of radius `1` around `2^53 + 2` does not contain the point
`2^53 + 4` on the `x` axis, but the mirrored sphere contains the mirrored point.  (The code compares `p - c` with the radius without taking the
absolute value; the other side is left to the rounded bounds.) -/
theorem C76_sphere_point_false : ∃ A B A' B' : Shape Q64,
    (Ctor.sphere [.fin (2 ^ 53 + 2), 0, 0] 1 : Ctor Q64).make = .ok A ∧ (Ctor.point [.fin (2 ^ 53 + 4), 0, 0] : Ctor Q64).make = .ok B ∧
    ((Ctor.sphere [.fin (2 ^ 53 + 2), 0, 0] 1 : Ctor Q64).mirrored ![true, false, false]).make = .ok A' ∧
    ((Ctor.point [.fin (2 ^ 53 + 4), 0, 0] : Ctor Q64).mirrored ![true, false, false]).make = .ok B' ∧
    Shape.getIntersect 2 A B = .ok (false, none) ∧
    Shape.getIntersect 2 A' B' = .ok (true, some ⟨#v[.fin (-(2 ^ 53 + 4)), 0, 0]⟩) :=
  ⟨_, _, _, _, rfl, rfl, rfl, rfl, by decide +kernel, by decide +kernel⟩

/-- C76 needs the orientation to be kept for prisms: mirroring the base in `z` changes nothing about it, so the prism still
extends upwards. -/
theorem C76_prism_false : ∃ A B A' B' : Shape Q64,
    (Ctor.triPrism [0, 0, 0, .fin 4, 0, 0, 0, .fin 4, 0] 1 : Ctor Q64).make = .ok A ∧ (Ctor.point [1, 1, .fin (1 / 2)] : Ctor Q64).make = .ok B ∧
    ((Ctor.triPrism [0, 0, 0, .fin 4, 0, 0, 0, .fin 4, 0] 1 : Ctor Q64).mirrored ![false, false, true]).make = .ok A' ∧
    ((Ctor.point [1, 1, .fin (1 / 2)] : Ctor Q64).mirrored ![false, false, true]).make = .ok B' ∧
    Shape.getIntersect 2 A B = .ok (true, some ⟨#v[1, 1, .fin (1 / 2)]⟩) ∧
    Shape.getIntersect 2 A' B' = .ok (false, none) :=
  ⟨_, _, _, _, rfl, rfl, rfl, rfl, by decide +kernel, by decide +kernel⟩

/-- C76 needs the corners to be free of NaN: a prism with a degenerate base contains a point on one side of it but, after half
a turn, not the turned point. -/
theorem C76_nan_false : ∃ A B A' B' : Shape Q64,
    (Ctor.triPrism [0, 0, 0, 1, 0, 0, .fin 2, 0, 0] 1 : Ctor Q64).make = .ok A ∧ (Ctor.point [.fin 9, .fin 9, 0] : Ctor Q64).make = .ok B ∧
    ((Ctor.triPrism [0, 0, 0, 1, 0, 0, .fin 2, 0, 0] 1 : Ctor Q64).mirrored ![true, true, false]).make = .ok A' ∧
    ((Ctor.point [.fin 9, .fin 9, 0] : Ctor Q64).mirrored ![true, true, false]).make = .ok B' ∧
    Shape.getIntersect 2 A B = .ok (true, some ⟨#v[.fin 9, .fin 9, 0]⟩) ∧
    Shape.getIntersect 2 A' B' = .ok (false, none) :=
  ⟨_, _, _, _, rfl, rfl, rfl, rfl, by decide +kernel, by decide +kernel⟩

end Mazth
