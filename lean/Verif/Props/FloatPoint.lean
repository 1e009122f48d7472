import Verif.Props.FloatBounds
import Verif.Props.PointQueries

/-!
# C64: the box-point and sphere-point queries in floating point

Completeness is `C46_complete` and `C41_float_complete`: no point of the exact cube is rejected.  Here is the other half: a point
outside the exact cube by one relative rounding error is rejected.
-/

set_option linter.unusedSectionVars false
set_option autoImplicit false

namespace Mazth

open RndErr

variable {K : Type} [Field K] [LinearOrder K] [IsStrictOrderedRing K] [Fmt K] [LawfulFmt K] [RndErr K]

/-- a number above a sum by more than the rounding error is above the computed sum -/
theorem sum_lt {x y z : Fl K} {a b c : K} (hx : x.Holds a) (hy : y.Holds b) (hz : z.Holds c) (h : a + b + u * |a + b| < c) :
    Fl.lt (x + y) z = true := by
  have h0 : 0 ≤ u * |a + b| := mul_nonneg u_pos.le (abs_nonneg _)
  have h1 : Fl.le (x + y) z = true :=
    Fl.le_trans (hx.1.add_lit hy.1).1 (Fl.le_trans (Fl.lit_mono (by linarith : a + b ≤ c)) (lit_le_self hz))
  have hs (d : K) (hd : (x + y).Is d) : d < c := by
    have := (abs_le.mp (Fl.add_err hx.1 hy.1 hx.2 hy.2 hd)).2
    linarith
  rw [Fl.lt_eq_not_le (Fl.le_ne_nan h1).1 hz.1.kne_nan, Bool.not_eq_true', ← Bool.not_eq_true]
  intro h2
  generalize x + y = w at *
  rcases hz.1.kcases with rfl | ⟨rfl, rfl⟩
  · cases w with
    | nan => simp at h1
    | inf s => cases s <;> simp [Fl.le] at h1 h2
    | nzero => exact absurd (of_decide_eq_true h2 : c ≤ 0) (not_le.mpr (hs 0 rfl))
    | fin d => exact absurd (of_decide_eq_true h2 : c ≤ d) (not_le.mpr (hs d rfl))
  · cases w with
    | nan => simp at h1
    | inf s => cases s <;> simp [Fl.le] at h1 h2
    | nzero => exact lt_irrefl _ (hs 0 rfl)
    | fin d => exact absurd (of_decide_eq_true h2 : (0 : K) ≤ d) (not_le.mpr (hs d rfl))

/-- likewise below a difference -/
theorem lt_diff {x y z : Fl K} {a b c : K} (hx : x.Holds a) (hy : y.Holds b) (hz : z.Holds c) (h : c < a - b - u * |a - b|) :
    Fl.lt z (x - y) = true := by
  have h0 : 0 ≤ u * |a - b| := mul_nonneg u_pos.le (abs_nonneg _)
  have h1 : Fl.le z (x - y) = true :=
    Fl.le_trans (self_le_lit hz) (Fl.le_trans (Fl.lit_mono (by linarith : c ≤ a - b)) (hx.1.sub_lit hy.1).2)
  have hs (d : K) (hd : (x - y).Is d) : c < d := by
    have := (abs_le.mp (Fl.sub_err hx.1 hy.1 hx.2 hy.2 hd)).1
    linarith
  rw [Fl.lt_eq_not_le hz.1.kne_nan (Fl.le_ne_nan h1).2, Bool.not_eq_true', ← Bool.not_eq_true]
  intro h2
  generalize x - y = w at *
  rcases hz.1.kcases with rfl | ⟨rfl, rfl⟩
  · cases w with
    | nan => simp at h1
    | inf s => cases s <;> simp [Fl.le] at h1 h2
    | nzero => exact absurd (of_decide_eq_true h2 : 0 ≤ c) (not_le.mpr (hs 0 rfl))
    | fin d => exact absurd (of_decide_eq_true h2 : d ≤ c) (not_le.mpr (hs d rfl))
  · cases w with
    | nan => simp at h1
    | inf s => cases s <;> simp [Fl.le] at h1 h2
    | nzero => exact lt_irrefl _ (hs 0 rfl)
    | fin d => exact absurd (of_decide_eq_true h2 : d ≤ (0 : K)) (not_le.mpr (hs d rfl))

/-- C64: a point that is, along some axis, outside the exact cube by more than one rounding of the face is not reported by a
box.  No assumption on ranges: overflow included. -/
theorem C64_boxPoint {l l' : List (Fl K)} {x : Fl K} {c p : Fin 3 → K} {r : K} {b : RecBox K} {q : Point3 K}
    (hl : ListIn l c) (hx : x.Holds r) (hb : RecBox.init l x = .ok b) (hl' : ListIn l' p) (hq : Point3.init l' = .ok q)
    (h : ∃ i, c i + r + u * |c i + r| < p i ∨ p i < c i - r - u * |c i - r|) (n : ℕ) :
    Shape.getIntersect (n + 2) (.box b) (.point q) = .ok (false, none) := by
  obtain ⟨x0, x1, x2, rfl, h0, h1, h2⟩ := hl
  obtain ⟨y0, y1, y2, rfl, g0, g1, g2⟩ := hl'
  rw [C46_boxPoint _ _ _ _ _ _ _ _ _ hb hq]
  obtain ⟨i, hi⟩ := h
  have key {x' y' : Fl K} {a d : K} (hx' : x'.Holds a) (hy' : y'.Holds d) (hi : a + r + u * |a + r| < d ∨ d < a - r - u * |a - r|) :
      (!Fl.lt y' (x' - x) && !Fl.lt (x' + x) y') = false := by
    rcases hi with hi | hi
    · rw [sum_lt hx' hx hy' hi]; simp
    · rw [lt_diff hx' hx hy' hi]; simp
  fin_cases i
  · rw [key h0 g0 hi]; rfl
  · rw [key h1 g1 hi, Bool.and_false]; rfl
  · rw [key h2 g2 hi, Bool.and_false]; rfl

/-- concrete case: `-4` is below `1 - 1` -/
example := C64_boxPoint listA one64_holds rfl listB rfl ⟨0, .inr (by simp [A123, B405])⟩ 0

/-- C64: the same for a sphere; so every reported point is in the cube around the sphere, up to one rounding. -/
theorem C64_spherePoint {l l' : List (Fl K)} {x : Fl K} {c p : Fin 3 → K} {r : K} {b : Sphere K} {q : Point3 K}
    (hl : ListIn l c) (hx : x.Holds r) (hb : Sphere.init l x = .ok b) (hl' : ListIn l' p) (hq : Point3.init l' = .ok q)
    (h : ∃ i, c i + r + u * |c i + r| < p i ∨ p i < c i - r - u * |c i - r|) (n : ℕ) :
    Shape.getIntersect (n + 2) (.sphere b) (.point q) = .ok (false, none) := by
  obtain ⟨x0, x1, x2, rfl, h0, h1, h2⟩ := hl
  obtain ⟨y0, y1, y2, rfl, g0, g1, g2⟩ := hl'
  cases hb; cases hq
  rw [getIntersect_eq, if_neg]
  rw [AABB.overlap_iff]
  intro ho
  obtain ⟨i, hi⟩ := h
  have key {x' y' : Fl K} {a d : K} (hx' : x'.Holds a) (hy' : y'.Holds d) (hi : a + r + u * |a + r| < d ∨ d < a - r - u * |a - r|)
      (h : Fl.lt y' (x' - x) = false ∧ Fl.lt (x' + x) y' = false) : False := by
    rcases hi with hi | hi
    · rw [sum_lt hx' hx hy' hi] at h; simp at h
    · rw [lt_diff hx' hx hy' hi] at h; simp at h
  have := ho i
  fin_cases i
  · exact key h0 g0 hi this
  · exact key h1 g1 hi this
  · exact key h2 g2 hi this

/-- concrete case -/
example := C64_spherePoint listA one64_holds rfl listB rfl ⟨0, .inr (by simp [A123, B405])⟩ 0

/-- C64: the two halves together for a box: inside the exact cube the answer is true with the point as location; beyond the
cube by `u (|c i| + r)` along some axis it is false. -/
theorem C64_boxPoint_margin {l l' : List (Fl K)} {x : Fl K} {c p : Fin 3 → K} {r : K} {b : RecBox K} {q : Point3 K}
    (hl : ListIn l c) (hx : x.Holds r) (hb : RecBox.init l x = .ok b) (hl' : ListIn l' p) (hq : Point3.init l' = .ok q) (hr : 0 ≤ r) :
    ((∀ i, |p i - c i| ≤ r) → ∃ loc, Shape.getIntersect 2 (.box b) (.point q) = .ok (true, some loc) ∧ loc.Holds p) ∧
    ((∃ i, r + u * (|c i| + r) < |p i - c i|) → Shape.getIntersect 2 (.box b) (.point q) = .ok (false, none)) := by
  constructor
  · intro h
    obtain ⟨x0, x1, x2, rfl, h0, h1, h2⟩ := hl
    obtain ⟨y0, y1, y2, rfl, g0, g1, g2⟩ := hl'
    refine ⟨_, C46_complete ![x0, x1, x2] ![y0, y1, y2] x c p r b q hb hq ?_ ?_ ?_ hx.1 h 0, ?_⟩
    · intro i; fin_cases i
      · exact h0.1
      · exact h1.1
      · exact h2.1
    · intro i; fin_cases i
      · exact g0.1
      · exact g1.1
      · exact g2.1
    · intro i; fin_cases i
      · exact g0.2
      · exact g1.2
      · exact g2.2
    · intro i; fin_cases i
      · exact g0
      · exact g1
      · exact g2
  · rintro ⟨i, hi⟩
    refine C64_boxPoint hl hx hb hl' hq ⟨i, ?_⟩ 0
    have hu := u_pos (K := K)
    have a1 : u * |c i + r| ≤ u * (|c i| + r) := by
      have := abs_add_le (c i) r; rw [abs_of_nonneg hr] at this; gcongr
    have a2 : u * |c i - r| ≤ u * (|c i| + r) := by
      have := abs_sub (c i) r; rw [abs_of_nonneg hr] at this; gcongr
    rcases lt_abs.mp hi with h | h
    · left; linarith
    · right; linarith

/-- concrete case -/
example := C64_boxPoint_margin listA one64_holds rfl listB rfl zero_le_one

/-- C64, the two halves for a sphere: every point of the exact ball is reported, no point beyond the cube by `u (|c i| + r)` is. -/
theorem C64_spherePoint_margin (φ : K →+* ℝ) (hφ : StrictMono φ) {l l' : List (Fl K)} {x : Fl K} {c p : Fin 3 → K} {r : K}
    {b : Sphere K} {q : Point3 K} (hl : ListIn l c) (hx : x.Holds r) (hb : Sphere.init l x = .ok b) (hl' : ListIn l' p)
    (hq : Point3.init l' = .ok q) (hr : 0 ≤ r) :
    (toR φ p ∈ ballPts (toR φ c) (φ r) → ∃ loc, Shape.getIntersect 2 (.sphere b) (.point q) = .ok (true, some loc) ∧ loc.Holds p) ∧
    ((∃ i, r + u * (|c i| + r) < |p i - c i|) → Shape.getIntersect 2 (.sphere b) (.point q) = .ok (false, none)) := by
  constructor
  · intro h
    have h (i : Fin 3) : |p i - c i| ≤ r := by
      rw [← hφ.le_iff_le, map_abs_mono φ hφ, map_sub]
      exact (euc_coord (toR φ p - toR φ c) i).trans h
    obtain ⟨x0, x1, x2, rfl, h0, h1, h2⟩ := hl
    obtain ⟨y0, y1, y2, rfl, g0, g1, g2⟩ := hl'
    refine ⟨_, C41_float_complete ![x0, x1, x2] ![y0, y1, y2] x c p r b q hb hq ?_ ?_ ?_ hx.2 hx.1 h 0, ?_⟩
    · intro i; fin_cases i
      · exact h0.1
      · exact h1.1
      · exact h2.1
    · intro i; fin_cases i
      · exact g0.1
      · exact g1.1
      · exact g2.1
    · intro i; fin_cases i
      · exact g0.2
      · exact g1.2
      · exact g2.2
    · intro i; fin_cases i
      · exact g0
      · exact g1
      · exact g2
  · rintro ⟨i, hi⟩
    refine C64_spherePoint hl hx hb hl' hq ⟨i, ?_⟩ 0
    have hu := u_pos (K := K)
    have a1 : u * |c i + r| ≤ u * (|c i| + r) := by
      have := abs_add_le (c i) r; rw [abs_of_nonneg hr] at this; gcongr
    have a2 : u * |c i - r| ≤ u * (|c i| + r) := by
      have := abs_sub (c i) r; rw [abs_of_nonneg hr] at this; gcongr
    rcases lt_abs.mp hi with h | h
    · left; linarith
    · right; linarith

/-- concrete case -/
example := C64_spherePoint_margin BinQ.real BinQ.real_strictMono listA one64_holds rfl listB rfl zero_le_one

/-- C64, non-vacuity: a box around `(2^53 + 2, 0, 0)` of half size `1` and the representable point `2^53 + 6`, outside by `3`: the
hypothesis of the miss holds (`u` is `2^-53`, so the margin is `1 + 3·2^-53`), and the query answers false. -/
example : ∃ (b : RecBox Q64) (q : Point3 Q64), RecBox.init [.fin 9007199254740994, 0, 0] 1 = .ok b ∧
    Point3.init [.fin 9007199254740998, 0, 0] = .ok q ∧ Shape.getIntersect 2 (.box b) (.point q) = .ok (false, none) ∧
    (1 + 1 / 9007199254740992 * (|9007199254740994| + 1) : ℚ) < |9007199254740998 - 9007199254740994| :=
  ⟨_, _, rfl, rfl, by decide +kernel, by norm_num⟩

/-- C64: the margin is needed: the box around `(2^53 + 2, 0, 0)` of half size `1` reports the point `2^53 + 4`, at distance `2`. -/
theorem C64_exact_false : ∃ (b : RecBox Q64) (q : Point3 Q64) (loc : V3 Q64) (c p : Fin 3 → Q64) (r : Q64),
    (Shape.box b).MadeIn BinQ.real (cubePts (toR BinQ.real c) r.real) ∧ (Shape.point q).MadeIn BinQ.real {toR BinQ.real p} ∧
    toR BinQ.real p ∉ cubePts (toR BinQ.real c) r.real ∧ Shape.getIntersect 2 (.box b) (.point q) = .ok (true, some loc) := by
  refine ⟨⟨⟨#v[.fin (9007199254740994 : ℚ), .fin (0 : ℚ), .fin (0 : ℚ)]⟩, .fin (1 : ℚ), ⟨#v[.fin (9007199254740992 : ℚ), .fin (-1 : ℚ), .fin (-1 : ℚ)],
      #v[.fin (9007199254740996 : ℚ), .fin (1 : ℚ), .fin (1 : ℚ)]⟩, defaultVicinity⟩,
    ⟨⟨#v[.fin (9007199254740996 : ℚ), .fin (0 : ℚ), .fin (0 : ℚ)]⟩, ⟨#v[.fin (9007199254740996 : ℚ), .fin (0 : ℚ), .fin (0 : ℚ)],
      #v[.fin (9007199254740996 : ℚ), .fin (0 : ℚ), .fin (0 : ℚ)]⟩, defaultVicinity⟩,
    ⟨#v[.fin (9007199254740996 : ℚ), .fin (0 : ℚ), .fin (0 : ℚ)]⟩, ![(9007199254740994 : ℚ), (0 : ℚ), (0 : ℚ)],
    ![(9007199254740996 : ℚ), (0 : ℚ), (0 : ℚ)], (1 : ℚ), ?_, ?_, ?_, by decide +kernel⟩
  · exact Shape.MadeIn.box (K := Q64) (s := ⟨⟨#v[.fin (9007199254740994 : ℚ), .fin (0 : ℚ), .fin (0 : ℚ)]⟩, .fin (1 : ℚ),
      ⟨#v[.fin (9007199254740992 : ℚ), .fin (-1 : ℚ), .fin (-1 : ℚ)], #v[.fin (9007199254740996 : ℚ), .fin (1 : ℚ), .fin (1 : ℚ)]⟩, defaultVicinity⟩)
      (v := defaultVicinity) (x := .fin (1 : ℚ)) (l := [.fin (9007199254740994 : ℚ), .fin (0 : ℚ), .fin (0 : ℚ)])
      (c := ![(9007199254740994 : ℚ), (0 : ℚ), (0 : ℚ)])
      ⟨_, _, _, rfl, ⟨rfl, .inr (by decide +kernel)⟩, ⟨rfl, .inl rfl⟩, ⟨rfl, .inl rfl⟩⟩ ⟨rfl, .inr (by decide +kernel)⟩ (by decide +kernel)
  · exact Shape.MadeIn.point (K := Q64) (s := ⟨⟨#v[.fin (9007199254740996 : ℚ), .fin (0 : ℚ), .fin (0 : ℚ)]⟩,
      ⟨#v[.fin (9007199254740996 : ℚ), .fin (0 : ℚ), .fin (0 : ℚ)], #v[.fin (9007199254740996 : ℚ), .fin (0 : ℚ), .fin (0 : ℚ)]⟩, defaultVicinity⟩)
      (v := defaultVicinity) (l := [.fin (9007199254740996 : ℚ), .fin (0 : ℚ), .fin (0 : ℚ)]) (c := ![(9007199254740996 : ℚ), (0 : ℚ), (0 : ℚ)])
      ⟨_, _, _, rfl, ⟨rfl, .inr (by decide +kernel)⟩, ⟨rfl, .inl rfl⟩, ⟨rfl, .inl rfl⟩⟩ (by decide +kernel)
  · intro h
    have h0 : |((9007199254740996 : ℚ) : ℝ) - ((9007199254740994 : ℚ) : ℝ)| ≤ ((1 : ℚ) : ℝ) := h 0
    norm_num at h0

end Mazth
