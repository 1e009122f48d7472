import Verif.Props.Bitwise
import Verif.Props.Gjk

/-!
# C75: moving both shapes moves the answer

Exact arithmetic; the shapes are built by the constructors from arbitrary floats (NaN and infinities included), no position
coordinate being `-0`.
-/

set_option linter.unusedSectionVars false
set_option autoImplicit false

namespace Mazth

namespace Fl

variable {x y w w' : Fl ℝ}

theorem fin_add_fin (a b : ℝ) : (fin a + fin b : Fl ℝ) = fin (a + b) := by
  show Fl.add _ _ = _
  simp only [Fl.add, addFin, rnd_real]
  split
  · rename_i h; rw [h]
  · rfl

theorem nzero_add_fin (b : ℝ) : (nzero + fin b : Fl ℝ) = fin b := by
  show Fl.add _ _ = _
  simp only [Fl.add, addFin, rnd_real, zero_add]
  split
  · rename_i h; rw [h]
  · rfl

theorem fin_add_nzero (b : ℝ) : (fin b + nzero : Fl ℝ) = fin b := by rw [add_comm', nzero_add_fin]
theorem inf_add_fin (s : Bool) (b : ℝ) : (inf s + fin b : Fl ℝ) = inf s := rfl
theorem nan_add (x : Fl ℝ) : nan + x = nan := by cases x <;> rfl

/-- moving a summand moves the sum -/
theorem mv_add (t : ℝ) (x w : Fl ℝ) : (x + fin t) + w = (x + w) + fin t := by
  cases x with
  | nan => simp only [nan_add]
  | inf s =>
    cases w with
    | inf u => show Fl.add (.inf s) (.inf u) = Fl.add (Fl.add (.inf s) (.inf u)) (.fin t)
               by_cases h : s = u <;> simp [Fl.add, h]
    | _ => rfl
  | nzero =>
    rw [nzero_add_fin]
    cases w with
    | fin b => rw [fin_add_fin, nzero_add_fin, fin_add_fin, add_comm]
    | nzero => rw [fin_add_nzero]; exact (nzero_add_fin t).symm
    | _ => rfl
  | fin a =>
    rw [fin_add_fin]
    cases w with
    | fin b => rw [fin_add_fin, fin_add_fin, fin_add_fin, add_right_comm]
    | nzero => rw [fin_add_nzero, fin_add_nzero, fin_add_fin]
    | _ => rfl

theorem add_mv (t : ℝ) (w x : Fl ℝ) : w + (x + fin t) = (w + x) + fin t := by
  rw [add_comm', mv_add, add_comm' x w]

theorem mv_sub (t : ℝ) (x w : Fl ℝ) : (x + fin t) - w = (x - w) + fin t := mv_add t x (-w)

theorem mv_ne (t : ℝ) (x : Fl ℝ) : x + fin t ≠ nzero := by
  cases x with
  | fin a => rw [fin_add_fin]; simp
  | nzero => rw [nzero_add_fin]; simp
  | inf s => rw [inf_add_fin]; simp
  | nan => rw [nan_add]; simp

theorem add_ne (h : x ≠ nzero) (w : Fl ℝ) : x + w ≠ nzero := by
  cases x with
  | nzero => exact absurd rfl h
  | nan => rw [nan_add]; simp
  | fin a =>
    cases w with
    | fin b => rw [fin_add_fin]; simp
    | nzero => rw [fin_add_nzero]; simp
    | inf s => show Fl.add _ _ ≠ _; simp [Fl.add]
    | nan => show Fl.add _ _ ≠ _; simp [Fl.add]
  | inf s =>
    show Fl.add _ _ ≠ _
    cases w <;> simp [Fl.add]
    split <;> simp

theorem add_ne' (h : x ≠ nzero) (w : Fl ℝ) : w + x ≠ nzero := by rw [add_comm']; exact add_ne h w

theorem neg_fin (a : ℝ) (h : a ≠ 0) : -(fin a : Fl ℝ) = fin (-a) := if_neg h
theorem neg_zero_fin : -(fin 0 : Fl ℝ) = nzero := if_pos rfl

theorem fin_sub_fin (a b : ℝ) : (fin a - fin b : Fl ℝ) = fin (a - b) := by
  rw [sub_eq]
  by_cases h : b = 0
  · subst h; rw [neg_zero_fin, fin_add_nzero, sub_zero]
  · rw [neg_fin b h, fin_add_fin, sub_eq_add_neg]

/-- differences do not see the motion -/
theorem sub_mv (t : ℝ) (hx : x ≠ nzero) (hy : y ≠ nzero) : (x + fin t) - (y + fin t) = x - y := by
  cases x with
  | nzero => exact absurd rfl hx
  | nan => simp only [sub_eq, nan_add]
  | inf s =>
    cases y with
    | fin b => rw [inf_add_fin, fin_add_fin, sub_eq, sub_eq]
               show Fl.add _ (Fl.neg _) = Fl.add _ (Fl.neg _)
               simp only [Fl.neg]
               split <;> split <;> rfl
    | nzero => exact absurd rfl hy
    | _ => rfl
  | fin a =>
    cases y with
    | fin b => rw [fin_add_fin, fin_add_fin, fin_sub_fin, fin_sub_fin, add_sub_add_right_eq_sub]
    | nzero => exact absurd rfl hy
    | _ => rw [fin_add_fin]; rfl

theorem same_of_val {a : ℝ} (hx : x.Is a) (hy : y.Is a) : Same x y := by
  rcases hx.cases with rfl | ⟨rfl, rfl⟩
  · rcases hy.cases with rfl | ⟨rfl, rfl⟩
    · exact .refl _
    · exact .inr ⟨rfl, rfl⟩
  · exact .inr ⟨rfl, hy⟩

/-- differences do not see the motion, up to the sign of a zero -/
theorem sub_mv_same (t : ℝ) (x y : Fl ℝ) : Same ((x + fin t) - (y + fin t)) (x - y) := by
  by_cases hx : x = nzero
  · subst hx
    rw [nzero_add_fin]
    cases y with
    | fin b => rw [fin_add_fin, fin_sub_fin]
               exact same_of_val (is_fin _) ((is_nzero.sub (is_fin b)).cast (by ring))
    | nzero => rw [nzero_add_fin, fin_sub_fin]
               exact same_of_val (is_fin _) ((is_nzero.sub is_nzero).cast (by ring))
    | _ => exact .refl _
  · by_cases hy : y = nzero
    · subst hy
      rw [nzero_add_fin]
      cases x with
      | fin b => rw [fin_add_fin, fin_sub_fin]
                 exact same_of_val (is_fin _) (((is_fin b).sub is_nzero).cast (by ring))
      | nzero => exact absurd rfl hx
      | nan => exact .refl _
      | inf s => rw [inf_add_fin]
                 left; rw [sub_eq, sub_eq]
                 show Fl.add _ (Fl.neg _) = Fl.add _ (Fl.neg _)
                 simp only [Fl.neg]
                 split <;> rfl
    · rw [sub_mv t hx hy]; exact .refl _

theorem lt_mv (t : ℝ) (x y : Fl ℝ) : lt (x + fin t) (y + fin t) = lt x y := by
  cases x <;> cases y <;> simp only [nan_add, inf_add_fin, nzero_add_fin, fin_add_fin, lt] <;> simp

theorem le_mv (t : ℝ) (x y : Fl ℝ) : le (x + fin t) (y + fin t) = le x y := by
  cases x <;> cases y <;> simp only [nan_add, inf_add_fin, nzero_add_fin, fin_add_fin, le] <;> simp

theorem feq_mv (t : ℝ) (x y : Fl ℝ) : feq (x + fin t) (y + fin t) = feq x y := by
  unfold feq; rw [le_mv, le_mv]

/-- a summand that is not `-0` hides the sign of a zero -/
theorem add_same (hx : x ≠ nzero) (h : Same w w') : w + x = w' + x := by
  rcases h with rfl | ⟨h, h'⟩
  · rfl
  · rcases NaN.val_zero h with rfl | rfl <;> rcases NaN.val_zero h' with rfl | rfl <;> try rfl
    all_goals
      cases x with
      | fin a => rw [fin_add_fin, nzero_add_fin, zero_add]
      | nzero => exact absurd rfl hx
      | _ => rfl

theorem lt_congr {x x' y y' : Fl ℝ} (h : Same x x') (h' : Same y y') : lt x y = lt x' y' := by
  have key : ∀ {x x' : Fl ℝ}, Same x x' → ∀ y, lt x y = lt x' y ∧ lt y x = lt y x' := by
    intro x x' h y
    rcases h with rfl | ⟨h, h'⟩
    · exact ⟨rfl, rfl⟩
    · rcases NaN.val_zero h with rfl | rfl <;> rcases NaN.val_zero h' with rfl | rfl <;> cases y <;> simp [lt]
  rw [(key h y).1, (key h' x').2]

theorem div_same {d : Fl ℝ} (hd : d.val ≠ some 0) (h : Same w w') : Same (w / d) (w' / d) := by
  rcases h with rfl | ⟨h, h'⟩
  · exact .refl _
  · cases d with
    | nan => left; show Fl.div _ _ = Fl.div _ _
             rcases NaN.val_zero h with rfl | rfl <;> rcases NaN.val_zero h' with rfl | rfl <;> rfl
    | inf s => right
               have key : ∀ {w : Fl ℝ}, w.val = some 0 → (w / inf s).val = some 0 := by
                 intro w hw
                 rcases NaN.val_zero hw with rfl | rfl
                 · exact zeroIs _
                 · exact zeroIs _
               exact ⟨key h, key h'⟩
    | nzero => exact absurd rfl hd
    | fin b =>
      have hb : b ≠ 0 := fun e => hd (by rw [e]; rfl)
      exact same_of_val ((Is.div (a := 0) h (is_fin b) hb)) (Is.div (a := 0) h' (is_fin b) hb)

end Fl

/-! ## The motion on vectors, boxes and shapes -/

/-- `v + t` -/
noncomputable def V3.mv (t : R3) (v : V3 ℝ) : V3 ℝ :=
  ⟨#v[v.val[0] + .fin (t 0), v.val[1] + .fin (t 1), v.val[2] + .fin (t 2)]⟩

/-- no coordinate is `-0` -/
def V3.NZ (v : V3 ℝ) : Prop := v.val[0] ≠ .nzero ∧ v.val[1] ≠ .nzero ∧ v.val[2] ≠ .nzero

namespace V3

variable {a b w w' : V3 ℝ} (t : R3)

theorem mv_NZ (a : V3 ℝ) : (mv t a).NZ := ⟨Fl.mv_ne _ _, Fl.mv_ne _ _, Fl.mv_ne _ _⟩
theorem add_NZ (h : a.NZ) (b : V3 ℝ) : (add a b).NZ := ⟨Fl.add_ne h.1 _, Fl.add_ne h.2.1 _, Fl.add_ne h.2.2 _⟩
theorem add_NZ' (h : a.NZ) (b : V3 ℝ) : (add b a).NZ := ⟨Fl.add_ne' h.1 _, Fl.add_ne' h.2.1 _, Fl.add_ne' h.2.2 _⟩

theorem sub_mv (ha : a.NZ) (hb : b.NZ) : sub (mv t a) (mv t b) = sub a b := by
  have h0 := Fl.sub_mv (t 0) ha.1 hb.1
  have h1 := Fl.sub_mv (t 1) ha.2.1 hb.2.1
  have h2 := Fl.sub_mv (t 2) ha.2.2 hb.2.2
  show (⟨#v[_, _, _]⟩ : V3 ℝ) = ⟨#v[_, _, _]⟩
  exact congrArg Mat3x1.mk (by rw [← h0, ← h1, ← h2]; rfl)

theorem mv_add (a b : V3 ℝ) : add (mv t a) b = mv t (add a b) := by
  have h0 := Fl.mv_add (t 0) a.val[0] b.val[0]
  have h1 := Fl.mv_add (t 1) a.val[1] b.val[1]
  have h2 := Fl.mv_add (t 2) a.val[2] b.val[2]
  show (⟨#v[_ + _ + _, _ + _ + _, _ + _ + _]⟩ : V3 ℝ) = ⟨#v[_ + _ + _, _ + _ + _, _ + _ + _]⟩
  exact congrArg Mat3x1.mk (by rw [← h0, ← h1, ← h2])

theorem add_mv (a b : V3 ℝ) : add b (mv t a) = mv t (add b a) := by
  have h0 := Fl.add_mv (t 0) b.val[0] a.val[0]
  have h1 := Fl.add_mv (t 1) b.val[1] a.val[1]
  have h2 := Fl.add_mv (t 2) b.val[2] a.val[2]
  show (⟨#v[_ + (_ + _), _ + (_ + _), _ + (_ + _)]⟩ : V3 ℝ) = ⟨#v[_ + _ + _, _ + _ + _, _ + _ + _]⟩
  exact congrArg Mat3x1.mk (by rw [← h0, ← h1, ← h2])

/-- adding a multiple that is known up to the sign of a zero -/
theorem add_scl_same (ha : a.NZ) (d : V3 ℝ) {s s' : Fl ℝ} (h : Fl.Same s s') : add (scl d s) a = add (scl d s') a := by
  have h0 := Fl.add_same ha.1 ((Fl.Same.refl d.val[0]).mul h)
  have h1 := Fl.add_same ha.2.1 ((Fl.Same.refl d.val[1]).mul h)
  have h2 := Fl.add_same ha.2.2 ((Fl.Same.refl d.val[2]).mul h)
  show (⟨#v[_ * _ + _, _ * _ + _, _ * _ + _]⟩ : V3 ℝ) = ⟨#v[_ * _ + _, _ * _ + _, _ * _ + _]⟩
  exact congrArg Mat3x1.mk (by rw [← h0, ← h1, ← h2])

/-- the coordinates are all finite, or one of them is NaN -/
def Ok (n : V3 ℝ) : Prop :=
  ((∃ r, n.val[0].Is r) ∧ (∃ r, n.val[1].Is r) ∧ ∃ r, n.val[2].Is r) ∨ (n.val[0] = .nan ∨ n.val[1] = .nan ∨ n.val[2] = .nan)

theorem _root_.Mazth.Fl.mul_mv {n : Fl ℝ} {r : ℝ} (hn : n.Is r) (t : ℝ) (x : Fl ℝ) :
    Fl.Same (n * (x + .fin t)) (n * x + .fin (r * t)) := by
  cases x with
  | nan => left; rw [Fl.nan_add]; rcases hn.cases with rfl | ⟨rfl, rfl⟩ <;> rfl
  | inf s =>
    left; rw [Fl.inf_add_fin]
    rcases hn.cases with rfl | ⟨rfl, rfl⟩
    · show Fl.mulInf _ _ = Fl.add (Fl.mulInf _ _) _
      unfold Fl.mulInf; split <;> rfl
    · rfl
  | nzero => rw [Fl.nzero_add_fin]
             exact Fl.same_of_val (hn.mul (Fl.is_fin t)) (((hn.mul Fl.is_nzero).add (Fl.is_fin _)).cast (by ring))
  | fin a => rw [Fl.fin_add_fin]
             exact Fl.same_of_val (hn.mul (Fl.is_fin _)) (((hn.mul (Fl.is_fin a)).add (Fl.is_fin _)).cast (by ring))

theorem _root_.Mazth.Fl.mv_add_mv (s t : ℝ) (x y : Fl ℝ) : (x + .fin s) + (y + .fin t) = (x + y) + .fin (s + t) := by
  rw [Fl.mv_add, Fl.add_mv]
  cases x + y with
  | nan => simp only [Fl.nan_add]
  | inf s => rfl
  | nzero => rw [Fl.nzero_add_fin, Fl.nzero_add_fin, Fl.fin_add_fin, add_comm]
  | fin a => rw [Fl.fin_add_fin, Fl.fin_add_fin, Fl.fin_add_fin, add_assoc, add_comm t s]

theorem dotp_mv {n : V3 ℝ} (hn : n.Ok) : ∃ k : ℝ, ∀ p : V3 ℝ, Fl.Same (dotp n (mv t p)) (dotp n p + .fin k) := by
  rcases hn with ⟨⟨r0, h0⟩, ⟨r1, h1⟩, ⟨r2, h2⟩⟩ | hn
  · refine ⟨r0 * t 0 + r1 * t 1 + r2 * t 2, fun p => ?_⟩
    have := ((Fl.mul_mv h0 (t 0) p.val[0]).add (Fl.mul_mv h1 (t 1) p.val[1])).add (Fl.mul_mv h2 (t 2) p.val[2])
    rw [Fl.mv_add_mv, Fl.mv_add_mv] at this
    exact this
  · refine ⟨0, fun p => ?_⟩
    have key : ∀ q : V3 ℝ, dotp n q = .nan := by
      intro q
      unfold dotp
      rcases hn with h | h | h <;> rw [h]
      · simp only [NaN.nmul, NaN.nadd]
      · simp only [NaN.nmul, NaN.nadd, NaN.addn]
      · simp only [NaN.nmul, NaN.addn]
    rw [key, key]; left; rfl

theorem dotp_comm (a b : V3 ℝ) : dotp a b = dotp b a := by
  unfold dotp
  rw [Fl.mul_comm' a.val[0], Fl.mul_comm' a.val[1], Fl.mul_comm' a.val[2]]

end V3

/-- the box, moved -/
noncomputable def AABB.mv (t : R3) (b : AABB (Fl ℝ)) : AABB (Fl ℝ) :=
  ⟨#v[b.lower[0] + .fin (t 0), b.lower[1] + .fin (t 1), b.lower[2] + .fin (t 2)],
   #v[b.upper[0] + .fin (t 0), b.upper[1] + .fin (t 1), b.upper[2] + .fin (t 2)]⟩

theorem AABB.overlap_mv (t : R3) (a b : AABB (Fl ℝ)) : AABB.overlap (a.mv t) (b.mv t) = AABB.overlap a b := by
  have key : ∀ (a b : AABB (Fl ℝ)), AABB.overlap a b =
      (!(Fl.lt b.upper[0] a.lower[0] || Fl.lt a.upper[0] b.lower[0]) &&
        (!(Fl.lt b.upper[1] a.lower[1] || Fl.lt a.upper[1] b.lower[1]) &&
          (!(Fl.lt b.upper[2] a.lower[2] || Fl.lt a.upper[2] b.lower[2]) && true))) := fun _ _ => rfl
  rw [key, key]
  have l0 : (a.mv t).lower[0] = a.lower[0] + .fin (t 0) ∧ (a.mv t).lower[1] = a.lower[1] + .fin (t 1) ∧
    (a.mv t).lower[2] = a.lower[2] + .fin (t 2) := ⟨rfl, rfl, rfl⟩
  have u0 : (a.mv t).upper[0] = a.upper[0] + .fin (t 0) ∧ (a.mv t).upper[1] = a.upper[1] + .fin (t 1) ∧
    (a.mv t).upper[2] = a.upper[2] + .fin (t 2) := ⟨rfl, rfl, rfl⟩
  have l1 : (b.mv t).lower[0] = b.lower[0] + .fin (t 0) ∧ (b.mv t).lower[1] = b.lower[1] + .fin (t 1) ∧
    (b.mv t).lower[2] = b.lower[2] + .fin (t 2) := ⟨rfl, rfl, rfl⟩
  have u1 : (b.mv t).upper[0] = b.upper[0] + .fin (t 0) ∧ (b.mv t).upper[1] = b.upper[1] + .fin (t 1) ∧
    (b.mv t).upper[2] = b.upper[2] + .fin (t 2) := ⟨rfl, rfl, rfl⟩
  rw [l0.1, l0.2.1, l0.2.2, u0.1, u0.2.1, u0.2.2, l1.1, l1.2.1, l1.2.2, u1.1, u1.2.1, u1.2.2]
  simp only [Fl.lt_mv]

/-- the fields of a shape, moved -/
noncomputable def Point3.mv (t : R3) (s : Point3 ℝ) : Point3 ℝ := { s with ori := s.ori.mv t, bound := s.bound.mv t }
noncomputable def Ray3.mv (t : R3) (s : Ray3 ℝ) : Ray3 ℝ := { s with ori := s.ori.mv t, bound := s.bound.mv t }
noncomputable def Sphere.mv (t : R3) (s : Sphere ℝ) : Sphere ℝ := { s with ori := s.ori.mv t, bound := s.bound.mv t }
noncomputable def Plane.mv (t : R3) (s : Plane ℝ) : Plane ℝ := { s with offset := s.offset.mv t, bound := s.bound.mv t }
noncomputable def RecBox.mv (t : R3) (s : RecBox ℝ) : RecBox ℝ := { s with ori := s.ori.mv t, bound := s.bound.mv t }
noncomputable def Line3.mv (t : R3) (s : Line3 ℝ) : Line3 ℝ := { s with a := s.a.mv t, b := s.b.mv t, bound := s.bound.mv t }
noncomputable def TriPrism.mv (t : R3) (s : TriPrism ℝ) : TriPrism ℝ :=
  { s with triBase := #v[s.triBase[0].mv t, s.triBase[1].mv t, s.triBase[2].mv t]
           triBase2 := #v[s.triBase2[0].mv t, s.triBase2[1].mv t, s.triBase2[2].mv t], bound := s.bound.mv t }

noncomputable def Shape.mv (t : R3) : Shape ℝ → Shape ℝ
  | .point s => .point (s.mv t)
  | .ray s => .ray (s.mv t)
  | .sphere s => .sphere (s.mv t)
  | .plane s => .plane (s.mv t)
  | .box s => .box (s.mv t)
  | .triPrism s => .triPrism (s.mv t)
  | .line s => .line (s.mv t)

/-- positions free of `-0`, normals finite or with a NaN -/
def Shape.Good : Shape ℝ → Prop
  | .point s => s.ori.NZ
  | .ray s => s.ori.NZ
  | .sphere s => s.ori.NZ
  | .plane s => s.offset.NZ ∧ s.normal.Ok
  | .box s => s.ori.NZ
  | .triPrism s => (s.triBase[0].NZ ∧ s.triBase[1].NZ ∧ s.triBase[2].NZ) ∧ s.triBase2[0].NZ
  | .line s => s.a.NZ ∧ s.b.NZ

/-- the answer, moved -/
noncomputable def mvHit (t : R3) (h : Hit ℝ) : Hit ℝ := (h.1, h.2.map (V3.mv t))
noncomputable def mvRes (t : R3) (r : Res (Hit ℝ)) : Res (Hit ℝ) := r.map (mvHit t)

@[simp] theorem mvRes_ok (t : R3) (h : Hit ℝ) : mvRes t (.ok h) = .ok (mvHit t h) := rfl
@[simp] theorem mvRes_err (t : R3) (e : Panic) : mvRes t (.error e) = .error e := rfl
@[simp] theorem mvHit_miss (t : R3) : mvHit t (false, none) = (false, none) := rfl
@[simp] theorem mvHit_hit (t : R3) (p : V3 ℝ) : mvHit t (true, some p) = (true, some (p.mv t)) := rfl
theorem mvRes_ite (t : R3) {c : Prop} [Decidable c] (a b : Res (Hit ℝ)) :
    mvRes t (if c then a else b) = if c then mvRes t a else mvRes t b := by split <;> rfl

section pairs
variable (t : R3)

theorem rayRay_mv {r s : Ray3 ℝ} (hr : r.ori.NZ) (hs : s.ori.NZ) : (r.mv t).intersectRay (Shape.ray (s.mv t)).getShapeData =
    mvRes t (r.intersectRay (Shape.ray s).getShapeData) := by
  unfold Ray3.intersectRay
  simp only [vecAt_ray0, vecAt_ray3, Res.ok_bind, V3.minus_eq, V3.cross_eq, V3.dot_eq, V3.magnitude_eq, V3.scale_eq, V3.plus_eq,
    V3.isEqual_eq, unwrap_some, Res.pure_eq, Ray3.mv, V3.sub_mv t hs hr, V3.add_mv, mvRes_ite, mvRes_ok, mvHit_miss, mvHit_hit]

theorem rayPoint_mv {r : Ray3 ℝ} {s : Point3 ℝ} (hr : r.ori.NZ) (hs : s.ori.NZ) :
    (r.mv t).intersectPoint (Shape.point (s.mv t)).getShapeData = mvRes t (r.intersectPoint (Shape.point s).getShapeData) := by
  unfold Ray3.intersectPoint
  simp only [vecAt_point, Res.ok_bind, V3.minus_eq, V3.div_eq, V3.scale_eq, V3.plus_eq,
    unwrap_some, Res.pure_eq, Ray3.mv, Point3.mv, V3.sub_mv t hs hr, V3.add_mv, mvRes_ite, mvRes_ok, mvHit_miss, mvHit_hit]

theorem raySphere_mv {r : Ray3 ℝ} {s : Sphere ℝ} (hr : r.ori.NZ) (hs : s.ori.NZ) :
    (r.mv t).intersectSphere (Shape.sphere (s.mv t)).getShapeData = mvRes t (r.intersectSphere (Shape.sphere s).getShapeData) := by
  unfold Ray3.intersectSphere
  simp only [vecAt_sphere, sliceGet_sphere, Res.ok_bind, V3.minus_eq, V3.dot_eq, V3.scale_eq, V3.plus_eq,
    unwrap_some, Res.pure_eq, Ray3.mv, Sphere.mv, V3.sub_mv t hr hs, V3.add_mv, mvRes_ite, mvRes_ok, mvHit_miss, mvHit_hit]

theorem sphereSphere_mv {r s : Sphere ℝ} (hr : r.ori.NZ) (hs : s.ori.NZ) :
    (r.mv t).intersectSphere (Shape.sphere (s.mv t)).getShapeData = mvRes t (r.intersectSphere (Shape.sphere s).getShapeData) := by
  unfold Sphere.intersectSphere
  simp only [vecAt_sphere, sliceGet_sphere, Res.ok_bind, V3.minus_eq, V3.magnitude_eq, V3.scale_eq, V3.plus_eq,
    unwrap_some, Res.pure_eq, Sphere.mv, V3.sub_mv t hs hr, V3.mv_add, mvRes_ite, mvRes_ok, mvHit_miss, mvHit_hit]

theorem spherePoint_mv {r : Sphere ℝ} {s : Point3 ℝ} (hr : r.ori.NZ) (hs : s.ori.NZ) :
    (r.mv t).intersectPoint (Shape.point (s.mv t)).getShapeData = mvRes t (r.intersectPoint (Shape.point s).getShapeData) := by
  unfold Sphere.intersectPoint
  simp only [vecAt_point, Res.ok_bind, V3.minus_eq,
    unwrap_some, Res.pure_eq, Sphere.mv, Point3.mv, V3.sub_mv t hs hr, mvRes_ite, mvRes_ok, mvHit_miss, mvHit_hit]

theorem rayPlane_mv {r : Ray3 ℝ} {s : Plane ℝ} (hn : s.normal.Ok) :
    (r.mv t).intersectPlane (Shape.plane (s.mv t)).getShapeData = mvRes t (r.intersectPlane (Shape.plane s).getShapeData) := by
  obtain ⟨k, hk⟩ := V3.dotp_mv t hn
  unfold Ray3.intersectPlane
  simp only [vecAt_plane0, vecAt_plane3, Res.ok_bind, V3.dot_eq, V3.scale_eq, V3.plus_eq,
    unwrap_some, Res.pure_eq, Ray3.mv, Plane.mv, mvRes_ite, mvRes_ok, mvHit_miss, mvHit_hit]
  rw [V3.dotp_comm (V3.mv t s.offset), V3.dotp_comm (V3.mv t r.ori), V3.dotp_comm s.offset, V3.dotp_comm r.ori]
  have e1 : Fl.feq (V3.dotp s.normal (V3.mv t s.offset)) (V3.dotp s.normal (V3.mv t r.ori)) =
      Fl.feq (V3.dotp s.normal s.offset) (V3.dotp s.normal r.ori) := by
    unfold Fl.feq
    rw [Fl.le_congr (hk _) (hk _), Fl.le_mv, Fl.le_congr (hk _) (hk _), Fl.le_mv]
  have e2 : Fl.Same (V3.dotp s.normal (V3.mv t s.offset) - V3.dotp s.normal (V3.mv t r.ori))
      (V3.dotp s.normal s.offset - V3.dotp s.normal r.ori) := ((hk _).sub (hk _)).trans (Fl.sub_mv_same k _ _)
  rw [e1]
  by_cases hd : Fl.feq (V3.dotp s.normal r.dir) 0 = true
  · rw [if_pos hd, if_pos hd]
  · rw [if_neg hd, if_neg hd]
    have hd' : (V3.dotp s.normal r.dir).val ≠ some 0 := by
      intro e; apply hd
      rcases NaN.val_zero e with e | e <;> rw [e] <;> simp [Fl.feq, Fl.le]
    have e3 := Fl.div_same hd' e2
    rw [Fl.lt_congr e3 (.refl _), V3.add_scl_same (V3.mv_NZ t _) _ e3, V3.add_mv]

theorem spherePlane_mv {r : Sphere ℝ} {s : Plane ℝ} (hn : s.normal.Ok) :
    (r.mv t).intersectPlane (Shape.plane (s.mv t)).getShapeData = mvRes t (r.intersectPlane (Shape.plane s).getShapeData) := by
  obtain ⟨k, hk⟩ := V3.dotp_mv t hn
  unfold Sphere.intersectPlane
  simp only [vecAt_plane0, vecAt_plane3, Res.ok_bind, V3.dot_eq, V3.scale_eq, V3.plus_eq,
    unwrap_some, Res.pure_eq, Sphere.mv, Plane.mv, mvRes_ite, mvRes_ok, mvHit_miss, mvHit_hit]
  have e2 : Fl.Same (V3.dotp s.normal (V3.mv t r.ori) - V3.dotp s.normal (V3.mv t s.offset))
      (V3.dotp s.normal r.ori - V3.dotp s.normal s.offset) := ((hk _).sub (hk _)).trans (Fl.sub_mv_same k _ _)
  have e3 := Fl.lt_congr (.refl r.radius) e2
  have e4 := V3.add_scl_same (V3.mv_NZ t r.ori) s.normal e2.neg
  simp only [e3, e4, V3.add_mv]

theorem planePoint_mv {r : Plane ℝ} {s : Point3 ℝ} (hn : r.normal.Ok) :
    (r.mv t).intersectPoint (Shape.point (s.mv t)).getShapeData = mvRes t (r.intersectPoint (Shape.point s).getShapeData) := by
  obtain ⟨k, hk⟩ := V3.dotp_mv t hn
  unfold Plane.intersectPoint
  simp only [vecAt_point, Res.ok_bind, V3.dot_eq,
    unwrap_some, Res.pure_eq, Point3.mv, Plane.mv, mvRes_ite, mvRes_ok, mvHit_miss, mvHit_hit]
  have e2 : Fl.Same (V3.dotp r.normal (V3.mv t r.offset) - V3.dotp r.normal (V3.mv t s.ori))
      (V3.dotp r.normal r.offset - V3.dotp r.normal s.ori) := ((hk _).sub (hk _)).trans (Fl.sub_mv_same k _ _)
  have e3 : withinVicinity r.vicinity (V3.dotp r.normal (V3.mv t r.offset) - V3.dotp r.normal (V3.mv t s.ori)) 0 =
      withinVicinity r.vicinity (V3.dotp r.normal r.offset - V3.dotp r.normal s.ori) 0 := by
    unfold withinVicinity
    rw [Fl.le_congr (.refl _) (e2.add (.refl _)), Fl.le_congr (e2.sub (.refl _)) (.refl _)]
  simp only [e3]

theorem within_mv (v x y : Fl ℝ) (u : ℝ) : withinVicinity v (x + .fin u) (y + .fin u) = withinVicinity v x y := by
  unfold withinVicinity
  rw [Fl.mv_add, Fl.mv_sub, Fl.le_mv, Fl.le_mv]

theorem all_mv {p : V3 ℝ} (hp : p.NZ) : (ts : List (V3 ℝ × V3 ℝ)) → (∀ vn ∈ ts, vn.1.NZ) →
    ((ts.map fun vn => (vn.1.mv t, vn.2)).all fun vn => !Fl.lt 0 (V3.dotp (V3.sub (p.mv t) vn.1) vn.2)) =
      ts.all fun vn => !Fl.lt 0 (V3.dotp (V3.sub p vn.1) vn.2)
  | [], _ => rfl
  | vn :: ts, h => by
    have ih := all_mv hp ts fun v hv => h v (List.mem_cons_of_mem _ hv)
    simp only [List.map_cons, List.all_cons, ih, V3.sub_mv t hp (h vn List.mem_cons_self)]

theorem testsP_NZ {s : TriPrism ℝ} (h : (Shape.triPrism s).Good) : ∀ vn ∈ s.testsP, vn.1.NZ := by
  intro vn hv
  simp only [TriPrism.testsP, List.mem_cons, List.not_mem_nil, or_false] at hv
  rcases hv with rfl | rfl | rfl | rfl | rfl
  · exact h.1.1
  · exact h.2
  · exact h.1.1
  · exact h.1.2.1
  · exact h.1.2.2

theorem testsP_mv {s : TriPrism ℝ} (h : (Shape.triPrism s).Good) :
    (s.mv t).testsP = s.testsP.map fun vn => (vn.1.mv t, vn.2) := by
  have h0 : (s.mv t).triBase[0] = s.triBase[0].mv t ∧ (s.mv t).triBase[1] = s.triBase[1].mv t ∧
    (s.mv t).triBase[2] = s.triBase[2].mv t ∧ (s.mv t).triBase2[0] = s.triBase2[0].mv t ∧
    (s.mv t).normalHeight = s.normalHeight := ⟨rfl, rfl, rfl, rfl, rfl⟩
  unfold TriPrism.testsP
  rw [h0.1, h0.2.1, h0.2.2.1, h0.2.2.2.1, h0.2.2.2.2, V3.sub_mv t h.1.2.1 h.1.1, V3.sub_mv t h.1.2.2 h.1.2.1,
    V3.sub_mv t h.1.1 h.1.2.2]
  rfl

theorem inside_mv {s : TriPrism ℝ} (h : (Shape.triPrism s).Good) {p : V3 ℝ} (hp : p.NZ) : (s.mv t).inside (p.mv t) = s.inside p := by
  unfold TriPrism.inside
  rw [testsP_mv t h]
  exact all_mv t hp _ (testsP_NZ h)

theorem prismPoint_mv {r : TriPrism ℝ} {s : Point3 ℝ} (hr : (Shape.triPrism r).Good) (hs : s.ori.NZ) :
    (r.mv t).intersectPoint (Shape.point (s.mv t)).getShapeData = mvRes t (r.intersectPoint (Shape.point s).getShapeData) := by
  rw [prismPoint_eq, prismPoint_eq]
  have : (s.mv t).ori = s.ori.mv t := rfl
  rw [this, inside_mv t hr hs, mvRes_ok]
  cases r.inside s.ori <;> rfl

/-- the plane `Plane::init` makes -/
def planeOf {K : Type} [Field K] [LinearOrder K] [Fmt K] (v n : V3 K) : Plane K := ⟨v, V3.nrm n, AABB.default, defaultVicinity⟩

theorem plane_init_toList {K : Type} [Field K] [LinearOrder K] [Fmt K] (v n : V3 K) : Plane.init (TriPrism.toList v) (TriPrism.toList n) = .ok (planeOf v n) := by
  have : Plane.init (TriPrism.toList v) (TriPrism.toList n) = .ok ⟨⟨#v[v.val[0], v.val[1], v.val[2]]⟩,
      V3.nrm ⟨#v[n.val[0], n.val[1], n.val[2]]⟩, AABB.default, defaultVicinity⟩ := rfl
  rw [this, V3.eta, V3.eta]; rfl

theorem planeOf_mv (v n : V3 ℝ) : (planeOf v n).mv t = planeOf (v.mv t) n := rfl

/-- the ray `Ray3::init` makes -/
def rayOf {K : Type} [Field K] [LinearOrder K] [Fmt K] (o d : V3 K) : Ray3 K :=
  ⟨o, V3.nrm d, ⟨#v[(AABB.rayBound o.val[0] d.val[0]).1, (AABB.rayBound o.val[1] d.val[1]).1, (AABB.rayBound o.val[2] d.val[2]).1],
    #v[(AABB.rayBound o.val[0] d.val[0]).2, (AABB.rayBound o.val[1] d.val[1]).2, (AABB.rayBound o.val[2] d.val[2]).2]⟩, defaultVicinity⟩

theorem ray_init_toList {K : Type} [Field K] [LinearOrder K] [Fmt K] (o d : V3 K) : Ray3.init (TriPrism.toList o) (TriPrism.toList d) = .ok (rayOf o d) := by
  have : Ray3.init (TriPrism.toList o) (TriPrism.toList d) = .ok { rayOf o d with
      ori := ⟨#v[o.val[0], o.val[1], o.val[2]]⟩, dir := V3.nrm ⟨#v[d.val[0], d.val[1], d.val[2]]⟩ } := rfl
  rw [this, V3.eta, V3.eta]; rfl

theorem rayBound_mv (u : ℝ) (o d : Fl ℝ) : AABB.rayBound (o + .fin u) d =
    ((AABB.rayBound o d).1 + .fin u, (AABB.rayBound o d).2 + .fin u) := by
  unfold AABB.rayBound
  split
  · rfl
  · split <;> rfl

theorem rayOf_mv (o d : V3 ℝ) : (rayOf o d).mv t = rayOf (o.mv t) d := by
  have h0 : (o.mv t).val[0] = o.val[0] + .fin (t 0) ∧ (o.mv t).val[1] = o.val[1] + .fin (t 1) ∧
    (o.mv t).val[2] = o.val[2] + .fin (t 2) := ⟨rfl, rfl, rfl⟩
  unfold rayOf
  simp only [h0.1, h0.2.1, h0.2.2, rayBound_mv]
  rfl

/-! A normalised vector has finite coordinates, or a NaN. -/

theorem sq_inf {x : Fl ℝ} (h : x ≠ .nan) : x.powi2 = .inf false ∨ ∃ r, x.powi2.Is r := by
  cases x with
  | nan => exact absurd rfl h
  | inf s => left; simp [Fl.powi2, ← Fl.mul_def, Fl.mul]
  | nzero => exact .inr ⟨_, Fl.is_nzero.powi2⟩
  | fin a => exact .inr ⟨_, (Fl.is_fin a).powi2⟩

theorem add_inf {x y : Fl ℝ} (h : x = .inf false ∨ ∃ r, x.Is r) (h' : y = .inf false ∨ ∃ r, y.Is r) :
    (x + y = .inf false ∨ ∃ r, (x + y).Is r) ∧ (x = .inf false ∨ y = .inf false → x + y = .inf false) := by
  rcases h with rfl | ⟨r, h⟩
  · rcases h' with rfl | ⟨r', h'⟩
    · exact ⟨.inl rfl, fun _ => rfl⟩
    · rcases h'.cases with rfl | ⟨rfl, rfl⟩ <;> exact ⟨.inl rfl, fun _ => rfl⟩
  · rcases h' with rfl | ⟨r', h'⟩
    · rcases h.cases with rfl | ⟨rfl, rfl⟩ <;> exact ⟨.inl rfl, fun _ => rfl⟩
    · refine ⟨.inr ⟨_, h.add h'⟩, fun e => ?_⟩
      rcases e with rfl | rfl
      · simp [Fl.Is, Fl.val] at h
      · simp [Fl.Is, Fl.val] at h'

theorem inf_sq {x : Fl ℝ} (h : ∃ s, x = .inf s) : x.powi2 = .inf false := by
  obtain ⟨s, rfl⟩ := h; simp [Fl.powi2, ← Fl.mul_def, Fl.mul]

theorem fl_cases (x : Fl ℝ) : x = .nan ∨ (∃ s, x = .inf s) ∨ ∃ r, x.Is r := by
  cases x with
  | nan => exact .inl rfl
  | inf s => exact .inr (.inl ⟨s, rfl⟩)
  | nzero => exact .inr (.inr ⟨0, rfl⟩)
  | fin a => exact .inr (.inr ⟨a, rfl⟩)

theorem nrm_ok (v : V3 ℝ) : (V3.nrm v).Ok := by
  by_cases hn : NaN.Has v
  · right; left; rw [NaN.nrm_eq hn]; rfl
  have hn0 : v.val[0] ≠ .nan := fun e => hn (.inl e)
  have hn1 : v.val[1] ≠ .nan := fun e => hn (.inr (.inl e))
  have hn2 : v.val[2] ≠ .nan := fun e => hn (.inr (.inr e))
  by_cases hi : (∃ s, v.val[0] = .inf s) ∨ (∃ s, v.val[1] = .inf s) ∨ ∃ s, v.val[2] = .inf s
  · have h01 := add_inf (sq_inf hn0) (sq_inf hn1)
    have h012 := add_inf h01.1 (sq_inf hn2)
    have hm : V3.mag v = .inf false := by
      have : v.val[0].powi2 + v.val[1].powi2 + v.val[2].powi2 = .inf false := by
        rcases hi with h | h | h
        · exact h012.2 (.inl (h01.2 (.inl (inf_sq h))))
        · exact h012.2 (.inl (h01.2 (.inr (inf_sq h))))
        · exact h012.2 (.inr (inf_sq h))
      unfold V3.mag; rw [this]; rfl
    right
    have e : V3.nrm v = ⟨#v[v.val[0] / .inf false, v.val[1] / .inf false, v.val[2] / .inf false]⟩ := by unfold V3.nrm; rw [hm]
    rw [e]
    rcases hi with ⟨s, h⟩ | ⟨s, h⟩ | ⟨s, h⟩
    · left; show v.val[0] / .inf false = _; rw [h]; rfl
    · right; left; show v.val[1] / .inf false = _; rw [h]; rfl
    · right; right; show v.val[2] / .inf false = _; rw [h]; rfl
  · obtain ⟨r0, h0⟩ := ((fl_cases v.val[0]).resolve_left hn0).resolve_left fun h => hi (.inl h)
    obtain ⟨r1, h1⟩ := ((fl_cases v.val[1]).resolve_left hn1).resolve_left fun h => hi (.inr (.inl h))
    obtain ⟨r2, h2⟩ := ((fl_cases v.val[2]).resolve_left hn2).resolve_left fun h => hi (.inr (.inr h))
    have hv : v.IsR ![r0, r1, r2] := by
      have := V3.isR_mk (u := ![r0, r1, r2]) h0 h1 h2
      rwa [V3.eta] at this
    by_cases hu : (![r0, r1, r2] : R3) = 0
    · right; left
      have e0 : r0 = 0 := congrFun hu 0
      have e1 : r1 = 0 := congrFun hu 1
      have e2 : r2 = 0 := congrFun hu 2
      subst e0 e1 e2
      rw [NaN.nrm_zn ⟨.inr h0, .inr h1, .inr h2⟩]; rfl
    · left
      obtain ⟨e0, e1, e2⟩ := Mat3x1.isR_iff.mp (V3.isR_nrm hv hu)
      exact ⟨⟨_, e0⟩, ⟨_, e1⟩, ⟨_, e2⟩⟩

/-! The loop over the facets. -/

theorem rayPlane_full_mv {r : Ray3 ℝ} {s : Plane ℝ} (hn : s.normal.Ok) :
    (r.mv t).getIntersect (.plane (s.mv t)) = mvRes t (r.getIntersect (.plane s)) := by
  unfold Ray3.getIntersect
  simp only [Shape.getBound_eq, AABB.intersect_eq, Res.ok_bind, Res.pure_eq]
  show (if (!AABB.overlap (r.bound.mv t) (s.bound.mv t)) = true then _ else (r.mv t).intersectPlane (Shape.plane (s.mv t)).getShapeData) =
    mvRes t (if (!AABB.overlap r.bound s.bound) = true then _ else r.intersectPlane (Shape.plane s).getShapeData)
  rw [AABB.overlap_mv, mvRes_ite, rayPlane_mv t hn]; rfl

theorem rayPlane_NZ {r : Ray3 ℝ} {s : Plane ℝ} {p : V3 ℝ} {b : Bool} (hr : r.ori.NZ) (h : r.getIntersect (.plane s) = .ok (b, some p)) : p.NZ := by
  unfold Ray3.getIntersect at h
  simp only [Shape.getBound_eq, AABB.intersect_eq, Res.ok_bind, Res.pure_eq] at h
  split at h
  · simp at h
  · change r.intersectPlane (Shape.plane s).getShapeData = _ at h
    unfold Ray3.intersectPlane at h
    simp only [vecAt_plane0, vecAt_plane3, Res.ok_bind, V3.dot_eq, V3.scale_eq, V3.plus_eq, unwrap_some, Res.pure_eq] at h
    split at h
    · split at h
      · simp only [Except.ok.injEq, Prod.mk.injEq, Option.some.injEq] at h; exact h.2 ▸ hr
      · simp at h
    · split at h
      · simp at h
      · split at h
        · simp at h
        · simp only [Except.ok.injEq, Prod.mk.injEq, Option.some.injEq] at h
          exact h.2 ▸ V3.add_NZ' hr _

theorem facetLoop_mv {r : Ray3 ℝ} (hr : r.ori.NZ) {ts : List (V3 ℝ × V3 ℝ)} (hts : ∀ vn ∈ ts, vn.1.NZ) {a : V3 ℝ} (ha : a.NZ) (m : Fl ℝ) :
    (fs : List (Plane ℝ)) → (∀ f ∈ fs, f.normal.Ok) →
    TriPrism.facetLoop (r.mv t) (ts.map fun vn => (vn.1.mv t, vn.2)) (a.mv t) m (fs.map (Plane.mv t)) =
      mvRes t (TriPrism.facetLoop r ts a m fs)
  | [], _ => rfl
  | f :: fs, h => by
    have ih := facetLoop_mv hr hts ha m fs fun g hg => h g (List.mem_cons_of_mem _ hg)
    rw [List.map_cons, TriPrism.facetLoop, TriPrism.facetLoop, rayPlane_full_mv t (h f List.mem_cons_self), ih]
    obtain ⟨⟨h1, h2⟩, e, hc⟩ := Ray3.getIntersect_plane r f
    rw [e]
    cases h1 with
    | false => rfl
    | true =>
      obtain ⟨p, hp⟩ := hc.mp rfl
      simp only at hp; subst hp
      have hp := rayPlane_NZ hr e
      simp only [mvRes_ok, mvHit_hit, Res.ok_bind, unwrap_some, V3.minus_eq, V3.magnitude_eq, allInside_ok, if_true,
        all_mv t hp _ hts, V3.sub_mv t hp ha, mvRes_ite]

/-- the facets as a plain list -/
def TriPrism.facetsP {K : Type} [Field K] [LinearOrder K] [Fmt K] (s : TriPrism K) : List (Plane K) :=
  [planeOf s.triBase[0] (V3.scl s.normalHeight (-1)), planeOf s.triBase2[0] s.normalHeight,
   planeOf s.triBase[0] (V3.crs (V3.sub s.triBase[1] s.triBase[0]) s.normalHeight),
   planeOf s.triBase[1] (V3.crs (V3.sub s.triBase[2] s.triBase[1]) s.normalHeight),
   planeOf s.triBase[2] (V3.crs (V3.sub s.triBase[0] s.triBase[2]) s.normalHeight)]

theorem facets_eq {K : Type} [Field K] [LinearOrder K] [Fmt K] (s : TriPrism K) : s.facets = .ok s.facetsP := by
  unfold TriPrism.facets
  simp only [V3.minus_eq, V3.cross_eq, V3.scale_eq, unwrap_some, Res.ok_bind, plane_init_toList]
  rfl

theorem facetsP_mv {s : TriPrism ℝ} (h : (Shape.triPrism s).Good) : (s.mv t).facetsP = s.facetsP.map (Plane.mv t) := by
  have h0 : (s.mv t).triBase[0] = s.triBase[0].mv t ∧ (s.mv t).triBase[1] = s.triBase[1].mv t ∧
    (s.mv t).triBase[2] = s.triBase[2].mv t ∧ (s.mv t).triBase2[0] = s.triBase2[0].mv t ∧
    (s.mv t).normalHeight = s.normalHeight := ⟨rfl, rfl, rfl, rfl, rfl⟩
  unfold TriPrism.facetsP
  rw [h0.1, h0.2.1, h0.2.2.1, h0.2.2.2.1, h0.2.2.2.2, V3.sub_mv t h.1.2.1 h.1.1, V3.sub_mv t h.1.2.2 h.1.2.1,
    V3.sub_mv t h.1.1 h.1.2.2]
  simp only [List.map_cons, List.map_nil, planeOf_mv]

theorem prismLine_mv {r : TriPrism ℝ} {s : Line3 ℝ} (hr : (Shape.triPrism r).Good) (hs : (Shape.line s).Good) :
    (r.mv t).intersectLine (Shape.line (s.mv t)).getShapeData = mvRes t (r.intersectLine (Shape.line s).getShapeData) := by
  have ha : (s.mv t).a = s.a.mv t := rfl
  have hb : (s.mv t).b = s.b.mv t := rfl
  unfold TriPrism.intersectLine
  simp only [vecAt_line0, vecAt_line3, Res.ok_bind, TriPrism.tests_eq, allInside_ok, Res.pure_eq, V3.minus_eq,
    V3.magnitude_eq, unwrap_some, facets_eq, ray_init_toList, ha, hb, testsP_mv t hr, all_mv t hs.1 _ (testsP_NZ hr),
    all_mv t hs.2 _ (testsP_NZ hr), V3.sub_mv t hs.2 hs.1, facetsP_mv t hr, mvRes_ite, mvRes_ok, mvHit_hit, ← rayOf_mv]
  rw [facetLoop_mv t (r := rayOf s.a (V3.sub s.b s.a)) hs.1 (testsP_NZ hr) hs.1 _ _ ?_]
  intro f hf
  simp only [TriPrism.facetsP, List.mem_cons, List.not_mem_nil, or_false] at hf
  rcases hf with rfl | rfl | rfl | rfl | rfl <;> exact nrm_ok _

theorem core_mv : (a b : Shape ℝ) → a.Good → b.Good → core (a.mv t) (b.mv t) = mvRes t (core a b)
  | .point s, .point u, _, _ => by
    show Except.ok (if (!withinVicinity s.vicinity (s.ori.val[0] + .fin (t 0)) (u.ori.val[0] + .fin (t 0)) ||
      !withinVicinity s.vicinity (s.ori.val[1] + .fin (t 1)) (u.ori.val[1] + .fin (t 1)) ||
      !withinVicinity s.vicinity (s.ori.val[2] + .fin (t 2)) (u.ori.val[2] + .fin (t 2))) = true then _ else _) = mvRes t (.ok (if _ then _ else _))
    rw [within_mv, within_mv, within_mv, mvRes_ok]
    split <;> rfl
  | .point _, .ray _, h, h' => rayPoint_mv t h' h
  | .point _, .sphere _, h, h' => spherePoint_mv t h' h
  | .point _, .plane _, _, h' => planePoint_mv t h'.2
  | .point _, .box _, _, _ => rfl
  | .point _, .triPrism _, h, h' => prismPoint_mv t h' h
  | .ray _, .ray _, h, h' => rayRay_mv t h h'
  | .ray _, .point _, h, h' => rayPoint_mv t h h'
  | .ray _, .sphere _, h, h' => raySphere_mv t h h'
  | .ray _, .plane _, _, h' => rayPlane_mv t h'.2
  | .sphere _, .sphere _, h, h' => sphereSphere_mv t h h'
  | .sphere _, .ray _, h, h' => raySphere_mv t h' h
  | .sphere _, .point _, h, h' => spherePoint_mv t h h'
  | .sphere _, .plane _, _, h' => spherePlane_mv t h'.2
  | .plane _, .ray _, h, _ => rayPlane_mv t h.2
  | .plane _, .sphere _, h, _ => spherePlane_mv t h.2
  | .plane _, .point _, h, _ => planePoint_mv t h.2
  | .box _, .point _, _, _ => rfl
  | .triPrism _, .point _, h, h' => prismPoint_mv t h h'
  | .triPrism _, .line _, h, h' => prismLine_mv t h h'
  | .line _, .triPrism _, h, h' => prismLine_mv t h' h
  | .point _, .line _, _, _ => rfl
  | .ray _, .box _, _, _ => rfl
  | .ray _, .triPrism _, _, _ => rfl
  | .ray _, .line _, _, _ => rfl
  | .sphere _, .box _, _, _ => rfl
  | .sphere _, .triPrism _, _, _ => rfl
  | .sphere _, .line _, _, _ => rfl
  | .plane _, .plane _, _, _ => rfl
  | .plane _, .box _, _, _ => rfl
  | .plane _, .triPrism _, _, _ => rfl
  | .plane _, .line _, _, _ => rfl
  | .box _, .ray _, _, _ => rfl
  | .box _, .sphere _, _, _ => rfl
  | .box _, .plane _, _, _ => rfl
  | .box _, .box _, _, _ => rfl
  | .box _, .triPrism _, _, _ => rfl
  | .box _, .line _, _, _ => rfl
  | .triPrism _, .ray _, _, _ => rfl
  | .triPrism _, .sphere _, _, _ => rfl
  | .triPrism _, .plane _, _, _ => rfl
  | .triPrism _, .box _, _, _ => rfl
  | .triPrism _, .triPrism _, _, _ => rfl
  | .line _, .point _, _, _ => rfl
  | .line _, .ray _, _, _ => rfl
  | .line _, .sphere _, _, _ => rfl
  | .line _, .plane _, _, _ => rfl
  | .line _, .box _, _, _ => rfl
  | .line _, .line _, _, _ => rfl

theorem aabb_mv (a : Shape ℝ) : (a.mv t).aabb = a.aabb.mv t := by cases a <;> rfl

theorem getIntersect_mv (n : ℕ) {a b : Shape ℝ} (ha : a.Good) (hb : b.Good) :
    Shape.getIntersect (n + 2) (a.mv t) (b.mv t) = mvRes t (Shape.getIntersect (n + 2) a b) := by
  rw [getIntersect_eq, getIntersect_eq, aabb_mv, aabb_mv, AABB.overlap_mv, mvRes_ite, core_mv t a b ha hb]; rfl

end pairs

/-! ## Specification: a constructor call, and the same call with moved positions -/

/-- a call of one of the seven constructors -/
inductive Ctor (K : Type) where
  | point (o : List (Fl K))
  | ray (o d : List (Fl K))
  | sphere (o : List (Fl K)) (r : Fl K)
  | plane (o n : List (Fl K))
  | box (o : List (Fl K)) (h : Fl K)
  | line (a b : List (Fl K))
  | triPrism (v : List (Fl K)) (h : Fl K)

/-- its result -/
def Ctor.make {K : Type} [Field K] [LinearOrder K] [Fmt K] : Ctor K → Res (Shape K)
  | .point o => (Point3.init o).map .point
  | .ray o d => (Ray3.init o d).map .ray
  | .sphere o r => (Sphere.init o r).map .sphere
  | .plane o n => (Plane.init o n).map .plane
  | .box o h => (RecBox.init o h).map .box
  | .line a b => (Line3.init a b).map .line
  | .triPrism v h => (TriPrism.init v h).map .triPrism

/-- a list of coordinates, three by three, moved by `t` -/
noncomputable def mvList (t : R3) (l : List (Fl ℝ)) : List (Fl ℝ) := l.mapIdx fun i x => x + .fin (t (Fin.ofNat 3 i))

/-- the call with moved positions; radii, directions, normals and heights stay -/
noncomputable def Ctor.moved (t : R3) : Ctor ℝ → Ctor ℝ
  | .point o => .point (mvList t o)
  | .ray o d => .ray (mvList t o) d
  | .sphere o r => .sphere (mvList t o) r
  | .plane o n => .plane (mvList t o) n
  | .box o h => .box (mvList t o) h
  | .line a b => .line (mvList t a) (mvList t b)
  | .triPrism v h => .triPrism (mvList t v) h

/-- no position coordinate is `-0` -/
def Ctor.NoNegZero : Ctor ℝ → Prop
  | .point o => .nzero ∉ o
  | .ray o _ => .nzero ∉ o
  | .sphere o _ => .nzero ∉ o
  | .plane o _ => .nzero ∉ o
  | .box o _ => .nzero ∉ o
  | .line a b => .nzero ∉ a ∧ .nzero ∉ b
  | .triPrism v _ => .nzero ∉ v

section ctor
variable (t : R3)

theorem nz3 {x y z : Fl ℝ} (h : Fl.nzero ∉ [x, y, z]) : V3.NZ ⟨#v[x, y, z]⟩ := by
  simp only [List.mem_cons, List.not_mem_nil, or_false, not_or] at h
  exact ⟨Ne.symm h.1, Ne.symm h.2.1, Ne.symm h.2.2⟩

theorem cmp_mv (u : ℝ) (x y : Fl ℝ) : cmpOrEqual (x + .fin u) (y + .fin u) = cmpOrEqual x y := by
  unfold cmpOrEqual Fl.partialCmp
  rw [Fl.lt_mv, Fl.lt_mv, Fl.feq_mv]

theorem foldl_mv {f : Fl ℝ → Fl ℝ → Fl ℝ} (u : ℝ) (hf : ∀ x y, f (x + .fin u) (y + .fin u) = f x y + .fin u) :
    (l : List (Fl ℝ)) → (x : Fl ℝ) → (l.map (· + .fin u)).foldl f (x + .fin u) = l.foldl f x + .fin u
  | [], _ => rfl
  | y :: l, x => by rw [List.map_cons, List.foldl_cons, List.foldl_cons, hf, foldl_mv u hf l]

/-- the value of `minOf` and `maxOf` on a non-empty list -/
def mnL {K : Type} [Field K] [LinearOrder K] [Fmt K] (x : Fl K) (l : List (Fl K)) : Fl K := l.foldl (fun acc y => if cmpOrEqual acc y = .gt then y else acc) x
def mxL {K : Type} [Field K] [LinearOrder K] [Fmt K] (x : Fl K) (l : List (Fl K)) : Fl K := l.foldl (fun acc y => if cmpOrEqual acc y = .gt then acc else y) x

theorem mnL_mv (u : ℝ) (x : Fl ℝ) (l : List (Fl ℝ)) : mnL (x + .fin u) (l.map (· + .fin u)) = mnL x l + .fin u := by
  refine foldl_mv u (fun x y => ?_) l x
  show (if cmpOrEqual _ _ = _ then _ else _) = (if _ then _ else _) + _
  rw [cmp_mv]; split <;> rfl

theorem mxL_mv (u : ℝ) (x : Fl ℝ) (l : List (Fl ℝ)) : mxL (x + .fin u) (l.map (· + .fin u)) = mxL x l + .fin u := by
  refine foldl_mv u (fun x y => ?_) l x
  show (if cmpOrEqual _ _ = _ then _ else _) = (if _ then _ else _) + _
  rw [cmp_mv]; split <;> rfl

theorem mvList3 (x y z : Fl ℝ) : mvList t [x, y, z] = [x + .fin (t 0), y + .fin (t 1), z + .fin (t 2)] := rfl

theorem point_made {o : List (Fl ℝ)} {s : Point3 ℝ} (h : Point3.init o = .ok s) (hz : Fl.nzero ∉ o) :
    Point3.init (mvList t o) = .ok (s.mv t) ∧ s.ori.NZ := by
  unfold Point3.init at h
  by_cases h1 : o.length = 3
  · obtain ⟨x, y, z, rfl⟩ := list3 h1
    obtain rfl := Except.ok.inj h
    exact ⟨rfl, nz3 hz⟩
  · simp [beq_false_of_ne h1] at h

theorem ray_made {o d : List (Fl ℝ)} {s : Ray3 ℝ} (h : Ray3.init o d = .ok s) (hz : Fl.nzero ∉ o) :
    Ray3.init (mvList t o) d = .ok (s.mv t) ∧ s.ori.NZ := by
  obtain ⟨x, y, z, a, b, c, rfl, rfl, h1, h2⟩ := ray_init_eq h
  refine ⟨?_, h1 ▸ nz3 hz⟩
  obtain rfl := Except.ok.inj h
  exact congrArg Except.ok (rayOf_mv t ⟨#v[x, y, z]⟩ ⟨#v[a, b, c]⟩).symm

theorem sphere_made {o : List (Fl ℝ)} {r : Fl ℝ} {s : Sphere ℝ} (h : Sphere.init o r = .ok s) (hz : Fl.nzero ∉ o) :
    Sphere.init (mvList t o) r = .ok (s.mv t) ∧ s.ori.NZ := by
  unfold Sphere.init at h
  by_cases h1 : o.length = 3
  · obtain ⟨x, y, z, rfl⟩ := list3 h1
    obtain rfl := Except.ok.inj h
    refine ⟨?_, nz3 hz⟩
    rw [mvList3]
    show Except.ok (⟨_, _, ⟨#v[_ + _ - _, _ + _ - _, _ + _ - _], #v[_ + _ + _, _ + _ + _, _ + _ + _]⟩, _⟩ : Sphere ℝ) = _
    simp only [Fl.mv_sub, Fl.mv_add]; rfl
  · simp [beq_false_of_ne h1] at h

theorem box_made {o : List (Fl ℝ)} {r : Fl ℝ} {s : RecBox ℝ} (h : RecBox.init o r = .ok s) (hz : Fl.nzero ∉ o) :
    RecBox.init (mvList t o) r = .ok (s.mv t) ∧ s.ori.NZ := by
  unfold RecBox.init at h
  by_cases h1 : o.length = 3
  · obtain ⟨x, y, z, rfl⟩ := list3 h1
    obtain rfl := Except.ok.inj h
    refine ⟨?_, nz3 hz⟩
    rw [mvList3]
    show Except.ok (⟨_, _, ⟨#v[_ + _ - _, _ + _ - _, _ + _ - _], #v[_ + _ + _, _ + _ + _, _ + _ + _]⟩, _⟩ : RecBox ℝ) = _
    simp only [Fl.mv_sub, Fl.mv_add]; rfl
  · simp [beq_false_of_ne h1] at h

theorem plane_made {o n : List (Fl ℝ)} {s : Plane ℝ} (h : Plane.init o n = .ok s) (hz : Fl.nzero ∉ o) :
    Plane.init (mvList t o) n = .ok (s.mv t) ∧ s.offset.NZ ∧ s.normal.Ok := by
  obtain ⟨x, y, z, a, b, c, rfl, rfl, h1, h2, -⟩ := plane_init_eq h
  refine ⟨?_, h1 ▸ nz3 hz, h2 ▸ nrm_ok _⟩
  obtain rfl := Except.ok.inj h
  rfl

/-- the box around a list of points -/
def boxL {K : Type} [Field K] [LinearOrder K] [Fmt K] (v : V3 K) (l : List (V3 K)) : AABB (Fl K) :=
  ⟨#v[mnL v.val[0] (l.map (·.val[0])), mnL v.val[1] (l.map (·.val[1])), mnL v.val[2] (l.map (·.val[2]))],
   #v[mxL v.val[0] (l.map (·.val[0])), mxL v.val[1] (l.map (·.val[1])), mxL v.val[2] (l.map (·.val[2]))]⟩

theorem boxL_mv (v : V3 ℝ) (l : List (V3 ℝ)) : boxL (v.mv t) (l.map (V3.mv t)) = (boxL v l).mv t := by
  have h0 : (l.map (V3.mv t)).map (·.val[0]) = (l.map (·.val[0])).map (· + .fin (t 0)) := by
    rw [List.map_map, List.map_map]; rfl
  have h1 : (l.map (V3.mv t)).map (·.val[1]) = (l.map (·.val[1])).map (· + .fin (t 1)) := by
    rw [List.map_map, List.map_map]; rfl
  have h2 : (l.map (V3.mv t)).map (·.val[2]) = (l.map (·.val[2])).map (· + .fin (t 2)) := by
    rw [List.map_map, List.map_map]; rfl
  have hv : (v.mv t).val[0] = v.val[0] + .fin (t 0) ∧ (v.mv t).val[1] = v.val[1] + .fin (t 1) ∧
    (v.mv t).val[2] = v.val[2] + .fin (t 2) := ⟨rfl, rfl, rfl⟩
  unfold boxL
  simp only [h0, h1, h2, hv.1, hv.2.1, hv.2.2, mnL_mv, mxL_mv]
  rfl

/-- the segment `Line3::init` makes -/
def lineOf {K : Type} [Field K] [LinearOrder K] [Fmt K] (a b : V3 K) : Line3 K := ⟨a, b, boxL a [b], defaultVicinity⟩

theorem line_init {K : Type} [Field K] [LinearOrder K] [Fmt K] (x y z x' y' z' : Fl K) : Line3.init [x, y, z] [x', y', z'] = .ok (lineOf ⟨#v[x, y, z]⟩ ⟨#v[x', y', z']⟩) := rfl

theorem lineOf_mv (a b : V3 ℝ) : (lineOf a b).mv t = lineOf (a.mv t) (b.mv t) := by
  have := boxL_mv t a [b]
  unfold lineOf Line3.mv
  rw [← this]; rfl

theorem line_made {a b : List (Fl ℝ)} {s : Line3 ℝ} (h : Line3.init a b = .ok s) (hz : Fl.nzero ∉ a) (hz' : Fl.nzero ∉ b) :
    Line3.init (mvList t a) (mvList t b) = .ok (s.mv t) ∧ s.a.NZ ∧ s.b.NZ := by
  by_cases h1 : a.length = 3
  · by_cases h2 : b.length = 3
    · obtain ⟨x, y, z, rfl⟩ := list3 h1
      obtain ⟨x', y', z', rfl⟩ := list3 h2
      rw [line_init] at h
      obtain rfl := Except.ok.inj h
      refine ⟨?_, nz3 hz, nz3 hz'⟩
      rw [mvList3, mvList3, line_init, lineOf_mv]; rfl
    · simp [Line3.init, h1, beq_false_of_ne h2] at h
  · simp [Line3.init, beq_false_of_ne h1] at h

/-- the prism with base `v0 v1 v2` and offset `n` -/
def prismWith {K : Type} [Field K] [LinearOrder K] [Fmt K] (v0 v1 v2 n : V3 K) : TriPrism K :=
  ⟨#v[v0, v1, v2], #v[V3.add v0 n, V3.add v1 n, V3.add v2 n], n,
    boxL v0 [v1, v2, V3.add v0 n, V3.add v1 n, V3.add v2 n], defaultVicinity⟩

theorem prism_init {K : Type} [Field K] [LinearOrder K] [Fmt K] (a b c a' b' c' a'' b'' c'' h : Fl K) : TriPrism.init [a, b, c, a', b', c', a'', b'', c''] h =
    .ok (prismWith ⟨#v[a, b, c]⟩ ⟨#v[a', b', c']⟩ ⟨#v[a'', b'', c'']⟩
      (V3.scl (V3.nrm (V3.crs (V3.sub ⟨#v[a', b', c']⟩ ⟨#v[a, b, c]⟩) (V3.sub ⟨#v[a'', b'', c'']⟩ ⟨#v[a, b, c]⟩))) h)) := rfl

theorem prismWith_mv (v0 v1 v2 n : V3 ℝ) : (prismWith v0 v1 v2 n).mv t = prismWith (v0.mv t) (v1.mv t) (v2.mv t) n := by
  have := boxL_mv t v0 [v1, v2, V3.add v0 n, V3.add v1 n, V3.add v2 n]
  unfold prismWith
  simp only [V3.mv_add]
  unfold TriPrism.mv
  rw [← this]; rfl

theorem mvList9 (a b c a' b' c' a'' b'' c'' : Fl ℝ) : mvList t [a, b, c, a', b', c', a'', b'', c''] =
    [a + .fin (t 0), b + .fin (t 1), c + .fin (t 2), a' + .fin (t 0), b' + .fin (t 1), c' + .fin (t 2),
      a'' + .fin (t 0), b'' + .fin (t 1), c'' + .fin (t 2)] := by
  simp only [mvList, List.mapIdx_cons, List.mapIdx_nil]
  rfl

theorem prism_made {v : List (Fl ℝ)} {h : Fl ℝ} {s : TriPrism ℝ} (hs : TriPrism.init v h = .ok s) (hz : Fl.nzero ∉ v) :
    TriPrism.init (mvList t v) h = .ok (s.mv t) ∧ (Shape.triPrism s).Good := by
  by_cases h1 : v.length = 9
  · rcases v with _ | ⟨a, _ | ⟨b, _ | ⟨c, _ | ⟨a', _ | ⟨b', _ | ⟨c', _ | ⟨a'', _ | ⟨b'', _ | ⟨c'', _ | _⟩⟩⟩⟩⟩⟩⟩⟩⟩ <;> simp at h1
    rw [prism_init] at hs
    obtain rfl := Except.ok.inj hs
    simp only [List.mem_cons, List.not_mem_nil, or_false, not_or] at hz
    obtain ⟨n0, n1, n2, n3, n4, n5, n6, n7, n8⟩ := hz
    have z0 : V3.NZ ⟨#v[a, b, c]⟩ := ⟨Ne.symm n0, Ne.symm n1, Ne.symm n2⟩
    have z1 : V3.NZ ⟨#v[a', b', c']⟩ := ⟨Ne.symm n3, Ne.symm n4, Ne.symm n5⟩
    have z2 : V3.NZ ⟨#v[a'', b'', c'']⟩ := ⟨Ne.symm n6, Ne.symm n7, Ne.symm n8⟩
    refine ⟨?_, ⟨z0, z1, z2⟩, V3.add_NZ z0 _⟩
    rw [mvList9, prism_init, prismWith_mv]
    have e1 := V3.sub_mv t z1 z0
    have e2 := V3.sub_mv t z2 z0
    rw [← e1, ← e2]; rfl
  · simp [TriPrism.init, beq_false_of_ne h1] at hs

theorem map_ok {α β : Type} {f : α → β} {r : Res α} {b : β} (h : r.map f = .ok b) : ∃ a, r = .ok a ∧ f a = b := by
  cases r with
  | error e => simp [Except.map] at h
  | ok a => exact ⟨a, rfl, Except.ok.inj h⟩

theorem Ctor.made (c : Ctor ℝ) (hz : c.NoNegZero) {s : Shape ℝ} (h : c.make = .ok s) :
    (c.moved t).make = .ok (s.mv t) ∧ s.Good := by
  cases c with
  | point o => obtain ⟨p, hp, rfl⟩ := map_ok h
               obtain ⟨h1, h2⟩ := point_made t hp hz
               exact ⟨congrArg (Except.map Shape.point) h1, h2⟩
  | ray o d => obtain ⟨p, hp, rfl⟩ := map_ok h
               obtain ⟨h1, h2⟩ := ray_made t hp hz
               exact ⟨congrArg (Except.map Shape.ray) h1, h2⟩
  | sphere o r => obtain ⟨p, hp, rfl⟩ := map_ok h
                  obtain ⟨h1, h2⟩ := sphere_made t hp hz
                  exact ⟨congrArg (Except.map Shape.sphere) h1, h2⟩
  | plane o n => obtain ⟨p, hp, rfl⟩ := map_ok h
                 obtain ⟨h1, h2⟩ := plane_made t hp hz
                 exact ⟨congrArg (Except.map Shape.plane) h1, h2⟩
  | box o r => obtain ⟨p, hp, rfl⟩ := map_ok h
               obtain ⟨h1, h2⟩ := box_made t hp hz
               exact ⟨congrArg (Except.map Shape.box) h1, h2⟩
  | line a b => obtain ⟨p, hp, rfl⟩ := map_ok h
                obtain ⟨h1, h2⟩ := line_made t hp hz.1 hz.2
                exact ⟨congrArg (Except.map Shape.line) h1, h2⟩
  | triPrism v r => obtain ⟨p, hp, rfl⟩ := map_ok h
                    obtain ⟨h1, h2⟩ := prism_made t hp hz
                    exact ⟨congrArg (Except.map Shape.triPrism) h1, h2⟩

theorem setVicinity_mv (e : Fl ℝ) (s : Shape ℝ) : (s.mv t).setVicinity e = (s.setVicinity e).mv t := by cases s <;> rfl
theorem setVicinity_good {e : Fl ℝ} {s : Shape ℝ} (h : s.Good) : (s.setVicinity e).Good := by cases s <;> exact h

end ctor

/-! ## Theorems -/

/-- C75: two shapes built from arbitrary floats (no position coordinate `-0`).  Building them with all positions moved by `t`
succeeds, and every query on the moved shapes gives the same flag or panic and the same location, moved by `t` — with the
default tolerances and with any tolerances set. -/
theorem C75_query (t : R3) {a b : Ctor ℝ} (ha : a.NoNegZero) (hb : b.NoNegZero) {A B : Shape ℝ} (hA : a.make = .ok A) (hB : b.make = .ok B) :
    ∃ A' B', (a.moved t).make = .ok A' ∧ (b.moved t).make = .ok B' ∧
      (∀ n, Shape.getIntersect (n + 2) A' B' = (Shape.getIntersect (n + 2) A B).map (mvHit t)) ∧
      ∀ n e f, Shape.getIntersect (n + 2) (A'.setVicinity e) (B'.setVicinity f) =
        (Shape.getIntersect (n + 2) (A.setVicinity e) (B.setVicinity f)).map (mvHit t) := by
  obtain ⟨h1, g1⟩ := a.made t ha hA
  obtain ⟨h2, g2⟩ := b.made t hb hB
  refine ⟨_, _, h1, h2, fun n => getIntersect_mv t n g1 g2, fun n e f => ?_⟩
  rw [setVicinity_mv, setVicinity_mv]
  exact getIntersect_mv t n (setVicinity_good g1) (setVicinity_good g2)

/-- a cube of half side `5` and the point `(1, 2, 3)` inside, both moved by `(10, 0, -4)` -/
example : ∃ A B, (Ctor.box [0, 0, 0] (.fin 5) : Ctor ℝ).make = .ok A ∧ (Ctor.point [1, .fin 2, .fin 3] : Ctor ℝ).make = .ok B ∧
    Ctor.NoNegZero (.box [0, 0, 0] (.fin 5)) ∧ Ctor.NoNegZero (.point [1, .fin 2, .fin 3]) ∧
    Shape.getIntersect 2 A B = .ok (true, some ⟨#v[1, .fin 2, .fin 3]⟩) ∧
    mvHit ![10, 0, -4] (true, some ⟨#v[1, .fin 2, .fin 3]⟩) = (true, some ⟨#v[.fin 11, .fin 2, .fin (-1)]⟩) := by
  refine ⟨_, _, rfl, rfl, ?_, ?_, ?_, ?_⟩
  · simp [Ctor.NoNegZero, Fl.zero_def]
  · simp [Ctor.NoNegZero, Fl.one_def]
  · rw [getIntersect_eq]
    refine (if_pos ?_).trans rfl
    show (!(Fl.lt (1 : Fl ℝ) ((0 : Fl ℝ) - .fin 5) || Fl.lt ((0 : Fl ℝ) + .fin 5) (1 : Fl ℝ)) &&
      (!(Fl.lt (.fin 2 : Fl ℝ) ((0 : Fl ℝ) - .fin 5) || Fl.lt ((0 : Fl ℝ) + .fin 5) (.fin 2)) &&
      (!(Fl.lt (.fin 3 : Fl ℝ) ((0 : Fl ℝ) - .fin 5) || Fl.lt ((0 : Fl ℝ) + .fin 5) (.fin 3)) && true))) = true
    simp only [Fl.zero_def, Fl.one_def, Fl.fin_sub_fin, Fl.fin_add_fin, Fl.lt]
    norm_num
  · show (true, some (⟨#v[.fin 1 + .fin 10, .fin 2 + .fin 0, .fin 3 + .fin (-4)]⟩ : V3 ℝ)) = _
    simp only [Fl.fin_add_fin]
    norm_num

/-! ### Support points and GJK -/

section support
variable (t : R3)

theorem sphere_support_mv (s : Sphere ℝ) (v : V3 ℝ) : (s.mv t).getSupport v = (s.getSupport v).map (Option.map (V3.mv t)) := by
  unfold Sphere.getSupport
  simp only [V3.normalize_eq, V3.scale_eq, V3.plus_eq, unwrap_some, Res.ok_bind, Res.pure_eq, Sphere.mv, V3.mv_add]
  split <;> rfl

theorem box_support_mv (s : RecBox ℝ) (v : V3 ℝ) : (s.mv t).getSupport v = (s.getSupport v).map (Option.map (V3.mv t)) := by
  unfold RecBox.getSupport
  simp only [V3.plus_eq, unwrap_some, Res.ok_bind, Res.pure_eq]
  have hc : (s.mv t).corners = s.corners := rfl
  rw [hc]
  split
  · cases furthest s.corners v with
    | error e => rfl
    | ok p => exact congrArg (fun q => Except.ok (some q)) (V3.mv_add t s.ori p)
  · rfl

/-- both calls panic in the same way, or both return, with related values -/
def RelRes {α : Type} (R : α → α → Prop) (r r' : Res α) : Prop :=
  (∃ e, r = .error e ∧ r' = .error e) ∨ ∃ a a', r = .ok a ∧ r' = .ok a' ∧ R a a'

theorem foldlM_rel {β : Type} {R : β → β → Prop} {cmp : β → β → Res Ordering}
    (hc : ∀ {a a' b b'}, R a a' → R b b' → cmp a' b' = cmp a b) {l l' : List β} (hl : List.Forall₂ R l l') {x x' : β} (hx : R x x') :
    RelRes R (l.foldlM (fun acc y => do if (← cmp acc y) = .gt then .ok acc else .ok y) x)
      (l'.foldlM (fun acc y => do if (← cmp acc y) = .gt then .ok acc else .ok y) x') := by
  induction hl generalizing x x' with
  | nil => exact .inr ⟨x, x', rfl, rfl, hx⟩
  | @cons y y' l l' hy hl ih =>
    rw [List.foldlM_cons, List.foldlM_cons, hc hx hy]
    cases cmp x y with
    | error e => exact .inl ⟨e, rfl, rfl⟩
    | ok o =>
      simp only [Res.ok_bind]
      by_cases ho : o = .gt
      · rw [if_pos ho, if_pos ho]; exact ih hx
      · rw [if_neg ho, if_neg ho]; exact ih hy

theorem furthest6 (p0 p1 p2 p3 p4 p5 v : V3 ℝ) : furthest [p0, p1, p2, p3, p4, p5] v =
    (([(V3.dotp p1 v, 1), (V3.dotp p2 v, 2), (V3.dotp p3 v, 3), (V3.dotp p4 v, 4), (V3.dotp p5 v, 5)] : List (Fl ℝ × ℕ)).foldlM
      (fun acc y => do if (← unwrap (Fl.partialCmp acc.1 y.1)) = .gt then .ok acc else .ok y) (V3.dotp p0 v, 0) >>= fun best =>
        sliceGet [p0, p1, p2, p3, p4, p5] best.2) := by
  have key : ∀ r : Res (Fl ℝ × ℕ), ((r >>= fun b => Except.ok (some b)) >>= fun o => unwrap o >>= fun b =>
      sliceGet [p0, p1, p2, p3, p4, p5] b.2) = r >>= fun b => sliceGet [p0, p1, p2, p3, p4, p5] b.2 := by
    intro r; cases r <;> rfl
  exact key _

theorem furthest_mv {v : V3 ℝ} (hv : v.Ok) (p0 p1 p2 p3 p4 p5 : V3 ℝ) :
    furthest [p0.mv t, p1.mv t, p2.mv t, p3.mv t, p4.mv t, p5.mv t] v = (furthest [p0, p1, p2, p3, p4, p5] v).map (V3.mv t) := by
  obtain ⟨k, hk⟩ := V3.dotp_mv t hv
  rw [furthest6, furthest6]
  have hd : ∀ p, Fl.Same (V3.dotp (V3.mv t p) v) (V3.dotp p v + .fin k) := by
    intro p; rw [V3.dotp_comm, V3.dotp_comm p]; exact hk p
  have key := foldlM_rel (R := fun a a' : Fl ℝ × ℕ => Fl.Same a'.1 (a.1 + .fin k) ∧ a'.2 = a.2)
    (cmp := fun a b => unwrap (Fl.partialCmp a.1 b.1))
    (by
      intro a a' b b' ha hb
      have : Fl.partialCmp a'.1 b'.1 = Fl.partialCmp a.1 b.1 := by
        unfold Fl.partialCmp Fl.feq
        rw [Fl.lt_congr ha.1 hb.1, Fl.lt_congr hb.1 ha.1, Fl.le_congr ha.1 hb.1, Fl.le_congr hb.1 ha.1,
          Fl.lt_mv, Fl.lt_mv, Fl.le_mv, Fl.le_mv]
      simp only [this])
    (l := [(V3.dotp p1 v, 1), (V3.dotp p2 v, 2), (V3.dotp p3 v, 3), (V3.dotp p4 v, 4), (V3.dotp p5 v, 5)])
    (l' := [(V3.dotp (p1.mv t) v, 1), (V3.dotp (p2.mv t) v, 2), (V3.dotp (p3.mv t) v, 3), (V3.dotp (p4.mv t) v, 4), (V3.dotp (p5.mv t) v, 5)])
    (.cons ⟨hd _, rfl⟩ (.cons ⟨hd _, rfl⟩ (.cons ⟨hd _, rfl⟩ (.cons ⟨hd _, rfl⟩ (.cons ⟨hd _, rfl⟩ .nil)))))
    (x := (V3.dotp p0 v, 0)) (x' := (V3.dotp (p0.mv t) v, 0)) ⟨hd _, rfl⟩
  rcases key with ⟨e, h1, h2⟩ | ⟨a, a', h1, h2, -, h3⟩
  · rw [h1, h2]; rfl
  · rw [h1, h2]
    simp only [Res.ok_bind, h3]
    rcases a.2 with _ | _ | _ | _ | _ | _ | n <;> rfl

theorem prism_support_mv (s : TriPrism ℝ) {v : V3 ℝ} (hv : v.Ok) :
    (s.mv t).getSupport v = (s.getSupport v).map (Option.map (V3.mv t)) := by
  unfold TriPrism.getSupport
  have := furthest_mv t hv s.triBase[0] s.triBase[1] s.triBase[2] s.triBase2[0] s.triBase2[1] s.triBase2[2]
  have e : furthest [(s.mv t).triBase[0], (s.mv t).triBase[1], (s.mv t).triBase[2], (s.mv t).triBase2[0], (s.mv t).triBase2[1],
    (s.mv t).triBase2[2]] v = _ := this
  rw [e]
  split
  · generalize furthest _ v = r
    cases r <;> rfl
  · rfl

end support

/-- C75: the support point in a direction moves with the shape; the direction is any vector whose coordinates are finite or
include a NaN (for spheres, boxes, points, rays and planes any vector at all). -/
theorem C75_support (t : R3) {a : Ctor ℝ} (ha : a.NoNegZero) {A : Shape ℝ} (hA : a.make = .ok A) (v : V3 ℝ)
    (hv : ((∃ r, v.val[0].Is r) ∧ (∃ r, v.val[1].Is r) ∧ ∃ r, v.val[2].Is r) ∨ (v.val[0] = .nan ∨ v.val[1] = .nan ∨ v.val[2] = .nan) ∨
      A.getType ≠ .triPrism) :
    ∃ A', (a.moved t).make = .ok A' ∧ A'.getSupport v = (A.getSupport v).map (Option.map (V3.mv t)) := by
  obtain ⟨h1, -⟩ := a.made t ha hA
  refine ⟨_, h1, ?_⟩
  cases A with
  | point s => rfl
  | ray s => rfl
  | sphere s => exact sphere_support_mv t s v
  | plane s => rfl
  | box s => exact box_support_mv t s v
  | triPrism s =>
    refine prism_support_mv t s ?_
    rcases hv with hv | hv | hv
    · exact .inl hv
    · exact .inr hv
    · exact absurd rfl hv
  | line s => rfl

/-- C75: the GJK query does not see the motion: same answer or panic after the same number of iterations. -/
theorem C75_gjk (t : R3) {a b : Ctor ℝ} (ha : a.NoNegZero) (hb : b.NoNegZero) {A B : Shape ℝ} (hA : a.make = .ok A) (hB : b.make = .ok B) :
    ∃ A' B', (a.moved t).make = .ok A' ∧ (b.moved t).make = .ok B' ∧
      ∀ fuel, Gjk.queryIntersect fuel A' B' = Gjk.queryIntersect fuel A B := by
  obtain ⟨h1, g1⟩ := a.made t ha hA
  obtain ⟨h2, g2⟩ := b.made t hb hB
  refine ⟨_, _, h1, h2, fun fuel => ?_⟩
  cases A <;> cases B <;> try rfl
  rename_i p q
  have hs : ∀ v, Gjk.support (.sphere (p.mv t)) (.sphere (q.mv t)) v = Gjk.support (.sphere p) (.sphere q) v := by
    intro v
    unfold Gjk.support
    simp only [Shape.getSupport, sphere_support_mv]
    unfold Sphere.getSupport
    simp only [V3.normalize_eq, V3.scale_eq, V3.plus_eq, V3.minus_eq, unwrap_some, Res.ok_bind, Res.pure_eq]
    split
    · split
      · simp only [Except.map, Option.map, Res.ok_bind]
        rw [V3.sub_mv t (V3.add_NZ g1 _) (V3.add_NZ g2 _)]
      · rfl
    · rfl
  have hl : ∀ fuel simplex d, Gjk.queryLoop (.sphere (p.mv t)) (.sphere (q.mv t)) fuel simplex d =
      Gjk.queryLoop (.sphere p) (.sphere q) fuel simplex d := by
    intro fuel
    induction fuel with
    | zero => intro _ _; rfl
    | succ n ih => intro simplex d; simp only [Gjk.queryLoop, hs, ih]
  show Gjk.queryIntersect fuel (.sphere (p.mv t)) (.sphere (q.mv t)) = _
  simp only [Gjk.queryIntersect, Shape.getType, hs, hl]

theorem Fl.fin_half (a : ℝ) : (.fin a / .fin 2 : Fl ℝ) = .fin (a / 2) := by
  show Fl.div _ _ = _
  by_cases h : a = 0
  · subst h; simp [Fl.div, Fl.divFin, Fl.zero]
  · simp [Fl.div, Fl.divFin, h]

/-- C75: the bounding box moves with the shape, and so does its centroid. -/
theorem C75_bound (t : R3) {a : Ctor ℝ} (ha : a.NoNegZero) {A : Shape ℝ} (hA : a.make = .ok A) :
    ∃ A' b b' c c', (a.moved t).make = .ok A' ∧ A.getBound = .aabb b ∧ A'.getBound = .aabb b' ∧
      (∀ i : Fin 3, b'.lower[i] = b.lower[i] + .fin (t i) ∧ b'.upper[i] = b.upper[i] + .fin (t i)) ∧
      A.getBound.getCentroid = .ok c ∧ A'.getBound.getCentroid = .ok c' ∧ ∀ i : Fin 3, c'[i] = c[i] + .fin (t i) := by
  obtain ⟨h1, -⟩ := a.made t ha hA
  obtain ⟨c, hc, e⟩ := getCentroid_eq A.aabb
  obtain ⟨c', hc', e'⟩ := getCentroid_eq (A.aabb.mv t)
  have hb : ∀ i : Fin 3, (A.aabb.mv t).lower[i] = A.aabb.lower[i] + .fin (t i) ∧ (A.aabb.mv t).upper[i] = A.aabb.upper[i] + .fin (t i) := by
    intro i; fin_cases i <;> exact ⟨rfl, rfl⟩
  refine ⟨_, A.aabb, A.aabb.mv t, c, c', h1, Shape.getBound_eq A, ?_, hb, ?_, ?_, fun i => ?_⟩
  · rw [Shape.getBound_eq, aabb_mv]
  · rw [Shape.getBound_eq, hc]
  · rw [Shape.getBound_eq, aabb_mv, hc']
  · rw [e, e', (hb i).1, (hb i).2, Fl.mv_add_mv]
    generalize A.aabb.lower[i] + A.aabb.upper[i] = x
    have h2 : (Fl.lit 2 : Fl ℝ) = .fin 2 := by simp [Fl.lit]
    rw [h2]
    cases x with
    | nan => rfl
    | inf s => rfl
    | nzero =>
      rw [Fl.nzero_add_fin, Fl.fin_half]
      have : (Fl.nzero / .fin 2 : Fl ℝ) = .nzero := by
        show Fl.div _ _ = _
        simp [Fl.div, Fl.divFin, Fl.zero]
      rw [this, Fl.nzero_add_fin]
      congr 1; ring
    | fin r =>
      rw [Fl.fin_add_fin, Fl.fin_half, Fl.fin_half, Fl.fin_add_fin]
      congr 1; ring

/-! Instances for the last three theorems. -/

/-- the unit sphere and the sphere of radius `2` about `(1, 1, 0)`, both moved by `(5, -7, 2)` -/
example := C75_gjk ![5, -7, 2] (a := .sphere [0, 0, 0] 1) (b := .sphere [1, 1, 0] (.fin 2)) (by simp [Ctor.NoNegZero, Fl.zero_def])
  (by simp [Ctor.NoNegZero, Fl.zero_def, Fl.one_def]) rfl rfl

/-- the unit sphere moved by `(5, -7, 2)`, in the direction `(1, 2, 2)` -/
example := C75_support ![5, -7, 2] (a := .sphere [0, 0, 0] 1) (by simp [Ctor.NoNegZero, Fl.zero_def]) rfl ⟨#v[1, .fin 2, .fin 2]⟩
  (.inl ⟨⟨1, rfl⟩, ⟨2, rfl⟩, ⟨2, rfl⟩⟩)

/-- the unit sphere and the sphere of radius `2` about `(1, 1, 0)`; a prism over a triangle -/
example : (∃ A, (Ctor.sphere [0, 0, 0] 1 : Ctor ℝ).make = .ok A) ∧ Ctor.NoNegZero (.sphere [0, 0, 0] 1) ∧
    (∃ A, (Ctor.sphere [1, 1, 0] (.fin 2) : Ctor ℝ).make = .ok A) ∧ Ctor.NoNegZero (.sphere [1, 1, 0] (.fin 2)) ∧
    (∃ A, (Ctor.triPrism [0, 0, 0, 1, 0, 0, 0, 1, 0] (.fin 3) : Ctor ℝ).make = .ok A ∧ A.getType = .triPrism) ∧
    Ctor.NoNegZero (.triPrism [0, 0, 0, 1, 0, 0, 0, 1, 0] (.fin 3)) ∧
    V3.Ok (⟨#v[0, 1, .nzero]⟩ : V3 ℝ) ∧ V3.mv ![1, 2, 3] (⟨#v[.inf false, 1, .nzero]⟩ : V3 ℝ) = ⟨#v[.inf false, .fin 3, .fin 3]⟩ := by
  refine ⟨⟨_, rfl⟩, ?_, ⟨_, rfl⟩, ?_, ⟨_, rfl, rfl⟩, ?_, .inl ⟨⟨0, rfl⟩, ⟨1, rfl⟩, ⟨0, rfl⟩⟩, ?_⟩
  · simp [Ctor.NoNegZero, Fl.zero_def]
  · simp [Ctor.NoNegZero, Fl.zero_def, Fl.one_def]
  · simp [Ctor.NoNegZero, Fl.zero_def, Fl.one_def]
  · show (⟨#v[.inf false + .fin 1, .fin 1 + .fin 2, .nzero + .fin 3]⟩ : V3 ℝ) = _
    rw [Fl.inf_add_fin, Fl.fin_add_fin, Fl.nzero_add_fin]
    norm_num

/-! ## Not in floating point -/

/-- C75, binary64: with rounding the motion can change the answer.  The points `(2⁻⁶⁰, 0, 0)` and `0` do not meet; after adding
`1` to the first coordinate of both, as the floating-point addition does it, they do. -/
theorem C75_rounding_false : ∃ p q p' q' : Point3 Q64, ∃ x : Fl Q64,
    Point3.init [x, 0, 0] = .ok p ∧ Point3.init [0, 0, 0] = .ok q ∧
    Point3.init [x + 1, 0, 0] = .ok p' ∧ Point3.init [0 + 1, 0, 0] = .ok q' ∧
    Shape.getIntersect 2 (.point p) (.point q) = .ok (false, none) ∧
    Shape.getIntersect 2 (.point p') (.point q') = .ok (true, some ⟨#v[1, 0, 0]⟩) :=
  ⟨_, _, _, _, .fin (1 / 2 ^ 60), rfl, rfl, rfl, rfl, by decide +kernel, by decide +kernel⟩

end Mazth
