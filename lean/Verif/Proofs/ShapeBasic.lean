import Verif.Spec.Shapes
import Verif.Proofs.QuatBasic
import Verif.Proofs.BoundBasic

/-! Plain-value form of the vector operations used by the shapes, and their values in exact arithmetic. -/

set_option linter.unusedSectionVars false
set_option autoImplicit false

namespace Mazth

open Matrix

variable {K : Type} [Field K] [LinearOrder K] [Fmt K]

namespace V3

def sub (a b : V3 K) : V3 K := ⟨#v[a.val[0] - b.val[0], a.val[1] - b.val[1], a.val[2] - b.val[2]]⟩
def add (a b : V3 K) : V3 K := ⟨#v[a.val[0] + b.val[0], a.val[1] + b.val[1], a.val[2] + b.val[2]]⟩
def dv (a b : V3 K) : V3 K := ⟨#v[a.val[0] / b.val[0], a.val[1] / b.val[1], a.val[2] / b.val[2]]⟩
def scl (a : V3 K) (s : Fl K) : V3 K := ⟨#v[a.val[0] * s, a.val[1] * s, a.val[2] * s]⟩
def crs (a b : V3 K) : V3 K :=
  ⟨#v[a.val[1] * b.val[2] - a.val[2] * b.val[1], a.val[2] * b.val[0] - a.val[0] * b.val[2],
      a.val[0] * b.val[1] - a.val[1] * b.val[0]]⟩
def dotp (a b : V3 K) : Fl K := a.val[0] * b.val[0] + a.val[1] * b.val[1] + a.val[2] * b.val[2]
def mag (a : V3 K) : Fl K := Fl.sqrt (a.val[0].powi2 + a.val[1].powi2 + a.val[2].powi2)
def nrm (a : V3 K) : V3 K := ⟨#v[a.val[0] / mag a, a.val[1] / mag a, a.val[2] / mag a]⟩
def eqv (a b : V3 K) (error : Fl K) : Bool :=
  Fl.le (b.val[0] - error) a.val[0] && Fl.le a.val[0] (b.val[0] + error) &&
    Fl.le (b.val[1] - error) a.val[1] && Fl.le a.val[1] (b.val[1] + error) &&
    Fl.le (b.val[2] - error) a.val[2] && Fl.le a.val[2] (b.val[2] + error)

variable (a b : V3 K) (s : Fl K)

@[simp] theorem minus_eq : a.minus b = some (sub a b) := rfl
@[simp] theorem plus_eq : a.plus b = some (add a b) := rfl
@[simp] theorem div_eq : a.div b = some (dv a b) := rfl
@[simp] theorem scale_eq : a.scale s = some (scl a s) := rfl
@[simp] theorem cross_eq : a.cross b = some (crs a b) := rfl
@[simp] theorem dot_eq : a.dot b = some (dotp a b) := rfl
@[simp] theorem magnitude_eq : a.magnitude = some (mag a) := rfl
@[simp] theorem normalize_eq : a.normalize = some (nrm a) := rfl
@[simp] theorem isEqual_eq : a.isEqual b s = some (eqv a b s) := rfl

theorem eta : (⟨#v[a.val[0], a.val[1], a.val[2]]⟩ : V3 K) = a := by
  obtain ⟨⟨⟨l⟩, h⟩⟩ := a
  rcases l with _ | ⟨x0, _ | ⟨x1, _ | ⟨x2, _ | _⟩⟩⟩ <;> simp at h
  rfl

end V3

section data
variable (p : Point3 K) (r : Ray3 K) (s : Sphere K) (pl : Plane K) (b : RecBox K) (l : Line3 K) (t : TriPrism K)

@[simp] theorem vecAt_point : vecAt (Shape.point p).getShapeData 0 = .ok p.ori := congrArg Except.ok (V3.eta p.ori)
@[simp] theorem vecAt_ray0 : vecAt (Shape.ray r).getShapeData 0 = .ok r.ori := congrArg Except.ok (V3.eta r.ori)
@[simp] theorem vecAt_ray3 : vecAt (Shape.ray r).getShapeData 3 = .ok r.dir := congrArg Except.ok (V3.eta r.dir)
@[simp] theorem vecAt_sphere : vecAt (Shape.sphere s).getShapeData 0 = .ok s.ori := congrArg Except.ok (V3.eta s.ori)
@[simp] theorem sliceGet_sphere : sliceGet (Shape.sphere s).getShapeData 3 = .ok s.radius := rfl
@[simp] theorem vecAt_plane0 : vecAt (Shape.plane pl).getShapeData 0 = .ok pl.offset := congrArg Except.ok (V3.eta pl.offset)
@[simp] theorem vecAt_plane3 : vecAt (Shape.plane pl).getShapeData 3 = .ok pl.normal := congrArg Except.ok (V3.eta pl.normal)
@[simp] theorem vecAt_line0 : vecAt (Shape.line l).getShapeData 0 = .ok l.a := congrArg Except.ok (V3.eta l.a)
@[simp] theorem vecAt_line3 : vecAt (Shape.line l).getShapeData 3 = .ok l.b := congrArg Except.ok (V3.eta l.b)
@[simp] theorem sliceGet_point0 : sliceGet (Shape.point p).getShapeData 0 = .ok p.ori.val[0] := rfl
@[simp] theorem sliceGet_point1 : sliceGet (Shape.point p).getShapeData 1 = .ok p.ori.val[1] := rfl
@[simp] theorem sliceGet_point2 : sliceGet (Shape.point p).getShapeData 2 = .ok p.ori.val[2] := rfl

/-- the box stored in a shape -/
def Shape.aabb : Shape K → AABB (Fl K)
  | .point s => s.bound
  | .ray s => s.bound
  | .sphere s => s.bound
  | .plane s => s.bound
  | .box s => s.bound
  | .triPrism s => s.bound
  | .line s => s.bound

theorem Shape.getBound_eq (s : Shape K) : s.getBound = .aabb s.aabb := by cases s <;> rfl

end data

/-! ### exact values -/

section real
variable {a b : V3 ℝ} {u v : R3} {s : Fl ℝ} {r : ℝ}

theorem V3.isR_mk {x y z : Fl ℝ} {u : R3} (h0 : x.Is (u 0)) (h1 : y.Is (u 1)) (h2 : z.Is (u 2)) :
    (⟨#v[x, y, z]⟩ : V3 ℝ).IsR u := Mat3x1.isR_iff.mpr ⟨h0, h1, h2⟩

theorem V3.isR_sub (ha : a.IsR u) (hb : b.IsR v) : (V3.sub a b).IsR (u - v) := by
  obtain ⟨a0, a1, a2⟩ := Mat3x1.isR_iff.mp ha; obtain ⟨b0, b1, b2⟩ := Mat3x1.isR_iff.mp hb
  exact V3.isR_mk (a0.sub b0) (a1.sub b1) (a2.sub b2)

theorem V3.isR_add (ha : a.IsR u) (hb : b.IsR v) : (V3.add a b).IsR (u + v) := by
  obtain ⟨a0, a1, a2⟩ := Mat3x1.isR_iff.mp ha; obtain ⟨b0, b1, b2⟩ := Mat3x1.isR_iff.mp hb
  exact V3.isR_mk (a0.add b0) (a1.add b1) (a2.add b2)

theorem V3.isR_scl (ha : a.IsR u) (hs : s.Is r) : (V3.scl a s).IsR (r • u) := by
  obtain ⟨a0, a1, a2⟩ := Mat3x1.isR_iff.mp ha
  exact V3.isR_mk ((a0.mul hs).cast (mul_comm _ _)) ((a1.mul hs).cast (mul_comm _ _)) ((a2.mul hs).cast (mul_comm _ _))

theorem V3.isR_crs (ha : a.IsR u) (hb : b.IsR v) : (V3.crs a b).IsR (u ⨯₃ v) := by
  obtain ⟨a0, a1, a2⟩ := Mat3x1.isR_iff.mp ha; obtain ⟨b0, b1, b2⟩ := Mat3x1.isR_iff.mp hb
  rw [cross_apply]
  exact V3.isR_mk ((a1.mul b2).sub (a2.mul b1)) ((a2.mul b0).sub (a0.mul b2)) ((a0.mul b1).sub (a1.mul b0))

theorem V3.is_dotp (ha : a.IsR u) (hb : b.IsR v) : (V3.dotp a b).Is (u ⬝ᵥ v) := by
  obtain ⟨a0, a1, a2⟩ := Mat3x1.isR_iff.mp ha; obtain ⟨b0, b1, b2⟩ := Mat3x1.isR_iff.mp hb
  rw [dot3]; exact ((a0.mul b0).add (a1.mul b1)).add (a2.mul b2)

theorem V3.is_mag (ha : a.IsR u) : (V3.mag a).Is (euc u) := by
  obtain ⟨a0, a1, a2⟩ := Mat3x1.isR_iff.mp ha
  rw [euc_eq, Fin.sum_univ_three]
  exact ((a0.powi2.add a1.powi2).add a2.powi2).sqrt
    (by have := mul_self_nonneg (u 0); have := mul_self_nonneg (u 1); have := mul_self_nonneg (u 2); linarith)

theorem V3.isR_nrm (ha : a.IsR u) (hu : u ≠ 0) : (V3.nrm a).IsR ((euc u)⁻¹ • u) := by
  have hm := V3.is_mag ha
  have h0 : euc u ≠ 0 := fun h => hu ((euc_eq_zero _).mp h)
  obtain ⟨a0, a1, a2⟩ := Mat3x1.isR_iff.mp ha
  exact V3.isR_mk ((a0.div hm h0).cast (div_eq_inv_mul _ _)) ((a1.div hm h0).cast (div_eq_inv_mul _ _))
    ((a2.div hm h0).cast (div_eq_inv_mul _ _))

theorem V3.isR_zero : (Mat3x1.default : V3 ℝ).IsR 0 := V3.isR_mk Fl.is_zero Fl.is_zero Fl.is_zero

/-- the tolerance comparison in exact arithmetic -/
theorem withinVicinity_real {v a b : Fl ℝ} {ε x y : ℝ} (hv : v.Is ε) (ha : a.Is x) (hb : b.Is y) :
    withinVicinity v a b = decide (|x - y| ≤ ε) := by
  unfold withinVicinity
  rw [hb.le (ha.add hv), (ha.sub hv).le hb, ← Bool.decide_and, decide_eq_decide, abs_le]
  constructor <;> rintro ⟨h1, h2⟩ <;> constructor <;> linarith

theorem V3.eqv_real {ε : ℝ} (ha : a.IsR u) (hb : b.IsR v) (hs : s.Is ε) : V3.eqv a b s = true ↔ ∀ i, |u i - v i| ≤ ε := by
  obtain ⟨a0, a1, a2⟩ := Mat3x1.isR_iff.mp ha; obtain ⟨b0, b1, b2⟩ := Mat3x1.isR_iff.mp hb
  unfold V3.eqv
  rw [(b0.sub hs).le a0, a0.le (b0.add hs), (b1.sub hs).le a1, a1.le (b1.add hs), (b2.sub hs).le a2, a2.le (b2.add hs)]
  simp only [Bool.and_eq_true, decide_eq_true_eq, Fin.forall_fin_succ, Fin.succ_zero_eq_one, Fin.succ_one_eq_two,
    abs_le, IsEmpty.forall_iff, and_true]
  constructor
  · rintro ⟨⟨⟨⟨⟨h0, h1⟩, h2⟩, h3⟩, h4⟩, h5⟩
    refine ⟨⟨?_, ?_⟩, ⟨?_, ?_⟩, ?_, ?_⟩ <;> linarith
  · rintro ⟨⟨h0, h1⟩, ⟨h2, h3⟩, h4, h5⟩
    refine ⟨⟨⟨⟨⟨?_, ?_⟩, ?_⟩, ?_⟩, ?_⟩, ?_⟩ <;> linarith

/-! ### constructed shapes -/

theorem vecAt_list {l : List (Fl ℝ)} (h : ListR l u) (l' : List (Fl ℝ)) :
    ∃ a : V3 ℝ, vecAt (l ++ l') 0 = .ok a ∧ a.IsR u := by
  obtain ⟨x, y, z, rfl, h0, h1, h2⟩ := h
  exact ⟨⟨#v[x, y, z]⟩, rfl, V3.isR_mk h0 h1 h2⟩

theorem AABB.isR_mk {x0 x1 x2 y0 y1 y2 : Fl ℝ} {lo hi : R3} (h0 : x0.Is (lo 0)) (h1 : x1.Is (lo 1)) (h2 : x2.Is (lo 2))
    (k0 : y0.Is (hi 0)) (k1 : y1.Is (hi 1)) (k2 : y2.Is (hi 2)) :
    (⟨#v[x0, x1, x2], #v[y0, y1, y2]⟩ : AABB (Fl ℝ)).IsR lo hi := by
  intro i; fin_cases i
  · exact ⟨h0, k0⟩
  · exact ⟨h1, k1⟩
  · exact ⟨h2, k2⟩

theorem AABB.IsR.hasR {b : AABB (Fl ℝ)} {lo hi p : R3} (h : b.IsR lo hi) : b.HasR p ↔ ∀ i, lo i ≤ p i ∧ p i ≤ hi i := by
  refine forall_congr' fun i => ?_
  rw [(h i).1.le (Fl.is_fin _), (Fl.is_fin _).le (h i).2]
  simp

/-- two boxes with real corners overlap iff the intervals do -/
theorem AABB.IsR.overlap {a b : AABB (Fl ℝ)} {lo hi lo' hi' : R3} (h : a.IsR lo hi) (h' : b.IsR lo' hi') :
    AABB.overlap a b = true ↔ ∀ i, lo i ≤ hi' i ∧ lo' i ≤ hi i := by
  rw [AABB.overlap_iff]
  refine forall_congr' fun i => ?_
  rw [(h' i).2.lt (h i).1, (h i).2.lt (h' i).1]
  simp

theorem Point3.Made.facts {s : Point3 ℝ} {p : R3} (h : s.Made p) : s.ori.IsR p ∧ s.bound.IsR p p := by
  obtain ⟨l, s0, v, ⟨x, y, z, rfl, h0, h1, h2⟩, hi, rfl⟩ := h
  have hi : Except.ok _ = Except.ok s0 := hi
  injection hi with hi
  subst hi
  exact ⟨V3.isR_mk h0 h1 h2, AABB.isR_mk h0 h1 h2 h0 h1 h2⟩

theorem Sphere.Made.facts {s : Sphere ℝ} {c : R3} {r : ℝ} (h : s.Made c r) :
    s.ori.IsR c ∧ s.radius.Is r ∧ s.bound.IsR (fun i => c i - r) (fun i => c i + r) := by
  obtain ⟨l, x, s0, v, ⟨x0, x1, x2, rfl, h0, h1, h2⟩, hr, hi, rfl⟩ := h
  have hi : Except.ok _ = Except.ok s0 := hi
  injection hi with hi
  subst hi
  exact ⟨V3.isR_mk h0 h1 h2, hr, AABB.isR_mk (h0.sub hr) (h1.sub hr) (h2.sub hr) (h0.add hr) (h1.add hr) (h2.add hr)⟩

theorem RecBox.Made.facts {s : RecBox ℝ} {c : R3} {r : ℝ} (h : s.Made c r) :
    s.ori.IsR c ∧ s.size.Is r ∧ s.bound.IsR (fun i => c i - r) (fun i => c i + r) := by
  obtain ⟨l, x, s0, v, ⟨x0, x1, x2, rfl, h0, h1, h2⟩, hr, hi, rfl⟩ := h
  have hi : Except.ok _ = Except.ok s0 := hi
  injection hi with hi
  subst hi
  exact ⟨V3.isR_mk h0 h1 h2, hr, AABB.isR_mk (h0.sub hr) (h1.sub hr) (h2.sub hr) (h0.add hr) (h1.add hr) (h2.add hr)⟩

theorem rayBound_has {o d : Fl ℝ} {x y t : ℝ} (ho : o.Is x) (hd : d.Is y) (ht : 0 ≤ t) :
    Fl.le (AABB.rayBound o d).1 (.fin (x + t * y)) = true ∧ Fl.le (.fin (x + t * y)) (AABB.rayBound o d).2 = true := by
  unfold AABB.rayBound
  rw [Fl.is_zero.lt hd, hd.lt Fl.is_zero]
  rcases lt_trichotomy y 0 with h | h | h
  · rw [if_neg (by simp [h.le]), if_pos (by simp [h])]
    refine ⟨by simp [Fl.le, Fl.ninf], ?_⟩
    rw [(Fl.is_fin _).le ho]; simpa using mul_nonpos_of_nonneg_of_nonpos ht h.le
  · rw [if_neg (by simp [h]), if_neg (by simp [h]), ho.le (Fl.is_fin _), (Fl.is_fin _).le ho]; simp [h]
  · rw [if_pos (by simp [h])]
    refine ⟨?_, by simp [Fl.le, Fl.pinf]⟩
    rw [ho.le (Fl.is_fin _)]; simpa using mul_nonneg ht h.le

theorem Ray3.Made.facts {s : Ray3 ℝ} {o d : R3} (h : s.Made o d) :
    s.ori.IsR o ∧ s.dir.IsR ((euc d)⁻¹ • d) ∧ ∀ p ∈ rayPts o d, s.bound.HasR p := by
  obtain ⟨hd, l, l', s0, v, ⟨x0, x1, x2, rfl, h0, h1, h2⟩, ⟨y0, y1, y2, rfl, k0, k1, k2⟩, hi, rfl⟩ := h
  have hi : Except.ok _ = Except.ok s0 := hi
  injection hi with hi
  subst hi
  refine ⟨V3.isR_mk h0 h1 h2, V3.isR_nrm (V3.isR_mk k0 k1 k2) hd, ?_⟩
  rintro p ⟨t, ht, rfl⟩ i
  fin_cases i
  · exact rayBound_has h0 k0 ht
  · exact rayBound_has h1 k1 ht
  · exact rayBound_has h2 k2 ht

theorem Plane.Made.facts {s : Plane ℝ} {o n : R3} (h : s.Made o n) :
    s.offset.IsR o ∧ s.normal.IsR ((euc n)⁻¹ • n) ∧ s.bound = AABB.default := by
  obtain ⟨hd, l, l', s0, v, ⟨x0, x1, x2, rfl, h0, h1, h2⟩, ⟨y0, y1, y2, rfl, k0, k1, k2⟩, hi, rfl⟩ := h
  have hi : Except.ok _ = Except.ok s0 := hi
  injection hi with hi
  subst hi
  exact ⟨V3.isR_mk h0 h1 h2, V3.isR_nrm (V3.isR_mk k0 k1 k2) hd, rfl⟩

theorem AABB.default_hasR (p : R3) : (AABB.default : AABB (Fl ℝ)).HasR p := by
  intro i; fin_cases i <;> exact ⟨by simp [AABB.default, Fl.le, Fl.ninf], by simp [AABB.default, Fl.le, Fl.pinf]⟩

end real

end Mazth
