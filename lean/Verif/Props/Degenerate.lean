import Verif.Props.Dispatch

/-!
# C69, C70: degenerate shapes and NaN arguments

For every float format.  C69: shapes built from a zero direction, a zero normal or a triangle with a repeated vertex.
C70: NaN coordinates and radii.  The queries reject by comparisons of the form `x > y`, which are false on NaN, so most of
them answer `true`.
-/

set_option linter.unusedSectionVars false
set_option autoImplicit false

namespace Mazth

variable {K : Type} [Field K] [LinearOrder K] [IsStrictOrderedRing K] [Fmt K]

namespace NaN

/-! ### arithmetic with NaN -/

variable (x y : Fl K)

theorem nadd : (.nan : Fl K) + x = .nan := by cases x <;> rfl
theorem addn : x + (.nan : Fl K) = .nan := by cases x <;> rfl
theorem nsub : (.nan : Fl K) - x = .nan := by cases x <;> rfl
theorem subn : x - (.nan : Fl K) = .nan := by cases x <;> rfl
theorem nmul : (.nan : Fl K) * x = .nan := by cases x <;> rfl
theorem muln : x * (.nan : Fl K) = .nan := by cases x <;> rfl
theorem ndiv : (.nan : Fl K) / x = .nan := by cases x <;> rfl
theorem divn : x / (.nan : Fl K) = .nan := by cases x <;> rfl
theorem nneg : -(.nan : Fl K) = .nan := rfl
theorem nsqrt : Fl.sqrt (.nan : Fl K) = .nan := rfl
theorem nfeq : Fl.feq (.nan : Fl K) x = false := by cases x <;> rfl

/-- the vector with three NaN components -/
def vec : V3 K := ⟨#v[.nan, .nan, .nan]⟩

/-- some component is NaN -/
def Has (v : V3 K) : Prop := v.val[0] = .nan ∨ v.val[1] = .nan ∨ v.val[2] = .nan

theorem has_vec : Has (vec : V3 K) := .inl rfl

variable {u v : V3 K}

theorem dotp_left (h : Has u) : V3.dotp u v = .nan := by
  unfold V3.dotp
  rcases h with h | h | h <;> rw [h] <;> simp only [nmul, nadd, addn]
theorem dotp_right (h : Has v) : V3.dotp u v = .nan := by
  unfold V3.dotp
  rcases h with h | h | h <;> rw [h] <;> simp only [muln, nadd, addn]
theorem mag_eq (h : Has u) : V3.mag u = .nan := by
  unfold V3.mag Fl.powi2
  rcases h with h | h | h <;> rw [h] <;> simp only [nmul, nadd, addn, nsqrt]
theorem nrm_eq (h : Has u) : V3.nrm u = vec := by
  unfold V3.nrm
  rw [mag_eq h]; simp only [divn]; rfl
theorem sub_left (h : Has u) : Has (V3.sub u v) := by
  rcases h with h | h | h
  · exact .inl (show u.val[0] - v.val[0] = .nan by rw [h, nsub])
  · exact .inr (.inl (show u.val[1] - v.val[1] = .nan by rw [h, nsub]))
  · exact .inr (.inr (show u.val[2] - v.val[2] = .nan by rw [h, nsub]))
theorem sub_right (h : Has v) : Has (V3.sub u v) := by
  rcases h with h | h | h
  · exact .inl (show u.val[0] - v.val[0] = .nan by rw [h, subn])
  · exact .inr (.inl (show u.val[1] - v.val[1] = .nan by rw [h, subn]))
  · exact .inr (.inr (show u.val[2] - v.val[2] = .nan by rw [h, subn]))
theorem scl_nan (u : V3 K) : V3.scl u .nan = vec := by unfold V3.scl; simp only [muln]; rfl
theorem scl_vec (s : Fl K) : V3.scl vec s = vec := by unfold V3.scl vec; simp only [Vector.getElem_mk, List.getElem_toArray, List.getElem_cons_zero, List.getElem_cons_succ, nmul]
theorem add_vec (u : V3 K) : V3.add vec u = vec := by unfold V3.add vec; simp only [Vector.getElem_mk, List.getElem_toArray, List.getElem_cons_zero, List.getElem_cons_succ, nadd]
theorem vec_add (u : V3 K) : V3.add u vec = vec := by unfold V3.add vec; simp only [Vector.getElem_mk, List.getElem_toArray, List.getElem_cons_zero, List.getElem_cons_succ, addn]

/-- zero or NaN -/
def Zn (x : Fl K) : Prop := x = .nan ∨ x.val = some 0

theorem val_zero {x : Fl K} (h : x.val = some 0) : x = .fin 0 ∨ x = .nzero := by
  cases x with
  | nan => simp [Fl.val] at h
  | inf s => simp [Fl.val] at h
  | nzero => exact .inr rfl
  | fin v => simp [Fl.val] at h; exact .inl (by rw [h])

theorem sq_zero {x : Fl K} (h : x.val = some 0) : x * x = .fin 0 := by
  rcases val_zero h with rfl | rfl <;> show Fl.mul _ _ = _ <;> simp [Fl.mul, Fl.mulFin, Fl.zero]

theorem add_zero' : (.fin 0 + .fin 0 : Fl K) = .fin 0 := by show Fl.add _ _ = _; simp [Fl.add, Fl.addFin]

/-- normalising a vector all of whose components are zero or NaN gives NaN -/
theorem nrm_zn (h : Zn u.val[0] ∧ Zn u.val[1] ∧ Zn u.val[2]) : V3.nrm u = vec := by
  by_cases hn : Has u
  · exact nrm_eq hn
  · obtain ⟨h0, h1, h2⟩ := h
    simp only [Has, not_or] at hn
    have h0 := h0.resolve_left hn.1
    have h1 := h1.resolve_left hn.2.1
    have h2 := h2.resolve_left hn.2.2
    have hm : V3.mag u = .fin 0 := by
      unfold V3.mag Fl.powi2
      rw [sq_zero h0, sq_zero h1, sq_zero h2, add_zero', add_zero']
      simp [Fl.sqrt]
    have key {x : Fl K} (h : x.val = some 0) : x / (.fin 0 : Fl K) = .nan := by
      rcases val_zero h with rfl | rfl <;> show Fl.div _ _ = _ <;> simp [Fl.div, Fl.divFin]
    unfold V3.nrm
    rw [hm, key h0, key h1, key h2]; rfl

/-- a plane bound overlaps everything, NaN included -/
theorem overlap_all (b : AABB (Fl K)) : AABB.overlap b AABB.default = true := by
  rw [AABB.overlap_iff]
  have h1 (x : Fl K) : Fl.lt (.inf false) x = false := by cases x <;> simp [Fl.lt]
  have h2 (x : Fl K) : Fl.lt x (.inf true) = false := by cases x <;> simp [Fl.lt]
  intro i
  fin_cases i <;> exact ⟨h1 _, h2 _⟩

end NaN

open NaN

/-- a list of three numbers -/
theorem list3 {l : List (Fl K)} (h : l.length = 3) : ∃ x y z, l = [x, y, z] := by
  rcases l with _ | ⟨x, _ | ⟨y, _ | ⟨z, _ | _⟩⟩⟩ <;> simp at h
  exact ⟨x, y, z, rfl⟩

theorem plane_init_eq {l l' : List (Fl K)} {t : Plane K} (h : Plane.init l l' = .ok t) : ∃ x y z a b c, l = [x, y, z] ∧ l' = [a, b, c] ∧
    t.offset = ⟨#v[x, y, z]⟩ ∧ t.normal = V3.nrm ⟨#v[a, b, c]⟩ ∧ t.bound = AABB.default := by
  unfold Plane.init at h
  by_cases h1 : l.length = 3
  · by_cases h2 : l'.length = 3
    · obtain ⟨x, y, z, rfl⟩ := list3 h1
      obtain ⟨a, b, c, rfl⟩ := list3 h2
      obtain rfl := Except.ok.inj h
      exact ⟨x, y, z, a, b, c, rfl, rfl, rfl, rfl, rfl⟩
    · simp [h1, beq_false_of_ne h2] at h
  · simp [beq_false_of_ne h1] at h

theorem ray_init_eq {l l' : List (Fl K)} {t : Ray3 K} (h : Ray3.init l l' = .ok t) : ∃ x y z a b c, l = [x, y, z] ∧ l' = [a, b, c] ∧
    t.ori = ⟨#v[x, y, z]⟩ ∧ t.dir = V3.nrm ⟨#v[a, b, c]⟩ := by
  unfold Ray3.init at h
  by_cases h1 : l.length = 3
  · by_cases h2 : l'.length = 3
    · obtain ⟨x, y, z, rfl⟩ := list3 h1
      obtain ⟨a, b, c, rfl⟩ := list3 h2
      obtain rfl := Except.ok.inj h
      exact ⟨x, y, z, a, b, c, rfl, rfl, rfl, rfl⟩
    · simp [h1, beq_false_of_ne h2] at h
  · simp [beq_false_of_ne h1] at h

theorem rayPlane_nan {r : Ray3 K} {t : Plane K} (h : Has r.dir ∨ Has t.normal) :
    r.intersectPlane (Shape.plane t).getShapeData = .ok (true, some vec) := by
  unfold Ray3.intersectPlane
  have hd : V3.dotp t.normal r.dir = .nan := by
    rcases h with h | h
    · exact dotp_right h
    · exact dotp_left h
  simp only [vecAt_plane0, vecAt_plane3, Res.ok_bind, V3.dot_eq, V3.scale_eq, V3.plus_eq, unwrap_some, Res.pure_eq, hd, nfeq, divn,
    Fl.lt_nan_left, Fl.lt_nan_right, scl_nan, add_vec]
  rfl

theorem spherePlane_nan {s : Sphere K} {t : Plane K} (h : Has t.normal) :
    s.intersectPlane (Shape.plane t).getShapeData = .ok (true, some vec) := by
  unfold Sphere.intersectPlane
  simp only [vecAt_plane0, vecAt_plane3, Res.ok_bind, V3.dot_eq, V3.scale_eq, V3.plus_eq, unwrap_some, Res.pure_eq, dotp_left h, nsub,
    Fl.lt_nan_right, nneg, scl_nan, add_vec]
  rfl

theorem planePoint_nan {t : Plane K} {p : Point3 K} (h : Has t.normal ∨ Has p.ori) :
    t.intersectPoint (Shape.point p).getShapeData = .ok (false, none) := by
  unfold Plane.intersectPoint
  have hd : V3.dotp t.normal t.offset - V3.dotp t.normal p.ori = .nan := by
    rcases h with h | h
    · rw [dotp_left h, nsub]
    · rw [dotp_right h, subn]
  simp only [vecAt_point, Res.ok_bind, V3.dot_eq, unwrap_some, Res.pure_eq, hd]
  simp [withinVicinity, nadd, nsub]

theorem zero_normal {l l' : List (Fl K)} {t : Plane K} (ht : Plane.init l l' = .ok t) (h0 : ∀ x ∈ l', x.val = some 0) : t.normal = vec := by
  obtain ⟨x, y, z, a, b, c, rfl, rfl, -, hn, -⟩ := plane_init_eq ht
  rw [hn]
  exact nrm_zn ⟨.inr (h0 a (by simp)), .inr (h0 b (by simp)), .inr (h0 c (by simp))⟩

theorem zero_direction {l l' : List (Fl K)} {t : Ray3 K} (ht : Ray3.init l l' = .ok t) (h0 : ∀ x ∈ l', x.val = some 0) : t.dir = vec := by
  obtain ⟨x, y, z, a, b, c, rfl, rfl, -, hn⟩ := ray_init_eq ht
  rw [hn]
  exact nrm_zn ⟨.inr (h0 a (by simp)), .inr (h0 b (by simp)), .inr (h0 c (by simp))⟩

/-! ## C69 -/

/-- C69: a plane built from a zero normal is reported as hit by *every* ray and *every* sphere, at a NaN location, and as
containing no point at all. -/
theorem C69_zero_normal {l l' : List (Fl K)} {t : Plane K} (ht : Plane.init l l' = .ok t) (h0 : ∀ x ∈ l', x.val = some 0) (n : ℕ) :
    (∀ r : Ray3 K, Shape.getIntersect (n + 2) (.ray r) (.plane t) = .ok (true, some ⟨#v[.nan, .nan, .nan]⟩)) ∧
    (∀ s : Sphere K, Shape.getIntersect (n + 2) (.sphere s) (.plane t) = .ok (true, some ⟨#v[.nan, .nan, .nan]⟩)) ∧
    (∀ p : Point3 K, Shape.getIntersect (n + 2) (.point p) (.plane t) = .ok (false, none)) := by
  have hn : Has t.normal := zero_normal ht h0 ▸ has_vec
  obtain ⟨-, -, -, -, -, -, -, -, -, -, hb⟩ := plane_init_eq ht
  refine ⟨fun r => ?_, fun s => ?_, fun p => ?_⟩ <;> rw [getIntersect_eq] <;>
    simp only [Shape.aabb, hb, overlap_all, if_true, core]
  · exact rayPlane_nan (.inr hn)
  · exact spherePlane_nan hn
  · exact planePoint_nan (.inl hn)

/-- concrete case: the normal `(0, -0, 0)` -/
example := C69_zero_normal (K := Q64) (l := [1, .fin 2, .fin 3]) (l' := [0, .nzero, 0]) rfl (by decide +kernel) 0

/-- C69: a ray built from a zero direction is reported as hitting every plane and every sphere whose bound overlaps the
ray's (that is, contains its origin), at a NaN location, and as meeting no point and no ray. -/
theorem C69_zero_direction {l l' : List (Fl K)} {r : Ray3 K} (hr : Ray3.init l l' = .ok r) (h0 : ∀ x ∈ l', x.val = some 0) (n : ℕ) :
    (∀ (k k' : List (Fl K)) (t : Plane K), Plane.init k k' = .ok t →
      Shape.getIntersect (n + 2) (.ray r) (.plane t) = .ok (true, some ⟨#v[.nan, .nan, .nan]⟩)) ∧
    (∀ s : Sphere K, (Shape.ray r).getBound.intersect (Shape.sphere s).getBound = .ok true →
      Shape.getIntersect (n + 2) (.ray r) (.sphere s) = .ok (true, some ⟨#v[.nan, .nan, .nan]⟩)) ∧
    (∀ p : Point3 K, Shape.getIntersect (n + 2) (.ray r) (.point p) = .ok (false, none)) ∧
    (∀ q : Ray3 K, Shape.getIntersect (n + 2) (.ray r) (.ray q) = .ok (false, none)) := by
  have hd := zero_direction hr h0
  have hn : Has r.dir := hd ▸ has_vec
  refine ⟨fun k k' t ht => ?_, fun s hs => ?_, fun p => ?_, fun q => ?_⟩ <;> rw [getIntersect_eq]
  · obtain ⟨-, -, -, -, -, -, -, -, -, -, hb⟩ := plane_init_eq ht
    simp only [Shape.aabb, hb, overlap_all, if_true, core]
    exact rayPlane_nan (.inl hn)
  · rw [Shape.getBound_eq, Shape.getBound_eq, AABB.intersect_eq] at hs
    rw [if_pos (Except.ok.inj hs)]
    simp only [core]
    unfold Ray3.intersectSphere
    simp only [vecAt_sphere, sliceGet_sphere, Res.ok_bind, V3.minus_eq, V3.dot_eq, V3.scale_eq, V3.plus_eq, unwrap_some, Res.pure_eq,
      dotp_right hn, nmul, nsub, nneg, nadd, nsqrt, Fl.lt_nan_left, Fl.lt_nan_right, Bool.false_and, Bool.false_eq_true, if_false,
      scl_nan, add_vec]
    rfl
  · split
    · simp only [core]
      unfold Ray3.intersectPoint
      simp only [vecAt_point, Res.ok_bind, V3.minus_eq, V3.div_eq, unwrap_some, Res.pure_eq]
      have : (V3.dv (V3.sub p.ori r.ori) r.dir).val[0] = .nan := by rw [hd]; exact divn _
      rw [this]
      simp [withinVicinity, nadd, nsub]
    · rfl
  · split
    · simp only [core]
      unfold Ray3.intersectRay
      have : V3.dotp (V3.crs r.dir q.dir) (V3.sub q.dir r.dir) = .nan := dotp_right (sub_right hn)
      simp only [vecAt_ray0, vecAt_ray3, Res.ok_bind, V3.minus_eq, V3.cross_eq, V3.dot_eq, unwrap_some, Res.pure_eq, this]
      simp [withinVicinity, nadd, nsub]
    · rfl

/-- concrete case: the direction `(0, -0, 0)` -/
example := C69_zero_direction (K := Q64) (l := [1, .fin 2, .fin 3]) (l' := [0, .nzero, 0]) rfl (by decide +kernel) 0

/-! ### prisms -/

theorem finite_sub_self {x : Fl K} (h : x.Finite) : x - x = .fin 0 := by
  cases x with
  | nan => exact absurd rfl h.ne_nan
  | inf s => exact absurd rfl (h.ne_inf s)
  | nzero => rw [Fl.sub_eq]; show Fl.add _ (Fl.neg _) = _; simp [Fl.add, Fl.neg, Fl.addFin]
  | fin v =>
    rw [Fl.sub_eq]; show Fl.add _ (Fl.neg _) = _
    by_cases h0 : v = 0
    · subst h0; simp [Fl.add, Fl.neg, Fl.addFin]
    · simp [Fl.add, Fl.neg, Fl.addFin, h0]

theorem zero_mul_zn (y : Fl K) : Zn ((.fin 0 : Fl K) * y) := by
  cases y with
  | nan => exact .inl rfl
  | inf s => left; show Fl.mul _ _ = _; simp [Fl.mul, Fl.mulInf]
  | nzero => right; show (Fl.mul _ _).val = _; simp [Fl.mul, Fl.mulFin, Fl.zero, Fl.val]
  | fin v => right; show (Fl.mul _ _).val = _; simp only [Fl.mul, Fl.mulFin, zero_mul, if_true, Fl.zero]; split <;> rfl

theorem zn_sub {x y : Fl K} (hx : Zn x) (hy : Zn y) : Zn (x - y) := by
  rcases hx with rfl | hx
  · exact .inl (nsub _)
  rcases hy with rfl | hy
  · exact .inl (subn _)
  right
  rw [Fl.sub_eq]
  show (Fl.add _ (Fl.neg _)).val = _
  rcases val_zero hx with rfl | rfl <;> rcases val_zero hy with rfl | rfl <;> simp [Fl.add, Fl.neg, Fl.addFin, Fl.val]

/-- the normal of a triangle with a repeated vertex is NaN -/
theorem nrm_flat {a b c : Fl K} (ha : a.Finite) (hb : b.Finite) (hc : c.Finite) (d : V3 K) :
    V3.nrm (V3.crs (V3.sub ⟨#v[a, b, c]⟩ ⟨#v[a, b, c]⟩) d) = vec := by
  have h : V3.sub ⟨#v[a, b, c]⟩ ⟨#v[a, b, c]⟩ = (⟨#v[.fin 0, .fin 0, .fin 0]⟩ : V3 K) := by
    show (⟨#v[a - a, b - b, c - c]⟩ : V3 K) = _
    rw [finite_sub_self ha, finite_sub_self hb, finite_sub_self hc]
  rw [h]
  exact nrm_zn ⟨zn_sub (zero_mul_zn _) (zero_mul_zn _), zn_sub (zero_mul_zn _) (zero_mul_zn _), zn_sub (zero_mul_zn _) (zero_mul_zn _)⟩

theorem crs_vec (u : V3 K) : Has (V3.crs u vec) := by
  left
  show u.val[1] * (.nan : Fl K) - u.val[2] * (.nan : Fl K) = _
  rw [muln, nsub]

theorem cmp_nan (x : Fl K) : cmpOrEqual x .nan = .eq := by simp [cmpOrEqual, Fl.partialCmp, Fl.feq]

theorem minOf_nan (a x : Fl K) : minOf [a, a, x, .nan, .nan, .nan] = .ok (if cmpOrEqual a x = .gt then x else a) := by
  show Except.ok _ = _
  simp only [List.foldl, cmp_nan]
  have : cmpOrEqual a a ≠ .gt := by
    by_cases h : a = .nan
    · subst h; rw [cmp_nan]; simp
    · rw [Ne, cmpOrEqual_gt h h, Fl.le_refl h]; simp
  simp [this]

theorem maxOf_nan (a x : Fl K) : maxOf [a, a, x, .nan, .nan, .nan] = .ok .nan := by
  show Except.ok _ = _
  simp only [List.foldl, cmp_nan]
  simp

/-- below the smaller of two numbers -/
theorem lt_min (p : Fl K) {a x : Fl K} (ha : a ≠ .nan) (hx : x ≠ .nan) :
    Fl.lt p (if cmpOrEqual a x = .gt then x else a) = (Fl.lt p a && Fl.lt p x) := by
  by_cases hp : p = .nan
  · subst hp; simp
  have h := cmpOrEqual_gt ha hx
  by_cases hc : Fl.le a x = true
  · rw [if_neg (by rw [h, hc]; simp)]
    cases h1 : Fl.lt p a with
    | false => rfl
    | true =>
      rw [Fl.lt_eq_not_le hp ha] at h1
      rw [Fl.lt_eq_not_le hp hx, Bool.true_and, eq_comm, Bool.not_eq_true']
      by_contra h2
      rw [Bool.not_eq_false] at h2
      simp [Fl.le_trans hc h2] at h1
  · rw [Bool.not_eq_true] at hc
    rw [if_pos (h.mpr hc)]
    cases h1 : Fl.lt p x with
    | false => simp
    | true =>
      rw [Fl.lt_eq_not_le hp hx] at h1
      rw [Fl.lt_eq_not_le hp ha, Bool.and_true, eq_comm, Bool.not_eq_true']
      by_contra h2
      rw [Bool.not_eq_false] at h2
      have h3 : Fl.le x a = true := (Fl.le_total ha hx).resolve_left (by rw [hc]; simp)
      simp [Fl.le_trans h3 h2] at h1

/-- what the constructor makes of a triangle with a repeated vertex -/
theorem flat_prism {a b c x y z h : Fl K} (ha : a.Finite) (hb : b.Finite) (hc : c.Finite) {s : TriPrism K}
    (hs : TriPrism.init [a, b, c, a, b, c, x, y, z] h = .ok s) : s.normalHeight = vec ∧
    s.bound = ⟨#v[if cmpOrEqual a x = .gt then x else a, if cmpOrEqual b y = .gt then y else b, if cmpOrEqual c z = .gt then z else c],
      #v[.nan, .nan, .nan]⟩ := by
  obtain ⟨n, hn⟩ : ∃ n, V3.scl (V3.nrm (V3.crs (V3.sub ⟨#v[a, b, c]⟩ ⟨#v[a, b, c]⟩) (V3.sub ⟨#v[x, y, z]⟩ ⟨#v[a, b, c]⟩))) h = n :=
    ⟨_, rfl⟩
  obtain ⟨a', hA⟩ : ∃ a', V3.add ⟨#v[a, b, c]⟩ n = a' := ⟨_, rfl⟩
  obtain ⟨c', hC⟩ : ∃ c', V3.add ⟨#v[x, y, z]⟩ n = c' := ⟨_, rfl⟩
  have hi : (minOf [a, a, x, a'.val[0], a'.val[0], c'.val[0]] >>= fun xMin =>
      maxOf [a, a, x, a'.val[0], a'.val[0], c'.val[0]] >>= fun xMax =>
      minOf [b, b, y, a'.val[1], a'.val[1], c'.val[1]] >>= fun yMin =>
      maxOf [b, b, y, a'.val[1], a'.val[1], c'.val[1]] >>= fun yMax =>
      minOf [c, c, z, a'.val[2], a'.val[2], c'.val[2]] >>= fun zMin =>
      maxOf [c, c, z, a'.val[2], a'.val[2], c'.val[2]] >>= fun zMax =>
      Except.ok (⟨#v[⟨#v[a, b, c]⟩, ⟨#v[a, b, c]⟩, ⟨#v[x, y, z]⟩], #v[a', a', c'], n,
        ⟨#v[xMin, yMin, zMin], #v[xMax, yMax, zMax]⟩, defaultVicinity⟩ : TriPrism K)) =
      Except.ok s := by
    rw [← hs, ← hA, ← hC, ← hn]; rfl
  clear hs
  rw [nrm_flat ha hb hc, scl_vec] at hn
  subst hn
  rw [vec_add] at hA hC
  subst hA hC
  have e (i : ℕ) (hi : i < 3) : (vec : V3 K).val[i] = .nan := by
    rcases i with _ | _ | _ | i
    · rfl
    · rfl
    · rfl
    · omega
  rw [e 0 (by omega), e 1 (by omega), e 2 (by omega), minOf_nan, minOf_nan, minOf_nan, maxOf_nan, maxOf_nan, maxOf_nan] at hi
  simp only [Res.ok_bind] at hi
  injection hi with hi
  subst hi
  exact ⟨rfl, rfl⟩

/-- the inside test of a prism with a NaN height vector accepts everything -/
theorem inside_nan {s : TriPrism K} (h : s.normalHeight = vec) (p : V3 K) : s.inside p = true := by
  unfold TriPrism.inside TriPrism.testsP
  rw [h]
  simp [scl_vec, dotp_right has_vec, dotp_right (crs_vec _)]

/-- C69: a prism over a triangle with a repeated vertex (any format, any height) is reported as containing exactly the
points none of whose coordinates lies below the triangle: an unbounded octant. -/
theorem C69_flat_prism {a b c x y z h : Fl K} (ha : a.Finite) (hb : b.Finite) (hc : c.Finite) (hx : x ≠ .nan) (hy : y ≠ .nan)
    (hz : z ≠ .nan) {s : TriPrism K} (hs : TriPrism.init [a, b, c, a, b, c, x, y, z] h = .ok s) {p0 p1 p2 : Fl K} {p : Point3 K}
    (hp : Point3.init [p0, p1, p2] = .ok p) (n : ℕ) :
    Shape.getIntersect (n + 2) (.triPrism s) (.point p) = .ok (
      if (Fl.lt p0 a && Fl.lt p0 x) || (Fl.lt p1 b && Fl.lt p1 y) || (Fl.lt p2 c && Fl.lt p2 z) then (false, none)
      else (true, some ⟨#v[p0, p1, p2]⟩)) := by
  obtain ⟨hn, hB⟩ := flat_prism ha hb hc hs
  obtain rfl := Except.ok.inj hp
  rw [getIntersect_eq]
  have ho : AABB.overlap (Shape.triPrism s).aabb (Shape.point ⟨⟨#v[p0, p1, p2]⟩, ⟨#v[p0, p1, p2], #v[p0, p1, p2]⟩, defaultVicinity⟩).aabb =
      !((Fl.lt p0 a && Fl.lt p0 x) || (Fl.lt p1 b && Fl.lt p1 y) || (Fl.lt p2 c && Fl.lt p2 z)) := by
    rw [← lt_min p0 ha.ne_nan hx, ← lt_min p1 hb.ne_nan hy, ← lt_min p2 hc.ne_nan hz, Bool.eq_iff_iff, AABB.overlap_iff]
    simp only [Shape.aabb, hB]
    simp [Fin.forall_fin_succ, and_assoc]
  change (if AABB.overlap (Shape.triPrism s).aabb (Shape.point ⟨⟨#v[p0, p1, p2]⟩, ⟨#v[p0, p1, p2], #v[p0, p1, p2]⟩, defaultVicinity⟩).aabb = true
    then _ else _) = _
  rw [ho]
  simp only [core, prismPoint_eq, inside_nan hn]
  cases (Fl.lt p0 a && Fl.lt p0 x) || (Fl.lt p1 b && Fl.lt p1 y) || (Fl.lt p2 c && Fl.lt p2 z) <;> rfl

/-- concrete case: the base is the segment from `(1, 2, 3)` to `(7, 8, 9)`, the point is far away from it -/
example := C69_flat_prism (K := Q64) (a := 1) (b := .fin 2) (c := .fin 3) (x := .fin 7) (y := .fin 8) (z := .fin 9) (h := 1)
  ⟨_, rfl⟩ ⟨_, rfl⟩ ⟨_, rfl⟩ (by decide) (by decide) (by decide) rfl (p0 := .fin 100) (p1 := .fin 200) (p2 := .fin 300) rfl 0

/-- C69: … and as meeting every segment whose bound overlaps the prism's, at the first end. -/
theorem C69_flat_prism_line {a b c x y z h : Fl K} (ha : a.Finite) (hb : b.Finite) (hc : c.Finite) {s : TriPrism K}
    (hs : TriPrism.init [a, b, c, a, b, c, x, y, z] h = .ok s) (t : Line3 K)
    (ho : (Shape.triPrism s).getBound.intersect (Shape.line t).getBound = .ok true) (n : ℕ) :
    Shape.getIntersect (n + 2) (.triPrism s) (.line t) = .ok (true, some t.a) := by
  obtain ⟨hn, -⟩ := flat_prism ha hb hc hs
  rw [Shape.getBound_eq, Shape.getBound_eq, AABB.intersect_eq] at ho
  rw [getIntersect_eq, if_pos (Except.ok.inj ho)]
  simp only [core]
  unfold TriPrism.intersectLine
  have hi (p : V3 K) : (s.testsP.all fun vn => !Fl.lt 0 (V3.dotp (V3.sub p vn.1) vn.2)) = true := inside_nan hn p
  simp only [vecAt_line0, vecAt_line3, Res.ok_bind, TriPrism.tests_eq, allInside_ok, hi, Res.pure_eq, if_true]

/-- concrete case: a segment whose box overlaps that of the base -/
example (s : TriPrism Q64) (t : Line3 Q64) (hs : TriPrism.init [1, .fin 2, .fin 3, 1, .fin 2, .fin 3, .fin 7, .fin 8, .fin 9] 1 = .ok s)
    (ht : Line3.init [1, .fin 8, .fin 8] [.fin 9, .fin 7, .fin 7] = .ok t) :
    Shape.getIntersect 2 (.triPrism s) (.line t) = .ok (true, some t.a) :=
  C69_flat_prism_line (a := 1) (b := .fin 2) (c := .fin 3) ⟨_, (rfl : Fl.val (1 : Fl Q64) = some 1)⟩ ⟨_, rfl⟩ ⟨_, rfl⟩ hs t (by cases hs; cases ht; decide +kernel) 0

theorem all_overlap (b : AABB (Fl K)) : AABB.overlap AABB.default b = true := by
  rw [AABB.overlap_iff]
  have h1 (x : Fl K) : Fl.lt x (.inf true) = false := by cases x <;> simp [Fl.lt]
  have h2 (x : Fl K) : Fl.lt (.inf false) x = false := by cases x <;> simp [Fl.lt]
  intro i
  fin_cases i <;> exact ⟨h1 _, h2 _⟩

theorem zn_mul_zero (x : Fl K) {y : Fl K} (hy : y.val = some 0) : Zn (x * y) := by
  rcases val_zero hy with rfl | rfl <;> cases x with
  | nan => exact .inl rfl
  | inf s => left; show Fl.mul _ _ = _; simp [Fl.mul, Fl.mulInf]
  | nzero => right; show (Fl.mul _ _).val = _; simp [Fl.mul, Fl.mulFin, Fl.zero, Fl.val]
  | fin v => right; show (Fl.mul _ _).val = _; simp only [Fl.mul, Fl.mulFin, mul_zero, if_true, Fl.zero]; split <;> rfl

theorem zn_add {x y : Fl K} (hx : Zn x) (hy : Zn y) : Zn (x + y) := by
  rcases hx with rfl | hx
  · exact .inl (nadd _)
  rcases hy with rfl | hy
  · exact .inl (addn _)
  right
  show (Fl.add _ _).val = _
  rcases val_zero hx with rfl | rfl <;> rcases val_zero hy with rfl | rfl <;> simp [Fl.add, Fl.addFin, Fl.val]

theorem zn_lt {x : Fl K} (h : Zn x) : Fl.lt 0 x = false := by
  rcases h with rfl | h
  · rfl
  · rcases val_zero h with rfl | rfl <;> simp [Fl.lt]

theorem inside_default (p : V3 K) : (TriPrism.default : TriPrism K).inside p = true := by
  have key {a b c : Fl K} (ha : a.val = some 0) (hb : b.val = some 0) (hc : c.val = some 0) (q : V3 K) :
      Fl.lt 0 (V3.dotp q ⟨#v[a, b, c]⟩) = false :=
    zn_lt (zn_add (zn_add (zn_mul_zero _ ha) (zn_mul_zero _ hb)) (zn_mul_zero _ hc))
  have h0 : ((0 : Fl K)).val = some 0 := rfl
  have h1 : ((0 : Fl K) * -1).val = some 0 := by
    show (Fl.mul (.fin 0) (Fl.neg (.fin 1))).val = _
    simp [Fl.neg, Fl.mul, Fl.mulFin, Fl.zero, Fl.val]
  have h2 : (((0 : Fl K) - 0) * 0 - (0 - 0) * 0).val = some 0 := by
    have e : ((0 : Fl K) - 0) = .fin 0 := by rw [Fl.sub_eq]; show Fl.add (.fin 0) (Fl.neg (.fin 0)) = _; simp [Fl.neg, Fl.add, Fl.addFin]
    have e' : ((.fin 0 : Fl K) * 0) = .fin 0 := by show Fl.mul (.fin 0) (.fin 0) = _; simp [Fl.mul, Fl.mulFin, Fl.zero]
    rw [e, e']; exact congrArg Fl.val e
  unfold TriPrism.inside
  rw [List.all_eq_true]
  intro x hx
  rw [Bool.not_eq_true']
  simp only [TriPrism.testsP, List.mem_cons, List.not_mem_nil, or_false] at hx
  rcases hx with rfl | rfl | rfl | rfl | rfl
  · exact key h1 h1 h1 _
  · exact key h0 h0 h0 _
  · exact key h2 h2 h2 _
  · exact key h2 h2 h2 _
  · exact key h2 h2 h2 _

/-- C69: the default prism, all of whose vertices are the origin, has tolerance zero and the bound of all space.  It is
reported as containing every point (NaN and infinite ones included) and as meeting every segment, at its first end. -/
theorem C69_default_prism (p : Point3 K) (t : Line3 K) (n : ℕ) :
    (Shape.triPrism (TriPrism.default : TriPrism K)).getShapeData = List.replicate 12 0 ∧
    (Shape.triPrism (TriPrism.default : TriPrism K)).vicinity = 0 ∧
    (Shape.triPrism (TriPrism.default : TriPrism K)).getBound = .aabb ⟨#v[.inf true, .inf true, .inf true], #v[.inf false, .inf false, .inf false]⟩ ∧
    Shape.getIntersect (n + 2) (.triPrism TriPrism.default) (.point p) = .ok (true, some p.ori) ∧
    Shape.getIntersect (n + 2) (.point p) (.triPrism TriPrism.default) = .ok (true, some p.ori) ∧
    Shape.getIntersect (n + 2) (.triPrism TriPrism.default) (.line t) = .ok (true, some t.a) ∧
    Shape.getIntersect (n + 2) (.line t) (.triPrism TriPrism.default) = .ok (true, some t.a) := by
  have hi (p : V3 K) : ((TriPrism.default : TriPrism K).testsP.all fun vn => !Fl.lt 0 (V3.dotp (V3.sub p vn.1) vn.2)) = true := inside_default p
  have hl : (TriPrism.default : TriPrism K).intersectLine (Shape.line t).getShapeData = .ok (true, some t.a) := by
    unfold TriPrism.intersectLine
    simp only [vecAt_line0, vecAt_line3, Res.ok_bind, TriPrism.tests_eq, allInside_ok, hi, Res.pure_eq, if_true]
  refine ⟨rfl, rfl, rfl, ?_, ?_, ?_, ?_⟩ <;> rw [getIntersect_eq]
  · refine (if_pos (all_overlap _)).trans ?_; simp only [core, prismPoint_eq, inside_default]; rfl
  · refine (if_pos (overlap_all _)).trans ?_; simp only [core, prismPoint_eq, inside_default]; rfl
  · exact (if_pos (all_overlap _)).trans hl
  · exact (if_pos (overlap_all _)).trans hl

/-- concrete case: a point at NaN and an infinite segment -/
example := C69_default_prism (K := Q64) ⟨⟨#v[.nan, 1, .inf true]⟩, AABB.default, 0⟩ ⟨⟨#v[1, 1, 1]⟩, ⟨#v[.inf true, 1, 1]⟩, AABB.default, 0⟩ 0

/-- C69, witnesses in binary64: the point (1000, 2000, 3000) is "inside" the prism over (0,0,0), (0,0,0), (1,1,1) of height 1,
and the plane with zero normal through the origin is "hit" by the ray from (5,5,5) along (1,0,0). -/
theorem C69_f64_witness : ∃ (s : TriPrism Q64) (p : Point3 Q64) (t : Plane Q64) (r : Ray3 Q64),
    TriPrism.init [0, 0, 0, 0, 0, 0, 1, 1, 1] 1 = .ok s ∧ Point3.init [.fin 1000, .fin 2000, .fin 3000] = .ok p ∧
    Plane.init [0, 0, 0] [0, 0, 0] = .ok t ∧ Ray3.init [.fin 5, .fin 5, .fin 5] [1, 0, 0] = .ok r ∧
    Shape.getIntersect 2 (.triPrism s) (.point p) = .ok (true, some ⟨#v[.fin 1000, .fin 2000, .fin 3000]⟩) ∧
    Shape.getIntersect 2 (.ray r) (.plane t) = .ok (true, some ⟨#v[.nan, .nan, .nan]⟩) :=
  ⟨_, _, _, _, rfl, rfl, rfl, rfl, by decide +kernel, by decide +kernel⟩

/-! ## C70 -/

theorem sphere_init_eq {l : List (Fl K)} {r : Fl K} {t : Sphere K} (h : Sphere.init l r = .ok t) : ∃ x y z, l = [x, y, z] ∧
    t.ori = ⟨#v[x, y, z]⟩ ∧ t.radius = r ∧ t.bound = ⟨#v[x - r, y - r, z - r], #v[x + r, y + r, z + r]⟩ := by
  unfold Sphere.init at h
  by_cases h1 : l.length = 3
  · obtain ⟨x, y, z, rfl⟩ := list3 h1
    obtain rfl := Except.ok.inj h
    exact ⟨x, y, z, rfl, rfl, rfl, rfl⟩
  · simp [beq_false_of_ne h1] at h

theorem point_init_eq {l : List (Fl K)} {t : Point3 K} (h : Point3.init l = .ok t) : ∃ x y z, l = [x, y, z] ∧
    t.ori = ⟨#v[x, y, z]⟩ ∧ t.bound = ⟨#v[x, y, z], #v[x, y, z]⟩ := by
  unfold Point3.init at h
  by_cases h1 : l.length = 3
  · obtain ⟨x, y, z, rfl⟩ := list3 h1
    obtain rfl := Except.ok.inj h
    exact ⟨x, y, z, rfl, rfl, rfl⟩
  · simp [beq_false_of_ne h1] at h

/-- a bound with only NaN overlaps everything -/
theorem overlap_nan (b : AABB (Fl K)) : AABB.overlap ⟨#v[.nan, .nan, .nan], #v[.nan, .nan, .nan]⟩ b = true := by
  rw [AABB.overlap_iff]
  intro i
  fin_cases i <;> exact ⟨Fl.lt_nan_right, Fl.lt_nan_left⟩

/-- C70: the bound test ignores every axis on which one of the boxes has NaN bounds. -/
theorem C70_bound (a b : AABB (Fl K)) :
    (IBound.aabb a).intersect (.aabb b) = .ok true ↔
      ∀ i : Fin 3, (a.lower[i] = .nan ∨ b.upper[i] = .nan ∨ Fl.le a.lower[i] b.upper[i] = true) ∧
        (b.lower[i] = .nan ∨ a.upper[i] = .nan ∨ Fl.le b.lower[i] a.upper[i] = true) := by
  rw [AABB.intersect_eq, Except.ok.injEq, AABB.overlap_iff]
  have key (x y : Fl K) : Fl.lt x y = false ↔ y = .nan ∨ x = .nan ∨ Fl.le y x = true := by
    by_cases hx : x = .nan
    · subst hx; simp
    by_cases hy : y = .nan
    · subst hy; simp
    rw [Fl.lt_eq_not_le hx hy]; simp [hx, hy]
  refine forall_congr' fun i => ?_
  rw [key, key]

/-- concrete case: a NaN corner overlaps everything in that coordinate -/
example : (IBound.aabb (⟨#v[.nan, 0, 0], #v[.nan, 1, 1]⟩ : AABB (Fl Q64))).intersect (.aabb ⟨#v[.fin 50, 0, 0], #v[.fin 60, 1, 1]⟩) = .ok true :=
  (C70_bound ⟨#v[.nan, 0, 0], #v[.nan, 1, 1]⟩ ⟨#v[.fin 50, 0, 0], #v[.fin 60, 1, 1]⟩).mpr fun i => by
    fin_cases i <;> decide +kernel

/-- C70: a sphere with NaN radius or a NaN centre is reported as intersecting every sphere and every ray, at a NaN location;
with a NaN radius also every point and every plane. -/
theorem C70_nan_sphere {l : List (Fl K)} {r : Fl K} {s : Sphere K} (hs : Sphere.init l r = .ok s)
    (h : r = .nan ∨ ∀ x ∈ l, x = Fl.nan) (n : ℕ) :
    (∀ t : Sphere K, Shape.getIntersect (n + 2) (.sphere s) (.sphere t) = .ok (true, some ⟨#v[.nan, .nan, .nan]⟩) ∧
      Shape.getIntersect (n + 2) (.sphere t) (.sphere s) = .ok (true, some ⟨#v[.nan, .nan, .nan]⟩)) ∧
    (∀ t : Ray3 K, Shape.getIntersect (n + 2) (.ray t) (.sphere s) = .ok (true, some ⟨#v[.nan, .nan, .nan]⟩)) ∧
    (r = .nan → (∀ p : Point3 K, Shape.getIntersect (n + 2) (.sphere s) (.point p) = .ok (true, some p.ori)) ∧
      ∀ t : Plane K, ∃ q, Shape.getIntersect (n + 2) (.sphere s) (.plane t) = .ok (true, some q)) := by
  obtain ⟨x, y, z, rfl, ho, hr, hb⟩ := sphere_init_eq hs
  have hb : s.bound = ⟨#v[.nan, .nan, .nan], #v[.nan, .nan, .nan]⟩ := by
    rw [hb]
    rcases h with rfl | h
    · simp only [subn, addn]
    · simp only [h x (by simp), h y (by simp), h z (by simp), nsub, nadd]
  have hall (u : AABB (Fl K)) : AABB.overlap s.bound u = true := by rw [hb]; exact overlap_nan u
  have hall' (u : AABB (Fl K)) : AABB.overlap u s.bound = true := by rw [AABB.overlap_comm]; exact hall u
  have hv : r = .nan ∨ s.ori = vec := by
    rcases h with h | h
    · exact .inl h
    · right; rw [ho, h x (by simp), h y (by simp), h z (by simp)]; rfl
  refine ⟨fun t => ⟨?_, ?_⟩, fun t => ?_, fun hn => ⟨fun p => ?_, fun t => ?_⟩⟩ <;> rw [getIntersect_eq] <;>
    simp only [Shape.aabb, hall, hall', if_true, core]
  · unfold Sphere.intersectSphere
    simp only [vecAt_sphere, sliceGet_sphere, Res.ok_bind, V3.minus_eq, V3.magnitude_eq, V3.scale_eq, V3.plus_eq, unwrap_some, Res.pure_eq, hr]
    rcases hv with rfl | hv
    · simp only [nadd, addn, divn, scl_nan, vec_add, Fl.lt_nan_left]; rfl
    · rw [mag_eq (sub_right (hv ▸ has_vec)), hv]
      simp only [Fl.lt_nan_right, add_vec]; rfl
  · unfold Sphere.intersectSphere
    simp only [vecAt_sphere, sliceGet_sphere, Res.ok_bind, V3.minus_eq, V3.magnitude_eq, V3.scale_eq, V3.plus_eq, unwrap_some, Res.pure_eq, hr]
    rcases hv with rfl | hv
    · simp only [nadd, addn, divn, scl_nan, vec_add, Fl.lt_nan_left]; rfl
    · have : V3.sub s.ori t.ori = vec := by
        rw [hv]; show (⟨#v[Fl.nan - _, Fl.nan - _, Fl.nan - _]⟩ : V3 K) = _; simp only [nsub]; rfl
      rw [this, mag_eq has_vec, scl_vec, vec_add]
      simp only [Fl.lt_nan_right]; rfl
  · unfold Ray3.intersectSphere
    simp only [vecAt_sphere, sliceGet_sphere, Res.ok_bind, V3.minus_eq, V3.dot_eq, V3.scale_eq, V3.plus_eq, unwrap_some, Res.pure_eq, hr]
    rcases hv with rfl | hv
    · simp only [nmul, subn, addn, nsqrt, Fl.lt_nan_left, Fl.lt_nan_right, Bool.and_false, Bool.false_eq_true, if_false, scl_nan, add_vec]
      rfl
    · rw [dotp_left (sub_right (hv ▸ has_vec))]
      simp only [nmul, nsub, nneg, nadd, nsqrt, Fl.lt_nan_left, Fl.lt_nan_right, Bool.false_and, Bool.false_eq_true, if_false,
        scl_nan, add_vec]
      rfl
  · unfold Sphere.intersectPoint
    simp only [vecAt_point, Res.ok_bind, V3.minus_eq, unwrap_some, Res.pure_eq, hr, hn, Fl.lt_nan_left]
    rfl
  · unfold Sphere.intersectPlane
    simp only [vecAt_plane0, vecAt_plane3, Res.ok_bind, V3.dot_eq, V3.scale_eq, V3.plus_eq, unwrap_some, Res.pure_eq, hr, hn, Fl.lt_nan_left]
    exact ⟨_, rfl⟩

/-- concrete case: a NaN radius, and a NaN centre -/
example := And.intro (C70_nan_sphere (K := Q64) (l := [1, .fin 2, .fin 3]) (r := .nan) rfl (.inl rfl) 0)
  (C70_nan_sphere (K := Q64) (l := [.nan, .nan, .nan]) (r := 1) rfl (.inr (by simp)) 0)

/-- C70: a point with a NaN coordinate is on no plane, no ray and no point. -/
theorem C70_nan_point {l : List (Fl K)} {p : Point3 K} (hp : Point3.init l = .ok p) (h : Fl.nan ∈ l) (n : ℕ) :
    (∀ t : Plane K, Shape.getIntersect (n + 2) (.point p) (.plane t) = .ok (false, none)) ∧
    (∀ t : Ray3 K, Shape.getIntersect (n + 2) (.point p) (.ray t) = .ok (false, none)) ∧
    (∀ q : Point3 K, Shape.getIntersect (n + 2) (.point p) (.point q) = .ok (false, none) ∧
      Shape.getIntersect (n + 2) (.point q) (.point p) = .ok (false, none)) := by
  obtain ⟨x, y, z, rfl, ho, hb⟩ := point_init_eq hp
  have hn : Has p.ori := by
    rw [ho]
    simp only [List.mem_cons, List.not_mem_nil, or_false] at h
    rcases h with h | h | h
    · exact .inl h.symm
    · exact .inr (.inl h.symm)
    · exact .inr (.inr h.symm)
  have wv1 (v b : Fl K) : withinVicinity v .nan b = false := by simp [withinVicinity, nadd, nsub]
  have wv2 (v b : Fl K) : withinVicinity v b .nan = false := by simp [withinVicinity]
  refine ⟨fun t => ?_, fun t => ?_, fun q => ⟨?_, ?_⟩⟩ <;> rw [getIntersect_eq] <;> split
  all_goals try rfl
  · exact planePoint_nan (.inr hn)
  · simp only [core]
    unfold Ray3.intersectPoint
    simp only [vecAt_point, Res.ok_bind, V3.minus_eq, V3.div_eq, unwrap_some, Res.pure_eq]
    have e0 : (V3.dv (V3.sub p.ori t.ori) t.dir).val[0] = (p.ori.val[0] - t.ori.val[0]) / t.dir.val[0] := rfl
    have e1 : (V3.dv (V3.sub p.ori t.ori) t.dir).val[1] = (p.ori.val[1] - t.ori.val[1]) / t.dir.val[1] := rfl
    have e2 : (V3.dv (V3.sub p.ori t.ori) t.dir).val[2] = (p.ori.val[2] - t.ori.val[2]) / t.dir.val[2] := rfl
    rw [e0, e1, e2]
    rcases hn with h | h | h <;> rw [h] <;> simp only [nsub, ndiv, wv1, wv2] <;> simp
  · simp only [core]
    rcases hn with h | h | h <;> rw [h] <;> simp only [wv1] <;> simp
  · simp only [core]
    rcases hn with h | h | h <;> rw [h] <;> simp only [wv2] <;> simp

/-- concrete case: one NaN coordinate -/
example := C70_nan_point (K := Q64) (l := [1, .nan, .fin 3]) rfl (by simp) 0

/-- C70: the point with three NaN coordinates is in every box, every sphere and every prism. -/
theorem C70_nan_point_true {p : Point3 K} (hp : Point3.init [.nan, .nan, .nan] = .ok p) (n : ℕ) :
    (∀ t : RecBox K, Shape.getIntersect (n + 2) (.point p) (.box t) = .ok (true, some ⟨#v[.nan, .nan, .nan]⟩)) ∧
    (∀ t : Sphere K, Shape.getIntersect (n + 2) (.point p) (.sphere t) = .ok (true, some ⟨#v[.nan, .nan, .nan]⟩)) ∧
    (∀ t : TriPrism K, Shape.getIntersect (n + 2) (.point p) (.triPrism t) = .ok (true, some ⟨#v[.nan, .nan, .nan]⟩)) := by
  obtain rfl := Except.ok.inj hp
  have hall (u : AABB (Fl K)) : AABB.overlap ⟨#v[.nan, .nan, .nan], #v[.nan, .nan, .nan]⟩ u = true := overlap_nan u
  refine ⟨fun t => ?_, fun t => ?_, fun t => ?_⟩ <;> rw [getIntersect_eq] <;> refine (if_pos (hall _)).trans ?_
  · rfl
  · simp only [core]
    unfold Sphere.intersectPoint
    simp only [vecAt_point, Res.ok_bind, V3.minus_eq, unwrap_some, Res.pure_eq]
    rw [if_neg]
    · have hd (i : Fin 3) : (V3.sub (⟨#v[.nan, .nan, .nan]⟩ : V3 K) t.ori).val[i.val] = .nan := by
        fin_cases i
        · exact nsub t.ori.val[0]
        · exact nsub t.ori.val[1]
        · exact nsub t.ori.val[2]
      simp only [List.any_eq_true, not_exists, not_and]
      intro i _
      erw [hd i]
      simp
  · simp only [core, prismPoint_eq]
    have : t.inside (⟨#v[.nan, .nan, .nan]⟩ : V3 K) = true := by
      unfold TriPrism.inside
      simp only [List.all_eq_true]
      intro vn _
      rw [dotp_left (sub_left (u := (⟨#v[.nan, .nan, .nan]⟩ : V3 K)) (.inl rfl))]
      simp
    erw [this]
    rfl

/-- concrete case -/
example := C70_nan_point_true (K := Q64) rfl 0

/-- C70, witnesses in binary64: two far apart spheres, one with NaN radius, "intersect"; the point (NaN, NaN, NaN) is "in" the
unit sphere but not "on" itself. -/
theorem C70_f64_witness : ∃ (s t : Sphere Q64) (p : Point3 Q64), Sphere.init [0, 0, 0] .nan = .ok s ∧
    Sphere.init [.fin 1000, 0, 0] 1 = .ok t ∧ Point3.init [.nan, .nan, .nan] = .ok p ∧
    Shape.getIntersect 2 (.sphere s) (.sphere t) = .ok (true, some ⟨#v[.nan, .nan, .nan]⟩) ∧
    Shape.getIntersect 2 (.sphere t) (.point p) = .ok (true, some ⟨#v[.nan, .nan, .nan]⟩) ∧
    Shape.getIntersect 2 (.point p) (.point p) = .ok (false, none) :=
  ⟨_, _, _, rfl, rfl, rfl, by decide +kernel, by decide +kernel, by decide +kernel⟩

end Mazth
