import Verif.Props.Mirror
import Verif.Props.PowerScale

/-!
# C93: the intersection queries in another unit of length

If every position, radius, side and height of two shapes is multiplied by `2^k`, and directions and normals by other powers of
two, the query must answer the same thing, with the reported location multiplied by `2^k`.  In binary64 this holds exactly, bit
for bit, for numbers that are zero or of size between `2^-40` and `2^40` and shifts of at most 100 places - provided the
tolerance is a length and is multiplied too.  It is not for the built-in default tolerance, which is the constant `1e-6`, and not for two rays, where
the code compares the same tolerance with a number that is not a length.
-/

set_option linter.unusedSectionVars false
set_option autoImplicit false

namespace Mazth

open Bin

/-! ## Specification -/

/-- a binary64 datum that is zero, not finite, or of size between `2^-m` and `2^m` -/
def Fl.Within (m : ℤ) (x : Fl Q64) : Prop := x.WF ∧ ∀ a : Q64, x.Is a → a.q = 0 ∨ pow2 (-m) ≤ |a.q| ∧ |a.q| ≤ pow2 m

/-- all the numbers in a constructor call are -/
def Ctor.Within (m : ℤ) : Ctor Q64 → Prop
  | .point o => ∀ x ∈ o, x.Within m
  | .ray o d => (∀ x ∈ o, x.Within m) ∧ ∀ x ∈ d, x.Within m
  | .sphere o r => (∀ x ∈ o, x.Within m) ∧ r.Within m
  | .plane o n => (∀ x ∈ o, x.Within m) ∧ ∀ x ∈ n, x.Within m
  | .box o h => (∀ x ∈ o, x.Within m) ∧ h.Within m
  | .line a b => (∀ x ∈ a, x.Within m) ∧ ∀ x ∈ b, x.Within m
  | .triPrism v h => (∀ x ∈ v, x.Within m) ∧ h.Within m

/-- the call with all lengths multiplied by `2^k` and directions and normals by `2^j` -/
def Ctor.inUnit (k j : ℤ) : Ctor Q64 → Ctor Q64
  | .point o => .point (o.map (Fl.scale2 k))
  | .ray o d => .ray (o.map (Fl.scale2 k)) (d.map (Fl.scale2 j))
  | .sphere o r => .sphere (o.map (Fl.scale2 k)) (Fl.scale2 k r)
  | .plane o n => .plane (o.map (Fl.scale2 k)) (n.map (Fl.scale2 j))
  | .box o h => .box (o.map (Fl.scale2 k)) (Fl.scale2 k h)
  | .line a b => .line (a.map (Fl.scale2 k)) (b.map (Fl.scale2 k))
  | .triPrism v h => .triPrism (v.map (Fl.scale2 k)) (Fl.scale2 k h)

/-- all the numbers in a constructor call are multiples of `1/1024` of size at most `1024` -/
def Ctor.OnGrid (c : Ctor Q64) : Prop :=
  let p (x : Fl Q64) : Prop := ∃ m : ℤ, |m| ≤ 2 ^ 20 ∧ x.Is (show Q64 from ((m : ℚ) / 1024 : ℚ))
  match c with
  | .point o => ∀ x ∈ o, p x
  | .ray o d => (∀ x ∈ o, p x) ∧ ∀ x ∈ d, p x
  | .sphere o r => (∀ x ∈ o, p x) ∧ p r
  | .plane o n => (∀ x ∈ o, p x) ∧ ∀ x ∈ n, p x
  | .box o h => (∀ x ∈ o, p x) ∧ p h
  | .line a b => (∀ x ∈ a, p x) ∧ ∀ x ∈ b, p x
  | .triPrism v h => (∀ x ∈ v, p x) ∧ p h

/-- the same flag, the location times `2^k` -/
def Hit.inUnit (k : ℤ) (h : Hit Q64) : Hit Q64 :=
  (h.1, h.2.map fun p => ⟨#v[Fl.scale2 k p.val[0], Fl.scale2 k p.val[1], Fl.scale2 k p.val[2]]⟩)

/-- the pairs whose test involves the tolerance -/
def TestsTolerance (a b : ShapeType) : Prop :=
  (a, b) ∈ [(ShapeType.point, ShapeType.point), (.point, .ray), (.ray, .point), (.point, .plane), (.plane, .point), (.ray, .ray)]

instance (a b : ShapeType) : Decidable (TestsTolerance a b) := inferInstanceAs (Decidable (_ ∈ _))

namespace PSQ

open Fl

variable {k j g M : ℤ}

/-! ### answers -/

abbrev ScRes (k : ℤ) (r r' : Res (Hit Q64)) : Prop := r' = r.map (Hit.inUnit k)

theorem sc_none : ScRes k (.ok (false, none)) (.ok (false, none)) := rfl

theorem eq_of_sc {e b : ℤ} {p q : V3 Q64} (h : V3.Sc e b k p q) : q = ⟨#v[Fl.scale2 k p.val[0], Fl.scale2 k p.val[1], Fl.scale2 k p.val[2]]⟩ := by
  rw [← V3.eta q, h.1.2, h.2.1.2, h.2.2.2]

theorem sc_some {e b : ℤ} {p q : V3 Q64} (h : V3.Sc e b k p q) : ScRes k (.ok (true, some p)) (.ok (true, some q)) := by
  rw [eq_of_sc h]; rfl

theorem sc_error (e : Panic) : ScRes k (.error e) (.error e) := rfl

theorem sc_ite {c c' : Bool} (h : c' = c) {a a' b b' : Res (Hit Q64)} (ha : ScRes k a a') (hb : c = false → ScRes k b b') :
    ScRes k (if c = true then a else b) (if c' = true then a' else b') := by
  subst h
  cases c'
  · exact hb rfl
  · exact ha

/-! ### bounds -/

def BSc (k : ℤ) (b b' : AABB (Fl Q64)) : Prop := ∀ i : Fin 3, b'.lower[i] = Fl.scale2 k b.lower[i] ∧ b'.upper[i] = Fl.scale2 k b.upper[i]

theorem BSc.overlap {a a' b b' : AABB (Fl Q64)} (ha : BSc k a a') (hb : BSc k b b') : AABB.overlap a' b' = AABB.overlap a b := by
  rw [Bool.eq_iff_iff, AABB.overlap_iff, AABB.overlap_iff]
  refine forall_congr' fun i => ?_
  rw [(ha i).1, (ha i).2, (hb i).1, (hb i).2, Fl.lt_scale2, Fl.lt_scale2]

theorem bsc_mk {l0 l1 l2 u0 u1 u2 l0' l1' l2' u0' u1' u2' : Fl Q64}
    (h0 : l0' = Fl.scale2 k l0 ∧ u0' = Fl.scale2 k u0) (h1 : l1' = Fl.scale2 k l1 ∧ u1' = Fl.scale2 k u1)
    (h2 : l2' = Fl.scale2 k l2 ∧ u2' = Fl.scale2 k u2) :
    BSc k ⟨#v[l0, l1, l2], #v[u0, u1, u2]⟩ ⟨#v[l0', l1', l2'], #v[u0', u1', u2']⟩ := by
  intro i; fin_cases i <;> assumption

theorem bsc_ray (o d : Fl Q64) : (AABB.rayBound (Fl.scale2 k o) (Fl.scale2 j d)).1 = Fl.scale2 k (AABB.rayBound o d).1 ∧
    (AABB.rayBound (Fl.scale2 k o) (Fl.scale2 j d)).2 = Fl.scale2 k (AABB.rayBound o d).2 := by
  have h1 : Fl.lt 0 (Fl.scale2 j d) = Fl.lt 0 d := by
    have := Fl.lt_scale2 (k := j) 0 d; rwa [Fl.scale2_zero] at this
  have h2 : Fl.lt (Fl.scale2 j d) 0 = Fl.lt d 0 := by
    have := Fl.lt_scale2 (k := j) d 0; rwa [Fl.scale2_zero] at this
  unfold AABB.rayBound
  rw [h1, h2]
  split
  · exact ⟨rfl, rfl⟩
  · split
    · exact ⟨rfl, rfl⟩
    · exact ⟨rfl, rfl⟩

theorem bsc_default : BSc k (AABB.default : AABB (Fl Q64)) AABB.default := bsc_mk ⟨rfl, rfl⟩ ⟨rfl, rfl⟩ ⟨rfl, rfl⟩

theorem cmp_scale2 (x y : Fl Q64) : cmpOrEqual (Fl.scale2 k x) (Fl.scale2 k y) = cmpOrEqual x y := by
  unfold cmpOrEqual Fl.partialCmp Fl.feq
  rw [Fl.lt_scale2, Fl.lt_scale2, Fl.le_scale2, Fl.le_scale2]

theorem mnL_scale2 (l : List (Fl Q64)) : ∀ x : Fl Q64, mnL (Fl.scale2 k x) (l.map (Fl.scale2 k)) = Fl.scale2 k (mnL x l) := by
  induction l with
  | nil => intro x; rfl
  | cons y l ih =>
    intro x
    show mnL (if cmpOrEqual _ _ = _ then _ else _) _ = Fl.scale2 k (mnL (if _ then _ else _) _)
    rw [cmp_scale2]
    split <;> exact ih _

theorem mxL_scale2 (l : List (Fl Q64)) : ∀ x : Fl Q64, mxL (Fl.scale2 k x) (l.map (Fl.scale2 k)) = Fl.scale2 k (mxL x l) := by
  induction l with
  | nil => intro x; rfl
  | cons y l ih =>
    intro x
    show mxL (if cmpOrEqual _ _ = _ then _ else _) _ = Fl.scale2 k (mxL (if _ then _ else _) _)
    rw [cmp_scale2]
    split <;> exact ih _

/-- equality up to the unit, without a range -/
def VE (k : ℤ) (v v' : V3 Q64) : Prop := v'.val[0] = Fl.scale2 k v.val[0] ∧ v'.val[1] = Fl.scale2 k v.val[1] ∧ v'.val[2] = Fl.scale2 k v.val[2]

theorem ve {e b : ℤ} {v v' : V3 Q64} (h : V3.Sc e b k v v') : VE k v v' := ⟨h.1.2, h.2.1.2, h.2.2.2⟩

theorem boxL_sc {v v' : V3 Q64} {l l' : List (V3 Q64)} (h : List.Forall₂ (VE k) (v :: l) (v' :: l')) : BSc k (boxL v l) (boxL v' l') := by
  have key (f : V3 Q64 → Fl Q64) (hf : ∀ u u', VE k u u' → f u' = Fl.scale2 k (f u)) :
      mnL (f v') (l'.map f) = Fl.scale2 k (mnL (f v) (l.map f)) ∧ mxL (f v') (l'.map f) = Fl.scale2 k (mxL (f v) (l.map f)) := by
    cases h with
    | cons h hl =>
      have e : l'.map f = (l.map f).map (Fl.scale2 k) := by
        induction hl with
        | nil => rfl
        | cons h _ ih => rw [List.map_cons, List.map_cons, List.map_cons, ih, hf _ _ h]
      rw [e, hf _ _ h]
      exact ⟨mnL_scale2 _ _, mxL_scale2 _ _⟩
  exact bsc_mk (key (·.val[0]) fun _ _ h => h.1) (key (·.val[1]) fun _ _ h => h.2.1) (key (·.val[2]) fun _ _ h => h.2.2)

/-! ### shapes -/

/-- a position or a length -/
abbrev PosSc (g M k : ℤ) (a a' : V3 Q64) : Prop := V3.Sc (-g) M k a a'
abbrev LenSc (g M k : ℤ) (a a' : Fl Q64) : Prop := Fl.Sc (-g) M k a a'
/-- a unit vector -/
def DirSc (g M : ℤ) (a a' : V3 Q64) : Prop := V3.Sc (-(g + M + 54)) 1 0 a a' ∧ a' = a

def ShapeSc (g M k : ℤ) : Shape Q64 → Shape Q64 → Prop
  | .point s, .point t => PosSc g M k s.ori t.ori ∧ BSc k s.bound t.bound
  | .ray s, .ray t => PosSc g M k s.ori t.ori ∧ DirSc g M s.dir t.dir ∧ BSc k s.bound t.bound
  | .sphere s, .sphere t => PosSc g M k s.ori t.ori ∧ LenSc g M k s.radius t.radius ∧ BSc k s.bound t.bound
  | .plane s, .plane t => PosSc g M k s.offset t.offset ∧ DirSc g M s.normal t.normal ∧ BSc k s.bound t.bound
  | .box s, .box t => PosSc g M k s.ori t.ori ∧ BSc k s.bound t.bound
  | .line s, .line t => PosSc g M k s.a t.a ∧ PosSc g M k s.b t.b ∧ BSc k s.bound t.bound
  | .triPrism s, .triPrism t => (PosSc g M k s.triBase[0] t.triBase[0] ∧ PosSc g M k s.triBase[1] t.triBase[1] ∧ PosSc g M k s.triBase[2] t.triBase[2]) ∧
      V3.Sc (-(3 * g + 2 * M + 57)) (M + 2) k s.triBase2[0] t.triBase2[0] ∧ V3.Sc (-(3 * g + 2 * M + 57)) (M + 1) k s.normalHeight t.normalHeight ∧
      BSc k s.bound t.bound
  | _, _ => False

/-- the stored tolerance -/
def tol : Shape Q64 → Fl Q64
  | .point s => s.vicinity
  | .ray s => s.vicinity
  | .sphere s => s.vicinity
  | .plane s => s.vicinity
  | .box s => s.vicinity
  | .line s => s.vicinity
  | .triPrism s => s.vicinity

theorem aabb_sc {a a' : Shape Q64} (h : ShapeSc g M k a a') : BSc k a.aabb a'.aabb := by
  cases a <;> cases a' <;> first | exact h.2 | exact h.2.2 | exact h.2.2.2 | exact h.elim

theorem type_sc {a a' : Shape Q64} (h : ShapeSc g M k a a') : a'.getType = a.getType := by
  cases a <;> cases a' <;> first | rfl | exact h.elim

theorem set_sc {a a' : Shape Q64} (h : ShapeSc g M k a a') (e e' : Fl Q64) : ShapeSc g M k (a.setVicinity e) (a'.setVicinity e') := by
  cases a <;> cases a' <;> exact h

theorem set_tol (a : Shape Q64) (e : Fl Q64) : tol (a.setVicinity e) = Fl.abs e := by cases a <;> rfl

/-! ### the queries -/

section
variable (hM : 0 ≤ M) (hM' : M ≤ 40) (hg : 0 ≤ g) (hg' : g ≤ 92) (hk : -100 ≤ k) (hk' : k ≤ 100)
include hM hM' hg hg' hk hk'

theorem within_sc {e b : ℤ} {v v' x x' y y' : Fl Q64} (hv : LenSc g M k v v') (hx : Fl.Sc e b k x x') (hy : Fl.Sc e b k y y')
    (he : -900 ≤ e := by omega) (hb : b ≤ 800 := by omega) : withinVicinity v' x' y' = withinVicinity v x y := by
  unfold withinVicinity
  rw [hy.le (hx.add hv), (hx.sub hv).le hy]

theorem rayRay_sc {r r' s s' : Ray3 Q64} (ho : PosSc g M k r.ori r'.ori) (hd : DirSc g M r.dir r'.dir) (hv : r.vicinity = 0 ∧ r'.vicinity = 0)
    (ho' : PosSc g M k s.ori s'.ori) (hd' : DirSc g M s.dir s'.dir) :
    ScRes k (r.intersectRay (Shape.ray s).getShapeData) (r'.intersectRay (Shape.ray s').getShapeData) := by
  unfold Ray3.intersectRay
  simp only [vecAt_ray0, vecAt_ray3, Res.ok_bind, V3.minus_eq, V3.cross_eq, V3.dot_eq, V3.isEqual_eq, V3.magnitude_eq, V3.scale_eq, V3.plus_eq,
    unwrap_some, Res.pure_eq, hv, hd.2, hd'.2]
  have d1 := hd.1; rw [hd.2] at d1
  have d2 := hd'.1; rw [hd'.2] at d2
  have hdd := ho'.sub ho
  have o1 : Fl.Sc 0 0 0 (1 : Fl Q64) 1 := .of_ext (.inl (Rg.one le_rfl le_rfl))
  have hx := d1.crs d2
  have zv : LenSc g M k 0 0 := Fl.Sc.zero
  refine sc_ite rfl sc_none fun _ => sc_ite rfl ?_ fun _ => ?_
  · have ha := (d1.crs hdd).mag
    refine sc_ite ?_ sc_none fun _ => ?_
    · have := within_sc hM hM' hg hg' hk hk' zv (ha.cast (n := k)) (Fl.Sc.zero (m := k))
      rw [this]
    · have hs : Fl.lt (V3.dotp (V3.sub s'.ori r'.ori) r.dir) 0 = Fl.lt (V3.dotp (V3.sub s.ori r.ori) r.dir) 0 := (hdd.dot d1).lt0
      rw [hs]
      have hm := hdd.mag
      have hm' := d1.mag
      have hq (c : Bool) : Fl.Sc 0 0 0 (if c then (-1 : Fl Q64) else 1) (if c then (-1 : Fl Q64) else 1) := by cases c <;> [exact o1; exact o1.neg]
      have ht := ((hq (Fl.lt (V3.dotp (V3.sub s.ori r.ori) r.dir) 0)).mul hm).div hm'
      exact sc_ite ht.lt0 (sc_some ho) fun _ => sc_some (((d1.scl ht).cast (n := k)).add ho)
  · have ht := (hdd.crs d2).mag.div hx.mag
    exact sc_ite ht.lt0 sc_none fun _ => sc_some (((d1.scl ht).cast (n := k)).add ho)

theorem rayRay_skew_sc {r r' s s' : Ray3 Q64} (ho : PosSc g M k r.ori r'.ori) (hd : DirSc g M r.dir r'.dir) (hv : r'.vicinity = r.vicinity)
    (ho' : PosSc g M k s.ori s'.ori) (hd' : DirSc g M s.dir s'.dir)
    (hq : V3.eqv (V3.crs r.dir s.dir) Mat3x1.default (Fl.lit (1 / 10000)) = false) :
    ScRes k (r.intersectRay (Shape.ray s).getShapeData) (r'.intersectRay (Shape.ray s').getShapeData) := by
  unfold Ray3.intersectRay
  simp only [vecAt_ray0, vecAt_ray3, Res.ok_bind, V3.minus_eq, V3.cross_eq, V3.dot_eq, V3.isEqual_eq, V3.magnitude_eq, V3.scale_eq, V3.plus_eq,
    unwrap_some, Res.pure_eq, hv, hd.2, hd'.2, hq]
  have d1 := hd.1; rw [hd.2] at d1
  have d2 := hd'.1; rw [hd'.2] at d2
  have hdd := ho'.sub ho
  have hx := d1.crs d2
  refine sc_ite rfl sc_none fun _ => ?_
  simp only [Bool.false_eq_true, if_false]
  have ht := (hdd.crs d2).mag.div hx.mag
  exact sc_ite ht.lt0 sc_none fun _ => sc_some (((d1.scl ht).cast (n := k)).add ho)

theorem rayPoint_sc {r r' : Ray3 Q64} {s s' : Point3 Q64} (ho : PosSc g M k r.ori r'.ori) (hd : DirSc g M r.dir r'.dir)
    (hv : LenSc g M k r.vicinity r'.vicinity) (ho' : PosSc g M k s.ori s'.ori) :
    ScRes k (r.intersectPoint (Shape.point s).getShapeData) (r'.intersectPoint (Shape.point s').getShapeData) := by
  unfold Ray3.intersectPoint
  simp only [vecAt_point, Res.ok_bind, V3.minus_eq, V3.div_eq, V3.scale_eq, V3.plus_eq, unwrap_some, Res.pure_eq]
  have hs := ((ho'.sub ho).dv hd.1).cast (n := k)
  refine sc_ite ?_ sc_none fun _ => sc_ite hs.1.le0 (sc_some ((hd.1.scl hs.1).cast.add ho)) fun _ => sc_none
  rw [within_sc hM hM' hg hg' hk hk' hv hs.1 hs.2.1, within_sc hM hM' hg hg' hk hk' hv hs.2.1 hs.2.2]

theorem raySphere_sc {r r' : Ray3 Q64} {s s' : Sphere Q64} (ho : PosSc g M k r.ori r'.ori) (hd : DirSc g M r.dir r'.dir)
    (ho' : PosSc g M k s.ori s'.ori) (hr : LenSc g M k s.radius s'.radius) :
    ScRes k (r.intersectSphere (Shape.sphere s).getShapeData) (r'.intersectSphere (Shape.sphere s').getShapeData) := by
  unfold Ray3.intersectSphere
  simp only [vecAt_sphere, sliceGet_sphere, Res.ok_bind, V3.minus_eq, V3.dot_eq, V3.scale_eq, V3.plus_eq, unwrap_some, Res.pure_eq]
  have hs := ho.sub ho'
  have hb := (hs.dot hd.1).cast (n := k)
  have hc := (hs.dot hs).sub (hr.mul hr)
  have hD := (hb.mul hb).sub hc
  have hq := hD.sqrt
  have h1 := hb.neg.sub hq
  have h2 := hb.neg.add hq
  refine sc_ite ?_ sc_none fun _ => sc_ite hD.lt0 sc_none fun _ => ?_
  · rw [hb.gt0, hc.gt0]
  · rw [h1.lt0, h2.lt0, h1.lt h2]
    refine sc_some (((hd.1.scl (?_ : Fl.Sc (-(3 * g + 2 * M + 220)) (2 * M + 200) k _ _)).cast (n := k)).add ho)
    split
    · exact h2.mono
    · split
      · exact h1.mono
      · split
        · exact h1.mono
        · exact h2.mono

theorem rayPlane_sc {r r' : Ray3 Q64} {s s' : Plane Q64} (ho : PosSc g M k r.ori r'.ori) (hd : DirSc g M r.dir r'.dir)
    (ho' : PosSc g M k s.offset s'.offset) (hn : DirSc g M s.normal s'.normal) :
    ScRes k (r.intersectPlane (Shape.plane s).getShapeData) (r'.intersectPlane (Shape.plane s').getShapeData) := by
  unfold Ray3.intersectPlane
  simp only [vecAt_plane0, vecAt_plane3, Res.ok_bind, V3.dot_eq, V3.scale_eq, V3.plus_eq, unwrap_some, Res.pure_eq]
  have hk1 := (ho'.dot hn.1).cast (n := k)
  have hnum := hk1.sub ((hn.1.dot ho).cast (n := k))
  have hden := hn.1.dot hd.1
  have ht := (hnum.div hden).cast (n := k)
  refine sc_ite hden.feq0 (sc_ite (hk1.feq ((ho.dot hn.1).cast (n := k))) (sc_some ho) fun _ => sc_none) fun _ =>
    sc_ite hden.gt0 sc_none fun _ => sc_ite ht.lt0 sc_none fun _ => sc_some (((hd.1.scl ht).cast (n := k)).add ho)

theorem sphereSphere_sc {r r' s s' : Sphere Q64} (ho : PosSc g M k r.ori r'.ori) (hr : LenSc g M k r.radius r'.radius)
    (ho' : PosSc g M k s.ori s'.ori) (hr' : LenSc g M k s.radius s'.radius) :
    ScRes k (r.intersectSphere (Shape.sphere s).getShapeData) (r'.intersectSphere (Shape.sphere s').getShapeData) := by
  unfold Sphere.intersectSphere
  simp only [vecAt_sphere, sliceGet_sphere, Res.ok_bind, V3.minus_eq, V3.magnitude_eq, V3.scale_eq, V3.plus_eq, unwrap_some, Res.pure_eq]
  have hs := ho'.sub ho
  have hq := hr.add hr'
  have ht := hr.div hq
  exact sc_ite ((hr'.add hr).lt hs.mag) sc_none fun _ => sc_some (ho.add ((hs.scl ht).cast (n := k)))

theorem spherePoint_sc {r r' : Sphere Q64} {s s' : Point3 Q64} (ho : PosSc g M k r.ori r'.ori) (hr : LenSc g M k r.radius r'.radius)
    (ho' : PosSc g M k s.ori s'.ori) :
    ScRes k (r.intersectPoint (Shape.point s).getShapeData) (r'.intersectPoint (Shape.point s').getShapeData) := by
  unfold Sphere.intersectPoint
  simp only [vecAt_point, Res.ok_bind, V3.minus_eq, unwrap_some, Res.pure_eq]
  have hs := ho'.sub ho
  refine sc_ite ?_ sc_none fun _ => sc_some ho'
  have e (i : Fin 3) : Fl.lt r'.radius (V3.sub s'.ori r'.ori).val[i.val] = Fl.lt r.radius (V3.sub s.ori r.ori).val[i.val] := by
    fin_cases i
    · exact hr.lt hs.1
    · exact hr.lt hs.2.1
    · exact hr.lt hs.2.2
  simp only [e]

theorem spherePlane_sc {r r' : Sphere Q64} {s s' : Plane Q64} (ho : PosSc g M k r.ori r'.ori) (hr : LenSc g M k r.radius r'.radius)
    (ho' : PosSc g M k s.offset s'.offset) (hn : DirSc g M s.normal s'.normal) :
    ScRes k (r.intersectPlane (Shape.plane s).getShapeData) (r'.intersectPlane (Shape.plane s').getShapeData) := by
  unfold Sphere.intersectPlane
  simp only [vecAt_plane0, vecAt_plane3, Res.ok_bind, V3.dot_eq, V3.scale_eq, V3.plus_eq, unwrap_some, Res.pure_eq]
  have ht := ((hn.1.dot ho).cast (n := k)).sub ((hn.1.dot ho').cast (n := k))
  exact sc_ite (hr.lt ht) sc_none fun _ => sc_some (((hn.1.scl ht.neg).cast (n := k)).add ho)

theorem planePoint_sc {r r' : Plane Q64} {s s' : Point3 Q64} (ho : PosSc g M k r.offset r'.offset) (hn : DirSc g M r.normal r'.normal)
    (hv : LenSc g M k r.vicinity r'.vicinity) (ho' : PosSc g M k s.ori s'.ori) :
    ScRes k (r.intersectPoint (Shape.point s).getShapeData) (r'.intersectPoint (Shape.point s').getShapeData) := by
  unfold Plane.intersectPoint
  simp only [vecAt_point, Res.ok_bind, V3.dot_eq, unwrap_some, Res.pure_eq]
  have ht := ((hn.1.dot ho).cast (n := k)).sub ((hn.1.dot ho').cast (n := k))
  refine sc_ite ?_ sc_none fun _ => sc_some ho'
  rw [within_sc hM hM' hg hg' hk hk' hv ht Fl.Sc.zero]

theorem pointPoint_sc {v v' : Fl Q64} {p p' q q' : V3 Q64} (hv : LenSc g M k v v') (h : PosSc g M k p p') (h' : PosSc g M k q q') :
    ScRes k (.ok (if !withinVicinity v p.val[0] q.val[0] || !withinVicinity v p.val[1] q.val[1] ||
        !withinVicinity v p.val[2] q.val[2] then (false, none) else (true, some p)))
      (.ok (if !withinVicinity v' p'.val[0] q'.val[0] || !withinVicinity v' p'.val[1] q'.val[1] ||
        !withinVicinity v' p'.val[2] q'.val[2] then (false, none) else (true, some p'))) := by
  rw [within_sc hM hM' hg hg' hk hk' hv h.1 h'.1, within_sc hM hM' hg hg' hk hk' hv h.2.1 h'.2.1, within_sc hM hM' hg hg' hk hk' hv h.2.2 h'.2.2]
  split
  · exact sc_none
  · exact sc_some h

theorem prismPoint_sc {r r' : TriPrism Q64} {s s' : Point3 Q64} (h : ShapeSc g M k (.triPrism r) (.triPrism r'))
    (hp : PosSc g M k s.ori s'.ori) : ScRes k (r.intersectPoint (Shape.point s).getShapeData) (r'.intersectPoint (Shape.point s').getShapeData) := by
  rw [prismPoint_eq, prismPoint_eq]
  have o1 : Fl.Sc 0 0 0 (1 : Fl Q64) 1 := .of_ext (.inl (Rg.one le_rfl le_rfl))
  have e : r'.inside s'.ori = r.inside s.ori := by
    obtain ⟨⟨h0, h1, h2⟩, h3, hn, -⟩ := h
    have t0 := ((hp.sub h0).dot (hn.scl o1.neg)).gt0
    have t1 := ((hp.sub h3).dot hn).gt0
    have t2 := ((hp.sub h0).dot ((h1.sub h0).crs hn)).gt0
    have t3 := ((hp.sub h1).dot ((h2.sub h1).crs hn)).gt0
    have t4 := ((hp.sub h2).dot ((h0.sub h2).crs hn)).gt0
    unfold TriPrism.inside TriPrism.testsP
    simp only [List.all_cons, List.all_nil]
    rw [t0, t1, t2, t3, t4]
  rw [e]
  cases r.inside s.ori
  · exact sc_none
  · exact sc_some hp

end


/-! ### segments and prisms -/

/-- a vertex and a normal of a facet -/
def TestSc (g M k : ℤ) (x y : V3 Q64 × V3 Q64) : Prop :=
  V3.Sc (-(3 * g + 2 * M + 57)) (M + 2) k x.1 y.1 ∧ ∃ n, (n = k ∨ n = k + k) ∧ V3.Sc (-(4 * g + 2 * M + 57)) (2 * M + 3) n x.2 y.2

/-- a facet -/
def PlaneSc (g M k : ℤ) (s s' : Plane Q64) : Prop :=
  V3.Sc (-(3 * g + 2 * M + 57)) (M + 2) k s.offset s'.offset ∧ V3.Sc (-(4 * g + 4 * M + 114)) 1 0 s.normal s'.normal ∧ BSc k s.bound s'.bound

section
variable (hM : 0 ≤ M) (hM' : M ≤ 10) (hg : 0 ≤ g) (hg' : g ≤ 10) (hk : -100 ≤ k) (hk' : k ≤ 100)
include hM hM' hg hg' hk hk'

theorem all_sc {p p' : V3 Q64} (hp : V3.Sc (-432) 300 k p p') {ts ts' : List (V3 Q64 × V3 Q64)} (h : List.Forall₂ (TestSc g M k) ts ts') :
    (ts'.all fun vn => !Fl.lt 0 (V3.dotp (V3.sub p' vn.1) vn.2)) = ts.all fun vn => !Fl.lt 0 (V3.dotp (V3.sub p vn.1) vn.2) := by
  induction h with
  | nil => rfl
  | cons h _ ih =>
    obtain ⟨h1, n, hn, h2⟩ := h
    have := ((hp.sub h1).dot h2).gt0
    rw [List.all_cons, List.all_cons, ih, this]

theorem tests_sc {s s' : TriPrism Q64} (h : ShapeSc g M k (.triPrism s) (.triPrism s')) : List.Forall₂ (TestSc g M k) s.testsP s'.testsP := by
  obtain ⟨⟨h0, h1, h2⟩, h3, hn, -⟩ := h
  have o1 : Fl.Sc 0 0 0 (1 : Fl Q64) 1 := .of_ext (.inl (Rg.one le_rfl le_rfl))
  exact .cons ⟨h0.mono, k, .inl rfl, (hn.scl o1.neg).cast.mono⟩ (.cons ⟨h3, k, .inl rfl, hn.mono⟩
    (.cons ⟨h0.mono, k + k, .inr rfl, ((h1.sub h0).crs hn).mono⟩ (.cons ⟨h1.mono, k + k, .inr rfl, ((h2.sub h1).crs hn).mono⟩
    (.cons ⟨h2.mono, k + k, .inr rfl, ((h0.sub h2).crs hn).mono⟩ .nil))))

theorem facets_sc {s s' : TriPrism Q64} (h : ShapeSc g M k (.triPrism s) (.triPrism s')) : List.Forall₂ (PlaneSc g M k) s.facetsP s'.facetsP := by
  have ht := tests_sc hM hM' hg hg' hk hk' h
  have key {x y : V3 Q64 × V3 Q64} (h : TestSc g M k x y) : PlaneSc g M k (planeOf x.1 x.2) (planeOf y.1 y.2) := by
    obtain ⟨h1, n, hn, h2⟩ := h
    exact ⟨h1, h2.nrm.mono, bsc_default⟩
  unfold TriPrism.testsP at ht
  simp only [List.forall₂_cons] at ht
  obtain ⟨h0, h1, h2, h3, h4, -⟩ := ht
  exact .cons (key h0) (.cons (key h1) (.cons (key h2) (.cons (key h3) (.cons (key h4) .nil))))

theorem facetLoop_sc {r r' : Ray3 Q64} (ho : PosSc g M k r.ori r'.ori) (hd : V3.Sc (-(g + M + 55)) 1 0 r.dir r'.dir) (hb : BSc k r.bound r'.bound)
    {ts ts' : List (V3 Q64 × V3 Q64)} (ht : List.Forall₂ (TestSc g M k) ts ts') {a a' : V3 Q64} (ha : PosSc g M k a a') {m m' : Fl Q64}
    (hm : Fl.Sc (-(g + 52)) (M + 3) k m m') {fs fs' : List (Plane Q64)} (hf : List.Forall₂ (PlaneSc g M k) fs fs') :
    ScRes k (TriPrism.facetLoop r ts a m fs) (TriPrism.facetLoop r' ts' a' m' fs') := by
  induction hf with
  | nil => exact sc_none
  | @cons f f' fs fs' h _ ih =>
    have hk1 := (h.1.dot h.2.1).cast (n := k)
    have hnum := hk1.sub ((h.2.1.dot ho).cast (n := k))
    have hden := h.2.1.dot hd
    have hq := (hnum.div hden).cast (n := k)
    have hp := (((hd.scl hq).cast (n := k)).add ho).mono (f := -432) (c := 300)
    have key : ∃ h1 h2 h1' h2', r.getIntersect (.plane f) = .ok (h1, h2) ∧ r'.getIntersect (.plane f') = .ok (h1', h2') ∧
        h1' = h1 ∧ (h1 = true → ∃ p p', h2 = some p ∧ h2' = some p' ∧ V3.Sc (-432) 300 k p p') := by
      unfold Ray3.getIntersect Ray3.intersectPlane
      simp only [Shape.getType, Shape.getBound_eq, AABB.intersect_eq, Res.ok_bind, Res.pure_eq, vecAt_plane0, vecAt_plane3, V3.dot_eq, V3.scale_eq,
        V3.plus_eq, unwrap_some]
      have e0 : AABB.overlap (Shape.ray r').aabb (Shape.plane f').aabb = AABB.overlap (Shape.ray r).aabb (Shape.plane f).aabb := hb.overlap h.2.2
      rw [e0, hden.feq0, hk1.feq ((ho.dot h.2.1).cast (n := k)), hden.gt0, hq.lt0]
      split
      · exact ⟨_, _, _, _, rfl, rfl, rfl, by simp⟩
      · split
        · split
          · exact ⟨_, _, _, _, rfl, rfl, rfl, fun _ => ⟨_, _, rfl, rfl, ho.mono⟩⟩
          · exact ⟨_, _, _, _, rfl, rfl, rfl, by simp⟩
        · split
          · exact ⟨_, _, _, _, rfl, rfl, rfl, by simp⟩
          · split
            · exact ⟨_, _, _, _, rfl, rfl, rfl, by simp⟩
            · exact ⟨_, _, _, _, rfl, rfl, rfl, fun _ => ⟨_, _, rfl, rfl, hp⟩⟩
    obtain ⟨h1, h2, h1', h2', e, e', rfl, hc⟩ := key
    rw [TriPrism.facetLoop, TriPrism.facetLoop, e, e']
    cases h1' with
    | false => simpa using ih
    | true =>
      obtain ⟨p, p', rfl, rfl, hp⟩ := hc rfl
      simp only [Res.ok_bind, unwrap_some, V3.minus_eq, V3.magnitude_eq, allInside_ok, if_true]
      refine sc_ite ?_ ih fun _ => sc_some hp
      rw [all_sc hM hM' hg hg' hk hk' hp ht, hm.lt (hp.sub ha).mag]

theorem prismLine_sc {r r' : TriPrism Q64} {s s' : Line3 Q64} (h : ShapeSc g M k (.triPrism r) (.triPrism r'))
    (ha : PosSc g M k s.a s'.a) (hb : PosSc g M k s.b s'.b) :
    ScRes k (r.intersectLine (Shape.line s).getShapeData) (r'.intersectLine (Shape.line s').getShapeData) := by
  unfold TriPrism.intersectLine
  simp only [vecAt_line0, vecAt_line3, Res.ok_bind, TriPrism.tests_eq, allInside_ok, Res.pure_eq, V3.minus_eq,
    V3.magnitude_eq, unwrap_some, facets_eq, ray_init_toList]
  have hv := hb.sub ha
  have ht := tests_sc hM hM' hg hg' hk hk' h
  refine sc_ite (all_sc hM hM' hg hg' hk hk' ha.mono ht) (sc_some ha) fun _ => sc_ite (all_sc hM hM' hg hg' hk hk' hb.mono ht) (sc_some hb) fun _ => ?_
  have rb : BSc k (rayOf s.a (V3.sub s.b s.a)).bound (rayOf s'.a (V3.sub s'.b s'.a)).bound := by
    have key {e b : ℤ} {e' b' : ℤ} {x x' y y' : Fl Q64} (h : Fl.Sc e b k x x') (h' : Fl.Sc e' b' k y y') :
        (AABB.rayBound x' y').1 = Fl.scale2 k (AABB.rayBound x y).1 ∧ (AABB.rayBound x' y').2 = Fl.scale2 k (AABB.rayBound x y).2 := by
      rw [h.2, h'.2]; exact bsc_ray _ _
    exact bsc_mk (key ha.1 hv.1) (key ha.2.1 hv.2.1) (key ha.2.2 hv.2.2)
  exact facetLoop_sc hM hM' hg hg' hk hk' (r := rayOf _ _) (r' := rayOf _ _) ha hv.nrm.mono rb ht ha hv.mag.mono
    (facets_sc hM hM' hg hg' hk hk' h)

end

/-! ### all pairs -/

/-- what is known of the tolerances -/
def TolSc (g M k : ℤ) (a b a' b' : Shape Q64) : Prop :=
  (TestsTolerance a.getType b.getType → LenSc g M k (tol a) (tol a') ∧ LenSc g M k (tol b) (tol b')) ∧
  (a.getType = .ray → b.getType = .ray → tol a = 0 ∧ tol a' = 0)

theorem point_of {s : Point3 Q64} {a' : Shape Q64} (h : ShapeSc g M k (.point s) a') : ∃ s', a' = .point s' := by
  cases a' <;> first | exact ⟨_, rfl⟩ | exact h.elim
theorem ray_of {s : Ray3 Q64} {a' : Shape Q64} (h : ShapeSc g M k (.ray s) a') : ∃ s', a' = .ray s' := by
  cases a' <;> first | exact ⟨_, rfl⟩ | exact h.elim
theorem sphere_of {s : Sphere Q64} {a' : Shape Q64} (h : ShapeSc g M k (.sphere s) a') : ∃ s', a' = .sphere s' := by
  cases a' <;> first | exact ⟨_, rfl⟩ | exact h.elim
theorem plane_of {s : Plane Q64} {a' : Shape Q64} (h : ShapeSc g M k (.plane s) a') : ∃ s', a' = .plane s' := by
  cases a' <;> first | exact ⟨_, rfl⟩ | exact h.elim
theorem box_of {s : RecBox Q64} {a' : Shape Q64} (h : ShapeSc g M k (.box s) a') : ∃ s', a' = .box s' := by
  cases a' <;> first | exact ⟨_, rfl⟩ | exact h.elim
theorem prism_of {s : TriPrism Q64} {a' : Shape Q64} (h : ShapeSc g M k (.triPrism s) a') : ∃ s', a' = .triPrism s' := by
  cases a' <;> first | exact ⟨_, rfl⟩ | exact h.elim
theorem line_of {s : Line3 Q64} {a' : Shape Q64} (h : ShapeSc g M k (.line s) a') : ∃ s', a' = .line s' := by
  cases a' <;> first | exact ⟨_, rfl⟩ | exact h.elim

theorem core_sc (hM : 0 ≤ M) (hM' : M ≤ 40) (hg : 0 ≤ g) (hg' : g ≤ 92) (hk : -100 ≤ k) (hk' : k ≤ 100) (a b : Shape Q64) {a' b' : Shape Q64}
    (ha : ShapeSc g M k a a') (hb : ShapeSc g M k b b') (ht : TolSc g M k a b a' b')
    (hl : (a.getType, b.getType) = (.line, .triPrism) ∨ (a.getType, b.getType) = (.triPrism, .line) → M ≤ 10 ∧ g ≤ 10) : ScRes k (core a b) (core a' b') := by
  by_cases hs : Supported a.getType b.getType
  · match a, b, ha, hb, ht, hl, hs with
    | .point s, .point t, ha, hb, h, _, _ =>
      obtain ⟨s', rfl⟩ := point_of ha; obtain ⟨t', rfl⟩ := point_of hb
      exact pointPoint_sc hM hM' hg hg' hk hk' (h.1 (by simp [TestsTolerance, Shape.getType])).1 ha.1 hb.1
    | .point s, .ray t, ha, hb, h, _, _ =>
      obtain ⟨s', rfl⟩ := point_of ha; obtain ⟨t', rfl⟩ := ray_of hb
      exact rayPoint_sc hM hM' hg hg' hk hk' hb.1 hb.2.1 (h.1 (by simp [TestsTolerance, Shape.getType])).2 ha.1
    | .point s, .sphere t, ha, hb, h, _, _ =>
      obtain ⟨s', rfl⟩ := point_of ha; obtain ⟨t', rfl⟩ := sphere_of hb
      exact spherePoint_sc hM hM' hg hg' hk hk' hb.1 hb.2.1 ha.1
    | .point s, .plane t, ha, hb, h, _, _ =>
      obtain ⟨s', rfl⟩ := point_of ha; obtain ⟨t', rfl⟩ := plane_of hb
      exact planePoint_sc hM hM' hg hg' hk hk' hb.1 hb.2.1 (h.1 (by simp [TestsTolerance, Shape.getType])).2 ha.1
    | .point s, .box t, ha, hb, h, _, _ =>
      obtain ⟨s', rfl⟩ := point_of ha; obtain ⟨t', rfl⟩ := box_of hb
      exact sc_some ha.1
    | .point s, .triPrism t, ha, hb, h, _, _ =>
      obtain ⟨s', rfl⟩ := point_of ha; obtain ⟨t', rfl⟩ := prism_of hb
      exact prismPoint_sc hM hM' hg hg' hk hk' hb ha.1
    | .ray s, .point t, ha, hb, h, _, _ =>
      obtain ⟨s', rfl⟩ := ray_of ha; obtain ⟨t', rfl⟩ := point_of hb
      exact rayPoint_sc hM hM' hg hg' hk hk' ha.1 ha.2.1 (h.1 (by simp [TestsTolerance, Shape.getType])).1 hb.1
    | .ray s, .ray t, ha, hb, h, _, _ =>
      obtain ⟨s', rfl⟩ := ray_of ha; obtain ⟨t', rfl⟩ := ray_of hb
      exact rayRay_sc hM hM' hg hg' hk hk' ha.1 ha.2.1 (h.2 rfl rfl) hb.1 hb.2.1
    | .ray s, .sphere t, ha, hb, h, _, _ =>
      obtain ⟨s', rfl⟩ := ray_of ha; obtain ⟨t', rfl⟩ := sphere_of hb
      exact raySphere_sc hM hM' hg hg' hk hk' ha.1 ha.2.1 hb.1 hb.2.1
    | .ray s, .plane t, ha, hb, h, _, _ =>
      obtain ⟨s', rfl⟩ := ray_of ha; obtain ⟨t', rfl⟩ := plane_of hb
      exact rayPlane_sc hM hM' hg hg' hk hk' ha.1 ha.2.1 hb.1 hb.2.1
    | .sphere s, .point t, ha, hb, h, _, _ =>
      obtain ⟨s', rfl⟩ := sphere_of ha; obtain ⟨t', rfl⟩ := point_of hb
      exact spherePoint_sc hM hM' hg hg' hk hk' ha.1 ha.2.1 hb.1
    | .sphere s, .ray t, ha, hb, h, _, _ =>
      obtain ⟨s', rfl⟩ := sphere_of ha; obtain ⟨t', rfl⟩ := ray_of hb
      exact raySphere_sc hM hM' hg hg' hk hk' hb.1 hb.2.1 ha.1 ha.2.1
    | .sphere s, .sphere t, ha, hb, h, _, _ =>
      obtain ⟨s', rfl⟩ := sphere_of ha; obtain ⟨t', rfl⟩ := sphere_of hb
      exact sphereSphere_sc hM hM' hg hg' hk hk' ha.1 ha.2.1 hb.1 hb.2.1
    | .sphere s, .plane t, ha, hb, h, _, _ =>
      obtain ⟨s', rfl⟩ := sphere_of ha; obtain ⟨t', rfl⟩ := plane_of hb
      exact spherePlane_sc hM hM' hg hg' hk hk' ha.1 ha.2.1 hb.1 hb.2.1
    | .plane s, .point t, ha, hb, h, _, _ =>
      obtain ⟨s', rfl⟩ := plane_of ha; obtain ⟨t', rfl⟩ := point_of hb
      exact planePoint_sc hM hM' hg hg' hk hk' ha.1 ha.2.1 (h.1 (by simp [TestsTolerance, Shape.getType])).1 hb.1
    | .plane s, .ray t, ha, hb, h, _, _ =>
      obtain ⟨s', rfl⟩ := plane_of ha; obtain ⟨t', rfl⟩ := ray_of hb
      exact rayPlane_sc hM hM' hg hg' hk hk' hb.1 hb.2.1 ha.1 ha.2.1
    | .plane s, .sphere t, ha, hb, h, _, _ =>
      obtain ⟨s', rfl⟩ := plane_of ha; obtain ⟨t', rfl⟩ := sphere_of hb
      exact spherePlane_sc hM hM' hg hg' hk hk' hb.1 hb.2.1 ha.1 ha.2.1
    | .box s, .point t, ha, hb, h, _, _ =>
      obtain ⟨s', rfl⟩ := box_of ha; obtain ⟨t', rfl⟩ := point_of hb
      exact sc_some hb.1
    | .triPrism s, .point t, ha, hb, h, _, _ =>
      obtain ⟨s', rfl⟩ := prism_of ha; obtain ⟨t', rfl⟩ := point_of hb
      exact prismPoint_sc hM hM' hg hg' hk hk' ha hb.1
    | .triPrism s, .line t, ha, hb, h, hl, _ =>
      obtain ⟨s', rfl⟩ := prism_of ha; obtain ⟨t', rfl⟩ := line_of hb
      exact prismLine_sc hM (hl (.inr rfl)).1 hg (hl (.inr rfl)).2 hk hk' ha hb.1 hb.2.1
    | .line s, .triPrism t, ha, hb, h, hl, _ =>
      obtain ⟨s', rfl⟩ := line_of ha; obtain ⟨t', rfl⟩ := prism_of hb
      exact prismLine_sc hM (hl (.inl rfl)).1 hg (hl (.inl rfl)).2 hk hk' hb ha.1 ha.2.1
  · rw [core_unsupported a b hs, core_unsupported a' b' (by rwa [type_sc ha, type_sc hb])]
    exact sc_error _

theorem getIntersect_sc (hM : 0 ≤ M) (hM' : M ≤ 40) (hg : 0 ≤ g) (hg' : g ≤ 92) (hk : -100 ≤ k) (hk' : k ≤ 100) (n : ℕ) {a b a' b' : Shape Q64}
    (ha : ShapeSc g M k a a') (hb : ShapeSc g M k b b') (ht : TolSc g M k a b a' b')
    (hl : (a.getType, b.getType) = (.line, .triPrism) ∨ (a.getType, b.getType) = (.triPrism, .line) → M ≤ 10 ∧ g ≤ 10) :
    ScRes k (Shape.getIntersect (n + 2) a b) (Shape.getIntersect (n + 2) a' b') := by
  rw [getIntersect_eq, getIntersect_eq]
  exact sc_ite ((aabb_sc ha).overlap (aabb_sc hb)) (core_sc hM hM' hg hg' hk hk' a b ha hb ht hl) fun _ => sc_none

/-! ### the constructors -/

section
variable (hM : 0 ≤ M) (hM' : M ≤ 40) (hg : 0 ≤ g) (hg' : g ≤ 92) (hk : -100 ≤ k) (hk' : k ≤ 100) (hj : -100 ≤ j) (hj' : j ≤ 100)
include hM hM' hg hg' hk hk'

/-- the numbers of a list are in range -/
def ListExt (g M : ℤ) (l : List (Fl Q64)) : Prop := ∀ x ∈ l, x.Ext (-g) M

def CtorExt (g M : ℤ) : Ctor Q64 → Prop
  | .point o => ListExt g M o
  | .ray o d => ListExt g M o ∧ ListExt g M d
  | .sphere o r => ListExt g M o ∧ r.Ext (-g) M
  | .plane o n => ListExt g M o ∧ ListExt g M n
  | .box o h => ListExt g M o ∧ h.Ext (-g) M
  | .line a b => ListExt g M a ∧ ListExt g M b
  | .triPrism v h => ListExt g M v ∧ h.Ext (-g) M

omit hM hM' hg hg' hk hk' in
theorem v3_sc {x y z : Fl Q64} (hx : x.Ext (-g) M) (hy : y.Ext (-g) M) (hz : z.Ext (-g) M) :
    PosSc g M k ⟨#v[x, y, z]⟩ ⟨#v[Fl.scale2 k x, Fl.scale2 k y, Fl.scale2 k z]⟩ := ⟨⟨hx, rfl⟩, ⟨hy, rfl⟩, ⟨hz, rfl⟩⟩

omit hM hM' hg hg' hk hk' in
theorem list_sc {x y z : Fl Q64} (h : ListExt g M [x, y, z]) :
    PosSc g M k ⟨#v[x, y, z]⟩ ⟨#v[Fl.scale2 k x, Fl.scale2 k y, Fl.scale2 k z]⟩ := v3_sc (h x (by simp)) (h y (by simp)) (h z (by simp))

omit hM hM' hg hg' hk hk' in
theorem point_made_sc {o : List (Fl Q64)} {s : Point3 Q64} (h : Point3.init o = .ok s) (ho : ListExt g M o) :
    ∃ s', Point3.init (o.map (Fl.scale2 k)) = .ok s' ∧ ShapeSc g M k (.point s) (.point s') := by
  by_cases h1 : o.length = 3
  · obtain ⟨x, y, z, rfl⟩ := list3 h1
    obtain rfl := Except.ok.inj h
    exact ⟨_, rfl, list_sc ho, bsc_mk ⟨rfl, rfl⟩ ⟨rfl, rfl⟩ ⟨rfl, rfl⟩⟩
  · simp [Point3.init, beq_false_of_ne h1] at h

theorem around_sc {x r : Fl Q64} (hx : x.Ext (-g) M) (hr : r.Ext (-g) M) : Fl.scale2 k x - Fl.scale2 k r = Fl.scale2 k (x - r) ∧
    Fl.scale2 k x + Fl.scale2 k r = Fl.scale2 k (x + r) := by
  have h1 : Fl.Sc (-g) M k x (Fl.scale2 k x) := ⟨hx, rfl⟩
  have h2 : Fl.Sc (-g) M k r (Fl.scale2 k r) := ⟨hr, rfl⟩
  exact ⟨(h1.sub h2).2, (h1.add h2).2⟩

theorem sphere_made_sc {o : List (Fl Q64)} {r : Fl Q64} {s : Sphere Q64} (h : Sphere.init o r = .ok s) (ho : ListExt g M o) (hr : r.Ext (-g) M) :
    ∃ s', Sphere.init (o.map (Fl.scale2 k)) (Fl.scale2 k r) = .ok s' ∧ ShapeSc g M k (.sphere s) (.sphere s') := by
  by_cases h1 : o.length = 3
  · obtain ⟨x, y, z, rfl⟩ := list3 h1
    obtain rfl := Except.ok.inj h
    have a {x : Fl Q64} (hx : x.Ext (-g) M) := around_sc hM hM' hg hg' hk hk' hx hr
    exact ⟨_, rfl, list_sc ho, ⟨hr, rfl⟩, bsc_mk (a (ho x (by simp))) (a (ho y (by simp))) (a (ho z (by simp)))⟩
  · simp [Sphere.init, beq_false_of_ne h1] at h

theorem box_made_sc {o : List (Fl Q64)} {r : Fl Q64} {s : RecBox Q64} (h : RecBox.init o r = .ok s) (ho : ListExt g M o) (hr : r.Ext (-g) M) :
    ∃ s', RecBox.init (o.map (Fl.scale2 k)) (Fl.scale2 k r) = .ok s' ∧ ShapeSc g M k (.box s) (.box s') := by
  by_cases h1 : o.length = 3
  · obtain ⟨x, y, z, rfl⟩ := list3 h1
    obtain rfl := Except.ok.inj h
    have a {x : Fl Q64} (hx : x.Ext (-g) M) := around_sc hM hM' hg hg' hk hk' hx hr
    exact ⟨_, rfl, list_sc ho, bsc_mk (a (ho x (by simp))) (a (ho y (by simp))) (a (ho z (by simp)))⟩
  · simp [RecBox.init, beq_false_of_ne h1] at h

include hj hj' in
theorem dir_sc {x y z : Fl Q64} (h : ListExt g M [x, y, z]) :
    DirSc g M (V3.nrm ⟨#v[x, y, z]⟩) (V3.nrm ⟨#v[Fl.scale2 j x, Fl.scale2 j y, Fl.scale2 j z]⟩) := by
  have := list_sc (k := j) h
  exact ⟨this.nrm.mono, this.nrm_eq⟩

include hj hj' in
theorem ray_made_sc {o d : List (Fl Q64)} {s : Ray3 Q64} (h : Ray3.init o d = .ok s) (ho : ListExt g M o) (hd : ListExt g M d) :
    ∃ s', Ray3.init (o.map (Fl.scale2 k)) (d.map (Fl.scale2 j)) = .ok s' ∧ ShapeSc g M k (.ray s) (.ray s') := by
  by_cases h1 : o.length = 3
  · by_cases h2 : d.length = 3
    · obtain ⟨x, y, z, rfl⟩ := list3 h1
      obtain ⟨x', y', z', rfl⟩ := list3 h2
      obtain rfl := Except.ok.inj h
      exact ⟨_, rfl, list_sc ho, dir_sc hM hM' hg hg' hk hk' hj hj' hd, bsc_mk (bsc_ray _ _) (bsc_ray _ _) (bsc_ray _ _)⟩
    · simp [Ray3.init, h1, beq_false_of_ne h2] at h
  · simp [Ray3.init, beq_false_of_ne h1] at h

include hj hj' in
theorem plane_made_sc {o d : List (Fl Q64)} {s : Plane Q64} (h : Plane.init o d = .ok s) (ho : ListExt g M o) (hd : ListExt g M d) :
    ∃ s', Plane.init (o.map (Fl.scale2 k)) (d.map (Fl.scale2 j)) = .ok s' ∧ ShapeSc g M k (.plane s) (.plane s') := by
  by_cases h1 : o.length = 3
  · by_cases h2 : d.length = 3
    · obtain ⟨x, y, z, rfl⟩ := list3 h1
      obtain ⟨x', y', z', rfl⟩ := list3 h2
      obtain rfl := Except.ok.inj h
      exact ⟨_, rfl, list_sc ho, dir_sc hM hM' hg hg' hk hk' hj hj' hd, bsc_default⟩
    · simp [Plane.init, h1, beq_false_of_ne h2] at h
  · simp [Plane.init, beq_false_of_ne h1] at h

omit hM hM' hg hg' hk hk' in
theorem line_made_sc {a b : List (Fl Q64)} {s : Line3 Q64} (h : Line3.init a b = .ok s) (ha : ListExt g M a) (hb : ListExt g M b) :
    ∃ s', Line3.init (a.map (Fl.scale2 k)) (b.map (Fl.scale2 k)) = .ok s' ∧ ShapeSc g M k (.line s) (.line s') := by
  by_cases h1 : a.length = 3
  · by_cases h2 : b.length = 3
    · obtain ⟨x, y, z, rfl⟩ := list3 h1
      obtain ⟨x', y', z', rfl⟩ := list3 h2
      rw [line_init] at h
      obtain rfl := Except.ok.inj h
      exact ⟨_, line_init .., list_sc ha, list_sc hb, boxL_sc (.cons (ve (list_sc ha)) (.cons (ve (list_sc hb)) .nil))⟩
    · simp [Line3.init, h1, beq_false_of_ne h2] at h
  · simp [Line3.init, beq_false_of_ne h1] at h

theorem prism_made_sc {v : List (Fl Q64)} {h : Fl Q64} {s : TriPrism Q64} (hs : TriPrism.init v h = .ok s) (hv : ListExt g M v) (hh : h.Ext (-g) M) :
    ∃ s', TriPrism.init (v.map (Fl.scale2 k)) (Fl.scale2 k h) = .ok s' ∧ ShapeSc g M k (.triPrism s) (.triPrism s') := by
  by_cases h1 : v.length = 9
  · rcases v with _ | ⟨a, _ | ⟨b, _ | ⟨c, _ | ⟨a', _ | ⟨b', _ | ⟨c', _ | ⟨a'', _ | ⟨b'', _ | ⟨c'', _ | _⟩⟩⟩⟩⟩⟩⟩⟩⟩ <;> simp at h1
    rw [prism_init] at hs
    obtain rfl := Except.ok.inj hs
    have m0 := v3_sc (k := k) (hv a (by simp)) (hv b (by simp)) (hv c (by simp))
    have m1 := v3_sc (k := k) (hv a' (by simp)) (hv b' (by simp)) (hv c' (by simp))
    have m2 := v3_sc (k := k) (hv a'' (by simp)) (hv b'' (by simp)) (hv c'' (by simp))
    have hl : Fl.Sc (-g) M k h (Fl.scale2 k h) := ⟨hh, rfl⟩
    have mn := (((((m1.sub m0).crs (m2.sub m0)).nrm).scl hl).cast (n := k)).mono (f := -(3 * g + 2 * M + 57)) (c := M + 1)
    refine ⟨_, prism_init .., ⟨m0, m1, m2⟩, (m0.add mn).mono, mn, boxL_sc
      (.cons (ve m0) (.cons (ve m1) (.cons (ve m2) (.cons (ve (m0.add mn)) (.cons (ve (m1.add mn)) (.cons (ve (m2.add mn)) .nil))))))⟩
  · simp [TriPrism.init, beq_false_of_ne h1] at hs

include hj hj' in
theorem made_sc (c : Ctor Q64) {s : Shape Q64} (h : c.make = .ok s) (hc : CtorExt g M c) :
    ∃ s', (c.inUnit k j).make = .ok s' ∧ ShapeSc g M k s s' := by
  cases c with
  | point o => obtain ⟨p, hp, rfl⟩ := map_ok h
               obtain ⟨p', h1, h2⟩ := point_made_sc hp hc
               exact ⟨_, congrArg (Except.map Shape.point) h1, h2⟩
  | ray o d => obtain ⟨p, hp, rfl⟩ := map_ok h
               obtain ⟨p', h1, h2⟩ := ray_made_sc hM hM' hg hg' hk hk' hj hj' hp hc.1 hc.2
               exact ⟨_, congrArg (Except.map Shape.ray) h1, h2⟩
  | sphere o r => obtain ⟨p, hp, rfl⟩ := map_ok h
                  obtain ⟨p', h1, h2⟩ := sphere_made_sc hM hM' hg hg' hk hk' hp hc.1 hc.2
                  exact ⟨_, congrArg (Except.map Shape.sphere) h1, h2⟩
  | plane o n => obtain ⟨p, hp, rfl⟩ := map_ok h
                 obtain ⟨p', h1, h2⟩ := plane_made_sc hM hM' hg hg' hk hk' hj hj' hp hc.1 hc.2
                 exact ⟨_, congrArg (Except.map Shape.plane) h1, h2⟩
  | box o r => obtain ⟨p, hp, rfl⟩ := map_ok h
               obtain ⟨p', h1, h2⟩ := box_made_sc hM hM' hg hg' hk hk' hp hc.1 hc.2
               exact ⟨_, congrArg (Except.map Shape.box) h1, h2⟩
  | line a b => obtain ⟨p, hp, rfl⟩ := map_ok h
                obtain ⟨p', h1, h2⟩ := line_made_sc hp hc.1 hc.2
                exact ⟨_, congrArg (Except.map Shape.line) h1, h2⟩
  | triPrism v r => obtain ⟨p, hp, rfl⟩ := map_ok h
                    obtain ⟨p', h1, h2⟩ := prism_made_sc hM hM' hg hg' hk hk' hp hc.1 hc.2
                    exact ⟨_, congrArg (Except.map Shape.triPrism) h1, h2⟩

end

theorem within_ext {m : ℤ} {x : Fl Q64} (h : x.Within m) : x.Ext (-(m + 52)) m := by
  cases x with
  | nan => exact .inr (.inl rfl)
  | inf s => exact .inr (.inr ⟨s, rfl⟩)
  | nzero => exact .inl (Fl.zero_rg true)
  | fin v =>
    refine .inl ⟨v, rfl, ?_⟩
    rcases h.2 v rfl with h0 | ⟨h1, h2⟩
    · rw [h0, abs_zero]; exact ⟨Gr.zero _, (pow2_pos _).le⟩
    · refine ⟨?_, h2⟩
      have := Gr.of_rep (p := 53) (emin := -1074) (emax := 1024) (v := v.q) h.1 h1
      rwa [show -m - (((53 : ℕ) : ℤ) - 1) = -(m + 52) by norm_num; ring] at this

theorem ctor_ext {m : ℤ} {c : Ctor Q64} (h : c.Within m) : CtorExt (m + 52) m c := by
  have e {x : Fl Q64} (h : x.Within m) := within_ext h
  cases c <;> first
    | exact fun x hx => e (h x hx)
    | exact ⟨fun x hx => e (h.1 x hx), fun x hx => e (h.2 x hx)⟩
    | exact ⟨fun x hx => e (h.1 x hx), e h.2⟩

theorem grid_ext {x : Fl Q64} (h : ∃ m : ℤ, |m| ≤ 2 ^ 20 ∧ x.Is (show Q64 from ((m : ℚ) / 1024 : ℚ))) : x.Ext (-10) 10 := by
  obtain ⟨m, hm, hx⟩ := h
  refine .inl ⟨_, hx, ⟨m, ?_⟩, ?_⟩
  · show ((m : ℚ) / 1024 : ℚ) = m * pow2 (-10)
    rw [show (pow2 (-10) : ℚ) = 1 / 1024 by decide +kernel]; ring
  · show |((m : ℚ) / 1024 : ℚ)| ≤ pow2 10
    have : |(m : ℚ)| ≤ 2 ^ 20 := by exact_mod_cast hm
    rw [abs_div, show (pow2 10 : ℚ) = 1024 by decide +kernel, abs_of_pos (by norm_num : (0 : ℚ) < 1024), div_le_iff₀ (by norm_num)]
    linarith

end PSQ

/-! ## C93 -/

/-- C93: in another unit of length (a power of two) the intersection query gives the same flag or panic and the same location,
exactly, bit for bit.  All numbers are zero, not finite or of size between `2^-40` and `2^40`, and shifts are at most 100
places; directions and normals may be multiplied by other powers of two.  For pairs whose test involves a tolerance, the
tolerance must be set to a length that is multiplied too, and must be zero for two rays.  Segments against prisms: see `C93_segment`. -/
theorem C93_query {k j j' : ℤ} (hk : |k| ≤ 100) (hj : |j| ≤ 100) (hj' : |j'| ≤ 100) {a b : Ctor Q64} {A B : Shape Q64}
    (hA : a.make = .ok A) (hB : b.make = .ok B) (wa : a.Within 40) (wb : b.Within 40)
    (hl : (A.getType, B.getType) ≠ (.line, .triPrism) ∧ (A.getType, B.getType) ≠ (.triPrism, .line)) :
    ∃ A' B', (a.inUnit k j).make = .ok A' ∧ (b.inUnit k j').make = .ok B' ∧
      (¬TestsTolerance A.getType B.getType → ∀ n, Shape.getIntersect (n + 2) A' B' = (Shape.getIntersect (n + 2) A B).map (Hit.inUnit k)) ∧
      ∀ n (e f : Fl Q64), e.Within 40 → f.Within 40 → (A.getType = .ray → B.getType = .ray → e.val = some 0) →
        Shape.getIntersect (n + 2) (A'.setVicinity (Fl.scale2 k e)) (B'.setVicinity (Fl.scale2 k f)) =
          (Shape.getIntersect (n + 2) (A.setVicinity e) (B.setVicinity f)).map (Hit.inUnit k) := by
  obtain ⟨k1, k2⟩ := abs_le.mp hk
  obtain ⟨j1, j2⟩ := abs_le.mp hj
  obtain ⟨i1, i2⟩ := abs_le.mp hj'
  obtain ⟨A', h1, m1⟩ := PSQ.made_sc (by norm_num) (by norm_num) (by norm_num) (by norm_num) k1 k2 j1 j2 a hA (PSQ.ctor_ext wa)
  obtain ⟨B', h2, m2⟩ := PSQ.made_sc (by norm_num) (by norm_num) (by norm_num) (by norm_num) k1 k2 i1 i2 b hB (PSQ.ctor_ext wb)
  refine ⟨A', B', h1, h2, fun hu n => ?_, fun n e f he hf hz => ?_⟩
  · refine PSQ.getIntersect_sc (by norm_num) (by norm_num) (by norm_num) (by norm_num) k1 k2 n m1 m2 ⟨fun h => absurd h hu, fun h h' => ?_⟩
      fun h => (h.elim hl.1 hl.2).elim
    exact absurd (by rw [h, h']; simp [TestsTolerance]) hu
  · have t (A : Shape Q64) (e : Fl Q64) : (A.setVicinity e).getType = A.getType := by cases A <;> rfl
    refine PSQ.getIntersect_sc (by norm_num) (by norm_num) (by norm_num) (by norm_num) k1 k2 n (PSQ.set_sc m1 _ _) (PSQ.set_sc m2 _ _)
      ⟨fun _ => ?_, fun h h' => ?_⟩ ?_
    · rw [PSQ.set_tol, PSQ.set_tol, PSQ.set_tol, PSQ.set_tol]
      exact ⟨Fl.Sc.abs ⟨PSQ.within_ext he, rfl⟩, Fl.Sc.abs ⟨PSQ.within_ext hf, rfl⟩⟩
    · rw [t] at h h'
      rw [PSQ.set_tol, PSQ.set_tol, Fl.abs_scale2]
      have : Fl.abs e = 0 := by
        rcases NaN.val_zero (hz h h') with rfl | rfl
        · rfl
        · show Fl.fin |(0 : Q64)| = Fl.fin 0
          rw [abs_zero]
      rw [this]; exact ⟨rfl, Fl.scale2_zero⟩
    · rw [t, t]; exact fun h => (h.elim hl.1 hl.2).elim

/-- C93 for a segment and a prism, and again for all pairs without a tolerance, if all coordinates and heights are multiples of
`1/1024` of size at most `1024`. -/
theorem C93_segment {k j j' : ℤ} (hk : |k| ≤ 100) (hj : |j| ≤ 100) (hj' : |j'| ≤ 100) {a b : Ctor Q64} {A B : Shape Q64}
    (hA : a.make = .ok A) (hB : b.make = .ok B) (wa : a.OnGrid) (wb : b.OnGrid) (hu : ¬TestsTolerance A.getType B.getType) :
    ∃ A' B', (a.inUnit k j).make = .ok A' ∧ (b.inUnit k j').make = .ok B' ∧
      ∀ n, Shape.getIntersect (n + 2) A' B' = (Shape.getIntersect (n + 2) A B).map (Hit.inUnit k) := by
  obtain ⟨k1, k2⟩ := abs_le.mp hk
  obtain ⟨j1, j2⟩ := abs_le.mp hj
  obtain ⟨i1, i2⟩ := abs_le.mp hj'
  have ext {c : Ctor Q64} (h : c.OnGrid) : PSQ.CtorExt 10 10 c := by
    cases c <;> first
      | exact fun x hx => PSQ.grid_ext (h x hx)
      | exact ⟨fun x hx => PSQ.grid_ext (h.1 x hx), fun x hx => PSQ.grid_ext (h.2 x hx)⟩
      | exact ⟨fun x hx => PSQ.grid_ext (h.1 x hx), PSQ.grid_ext h.2⟩
  obtain ⟨A', h1, m1⟩ := PSQ.made_sc (by norm_num) (by norm_num) (by norm_num) (by norm_num) k1 k2 j1 j2 a hA (ext wa)
  obtain ⟨B', h2, m2⟩ := PSQ.made_sc (by norm_num) (by norm_num) (by norm_num) (by norm_num) k1 k2 i1 i2 b hB (ext wb)
  refine ⟨A', B', h1, h2, fun n => ?_⟩
  refine PSQ.getIntersect_sc (by norm_num) (by norm_num) (by norm_num) (by norm_num) k1 k2 n m1 m2 ⟨fun h => absurd h hu, fun h h' => ?_⟩
    fun _ => ⟨le_rfl, le_rfl⟩
  exact absurd (by rw [h, h']; simp [TestsTolerance]) hu

/-- C93 for two rays that are not nearly parallel: the tolerance is compared with a number that is not a length, so it has to
*stay the same* (the default will do). -/
theorem C93_rays {k j j' : ℤ} (hk : |k| ≤ 100) (hj : |j| ≤ 100) (hj' : |j'| ≤ 100) {o d o' d' : List (Fl Q64)} {r s : Ray3 Q64}
    (hr : Ray3.init o d = .ok r) (hs : Ray3.init o' d' = .ok s) (wa : (Ctor.ray o d).Within 40) (wb : (Ctor.ray o' d').Within 40)
    {v : V3 Q64} (hv : r.dir.cross s.dir = some v) (hp : v.isEqual Mat3x1.default (Fl.lit (1 / 10000)) = some false) :
    ∃ r' s', Ray3.init (o.map (Fl.scale2 k)) (d.map (Fl.scale2 j)) = .ok r' ∧ Ray3.init (o'.map (Fl.scale2 k)) (d'.map (Fl.scale2 j')) = .ok s' ∧
      ∀ n, Shape.getIntersect (n + 2) (.ray r') (.ray s') = (Shape.getIntersect (n + 2) (.ray r) (.ray s)).map (Hit.inUnit k) := by
  obtain ⟨k1, k2⟩ := abs_le.mp hk
  obtain ⟨j1, j2⟩ := abs_le.mp hj
  obtain ⟨i1, i2⟩ := abs_le.mp hj'
  obtain ⟨x1, x2⟩ := PSQ.ctor_ext wa
  obtain ⟨y1, y2⟩ := PSQ.ctor_ext wb
  obtain ⟨r', h1, m1⟩ := PSQ.ray_made_sc (by norm_num) (by norm_num) (by norm_num) (by norm_num) k1 k2 j1 j2 hr x1 x2
  obtain ⟨s', h2, m2⟩ := PSQ.ray_made_sc (by norm_num) (by norm_num) (by norm_num) (by norm_num) k1 k2 i1 i2 hs y1 y2
  refine ⟨r', s', h1, h2, fun n => ?_⟩
  have t {o d : List (Fl Q64)} {r : Ray3 Q64} (h : Ray3.init o d = .ok r) : r.vicinity = defaultVicinity := by
    by_cases l1 : o.length = 3
    · by_cases l2 : d.length = 3
      · obtain ⟨x, y, z, rfl⟩ := list3 l1
        obtain ⟨x', y', z', rfl⟩ := list3 l2
        obtain rfl := Except.ok.inj h
        rfl
      · simp [Ray3.init, l1, beq_false_of_ne l2] at h
    · simp [Ray3.init, beq_false_of_ne l1] at h
  rw [getIntersect_eq, getIntersect_eq]
  rw [V3.cross_eq] at hv
  obtain rfl := Option.some.inj hv
  rw [V3.isEqual_eq] at hp
  exact PSQ.sc_ite ((PSQ.aabb_sc m1).overlap (PSQ.aabb_sc m2)) (PSQ.rayRay_skew_sc (by norm_num) (by norm_num) (by norm_num) (by norm_num) k1 k2
    m1.1 m1.2.1 (by rw [t h1, t hr]) m2.1 m2.2.1 (Option.some.inj hp)) fun _ => PSQ.sc_none

/-! ### concrete cases -/

namespace PSQ

theorem within_int (n : ℤ) (h : |n| ≤ 2 ^ 20) (h64 : (Fl.fin (show Q64 from (n : ℚ))).WF) : (Fl.fin (show Q64 from (n : ℚ))).Within 40 := by
  refine ⟨h64, fun a ha => ?_⟩
  · have ha : a = (show Q64 from (n : ℚ)) := by cases ha; rfl
    subst ha
    show (n : ℚ) = 0 ∨ pow2 (-40) ≤ |(n : ℚ)| ∧ |(n : ℚ)| ≤ pow2 40
    rcases eq_or_ne n 0 with rfl | hn
    · left; simp
    · right
      have h1 : (1 : ℚ) ≤ |(n : ℚ)| := by exact_mod_cast Int.one_le_abs hn
      have h2 : |(n : ℚ)| ≤ 2 ^ 20 := by exact_mod_cast h
      rw [show (pow2 (-40) : ℚ) = 1 / 2 ^ 40 by decide +kernel, show (pow2 40 : ℚ) = 2 ^ 40 by decide +kernel]
      constructor <;> linarith

theorem grid_int (n : ℤ) (h : |n| ≤ 2 ^ 10) : ∃ m : ℤ, |m| ≤ 2 ^ 20 ∧ (Fl.fin (show Q64 from (n : ℚ))).Is (show Q64 from ((m : ℚ) / 1024 : ℚ)) := by
  refine ⟨n * 1024, ?_, ?_⟩
  · rw [abs_mul, show |(1024 : ℤ)| = 1024 by rfl]; omega
  · refine congrArg some (BinQ.q_inj ?_)
    show (n : ℚ) = ((n * 1024 : ℤ) : ℚ) / 1024
    push_cast; ring

end PSQ

/-- a ball and a ray that meets it, both in range -/
example : ∃ A B : Shape Q64, (Ctor.sphere [.fin 3, 0, 0] 1 : Ctor Q64).make = .ok A ∧ (Ctor.ray [0, 0, 0] [.fin 5, 0, 0] : Ctor Q64).make = .ok B ∧
    (Ctor.sphere [.fin 3, 0, 0] 1 : Ctor Q64).Within 40 ∧ (Ctor.ray [0, 0, 0] [.fin 5, 0, 0] : Ctor Q64).Within 40 ∧
    ¬TestsTolerance A.getType B.getType ∧ Shape.getIntersect 2 A B = .ok (true, some ⟨#v[.fin 2, 0, 0]⟩) := by
  have w0 := PSQ.within_int 0 (by norm_num) (.inl rfl)
  have w1 := PSQ.within_int 1 (by norm_num) (.inr (by decide +kernel))
  have w3 := PSQ.within_int 3 (by norm_num) (.inr (by decide +kernel))
  have w5 := PSQ.within_int 5 (by norm_num) (.inr (by decide +kernel))
  refine ⟨_, _, rfl, rfl, ⟨?_, w1⟩, ⟨?_, ?_⟩, (by decide : ¬TestsTolerance .sphere .ray), by decide +kernel⟩ <;> intro x hx <;>
    simp only [List.mem_cons, List.not_mem_nil, or_false] at hx <;> rcases hx with rfl | rfl | rfl
  exacts [w3, w0, w0, w0, w0, w0, w5,
    w0, w0]

/-- the same in a unit `2^60` times smaller, with the direction divided by 8 -/
example : ∃ A B : Shape Q64, ((Ctor.sphere [.fin 3, 0, 0] 1 : Ctor Q64).inUnit 60 (-3)).make = .ok A ∧
    ((Ctor.ray [0, 0, 0] [.fin 5, 0, 0] : Ctor Q64).inUnit 60 (-3)).make = .ok B ∧
    Shape.getIntersect 2 A B = .ok (true, some ⟨#v[.fin (2 ^ 61), 0, 0]⟩) :=
  ⟨_, _, rfl, rfl, by decide +kernel⟩

/-- a plane and a point within a tolerance of `1/2`, and again in a unit `2^60` times smaller -/
example : ∃ A B A' B' : Shape Q64, (Ctor.plane [0, 0, 0] [0, 0, 1] : Ctor Q64).make = .ok A ∧ (Ctor.point [1, 1, .fin (1 / 4)] : Ctor Q64).make = .ok B ∧
    ((Ctor.plane [0, 0, 0] [0, 0, 1] : Ctor Q64).inUnit 60 5).make = .ok A' ∧ ((Ctor.point [1, 1, .fin (1 / 4)] : Ctor Q64).inUnit 60 0).make = .ok B' ∧
    Shape.getIntersect 2 (A.setVicinity (.fin (1 / 2))) (B.setVicinity (.fin (1 / 2))) = .ok (true, some ⟨#v[1, 1, .fin (1 / 4)]⟩) ∧
    Shape.getIntersect 2 (A'.setVicinity (Fl.scale2 60 (.fin (1 / 2)))) (B'.setVicinity (Fl.scale2 60 (.fin (1 / 2)))) =
      .ok (true, some ⟨#v[.fin (2 ^ 60), .fin (2 ^ 60), .fin (2 ^ 58)]⟩) :=
  ⟨_, _, _, _, rfl, rfl, rfl, rfl, by decide +kernel, by decide +kernel⟩

/-- a segment that crosses a prism, on the grid -/
example : ∃ A B : Shape Q64, (Ctor.line [1, 1, .fin (-1)] [1, 1, .fin 2] : Ctor Q64).make = .ok A ∧
    (Ctor.triPrism [0, 0, 0, .fin 4, 0, 0, 0, .fin 4, 0] 1 : Ctor Q64).make = .ok B ∧
    (Ctor.line [1, 1, .fin (-1)] [1, 1, .fin 2] : Ctor Q64).OnGrid ∧ (Ctor.triPrism [0, 0, 0, .fin 4, 0, 0, 0, .fin 4, 0] 1 : Ctor Q64).OnGrid ∧
    ¬TestsTolerance A.getType B.getType ∧ Shape.getIntersect 2 A B = .ok (true, some ⟨#v[1, 1, 0]⟩) := by
  have w (n : ℤ) (h : |n| ≤ 2 ^ 10) := PSQ.grid_int n h
  refine ⟨_, _, rfl, rfl, ⟨?_, ?_⟩, ⟨?_, w 1 (by norm_num)⟩, (by decide : ¬TestsTolerance .line .triPrism), by decide +kernel⟩ <;> intro x hx <;>
    simp only [List.mem_cons, List.not_mem_nil, or_false] at hx
  · rcases hx with rfl | rfl | rfl
    exacts [w 1 (by norm_num), w 1 (by norm_num), w (-1) (by norm_num)]
  · rcases hx with rfl | rfl | rfl
    exacts [w 1 (by norm_num), w 1 (by norm_num), w 2 (by norm_num)]
  · rcases hx with rfl | rfl | rfl | rfl | rfl | rfl | rfl | rfl | rfl
    exacts [w 0 (by norm_num), w 0 (by norm_num), w 0 (by norm_num), w 4 (by norm_num), w 0 (by norm_num), w 0 (by norm_num),
      w 0 (by norm_num), w 4 (by norm_num), w 0 (by norm_num)]

/-- two rays that are not parallel, in two units, with the default tolerance -/
example : ∃ r s r' s' : Ray3 Q64, Ray3.init [0, 0, 0] [1, 0, 0] = .ok r ∧ Ray3.init [1, .fin (-1), 0] [0, 1, 0] = .ok s ∧
    (∃ v, r.dir.cross s.dir = some v ∧ v.isEqual Mat3x1.default (Fl.lit (1 / 10000)) = some false) ∧
    Ray3.init ([0, 0, 0].map (Fl.scale2 60)) ([1, 0, 0].map (Fl.scale2 3)) = .ok r' ∧
    Ray3.init ([1, .fin (-1), 0].map (Fl.scale2 60)) ([0, 1, 0].map (Fl.scale2 0)) = .ok s' ∧
    Shape.getIntersect 2 (.ray r) (.ray s) = .ok (true, some ⟨#v[1, 0, 0]⟩) ∧
    Shape.getIntersect 2 (.ray r') (.ray s') = .ok (true, some ⟨#v[.fin (2 ^ 60), 0, 0]⟩) :=
  ⟨_, _, _, _, rfl, rfl, ⟨_, rfl, by decide +kernel⟩, rfl, rfl, by decide +kernel, by decide +kernel⟩

/-- C93 fails for the default tolerance: a point at height `2^-30` lies in the plane, but not in a unit `2^20` times smaller. -/
theorem C93_default_false : ∃ A B A' B' : Shape Q64,
    (Ctor.plane [0, 0, 0] [0, 0, 1] : Ctor Q64).make = .ok A ∧ (Ctor.point [0, 0, .fin (1 / 2 ^ 30)] : Ctor Q64).make = .ok B ∧
    ((Ctor.plane [0, 0, 0] [0, 0, 1] : Ctor Q64).inUnit 20 0).make = .ok A' ∧
    ((Ctor.point [0, 0, .fin (1 / 2 ^ 30)] : Ctor Q64).inUnit 20 0).make = .ok B' ∧
    Shape.getIntersect 2 A B = .ok (true, some ⟨#v[0, 0, .fin (1 / 2 ^ 30)]⟩) ∧ Shape.getIntersect 2 A' B' = .ok (false, none) :=
  ⟨_, _, _, _, rfl, rfl, rfl, rfl, by decide +kernel, by decide +kernel⟩

/-- C93 fails for two rays if the tolerance is changed along with the unit: two rays from the origin meet within a tolerance
of `2^-40`, but, after dividing all lengths and this tolerance by `2^60`, they do not. -/
theorem C93_rays_tolerance_false : ∃ A B A' B' : Shape Q64,
    (Ctor.ray [0, 0, 0] [0, 1, 1] : Ctor Q64).make = .ok A ∧ (Ctor.ray [0, 0, 0] [1, 0, .fin 3] : Ctor Q64).make = .ok B ∧
    ((Ctor.ray [0, 0, 0] [0, 1, 1] : Ctor Q64).inUnit (-60) 0).make = .ok A' ∧ ((Ctor.ray [0, 0, 0] [1, 0, .fin 3] : Ctor Q64).inUnit (-60) 0).make = .ok B' ∧
    Shape.getIntersect 2 (A.setVicinity (.fin (1 / 2 ^ 40))) (B.setVicinity (.fin (1 / 2 ^ 40))) = .ok (true, some ⟨#v[0, 0, 0]⟩) ∧
    Shape.getIntersect 2 (A'.setVicinity (Fl.scale2 (-60) (.fin (1 / 2 ^ 40)))) (B'.setVicinity (Fl.scale2 (-60) (.fin (1 / 2 ^ 40)))) =
      .ok (false, none) :=
  ⟨_, _, _, _, rfl, rfl, rfl, rfl, by decide +kernel, by decide +kernel⟩

end Mazth
