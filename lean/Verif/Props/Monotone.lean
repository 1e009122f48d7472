import Verif.Props.Degenerate
import Verif.Float.BinaryLawful

/-!
# C73: a larger sphere or box never loses a hit, in floating point

For every lawful rounding and all floats, NaN and infinities included: rounding, overflow and NaN do not break monotonicity.
-/

set_option linter.unusedSectionVars false
set_option autoImplicit false

namespace Mazth

variable {K : Type} [Field K] [LinearOrder K] [IsStrictOrderedRing K] [Fmt K] [LawfulFmt K]

namespace Fl

variable {x y z c r s : Fl K}

theorem lt_of_lt_of_le (h : lt x y = true) (h' : le y z = true) : lt x z = true := by
  have hx := lt_ne_nan h
  have hz := le_ne_nan h'
  rw [lt_eq_not_le hx.1 hz.2, Bool.not_eq_true']
  by_contra hc
  rw [Bool.not_eq_false] at hc
  have := le_trans h' hc
  rw [lt_eq_not_le hx.1 hx.2, this] at h
  simp at h

theorem lt_of_le_of_lt (h : le x y = true) (h' : lt y z = true) : lt x z = true := by
  have hx := le_ne_nan h
  have hz := lt_ne_nan h'
  rw [lt_eq_not_le hx.1 hz.2, Bool.not_eq_true']
  by_contra hc
  rw [Bool.not_eq_false] at hc
  have := le_trans hc h
  rw [lt_eq_not_le hz.1 hz.2, this] at h'
  simp at h'

theorem add_nan_cases (h : x + y = nan) : x = nan ∨ y = nan ∨ ∃ s, x = inf s ∧ y = inf !s := by
  change Fl.add x y = nan at h
  cases x <;> cases y <;> simp_all [Fl.add, addFin_eq, lit_ne_nan]
  rename_i s t
  cases s <;> cases t <;> simp_all

/-- enlarging a summand cannot make a sum smaller than a bound it was not smaller than -/
theorem add_lt_mono (h : le r s = true) (hlt : lt (c + s) x = true) : lt (c + r) x = true := by
  have hs := (lt_ne_nan hlt).1
  by_cases hr : c + r = nan
  · exfalso
    rcases add_nan_cases hr with rfl | rfl | ⟨t, rfl, rfl⟩
    · exact hs (NaN.nadd _)
    · exact (le_ne_nan h).1 rfl
    · cases t
      · have hs' : (inf false : Fl K) + s = inf false := by
          cases s with
          | nan => exact absurd (NaN.addn _) hs
          | inf u => cases u
                     · rfl
                     · exact absurd rfl hs
          | nzero => rfl
          | fin v => rfl
        rw [hs'] at hlt
        cases x <;> simp [lt] at hlt
      · have : s = inf false := by cases s <;> simp_all [le]
        subst this
        exact hs rfl
  · have := add_le_add_right' (z := c) h (by rwa [add_comm']) (by rwa [add_comm'])
    rw [add_comm' r, add_comm' s] at this
    exact lt_of_le_of_lt this hlt

theorem sub_lt_mono (h : le r s = true) (hlt : lt x (c - s) = true) : lt x (c - r) = true := by
  have hs := (lt_ne_nan hlt).2
  rw [sub_eq] at *
  have h := neg_le_neg h
  by_cases hr : c + -r = nan
  · exfalso
    rcases add_nan_cases hr with rfl | hn | ⟨t, rfl, hn⟩
    · exact hs (NaN.nadd _)
    · rw [hn] at h; simp at h
    · rw [hn] at h
      cases t
      · have : -s = inf true := by cases hq : -s <;> simp_all [le]
        rw [this] at hs
        exact hs rfl
      · have hs' : (inf true : Fl K) + -s = inf true := by
          cases hq : -s with
          | nan => rw [hq] at hs; exact absurd (NaN.addn _) hs
          | inf u => cases u
                     · rw [hq] at hs; exact absurd rfl hs
                     · rfl
          | nzero => rfl
          | fin v => rfl
        rw [hs'] at hlt
        cases x <;> simp [lt] at hlt
  · have := add_le_add_right' (z := c) h (by rwa [add_comm']) (by rwa [add_comm'])
    rw [add_comm' (-r), add_comm' (-s)] at this
    exact lt_of_lt_of_le hlt this

theorem fin_sq (a : K) : (fin a : Fl K) * fin a = lit (a * a) := by
  show Fl.mul _ _ = _
  simp only [Fl.mul, mulFin, Bool.xor_self, zero, lit]
  split <;> simp_all

/-- squares of ordered non-negative floats are ordered -/
theorem sq_mono (h0 : le 0 r = true) (h : le r s = true) : le (r * r) (s * s) = true := by
  have hz : (nzero : Fl K) * nzero = lit (0 * 0) := by rw [mul_zero, lit_zero]; rfl
  have hi : (inf false : Fl K) * inf false = inf false := rfl
  have hl (v : K) : le (lit v) (inf false) = true := by cases h : lit v <;> simp_all [le, lit_ne_nan]
  rw [zero_def] at h0
  cases r <;> cases s <;> simp only [le, decide_eq_true_eq, Bool.not_eq_true', Bool.false_eq_true, Bool.or_eq_true] at h0 h <;>
    simp_all only [fin_sq, Bool.false_eq_true, false_or] <;> first
    | exact lit_mono (by nlinarith)
    | exact hl _
    | rfl

/-- the discriminant of the ray-sphere query, as a function of the radius -/
theorem disc_lt_mono {R B : Fl K} (h0 : le 0 r = true) (h : le r s = true) (hlt : lt (B - (R - s * s)) x = true) :
    lt (B - (R - r * r)) x = true := by
  have hq := sq_mono h0 h
  have hn : R - s * s ≠ nan := fun he => by rw [he, NaN.subn] at hlt; simp at hlt
  rw [sub_eq B] at *
  refine add_lt_mono ?_ hlt
  apply neg_le_neg
  have hr : R - r * r ≠ nan := by
    intro he
    rw [sub_eq] at he
    rcases add_nan_cases he with rfl | hr | ⟨t, rfl, hr⟩
    · exact hn (NaN.nsub _)
    · exact neg_ne_nan (le_ne_nan hq).1 hr
    · have hr' : r * r = inf t := by rw [← neg_neg' (r * r), hr]; cases t <;> rfl
      have ht : t = false := by
        cases t
        · rfl
        · rcases nonNeg_sq r with h | h | ⟨w, _, h⟩ <;> rw [h] at hr' <;> simp_all
      subst ht
      have : s * s = inf false := by
        rw [hr'] at hq
        cases hs : s * s <;> simp_all [le]
      rw [this] at hn
      exact hn rfl
  have h2 := neg_le_neg hq
  rw [sub_eq R] at hn hr ⊢
  rw [sub_eq R]
  have := add_le_add_right' (z := R) h2 (by rwa [add_comm']) (by rwa [add_comm'])
  rwa [add_comm' (-(s * s)), add_comm' (-(r * r))] at this

end Fl

/-! ### the queries -/

/-- `t` is `s` with a radius at least as large and a bound at least as large -/
structure Grown (s t : Sphere K) : Prop where
  ori : t.ori = s.ori
  rad : Fl.le s.radius t.radius = true
  overlap : ∀ b, AABB.overlap s.bound b = true → AABB.overlap t.bound b = true

theorem overlap_mono {x y z r r' : Fl K} (h : Fl.le r r' = true) (b : AABB (Fl K))
    (ho : AABB.overlap ⟨#v[x - r, y - r, z - r], #v[x + r, y + r, z + r]⟩ b = true) :
    AABB.overlap ⟨#v[x - r', y - r', z - r'], #v[x + r', y + r', z + r']⟩ b = true := by
  rw [AABB.overlap_iff] at *
  have h1 {c u : Fl K} (hu : Fl.lt u (c - r) = false) : Fl.lt u (c - r') = false := by
    by_contra hc
    rw [Bool.not_eq_false] at hc
    rw [Fl.sub_lt_mono h hc] at hu; simp at hu
  have h2 {c u : Fl K} (hu : Fl.lt (c + r) u = false) : Fl.lt (c + r') u = false := by
    by_contra hc
    rw [Bool.not_eq_false] at hc
    rw [Fl.add_lt_mono h hc] at hu; simp at hu
  intro i
  have := ho i
  fin_cases i <;> exact ⟨h1 this.1, h2 this.2⟩

theorem grown {l : List (Fl K)} {r r' : Fl K} {s s' : Sphere K} (hs : Sphere.init l r = .ok s) (hs' : Sphere.init l r' = .ok s')
    (h : Fl.le r r' = true) : Grown s s' := by
  obtain ⟨x, y, z, rfl, ho, hr, hb⟩ := sphere_init_eq hs
  obtain ⟨x', y', z', hl, ho', hr', hb'⟩ := sphere_init_eq hs'
  simp only [List.cons.injEq, and_true] at hl
  obtain ⟨rfl, rfl, rfl⟩ := hl
  refine ⟨by rw [ho, ho'], by rw [hr, hr']; exact h, fun b hb0 => ?_⟩
  rw [hb] at hb0; rw [hb']
  exact overlap_mono h b hb0

variable {s s' : Sphere K} {q : Option (V3 K)}

theorem spherePoint_grow (g : Grown s s') (p : Point3 K) (h : s.intersectPoint (Shape.point p).getShapeData = .ok (true, q)) :
    s'.intersectPoint (Shape.point p).getShapeData = .ok (true, q) := by
  unfold Sphere.intersectPoint at *
  simp only [vecAt_point, Res.ok_bind, V3.minus_eq, unwrap_some, Res.pure_eq, g.ori] at *
  by_cases h1 : ((List.finRange 3).any fun i => Fl.lt s.radius (V3.sub p.ori s.ori).val[i.val]) = true
  · rw [if_pos h1] at h; simp at h
  · rw [if_neg h1] at h
    rw [if_neg]
    · exact h
    · intro h2
      apply h1
      rw [List.any_eq_true] at *
      obtain ⟨i, hi, h3⟩ := h2
      exact ⟨i, hi, Fl.lt_of_le_of_lt g.rad h3⟩

theorem spherePlane_grow (g : Grown s s') (p : Plane K) (h : s.intersectPlane (Shape.plane p).getShapeData = .ok (true, q)) :
    s'.intersectPlane (Shape.plane p).getShapeData = .ok (true, q) := by
  unfold Sphere.intersectPlane at *
  simp only [vecAt_plane0, vecAt_plane3, Res.ok_bind, V3.dot_eq, V3.scale_eq, V3.plus_eq, unwrap_some, Res.pure_eq, g.ori] at *
  by_cases h1 : Fl.lt s.radius (V3.dotp p.normal s.ori - V3.dotp p.normal p.offset) = true
  · rw [if_pos h1] at h; simp at h
  · rw [if_neg h1] at h
    rw [if_neg fun h2 => h1 (Fl.lt_of_le_of_lt g.rad h2)]
    exact h

theorem sphereSphere_grow (g : Grown s s') (t : Sphere K) :
    (s.intersectSphere (Shape.sphere t).getShapeData = .ok (true, q) → ∃ q', s'.intersectSphere (Shape.sphere t).getShapeData = .ok (true, q')) ∧
    (t.intersectSphere (Shape.sphere s).getShapeData = .ok (true, q) → ∃ q', t.intersectSphere (Shape.sphere s').getShapeData = .ok (true, q')) := by
  unfold Sphere.intersectSphere
  simp only [vecAt_sphere, sliceGet_sphere, Res.ok_bind, V3.minus_eq, V3.magnitude_eq, V3.scale_eq, V3.plus_eq, unwrap_some, Res.pure_eq, g.ori]
  constructor <;> intro h
  · by_cases h1 : Fl.lt (t.radius + s.radius) (V3.mag (V3.sub t.ori s.ori)) = true
    · rw [if_pos h1] at h; simp at h
    · rw [if_neg fun h2 => h1 (Fl.add_lt_mono g.rad h2)]
      exact ⟨_, rfl⟩
  · by_cases h1 : Fl.lt (s.radius + t.radius) (V3.mag (V3.sub s.ori t.ori)) = true
    · rw [if_pos h1] at h; simp at h
    · rw [if_neg fun h2 => h1 (by rw [Fl.add_comm'] at h2 ⊢; exact Fl.add_lt_mono g.rad h2)]
      exact ⟨_, rfl⟩

theorem raySphere_grow (g : Grown s s') (h0 : Fl.le 0 s.radius = true) (t : Ray3 K)
    (h : t.intersectSphere (Shape.sphere s).getShapeData = .ok (true, q)) : ∃ q', t.intersectSphere (Shape.sphere s').getShapeData = .ok (true, q') := by
  unfold Ray3.intersectSphere at *
  simp only [vecAt_sphere, sliceGet_sphere, Res.ok_bind, V3.minus_eq, V3.dot_eq, V3.scale_eq, V3.plus_eq, unwrap_some, Res.pure_eq, g.ori] at *
  generalize V3.dotp (V3.sub t.ori s.ori) (V3.sub t.ori s.ori) = R at *
  generalize V3.dotp (V3.sub t.ori s.ori) t.dir = B at *
  by_cases h1 : (Fl.lt 0 B && Fl.lt 0 (R - s.radius * s.radius)) = true
  · rw [if_pos h1] at h; simp at h
  rw [if_neg h1] at h
  by_cases h2 : Fl.lt (B * B - (R - s.radius * s.radius)) 0 = true
  · rw [if_pos h2] at h; simp at h
  rw [if_neg, if_neg]
  · exact ⟨_, rfl⟩
  · exact fun h3 => h2 (Fl.disc_lt_mono h0 g.rad h3)
  · intro h3
    rw [Bool.and_eq_true] at h1 h3
    exact h1 ⟨h3.1, Fl.sub_lt_mono (Fl.sq_mono h0 g.rad) h3.2⟩

theorem core_grow_left (g : Grown s s') : (b : Shape K) → (b.getType = .ray → Fl.le 0 s.radius = true) → core (.sphere s) b = .ok (true, q) →
      ∃ q', core (.sphere s') b = .ok (true, q') ∧ (b.getType = .point ∨ b.getType = .plane → q' = q)
  | .point p, _, h => ⟨q, spherePoint_grow g p h, fun _ => rfl⟩
  | .plane p, _, h => ⟨q, spherePlane_grow g p h, fun _ => rfl⟩
  | .sphere t, _, h => let ⟨q', h'⟩ := (sphereSphere_grow g t).1 h; ⟨q', h', by simp [Shape.getType]⟩
  | .ray t, h0, h => let ⟨q', h'⟩ := raySphere_grow g (h0 rfl) t h; ⟨q', h', by simp [Shape.getType]⟩
  | .box _, _, h | .line _, _, h | .triPrism _, _, h => by simp [core] at h

theorem core_grow_right (g : Grown s s') : (b : Shape K) → (b.getType = .ray → Fl.le 0 s.radius = true) → core b (.sphere s) = .ok (true, q) →
      ∃ q', core b (.sphere s') = .ok (true, q') ∧ (b.getType = .point ∨ b.getType = .plane → q' = q)
  | .point p, _, h => ⟨q, spherePoint_grow g p h, fun _ => rfl⟩
  | .plane p, _, h => ⟨q, spherePlane_grow g p h, fun _ => rfl⟩
  | .sphere t, _, h => let ⟨q', h'⟩ := (sphereSphere_grow g t).2 h; ⟨q', h', by simp [Shape.getType]⟩
  | .ray t, h0, h => let ⟨q', h'⟩ := raySphere_grow g (h0 rfl) t h; ⟨q', h', by simp [Shape.getType]⟩
  | .box _, _, h | .line _, _, h | .triPrism _, _, h => by simp [core] at h

/-- C73: in every lawful format and for all floats, a sphere that is reported to meet a shape is still reported to meet it
after its radius has been enlarged, in either order of the call; for a point and for a plane at the same location.  (Against
rays the radius has to be non-negative.) -/
theorem C73_sphere {l : List (Fl K)} {r r' : Fl K} {s s' : Sphere K} (hs : Sphere.init l r = .ok s) (hs' : Sphere.init l r' = .ok s')
    (h : Fl.le r r' = true) (b : Shape K) (h0 : b.getType = .ray → Fl.le 0 r = true) (q : Option (V3 K)) (n : ℕ) :
    (Shape.getIntersect (n + 2) (.sphere s) b = .ok (true, q) →
      ∃ q', Shape.getIntersect (n + 2) (.sphere s') b = .ok (true, q') ∧ (b.getType = .point ∨ b.getType = .plane → q' = q)) ∧
    (Shape.getIntersect (n + 2) b (.sphere s) = .ok (true, q) →
      ∃ q', Shape.getIntersect (n + 2) b (.sphere s') = .ok (true, q') ∧ (b.getType = .point ∨ b.getType = .plane → q' = q)) := by
  have g := grown hs hs' h
  have hr : s.radius = r := by obtain ⟨_, _, _, _, _, hr, _⟩ := sphere_init_eq hs; exact hr
  rw [← hr] at h0
  simp only [getIntersect_eq]
  constructor <;> intro hq
  · by_cases ho : AABB.overlap (Shape.sphere s).aabb b.aabb = true
    · rw [if_pos ho] at hq
      have ho' : AABB.overlap (Shape.sphere s').aabb b.aabb = true := g.overlap _ ho
      rw [if_pos ho']
      exact core_grow_left g b h0 hq
    · rw [if_neg ho] at hq; simp at hq
  · by_cases ho : AABB.overlap b.aabb (Shape.sphere s).aabb = true
    · rw [if_pos ho] at hq
      rw [AABB.overlap_comm] at ho
      have ho' : AABB.overlap b.aabb (Shape.sphere s').aabb = true := by rw [AABB.overlap_comm]; exact g.overlap _ ho
      rw [if_pos ho']
      exact core_grow_right g b h0 hq
    · rw [if_neg ho] at hq; simp at hq

/-- concrete case: the point `(1/2, 0, 0)` and a ball growing from radius `1` to infinity -/
example : ∃ q, Shape.getIntersect 2 (.sphere ((Sphere.init [0, 0, 0] (.inf false) : Res (Sphere Q64)).toOption.get rfl)) pointQ = .ok (true, q) :=
  let ⟨q, h, _⟩ := (C73_sphere (K := Q64) (l := [0, 0, 0]) (r := 1) (r' := .inf false) rfl rfl (by decide +kernel) pointQ (by simp [pointQ, Shape.getType]) (some ⟨#v[.fin (1/2), 0, 0]⟩) 0).1 (by decide +kernel)
  ⟨q, h⟩

theorem box_init_eq {l : List (Fl K)} {r : Fl K} {t : RecBox K} (h : RecBox.init l r = .ok t) : ∃ x y z, l = [x, y, z] ∧
    t.ori = ⟨#v[x, y, z]⟩ ∧ t.size = r ∧ t.bound = ⟨#v[x - r, y - r, z - r], #v[x + r, y + r, z + r]⟩ := by
  unfold RecBox.init at h
  by_cases h1 : l.length = 3
  · obtain ⟨x, y, z, rfl⟩ := list3 h1
    obtain rfl := Except.ok.inj h
    exact ⟨x, y, z, rfl, rfl, rfl, rfl⟩
  · simp [beq_false_of_ne h1] at h

/-- C73: likewise a box: enlarging it keeps every hit with its location, in either order of the call. -/
theorem C73_box {l : List (Fl K)} {r r' : Fl K} {s s' : RecBox K} (hs : RecBox.init l r = .ok s) (hs' : RecBox.init l r' = .ok s')
    (h : Fl.le r r' = true) (b : Shape K) (q : Option (V3 K)) (n : ℕ) :
    (Shape.getIntersect (n + 2) (.box s) b = .ok (true, q) → Shape.getIntersect (n + 2) (.box s') b = .ok (true, q)) ∧
    (Shape.getIntersect (n + 2) b (.box s) = .ok (true, q) → Shape.getIntersect (n + 2) b (.box s') = .ok (true, q)) := by
  obtain ⟨x, y, z, rfl, -, -, hb⟩ := box_init_eq hs
  obtain ⟨x', y', z', hl, -, -, hb'⟩ := box_init_eq hs'
  simp only [List.cons.injEq, and_true] at hl
  obtain ⟨rfl, rfl, rfl⟩ := hl
  have g (b : AABB (Fl K)) : AABB.overlap s.bound b = true → AABB.overlap s'.bound b = true := by
    rw [hb, hb']; exact overlap_mono h b
  simp only [getIntersect_eq]
  constructor <;> intro hq
  · by_cases ho : AABB.overlap (Shape.box s).aabb b.aabb = true
    · rw [if_pos ho] at hq
      have ho' : AABB.overlap (Shape.box s').aabb b.aabb = true := g _ ho
      rw [if_pos ho']
      cases b <;> exact hq
    · rw [if_neg ho] at hq; simp at hq
  · by_cases ho : AABB.overlap b.aabb (Shape.box s).aabb = true
    · rw [if_pos ho] at hq
      rw [AABB.overlap_comm] at ho
      have ho' : AABB.overlap b.aabb (Shape.box s').aabb = true := by rw [AABB.overlap_comm]; exact g _ ho
      rw [if_pos ho']
      cases b <;> exact hq
    · rw [if_neg ho] at hq; simp at hq

/-- concrete case: the cube of half side `1`, growing to half side `3` -/
example := (C73_box (K := Q64) (l := [0, 0, 0]) (r := 1) (r' := .fin 3) rfl rfl (by decide +kernel) pointQ (some ⟨#v[.fin (1/2), 0, 0]⟩) 0).1 (by decide +kernel)

/-- C73, the restriction to non-negative radii against rays is needed (binary64): the ray from (-5,-5,-4) along (1,1,1) is
reported to hit the sphere of radius -2 around the origin, but not the one of radius 0. -/
theorem C73_negative_witness : ∃ (s s' : Sphere Q64) (t : Ray3 Q64), Sphere.init [0, 0, 0] (.fin (-2)) = .ok s ∧
    Sphere.init [0, 0, 0] 0 = .ok s' ∧ Ray3.init [.fin (-5), .fin (-5), .fin (-4)] [1, 1, 1] = .ok t ∧
    (Shape.getIntersect 2 (.ray t) (.sphere s)).map Prod.fst = .ok true ∧ Shape.getIntersect 2 (.ray t) (.sphere s') = .ok (false, none) :=
  ⟨_, _, _, rfl, rfl, rfl, by decide +kernel, by decide +kernel⟩

end Mazth
