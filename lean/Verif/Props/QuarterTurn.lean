import Verif.Props.Mirror

/-!
# C95: quarter turns about the z axis turn the answer, also in floating point

For every lawful format and all floats: exchanging the first two coordinates, and flipping the signs of some coordinates,
commutes with rounding, because the library adds up the first two products of a dot product first.  So a query on shapes turned by a
quarter about the `z` axis answers with the turned location, up to the signs of zeros.
-/

set_option linter.unusedSectionVars false
set_option autoImplicit false

namespace Mazth

variable {K : Type} [Field K] [LinearOrder K] [IsStrictOrderedRing K] [Fmt K] [LawfulFmt K]

open Fl (Same flip)

namespace V3

/-- the vector with the first two coordinates exchanged -/
def swap (a : V3 K) : V3 K := ⟨#v[a.val[1], a.val[0], a.val[2]]⟩

/-- the first vector, with the first two coordinates exchanged and then the signs selected by `σ` flipped, is the second one, up
to the signs of zeros -/
def Trn (σ : Fin 3 → Bool) (a a' : V3 K) : Prop := Mir σ a.swap a'

/-- the vector with the first two coordinates exchanged and then the signs selected by `σ` flipped -/
def turn (σ : Fin 3 → Bool) (a : V3 K) : V3 K := a.swap.flip σ

/-- does the map reverse the orientation?  The exchange does, and every flipped axis does. -/
def rev (σ : Fin 3 → Bool) : Bool := !odd σ

variable {σ ρ : Fin 3 → Bool} {a a' a'' c c' : V3 K} {s s' : Fl K}

theorem Mir.comp (h : Mir ρ a a') (k : Mir σ a' a'') : Mir (fun i => σ i ^^ ρ i) a a'' := by
  have m {b c : Bool} {x y z : Fl K} (h : Same y (Fl.flip b x)) (k : Same z (Fl.flip c y)) : Same z (Fl.flip (c ^^ b) x) := by
    refine k.trans (h.flip.trans ?_)
    cases b <;> cases c
    · exact .refl _
    · exact .refl _
    · exact .refl _
    · show Same (- -x) x
      rw [Fl.neg_neg']; exact .refl _
  exact ⟨m h.1 k.1, m h.2.1 k.2.1, m h.2.2 k.2.2⟩

theorem turn_trn (σ : Fin 3 → Bool) (a : V3 K) : Trn σ a (a.turn σ) := flip_mir σ _

theorem dotp_swap (a c : V3 K) : dotp a.swap c.swap = dotp a c := by
  show a.val[1] * c.val[1] + a.val[0] * c.val[0] + _ = a.val[0] * c.val[0] + a.val[1] * c.val[1] + _
  rw [Fl.add_comm' (a.val[1] * c.val[1])]; rfl

theorem mag_swap (a : V3 K) : mag a.swap = mag a := by
  show Fl.sqrt (a.val[1].powi2 + a.val[0].powi2 + _) = Fl.sqrt (a.val[0].powi2 + a.val[1].powi2 + _)
  rw [Fl.add_comm' a.val[1].powi2]; rfl

theorem nrm_swap (a : V3 K) : nrm a.swap = (nrm a).swap := by
  unfold nrm; rw [mag_swap]; rfl

theorem crs_swap (a c : V3 K) : Mir (fun _ => true) (crs a c).swap (crs a.swap c.swap) := by
  refine ⟨?_, ?_, ?_⟩
  · show Same (a.val[0] * c.val[2] - a.val[2] * c.val[0]) (-(a.val[2] * c.val[0] - a.val[0] * c.val[2]))
    exact Fl.sub_swap _ _
  · show Same (a.val[2] * c.val[1] - a.val[1] * c.val[2]) (-(a.val[1] * c.val[2] - a.val[2] * c.val[1]))
    exact Fl.sub_swap _ _
  · show Same (a.val[1] * c.val[0] - a.val[0] * c.val[1]) (-(a.val[0] * c.val[1] - a.val[1] * c.val[0]))
    exact Fl.sub_swap _ _

theorem Trn.sub (h : Trn σ a a') (k : Trn σ c c') : Trn σ (sub a c) (sub a' c') := Mir.sub h k

theorem Trn.add (h : Trn σ a a') (k : Trn σ c c') : Trn σ (add a c) (add a' c') := Mir.add h k

theorem Trn.scl (h : Trn σ a a') (k : Same s' s) : Trn σ (scl a s) (scl a' s') := Mir.scl h k

theorem Trn.dotp {b : Bool} (h : Trn ρ a a') (k : Trn σ c c') (e : ∀ i, (ρ i ^^ σ i) = b) : Same (dotp a' c') (Fl.flip b (dotp a c)) := by
  rw [← dotp_swap a c]; exact Mir.dotp h k e

theorem Trn.dot (h : Trn σ a a') (k : Trn σ c c') : Same (V3.dotp a' c') (V3.dotp a c) := h.dotp k (b := false) (by simp)

theorem Trn.crs (h : Trn σ a a') (k : Trn σ c c') : Trn (fun i => rev σ ^^ σ i) (crs a c) (crs a' c') := by
  have := (crs_swap a c).comp (Mir.crs h k)
  have e : (fun i => (odd σ ^^ σ i) ^^ true) = fun i => rev σ ^^ σ i := by
    funext i; unfold rev; cases odd σ <;> cases σ i <;> rfl
  rw [e] at this
  exact this

theorem Trn.mag (h : Trn σ a a') : mag a' = mag a := (Mir.mag h).trans (mag_swap a)

theorem Trn.nrm (h : Trn σ a a') : Trn σ (nrm a) (nrm a') := by
  have := Mir.nrm h
  rwa [nrm_swap] at this

theorem nrm_turn (a : V3 K) : nrm (a.turn σ) = (nrm a).turn σ := by
  unfold turn; rw [nrm_flip, nrm_swap]

theorem eqv_trn (h : Trn σ a a') (e : Fl K) : eqv a' Mat3x1.default e = eqv a Mat3x1.default e := by
  rw [eqv_mir h]
  show ((((((Fl.le (0 - e) a.val[1] && Fl.le a.val[1] (0 + e)) && Fl.le (0 - e) a.val[0]) && Fl.le a.val[0] (0 + e)) && Fl.le (0 - e) a.val[2]) &&
      Fl.le a.val[2] (0 + e))) =
    ((((((Fl.le (0 - e) a.val[0] && Fl.le a.val[0] (0 + e)) && Fl.le (0 - e) a.val[1]) && Fl.le a.val[1] (0 + e)) && Fl.le (0 - e) a.val[2]) &&
      Fl.le a.val[2] (0 + e)))
  generalize Fl.le (0 - e) a.val[0] = p0; generalize Fl.le a.val[0] (0 + e) = q0
  generalize Fl.le (0 - e) a.val[1] = p1; generalize Fl.le a.val[1] (0 + e) = q1
  cases p0 <;> cases q0 <;> cases p1 <;> cases q1 <;> rfl

end V3

/-! ### bounds -/

/-- the bounds of a turned shape: the first two axes change places, and the corners do along the flipped axes -/
def AABB.Trn (σ : Fin 3 → Bool) (b b' : AABB (Fl K)) : Prop :=
  AABB.Mir σ ⟨#v[b.lower[1], b.lower[0], b.lower[2]], #v[b.upper[1], b.upper[0], b.upper[2]]⟩ b'

section
variable {σ : Fin 3 → Bool}

theorem AABB.Trn.overlap {a a' b b' : AABB (Fl K)} (ha : a.Trn σ a') (hb : b.Trn σ b') : AABB.overlap a' b' = AABB.overlap a b := by
  rw [AABB.Mir.overlap ha hb, Bool.eq_iff_iff, AABB.overlap_iff, AABB.overlap_iff]
  constructor
  · intro h i
    fin_cases i
    · exact h 1
    · exact h 0
    · exact h 2
  · intro h i
    fin_cases i
    · exact h 1
    · exact h 0
    · exact h 2

theorem AABB.trn_mk {l0 l1 l2 u0 u1 u2 l0' l1' l2' u0' u1' u2' : Fl K}
    (h0 : Same l0' (if σ 0 then -u1 else l1) ∧ Same u0' (if σ 0 then -l1 else u1))
    (h1 : Same l1' (if σ 1 then -u0 else l0) ∧ Same u1' (if σ 1 then -l0 else u0))
    (h2 : Same l2' (if σ 2 then -u2 else l2) ∧ Same u2' (if σ 2 then -l2 else u2)) :
    AABB.Trn σ ⟨#v[l0, l1, l2], #v[u0, u1, u2]⟩ ⟨#v[l0', l1', l2'], #v[u0', u1', u2']⟩ := AABB.mir_mk h0 h1 h2

theorem trn_default : AABB.Trn σ (AABB.default : AABB (Fl K)) AABB.default := by
  refine AABB.trn_mk ?_ ?_ ?_ <;> cases σ _ <;> exact ⟨.inl rfl, .inl rfl⟩

/-! ### shapes and answers -/

/-- the second shape is the first one turned -/
def Shape.Trn (σ : Fin 3 → Bool) : Shape K → Shape K → Prop
  | .point s, .point t => t.ori = s.ori.turn σ ∧ t.vicinity = s.vicinity ∧ s.bound.Trn σ t.bound
  | .ray s, .ray t => t.ori = s.ori.turn σ ∧ t.dir = s.dir.turn σ ∧ t.vicinity = s.vicinity ∧ s.bound.Trn σ t.bound
  | .sphere s, .sphere t => t.ori = s.ori.turn σ ∧ t.radius = s.radius ∧ t.vicinity = s.vicinity ∧ s.bound.Trn σ t.bound
  | .plane s, .plane t => t.offset = s.offset.turn σ ∧ t.normal = s.normal.turn σ ∧ t.vicinity = s.vicinity ∧ s.bound.Trn σ t.bound
  | .box s, .box t => t.ori = s.ori.turn σ ∧ t.size = s.size ∧ t.vicinity = s.vicinity ∧ s.bound.Trn σ t.bound
  | .line s, .line t => t.a = s.a.turn σ ∧ t.b = s.b.turn σ ∧ t.vicinity = s.vicinity ∧ s.bound.Trn σ t.bound
  | .triPrism s, .triPrism t => (s.triBase[0].Trn σ t.triBase[0] ∧ s.triBase[1].Trn σ t.triBase[1] ∧ s.triBase[2].Trn σ t.triBase[2]) ∧
      s.triBase2[0].Trn σ t.triBase2[0] ∧ s.normalHeight.Trn σ t.normalHeight ∧ t.vicinity = s.vicinity ∧ s.bound.Trn σ t.bound
  | _, _ => False

/-- the same flag, and the location turned, up to the signs of zeros -/
def TrnHit (σ : Fin 3 → Bool) (h h' : Hit K) : Prop := h'.1 = h.1 ∧ Option.Rel (V3.Trn σ) h.2 h'.2

/-- the same panic, or the turned answer -/
abbrev TrnRes (σ : Fin 3 → Bool) (r r' : Res (Hit K)) : Prop := RelRes (TrnHit σ) r r'

theorem trn_none : TrnRes σ (.ok (false, none) : Res (Hit K)) (.ok (false, none)) := .inr ⟨_, _, rfl, rfl, rfl, .none⟩
theorem trn_some {p q : V3 K} (h : V3.Trn σ p q) : TrnRes σ (.ok (true, some p) : Res (Hit K)) (.ok (true, some q)) :=
  .inr ⟨_, _, rfl, rfl, rfl, .some h⟩
theorem trn_error (e : Panic) : TrnRes σ (.error e : Res (Hit K)) (.error e) := .inl ⟨e, rfl, rfl⟩

theorem trn_ite {c c' : Bool} (h : c' = c) {a a' b b' : Res (Hit K)} (ha : TrnRes σ a a') (hb : c = false → TrnRes σ b b') :
    TrnRes σ (if c = true then a else b) (if c' = true then a' else b') := by
  subst h
  cases c'
  · exact hb rfl
  · exact ha

/-! ### the queries -/

theorem rayRay_trn {r r' s s' : Ray3 K} (ho : V3.Trn σ r.ori r'.ori) (hd : V3.Trn σ r.dir r'.dir) (hv : r'.vicinity = r.vicinity)
    (ho' : V3.Trn σ s.ori s'.ori) (hd' : V3.Trn σ s.dir s'.dir) :
    TrnRes σ (r.intersectRay (Shape.ray s).getShapeData) (r'.intersectRay (Shape.ray s').getShapeData) := by
  unfold Ray3.intersectRay
  simp only [vecAt_ray0, vecAt_ray3, Res.ok_bind, V3.minus_eq, V3.cross_eq, V3.dot_eq, V3.isEqual_eq, V3.magnitude_eq, V3.scale_eq, V3.plus_eq,
    unwrap_some, Res.pure_eq, hv]
  have hx := hd.crs hd'
  have hc := hd'.sub hd
  have hdot : Same _ _ := hx.dotp hc (b := V3.rev σ) (fun i => by cases V3.rev σ <;> cases σ i <;> rfl)
  have hdd := ho'.sub ho
  have z (b : Bool) : Same (0 : Fl K) (flip b 0) := by
    cases b
    · exact .refl _
    · exact .inr ⟨rfl, by show (Fl.neg (.fin 0)).val = _; simp [Fl.neg, Fl.val]⟩
  refine trn_ite ?_ trn_none fun _ => ?_
  · rw [within_same hdot (z (V3.rev σ)), within_flip]
  refine trn_ite (V3.eqv_trn hx _) ?_ fun _ => ?_
  · refine trn_ite ?_ trn_none fun _ => ?_
    · rw [(hd.crs hdd).mag]
    · have e : Fl.lt (V3.dotp (V3.sub s'.ori r'.ori) r'.dir) 0 = Fl.lt (V3.dotp (V3.sub s.ori r.ori) r.dir) 0 :=
        Fl.lt_same (hdd.dot hd) (.refl _)
      rw [e, hdd.mag, hd.mag]
      exact trn_ite rfl (trn_some ho) fun _ => trn_some ((hd.scl (.refl _)).add ho)
  · rw [(hdd.crs hd').mag, hx.mag]
    exact trn_ite rfl trn_none fun _ => trn_some ((hd.scl (.refl _)).add ho)

theorem raySphere_trn {r r' : Ray3 K} {s s' : Sphere K} (ho : V3.Trn σ r.ori r'.ori) (hd : V3.Trn σ r.dir r'.dir)
    (ho' : V3.Trn σ s.ori s'.ori) (hr : s'.radius = s.radius) :
    TrnRes σ (r.intersectSphere (Shape.sphere s).getShapeData) (r'.intersectSphere (Shape.sphere s').getShapeData) := by
  unfold Ray3.intersectSphere
  simp only [vecAt_sphere, sliceGet_sphere, Res.ok_bind, V3.minus_eq, V3.dot_eq, V3.scale_eq, V3.plus_eq, unwrap_some, Res.pure_eq, hr]
  have hs := ho.sub ho'
  have hb := hs.dot hd
  have hc := (hs.dot hs).sub (Same.refl (s.radius * s.radius))
  have hD := (hb.mul hb).sub hc
  have h1 := hb.neg.sub hD.sqrt
  have h2 := hb.neg.add hD.sqrt
  refine trn_ite ?_ trn_none fun _ => trn_ite (Fl.lt_same hD (.refl _)) trn_none fun _ => trn_some (V3.Trn.add (hd.scl ?_) ho)
  · rw [Fl.lt_same (.refl _) hb, Fl.lt_same (.refl _) hc]
  · rw [Fl.lt_same h1 (.refl _), Fl.lt_same h2 (.refl _), Fl.lt_same h1 h2]
    split
    · exact h2
    · split
      · exact h1
      · split
        · exact h1
        · exact h2

theorem rayPlane_trn {r r' : Ray3 K} {s s' : Plane K} (ho : V3.Trn σ r.ori r'.ori) (hd : V3.Trn σ r.dir r'.dir)
    (ho' : V3.Trn σ s.offset s'.offset) (hn : V3.Trn σ s.normal s'.normal) :
    TrnRes σ (r.intersectPlane (Shape.plane s).getShapeData) (r'.intersectPlane (Shape.plane s').getShapeData) := by
  unfold Ray3.intersectPlane
  simp only [vecAt_plane0, vecAt_plane3, Res.ok_bind, V3.dot_eq, V3.scale_eq, V3.plus_eq, unwrap_some, Res.pure_eq]
  have hk := ho'.dot hn
  have hnum := hk.sub (hn.dot ho)
  have hden := hn.dot hd
  refine trn_ite (Fl.feq_same hden (.refl _)) (trn_ite (Fl.feq_same hk (ho.dot hn)) (trn_some ho) fun _ => trn_none) fun hz =>
    trn_ite (Fl.lt_same (.refl _) hden) trn_none fun _ => ?_
  have e : V3.dotp s'.normal r'.dir = V3.dotp s.normal r.dir := by
    rcases hden with h | h
    · exact h
    · have := Fl.feq_same (Same.refl (V3.dotp s.normal r.dir)) (y := 0) (y' := 0) (.refl _)
      rcases NaN.val_zero h.2 with h' | h' <;> rw [h'] at hz <;> simp [Fl.feq, Fl.le] at hz
  rw [e]
  exact trn_ite (Fl.lt_same (hnum.div_left _) (.refl _)) trn_none fun _ => trn_some ((hd.scl (hnum.div_left _)).add ho)

theorem sphereSphere_trn {r r' s s' : Sphere K} (ho : V3.Trn σ r.ori r'.ori) (hr : r'.radius = r.radius)
    (ho' : V3.Trn σ s.ori s'.ori) (hr' : s'.radius = s.radius) :
    TrnRes σ (r.intersectSphere (Shape.sphere s).getShapeData) (r'.intersectSphere (Shape.sphere s').getShapeData) := by
  unfold Sphere.intersectSphere
  simp only [vecAt_sphere, sliceGet_sphere, Res.ok_bind, V3.minus_eq, V3.magnitude_eq, V3.scale_eq, V3.plus_eq, unwrap_some, Res.pure_eq, hr, hr']
  have hs := ho'.sub ho
  rw [hs.mag]
  exact trn_ite rfl trn_none fun _ => trn_some (ho.add (hs.scl (.refl _)))

theorem spherePlane_trn {r r' : Sphere K} {s s' : Plane K} (ho : V3.Trn σ r.ori r'.ori) (hr : r'.radius = r.radius)
    (ho' : V3.Trn σ s.offset s'.offset) (hn : V3.Trn σ s.normal s'.normal) :
    TrnRes σ (r.intersectPlane (Shape.plane s).getShapeData) (r'.intersectPlane (Shape.plane s').getShapeData) := by
  unfold Sphere.intersectPlane
  simp only [vecAt_plane0, vecAt_plane3, Res.ok_bind, V3.dot_eq, V3.scale_eq, V3.plus_eq, unwrap_some, Res.pure_eq, hr]
  have ht := (hn.dot ho).sub (hn.dot ho')
  exact trn_ite (Fl.lt_same (.refl _) ht) trn_none fun _ => trn_some ((hn.scl ht.neg).add ho)

theorem planePoint_trn {r r' : Plane K} {s s' : Point3 K} (ho : V3.Trn σ r.offset r'.offset) (hn : V3.Trn σ r.normal r'.normal)
    (hv : r'.vicinity = r.vicinity) (ho' : V3.Trn σ s.ori s'.ori) :
    TrnRes σ (r.intersectPoint (Shape.point s).getShapeData) (r'.intersectPoint (Shape.point s').getShapeData) := by
  unfold Plane.intersectPoint
  simp only [vecAt_point, Res.ok_bind, V3.dot_eq, unwrap_some, Res.pure_eq, hv]
  have ht := (hn.dot ho).sub (hn.dot ho')
  refine trn_ite ?_ trn_none fun _ => trn_some ho'
  rw [within_same ht (.refl _)]

theorem pointPoint_trn {v : Fl K} {p p' q q' : V3 K} (h : V3.Trn σ p p') (k : V3.Trn σ q q') :
    TrnRes σ (.ok (if !withinVicinity v p.val[0] q.val[0] || !withinVicinity v p.val[1] q.val[1] ||
        !withinVicinity v p.val[2] q.val[2] then (false, none) else (true, some p)))
      (.ok (if !withinVicinity v p'.val[0] q'.val[0] || !withinVicinity v p'.val[1] q'.val[1] ||
        !withinVicinity v p'.val[2] q'.val[2] then (false, none) else (true, some p'))) := by
  rw [within_same h.1 k.1, within_same h.2.1 k.2.1, within_same h.2.2 k.2.2, within_flip, within_flip, within_flip]
  show TrnRes σ _ (.ok (if !withinVicinity v p.val[1] q.val[1] || !withinVicinity v p.val[0] q.val[0] ||
        !withinVicinity v p.val[2] q.val[2] then (false, none) else (true, some p')))
  rw [Bool.or_comm (!withinVicinity v p.val[1] q.val[1])]
  split
  · exact trn_none
  · exact trn_some h

theorem spherePoint_trn {r r' : Sphere K} {s s' : Point3 K} (hσ : σ = fun _ => false) (ho : V3.Trn σ r.ori r'.ori) (hr : r'.radius = r.radius)
    (ho' : V3.Trn σ s.ori s'.ori) :
    TrnRes σ (r.intersectPoint (Shape.point s).getShapeData) (r'.intersectPoint (Shape.point s').getShapeData) := by
  unfold Sphere.intersectPoint
  simp only [vecAt_point, Res.ok_bind, V3.minus_eq, unwrap_some, Res.pure_eq, hr]
  have hs := ho'.sub ho
  refine trn_ite ?_ trn_none fun _ => trn_some ho'
  subst hσ
  show (Fl.lt r.radius _ || (Fl.lt r.radius _ || (Fl.lt r.radius _ || false))) = (Fl.lt r.radius _ || (Fl.lt r.radius _ || (Fl.lt r.radius _ || false)))
  rw [Fl.lt_same (.refl _) hs.1, Fl.lt_same (.refl _) hs.2.1, Fl.lt_same (.refl _) hs.2.2]
  exact Bool.or_left_comm _ _ _

/-! ### prisms and segments, for the maps that keep the orientation -/

theorem V3.Trn.crs_even {a a' c c' : V3 K} (ho : V3.rev σ = false) (h : V3.Trn σ a a') (k : V3.Trn σ c c') : V3.Trn σ (V3.crs a c) (V3.crs a' c') := by
  have := h.crs k
  rw [ho] at this
  simpa using this

/-- pairs of a vertex and a normal, turned -/
def TrnPair (σ : Fin 3 → Bool) (x y : V3 K × V3 K) : Prop := V3.Trn σ x.1 y.1 ∧ V3.Trn σ x.2 y.2

theorem all_trn {p p' : V3 K} (hp : V3.Trn σ p p') {ts ts' : List (V3 K × V3 K)} (h : List.Forall₂ (TrnPair σ) ts ts') :
    (ts'.all fun vn => !Fl.lt 0 (V3.dotp (V3.sub p' vn.1) vn.2)) = ts.all fun vn => !Fl.lt 0 (V3.dotp (V3.sub p vn.1) vn.2) := by
  induction h with
  | nil => rfl
  | cons h _ ih => rw [List.all_cons, List.all_cons, ih, Fl.lt_same (.refl _) ((hp.sub h.1).dot h.2)]

theorem testsP_trn (ho : V3.rev σ = false) {s s' : TriPrism K} (h : Shape.Trn σ (.triPrism s) (.triPrism s')) :
    List.Forall₂ (TrnPair σ) s.testsP s'.testsP := by
  obtain ⟨⟨h0, h1, h2⟩, k, hn, -⟩ := h
  exact .cons ⟨h0, hn.scl (.refl _)⟩ (.cons ⟨k, hn⟩ (.cons ⟨h0, (h1.sub h0).crs_even ho hn⟩ (.cons ⟨h1, (h2.sub h1).crs_even ho hn⟩
    (.cons ⟨h2, (h0.sub h2).crs_even ho hn⟩ .nil))))

theorem prismPoint_trn (ho : V3.rev σ = false) {r r' : TriPrism K} {s s' : Point3 K} (h : Shape.Trn σ (.triPrism r) (.triPrism r'))
    (hp : V3.Trn σ s.ori s'.ori) : TrnRes σ (r.intersectPoint (Shape.point s).getShapeData) (r'.intersectPoint (Shape.point s').getShapeData) := by
  rw [prismPoint_eq, prismPoint_eq]
  have e : r'.inside s'.ori = r.inside s.ori := all_trn hp (testsP_trn ho h)
  rw [e]
  cases r.inside s.ori
  · exact trn_none
  · exact trn_some hp

/-- planes with turned data -/
def TrnPlane (σ : Fin 3 → Bool) (s s' : Plane K) : Prop := V3.Trn σ s.offset s'.offset ∧ V3.Trn σ s.normal s'.normal ∧ s.bound.Trn σ s'.bound

theorem facetLoop_trn {r r' : Ray3 K} (ho : V3.Trn σ r.ori r'.ori) (hd : V3.Trn σ r.dir r'.dir) (hb : r.bound.Trn σ r'.bound)
    {ts ts' : List (V3 K × V3 K)} (ht : List.Forall₂ (TrnPair σ) ts ts') {a a' : V3 K} (ha : V3.Trn σ a a') (m : Fl K)
    {fs fs' : List (Plane K)} (hf : List.Forall₂ (TrnPlane σ) fs fs') :
    TrnRes σ (TriPrism.facetLoop r ts a m fs) (TriPrism.facetLoop r' ts' a' m fs') := by
  induction hf with
  | nil => exact trn_none
  | @cons f f' fs fs' h _ ih =>
    have key : TrnRes σ (r.getIntersect (.plane f)) (r'.getIntersect (.plane f')) := by
      unfold Ray3.getIntersect
      simp only [Shape.getBound_eq, AABB.intersect_eq, Res.ok_bind, Res.pure_eq]
      refine trn_ite ?_ trn_none fun _ => rayPlane_trn ho hd h.1 h.2.1
      exact congrArg (! ·) (hb.overlap h.2.2)
    rw [TriPrism.facetLoop, TriPrism.facetLoop]
    obtain ⟨⟨h1, h2⟩, e, hc⟩ := Ray3.getIntersect_plane r f
    rw [e] at key ⊢
    rcases key with ⟨_, h, _⟩ | ⟨_, ⟨h1', h2'⟩, h, e', hh, hr⟩
    · cases h
    · cases h
      simp only at hh hr; subst hh
      rw [e']
      cases h1' with
      | false => simpa using ih
      | true =>
        obtain ⟨p, hp⟩ := hc.mp rfl
        simp only at hp; subst hp
        cases hr with
        | some hr =>
          simp only [Res.ok_bind, unwrap_some, V3.minus_eq, V3.magnitude_eq, allInside_ok, if_true]
          exact trn_ite (by rw [all_trn hr ht, (hr.sub ha).mag]) ih fun _ => trn_some hr

theorem rayOf_trn {a a' d d' : V3 K} (h : V3.Trn σ a a') (k : V3.Trn σ d d') : AABB.Trn σ (rayOf a d).bound (rayOf a' d').bound := by
  have key {b : Bool} {x x' y y' : Fl K} (h : Same x' (flip b x)) (k : Same y' (flip b y)) :
      Same (AABB.rayBound x' y').1 (if b then -(AABB.rayBound x y).2 else (AABB.rayBound x y).1) ∧
      Same (AABB.rayBound x' y').2 (if b then -(AABB.rayBound x y).1 else (AABB.rayBound x y).2) := by
    obtain ⟨m1, m2⟩ := mir_ray b x y
    have e : Same (AABB.rayBound x' y').1 (AABB.rayBound (flip b x) (flip b y)).1 ∧
        Same (AABB.rayBound x' y').2 (AABB.rayBound (flip b x) (flip b y)).2 := by
      unfold AABB.rayBound
      rw [Fl.lt_same (.refl 0) k, Fl.lt_same k (.refl 0)]
      split
      · exact ⟨h, .refl _⟩
      · split
        · exact ⟨.refl _, h⟩
        · exact ⟨h, h⟩
    exact ⟨e.1.trans m1, e.2.trans m2⟩
  exact AABB.trn_mk (key h.1 k.1) (key h.2.1 k.2.1) (key h.2.2 k.2.2)

theorem planeOf_trn {a a' d d' : V3 K} (h : V3.Trn σ a a') (k : V3.Trn σ d d') : TrnPlane σ (planeOf a d) (planeOf a' d') :=
  ⟨h, k.nrm, trn_default⟩

theorem facetsP_trn (ho : V3.rev σ = false) {s s' : TriPrism K} (h : Shape.Trn σ (.triPrism s) (.triPrism s')) :
    List.Forall₂ (TrnPlane σ) s.facetsP s'.facetsP := by
  obtain ⟨⟨h0, h1, h2⟩, k, hn, -⟩ := h
  exact .cons (planeOf_trn h0 (hn.scl (.refl _))) (.cons (planeOf_trn k hn) (.cons (planeOf_trn h0 ((h1.sub h0).crs_even ho hn))
    (.cons (planeOf_trn h1 ((h2.sub h1).crs_even ho hn)) (.cons (planeOf_trn h2 ((h0.sub h2).crs_even ho hn)) .nil))))

theorem prismLine_trn (ho : V3.rev σ = false) {r r' : TriPrism K} {s s' : Line3 K} (h : Shape.Trn σ (.triPrism r) (.triPrism r'))
    (ha : V3.Trn σ s.a s'.a) (hb : V3.Trn σ s.b s'.b) :
    TrnRes σ (r.intersectLine (Shape.line s).getShapeData) (r'.intersectLine (Shape.line s').getShapeData) := by
  unfold TriPrism.intersectLine
  simp only [vecAt_line0, vecAt_line3, Res.ok_bind, TriPrism.tests_eq, allInside_ok, Res.pure_eq, V3.minus_eq,
    V3.magnitude_eq, unwrap_some, facets_eq, ray_init_toList]
  have hv := hb.sub ha
  have ht := testsP_trn ho h
  refine trn_ite (all_trn ha ht) (trn_some ha) fun _ => trn_ite (all_trn hb ht) (trn_some hb) fun _ => ?_
  rw [hv.mag]
  exact facetLoop_trn (r := rayOf _ _) (r' := rayOf _ _) ha hv.nrm (rayOf_trn ha hv) ht ha _ (facetsP_trn ho h)

/-! ### all pairs -/

/-- the pairs for which the answer is turned: any, except a ray with a point (see `C95_ray_point_false`); a sphere with a point only if no
sign is flipped (see `C76_sphere_point_false`); a prism with a point or a segment only if the orientation is kept -/
def TrnPairs (σ : Fin 3 → Bool) (a b : ShapeType) : Prop :=
  ((a, b) ≠ (.ray, .point) ∧ (a, b) ≠ (.point, .ray)) ∧ ((a, b) = (.sphere, .point) ∨ (a, b) = (.point, .sphere) → σ = fun _ => false) ∧
    (a = .triPrism ∨ b = .triPrism → V3.rev σ = false)


theorem Shape.Trn.point {s : Point3 K} {a' : Shape K} (h : Shape.Trn σ (.point s) a') : ∃ s', a' = .point s' := by
  cases a' <;> first | exact ⟨_, rfl⟩ | exact h.elim
theorem Shape.Trn.ray {s : Ray3 K} {a' : Shape K} (h : Shape.Trn σ (.ray s) a') : ∃ s', a' = .ray s' := by
  cases a' <;> first | exact ⟨_, rfl⟩ | exact h.elim
theorem Shape.Trn.sphere {s : Sphere K} {a' : Shape K} (h : Shape.Trn σ (.sphere s) a') : ∃ s', a' = .sphere s' := by
  cases a' <;> first | exact ⟨_, rfl⟩ | exact h.elim
theorem Shape.Trn.plane {s : Plane K} {a' : Shape K} (h : Shape.Trn σ (.plane s) a') : ∃ s', a' = .plane s' := by
  cases a' <;> first | exact ⟨_, rfl⟩ | exact h.elim
theorem Shape.Trn.box {s : RecBox K} {a' : Shape K} (h : Shape.Trn σ (.box s) a') : ∃ s', a' = .box s' := by
  cases a' <;> first | exact ⟨_, rfl⟩ | exact h.elim
theorem Shape.Trn.triPrism {s : TriPrism K} {a' : Shape K} (h : Shape.Trn σ (.triPrism s) a') : ∃ s', a' = .triPrism s' := by
  cases a' <;> first | exact ⟨_, rfl⟩ | exact h.elim
theorem Shape.Trn.line {s : Line3 K} {a' : Shape K} (h : Shape.Trn σ (.line s) a') : ∃ s', a' = .line s' := by
  cases a' <;> first | exact ⟨_, rfl⟩ | exact h.elim
theorem Shape.Trn.type {a a' : Shape K} (h : a.Trn σ a') : a'.getType = a.getType := by
  cases a <;> cases a' <;> first | rfl | exact h.elim

theorem core_trn (a b : Shape K) {a' b' : Shape K} (ha : a.Trn σ a') (hb : b.Trn σ b') (h : TrnPairs σ a.getType b.getType) :
    TrnRes σ (core a b) (core a' b') := by
  by_cases hs : Supported a.getType b.getType
  · match a, b, ha, hb, h, hs with
    | .point s, .point t, ha, hb, h, _ =>
      obtain ⟨s', rfl⟩ := ha.point; obtain ⟨t', rfl⟩ := hb.point
      simp only [core]; rw [ha.2.1]
      exact pointPoint_trn (ha.1 ▸ V3.turn_trn σ _) (hb.1 ▸ V3.turn_trn σ _)
    | .point s, .ray t, ha, hb, h, _ =>
      obtain ⟨s', rfl⟩ := ha.point; obtain ⟨t', rfl⟩ := hb.ray
      exact absurd rfl h.1.2
    | .point s, .sphere t, ha, hb, h, _ =>
      obtain ⟨s', rfl⟩ := ha.point; obtain ⟨t', rfl⟩ := hb.sphere
      exact spherePoint_trn (h.2.1 (.inr rfl)) (hb.1 ▸ V3.turn_trn σ _) hb.2.1 (ha.1 ▸ V3.turn_trn σ _)
    | .point s, .plane t, ha, hb, h, _ =>
      obtain ⟨s', rfl⟩ := ha.point; obtain ⟨t', rfl⟩ := hb.plane
      exact planePoint_trn (hb.1 ▸ V3.turn_trn σ _) (hb.2.1 ▸ V3.turn_trn σ _) hb.2.2.1 (ha.1 ▸ V3.turn_trn σ _)
    | .point s, .box t, ha, hb, h, _ =>
      obtain ⟨s', rfl⟩ := ha.point; obtain ⟨t', rfl⟩ := hb.box
      exact trn_some (ha.1 ▸ V3.turn_trn σ _)
    | .point s, .triPrism t, ha, hb, h, _ =>
      obtain ⟨s', rfl⟩ := ha.point; obtain ⟨t', rfl⟩ := hb.triPrism
      exact prismPoint_trn (h.2.2 (.inr rfl)) hb (ha.1 ▸ V3.turn_trn σ _)
    | .ray s, .point t, ha, hb, h, _ =>
      obtain ⟨s', rfl⟩ := ha.ray; obtain ⟨t', rfl⟩ := hb.point
      exact absurd rfl h.1.1
    | .ray s, .ray t, ha, hb, h, _ =>
      obtain ⟨s', rfl⟩ := ha.ray; obtain ⟨t', rfl⟩ := hb.ray
      exact rayRay_trn (ha.1 ▸ V3.turn_trn σ _) (ha.2.1 ▸ V3.turn_trn σ _) ha.2.2.1 (hb.1 ▸ V3.turn_trn σ _) (hb.2.1 ▸ V3.turn_trn σ _)
    | .ray s, .sphere t, ha, hb, h, _ =>
      obtain ⟨s', rfl⟩ := ha.ray; obtain ⟨t', rfl⟩ := hb.sphere
      exact raySphere_trn (ha.1 ▸ V3.turn_trn σ _) (ha.2.1 ▸ V3.turn_trn σ _) (hb.1 ▸ V3.turn_trn σ _) hb.2.1
    | .ray s, .plane t, ha, hb, h, _ =>
      obtain ⟨s', rfl⟩ := ha.ray; obtain ⟨t', rfl⟩ := hb.plane
      exact rayPlane_trn (ha.1 ▸ V3.turn_trn σ _) (ha.2.1 ▸ V3.turn_trn σ _) (hb.1 ▸ V3.turn_trn σ _) (hb.2.1 ▸ V3.turn_trn σ _)
    | .sphere s, .point t, ha, hb, h, _ =>
      obtain ⟨s', rfl⟩ := ha.sphere; obtain ⟨t', rfl⟩ := hb.point
      exact spherePoint_trn (h.2.1 (.inl rfl)) (ha.1 ▸ V3.turn_trn σ _) ha.2.1 (hb.1 ▸ V3.turn_trn σ _)
    | .sphere s, .ray t, ha, hb, h, _ =>
      obtain ⟨s', rfl⟩ := ha.sphere; obtain ⟨t', rfl⟩ := hb.ray
      exact raySphere_trn (hb.1 ▸ V3.turn_trn σ _) (hb.2.1 ▸ V3.turn_trn σ _) (ha.1 ▸ V3.turn_trn σ _) ha.2.1
    | .sphere s, .sphere t, ha, hb, h, _ =>
      obtain ⟨s', rfl⟩ := ha.sphere; obtain ⟨t', rfl⟩ := hb.sphere
      exact sphereSphere_trn (ha.1 ▸ V3.turn_trn σ _) ha.2.1 (hb.1 ▸ V3.turn_trn σ _) hb.2.1
    | .sphere s, .plane t, ha, hb, h, _ =>
      obtain ⟨s', rfl⟩ := ha.sphere; obtain ⟨t', rfl⟩ := hb.plane
      exact spherePlane_trn (ha.1 ▸ V3.turn_trn σ _) ha.2.1 (hb.1 ▸ V3.turn_trn σ _) (hb.2.1 ▸ V3.turn_trn σ _)
    | .plane s, .point t, ha, hb, h, _ =>
      obtain ⟨s', rfl⟩ := ha.plane; obtain ⟨t', rfl⟩ := hb.point
      exact planePoint_trn (ha.1 ▸ V3.turn_trn σ _) (ha.2.1 ▸ V3.turn_trn σ _) ha.2.2.1 (hb.1 ▸ V3.turn_trn σ _)
    | .plane s, .ray t, ha, hb, h, _ =>
      obtain ⟨s', rfl⟩ := ha.plane; obtain ⟨t', rfl⟩ := hb.ray
      exact rayPlane_trn (hb.1 ▸ V3.turn_trn σ _) (hb.2.1 ▸ V3.turn_trn σ _) (ha.1 ▸ V3.turn_trn σ _) (ha.2.1 ▸ V3.turn_trn σ _)
    | .plane s, .sphere t, ha, hb, h, _ =>
      obtain ⟨s', rfl⟩ := ha.plane; obtain ⟨t', rfl⟩ := hb.sphere
      exact spherePlane_trn (hb.1 ▸ V3.turn_trn σ _) hb.2.1 (ha.1 ▸ V3.turn_trn σ _) (ha.2.1 ▸ V3.turn_trn σ _)
    | .box s, .point t, ha, hb, h, _ =>
      obtain ⟨s', rfl⟩ := ha.box; obtain ⟨t', rfl⟩ := hb.point
      exact trn_some (hb.1 ▸ V3.turn_trn σ _)
    | .triPrism s, .point t, ha, hb, h, _ =>
      obtain ⟨s', rfl⟩ := ha.triPrism; obtain ⟨t', rfl⟩ := hb.point
      exact prismPoint_trn (h.2.2 (.inl rfl)) ha (hb.1 ▸ V3.turn_trn σ _)
    | .triPrism s, .line t, ha, hb, h, _ =>
      obtain ⟨s', rfl⟩ := ha.triPrism; obtain ⟨t', rfl⟩ := hb.line
      exact prismLine_trn (h.2.2 (.inl rfl)) ha (hb.1 ▸ V3.turn_trn σ _) (hb.2.1 ▸ V3.turn_trn σ _)
    | .line s, .triPrism t, ha, hb, h, _ =>
      obtain ⟨s', rfl⟩ := ha.line; obtain ⟨t', rfl⟩ := hb.triPrism
      exact prismLine_trn (h.2.2 (.inr rfl)) hb (ha.1 ▸ V3.turn_trn σ _) (ha.2.1 ▸ V3.turn_trn σ _)
  · rw [core_unsupported a b hs, core_unsupported a' b' (by rwa [ha.type, hb.type])]
    exact trn_error _

theorem boxL_trn {v v' : V3 K} {l l' : List (V3 K)} (h : List.Forall₂ (V3.Trn σ) (v :: l) (v' :: l')) (hn : ∀ u ∈ v :: l, u.NoNaN) :
    AABB.Trn σ (boxL v l) (boxL v' l') := by
  have key (g g' : V3 K → Fl K) (b : Bool) (hg : ∀ u u', V3.Trn σ u u' → Same (g' u') (flip b (g u))) (hn : ∀ u ∈ v :: l, g u ≠ .nan) :
      Same (mnL (g' v') (l'.map g')) (if b then -mxL (g v) (l.map g) else mnL (g v) (l.map g)) ∧
      Same (mxL (g' v') (l'.map g')) (if b then -mnL (g v) (l.map g) else mxL (g v) (l.map g)) := by
    refine minmax_mir ?_ ?_
    · have : List.Forall₂ (fun y y' => Same y' (flip b y)) ((v :: l).map g) ((v' :: l').map g') := by
        rw [List.forall₂_map_left_iff, List.forall₂_map_right_iff]
        exact h.imp hg
      exact this
    · intro y hy
      rw [← List.map_cons] at hy
      obtain ⟨u, hu, rfl⟩ := List.mem_map.mp hy
      exact hn u hu
  exact AABB.trn_mk (key (·.val[1]) (·.val[0]) (σ 0) (fun _ _ h => h.1) fun u hu => (hn u hu).2.1)
    (key (·.val[0]) (·.val[1]) (σ 1) (fun _ _ h => h.2.1) fun u hu => (hn u hu).1)
    (key (·.val[2]) (·.val[2]) (σ 2) (fun _ _ h => h.2.2) fun u hu => (hn u hu).2.2)

end

/-! ## Specification: a turned constructor call -/

/-- a list of coordinates, three by three: the first two exchanged, then the signs selected by `σ` flipped -/
def turnList (σ : Fin 3 → Bool) : List (Fl K) → List (Fl K)
  | x :: y :: z :: l => (if σ 0 then -y else y) :: (if σ 1 then -x else x) :: (if σ 2 then -z else z) :: turnList σ l
  | l => l

/-- the call with turned positions, directions and normals; radii, sides and heights stay -/
def Ctor.turned (σ : Fin 3 → Bool) : Ctor K → Ctor K
  | .point o => .point (turnList σ o)
  | .ray o d => .ray (turnList σ o) (turnList σ d)
  | .sphere o r => .sphere (turnList σ o) r
  | .plane o n => .plane (turnList σ o) (turnList σ n)
  | .box o h => .box (turnList σ o) h
  | .line a b => .line (turnList σ a) (turnList σ b)
  | .triPrism v h => .triPrism (turnList σ v) h

section ctor
variable (σ : Fin 3 → Bool)

theorem turnList3 (x y z : Fl K) : turnList σ [x, y, z] = [flip (σ 0) y, flip (σ 1) x, flip (σ 2) z] := rfl

theorem turnList9 (a b c a' b' c' a'' b'' c'' : Fl K) : turnList σ [a, b, c, a', b', c', a'', b'', c''] =
    [flip (σ 0) b, flip (σ 1) a, flip (σ 2) c, flip (σ 0) b', flip (σ 1) a', flip (σ 2) c',
      flip (σ 0) b'', flip (σ 1) a'', flip (σ 2) c''] := rfl


theorem point_trn {o : List (Fl K)} {s : Point3 K} (h : Point3.init o = .ok s) :
    ∃ s', Point3.init (turnList σ o) = .ok s' ∧ Shape.Trn σ (.point s) (.point s') := by
  by_cases h1 : o.length = 3
  · obtain ⟨x, y, z, rfl⟩ := list3 h1
    obtain rfl := Except.ok.inj h
    exact ⟨_, rfl, rfl, rfl, AABB.trn_mk (mir_point _ _) (mir_point _ _) (mir_point _ _)⟩
  · simp [Point3.init, beq_false_of_ne h1] at h

theorem sphere_trn {o : List (Fl K)} {r : Fl K} {s : Sphere K} (h : Sphere.init o r = .ok s) :
    ∃ s', Sphere.init (turnList σ o) r = .ok s' ∧ Shape.Trn σ (.sphere s) (.sphere s') := by
  by_cases h1 : o.length = 3
  · obtain ⟨x, y, z, rfl⟩ := list3 h1
    obtain rfl := Except.ok.inj h
    exact ⟨_, rfl, rfl, rfl, rfl, AABB.trn_mk (mir_around _ _ _) (mir_around _ _ _) (mir_around _ _ _)⟩
  · simp [Sphere.init, beq_false_of_ne h1] at h

theorem box_trn {o : List (Fl K)} {r : Fl K} {s : RecBox K} (h : RecBox.init o r = .ok s) :
    ∃ s', RecBox.init (turnList σ o) r = .ok s' ∧ Shape.Trn σ (.box s) (.box s') := by
  by_cases h1 : o.length = 3
  · obtain ⟨x, y, z, rfl⟩ := list3 h1
    obtain rfl := Except.ok.inj h
    exact ⟨_, rfl, rfl, rfl, rfl, AABB.trn_mk (mir_around _ _ _) (mir_around _ _ _) (mir_around _ _ _)⟩
  · simp [RecBox.init, beq_false_of_ne h1] at h

theorem ray_trn {o d : List (Fl K)} {s : Ray3 K} (h : Ray3.init o d = .ok s) :
    ∃ s', Ray3.init (turnList σ o) (turnList σ d) = .ok s' ∧ Shape.Trn σ (.ray s) (.ray s') := by
  by_cases h1 : o.length = 3
  · by_cases h2 : d.length = 3
    · obtain ⟨x, y, z, rfl⟩ := list3 h1
      obtain ⟨x', y', z', rfl⟩ := list3 h2
      obtain rfl := Except.ok.inj h
      exact ⟨_, rfl, rfl, V3.nrm_turn ⟨#v[x', y', z']⟩, rfl, AABB.trn_mk (mir_ray _ _ _) (mir_ray _ _ _) (mir_ray _ _ _)⟩
    · simp [Ray3.init, h1, beq_false_of_ne h2] at h
  · simp [Ray3.init, beq_false_of_ne h1] at h

theorem plane_trn {o d : List (Fl K)} {s : Plane K} (h : Plane.init o d = .ok s) :
    ∃ s', Plane.init (turnList σ o) (turnList σ d) = .ok s' ∧ Shape.Trn σ (.plane s) (.plane s') := by
  by_cases h1 : o.length = 3
  · by_cases h2 : d.length = 3
    · obtain ⟨x, y, z, rfl⟩ := list3 h1
      obtain ⟨x', y', z', rfl⟩ := list3 h2
      obtain rfl := Except.ok.inj h
      exact ⟨_, rfl, rfl, V3.nrm_turn ⟨#v[x', y', z']⟩, rfl, trn_default⟩
    · simp [Plane.init, h1, beq_false_of_ne h2] at h
  · simp [Plane.init, beq_false_of_ne h1] at h

theorem line_trn {a b : List (Fl K)} {s : Line3 K} (h : Line3.init a b = .ok s) (hn : s.a.NoNaN ∧ s.b.NoNaN) :
    ∃ s', Line3.init (turnList σ a) (turnList σ b) = .ok s' ∧ Shape.Trn σ (.line s) (.line s') := by
  by_cases h1 : a.length = 3
  · by_cases h2 : b.length = 3
    · obtain ⟨x, y, z, rfl⟩ := list3 h1
      obtain ⟨x', y', z', rfl⟩ := list3 h2
      rw [line_init] at h
      obtain rfl := Except.ok.inj h
      rw [turnList3, turnList3, line_init]
      refine ⟨_, rfl, rfl, rfl, rfl, boxL_trn (.cons (V3.turn_trn σ _) (.cons (V3.turn_trn σ _) .nil)) ?_⟩
      intro u hu
      simp only [List.mem_cons, List.not_mem_nil, or_false] at hu
      rcases hu with rfl | rfl
      · exact hn.1
      · exact hn.2
    · simp [Line3.init, h1, beq_false_of_ne h2] at h
  · simp [Line3.init, beq_false_of_ne h1] at h

theorem prism_trn (ho : V3.rev σ = false) {v : List (Fl K)} {h : Fl K} {s : TriPrism K} (hs : TriPrism.init v h = .ok s)
    (hn : (Shape.triPrism s).CornersNoNaN) : ∃ s', TriPrism.init (turnList σ v) h = .ok s' ∧ Shape.Trn σ (.triPrism s) (.triPrism s') := by
  by_cases h1 : v.length = 9
  · rcases v with _ | ⟨a, _ | ⟨b, _ | ⟨c, _ | ⟨a', _ | ⟨b', _ | ⟨c', _ | ⟨a'', _ | ⟨b'', _ | ⟨c'', _ | _⟩⟩⟩⟩⟩⟩⟩⟩⟩ <;> simp at h1
    rw [prism_init] at hs
    obtain rfl := Except.ok.inj hs
    rw [turnList9, prism_init]
    have m0 := V3.turn_trn σ (⟨#v[a, b, c]⟩ : V3 K)
    have m1 := V3.turn_trn σ (⟨#v[a', b', c']⟩ : V3 K)
    have m2 := V3.turn_trn σ (⟨#v[a'', b'', c'']⟩ : V3 K)
    have mn := (((m1.sub m0).crs_even ho (m2.sub m0)).nrm).scl (.refl h)
    refine ⟨_, rfl, ⟨m0, m1, m2⟩, m0.add mn, mn, rfl, boxL_trn
      (.cons m0 (.cons m1 (.cons m2 (.cons (m0.add mn) (.cons (m1.add mn) (.cons (m2.add mn) .nil)))))) ?_⟩
    obtain ⟨⟨n0, n1, n2⟩, n3, n4, n5⟩ := hn
    intro u hu
    simp only [List.mem_cons, List.not_mem_nil, or_false] at hu
    rcases hu with rfl | rfl | rfl | rfl | rfl | rfl <;> assumption
  · simp [TriPrism.init, beq_false_of_ne h1] at hs

theorem Ctor.made_trn (c : Ctor K) {s : Shape K} (h : c.make = .ok s) (hn : s.CornersNoNaN) (ho : s.getType = .triPrism → V3.rev σ = false) :
    ∃ s', (c.turned σ).make = .ok s' ∧ s.Trn σ s' := by
  cases c with
  | point o => obtain ⟨p, hp, rfl⟩ := map_ok h
               obtain ⟨p', h1, h2⟩ := point_trn σ hp
               exact ⟨_, congrArg (Except.map Shape.point) h1, h2⟩
  | ray o d => obtain ⟨p, hp, rfl⟩ := map_ok h
               obtain ⟨p', h1, h2⟩ := ray_trn σ hp
               exact ⟨_, congrArg (Except.map Shape.ray) h1, h2⟩
  | sphere o r => obtain ⟨p, hp, rfl⟩ := map_ok h
                  obtain ⟨p', h1, h2⟩ := sphere_trn σ hp
                  exact ⟨_, congrArg (Except.map Shape.sphere) h1, h2⟩
  | plane o n => obtain ⟨p, hp, rfl⟩ := map_ok h
                 obtain ⟨p', h1, h2⟩ := plane_trn σ hp
                 exact ⟨_, congrArg (Except.map Shape.plane) h1, h2⟩
  | box o r => obtain ⟨p, hp, rfl⟩ := map_ok h
               obtain ⟨p', h1, h2⟩ := box_trn σ hp
               exact ⟨_, congrArg (Except.map Shape.box) h1, h2⟩
  | line a b => obtain ⟨p, hp, rfl⟩ := map_ok h
                obtain ⟨p', h1, h2⟩ := line_trn σ hp hn
                exact ⟨_, congrArg (Except.map Shape.line) h1, h2⟩
  | triPrism v r => obtain ⟨p, hp, rfl⟩ := map_ok h
                    obtain ⟨p', h1, h2⟩ := prism_trn σ (ho rfl) hp hn
                    exact ⟨_, congrArg (Except.map Shape.triPrism) h1, h2⟩

theorem aabb_trn {a a' : Shape K} (h : a.Trn σ a') : a.aabb.Trn σ a'.aabb := by
  cases a <;> cases a' <;> first | exact h.2.2 | exact h.2.2.2 | exact h.2.2.2.2 | exact h.elim

theorem setVicinity_trn {a a' : Shape K} (h : a.Trn σ a') (e : Fl K) : (a.setVicinity e).Trn σ (a'.setVicinity e) := by
  cases a <;> cases a' <;> first
    | exact ⟨h.1, rfl, h.2.2⟩
    | exact ⟨h.1, h.2.1, rfl, h.2.2.2⟩
    | exact ⟨h.1, h.2.1, h.2.2.1, rfl, h.2.2.2.2⟩
    | exact h.elim

theorem getIntersect_trn (n : ℕ) {a b a' b' : Shape K} (ha : a.Trn σ a') (hb : b.Trn σ b') (h : TrnPairs σ a.getType b.getType) :
    TrnRes σ (Shape.getIntersect (n + 2) a b) (Shape.getIntersect (n + 2) a' b') := by
  rw [getIntersect_eq, getIntersect_eq]
  refine trn_ite ((aabb_trn σ ha).overlap (aabb_trn σ hb)) (core_trn a b ha hb h) fun _ => trn_none

end ctor


/-! ## C95 -/

/-- C95: exchanging the first two coordinates of positions, directions and normals of two shapes, and flipping any signs, leaves the flag
or panic of the query unchanged and does the same to the reported location, bit for bit up to the signs of zeros: for all floats of every
lawful format, with the default tolerances and with any tolerances set.  In particular for the quarter turns about the `z` axis
(`σ = (true, false, false)` and `(false, true, false)`).  Not for a ray with a point (see `C95_ray_point_false`); for a sphere with a point
only if no sign is flipped; for prisms only if the orientation is kept. -/
theorem C95_query (σ : Fin 3 → Bool) {a b : Ctor K} {A B : Shape K} (hA : a.make = .ok A) (hB : b.make = .ok B)
    (hnA : A.CornersNoNaN) (hnB : B.CornersNoNaN) (h : TrnPairs σ A.getType B.getType) :
    ∃ A' B', (a.turned σ).make = .ok A' ∧ (b.turned σ).make = .ok B' ∧
      (∀ n, TrnRes σ (Shape.getIntersect (n + 2) A B) (Shape.getIntersect (n + 2) A' B')) ∧
      ∀ n e f, TrnRes σ (Shape.getIntersect (n + 2) (A.setVicinity e) (B.setVicinity f))
        (Shape.getIntersect (n + 2) (A'.setVicinity e) (B'.setVicinity f)) := by
  obtain ⟨A', h1, m1⟩ := a.made_trn σ hA hnA fun e => h.2.2 (.inl e)
  obtain ⟨B', h2, m2⟩ := b.made_trn σ hB hnB fun e => h.2.2 (.inr e)
  refine ⟨A', B', h1, h2, fun n => getIntersect_trn σ n m1 m2 h, fun n e f => ?_⟩
  refine getIntersect_trn σ n (setVicinity_trn σ m1 e) (setVicinity_trn σ m2 f) ?_
  have t1 : (A.setVicinity e).getType = A.getType := by cases A <;> rfl
  have t2 : (B.setVicinity f).getType = B.getType := by cases B <;> rfl
  rwa [t1, t2]

/-- the relation between locations, spelt out for the quarter turn `(x, y, z) ↦ (-y, x, z)` -/
example (a a' : V3 K) : V3.Trn ![true, false, false] a a' ↔
    Same a'.val[0] (-a.val[1]) ∧ Same a'.val[1] a.val[0] ∧ Same a'.val[2] a.val[2] := Iff.rfl

/-- a quarter turn keeps the orientation, the exchange alone does not -/
example : V3.rev ![true, false, false] = false ∧ V3.rev ![false, true, false] = false ∧ V3.rev ![false, false, false] = true := by decide

/-- concrete case: a ball and a ray that meets it in binary64, turned by a quarter -/
example : ∃ A B : Shape Q64, (Ctor.sphere [.fin 3, 0, 0] 1 : Ctor Q64).make = .ok A ∧
    (Ctor.ray [0, 0, 0] [1, 0, 0] : Ctor Q64).make = .ok B ∧ A.CornersNoNaN ∧ B.CornersNoNaN ∧
    TrnPairs ![true, false, false] A.getType B.getType ∧ Shape.getIntersect 2 A B = .ok (true, some ⟨#v[.fin 2, 0, 0]⟩) :=
  ⟨_, _, rfl, rfl, trivial, trivial, ⟨by decide, by decide, by decide⟩, by decide +kernel⟩

/-- ... and what follows for the turned call -/
example : ∃ A' B' : Shape Q64, ((Ctor.sphere [.fin 3, 0, 0] 1 : Ctor Q64).turned ![true, false, false]).make = .ok A' ∧
    ((Ctor.ray [0, 0, 0] [1, 0, 0] : Ctor Q64).turned ![true, false, false]).make = .ok B' ∧
    Shape.getIntersect 2 A' B' = .ok (true, some ⟨#v[.nzero, .fin 2, 0]⟩) :=
  ⟨_, _, rfl, rfl, by decide +kernel⟩

/-- concrete case: a prism and a point inside it, turned by a quarter -/
example : ∃ A B : Shape Q64, (Ctor.triPrism [0, 0, 0, .fin 4, 0, 0, 0, .fin 4, 0] 1 : Ctor Q64).make = .ok A ∧
    (Ctor.point [1, .fin 2, .fin (1 / 2)] : Ctor Q64).make = .ok B ∧ A.CornersNoNaN ∧ B.CornersNoNaN ∧
    TrnPairs ![true, false, false] A.getType B.getType ∧
    Shape.getIntersect 2 A B = .ok (true, some ⟨#v[1, .fin 2, .fin (1 / 2)]⟩) := by
  refine ⟨_, _, rfl, rfl, ?_, trivial, ⟨by decide, by decide, by decide⟩, ?_⟩
  · unfold Shape.CornersNoNaN V3.NoNaN; decide +kernel
  · decide +kernel

/-- concrete case: a sphere and a point, with `x` and `y` exchanged -/
example : TrnPairs (fun _ => false) .sphere .point := ⟨by decide, fun _ => rfl, by decide⟩

/-- the specification is sensible: the quarter turn `(x, y, z) ↦ (-y, x, z)` taken four times leads back to the first call. -/
theorem Ctor.turned_four (c : Ctor K) :
    ((((c.turned ![true, false, false]).turned ![true, false, false]).turned ![true, false, false]).turned ![true, false, false]) = c := by
  have key : ∀ (n : ℕ) (l : List (Fl K)), l.length ≤ n →
      turnList ![true, false, false] (turnList ![true, false, false] (turnList ![true, false, false] (turnList ![true, false, false] l))) = l := by
    intro n
    induction n with
    | zero => intro l h; rw [List.length_eq_zero_iff.mp (Nat.le_zero.mp h)]; rfl
    | succ n ih =>
      intro l h
      match l with
      | [] => rfl
      | [_] => rfl
      | [_, _] => rfl
      | x :: y :: z :: l =>
        show (- -x) :: (- -y) :: z :: _ = _
        rw [Fl.neg_neg', Fl.neg_neg', ih l (by simp at h; omega)]
  have k (l : List (Fl K)) := key l.length l (Nat.le_refl _)
  cases c <;> simp only [Ctor.turned, k]

/-- concrete case: one turn of a segment -/
example : (Ctor.line [1, .fin 2, .fin 3] [.fin 4, .fin 5, .fin 6] : Ctor Q64).turned ![true, false, false] =
    .line [-.fin 2, 1, .fin 3] [-.fin 5, .fin 4, .fin 6] := rfl

/-- C95 fails for a ray with a point in binary64: with the tolerance `1/2`, the point `(1, 5/4, 3/2)` is found on the diagonal ray, but not
after `x` and `y` are exchanged (the code compares the parameters of the coordinates in a row, and not the first with the last). -/
theorem C95_ray_point_false : ∃ A B A' B' : Shape Q64,
    (Ctor.ray [0, 0, 0] [1, 1, 1] : Ctor Q64).make = .ok A ∧ (Ctor.point [1, .fin (5 / 4), .fin (3 / 2)] : Ctor Q64).make = .ok B ∧
    ((Ctor.ray [0, 0, 0] [1, 1, 1] : Ctor Q64).turned fun _ => false).make = .ok A' ∧
    ((Ctor.point [1, .fin (5 / 4), .fin (3 / 2)] : Ctor Q64).turned fun _ => false).make = .ok B' ∧
    (Shape.getIntersect 2 (A.setVicinity (.fin (1 / 2))) (B.setVicinity (.fin (1 / 2)))).map Prod.fst = .ok true ∧
    Shape.getIntersect 2 (A'.setVicinity (.fin (1 / 2))) (B'.setVicinity (.fin (1 / 2))) = .ok (false, none) := by
  refine ⟨_, _, _, _, rfl, rfl, rfl, rfl, by decide +kernel, by decide +kernel⟩

/-- C95 is about the first two coordinates only: exchanging `y` and `z` changes the order of the sums, and with it the answer.  Two balls
of radii `94906265` and `1` whose centres differ by `(15/16, 15/16, 94906266)` miss each other in binary64, but touch after `y` and `z` are
exchanged. -/
theorem C95_y_z_false : ∃ A B A' B' : Shape Q64,
    (Ctor.sphere [0, 0, 0] (.fin 94906265) : Ctor Q64).make = .ok A ∧ (Ctor.sphere [.fin (15 / 16), .fin (15 / 16), .fin 94906266] 1 : Ctor Q64).make = .ok B ∧
    (Ctor.sphere [0, 0, 0] (.fin 94906265) : Ctor Q64).make = .ok A' ∧ (Ctor.sphere [.fin (15 / 16), .fin 94906266, .fin (15 / 16)] 1 : Ctor Q64).make = .ok B' ∧
    Shape.getIntersect 2 A B = .ok (false, none) ∧ (Shape.getIntersect 2 A' B').map Prod.fst = .ok true :=
  ⟨_, _, _, _, rfl, rfl, rfl, rfl, by decide +kernel, by decide +kernel⟩

end Mazth
