import Verif.Proofs.LinearTy
import Verif.Proofs.Samples
import Verif.Spec.Euclid
import Verif.Float.BinaryLawful
import Mathlib.Analysis.InnerProductSpace.PiL2
import Mathlib.LinearAlgebra.CrossProduct

/-!
# C09 – C12, C54: vectors

`euc u` is the Euclidean norm of Mathlib.  Statements over `Fl K` hold for every float format (those that mention
rounding assume the rounding laws `LawfulFmt`, which binary64 and binary32 satisfy).
-/

set_option linter.unusedSectionVars false
set_option autoImplicit false

namespace Mazth

open Matrix

variable {K : Type} [Field K] [LinearOrder K] [Fmt K]

/-! ## C54: component-wise arithmetic -/

/-- C54: all six types, all floats: every operation returns `Some` of the component-wise result; `size()` is the
dimension. -/
theorem C54_componentwise (t : VecTy) (a b : t.Ty (Fl K)) (f g : Fin t.dim → Fl K) (ha : t.Reads a f)
    (hb : t.Reads b g) (s : Fl K) :
    (∃ c, t.plus a b = some c ∧ t.Reads c fun i => f i + g i) ∧
    (∃ c, t.minus a b = some c ∧ t.Reads c fun i => f i - g i) ∧
    (∃ c, t.mulElem a b = some c ∧ t.Reads c fun i => f i * g i) ∧
    (∃ c, t.div a b = some c ∧ t.Reads c fun i => f i / g i) ∧
    (∃ c, t.scale a s = some c ∧ t.Reads c fun i => f i * s) ∧ t.size a = some t.dim := by
  simp only [VecTy.reads_iff] at *
  refine ⟨?_, ?_, ?_, ?_, ?_, ?_⟩
  · obtain ⟨c, h, r⟩ := t.plus_get a b; exact ⟨c, h, fun i => by rw [r, ha, hb]⟩
  · obtain ⟨c, h, r⟩ := t.minus_get a b; exact ⟨c, h, fun i => by rw [r, ha, hb]⟩
  · obtain ⟨c, h, r⟩ := t.mulElem_get a b; exact ⟨c, h, fun i => by rw [r, ha, hb]⟩
  · obtain ⟨c, h, r⟩ := t.div_get a b; exact ⟨c, h, fun i => by rw [r, ha, hb]⟩
  · obtain ⟨c, h, r⟩ := t.scale_get a s; exact ⟨c, h, fun i => by rw [r, ha]⟩
  · cases t <;> rfl

/-- concrete case: `(3/2, -0, 2^-10)` and a vector with a subnormal, `-∞` and NaN, in binary64 -/
example := C54_componentwise .mat3x1 tame3 wild3 tameF _ tame3_reads (VecTy.reads_self _) (.fin (1 / 2 : ℚ))

/-- C54: `plus` and `mul_elem` commute bit for bit. -/
theorem C54_comm [IsStrictOrderedRing K] (t : VecTy) (a b : t.Ty (Fl K)) :
    t.plus a b = t.plus b a ∧ t.mulElem a b = t.mulElem b a := by
  constructor
  · obtain ⟨c, h, r⟩ := t.plus_get a b
    obtain ⟨d, h', r'⟩ := t.plus_get b a
    rw [h, h']; congr 1
    exact VecTy.ext_get fun i => by rw [r, r', Fl.add_comm']
  · obtain ⟨c, h, r⟩ := t.mulElem_get a b
    obtain ⟨d, h', r'⟩ := t.mulElem_get b a
    rw [h, h']; congr 1
    exact VecTy.ext_get fun i => by rw [r, r', Fl.mul_comm']

/-- concrete case -/
example : tame3.plus wild3 = wild3.plus tame3 := (C54_comm .mat3x1 tame3 wild3).1

/-- C54: in exact arithmetic `plus`, `minus`, `scale` are the vector-space operations of `ℝⁿ`, `mul_elem` and `div` the
point-wise ones, and `default()` is the zero vector. -/
theorem C54_vectorSpace (t : VecTy) (a b : t.Ty (Fl ℝ)) (u v : Fin t.dim → ℝ) (ha : t.ReadsR a u)
    (hb : t.ReadsR b v) (s : Fl ℝ) (r : ℝ) (hs : s.Is r) :
    (∃ c, t.plus a b = some c ∧ t.ReadsR c (u + v)) ∧
    (∃ c, t.minus a b = some c ∧ t.ReadsR c (u - v)) ∧
    (∃ c, t.mulElem a b = some c ∧ t.ReadsR c (u * v)) ∧
    ((∀ i, v i ≠ 0) → ∃ c, t.div a b = some c ∧ t.ReadsR c (u / v)) ∧
    (∃ c, t.scale a s = some c ∧ t.ReadsR c (r • u)) ∧ t.ReadsR (t.default : t.Ty (Fl ℝ)) 0 := by
  simp only [VecTy.readsR_iff] at *
  refine ⟨?_, ?_, ?_, ?_, ?_, ?_⟩
  · obtain ⟨c, h, q⟩ := t.plus_get a b; exact ⟨c, h, fun i => by rw [q]; exact (ha i).add (hb i)⟩
  · obtain ⟨c, h, q⟩ := t.minus_get a b; exact ⟨c, h, fun i => by rw [q]; exact (ha i).sub (hb i)⟩
  · obtain ⟨c, h, q⟩ := t.mulElem_get a b; exact ⟨c, h, fun i => by rw [q]; exact (ha i).mul (hb i)⟩
  · intro h0
    obtain ⟨c, h, q⟩ := t.div_get a b; exact ⟨c, h, fun i => by rw [q]; exact (ha i).div (hb i) (h0 i)⟩
  · obtain ⟨c, h, q⟩ := t.scale_get a s
    exact ⟨c, h, fun i => by rw [q]; exact ((ha i).mul hs).cast (by simp [mul_comm])⟩
  · intro i; rw [VecTy.default_get]; exact Fl.is_zero

/-- concrete case: `(3, 4, 0)` and `(1, -2, 5)` scaled by `7` -/
example := C54_vectorSpace .mat3x1 _ _ _ _ (vec3R_reads 3 4 0) (vec3R_reads 1 (-2) 5) (.fin 7) 7 (Fl.is_fin 7)

/-! ## C09: dot and cross product -/

/-- C09: `dot` is symmetric bit for bit. -/
theorem C09_dot_comm [IsStrictOrderedRing K] (t : VecTy) (a b : t.Ty (Fl K)) : t.dot a b = t.dot b a := by
  rw [VecTy.dot_get, VecTy.dot_get]; simp only [Fl.mul_comm']

/-- concrete case -/
example : tame3.dot wild3 = wild3.dot tame3 := C09_dot_comm .mat3x1 tame3 wild3

/-- C09: `dot` is the Euclidean inner product. -/
theorem C09_dot (t : VecTy) (a b : t.Ty (Fl ℝ)) (u v : Fin t.dim → ℝ) (ha : t.ReadsR a u) (hb : t.ReadsR b v) :
    ∃ x, t.dot a b = some x ∧ x.Is (u ⬝ᵥ v) := by
  rw [VecTy.readsR_iff] at ha hb
  exact ⟨_, t.dot_get a b, t.sumL_is _ _ fun i => (ha i).mul (hb i)⟩

/-- concrete case: `(1, 2, 3) · (4, 5, 6) = 32` -/
example : ∃ x, (vec3R 1 2 3).dot (vec3R 4 5 6) = some x ∧ x.Is 32 := by
  obtain ⟨x, h, r⟩ := C09_dot .mat3x1 _ _ _ _ (vec3R_reads 1 2 3) (vec3R_reads 4 5 6)
  exact ⟨x, h, r.cast (by simp [dotProduct, Fin.sum_univ_three]; norm_num)⟩

/-- C09: on the two 3-vector types `cross` is the vector product. -/
theorem C09_cross (t : VecTy) (h3 : t.dim = 3) (a b : t.Ty (Fl ℝ)) (u v : Fin 3 → ℝ)
    (ha : t.ReadsR a (u ∘ Fin.cast h3)) (hb : t.ReadsR b (v ∘ Fin.cast h3)) :
    ∃ c, t.cross a b = some c ∧ t.ReadsR c ((crossProduct u v) ∘ Fin.cast h3) := by
  have key : ∀ x y z w : Fl ℝ, ∀ p q r s : ℝ, x.Is p → y.Is q → z.Is r → w.Is s →
      (x * y - z * w).Is (p * q - r * s) := fun x y z w p q r s h1 h2 h3 h4 => (h1.mul h2).sub (h3.mul h4)
  rw [VecTy.readsR_iff] at ha hb
  cases t <;> try exact absurd h3 (by decide)
  all_goals
    refine ⟨_, rfl, VecTy.readsR_iff.mpr fun i => ?_⟩
    fin_cases i
    · exact (key _ _ _ _ _ _ _ _ (ha 1) (hb 2) (ha 2) (hb 1)).cast (by simp [cross_apply])
    · exact (key _ _ _ _ _ _ _ _ (ha 2) (hb 0) (ha 0) (hb 2)).cast (by simp [cross_apply])
    · exact (key _ _ _ _ _ _ _ _ (ha 0) (hb 1) (ha 1) (hb 0)).cast (by simp [cross_apply])

/-- C09: the vector product computed by the code is orthogonal to both factors, anti-symmetric, and satisfies
Lagrange's identity (`aa`, `bb`, `ab`, `cc` are results of `dot`). -/
theorem C09_cross_laws (t : VecTy) (h3 : t.dim = 3) (a b : t.Ty (Fl ℝ)) (u v : Fin t.dim → ℝ)
    (ha : t.ReadsR a u) (hb : t.ReadsR b v) :
    ∃ c d, t.cross a b = some c ∧ t.cross b a = some d ∧
      (∃ x, t.dot a c = some x ∧ x.Is 0) ∧ (∃ x, t.dot b c = some x ∧ x.Is 0) ∧
      (∃ w, t.ReadsR c w ∧ t.ReadsR d (-w)) ∧
      ∃ aa bb ab cc, (∃ x, t.dot a a = some x ∧ x.Is aa) ∧ (∃ x, t.dot b b = some x ∧ x.Is bb) ∧
        (∃ x, t.dot a b = some x ∧ x.Is ab) ∧ (∃ x, t.dot c c = some x ∧ x.Is cc) ∧ cc = aa * bb - ab ^ 2 := by
  have hu : ∃ u' : Fin 3 → ℝ, u = u' ∘ Fin.cast h3 := ⟨u ∘ Fin.cast h3.symm, by ext i; simp⟩
  have hv : ∃ v' : Fin 3 → ℝ, v = v' ∘ Fin.cast h3 := ⟨v ∘ Fin.cast h3.symm, by ext i; simp⟩
  obtain ⟨u, rfl⟩ := hu
  obtain ⟨v, rfl⟩ := hv
  have dcast : ∀ x y : Fin 3 → ℝ, (x ∘ Fin.cast h3) ⬝ᵥ (y ∘ Fin.cast h3) = x ⬝ᵥ y := by
    intro x y; cases t <;> first | exact absurd h3 (by decide) | rfl
  obtain ⟨c, h1, r1⟩ := C09_cross t h3 a b u v ha hb
  obtain ⟨d, h2, r2⟩ := C09_cross t h3 b a v u hb ha
  refine ⟨c, d, h1, h2, ?_, ?_, ⟨_, r1, ?_⟩, _, _, _, _, C09_dot t a a _ _ ha ha, C09_dot t b b _ _ hb hb,
    C09_dot t a b _ _ ha hb, C09_dot t c c _ _ r1 r1, ?_⟩
  · have := C09_dot t a c _ _ ha r1
    rwa [dcast, dot_self_cross] at this
  · have := C09_dot t b c _ _ hb r1
    rwa [dcast, dot_cross_self] at this
  · rw [← cross_anticomm] at r2
    exact r2
  · simp only [dcast]
    rw [cross_dot_cross, dotProduct_comm v u]; ring

/-- concrete case -/
example := C09_cross_laws .mat3x1 rfl _ _ _ _ (vec3R_reads 1 2 3) (vec3R_reads 4 5 6)

/-- C09: `cross` is `None` on 2- and 4-vectors and on matrices, `dot` is `None` on matrices. -/
theorem C09_none :
    (∀ (t : VecTy) (a b : t.Ty (Fl K)), t.dim ≠ 3 → t.cross a b = none) ∧
    (∀ (t : MatTy) (a b : t.Ty (Fl K)), t.cross a b = none ∧ t.dot a b = none) := by
  constructor
  · intro t a b h; cases t <;> first | rfl | exact absurd rfl h
  · intro t a b; cases t <;> exact ⟨rfl, rfl⟩

/-- non-vacuity: i × j = k -/
example : ∃ c, VecTy.cross .mat3x1 (vec3R 1 0 0) (vec3R 0 1 0) = some c ∧
    VecTy.ReadsR .mat3x1 c ![0, 0, 1] := by
  obtain ⟨c, h, r⟩ := C09_cross .mat3x1 rfl (vec3R 1 0 0) (vec3R 0 1 0) ![1, 0, 0] ![0, 1, 0]
    (vec3R_reads 1 0 0) (vec3R_reads 0 1 0)
  refine ⟨c, h, ?_⟩
  convert r using 1
  ext i; fin_cases i <;> simp [cross_apply]

/-! ## C10: magnitude -/

/-- C10: `magnitude` is the Euclidean norm. -/
theorem C10_magnitude (t : VecTy) (a : t.Ty (Fl ℝ)) (u : Fin t.dim → ℝ) (ha : t.ReadsR a u) :
    ∃ m, t.magnitude a = some m ∧ m.Is (euc u) := by
  rw [VecTy.readsR_iff] at ha
  refine ⟨_, t.magnitude_get a, ?_⟩
  rw [euc_eq]
  exact (t.sumL_is _ _ fun i => (ha i).mul (ha i)).sqrt (Finset.sum_nonneg fun i _ => mul_self_nonneg _)

/-- C10: norm laws for the results of `magnitude`: non-negative, zero exactly for the zero vector, homogeneous for
`scale`, sub-additive for `plus`. -/
theorem C10_laws (t : VecTy) (a b : t.Ty (Fl ℝ)) (u v : Fin t.dim → ℝ) (ha : t.ReadsR a u) (hb : t.ReadsR b v)
    (s : Fl ℝ) (r : ℝ) (hs : s.Is r) :
    ∃ na nb ns np sa ab, (∃ m, t.magnitude a = some m ∧ m.Is na) ∧ (∃ m, t.magnitude b = some m ∧ m.Is nb) ∧
      t.scale a s = some sa ∧ (∃ m, t.magnitude sa = some m ∧ m.Is ns) ∧
      t.plus a b = some ab ∧ (∃ m, t.magnitude ab = some m ∧ m.Is np) ∧
      0 ≤ na ∧ (na = 0 ↔ ∀ i, u i = 0) ∧ ns = |r| * na ∧ np ≤ na + nb := by
  obtain ⟨⟨p, hp, rp⟩, -, -, -, ⟨q, hq, rq⟩, -⟩ := C54_vectorSpace t a b u v ha hb s r hs
  exact ⟨_, _, _, _, q, p, C10_magnitude t a u ha, C10_magnitude t b v hb, hq, C10_magnitude t q _ rq, hp,
    C10_magnitude t p _ rp, euc_nonneg u, (euc_eq_zero u).trans ⟨fun h i => by rw [h]; rfl, funext⟩, euc_smul r u,
    euc_add_le u v⟩

/-- concrete case -/
example := C10_laws .mat3x1 _ _ _ _ (vec3R_reads 3 4 0) (vec3R_reads 1 (-2) 5) (.fin (-7)) (-7) (Fl.is_fin _)

/-- C10: on any floats `magnitude` is `Some` of something that is not negative (not even `-0`): NaN, `+∞` or a finite
value `≥ 0`. -/
theorem C10_nonneg [IsStrictOrderedRing K] [LawfulFmt K] (t : VecTy) (a : t.Ty (Fl K)) :
    ∃ m, t.magnitude a = some m ∧ (m = .nan ∨ m = .inf false ∨ ∃ v, 0 ≤ v ∧ m = .fin v) := by
  refine ⟨_, t.magnitude_get a, Fl.NonNeg.sqrt ?_⟩
  cases t <;> simp only [VecTy.sumL] <;> repeat' (first | exact Fl.nonNeg_sq _ | apply Fl.NonNeg.add)

/-- the law assumption covers the two formats the crate is instantiated at -/
example (t : VecTy) (a : t.Ty (Fl Q64)) (b : t.Ty (Fl Q32)) : (∃ m, t.magnitude a = some m ∧ m.isNeg = false) ∧
    ∃ m, t.magnitude b = some m ∧ m.isNeg = false := by
  obtain ⟨m, h, n⟩ := C10_nonneg t a
  obtain ⟨m', h', n'⟩ := C10_nonneg t b
  exact ⟨⟨m, h, Fl.NonNeg.isNeg n⟩, m', h', Fl.NonNeg.isNeg n'⟩

/-- non-vacuity: (3,4,0) has magnitude 5 -/
example : ∃ m, VecTy.magnitude .mat3x1 (vec3R 3 4 0) = some m ∧ m.Is 5 := by
  obtain ⟨m, h, r⟩ := C10_magnitude .mat3x1 _ _ (vec3R_reads 3 4 0)
  refine ⟨m, h, r.cast ?_⟩
  rw [euc_eq, show (5 : ℝ) = Real.sqrt (5 * 5) by simp]
  congr 1
  exact (Fin.sum_univ_three _).trans (by show (3 : ℝ) * 3 + 4 * 4 + 0 * 0 = 5 * 5; norm_num)

/-! ## C11: normalisation -/

/-- C11: `normalize` of a non-zero vector is the vector divided by its norm; it has magnitude 1 and normalising again
changes nothing. -/
theorem C11_normalize (t : VecTy) (a : t.Ty (Fl ℝ)) (u : Fin t.dim → ℝ) (ha : t.ReadsR a u) (hu : u ≠ 0) :
    ∃ n, t.normalize a = some n ∧ 0 < (euc u)⁻¹ ∧ t.ReadsR n ((euc u)⁻¹ • u) ∧
      (∃ m, t.magnitude n = some m ∧ m.Is 1) ∧ ∃ n', t.normalize n = some n' ∧ t.ReadsR n' ((euc u)⁻¹ • u) := by
  have key : ∀ (b : t.Ty (Fl ℝ)) (v : Fin t.dim → ℝ), t.ReadsR b v → v ≠ 0 →
      ∃ n, t.normalize b = some n ∧ t.ReadsR n ((euc v)⁻¹ • v) := by
    intro b v hb hv
    obtain ⟨n, h, r⟩ := t.normalize_get b
    obtain ⟨m, hm, im⟩ := C10_magnitude t b v hb
    rw [t.magnitude_get] at hm
    have hm := Option.some.inj hm
    rw [hm] at r
    refine ⟨n, h, VecTy.readsR_iff.mpr fun i => ?_⟩
    rw [r]
    refine ((VecTy.readsR_iff.mp hb i).div im (fun h => hv ((euc_eq_zero v).mp h))).cast ?_
    simp [div_eq_inv_mul]
  have hpos : 0 < euc u := lt_of_le_of_ne (euc_nonneg u) fun h => hu ((euc_eq_zero u).mp h.symm)
  obtain ⟨n, h, r⟩ := key a u ha hu
  have h1 : euc ((euc u)⁻¹ • u) = 1 := by
    rw [euc_smul, abs_of_pos (by positivity)]; field_simp
  have h0 : (euc u)⁻¹ • u ≠ 0 := by
    intro h; rw [(euc_eq_zero _).mpr h] at h1; norm_num at h1
  obtain ⟨n', h', r'⟩ := key n _ r h0
  rw [h1] at r'
  refine ⟨n, h, by positivity, r, ?_, n', h', by simpa using r'⟩
  have := C10_magnitude t n _ r
  rwa [h1] at this

/-- concrete case: `(3, 4, 0)` -/
example := C11_normalize .mat3x1 _ _ (vec3R_reads 3 4 0) fun h => by have := congrFun h 0; simp at this

/-- C11: on a zero vector (any mix of `+0`/`-0`, any float format) `normalize` silently returns all NaN. -/
theorem C11_zero [IsStrictOrderedRing K] (t : VecTy) (a : t.Ty (Fl K)) (f : Fin t.dim → Fl K) (ha : t.Reads a f)
    (h0 : ∀ i, f i = .fin 0 ∨ f i = .nzero) : ∃ n, t.normalize a = some n ∧ t.Reads n fun _ => .nan := by
  obtain ⟨n, h, r⟩ := t.normalize_get a
  rw [VecTy.reads_iff] at ha
  have sq : ∀ i, t.get a i * t.get a i = .fin 0 := by
    intro i; rw [ha]
    rcases h0 i with e | e <;> rw [e] <;> show Fl.mul _ _ = _ <;> simp [Fl.mul, Fl.mulFin, Fl.zero]
  have add : (.fin 0 + .fin 0 : Fl K) = .fin 0 := by show Fl.add _ _ = _; simp [Fl.add, Fl.addFin]
  have hs : (t.sumL fun i => t.get a i * t.get a i) = .fin 0 := by
    simp only [sq]
    cases t <;> simp only [VecTy.sumL, add]
  rw [hs] at r
  refine ⟨n, h, VecTy.reads_iff.mpr fun i => ?_⟩
  rw [r, ha]
  rcases h0 i with e | e <;> rw [e] <;> show Fl.div _ _ = _ <;> simp [Fl.div, Fl.divFin, Fl.sqrt]

/-- concrete case: `(-0, 0, -0)` in binary64 -/
example : ∃ n, (⟨#v[.nzero, .fin (0 : ℚ), .nzero]⟩ : Mat3x1 (Fl Q64)).normalize = some n ∧ VecTy.Reads .mat3x1 n fun _ => .nan :=
  C11_zero .mat3x1 _ ![.nzero, .fin (0 : ℚ), .nzero] (VecTy.reads_iff.mpr fun i => by fin_cases i <;> rfl)
    fun i => by fin_cases i; exacts [.inr rfl, .inl rfl, .inr rfl]

/-- the same, evaluated: (0,-0,0) in binary64 -/
example : Mat3x1.normalize (⟨#v[.fin 0, .nzero, .fin 0]⟩ : Mat3x1 (Fl Q64)) = some ⟨#v[.nan, .nan, .nan]⟩ := by
  decide +kernel

/-! ## C12: tolerance comparison -/

/-- C12: in exact arithmetic two vectors are equal within `e` exactly when every component differs by at most `e`; the
comparison is therefore symmetric. -/
theorem C12_vec (t : VecTy) (a b : t.Ty (Fl ℝ)) (u v : Fin t.dim → ℝ) (ha : t.ReadsR a u) (hb : t.ReadsR b v)
    (e : Fl ℝ) (ε : ℝ) (he : e.Is ε) :
    (t.isEqual a b e = some true ↔ ∀ i, |u i - v i| ≤ ε) ∧ (t.isEqual a b e = some true ∨ t.isEqual a b e = some false) ∧
      t.isEqual a b e = t.isEqual b a e := by
  have key : ∀ (a b : t.Ty (Fl ℝ)) (u v : Fin t.dim → ℝ), t.ReadsR a u → t.ReadsR b v →
      ∃ r, t.isEqual a b e = some r ∧ (r = true ↔ ∀ i, |u i - v i| ≤ ε) := by
    intro a b u v ha hb
    rw [VecTy.readsR_iff] at ha hb
    obtain ⟨r, h, hr⟩ := t.isEqual_iff a b e
    refine ⟨r, h, hr.trans (forall_congr' fun i => ?_)⟩
    rw [((hb i).sub he).le (ha i), (ha i).le ((hb i).add he), decide_eq_true_iff, decide_eq_true_iff, abs_le]
    constructor <;> rintro ⟨h1, h2⟩ <;> constructor <;> linarith
  obtain ⟨r, h, hr⟩ := key a b u v ha hb
  obtain ⟨r', h', hr'⟩ := key b a v u hb ha
  rw [h, h']
  refine ⟨by rw [Option.some_inj]; exact hr, by cases r <;> simp, ?_⟩
  have : r = true ↔ r' = true := by
    rw [hr, hr']; exact forall_congr' fun i => by rw [abs_sub_comm]
  cases r <;> cases r' <;> simp_all

/-- concrete case: `(1, 2)` and `(1.5, 2)` are equal within `1/2` but not within `1/4` -/
example : (row2R 1 2).isEqual (row2R (3 / 2) 2) (.fin (1 / 2)) = some true ∧
    (row2R 1 2).isEqual (row2R (3 / 2) 2) (.fin (1 / 4)) ≠ some true := by
  constructor
  · refine (C12_vec .mat1x2 _ _ _ _ (row2R_reads 1 2) (row2R_reads (3 / 2) 2) _ _ (Fl.is_fin _)).1.mpr fun i => ?_
    fin_cases i
    · show |(1 : ℝ) - 3 / 2| ≤ 1 / 2; norm_num [abs_le]
    · show |(2 : ℝ) - 2| ≤ 1 / 2; norm_num
  · intro h
    have : |(1 : ℝ) - 3 / 2| ≤ 1 / 4 :=
      (C12_vec .mat1x2 _ _ _ _ (row2R_reads 1 2) (row2R_reads (3 / 2) 2) _ _ (Fl.is_fin _)).1.mp h (0 : Fin 2)
    norm_num [abs_le] at this

/-- C12: the same for matrices of equal layout. -/
theorem C12_mat (t : MatTy) (a b : t.Ty (Fl ℝ)) (A B : Matrix (Fin t.dim) (Fin t.dim) ℝ) (ha : t.ReadsR a A)
    (hb : t.ReadsR b B) (hl : t.isRowMajor a = t.isRowMajor b) (e : Fl ℝ) (ε : ℝ) (he : e.Is ε) :
    (t.isEqual a b e = some true ↔ ∀ i j, |A i j - B i j| ≤ ε) ∧
      (t.isEqual a b e = some true ∨ t.isEqual a b e = some false) ∧ t.isEqual a b e = t.isEqual b a e := by
  have key : ∀ (a b : t.Ty (Fl ℝ)) (A B : Matrix (Fin t.dim) (Fin t.dim) ℝ), t.ReadsR a A → t.ReadsR b B →
      t.isRowMajor a = t.isRowMajor b → ∃ r, t.isEqual a b e = some r ∧ (r = true ↔ ∀ i j, |A i j - B i j| ≤ ε) := by
    intro a b A B ha hb hl
    rw [MatTy.readsR_iff] at ha hb
    obtain ⟨r, h, hr⟩ := t.isEqual_iff a b e hl
    refine ⟨r, h, hr.trans (forall_congr' fun i => forall_congr' fun j => ?_)⟩
    rw [((hb i j).sub he).le (ha i j), (ha i j).le ((hb i j).add he), decide_eq_true_iff, decide_eq_true_iff, abs_le]
    constructor <;> rintro ⟨h1, h2⟩ <;> constructor <;> linarith
  obtain ⟨r, h, hr⟩ := key a b A B ha hb hl
  obtain ⟨r', h', hr'⟩ := key b a B A hb ha hl.symm
  rw [h, h']
  refine ⟨by rw [Option.some_inj]; exact hr, by cases r <;> simp, ?_⟩
  have : r = true ↔ r' = true := by
    rw [hr, hr']; exact forall_congr' fun i => forall_congr' fun j => by rw [abs_sub_comm]
  cases r <;> cases r' <;> simp_all

/-- concrete case: two row-major matrices -/
example := C12_mat .mat3 _ _ _ _ (mat3R_reads smp3 true) (mat3R_reads smp3' true) (mat3R_flags _ _ _) (.fin 3) 3 (Fl.is_fin _)

/-- C12: matrices of different layout are never equal, even if all entries agree (all floats). -/
theorem C12_layout (t : MatTy) (a b : t.Ty (Fl K)) (e : Fl K) (h : t.isRowMajor a ≠ t.isRowMajor b) :
    t.isEqual a b e = some false := t.isEqual_flag a b e h

/-- concrete case: the same matrix in both storage orders -/
example : (mat3R smp3 true).isEqual (mat3R smp3 false) (.fin 1) = some false := 
  C12_layout .mat3 _ _ _ (mat3R_flags_ne _ _)

section lawful
variable [IsStrictOrderedRing K] [LawfulFmt K]

/-- C12: reflexive on floats: all components finite data of the format, tolerance `≥ 0` (possibly `+∞`). -/
theorem C12_refl (t : VecTy) (a : t.Ty (Fl K)) (f : Fin t.dim → Fl K) (ha : t.Reads a f)
    (hf : ∀ i, (f i).Finite ∧ (f i).WF) (e : Fl K) (he : Fl.le 0 e = true) : t.isEqual a a e = some true := by
  obtain ⟨r, h, hr⟩ := t.isEqual_iff a a e
  rw [VecTy.reads_iff] at ha
  rw [h, hr.mpr fun i => ?_]
  rw [ha]
  exact ⟨Fl.sub_nonneg_le (hf i).2 (hf i).1 he, Fl.le_add_nonneg (hf i).2 (hf i).1 he⟩

/-- concrete case: `(3/2, -0, 2^-10)` equals itself within `0` -/
example : tame3.isEqual tame3 0 = some true := C12_refl .mat3x1 _ _ tame3_reads tameF_good 0 (by decide +kernel)

theorem C12_refl_mat (t : MatTy) (a : t.Ty (Fl K)) (A : Matrix (Fin t.dim) (Fin t.dim) (Fl K)) (ha : t.Reads a A)
    (hf : ∀ i j, (A i j).Finite ∧ (A i j).WF) (e : Fl K) (he : Fl.le 0 e = true) : t.isEqual a a e = some true := by
  obtain ⟨r, h, hr⟩ := t.isEqual_iff a a e rfl
  rw [MatTy.reads_iff] at ha
  rw [h, hr.mpr fun i j => ?_]
  rw [ha]
  exact ⟨Fl.sub_nonneg_le (hf i j).2 (hf i j).1 he, Fl.le_add_nonneg (hf i j).2 (hf i j).1 he⟩

/-- concrete case: a column-major binary64 matrix equals itself within `-0` -/
example : (mat3Of tameM false).isEqual (mat3Of tameM false) .nzero = some true :=
  C12_refl_mat .mat3 _ _ (mat3Of_reads tameM false) tameM_good .nzero (by decide +kernel)

/-- C12: monotone in the tolerance on floats (second operand finite). -/
theorem C12_mono (t : VecTy) (a b : t.Ty (Fl K)) (g : Fin t.dim → Fl K) (hb : t.Reads b g) (hg : ∀ i, (g i).Finite)
    (e e' : Fl K) (he : Fl.le e e' = true) (h : t.isEqual a b e = some true) : t.isEqual a b e' = some true := by
  obtain ⟨r, h1, hr⟩ := t.isEqual_iff a b e
  obtain ⟨r', h1', hr'⟩ := t.isEqual_iff a b e'
  rw [VecTy.reads_iff] at hb
  rw [h1, Option.some_inj] at h
  rw [h1', hr'.mpr fun i => ?_]
  have := hr.mp h i
  rw [hb] at *
  exact ⟨Fl.le_trans (Fl.sub_mono_right (hg i) he) this.1, Fl.le_trans this.2 (Fl.add_mono_left (hg i) he)⟩

/-- concrete case: from tolerance `1/2` to tolerance `+∞` -/
example : tame3.isEqual tame3 (.inf false) = some true :=
  C12_mono .mat3x1 tame3 tame3 _ tame3_reads (fun i => (tameF_good i).1) (.fin (1 / 2 : ℚ)) _ (by decide +kernel) (by decide +kernel)

theorem C12_mono_mat (t : MatTy) (a b : t.Ty (Fl K)) (B : Matrix (Fin t.dim) (Fin t.dim) (Fl K)) (hb : t.Reads b B)
    (hg : ∀ i j, (B i j).Finite) (e e' : Fl K) (he : Fl.le e e' = true) (h : t.isEqual a b e = some true) :
    t.isEqual a b e' = some true := by
  by_cases hl : t.isRowMajor a = t.isRowMajor b
  · obtain ⟨r, h1, hr⟩ := t.isEqual_iff a b e hl
    obtain ⟨r', h1', hr'⟩ := t.isEqual_iff a b e' hl
    rw [MatTy.reads_iff] at hb
    rw [h1, Option.some_inj] at h
    rw [h1', hr'.mpr fun i j => ?_]
    have := hr.mp h i j
    rw [hb] at *
    exact ⟨Fl.le_trans (Fl.sub_mono_right (hg i j) he) this.1, Fl.le_trans this.2 (Fl.add_mono_left (hg i j) he)⟩
  · rw [C12_layout t a b e hl] at h; simp at h

/-- concrete case: from tolerance `0` to tolerance `1/2` -/
example : (mat3Of tameM true).isEqual (mat3Of tameM true) (.fin (1 / 2 : ℚ)) = some true :=
  C12_mono_mat .mat3 _ _ _ (mat3Of_reads tameM true) (fun i j => (tameM_good i j).1) 0 _ (by decide +kernel)
    (C12_refl_mat .mat3 _ _ (mat3Of_reads tameM true) tameM_good 0 (by decide +kernel))

/-- C12: a NaN component in either operand, or a NaN tolerance, makes the comparison false (all floats). -/
theorem C12_nan (t : VecTy) (a b : t.Ty (Fl K)) (f g : Fin t.dim → Fl K) (ha : t.Reads a f) (hb : t.Reads b g)
    (e : Fl K) (h : (∃ i, f i = .nan ∨ g i = .nan) ∨ e = .nan) : t.isEqual a b e = some false := by
  obtain ⟨r, h1, hr⟩ := t.isEqual_iff a b e
  rw [VecTy.reads_iff] at ha hb
  rw [h1]
  cases r
  · rfl
  · exfalso
    have hr := hr.mp rfl
    simp only [ha, hb] at hr
    have nl : ∀ x : Fl K, (.nan : Fl K) - x = .nan := fun x => by cases x <;> rfl
    have nr : ∀ x : Fl K, x - (.nan : Fl K) = .nan := fun x => by cases x <;> rfl
    rcases h with ⟨i, h | h⟩ | h
    · have := (hr i).1; rw [h] at this; simp at this
    · have := (hr i).1; rw [h, nl] at this; simp at this
    · have i : Fin t.dim := ⟨0, by cases t <;> simp⟩
      have := (hr i).1; rw [h, nr] at this; simp at this

/-- concrete case: a vector with a NaN component is not equal to itself, even within `+∞` -/
example : wild3.isEqual wild3 (.inf false) = some false :=
  C12_nan .mat3x1 _ _ _ _ (VecTy.reads_self _) (VecTy.reads_self _) _ (.inl ⟨(2 : Fin 3), .inl rfl⟩)

theorem C12_nan_mat (t : MatTy) (a b : t.Ty (Fl K)) (A B : Matrix (Fin t.dim) (Fin t.dim) (Fl K)) (ha : t.Reads a A)
    (hb : t.Reads b B) (e : Fl K) (h : (∃ i j, A i j = .nan ∨ B i j = .nan) ∨ e = .nan) :
    t.isEqual a b e = some false := by
  by_cases hl : t.isRowMajor a = t.isRowMajor b
  · obtain ⟨r, h1, hr⟩ := t.isEqual_iff a b e hl
    rw [MatTy.reads_iff] at ha hb
    rw [h1]
    cases r
    · rfl
    · exfalso
      have hr := hr.mp rfl
      simp only [ha, hb] at hr
      have nl : ∀ x : Fl K, (.nan : Fl K) - x = .nan := fun x => by cases x <;> rfl
      have nr : ∀ x : Fl K, x - (.nan : Fl K) = .nan := fun x => by cases x <;> rfl
      rcases h with ⟨i, j, h | h⟩ | h
      · have := (hr i j).1; rw [h] at this; simp at this
      · have := (hr i j).1; rw [h, nl] at this; simp at this
      · have i : Fin t.dim := ⟨0, by cases t <;> simp⟩
        have := (hr i i).1; rw [h, nr] at this; simp at this
  · exact C12_layout t a b e hl

/-- concrete case: a NaN tolerance -/
example : (mat3Of tameM true).isEqual (mat3Of tameM true) .nan = some false :=
  C12_nan_mat .mat3 _ _ _ _ (mat3Of_reads tameM true) (mat3Of_reads tameM true) _ (.inr rfl)

end lawful

end Mazth
