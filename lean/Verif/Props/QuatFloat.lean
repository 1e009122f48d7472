import Verif.Model.Quat
import Verif.Float.ExactOps
import Verif.Float.BinaryLawful

/-!
# C56: operations on quaternions that are exact in floating point

For every format with a lawful rounding (in particular binary32 and binary64).
-/

set_option linter.unusedSectionVars false
set_option autoImplicit false

namespace Mazth

variable {K : Type} [Field K] [LinearOrder K] [IsStrictOrderedRing K] [Fmt K] [LawfulFmt K]

/-- all fields are finite data of the format -/
def Quat.FinDatum (q : Quat (Fl K)) : Prop :=
  (q.x.WF ∧ q.x.Finite) ∧ (q.y.WF ∧ q.y.Finite) ∧ (q.z.WF ∧ q.z.Finite) ∧ q.w.WF ∧ q.w.Finite

/-- the fields have the same numerical values (they may differ in the sign of a zero) -/
def Quat.SameVal (p q : Quat (Fl K)) : Prop :=
  p.x.val = q.x.val ∧ p.y.val = q.y.val ∧ p.z.val = q.z.val ∧ p.w.val = q.w.val

/-- a quaternion of binary64 data -/
def smpQ : Quat (Fl Q64) := ⟨.fin (1 / 2 : ℚ), .fin (3 : ℚ), .nzero, .fin (2 ^ 996 : ℚ)⟩

theorem smpQ_fin : smpQ.FinDatum := by
  refine ⟨⟨.inr ?_, _, rfl⟩, ⟨.inr ?_, _, rfl⟩, ⟨trivial, _, rfl⟩, .inr ?_, _, rfl⟩ <;> decide +kernel

theorem init_fin : (Quat.init : Quat (Fl Q64)).FinDatum := by
  refine ⟨⟨.inl rfl, _, rfl⟩, ⟨.inl rfl, _, rfl⟩, ⟨.inl rfl, _, rfl⟩, .inr ?_, _, rfl⟩; decide +kernel

/-- C56: negation and conjugation are bit-exact involutions on all floats (NaN, infinities and signed zeros included), they
commute, and no rounding happens: a finite component changes to its exact negative. -/
theorem C56_negate (q : Quat (Fl K)) :
    q.negate.negate = q ∧ q.conjugate.conjugate = q ∧ q.negate.conjugate = q.conjugate.negate ∧
    (∀ v, q.x.Is v → q.negate.x.Is (-v) ∧ q.conjugate.x.Is (-v)) ∧
    (∀ v, q.y.Is v → q.negate.y.Is (-v) ∧ q.conjugate.y.Is (-v)) ∧
    (∀ v, q.z.Is v → q.negate.z.Is (-v) ∧ q.conjugate.z.Is (-v)) ∧
    (∀ v, q.w.Is v → q.negate.w.Is (-v)) ∧ q.conjugate.w = q.w := by
  refine ⟨?_, ?_, ?_, fun v h => ⟨h.kneg, h.kneg⟩, fun v h => ⟨h.kneg, h.kneg⟩, fun v h => ⟨h.kneg, h.kneg⟩,
    fun v h => h.kneg, rfl⟩
  · unfold Quat.negate; simp only [Fl.neg_neg']
  · unfold Quat.conjugate; simp only [Fl.neg_neg']
  · unfold Quat.negate Quat.conjugate; simp only [Fl.neg_neg']

/-- concrete case -/
example := C56_negate (⟨.fin (1 / 2 : ℚ), .nan, .nzero, .inf false⟩ : Quat (Fl Q64))

/-- C56: multiplying a finite quaternion by the identity, on either side, gives the same values exactly. -/
theorem C56_mul_one (q : Quat (Fl K)) (h : q.FinDatum) :
    (q.mul Quat.init).SameVal q ∧ (Quat.init.mul q).SameVal q ∧ (q.mul Quat.default).SameVal q ∧
      (Quat.default.mul q).SameVal q := by
  obtain ⟨⟨wx, a, ha⟩, ⟨wy, b, hb⟩, ⟨wz, c, hc⟩, ww, d, hd⟩ := h
  have ra := ha.wf_rep wx
  have rb := hb.wf_rep wy
  have rc := hc.wf_rep wz
  have rd := hd.wf_rep ww
  have z := Fl.kis_zero (K := K)
  have o := Fl.kis_one (K := K)
  have h1 : (q.mul Quat.init).SameVal q := by
    refine ⟨Eq.trans ?_ (Eq.symm ha), Eq.trans ?_ (Eq.symm hb), Eq.trans ?_ (Eq.symm hc), Eq.trans ?_ (Eq.symm hd)⟩
    · exact (((ha.mulOne ra o).zeroAdd ra (hd.mulZero z)).addZero ra (hb.mulZero z)).subZero ra (hc.mulZero z)
    · exact ((hb.mulOne rb o).zeroAdd rb (((hd.mulZero z).subZero (.inl rfl) (ha.mulZero z)))).addZero rb (hc.mulZero z)
    · exact (hc.mulOne rc o).zeroAdd rc
        (((hd.mulZero z).addZero (.inl rfl) (ha.mulZero z)).subZero (.inl rfl) (hb.mulZero z))
    · exact (((hd.mulOne rd o).subZero rd (ha.mulZero z)).subZero rd (hb.mulZero z)).subZero rd (hc.mulZero z)
  have h2 : (Quat.init.mul q).SameVal q := by
    refine ⟨Eq.trans ?_ (Eq.symm ha), Eq.trans ?_ (Eq.symm hb), Eq.trans ?_ (Eq.symm hc), Eq.trans ?_ (Eq.symm hd)⟩
    · exact (((ha.oneMul ra o).addZero ra (hd.zeroMul z)).addZero ra (hc.zeroMul z)).subZero ra (hb.zeroMul z)
    · exact (((hb.oneMul rb o).subZero rb (hc.zeroMul z)).addZero rb (hd.zeroMul z)).addZero rb (ha.zeroMul z)
    · exact (((hc.oneMul rc o).addZero rc (hb.zeroMul z)).subZero rc (ha.zeroMul z)).addZero rc (hd.zeroMul z)
    · exact (((hd.oneMul rd o).subZero rd (ha.zeroMul z)).subZero rd (hb.zeroMul z)).subZero rd (hc.zeroMul z)
  exact ⟨h1, h2, h1, h2⟩

/-- concrete case -/
example := C56_mul_one smpQ smpQ_fin

/-- C56: `interpolate_linear` of finite quaternions reproduces `start` exactly for every t ≤ 0 (−∞ included) and `end` exactly
for every t ≥ 1 (+∞ included). -/
theorem C56_lerp (p q : Quat (Fl K)) (hp : p.FinDatum) (hq : q.FinDatum) (t : Fl K) :
    (Fl.le t 0 = true → (Quat.interpolateLinear p q t).SameVal p) ∧
    (Fl.le 1 t = true → (Quat.interpolateLinear p q t).SameVal q) := by
  have z := Fl.kis_zero (K := K)
  have o := Fl.kis_one (K := K)
  obtain ⟨⟨wx, a, ha⟩, ⟨wy, b, hb⟩, ⟨wz, c, hc⟩, ww, d, hd⟩ := hp
  obtain ⟨⟨wx', a', ha'⟩, ⟨wy', b', hb'⟩, ⟨wz', c', hc'⟩, ww', d', hd'⟩ := hq
  have ne0 : (0 : Fl K) ≠ .nan := by rw [Fl.zero_def]; simp
  have ne1 : (1 : Fl K) ≠ .nan := by rw [Fl.one_def]; simp
  have le01 : Fl.le (0 : Fl K) 1 = true := by simp [Fl.le]
  have lt01 : Fl.lt (1 : Fl K) 0 = false := by rw [Fl.lt_eq_not_le ne1 ne0, le01]; rfl
  refine ⟨fun h0 => ?_, fun h1 => ?_⟩
  · have tn := (Fl.le_ne_nan h0).1
    have t1 : Fl.lt 1 t = false := by rw [Fl.lt_eq_not_le ne1 tn, Fl.le_trans h0 le01]; rfl
    have hcl : Fl.Is (if Fl.lt (if Fl.lt 1 t then 1 else t) 0 then 0 else (if Fl.lt 1 t then 1 else t)) 0 := by
      rw [t1]; simp only [Bool.false_eq_true, if_false]
      by_cases h : Fl.lt t 0 = true
      · rw [if_pos h]; exact z
      · rw [if_neg h]
        have h' : Fl.le 0 t = true := by
          rw [Fl.lt_eq_not_le tn ne0] at h; simpa using h
        cases t with
        | nan => exact absurd rfl tn
        | inf s => cases s <;> simp [Fl.le] at h0 h'
        | nzero => rfl
        | fin v =>
          simp [Fl.le] at h0 h'
          exact congrArg some (le_antisymm h0 h')
    have h1m := o.subZero Fl.rep_one hcl
    refine ⟨Eq.trans ?_ (Eq.symm ha), Eq.trans ?_ (Eq.symm hb), Eq.trans ?_ (Eq.symm hc), Eq.trans ?_ (Eq.symm hd)⟩
    · exact (ha.mulOne (ha.wf_rep wx) h1m).addZero (ha.wf_rep wx) (ha'.mulZero hcl)
    · exact (hb.mulOne (hb.wf_rep wy) h1m).addZero (hb.wf_rep wy) (hb'.mulZero hcl)
    · exact (hc.mulOne (hc.wf_rep wz) h1m).addZero (hc.wf_rep wz) (hc'.mulZero hcl)
    · exact (hd.mulOne (hd.wf_rep ww) h1m).addZero (hd.wf_rep ww) (hd'.mulZero hcl)
  · have tn := (Fl.le_ne_nan h1).2
    have hcu : Fl.Is (if Fl.lt 1 t then 1 else t) 1 := by
      by_cases h : Fl.lt 1 t = true
      · rw [if_pos h]; exact o
      · rw [if_neg h]
        have h' : Fl.le t 1 = true := by
          rw [Fl.lt_eq_not_le ne1 tn] at h; simpa using h
        cases t with
        | nan => exact absurd rfl tn
        | inf s => cases s <;> simp [Fl.le] at h1 h'
        | nzero => simp [Fl.le] at h1; exact absurd h1 (not_le.mpr one_pos)
        | fin v =>
          simp [Fl.le] at h1 h'
          exact congrArg some (le_antisymm h' h1)
    have hcl : Fl.Is (if Fl.lt (if Fl.lt 1 t then 1 else t) 0 then 0 else (if Fl.lt 1 t then 1 else t)) 1 := by
      rw [if_neg]; · exact hcu
      rcases hcu.kcases with e | ⟨_, e⟩
      · rw [e]; rw [Fl.one_def] at lt01; rw [lt01]; simp
      · exact absurd e one_ne_zero
    have h1m : Fl.Is (1 - (if Fl.lt (if Fl.lt 1 t then 1 else t) 0 then 0 else (if Fl.lt 1 t then 1 else t))) (0 : K) :=
      (o.subExact hcl (by rw [sub_self]; exact .inl rfl)).kcast (sub_self 1)
    refine ⟨Eq.trans ?_ (Eq.symm ha'), Eq.trans ?_ (Eq.symm hb'), Eq.trans ?_ (Eq.symm hc'), Eq.trans ?_ (Eq.symm hd')⟩
    · exact (ha'.mulOne (ha'.wf_rep wx') hcl).zeroAdd (ha'.wf_rep wx') (ha.mulZero h1m)
    · exact (hb'.mulOne (hb'.wf_rep wy') hcl).zeroAdd (hb'.wf_rep wy') (hb.mulZero h1m)
    · exact (hc'.mulOne (hc'.wf_rep wz') hcl).zeroAdd (hc'.wf_rep wz') (hc.mulZero h1m)
    · exact (hd'.mulOne (hd'.wf_rep ww') hcl).zeroAdd (hd'.wf_rep ww') (hd.mulZero h1m)

/-- concrete case: parameters `-0` and `+∞` -/
example : (Quat.interpolateLinear smpQ Quat.init .nzero).SameVal smpQ ∧ (Quat.interpolateLinear Quat.init smpQ (.inf false)).SameVal smpQ :=
  ⟨(C56_lerp smpQ _ smpQ_fin init_fin _).1 (by decide +kernel), (C56_lerp _ smpQ init_fin smpQ_fin _).2 (by decide +kernel)⟩

/-- C56: adding or subtracting the zero quaternion and scaling by one are exact; subtracting a quaternion from itself is
exactly zero. -/
theorem C56_neutral (q : Quat (Fl K)) (h : q.FinDatum) :
    (q.add ⟨0, 0, 0, 0⟩).SameVal q ∧ (q.minus ⟨0, 0, 0, 0⟩).SameVal q ∧ (q.scale 1).SameVal q ∧
      (q.minus q).SameVal ⟨0, 0, 0, 0⟩ := by
  obtain ⟨⟨wx, a, ha⟩, ⟨wy, b, hb⟩, ⟨wz, c, hc⟩, ww, d, hd⟩ := h
  have ra := ha.wf_rep wx
  have rb := hb.wf_rep wy
  have rc := hc.wf_rep wz
  have rd := hd.wf_rep ww
  have z := Fl.kis_zero (K := K)
  have o := Fl.kis_one (K := K)
  have ss : ∀ {x : Fl K} {v : K}, x.Is v → (x - x).Is 0 := fun h =>
    (h.subExact h (by rw [sub_self]; exact .inl rfl)).kcast (sub_self _)
  exact ⟨⟨(ha.addZero ra z).trans ha.symm, (hb.addZero rb z).trans hb.symm, (hc.addZero rc z).trans hc.symm,
      (hd.addZero rd z).trans hd.symm⟩,
    ⟨(ha.subZero ra z).trans ha.symm, (hb.subZero rb z).trans hb.symm, (hc.subZero rc z).trans hc.symm,
      (hd.subZero rd z).trans hd.symm⟩,
    ⟨(ha.mulOne ra o).trans ha.symm, (hb.mulOne rb o).trans hb.symm, (hc.mulOne rc o).trans hc.symm,
      (hd.mulOne rd o).trans hd.symm⟩,
    ⟨(ss ha).trans z.symm, (ss hb).trans z.symm, (ss hc).trans z.symm, (ss hd).trans z.symm⟩⟩

/-- concrete case -/
example := C56_neutral smpQ smpQ_fin

end Mazth
