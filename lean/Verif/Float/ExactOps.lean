import Verif.Float.Lawful

/-!
# Operations whose exact result is representable are exact (any lawful rounding)
-/

set_option linter.unusedSectionVars false
set_option autoImplicit false

namespace Mazth
namespace Fl

variable {K : Type} [Field K] [LinearOrder K] [IsStrictOrderedRing K] [Fmt K] [LawfulFmt K]
variable {x y : Fl K} {a b : K}

theorem Is.wf_rep (h : x.Is a) (hw : x.WF) : Rep a := by
  unfold Is at h
  cases x <;> simp [val] at h
  · subst h; exact .inl rfl
  · subst h; exact hw

theorem Is.kcases (h : x.Is a) : x = fin a ∨ (x = nzero ∧ a = 0) := by
  unfold Is at h
  cases x <;> simp_all [val]

theorem Is.kunique (h : x.Is a) (h' : x.Is b) : a = b := by
  unfold Is at *; rw [h] at h'; exact Option.some.inj h'

theorem Is.kcast (h : x.Is a) (e : a = b) : x.Is b := e ▸ h

theorem Is.kneg (h : x.Is a) : (-x).Is (-a) := by
  show (Fl.neg x).Is (-a)
  rcases h.kcases with rfl | ⟨rfl, rfl⟩
  · unfold Fl.neg; dsimp only; split <;> simp_all [Is, val]
  · simp [Fl.neg, Is, val]

theorem rnd_of_rep {a : K} (h : Rep a) (h0 : a ≠ 0) : (Fmt.rnd a : Fl K) = fin a := h.resolve_left h0

theorem Is.addExact (h : x.Is a) (h' : y.Is b) (hr : Rep (a + b)) : (x + y).Is (a + b) := by
  show (Fl.add x y).Is (a + b)
  have key : (addFin a b).Is (a + b) := by
    unfold addFin
    split
    · rename_i h0; rw [h0]; simp [Is, val]
    · rename_i h0; rw [rnd_of_rep hr h0]; simp [Is, val]
  rcases h.kcases with rfl | ⟨rfl, rfl⟩ <;> rcases h'.kcases with rfl | ⟨rfl, rfl⟩ <;>
    simp only [Fl.add] <;> first | exact key | simp [Is, val]

theorem Is.subExact (h : x.Is a) (h' : y.Is b) (hr : Rep (a - b)) : (x - y).Is (a - b) := by
  rw [sub_eq_add_neg] at *; rw [Fl.sub_eq]; exact h.addExact h'.kneg hr

theorem kzeroIs (s : Bool) : (zero s : Fl K).Is 0 := by
  unfold zero; split <;> simp [Is, val]

theorem Is.mulExact (h : x.Is a) (h' : y.Is b) (hr : Rep (a * b)) : (x * y).Is (a * b) := by
  show (Fl.mul x y).Is (a * b)
  have key : ∀ s, (mulFin s a b).Is (a * b) := by
    intro s
    unfold mulFin
    split
    · rename_i h0; rw [h0]; exact kzeroIs s
    · rename_i h0; rw [rnd_of_rep hr h0]; simp [Is, val]
  rcases h.kcases with rfl | ⟨rfl, rfl⟩ <;> rcases h'.kcases with rfl | ⟨rfl, rfl⟩ <;>
    simp only [Fl.mul] <;> first | exact key _ | simp [Is, val]

theorem Is.divExact (h : x.Is a) (h' : y.Is b) (hb : b ≠ 0) (hr : Rep (a / b)) : (x / y).Is (a / b) := by
  show (Fl.div x y).Is (a / b)
  have key : ∀ s, (divFin s a b).Is (a / b) := by
    intro s
    unfold divFin
    rw [if_neg hb]
    split
    · rename_i h0; rw [h0, zero_div]; exact kzeroIs s
    · rename_i h0; rw [rnd_of_rep hr (div_ne_zero h0 hb)]; simp [Is, val]
  rcases h.kcases with rfl | ⟨rfl, rfl⟩ <;> rcases h'.kcases with rfl | ⟨rfl, rfl⟩ <;>
    simp only [Fl.div] <;> first | exact absurd rfl hb | exact key _

theorem kis_zero : (0 : Fl K).Is 0 := rfl
theorem kis_one : (1 : Fl K).Is 1 := rfl

theorem Is.addZero (h : x.Is a) (hw : Rep a) (h' : y.Is 0) : (x + y).Is a :=
  (h.addExact h' (by rwa [add_zero])).kcast (add_zero a)
theorem Is.zeroAdd (h : x.Is a) (hw : Rep a) (h' : y.Is 0) : (y + x).Is a :=
  (h'.addExact h (by rwa [zero_add])).kcast (zero_add a)
theorem Is.subZero (h : x.Is a) (hw : Rep a) (h' : y.Is 0) : (x - y).Is a :=
  (h.subExact h' (by rwa [sub_zero])).kcast (sub_zero a)
theorem Is.mulOne (h : x.Is a) (hw : Rep a) (h' : y.Is 1) : (x * y).Is a :=
  (h.mulExact h' (by rwa [mul_one])).kcast (mul_one a)
theorem Is.oneMul (h : x.Is a) (hw : Rep a) (h' : y.Is 1) : (y * x).Is a :=
  (h'.mulExact h (by rwa [one_mul])).kcast (one_mul a)
theorem Is.mulZero (h : x.Is a) (h' : y.Is 0) : (x * y).Is 0 :=
  (h.mulExact h' (by rw [mul_zero]; exact .inl rfl)).kcast (mul_zero a)
theorem Is.zeroMul (h : x.Is a) (h' : y.Is 0) : (y * x).Is 0 :=
  (h'.mulExact h (by rw [zero_mul]; exact .inl rfl)).kcast (zero_mul a)

end Fl
end Mazth
