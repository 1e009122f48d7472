import Verif.Spec.Geom
import Verif.Proofs.Tactic
import Verif.Float.Lawful

/-! Plain-value form of the box operations. -/

set_option linter.unusedSectionVars false
set_option autoImplicit false

namespace Mazth

variable {K : Type} [Field K] [LinearOrder K] [IsStrictOrderedRing K] [Fmt K]

namespace AABB

variable (a b : AABB (Fl K))

theorem data_lower (i : Fin 3) : a.getBoundData[i.val] = a.lower[i] := by
  revert i; rw [Fin.forall_fin_succ, Fin.forall_fin_succ, Fin.forall_fin_succ]
  refine ⟨?_, ?_, ?_, fun i => i.elim0⟩ <;> kernel_rfl

theorem data_upper (i : Fin 3) : a.getBoundData[i.val + 3] = a.upper[i] := by
  revert i; rw [Fin.forall_fin_succ, Fin.forall_fin_succ, Fin.forall_fin_succ]
  refine ⟨?_, ?_, ?_, fun i => i.elim0⟩ <;> kernel_rfl

/-- the answer of the box-box test -/
def overlap : Bool := (List.finRange 3).all fun i => !(Fl.lt b.upper[i] a.lower[i] || Fl.lt a.upper[i] b.lower[i])

theorem intersect_eq : IBound.intersect (.aabb a) (.aabb b) = .ok (overlap a b) := by
  show Except.ok _ = _
  simp only [data_lower, data_upper]; rfl

theorem overlap_iff : overlap a b = true ↔
    ∀ i : Fin 3, Fl.lt b.upper[i] a.lower[i] = false ∧ Fl.lt a.upper[i] b.lower[i] = false := by
  simp [overlap]

theorem overlap_comm : overlap a b = overlap b a := by
  rw [Bool.eq_iff_iff, overlap_iff, overlap_iff]
  exact forall_congr' fun _ => and_comm

theorem overlap_of_has {p : Fin 3 → Fl K} (ha : a.Has p) (hb : b.Has p) : overlap a b = true := by
  rw [overlap_iff]; intro i
  have h1 := Fl.le_trans (ha i).1 (hb i).2
  have h2 := Fl.le_trans (hb i).1 (ha i).2
  exact ⟨by rw [Fl.lt_eq_not_le (Fl.le_ne_nan h1).2 (Fl.le_ne_nan h1).1, h1]; rfl,
    by rw [Fl.lt_eq_not_le (Fl.le_ne_nan h2).2 (Fl.le_ne_nan h2).1, h2]; rfl⟩

/-- one step of the union -/
def join : AABB (Fl K) where
  lower := #v[Fl.fmin a.lower[0] b.lower[0], Fl.fmin a.lower[1] b.lower[1], Fl.fmin a.lower[2] b.lower[2]]
  upper := #v[Fl.fmax a.upper[0] b.upper[0], Fl.fmax a.upper[1] b.upper[1], Fl.fmax a.upper[2] b.upper[2]]

theorem unionStep_eq : IBound.unionStep a (.aabb b) = .ok (join a b) := by
  obtain ⟨⟨⟨al⟩, h⟩, ⟨⟨au⟩, h'⟩⟩ := a
  rcases al with _ | ⟨x0, _ | ⟨x1, _ | ⟨x2, _ | _⟩⟩⟩ <;> simp at h
  rcases au with _ | ⟨y0, _ | ⟨y1, _ | ⟨y2, _ | _⟩⟩⟩ <;> simp at h'
  kernel_rfl

theorem join_lower (i : Fin 3) : (join a b).lower[i] = Fl.fmin a.lower[i] b.lower[i] := by fin_cases i <;> rfl
theorem join_upper (i : Fin 3) : (join a b).upper[i] = Fl.fmax a.upper[i] b.upper[i] := by fin_cases i <;> rfl

/-- the union of a list of boxes, from a given start -/
theorem foldlM_union (l : List (AABB (Fl K))) :
    (l.map IBound.aabb).foldlM IBound.unionStep a = .ok (l.foldl join a) := by
  induction l generalizing a with
  | nil => rfl
  | cons b l ih =>
    rw [List.map_cons, List.foldlM_cons, unionStep_eq]; exact ih _

theorem foldl_lower (l : List (AABB (Fl K))) (i : Fin 3) :
    (l.foldl join a).lower[i] = (l.map (·.lower[i])).foldl Fl.fmin a.lower[i] := by
  induction l generalizing a with
  | nil => rfl
  | cons b l ih => rw [List.foldl_cons, ih, join_lower]; rfl

theorem foldl_upper (l : List (AABB (Fl K))) (i : Fin 3) :
    (l.foldl join a).upper[i] = (l.map (·.upper[i])).foldl Fl.fmax a.upper[i] := by
  induction l generalizing a with
  | nil => rfl
  | cons b l ih => rw [List.foldl_cons, ih, join_upper]; rfl

end AABB

namespace Fl

theorem fmin_spec {x : Fl K} (y : Fl K) (hx : x ≠ nan) :
    fmin x y ≠ nan ∧ le (fmin x y) x = true ∧ (y ≠ nan → le (fmin x y) y = true) ∧ (fmin x y = x ∨ fmin x y = y) := by
  unfold fmin; rw [if_neg hx]
  by_cases hy : y = nan
  · rw [if_pos hy]; exact ⟨hx, le_refl hx, fun h => absurd hy h, .inl rfl⟩
  · rw [if_neg hy, lt_eq_not_le hy hx]
    cases h : le x y
    · refine ⟨by simpa using hy, ?_, fun _ => by simpa using le_refl hy, .inr (by simp)⟩
      simpa [h] using (le_total hx hy).resolve_left (by simp [h])
    · exact ⟨by simpa using hx, by simpa using le_refl hx, fun _ => by simpa using h, .inl (by simp)⟩

theorem fmax_spec {x : Fl K} (y : Fl K) (hx : x ≠ nan) :
    fmax x y ≠ nan ∧ le x (fmax x y) = true ∧ (y ≠ nan → le y (fmax x y) = true) ∧ (fmax x y = x ∨ fmax x y = y) := by
  unfold fmax; rw [if_neg hx]
  by_cases hy : y = nan
  · rw [if_pos hy]; exact ⟨hx, le_refl hx, fun h => absurd hy h, .inl rfl⟩
  · rw [if_neg hy, lt_eq_not_le hx hy]
    cases h : le y x
    · refine ⟨by simpa using hy, ?_, fun _ => by simpa using le_refl hy, .inr (by simp)⟩
      simpa [h] using (le_total hx hy).resolve_right (by simp [h])
    · exact ⟨by simpa using hx, by simpa using le_refl hx, fun _ => by simpa using h, .inl (by simp)⟩

theorem foldl_fmin (l : List (Fl K)) {x : Fl K} (hx : x ≠ nan) :
    l.foldl fmin x ≠ nan ∧ le (l.foldl fmin x) x = true ∧ (∀ y ∈ l, y ≠ nan → le (l.foldl fmin x) y = true) ∧
      (l.foldl fmin x = x ∨ l.foldl fmin x ∈ l) := by
  induction l generalizing x with
  | nil => exact ⟨hx, le_refl hx, by simp, .inl rfl⟩
  | cons z l ih =>
    obtain ⟨h1, h2, h3, h4⟩ := fmin_spec z hx
    obtain ⟨i1, i2, i3, i4⟩ := ih h1
    rw [List.foldl_cons]
    refine ⟨i1, le_trans i2 h2, ?_, ?_⟩
    · intro y hy hn
      rcases List.mem_cons.mp hy with rfl | hy
      · exact le_trans i2 (h3 hn)
      · exact i3 y hy hn
    · rcases i4 with i4 | i4
      · rw [i4]; exact h4.imp id fun h => by simp [h]
      · exact .inr (List.mem_cons_of_mem _ i4)

theorem foldl_fmax (l : List (Fl K)) {x : Fl K} (hx : x ≠ nan) :
    l.foldl fmax x ≠ nan ∧ le x (l.foldl fmax x) = true ∧ (∀ y ∈ l, y ≠ nan → le y (l.foldl fmax x) = true) ∧
      (l.foldl fmax x = x ∨ l.foldl fmax x ∈ l) := by
  induction l generalizing x with
  | nil => exact ⟨hx, le_refl hx, by simp, .inl rfl⟩
  | cons z l ih =>
    obtain ⟨h1, h2, h3, h4⟩ := fmax_spec z hx
    obtain ⟨i1, i2, i3, i4⟩ := ih h1
    rw [List.foldl_cons]
    refine ⟨i1, le_trans h2 i2, ?_, ?_⟩
    · intro y hy hn
      rcases List.mem_cons.mp hy with rfl | hy
      · exact le_trans (h3 hn) i2
      · exact i3 y hy hn
    · rcases i4 with i4 | i4
      · rw [i4]; exact h4.imp id fun h => by simp [h]
      · exact .inr (List.mem_cons_of_mem _ i4)

end Fl

end Mazth
