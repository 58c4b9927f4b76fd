import Verif.Model.Str
import Verif.Spec.Search

/-! Helper lemmas: `std::search`, `Find`, `ReverseFind`. -/

namespace Caitlyn
open Spec

theorem occursAt_iff {α} (needle hay : List α) (i : Nat) :
    OccursAt needle hay i ↔ needle <+: hay.drop i ∧ i ≤ hay.length := by
  constructor
  · rintro ⟨pre, post, rfl, rfl⟩
    refine ⟨⟨post, by simp⟩, by simp⟩
  · rintro ⟨⟨post, h⟩, hi⟩
    refine ⟨hay.take i, post, ?_, by simp; omega⟩
    rw [List.append_assoc, h, List.take_append_drop]

theorem occursAt_zero {α} (needle hay : List α) : OccursAt needle hay 0 ↔ needle <+: hay := by
  rw [occursAt_iff]; simp

theorem occursAt_cons_succ {α} (needle hay : List α) (a : α) (i : Nat) :
    OccursAt needle (a :: hay) (i + 1) ↔ OccursAt needle hay i := by
  rw [occursAt_iff, occursAt_iff]; simp

theorem occurs_iff_infix {α} (needle hay : List α) : Occurs needle hay ↔ needle <:+: hay := by
  constructor
  · rintro ⟨_, pre, post, h, _⟩
    exact ⟨pre, post, h.symm⟩
  · rintro ⟨pre, post, h⟩
    exact ⟨_, pre, post, h.symm, rfl⟩

namespace Str

theorem search_occ (hay needle : Str) (h : Occurs needle hay) :
    OccursAt needle hay (search hay needle) ∧ ∀ i, OccursAt needle hay i → search hay needle ≤ i := by
  induction hay with
  | nil =>
    obtain ⟨i, h⟩ := h
    rw [occursAt_iff] at h
    have hn : needle = [] := by simpa using h.1
    subst hn
    rw [search]
    simp [occursAt_iff]
  | cons a t ih =>
    rw [search]
    by_cases hp : needle.isPrefixOf (a :: t) = true
    · rw [if_pos hp, occursAt_zero]
      exact ⟨List.isPrefixOf_iff_prefix.mp hp, fun _ _ => Nat.zero_le _⟩
    · rw [if_neg hp]
      have hnp : ¬ needle <+: (a :: t) := fun h => hp (List.isPrefixOf_iff_prefix.mpr h)
      have ht : Occurs needle t := by
        obtain ⟨i, h⟩ := h
        cases i with
        | zero => exact absurd ((occursAt_zero _ _).mp h) hnp
        | succ i => exact ⟨i, (occursAt_cons_succ _ _ _ _).mp h⟩
      obtain ⟨h1, h2⟩ := ih ht
      refine ⟨(occursAt_cons_succ _ _ _ _).mpr h1, ?_⟩
      intro i hi
      cases i with
      | zero => exact absurd ((occursAt_zero _ _).mp hi) hnp
      | succ i => exact Nat.succ_le_succ (h2 i ((occursAt_cons_succ _ _ _ _).mp hi))

theorem search_none (hay needle : Str) (h : ¬ Occurs needle hay) : search hay needle = hay.length := by
  induction hay with
  | nil => rw [search]; simp
  | cons a t ih =>
    rw [search]
    have hp : ¬ needle.isPrefixOf (a :: t) = true := fun hp =>
      h ⟨0, (occursAt_zero _ _).mpr (List.isPrefixOf_iff_prefix.mp hp)⟩
    rw [if_neg hp]
    have ht : ¬ Occurs needle t := fun ⟨i, hi⟩ => h ⟨i + 1, (occursAt_cons_succ _ _ _ _).mpr hi⟩
    simp [ih ht]

theorem occursAt_le {α} {needle hay : List α} {i : Nat} (h : OccursAt needle hay i) :
    i + needle.length ≤ hay.length := by
  obtain ⟨pre, post, rfl, rfl⟩ := h
  simp

/-- A non-empty needle is found strictly before the end. -/
theorem search_lt (hay needle : Str) (hn : needle ≠ []) (h : Occurs needle hay) :
    search hay needle < hay.length := by
  have := occursAt_le (search_occ hay needle h).1
  have : 0 < needle.length := List.length_pos_iff.mpr hn
  omega

theorem search_eq_length_iff (hay needle : Str) (hn : needle ≠ []) :
    search hay needle = hay.length ↔ ¬ Occurs needle hay := by
  constructor
  · intro h ho; have := search_lt hay needle hn ho; omega
  · exact search_none hay needle

theorem occursAt_drop {α} (needle hay : List α) (pos i : Nat) (hp : pos ≤ hay.length) :
    OccursAt needle (hay.drop pos) i ↔ OccursAt needle hay (pos + i) := by
  rw [occursAt_iff, occursAt_iff, List.drop_drop, List.length_drop]
  constructor <;> rintro ⟨h1, h2⟩ <;> exact ⟨h1, by omega⟩

/-- Occurrences in the reversed sequences. -/
theorem occursAt_reverse {α} (needle hay : List α) (j : Nat) :
    OccursAt needle.reverse hay.reverse j ↔
      ∃ i, OccursAt needle hay i ∧ i + needle.length + j = hay.length := by
  constructor
  · rintro ⟨pre, post, h, rfl⟩
    have h' := congrArg List.reverse h
    simp at h'
    refine ⟨post.length, ⟨post.reverse, pre.reverse, by simpa using h', by simp⟩, ?_⟩
    rw [h']; simp; omega
  · rintro ⟨_, ⟨pre, post, rfl, rfl⟩, h⟩
    refine ⟨post.reverse, pre.reverse, by simp, ?_⟩
    simp at *; omega

end Str
end Caitlyn
