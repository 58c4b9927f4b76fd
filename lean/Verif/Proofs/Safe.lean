import Verif.Proofs.StrUtil

/-! # Helper lemmas: calls without undefined behaviour -/

namespace Caitlyn
open Caitlyn.Spec

/-- The call ends, without undefined behaviour, and what it returns satisfies `P`. -/
def Safe {α : Type u} (P : α → Prop) : Res α → Prop
  | .ok a => P a
  | .error e => e ≠ .ub ∧ e ≠ .fuel

namespace Safe

theorem bind {α : Type u} {β : Type u} {P : α → Prop} {Q : β → Prop} {r : Res α} {f : α → Res β}
    (hr : Safe P r) (hf : ∀ a, P a → Safe Q (f a)) : Safe Q (r >>= f) := by
  cases r with
  | error e => exact hr
  | ok a => exact hf a hr

theorem mono {α : Type u} {P Q : α → Prop} {r : Res α} (hr : Safe P r) (h : ∀ a, P a → Q a) : Safe Q r := by
  cases r with
  | error e => exact hr
  | ok a => exact h a hr

theorem pure {α : Type u} {P : α → Prop} {a : α} (h : P a) : Safe P (Pure.pure a : Res α) := h

theorem ok {α : Type u} {P : α → Prop} {a : α} (h : P a) : Safe P (.ok a) := h

theorem not_ub {α : Type u} {P : α → Prop} {r : Res α} (h : Safe P r) : r ≠ .error .ub := by
  rintro rfl; exact h.1 rfl

theorem not_fuel {α : Type u} {P : α → Prop} {r : Res α} (h : Safe P r) : r ≠ .error .fuel := by
  rintro rfl; exact h.2 rfl

end Safe

/-- Every character has the shape of a UTF-8 character. -/
def Shapes (s : Str) : Prop := ∀ c ∈ s, Shape c.data

theorem Shapes.append {a b : Str} (ha : Shapes a) (hb : Shapes b) : Shapes (a ++ b) := by
  intro c hc
  rcases List.mem_append.mp hc with h | h
  · exact ha c h
  · exact hb c h

theorem Shapes.sub {a b : Str} (hb : Shapes b) (h : ∀ c ∈ a, c ∈ b) : Shapes a := fun c hc => hb c (h c hc)

theorem Shapes.replicate (n : Nat) {c : Chr} (h : Shape c.data) : Shapes (List.replicate n c) := by
  intro d hd; rw [List.eq_of_mem_replicate hd]; exact h

theorem Shapes.nil : Shapes [] := fun _ h => by cases h

theorem Shapes.cons {c : Chr} {s : Str} (h : Shape c.data) (hs : Shapes s) : Shapes (c :: s) := by
  intro d hd
  rcases List.mem_cons.mp hd with e | hd
  · rw [e]; exact h
  · exact hs d hd

/-- The code point of a shaped character is read within the character. -/
theorem Shape.getCodePoint {c : Chr} (h : Shape c.data) : ∃ cp, c.getCodePoint = .ok cp := by
  obtain ⟨d⟩ := c
  simp only at h
  cases h with
  | one b h1 h2 =>
    have := Chr.lead80 b
    rw [decide_eq_true h2] at this
    exact ⟨b.toNat, by simp [Chr.getCodePoint, Chr.byteAt, vecGet, bind, Except.bind, pure, Except.pure, this]⟩
  | two b c h1 h2 _ =>
    have := Chr.leadC0 b
    rw [decide_eq_true ⟨h1, h2⟩, beq_iff_eq] at this
    simp only [Chr.getCodePoint, Chr.byteAt, vecGet, bind, Except.bind, pure, Except.pure, List.length_cons,
      List.length_nil]
    simp [this]
    split <;> exact ⟨_, rfl⟩
  | three b c d h1 h2 _ _ =>
    simp only [Chr.getCodePoint, Chr.byteAt, vecGet, bind, Except.bind, pure, Except.pure, List.length_cons,
      List.length_nil]
    simp
    repeat' split
    all_goals exact ⟨_, rfl⟩
  | four b c d e h1 h2 _ _ _ =>
    simp only [Chr.getCodePoint, Chr.byteAt, vecGet, bind, Except.bind, pure, Except.pure, List.length_cons,
      List.length_nil]
    simp
    repeat' split
    all_goals exact ⟨_, rfl⟩

theorem Shape.safe_getCodePoint {c : Chr} (h : Shape c.data) : Safe (fun _ => True) c.getCodePoint := by
  obtain ⟨cp, e⟩ := Shape.getCodePoint h
  rw [e]; trivial

end Caitlyn
