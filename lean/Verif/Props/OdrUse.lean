import Verif.Proofs.OdrUse

/-! # Property C175: the constants of the library -/

namespace Caitlyn
open OdrUse Spec.OdrUse

/-- C175. The uses that the library itself makes of its constants link in every standard: a program that does not name them links. -/
theorem C175_own (s : Standard) : ∀ u ∈ ownUses, links s u.1 u.2 = true := by
  cases s <;> decide

/-- C175, the programs of C++17 and later: every use links. -/
theorem C175_inline_partial (p : Place) (e : Expr) : links .cpp17 p.ctx e = true := rfl

/-- C175, the programs of C++14, exactly: a use does not link if and only if the place takes a reference and the expression can stand for
the constant itself. So every expression can be given to the places that take values. -/
theorem C175_partial (p : Place) (e : Expr) : links .cpp14 p.ctx e = false ↔ p.ctx = .bound ∧ Names e := by
  obtain ⟨a, b, c⟩ := uses14 e
  rw [← c]
  cases h : p.ctx <;> simp [links, a, b]

example : links .cpp14 Place.position.ctx (.cond .var .const) = true ∧ links .cpp14 Place.format.ctx (.cond .var .const) = false ∧
    links .cpp14 Place.format.ctx (.cond .value .const) = true := by decide

/-- C175, the programs of C++11 (the standard with which the library is built), exactly: a use does not link if and only if the place takes a
reference and the expression can stand for the constant itself, or somewhere in the expression a conditional or comma operator chooses it
or throws it away, whatever the place. -/
theorem C175_cpp11_partial (p : Place) (e : Expr) :
    links .cpp11 p.ctx e = false ↔ (p.ctx = .bound ∧ Names e) ∨ ∃ e' ∈ parts e, Chosen e' := by
  obtain ⟨a, b, c⟩ := uses11 e
  have hd : p.ctx ≠ .discarded := by cases p <;> decide
  cases h : p.ctx with
  | discarded => exact absurd h hd
  | read => simpa [links, Bad] using a
  | bound => simpa [links, Bad] using c

example : links .cpp11 Place.position.ctx .const = true ∧ links .cpp11 Place.position.ctx (.cond .value .const) = true ∧
    links .cpp11 Place.assertion.ctx (.arith .value .const) = true := by decide

/-- C175. `+String::NPosition` can stand everywhere: an expression with a `+` before each constant links at every place in every standard. -/
theorem C175_plus (s : Standard) (p : Place) (e : Expr) : links s p.ctx (plus e) = true := by
  have hd : p.ctx ≠ .discarded := by cases p <;> decide
  cases s with
  | cpp17 => rfl
  | cpp14 =>
    rw [← Bool.not_eq_false]
    exact fun h => plus_names e ((C175_partial p _).1 h).2
  | cpp11 =>
    rw [← Bool.not_eq_false]
    intro h
    rcases (C175_cpp11_partial p _).1 h with h | h
    · exact plus_names e h.2
    · exact plus_bad e h

/-- C175. What links in C++11 links in C++14, and what links there in C++17. -/
theorem C175_later (p : Place) (e : Expr) : (links .cpp11 p.ctx e = true → links .cpp14 p.ctx e = true) ∧
    (links .cpp14 p.ctx e = true → links .cpp17 p.ctx e = true) := by
  refine ⟨fun h => ?_, fun _ => rfl⟩
  rw [← Bool.not_eq_false] at h ⊢
  exact fun g => h ((C175_cpp11_partial p e).2 (.inl ((C175_partial p e).1 g)))

/-- C175 does not hold: before C++17 a program with `String::Format("{}", String::NPosition)` does not link, nor one that hands a constant to
a `StringBuilder`, a file, the console, an `Expected` or a message of a failed test. -/
theorem C175_fails (p : Place)
    (h : p = .format ∨ p = .builder ∨ p = .file ∨ p = .console ∨ p = .expected ∨ p = .expectedCall ∨ p = .failMessage) :
    links .cpp11 p.ctx .const = false ∧ links .cpp14 p.ctx .const = false := by
  rcases h with rfl | rfl | rfl | rfl | rfl | rfl | rfl <;> decide

/-- C175 does not hold for parameters by value either: in C++11 no program with `s.Find(t, c ? n : String::NPosition)`, `n` of type
`SizeType`, links, at any place. -/
theorem C175_choice_fails (p : Place) : links .cpp11 p.ctx (.cond .var .const) = false := by
  cases p <;> decide

end Caitlyn
