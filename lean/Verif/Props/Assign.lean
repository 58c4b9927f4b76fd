import Verif.Model.Assign

/-!
# Property C163: values of other types that are assigned

Reference: what the declaration `T x(g)` accepts, and the wish that a text can be given in each of its three types wherever a text is
meant.
-/

namespace Caitlyn
open Caitlyn.Convert Caitlyn.Assign Caitlyn.Traits

/-- The three types of texts. -/
def Assign.texts : List Given := [.cstr, .stdString, .object .string]

/-- C163. What can be assigned to a variable could also have been given to its constructor. The converse holds but for `StringBuilder`,
to which nothing can be assigned, and for a `std::string` given to one of the large numbers. -/
theorem C163_same_partial (cxx23 : Bool) (t : Target) (g : Given) :
    compiles cxx23 t g = (constructs cxx23 t g && t != .cls .builder &&
      !(g == .stdString && (t == .cls .bigInteger || t == .cls .bigFloat))) := by
  rcases t with c | _ | _
  · cases c <;> rcases g with b | _ | _ | _ | _ | d <;> first | rfl | (cases b <;> rfl) | (cases d <;> rfl)
  · cases cxx23 <;> rcases g with b | _ | _ | _ | _ | d <;> first | rfl | (cases b <;> rfl) | (cases d <;> rfl)
  · rcases g with b | _ | _ | _ | _ | d <;> first | rfl | (cases b <;> rfl) | (cases d <;> rfl)

example : compiles true (.cls .bigFloat) (.value .int) = true ∧ compiles true (.cls .bigInteger) (.value .int) = false := by decide

/-- C163. `BigInteger x(s)` compiles for a `std::string`, `x = s` does not; nor does any assignment to a `StringBuilder`. -/
theorem C163_same_fails (cxx23 : Bool) :
    (∃ g, constructs cxx23 (.cls .bigInteger) g = true ∧ compiles cxx23 (.cls .bigInteger) g = false) ∧
    (∃ g, constructs cxx23 (.cls .bigFloat) g = true ∧ compiles cxx23 (.cls .bigFloat) g = false) ∧
    (∃ g, constructs cxx23 (.cls .builder) g = true) ∧ ∀ g, compiles cxx23 (.cls .builder) g = false :=
  ⟨⟨.stdString, rfl, rfl⟩, ⟨.stdString, rfl, rfl⟩, ⟨.cstr, rfl⟩, fun g => by
    rw [C163_same_partial]; simp⟩

/-- C163. The operator of `Char` that a value is assigned by has the same parameter as the constructor that would take it. -/
theorem C163_char (g : Given) (h : g ≠ .object .char) : call g (overloads (.cls .char)) = direct .char g := by
  rcases g with b | _ | _ | _ | _ | d
  · cases b <;> rfl
  · rfl
  · rfl
  · rfl
  · rfl
  · cases d <;> first | rfl | exact absurd rfl h

example : call (.value .char32) (overloads (.cls .char)) = some (.arith .uint) := by decide

/-- C163. A text can be assigned in each of its types to a `String` and to a `JsonDocument`. A `JsonData` takes a `const char*` and a
`std::string` but no `String`, neither in an assignment nor in a declaration; a large number takes no `std::string`, a `Char` no
`String` and a `StringBuilder` none of them. -/
theorem C163_text_partial (cxx23 : Bool) (t : Target) (g : Given) (h : g ∈ Assign.texts) :
    (compiles cxx23 t g = true ↔
      t = .cls .string ∨ t = .document ∨ ((t = .cls .bigInteger ∨ t = .cls .bigFloat) ∧ g ≠ .stdString) ∨
      ((t = .json ∨ t = .cls .char) ∧ g ≠ .object .string)) ∧
    (constructs cxx23 t g = true ↔ ¬ ((t = .json ∨ t = .cls .char) ∧ g = .object .string)) := by
  simp only [Assign.texts, List.mem_cons, List.not_mem_nil, or_false] at h
  rcases t with c | _ | _
  · rcases h with rfl | rfl | rfl <;> cases c <;> exact ⟨by decide +revert, by decide +revert⟩
  · rcases h with rfl | rfl | rfl <;> exact ⟨by decide +revert, by decide +revert⟩
  · rcases h with rfl | rfl | rfl <;> exact ⟨by decide +revert, by decide +revert⟩

example : Given.stdString ∈ Assign.texts := by decide

/-- C163. `json = String("x")` and `JsonData json(String("x"))` do not compile, though `JsonData` holds its texts as `String`, and
`GetString` returns one. -/
theorem C163_text_fails (cxx23 : Bool) :
    ∃ g ∈ Assign.texts, compiles cxx23 .json g = false ∧ constructs cxx23 .json g = false :=
  ⟨.object .string, by decide, rfl, rfl⟩

/-- C163. Which numbers can be assigned to a `JsonData`, and as what: `bool` as a boolean, the other integers as integers, the floating
point ones as such, nothing else. -/
theorem C163_json (cxx23 : Bool) (b : Base) :
    (template cxx23 (.value b) = some .boolean ↔ b = .bool) ∧
    (template cxx23 (.value b) = some .integral ↔ b ≠ .bool ∧ ∃ v, Holds b v) ∧
    (template cxx23 (.value b) = some .floating ↔ b = .float ∨ b = .double ∨ b = .ldouble) ∧
    (compiles cxx23 .json (.value b) = true ↔ (∃ v, Holds b v) ∨ b = .float ∨ b = .double ∨ b = .ldouble) := by
  have h : (∃ v, Holds b v) ↔ (integer b).isSome = true := by
    constructor
    · rintro ⟨v, hv⟩
      unfold Holds at hv
      split at hv <;> simp_all
    · intro h
      refine ⟨0, ?_⟩
      cases b <;> simp_all [Holds, integer]
  rw [h]
  cases b <;> simp [template, compiles, integer]

/-- C163. `Assignable<T&, U>()` for the type of an expression says whether the assignment compiles, for all expressions but the
literal `0`. Of this it says that a `String` or a `JsonDocument` does not take it, which compiles, and that a `BigFloat` does, which
does not compile; for the others it is right. -/
theorem C163_trait_partial (cxx23 : Bool) (t : Target) (g : Given) :
    assignable cxx23 t g = compiles cxx23 t g ↔ ¬ (g = .zero ∧ t ∈ [.cls .string, .document, .cls .bigFloat]) := by
  rcases t with c | _ | _
  · rcases g with b | _ | _ | _ | _ | d
    · simp [assignable, typeOf]
    · cases c <;> decide +revert
    all_goals simp [assignable, typeOf]
  · rcases g with b | _ | _ | _ | _ | d
    · simp [assignable, typeOf]
    · decide +revert
    all_goals simp [assignable, typeOf]
  · rcases g with b | _ | _ | _ | _ | d
    · simp [assignable, typeOf]
    · decide +revert
    all_goals simp [assignable, typeOf]

/-- C163. The two errors about the literal `0`. -/
theorem C163_trait_fails (cxx23 : Bool) :
    (assignable cxx23 (.cls .string) .zero = false ∧ compiles cxx23 (.cls .string) .zero = true) ∧
    (assignable cxx23 .document .zero = false ∧ compiles cxx23 .document .zero = true) ∧
    (assignable cxx23 (.cls .bigFloat) .zero = true ∧ compiles cxx23 (.cls .bigFloat) .zero = false) := by
  decide +revert

/-- C163. Which assignments read through a null pointer: of `nullptr` to everything but a `StringBuilder`, to a `JsonData` only before
C++23, and of the literal `0` to a `String` or a `JsonDocument`. -/
theorem C163_null_partial (cxx23 : Bool) (t : Target) (g : Given) :
    readsNull cxx23 t g = true ↔
      (g = .null ∧ t ≠ .cls .builder ∧ (t = .json → cxx23 = false)) ∨ (g = .zero ∧ (t = .cls .string ∨ t = .document)) := by
  rcases t with c | _ | _
  · rcases g with b | _ | _ | _ | _ | d
    · simp [Assign.readsNull]
    · cases c <;> decide +revert
    · cases c <;> decide +revert
    all_goals simp [Assign.readsNull]
  · rcases g with b | _ | _ | _ | _ | d
    · simp [Assign.readsNull]
    · decide +revert
    · decide +revert
    all_goals simp [Assign.readsNull]
  · rcases g with b | _ | _ | _ | _ | d
    · simp [Assign.readsNull]
    · decide +revert
    · decide +revert
    all_goals simp [Assign.readsNull]

/-- C163. `json = nullptr` does not make the value null but reads through the pointer; from C++23 on it does not compile. -/
theorem C163_null_fails :
    (compiles false .json .null = true ∧ Assign.readsNull false .json .null = true) ∧ compiles true .json .null = false := by
  decide

/-- C163. `NothrowAssignable<T&, U>()` holds for an object of the class that is moved, of the four classes with values, and
`TriviallyAssignable<T&, U>()` for nothing. -/
theorem C163_nothrow (t : Target) (g : Given) (moved : Bool) :
    (nothrowAssignable t g moved = true ↔ ∃ c, c ≠ .builder ∧ t = .cls c ∧ g = .object c ∧ moved = true) ∧
    triviallyAssignable t g moved = false := by
  rcases g with b | _ | _ | _ | _ | d
  case object =>
    rcases t with c | _ | _
    · by_cases hcd : c = d
      · subst hcd
        cases c <;> cases moved <;> exact ⟨by simp [nothrowAssignable]; decide, by rfl⟩
      · refine ⟨?_, ?_⟩
        · have : nothrowAssignable (.cls c) (.object d) moved = false := by simp [nothrowAssignable, hcd]
          rw [this]
          constructor
          · intro h; cases h
          · rintro ⟨e, _, h1, h2, _⟩
            cases h1; cases h2
            exact absurd rfl hcd
        · simp [triviallyAssignable, hcd]
    · simp [nothrowAssignable, triviallyAssignable]
    · simp [nothrowAssignable, triviallyAssignable]
  all_goals simp [nothrowAssignable, triviallyAssignable]

example : nothrowAssignable (.cls .string) (.object .string) true = true := by decide

end Caitlyn
