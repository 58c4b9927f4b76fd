import Verif.Spec.Json
import Verif.Spec.Utf8

/-!
# Specification: the values that survive printing and parsing
-/

namespace Caitlyn.Spec

/-- A floating point number whose printed form is a number with an exponent or sign that `stod` reads back as that
number. -/
def FloatOk {F : Type} (ops : FloatOps F) (f : F) : Prop :=
  ∃ c t, (ops.print f).map chr = c :: t ∧ NumStart c ∧ (∀ d ∈ t, NumChar d) ∧ Floating (c :: t) ∧
    ops.stod (ops.print f) = .ok f

/-- A `String` of UTF-8 characters without quotation mark; also ASCII if `lits`. -/
def Quotable (lits : Bool) (s : Str) : Prop := (∀ c ∈ s, Shape c.data) ∧ chr 0x22 ∉ s ∧ (lits = true → Ascii s)

/-- The values that survive: integers of 64 bits, such floating point numbers, strings without quotation mark and
backslash, keys without quotation mark; `true`, `false` and `null` only (`lits`) if all is ASCII. -/
inductive Printable {F : Type} (ops : FloatOps F) (lits : Bool) : Json F → Prop where
  | null : lits = true → Printable ops lits .null
  | bool (b) : lits = true → Printable ops lits (.bool b)
  | int (i) : -(2 ^ 63) ≤ i → i < 2 ^ 63 → Printable ops lits (.int i)
  | float (f) : FloatOk ops f → Printable ops lits (.float f)
  | str (s) : Quotable lits s → chr 0x5C ∉ s → Printable ops lits (.str s)
  | arr (js : List (Json F)) : (∀ j ∈ js, Printable ops lits j) → Printable ops lits (.arr js)
  | obj (ms : List (Str × Json F)) : (ms.map Prod.fst).Nodup → (∀ m ∈ ms, Quotable lits m.1) →
      (∀ m ∈ ms, Printable ops lits m.2) → Printable ops lits (.obj ms)

/-- The strings and keys satisfy `Q`, and the floating point numbers print as characters of numbers (so they are finite). -/
inductive Written {F : Type} (ops : FloatOps F) (Q : Str → Prop) : Json F → Prop where
  | null : Written ops Q .null
  | bool (b) : Written ops Q (.bool b)
  | int (i) : Written ops Q (.int i)
  | float (f) : ops.print f ≠ [] → (∀ b ∈ ops.print f, NumChar (chr b)) → Written ops Q (.float f)
  | str (s) : Q s → Written ops Q (.str s)
  | arr (js : List (Json F)) : (∀ j ∈ js, Written ops Q j) → Written ops Q (.arr js)
  | obj (ms : List (Str × Json F)) : (∀ m ∈ ms, Q m.1) → (∀ m ∈ ms, Written ops Q m.2) → Written ops Q (.obj ms)

end Caitlyn.Spec
