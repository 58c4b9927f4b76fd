import Verif.Model.Char
import Verif.Lit

/-!
# Specification: escape sequences

A text with escapes is a list of items; `written` is how an item is typed, `denotes` the text it
stands for.
-/

namespace Caitlyn.Spec

/-- Value of a hexadecimal digit. -/
def hexValue (b : UInt8) : Option Nat :=
  if 0x30 ≤ b ∧ b ≤ 0x39 then some (b.toNat - 0x30)
  else if 0x41 ≤ b ∧ b ≤ 0x46 then some (b.toNat - 0x37)
  else if 0x61 ≤ b ∧ b ≤ 0x66 then some (b.toNat - 0x57)
  else none

/-- One item of an escaped text. -/
inductive EscItem where
  /-- an ordinary character -/
  | plain (c : Chr)
  /-- backslash and letter -/
  | letter (l : Chr)
  /-- backslash, `u` and four hexadecimal digits -/
  | unicode (a b c d : UInt8)

/-- The letter escapes of C (without octal) and JSON, and the character each stands for. -/
def letterMeaning : List (Chr × Chr) :=
  [(⟨b!"\""⟩, ⟨b!"\""⟩), (⟨b!"?"⟩, ⟨b!"?"⟩), (⟨b!"\\"⟩, ⟨b!"\\"⟩), (⟨b!"/"⟩, ⟨b!"/"⟩), (⟨b!"a"⟩, ⟨[7]⟩),
   (⟨b!"b"⟩, ⟨[8]⟩), (⟨b!"f"⟩, ⟨[12]⟩), (⟨b!"n"⟩, ⟨[10]⟩), (⟨b!"r"⟩, ⟨[13]⟩), (⟨b!"t"⟩, ⟨[9]⟩), (⟨b!"v"⟩, ⟨[11]⟩)]

namespace EscItem

/-- How the item is typed. -/
def written : EscItem → List Chr
  | plain c => [c]
  | letter l => [⟨b!"\\"⟩, l]
  | unicode a b c d => [⟨b!"\\"⟩, ⟨b!"u"⟩, ⟨[a]⟩, ⟨[b]⟩, ⟨[c]⟩, ⟨[d]⟩]

/-- The code unit of a unicode item. -/
def codeUnit (a b c d : UInt8) : Option Nat := do
  let a ← hexValue a
  let b ← hexValue b
  let c ← hexValue c
  let d ← hexValue d
  return ((a * 16 + b) * 16 + c) * 16 + d

/-- What the item stands for. -/
def denotes : EscItem → List Chr
  | plain c => [c]
  | letter l => ((letterMeaning.lookup l).map fun m => [m]).getD []
  | unicode a b c d => ((codeUnit a b c d).map fun n => [Chr.ofCodePoint n]).getD []

end EscItem
end Caitlyn.Spec
