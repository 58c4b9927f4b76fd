import Verif.Model.Defs
import Verif.Spec.Unicode
import Verif.Lit

/-!
# Properties: the named characters
-/

namespace Caitlyn
namespace Def

/-- The words of a name (separated by spaces or hyphens) capitalised and put together. -/
def camel (start : Bool) : List Char → List Char
  | [] => []
  | c :: cs => if c == ' ' || c == '-' then camel true cs else (if start then c else c.toLower) :: camel false cs

/-- **C106 (the constants are the characters).** For every code point from 1 to 127, the constant at that place is the C string
of exactly that byte; the `Char` and the `String` made from it are the character with that code point and the string of it. -/
theorem C106_ascii_partial (n : Nat) (h1 : 1 ≤ n) (h2 : n < 128) :
    ∃ name, constants[n]? = some (name, [UInt8.ofNat n, 0]) ∧ named name = [UInt8.ofNat n, 0] ∧
      char (named name) = .ok (Chr.ofCodePoint n) ∧ (Chr.ofCodePoint n).data = [UInt8.ofNat n] ∧
      strLiteral (named name) = .ok [Chr.ofCodePoint n] := by
  have key : ∀ n : Fin 128, 1 ≤ n.val → ∃ e, constants[n.val]? = some e ∧ e.2 = [UInt8.ofNat n.val, 0] ∧
      named e.1 = [UInt8.ofNat n.val, 0] ∧ Chr.ofBytes [UInt8.ofNat n.val] = .ok (Chr.ofCodePoint n.val) ∧
      stdString [UInt8.ofNat n.val, 0] = .ok [UInt8.ofNat n.val] ∧
      (Chr.ofCodePoint n.val).data = [UInt8.ofNat n.val] ∧
      strLiteral [UInt8.ofNat n.val, 0] = .ok [Chr.ofCodePoint n.val] := by decide +kernel
  obtain ⟨e, he, h3, h4, h5, h5', h6, h7⟩ := key ⟨n, h2⟩ h1
  refine ⟨e.1, ?_, h4, ?_, h6, ?_⟩
  · rw [he, ← h3]
  · rw [h4, char, h5']; exact h5
  · rw [h4]; exact h7

/-- **C106 (the names).** There are 128 constants; the one at place `n` has the Unicode name of U+00`n`, as one word. So no two
constants have the same name, and each is found under its name. -/
theorem C106_names :
    constants.map (fun e => e.1.toList) = Spec.Unicode.asciiNames.map (fun s => camel true s.toList) ∧
      (constants.map Prod.fst).Nodup ∧ constants.length = 128 := by
  refine ⟨by decide +kernel, by decide +kernel, by decide +kernel⟩

/-- **C106 fails for `Def::Null`.** The constant is the empty C string, the same as `Def::Empty`: neither the `Char` nor the
`String` made from it is the character NUL, both are empty. -/
theorem C106_null_fails :
    named "Null" = [0, 0] ∧ char (named "Null") = char empty ∧ strLiteral (named "Null") = .ok [] ∧
      (∀ c, char (named "Null") ≠ .ok ⟨[0]⟩ ∧ strLiteral (named "Null") ≠ .ok [c]) := by
  have h : strLiteral (named "Null") = .ok [] := by rfl
  refine ⟨by rfl, by rfl, h, fun c => ⟨by decide +kernel, ?_⟩⟩
  rw [h]; intro h; cases h

/-- **C106 (literals `_char` and `_str`).** For bytes without NUL followed by the terminator, `_char` accepts exactly the texts
`Char(const std::string&)` accepts, with the same value; memory without terminator is undefined behaviour. -/
theorem C106_literal (s rest : List UInt8) (h : (0 : UInt8) ∉ s) :
    char (s ++ 0 :: rest) = Chr.ofBytes s ∧ char s = .error .ub := by
  constructor
  · have : (s ++ 0 :: rest).takeWhile (· != 0) = s := by
      rw [List.takeWhile_append_of_pos]
      · simp
      · intro a ha; simp; intro h0; exact h (h0 ▸ ha)
    simp only [char, stdString, this, List.mem_append, List.mem_cons, true_or, or_true, if_true]; rfl
  · simp only [char, stdString, h, if_false]; rfl

example : char (named "LatinSmallLetterA") = .ok ⟨b!"a"⟩ ∧ char (b!"é" ++ [0]) = .ok ⟨b!"é"⟩ ∧
    char (b!"ab" ++ [0]) = .error .invalidArgument ∧ strLiteral (b!"aé" ++ [0]) = .ok c!"aé" := by decide +kernel

end Def
end Caitlyn
