import Verif.Model.Char

/-!
# Literals

`b!"text"` is the list of UTF-8 bytes of `text`; `c!"text"` is the list of `Chr`s (one per
character) of `text`. The macros expand to plain list literals, so that examples reduce in
the kernel. They are used in examples, witnesses and for the character constants of the code
(`include/Caitlyn/__Core/Char/Defs.h`).
-/

namespace Caitlyn
open Lean

/-- bytes of a string literal -/
syntax:max (name := bytesLit) "b!" noWs str : term
/-- `Chr`s of a string literal -/
syntax:max (name := chrsLit) "c!" noWs str : term

macro_rules
  | `(b!$s:str) => do
    let bs := s.getString.toUTF8.toList
    let ts ← bs.toArray.mapM fun b => `(($(Syntax.mkNumLit (toString b.toNat)) : UInt8))
    `(([$ts,*] : List UInt8))
  | `(c!$s:str) => do
    let cs := s.getString.toList
    let ts ← cs.toArray.mapM fun c => do
      let bs := (String.singleton c).toUTF8.toList
      let us ← bs.toArray.mapM fun b => `(($(Syntax.mkNumLit (toString b.toNat)) : UInt8))
      `((Chr.mk [$us,*]))
    `(([$ts,*] : List Chr))

example : b!"a€" = [0x61, 0xE2, 0x82, 0xAC] := rfl
example : c!"a€" = [⟨[0x61]⟩, ⟨[0xE2, 0x82, 0xAC]⟩] := rfl

end Caitlyn
