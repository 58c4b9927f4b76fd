import Verif.Spec.CNumber
import Verif.Model.Str

/-!
# What `EscapeString` writes for a text

`Resolves s bs`: reading `s` from left to right gives the bytes `bs`. It covers every text, also those with unknown
escapes.
-/

namespace Caitlyn.Spec

/-- Reading a text with escapes from left to right gives these bytes. -/
inductive Resolves : Str → List UInt8 → Prop where
  | nil : Resolves [] []
  /-- an ordinary character -/
  | plain (c : Chr) (s : Str) (bs : List UInt8) : c ≠ ⟨b!"\\"⟩ → Resolves s bs → Resolves (c :: s) (c.printed ++ bs)
  /-- a backslash at the end -/
  | last : Resolves c!"\\" b!"\\"
  /-- backslash and letter -/
  | letter (l m : Chr) (s : Str) (bs : List UInt8) : letterMeaning.lookup l = some m → Resolves s bs →
      Resolves (⟨b!"\\"⟩ :: l :: s) (m.data ++ bs)
  /-- `\u` and four characters that start with a number, of which one byte is left -/
  | unicode (h₁ h₂ h₃ h₄ : Chr) (neg : Bool) (n : Nat) (s : Str) (bs : List UInt8) :
      HexNumber (Str.str [h₁, h₂, h₃, h₄]) neg n → Resolves s bs →
      Resolves (⟨b!"\\"⟩ :: ⟨b!"u"⟩ :: h₁ :: h₂ :: h₃ :: h₄ :: s) (byteOf neg n :: bs)
  /-- an unknown escape, or `\u` with fewer than four characters behind it: the character behind the backslash is written,
  and then read again -/
  | unknown (d : Chr) (s : Str) (bs : List UInt8) : letterMeaning.lookup d = none → (d = ⟨b!"u"⟩ → s.length < 4) →
      Resolves (d :: s) bs → Resolves (⟨b!"\\"⟩ :: d :: s) (b!"\\" ++ d.printed ++ bs)

end Caitlyn.Spec
