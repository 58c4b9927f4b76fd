import Verif.Spec.Json

/-!
# Specification of JSON written in the source

When the characters written in the source are the characters of the JSON text: there is no comment and, for a
compiler of C++11 or C++14, no trigraph.
-/

namespace Caitlyn.Spec.Source

/-- A comment begins in `s`, a text without `\`: there is `//` or `/*` after an even number of quotation marks. -/
def Commented (s : Str) : Prop :=
  ∃ pre post, (s = pre ++ c!"//" ++ post ∨ s = pre ++ c!"/*" ++ post) ∧ pre.count (chr 0x22) % 2 = 0

/-- There is a trigraph in `s`. -/
def Trigraph (s : Str) : Prop := ∃ pre c post, c ∈ c!"=/'()!<>-" ∧ s = pre ++ c!"??" ++ c :: post

end Caitlyn.Spec.Source
