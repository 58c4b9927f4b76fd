import Verif.Proofs.JsonMacro
import Verif.Props.JsonParse

/-! # C169: JSON written in the source -/

namespace Caitlyn.JsonMacro
open Spec Spec.Source JsonParser

variable {F : Type}

theorem parse_iff (ops : FloatOps F) (t : Str) (d : JsonDoc F) (j : Json F) :
    JsonDoc.parse ops t d = .ok ⟨j, .noError⟩ ↔ document ops t = .ok (j, .noError) := by
  unfold JsonDoc.parse
  cases document ops t with
  | error e =>
    refine iff_of_false (fun h => ?_) (fun h => ?_) <;> cases h
  | ok r =>
    obtain ⟨root, err⟩ := r
    constructor
    · intro h; injection h with h; injection h with h1 h2; subst h1 h2; rfl
    · intro h; injection h with h; injection h with h1 h2; subst h1 h2; rfl

/-- C169, for ASCII sources without `\`, comments and, where the compiler replaces them, trigraphs: `JSON_STRING`
gives a document without error exactly when `Parse` does for the characters as they are written, and it is the same
document; how the source is laid out does not matter. Missing: sources with a `\` in a literal (see
`C169_escape_fails`), with comments and with trigraphs (see `C169_comment_fails` and `C169_trigraph_fails`), and
which error is reported for the others. -/
theorem C169_partial (ops : FloatOps F) (old : Bool) (source : Str) (ha : Ascii source) (hlen : source.length < npos)
    (hb : chr 0x5C ∉ source) (hc : ¬ Commented source) (ht : old = true → ¬ Trigraph source) (r : Res (JsonDoc F))
    (h : jsonString ops old source = some r) (j : Json F) :
    r = .ok ⟨j, .noError⟩ ↔ document ops source = .ok (j, .noError) := by
  have e : (if old then replace source else source) = source := by
    cases old with
    | false => rfl
    | true => exact replace_none (ht rfl)
  obtain ⟨t, hs, rfl⟩ := Option.map_eq_some_iff.mp h
  rw [e] at hs
  rw [parse_iff, C56_ascii_partial ops t (stringize_ascii hs hb hc ha) (by have := stringize_length hs; omega),
    C56_ascii_partial ops source ha hlen]
  exact stringize_document hs hb hc

/-- C169, for sources with other characters: the document of a text without the literals `true`, `false` and `null` is
the one of the grammar, for `JSON_STRING` as for `Parse`. -/
theorem C169_other (ops : FloatOps F) (old : Bool) (source : Str) (hlen : source.length < npos)
    (hb : chr 0x5C ∉ source) (hc : ¬ Commented source) (ht : old = true → ¬ Trigraph source) (r : Res (JsonDoc F))
    (h : jsonString ops old source = some r) (j : Json F) (hd : Document ops false source j) :
    r = .ok ⟨j, .noError⟩ ∧ document ops source = .ok (j, .noError) := by
  have e : (if old then replace source else source) = source := by
    cases old with
    | false => rfl
    | true => exact replace_none (ht rfl)
  obtain ⟨t, hs, rfl⟩ := Option.map_eq_some_iff.mp h
  rw [e] at hs
  refine ⟨?_, C56_non_ascii_partial ops source hlen j hd⟩
  rw [parse_iff]
  exact C56_non_ascii_partial ops t (by have := stringize_length hs; omega) j ((stringize_document hs hb hc).mpr hd)

/-- A source laid out over several lines. -/
def laidOut : Str := c!"\n{\n\t\"a\"  :  [1 ,\r\n 2] }\n"

example : stringize laidOut = some c!"{ \"a\" : [1 , 2] }" := by decide +kernel
example : jsonString oneFloat true laidOut =
    some (.ok ⟨.obj [(c!"a", .arr [.int 1, .int 2])], .noError⟩) := rfl
example : Ascii laidOut ∧ chr 0x5C ∉ laidOut :=
  ⟨by
    have : ∀ c ∈ laidOut, c.data.length = 1 ∧ 1 ≤ c.data.headD 0 ∧ c.data.headD 0 ≤ 0x7F := by decide +kernel
    intro c hc
    obtain ⟨h1, h2, h3⟩ := this c hc
    obtain ⟨b, hb⟩ := List.length_eq_one_iff.mp h1
    exact ⟨b, by simpa [hb] using h2, by simpa [hb] using h3, by cases c; simp_all [chr]⟩, by decide +kernel⟩
example : jsonString oneFloat true c!"{ \"é\" :\n 1 }" = some (.ok ⟨.obj [(c!"é", .int 1)], .noError⟩) := by rfl

/-- C169 fails for `\`: the compiler and the parser do not agree on where a literal ends, so that white space in a
string, as the parser reads it, is made one space. -/
theorem C169_escape_fails :
    document oneFloat c!"{\"a\":\"\\n\",  \"}\"}" = .ok (.obj [(c!"a", .str c!"\n,  ")], .noError) ∧
    jsonString oneFloat false c!"{\"a\":\"\\n\",  \"}\"}" =
      some (.ok ⟨.obj [(c!"a", .str c!"\n, ")], .noError⟩) := ⟨rfl, rfl⟩

/-- C169 fails for comments: they are read over in the source, and `Parse` has an error. -/
theorem C169_comment_fails :
    document oneFloat c!"{\"a\":1/* one */}" ≠ .ok (.obj [(c!"a", .int 1)], .noError) ∧
    jsonString oneFloat false c!"{\"a\":1/* one */}" = some (.ok ⟨.obj [(c!"a", .int 1)], .noError⟩) ∧
    jsonString oneFloat false c!"{\"a\": // one }\n 1}" = some (.ok ⟨.obj [(c!"a", .int 1)], .noError⟩) ∧
    jsonString oneFloat false c!"{\"a\": \"http://b\"}" =
      some (.ok ⟨.obj [(c!"a", .str c!"http://b")], .noError⟩) := by
  refine ⟨?_, rfl, rfl, rfl⟩
  have : document oneFloat c!"{\"a\":1/* one */}" = .ok (.null, .unexpectedCharacter) := rfl
  rw [this]
  intro h
  cases h

/-- C169 fails for trigraphs, with a compiler of C++11 or C++14, the standard the library is written for. -/
theorem C169_trigraph_fails :
    document oneFloat c!"{\"a\":\"what??!\"}" = .ok (.obj [(c!"a", .str c!"what??!")], .noError) ∧
    jsonString oneFloat true c!"{\"a\":\"what??!\"}" = some (.ok ⟨.obj [(c!"a", .str c!"what|")], .noError⟩) ∧
    jsonString oneFloat false c!"{\"a\":\"what??!\"}" =
      some (.ok ⟨.obj [(c!"a", .str c!"what??!")], .noError⟩) ∧
    replace c!"???=??/??'??(??)??!??<??>??-??x" = c!"?#\\^[]|{}~??x" := ⟨rfl, rfl, rfl, rfl⟩

end Caitlyn.JsonMacro
