import Verif.Proofs.JsonRead
import Verif.Proofs.Resolve
import Verif.Props.JsonParse

/-! # C116: what `JsonDocument::Parse` does on every text -/

namespace Caitlyn
open Spec JsonParser Spec.JsonText

variable {F : Type}

/-- C116: on every text `Parse` gives the root and the error that reading the text from left to right gives (Spec/JsonRead.lean,
where there are no positions and no flags): also for texts that are no JSON, with every error and every undefined read. -/
theorem C116_exact (ops : FloatOps F) (s : Str) (hs : Text s) :
    JsonParser.document ops s = Spec.JsonText.document ops s := JsonText.document_eq ops s hs.1 hs.2

example : Spec.JsonText.document oneFloat c!"{\"é\": [1, +2], \"b\" : {} } " =
    .ok (.obj [(c!"é", .arr [.int 1, .float ()]), (c!"b", .obj [])], .noError) := by rfl

/-- C116: what the reader takes from the four characters behind `\u`: they must start with a hexadecimal number as the C library
reads it (Spec/CNumber.lean), and its lowest byte is written. -/
theorem C116_code_unit (t : Str) (ht : ∀ c ∈ t, Shape c.data) (b : UInt8) :
    codeUnit t = some b ↔ 4 ≤ t.length ∧ ∃ neg n, HexNumber (Str.str (t.take 4)) neg n ∧ b = byteOf neg n := by
  unfold codeUnit
  have hs : ∀ c ∈ t.take 4, Shape c.data := fun c hc => ht c (List.mem_of_mem_take hc)
  by_cases h4 : t.length < 4
  · rw [if_pos h4]
    exact ⟨fun h => (by cases h), fun h => absurd h.1 (by omega)⟩
  · rw [if_neg h4]
    constructor
    · intro h
      cases hx : StdNum.stoul 16 (Str.str (t.take 4)) with
      | error e => rw [hx] at h; cases h
      | ok k =>
        rw [hx] at h
        injection h with h
        obtain ⟨neg, n, h1, h2, h3⟩ := (StdNum.stoul_hex _ _).mp hx
        refine ⟨by omega, neg, n, h1, ?_⟩
        rw [← h, h3]
        exact StdNum.byteOf_nat neg n h2
    · rintro ⟨_, neg, n, h1, h2⟩
      have hn := StdNum.hexNumber_lt hs (by simp; omega) h1
      rw [(StdNum.stoul_hex _ _).mpr ⟨neg, n, h1, by omega, rfl⟩]
      simp only
      rw [StdNum.byteOf_nat neg n (by omega), h2]

example : HexNumber b!" +1g" false 1 :=
  .mk b!" " b!"+" [] b!"1" b!"g" false 1 (by decide) .plus (by decide) (.one _ _ (by decide))
    (fun b hb => by injection hb with hb; subst hb; decide) (fun h => absurd h.2.1 (by decide))

/-- C116: the four characters behind `\u` need not be digits, against RFC 8259. -/
theorem C116_four_digits_fails :
    JsonParser.document oneFloat c!"{\"a\":\"\\u 41z.\"}" = .ok (.obj [(c!"a", .str c!"A")], .noError) ∧
    JsonParser.document oneFloat c!"{\"a\":\"\\u0x41.\"}" = .ok (.obj [(c!"a", .str c!"A")], .noError) ∧
    JsonParser.document oneFloat c!"{\"a\":\"\\u-0BF.\"}" = .ok (.obj [(c!"a", .str c!"A")], .noError) ∧
    JsonParser.document oneFloat c!"{\"a\":\"\\uwxyz.\"}" = .ok (.null, .unexpectedCharacter) := ⟨rfl, rfl, rfl, rfl⟩

/-- C116: the errors that `Parse` reports on any text are these seven (`GetError` of the others is never seen). -/
theorem C116_errors (ops : FloatOps F) (s : Str) (hs : Text s) (root : Json F) (e : JsonError)
    (h : JsonParser.document ops s = .ok (root, e)) :
    e ∈ [.noError, .invalidJson, .unexpectedCharacter, .unterminatedString, .missingColon, .trailingComma, .invalidEscapeSequence] := by
  rw [C116_exact ops s hs] at h
  exact JsonText.document_errors ops s root e h

/-- C116: each of the seven is reported on some text. -/
theorem C116_errors_all :
    JsonParser.document oneFloat c!"{}" = .ok (.obj [], .noError) ∧
    JsonParser.document oneFloat c!"[]" = .ok (.null, .invalidJson) ∧
    JsonParser.document oneFloat c!"{a}" = .ok (.null, .unexpectedCharacter) ∧
    JsonParser.document oneFloat c!"{\"b}" = .ok (.null, .unterminatedString) ∧
    JsonParser.document oneFloat c!"{\"a\" 1}" = .ok (.null, .missingColon) ∧
    JsonParser.document oneFloat c!"{\"a\":1,}" = .ok (.null, .trailingComma) ∧
    JsonParser.document oneFloat c!"{\"a\":\"\\}" = .ok (.null, .invalidEscapeSequence) :=
  ⟨rfl, rfl, rfl, rfl, rfl, rfl, rfl⟩

/-- C116 fails for the errors that name what is wrong with a value: a number that is out of range or wrong, a literal that is wrong
and an object or array that is not closed are reported as an unexpected character, or as no JSON at all. -/
theorem C116_errors_fails :
    JsonParser.document oneFloat c!"{\"a\":99999999999999999999}" = .ok (.null, .unexpectedCharacter) ∧
    JsonParser.document oneFloat c!"{\"a\":-}" = .ok (.null, .unexpectedCharacter) ∧
    JsonParser.document oneFloat c!"{\"a\":nil}" = .ok (.null, .unexpectedCharacter) ∧
    JsonParser.document oneFloat c!"{\"a\":{" = .ok (.null, .invalidJson) ∧
    JsonParser.document oneFloat c!"{\"a\":[}" = .ok (.null, .unexpectedCharacter) ∧
    JsonParser.document oneFloat c!"{a:1}" = .ok (.null, .unexpectedCharacter) := ⟨rfl, rfl, rfl, rfl, rfl, rfl⟩

/-- C116: if `Parse` does not return, then it has read a character after the end of the text or one of the two exceptions of
`String`'s constructor leaves it. -/
theorem C116_kinds (ops : FloatOps F) (s : Str) (hs : Text s) (x : Err) (h : JsonParser.document ops s = .error x) :
    x = .ub ∨ x = .invalidArgument ∨ x = .runtimeError := by
  have hf := C53_terminates ops s
  rw [h] at hf
  rw [C116_exact ops s hs] at h
  have := JsonText.document_throws ops s (fun x => x = .fuel ∨ x = .ub ∨ x = .invalidArgument ∨ x = .runtimeError)
    (.inr (.inl rfl)) (.inl rfl) (fun e u x _ h => .inr (JsonText.readString_throws e _ u [] x (Nat.lt_succ_self _) h)) h
  rcases this with rfl | this
  · exact absurd rfl hf
  · exact this

/-- C116: no exception leaves `Parse` if the text has no backslash. -/
theorem C116_no_escape (ops : FloatOps F) (s : Str) (hs : Text s) (hb : chr 0x5C ∉ s) (x : Err)
    (h : JsonParser.document ops s = .error x) : x = .ub := by
  have hf := C53_terminates ops s
  rw [h] at hf
  rw [C116_exact ops s hs] at h
  have := JsonText.document_throws ops s (fun x => x = .fuel ∨ x = .ub)
    (.inr rfl) (.inl rfl) (fun e u x hu h => .inr (JsonText.readString_plain e u [] x (by intro c hc; cases hc)
      (fun c hc => hs.1 c (hu.subset hc)) (fun hc => hb (hu.subset hc)) h)) h
  rcases this with rfl | this
  · exact absurd rfl hf
  · exact this

example : JsonParser.document oneFloat c!"{\"a\":\"b}" = .error .ub := rfl

/-- C116: the first visible character decides: without an opening curly bracket at the front or a closing one at the end the text is
no JSON, whatever stands between, unless it is read beyond its end. -/
theorem C116_brackets (ops : FloatOps F) (s : Str) (hs : Text s) (hne : trim s.tail ≠ [])
    (h : (trim s).head? ≠ some (chr 0x7B) ∨ lastVisible s ≠ some (chr 0x7D)) :
    JsonParser.document ops s = .ok (.null, .invalidJson) := by
  rw [C116_exact ops s hs]
  unfold Spec.JsonText.document
  have hse : s ≠ [] := by rintro rfl; exact hne rfl
  have hst : trim s ≠ [] := by
    intro ht
    rw [JsonText.trim_nil_iff] at ht
    exact hne ((JsonText.trim_nil_iff _).mpr fun c hc => ht c (List.mem_of_mem_tail hc))
  rw [if_neg hse, if_neg hst]
  by_cases hb : (trim s).head? = some (chr 0x7B)
  · rw [if_neg (fun hx => hx hb), if_neg hne, if_pos (h.resolve_left fun hx => hx hb)]
  · rw [if_pos hb]

example : trim (c!"[1]").tail ≠ [] ∧ (trim c!"[1]").head? ≠ some (chr 0x7B) := by decide +kernel

end Caitlyn
