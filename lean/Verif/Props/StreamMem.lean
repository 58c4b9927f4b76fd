import Verif.Proofs.StreamMemParse
import Verif.Props.JsonParse

/-!
# C150

Running out of memory never changes a text or a result silently: a call does what it does with enough memory, or it throws
`std::bad_alloc`.
-/

namespace Caitlyn
open Caitlyn.Spec StreamMem

variable {F : Type}

/-- C150: with enough memory the functions do what the other models of them say. -/
theorem C150_enough (ops : FloatOps F) (pretty : Bool) (indent : Nat) (j : Json F) (s : Str) (r : Res Str) :
    StreamMem.str none s = Str.str s ∧ StreamMem.document {} ops s = JsonParser.document ops s ∧
    (StreamMem.ToString (· = none) ops pretty indent j r ↔ r = Json.toString ops pretty indent j) := by
  refine ⟨str_eq none s, document_none ops s, ?_, ?_⟩
  · rintro ⟨t, room, rfl, hw, rfl⟩
    rw [whole (n := (Str.str (Json.output ops pretty indent indent j)).length) (A := (· = none))
      (by rintro room rfl m h; cases h) ops pretty indent j indent t hw (Nat.le_refl _), streamed_eq]
    simp [cut, Json.toString]
  · rintro rfl
    obtain ⟨t, ht⟩ := writes_exists (A := (· = none)) rfl ops pretty indent j indent
    refine ⟨t, none, rfl, ht, ?_⟩
    rw [whole (n := (Str.str (Json.output ops pretty indent indent j)).length) (A := (· = none))
      (by rintro room rfl m h; cases h) ops pretty indent j indent t ht (Nat.le_refl _), streamed_eq]
    simp [cut, Json.toString]

/-- C150, printing. Partial: the text is the right one if every stream made on the way can take as many bytes as the text has.
Missing: smaller streams (`C150_print_fails`). -/
theorem C150_print_partial (A : Room → Prop) (ops : FloatOps F) (pretty : Bool) (indent : Nat) (j : Json F)
    (hA : ∀ room, A room → atLeast (Str.str (Json.output ops pretty indent indent j)).length room) (r : Res Str)
    (h : StreamMem.ToString A ops pretty indent j r) : r = Json.toString ops pretty indent j := by
  obtain ⟨t, room, ha, hw, rfl⟩ := h
  rw [whole hA ops pretty indent j indent t hw (Nat.le_refl _), streamed_eq]
  simp only [List.flatten_cons, List.flatten_nil, List.append_nil]
  rw [cut_atLeast (hA room ha) (Nat.le_refl _)]
  rfl

/-- C150, printing without line breaks. Partial: exactly what may come out: the beginning of the text of a value that has the same
structure and numbers, and the beginnings of the keys and texts. Missing: that it is the whole text (`C150_print_fails`). -/
theorem C150_compact_partial (ops : FloatOps F) (indent : Nat) (j : Json F) (r : Res Str) :
    StreamMem.ToString (fun _ => True) ops false indent j r ↔
      ∃ j' p, Alike CutTo CutTo Eq Eq j j' ∧ p <+: Str.str (Json.output ops false indent indent j') ∧ r = Str.ofStdString p := by
  constructor
  · rintro ⟨t, room, _, hw, rfl⟩
    obtain ⟨j', h1, rfl⟩ := alike_writes ops indent j indent t hw
    refine ⟨j', _, h1, cut_prefix room _, ?_⟩
    rw [streamed_eq]
    simp
  · rintro ⟨j', p, h1, h2, rfl⟩
    refine ⟨_, some p.length, trivial, writes_alike (fun _ => trivial) ops false indent j j' indent h1, ?_⟩
    rw [streamed_eq]
    simp only [List.flatten_cons, List.flatten_nil, List.append_nil]
    rw [cut_of_prefix h2]

/-- C150, printing, fails: for every value and every value with shorter keys and texts, printing the first may give the text of the
second, without an exception. -/
theorem C150_print_fails (ops : FloatOps F) (pretty : Bool) (indent : Nat) (j j' : Json F) (h : Alike CutTo CutTo Eq Eq j j') :
    StreamMem.ToString (fun _ => True) ops pretty indent j (Json.toString ops pretty indent j') := by
  refine ⟨_, none, trivial, writes_alike (fun _ => trivial) ops pretty indent j j' indent h, ?_⟩
  rw [streamed_eq]
  simp [cut, Json.toString]

example : Alike CutTo CutTo Eq Eq (.obj [(c!"name", .str c!"secret"), (c!"n", .int 5)] : Json Unit)
    (.obj [(c!"na", .str []), (c!"n", .int 5)]) :=
  ⟨_, rfl, _, _, _, rfl, ⟨b!"me", rfl⟩, ⟨_, rfl, b!"secret", rfl⟩, _, _, _, rfl, ⟨[], rfl⟩, ⟨_, rfl, rfl⟩, rfl⟩

/-- C150, parsing. Partial: if a text is parsed without an error with enough memory, then a run with little memory that reports no
error gives a value of the same structure with the same keys, words and lengths of arrays; texts may have lost their end and numbers
their last digits. Missing: that texts and numbers are complete (`C150_texts_fails`, `C150_numbers_fails`). -/
theorem C150_parse_partial (L : Limits) (ops : FloatOps F) (s : Str) (j j' : Json F)
    (h : JsonParser.document ops s = .ok (j, .noError)) (h' : StreamMem.document L ops s = .ok (j', .noError)) :
    Alike Eq CutTo Fewer (CutNumber ops) j j' := both_document L ops h h'

example : Alike Eq CutTo Fewer (CutNumber oneFloat) (.obj [(c!"a", .int 123), (c!"b", .str c!"xyz")])
    (.obj [(c!"a", .int 12), (c!"b", .str c!"xy")]) := by
  refine ⟨_, rfl, _, _, _, rfl, rfl, ⟨12, rfl, 1, rfl⟩, _, _, _, rfl, rfl, ⟨_, rfl, ?_⟩, rfl⟩
  exact ⟨b!"z", rfl⟩

/-- C150, parsing, fails: every text of every document may be lost, without an error. -/
theorem C150_texts_fails (ops : FloatOps F) (s : Str) (j : Json F) (h : JsonParser.document ops s = .ok (j, .noError)) :
    StreamMem.document { string := fun _ => some 0 } ops s = .ok (mapTexts (fun _ => []) j, .noError) := by
  rw [cuts_document (n := 0) (.inl rfl) ops h]
  have : (List.take 0 : Str → Str) = fun _ => [] := by funext x; rfl
  rw [this]

/-- C150, parsing, fails: the texts of a document of ASCII characters without escapes may be cut after any number of characters,
without an error. -/
theorem C150_cut_fails (n : Nat) (ops : FloatOps F) (s : Str) (hs : PlainAscii s) (j : Json F)
    (h : JsonParser.document ops s = .ok (j, .noError)) :
    StreamMem.document { string := fun _ => some n } ops s = .ok (mapTexts (List.take n) j, .noError) :=
  cuts_document (.inr hs) ops h

example : PlainAscii c!"{\"a\":\"0123456789abcdefghij\"}" := by
  intro c hc
  have : ∀ c ∈ c!"{\"a\":\"0123456789abcdefghij\"}", ∃ b ∈ c.data, c = ⟨[b]⟩ ∧ b ≠ 0 ∧ b ≤ 0x7F ∧ b ≠ 0x5C := by decide
  obtain ⟨b, _, h⟩ := this c hc
  exact ⟨b, h⟩

example : StreamMem.document { string := fun _ => some 15 } oneFloat c!"{\"a\":\"0123456789abcdefghij\"}" =
    .ok (.obj [(c!"a", .str c!"0123456789abcde")], .noError) := rfl

/-- C150, parsing, fails: a number loses its last digits without an error; or a document is reported as wrong; or `Parse` throws
`std::out_of_range`. -/
theorem C150_numbers_fails :
    StreamMem.document { number := fun _ => some 15 } oneFloat c!"{\"a\":1234567890123456789}" =
      .ok (.obj [(c!"a", .int 123456789012345)], .noError) ∧
    StreamMem.document { numberThrows := fun _ => true } oneFloat c!"{\"a\":1}" = .ok (.null, .unexpectedCharacter) ∧
    StreamMem.document { first := fun _ => some 15 } oneFloat c!"{\"abcdefghijklm\":true}" = .error .outOfRange ∧
    StreamMem.document { first := fun _ => some 15 } oneFloat c!"{\"longkey\":  null}" = .ok (.null, .unexpectedCharacter) :=
  ⟨rfl, rfl, rfl, rfl⟩

/-- C150, comparisons, fails: a `String` may compare equal to every beginning of its text, even the empty one. -/
theorem C150_equal_fails (s : Str) (p : List UInt8) (h : p <+: Str.str s) : ∃ room, StreamMem.eqCStr room s p = true :=
  ⟨some p.length, by rw [StreamMem.eqCStr, str_eq, cut_of_prefix h]; simp⟩

/-- C150, comparisons: and it may compare less than its own text. -/
theorem C150_less_fails (s : Str) (h : Str.str s ≠ []) : StreamMem.ltCStr (some 0) s (Str.str s) = true := by
  rw [StreamMem.ltCStr, str_eq]
  cases hs : Str.str s with
  | nil => exact absurd hs h
  | cons b bs => rfl

/-- C150, files, fails: `Write` may write any beginning of the text, and otherwise does what a call that writes only this does; and
`Open` may open the file whose name is any beginning of the name. -/
theorem C150_files_fails (f : FileSys) (s : Str) (p : List UInt8) (h : p <+: Str.str s) :
    ∃ room, StreamMem.write room f s = File.write f p ∧ fileName room s = p :=
  ⟨some p.length, by rw [StreamMem.write, str_eq, cut_of_prefix h], by rw [fileName, str_eq, cut_of_prefix h]⟩

/-- C150, `StringBuilder`. Partial: exactly what it holds: what is left of all that is left of the arguments. Missing: that nothing is
lost (`C150_builder_fails`). -/
theorem C150_builder_partial (room : Room) (args : List (Room × Str)) :
    builderStr (appended room args) = Str.ofStdString (cut room (args.map fun x => cut x.1 (Str.str x.2)).flatten) := by
  unfold appended builderStr
  rw [← state_nil room, appended_eq, state_text, List.nil_append]

/-- C150, `StringBuilder`, fails: after one growth that fails every later `Append` does nothing, whatever it is given and however
much memory there is by then. -/
theorem C150_builder_fails (n : Nat) (args : List (Room × Str))
    (h : n < ((args.map fun x => cut x.1 (Str.str x.2)).flatten).length) (room : Room) (more : List (Room × Str)) :
    more.foldl (append room) (appended (some n) args) = appended (some n) args := by
  have e : (appended (some n) args).bad = true := by
    unfold appended
    rw [← state_nil (some n), appended_eq, List.nil_append, state, if_neg (by omega)]
  generalize appended (some n) args = o at e
  induction more with
  | nil => rfl
  | cons x more ih =>
    have : append room o x = o := by unfold append Out.insert; rw [if_pos e]
    rw [List.foldl_cons, this, ih]

example : builderStr ([(none, c!"world")].foldl (append none) (appended (some 5) [(none, c!"Hello, ")])) = .ok c!"Hello" := by decide

end Caitlyn
