import Verif.Model.WriteArgs
import Verif.Props.FormatFull
import Verif.Props.FormatArgs
import Verif.Props.Utf8

/-!
# Property C124: `Write(value)` and `Write("{}", value)`
-/

namespace Caitlyn
open Caitlyn.Spec FormatArgs Traits

/-- The arguments that are numbers, characters and booleans. -/
def Spec.isNumber : Arg → Bool
  | .integral .. => true
  | .floating .. => true
  | _ => false

namespace WriteArgs

theorem pick_same (a : Arg) (h : isNumber a = false) : pick a = FormatArgs.toString a := by
  cases a with
  | integral => cases h
  | floating => cases h
  | object m =>
    obtain ⟨a, b, c, d⟩ := m
    cases a <;> cases b <;> cases c <;> rfl
  | _ => rfl

theorem pick_number (a : Arg) (h : isNumber a = true) : pick a = .noMatch := by
  cases a <;> first | rfl | cases h

theorem format_one (a : Arg) (s : Str) (hs : Shapes s) (h : FormatArgs.toString a = .result (.ok s)) :
    toStrings [a] = some (.ok [s]) ∧ Format.format c!"{}" [s] = .ok s := by
  refine ⟨by simp [toStrings, h, bind, Except.bind, pure, Except.pure], ?_⟩
  have := C30_interleaved [] [(s, [])] (by simp) (by show 1 < 2 ^ 63; decide) ⟨by simp, by
    intro i hi
    obtain rfl := List.mem_singleton.mp hi
    exact ⟨hs, by simp⟩⟩
  simpa using this

theorem cString_text (t rest : List UInt8) (h0 : (0 : UInt8) ∉ t) : cString (t ++ 0 :: rest) = .ok t := by
  unfold cString
  rw [if_pos (by simp), List.takeWhile_append_of_pos (by
    intro b hb
    simp only [ne_eq, decide_not, Bool.not_eq_eq_eq_not, Bool.not_true, decide_eq_false_iff_not]
    rintro rfl
    exact h0 hb)]
  simp

end WriteArgs

open WriteArgs

/-- C124. Partial: a value that is printed alone is written like one that is put into a template. Missing: numbers, which cannot be
printed alone (`C124_numbers_fails`). -/
theorem C124_console_partial (line : Bool) (k : Console.Sink) (a : Arg) (s : Str) (hs : Shapes s) (hn : isNumber a = false)
    (h : FormatArgs.toString a = .result (.ok s)) (st : Console.State) :
    console line k a st = consoleFormat line k c!"{}" [a] st ∧
    console line k a st = some (.ok .none,
      { st with events := st.events ++ (.wrote k (Str.str s) :: (if line then [.wrote k b!"\n"] else []) ++ [.flushed k]) }) := by
  obtain ⟨h1, h2⟩ := format_one a s hs h
  unfold console consoleFormat
  rw [pick_same a hn, h, h1]
  cases line
  · simp [Console.call, Console.Message.get, h2, Console.State.put, Console.State.flush]
  · simp [Console.call, Console.Message.get, h2, Console.State.put, Console.State.flush]

example : console true .err (.object { toString := some ⟨true, c!"é"⟩ }) ⟨[], []⟩ =
    some (.ok .none, ⟨[], [.wrote .err b!"é", .wrote .err b!"\n", .flushed .err]⟩) := by decide +kernel

/-- C124. The error is the same too: an argument that cannot be converted throws before anything is written. -/
theorem C124_console_error (line : Bool) (k : Console.Sink) (a : Arg) (e : Err) (hn : isNumber a = false)
    (h : FormatArgs.toString a = .result (.error e)) (t : Str) (st : Console.State) :
    console line k a st = some (.error e, st) ∧ consoleFormat line k t [a] st = some (.error e, st) := by
  have h1 : toStrings [a] = some (.error e) := by simp [toStrings, h, bind, Except.bind]
  unfold console consoleFormat
  rw [pick_same a hn, h, h1]
  exact ⟨rfl, rfl⟩

example : FormatArgs.toString (.chars [0xFF, 0]) = .result (.error .runtimeError) := by rfl

/-- C124, exactly: the values that can be printed alone are those that can be formatted and are no numbers, characters or booleans. -/
theorem C124_compiles (line : Bool) (k : Console.Sink) (t : Str) (a : Arg) (st : Console.State) :
    (console line k a st).isSome ↔ (consoleFormat line k t [a] st).isSome ∧ isNumber a = false := by
  cases hn : isNumber a
  · unfold console consoleFormat toStrings
    rw [pick_same a hn]
    cases FormatArgs.toString a with
    | result r => cases r <;> simp [toStrings, bind, Except.bind, pure, Except.pure]
    | _ => simp
  · unfold console
    rw [pick_number a hn]
    simp

/-- C124 fails for numbers: every integer that `Write("{}", value)` prints in decimal is rejected by `Write(value)`; for booleans and
floating point numbers it is the same. -/
theorem C124_numbers_fails (line : Bool) (k : Console.Sink) (st : Console.State) :
    (∀ b ∈ wideIntegers, ∀ v, (consoleFormat line k c!"{}" [.integral b false v] st).isSome ∧
      console line k (.integral b false v) st = none) ∧
    (∀ b ∈ floatTypes, ∀ d, (consoleFormat line k c!"{}" [.floating b false d] st).isSome ∧
      console line k (.floating b false d) st = none) ∧
    (∀ v, (consoleFormat line k c!"{}" [.integral .bool false v] st).isSome ∧ console line k (.integral .bool false v) st = none) := by
  have some_of : ∀ a r, FormatArgs.toString a = .result r → (consoleFormat line k c!"{}" [a] st).isSome := by
    intro a r h
    unfold consoleFormat toStrings
    rw [h]
    cases r <;> simp [toStrings, bind, Except.bind, pure, Except.pure]
  refine ⟨fun b hb v => ⟨some_of _ _ (C112_integers_partial b hb v), rfl⟩, fun b hb d => ⟨?_, rfl⟩, fun v => ⟨some_of _ _ rfl, rfl⟩⟩
  unfold floatTypes at hb
  simp only [List.mem_cons, List.not_mem_nil, or_false] at hb
  rcases hb with rfl | rfl | rfl <;> exact some_of _ _ rfl

/-- C124. A text that is written alone is no template: it is written as it is, with its brackets. -/
theorem C124_plain (line : Bool) (k : Console.Sink) (s : Str) (hs : Shapes s) (rest : List UInt8) (st : Console.State) :
    ∀ a ∈ [Arg.string s, .chars (Str.str s ++ 0 :: rest), .stdString (Str.str s)],
    console line k a st = some (.ok .none,
      { st with events := st.events ++ (.wrote k (Str.str s) :: (if line then [.wrote k b!"\n"] else []) ++ [.flushed k]) }) := by
  obtain ⟨h1, h2, h3⟩ := C112_strings s hs rest
  intro a ha
  simp only [List.mem_cons, List.not_mem_nil, or_false] at ha
  rcases ha with rfl | rfl | rfl
  · exact (C124_console_partial line k _ s hs rfl h1 st).2
  · exact (C124_console_partial line k _ s hs rfl h2 st).2
  · exact (C124_console_partial line k _ s hs rfl h3 st).2

/-- C124 fails for the documented example (docs/usage/formatting.md): `WriteLine("escaped: {{text}}\n")` is said to print
`escaped: {text}`, which is what `Format` makes of it, but it prints the brackets twice. -/
theorem C124_escaped_fails :
    Format.format c!"escaped: {{text}}\n" [] = .ok c!"escaped: {text}\n" ∧
    console true .out (.chars (b!"escaped: {{text}}\n" ++ [0])) ⟨[], []⟩ =
      some (.ok .none, ⟨[], [.wrote .out b!"escaped: {{text}}\n", .wrote .out b!"\n", .flushed .out]⟩) := by
  decide +kernel

/-- C124, files. Partial: a value is written to a file like one that is put into a template. Missing: numbers, as for the console, and
C strings that are not UTF-8 (`C124_file_fails`). -/
theorem C124_file_partial (line : Bool) (a : Arg) (s : Str) (hs : Shapes s) (hn : isNumber a = false)
    (h : FormatArgs.toString a = .result (.ok s)) (f : FileSys) :
    file line a f = fileFormat line c!"{}" [a] f ∧
    file line a f = some (File.write f (Str.str s ++ if line then b!"\n" else [])) := by
  obtain ⟨h1, h2⟩ := format_one a s hs h
  have hf : format c!"{}" [a] = some (.ok s) := by
    unfold format
    rw [h1]
    show some (Format.format c!"{}" [s]) = _
    rw [h2]
  have e2 : fileFormat line c!"{}" [a] f = some (File.write f (Str.str s ++ ending line)) := by
    unfold fileFormat File.write
    rw [hf]
    rcases File.ensureOpen f with ⟨r, g⟩
    cases r <;> rfl
  have e1 : file line a f = some (File.write f (Str.str s ++ ending line)) := by
    by_cases hc : ∃ mem, a = .chars mem
    · obtain ⟨mem, rfl⟩ := hc
      have h' : Str.ofCStr mem = .ok s := by injection h
      have hb : cString mem = .ok (Str.str s) := by
        obtain ⟨t, rest, rfl, h0, ht, -⟩ := C05_byte_exact mem s h'
        rw [ht]
        exact cString_text t rest h0
      simp only [file, File.write, hb]
      rcases File.ensureOpen f with ⟨r, g⟩
      cases r <;> rfl
    · have : file line a f = match pick a with
          | .result (.ok s) => some (File.write f (Str.str s ++ ending line))
          | .result (.error e) => some (.error e, f)
          | _ => none := by
        cases a <;> first | rfl | exact absurd ⟨_, rfl⟩ hc
      rw [this, pick_same a hn, h]
  rw [e1, e2]
  exact ⟨rfl, rfl⟩

example : file true (.stdString b!"né") ⟨⟨true, 0, false, false, false, 0⟩, some b!"a"⟩ =
    some (.ok (), ⟨⟨true, 5, false, false, false, 0⟩, some b!"ané\n"⟩) := by decide +kernel

/-- C124 fails for C strings that are not UTF-8: `Write(data)` of a file writes the bytes, `Write("{}", data)` throws. -/
theorem C124_file_fails (f : FileSys) (hf : f.isOpen = true) :
    file false (.chars [0xFF, 0]) f = some (.ok (), File.put f [0xFF]) ∧
    fileFormat false c!"{}" [.chars [0xFF, 0]] f = some (.error .runtimeError, f) := by
  have h1 : format c!"{}" [.chars [0xFF, 0]] = some (.error .runtimeError) := by rfl
  have h2 : cString [0xFF, 0] = .ok [0xFF] := by decide
  have h3 : File.ensureOpen f = (.ok (), f) := by unfold File.ensureOpen; rw [if_pos hf]
  constructor
  · simp only [file, h2, h3]
    rfl
  · simp only [fileFormat, h1, h3]

/-- C124, the precondition on C strings. Memory without a terminator is read beyond its end, in every overload that takes a pointer, and
the file stays as it was. -/
theorem C124_terminator (line : Bool) (mem : List UInt8) (h0 : 0 ∉ mem) (f : FileSys) (hf : f.isOpen = true) :
    file line (.chars mem) f = some (.error .ub, f) := by
  have h3 : File.ensureOpen f = (.ok (), f) := by unfold File.ensureOpen; rw [if_pos hf]
  simp only [file, h3, cString, if_neg h0]

end Caitlyn
