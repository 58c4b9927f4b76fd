import Verif.Model.FormatArgs
import Verif.Props.BigFloatDouble
import Verif.Props.Traits
import Verif.Proofs.StrUtil

/-!
# Property C112: the conversion of the arguments of `Format`
-/

namespace Caitlyn
open Caitlyn.Spec FormatArgs Traits BigInt BigFloat

/-- The types whose value is written as a number: all integer types but the two that are also character types. -/
def Spec.wideIntegers : List Base := [.short, .ushort, .int, .uint, .long, .ulong, .llong, .ullong]

theorem stdToString_decimal (v : Int) : Str.ofStdString (stdToString v) = .ok (decimal v) := by
  rw [Str.ofStdString_ascii _ (toString_ascii v), ← decimal_eq]

/-- C112. Partial: an integer is written in decimal. Missing: `signed char` and `unsigned char` (so `Int8`, `UInt8`), which are
rejected (`C112_bytes_fails`), and volatile integers (`C112_volatile_fails`). -/
theorem C112_integers_partial (b : Base) (hb : b ∈ wideIntegers) (v : Int) :
    FormatArgs.toString (.integral b false v) = .result (.ok (decimal v)) := by
  rw [← stdToString_decimal]
  unfold wideIntegers at hb
  simp only [List.mem_cons, List.not_mem_nil, or_false] at hb
  rcases hb with rfl | rfl | rfl | rfl | rfl | rfl | rfl | rfl <;> rfl

/-- C112. A boolean is written as `true` or `false`, also a volatile one. -/
theorem C112_bool (vol b : Bool) :
    FormatArgs.toString (.integral .bool vol (if b then 1 else 0)) = .result (.ok (if b then c!"true" else c!"false")) := by
  cases vol <;> cases b <;> rfl

/-- C112. A `String` is taken as it is; a C string and a `std::string` as the characters they are made of. -/
theorem C112_strings (s : Str) (h : ∀ c ∈ s, Shape c.data) (rest : List UInt8) :
    FormatArgs.toString (.string s) = .result (.ok s) ∧
    FormatArgs.toString (.chars (Str.str s ++ 0 :: rest)) = .result (.ok s) ∧
    FormatArgs.toString (.stdString (Str.str s)) = .result (.ok s) := by
  refine ⟨rfl, ?_, ?_⟩
  · show Outcome.result (Str.ofCStr (Str.str s ++ 0 :: rest)) = _
    rw [Str.str_shapes s h, Str.ofCStr_shapes _ (by
      intro p hp
      obtain ⟨c, hc, rfl⟩ := List.mem_map.mp hp
      exact h c hc), List.map_map]
    exact congrArg _ (congrArg _ ((List.map_congr_left (fun _ _ => rfl)).trans (List.map_id s)))
  · show Outcome.result (Str.ofStdString (Str.str s)) = _
    rw [Str.ofStdString_str s h]

/-- C112. Partial: a finite floating point number is written with six decimals as a numeral that differs from it by at most
half a millionth. Missing: numbers that are smaller or need more digits (`C112_small_fails`). -/
theorem C112_floating_partial (b : Base) (hb : b ∈ floatTypes) (neg : Bool) (m : Nat) (e : Int) :
    ∃ (t : Str) (q : Rat), FormatArgs.toString (.floating b false (.finite neg m e)) = .result (.ok t) ∧
      denote t = some (if neg then -q else q) ∧ |q - binValue m e| ≤ 1 / 2 / 10 ^ 6 := by
  obtain ⟨p1, p2, p3⟩ := padded_spec 6 (Dbl.millionths m e % 1000000) (Nat.mod_lt _ (by decide))
  have hd := denote_numeral neg (Nat.toDigits 10 (Dbl.millionths m e / 1000000))
    (some (Dbl.padded 6 (Dbl.millionths m e % 1000000))) Nat.toDigits_ne_nil (toDigits_digitChar _) (by
      rintro f ⟨⟩
      exact ⟨(fun h => by rw [h] at p1; cases p1), p2⟩)
  refine ⟨_, _, ?_, hd, ?_⟩
  · rw [← text_finite]
    unfold floatTypes at hb
    simp only [List.mem_cons, List.not_mem_nil, or_false] at hb
    rcases hb with rfl | rfl | rfl <;> rfl
  · have hn := millionths_near m e
    have hdm := Nat.div_add_mod (Dbl.millionths m e) 1000000
    simp only [p1, p3, num, Nat.ofDigitChars_ten_toDigits]
    have : ((Dbl.millionths m e / 1000000 : Nat) : Rat) + ((Dbl.millionths m e % 1000000 : Nat) : Rat) / 10 ^ 6 =
        (Dbl.millionths m e : Rat) / 10 ^ 6 := by
      have h' : ((1000000 * (Dbl.millionths m e / 1000000) + Dbl.millionths m e % 1000000 : Nat) : Rat) =
        (Dbl.millionths m e : Rat) := by rw [hdm]
      push_cast at h'
      rw [← h']
      ring
    rw [this]
    exact hn

/-- The members of a class that the traits see. -/
def Spec.seen (m : Members) : List Member := m.to_string.toList ++ m.str.toList ++ m.toString.toList

/-- C112, classes, exactly: with one of `to_string`, `str` and `ToString`, its text if it is `const`, otherwise the program does not
compile; with two or three, the call is ambiguous; with none, the conversion to `String` is used if there is one. -/
theorem C112_classes (m : Members) :
    (∀ f, seen m = [f] → FormatArgs.toString (.object m) = if f.const then .result (.ok f.text) else .illFormed) ∧
    (2 ≤ (seen m).length → FormatArgs.toString (.object m) = .ambiguous) ∧
    (seen m = [] → FormatArgs.toString (.object m) =
      match m.conversion with
      | some s => .result (.ok s)
      | none => .noMatch) := by
  obtain ⟨a, b, c, d⟩ := m
  refine ⟨fun f h => ?_, fun h => ?_, fun h => ?_⟩
  · cases a <;> cases b <;> cases c <;> simp [seen] at h <;> subst h <;> rfl
  · cases a <;> cases b <;> cases c <;> first | rfl | simp [seen] at h
  · cases a <;> cases b <;> cases c <;> simp [seen] at h
    cases d <;> rfl

/-- C112. Whatever the arguments, the program compiles exactly if there is a function for every one of them. -/
theorem C112_compiles (formatter : Str) (args : List Arg) :
    (FormatArgs.format formatter args).isSome ↔ ∀ a ∈ args, ∃ r, FormatArgs.toString a = .result r := by
  have : (toStrings args).isSome ↔ ∀ a ∈ args, ∃ r, FormatArgs.toString a = .result r := by
    induction args with
    | nil => simp [toStrings]
    | cons a as ih =>
      rw [List.forall_mem_cons, ← ih, toStrings]
      cases FormatArgs.toString a <;> cases toStrings as <;> simp
  unfold FormatArgs.format
  rw [Option.isSome_map, this]

/-- C112. If every argument is converted, the template is filled with the converted texts. -/
theorem C112_format (formatter : Str) (args : List Arg) (texts : List Str)
    (h : args.map FormatArgs.toString = texts.map fun t => .result (.ok t)) :
    FormatArgs.format formatter args = some (Format.format formatter texts) := by
  have : toStrings args = some (.ok texts) := by
    induction args generalizing texts with
    | nil =>
      cases texts with
      | nil => rfl
      | cons t ts => cases h
    | cons a as ih =>
      cases texts with
      | nil => cases h
      | cons t ts =>
        simp only [List.map_cons, List.cons.injEq] at h
        unfold toStrings
        rw [h.1, ih ts h.2]
        rfl
  unfold FormatArgs.format
  rw [this]
  rfl

/-- C112 fails for characters: `Format("{}", 'a')` is "97"; every character type is written as a number. -/
theorem C112_characters_fails (b : Base) (hb : b ∈ [.char, .wchar, .char16, .char32]) (v : Int) :
    FormatArgs.toString (.integral b false v) = .result (.ok (decimal v)) ∧
    FormatArgs.format c!"{}" [.integral .char false 97] = some (.ok c!"97") := by
  refine ⟨?_, by decide +kernel⟩
  rw [← stdToString_decimal]
  simp only [List.mem_cons, List.not_mem_nil, or_false] at hb
  rcases hb with rfl | rfl | rfl | rfl <;> rfl

/-- C112 fails for `signed char` and `unsigned char`, the types of `Int8` and `UInt8`: they are integers and characters, so two
templates fit and the call is ambiguous. -/
theorem C112_bytes_fails (b : Base) (hb : b ∈ [.schar, .uchar]) (v : Int) :
    FormatArgs.toString (.integral b false v) = .ambiguous := by
  simp only [List.mem_cons, List.not_mem_nil, or_false] at hb
  rcases hb with rfl | rfl <;> rfl

/-- C112 fails for volatile numbers: no function fits. -/
theorem C112_volatile_fails (b : Base) (hb : b ≠ .bool) (v : Int) (d : Dbl) :
    FormatArgs.toString (.integral b true v) = .noMatch ∧ FormatArgs.toString (.floating b true d) = .noMatch := by
  cases b <;> first | exact absurd rfl hb | exact ⟨rfl, rfl⟩

/-- C112 fails for `nullptr`: it is taken for a C string and dereferenced, although `String::ValueOf(nullptr)` is "null". -/
theorem C112_null_fails : FormatArgs.toString .nullptr = .result (.error .ub) ∧ Str.valueOfNull = b!"null" := ⟨rfl, rfl⟩

/-- C112, what is no number: infinities and NaNs of every type are written as words, with their sign. -/
theorem C112_words (b : Base) (hb : b ∈ floatTypes) (neg : Bool) :
    FormatArgs.toString (.floating b false (.inf neg)) = .result (.ok (if neg then c!"-inf" else c!"inf")) ∧
    FormatArgs.toString (.floating b false (.nan neg)) = .result (.ok (if neg then c!"-nan" else c!"nan")) := by
  simp only [floatTypes, List.mem_cons, List.not_mem_nil, or_false] at hb
  rcases hb with rfl | rfl | rfl <;> cases neg <;> exact ⟨rfl, rfl⟩

/-- C112 fails for small numbers: 2^-24, about 6·10^-8, is written as 0. -/
theorem C112_small_fails :
    FormatArgs.format c!"{}" [.floating .double false (.finite false 1 (-24))] = some (.ok c!"0.000000") := by
  decide +kernel

example : FormatArgs.format c!"{} {} {:.2f}" [.floating .double false (.finite true 5 (-1)), .object { toString := some ⟨true, c!"[]"⟩ }] =
    some (.ok c!"-2.500000 [] -2.50") := by decide +kernel

end Caitlyn
