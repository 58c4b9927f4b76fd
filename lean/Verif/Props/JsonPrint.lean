import Verif.Model.JsonDoc
import Verif.Proofs.JsonPrint
import Verif.Proofs.JsonRoundTrip
import Verif.Props.JsonParse

/-! # C52: parsing what `ToString` printed -/

namespace Caitlyn
open Spec Json JsonParser

variable {F : Type}

/-- Every value in `Printable` prints, compact or pretty and with any indent, without undefined behaviour or exception,
to the characters `MakeOutput` writes. -/
theorem C52_prints (ops : FloatOps F) (lits : Bool) (j : Json F) (h : Printable ops lits j) (pretty : Bool)
    (indent : Nat) : j.toString ops pretty indent = .ok (output ops pretty indent indent j) :=
  Str.ofStdString_str _ (output_all (P := fun c => Shape c.data) (fun b h1 h2 => .one b h1 h2) (fun _ hs => hs.1) h _ _ _)

/-- C52, for the trees in `Printable`: parsing what `ToString` printed, compact or pretty and with any indent, gives an
equal document without error. Missing: floating point numbers printed without exponent, strings and keys with quotation
marks, strings with backslashes, and `true`, `false` or `null` together with characters that are not ASCII; for each of
these the property fails (see below). -/
theorem C52_partial (ops : FloatOps F) (lits : Bool) (ms : List (Str × Json F)) (pretty : Bool) (indent : Nat)
    (h : Printable ops lits (.obj ms)) (text : Str) (ht : (Json.obj ms).toString ops pretty indent = .ok text)
    (hlen : text.length < npos) : document ops text = .ok (.obj ms, .noError) := by
  rw [C52_prints ops lits _ h] at ht
  injection ht with ht
  subst ht
  refine document_of_parse.mp (parse_complete ops lits _ hlen ?_ ?_)
  · intro hl c hc
    exact output_all (P := fun c => ∃ b : UInt8, 0x01 ≤ b ∧ b ≤ 0x7F ∧ c = chr b) (fun b h1 h2 => ⟨b, h1, h2, rfl⟩)
      (fun s hs => hs.2.2 hl) h pretty indent indent c hc
  · have hv := prints h pretty indent indent [] (by intro c hc; cases hc)
    rw [List.append_nil] at hv
    have hend : ∃ pre, output ops pretty indent indent (.obj ms) = pre ++ [chr 0x7D] := by
      cases ms <;> (rw [output]; exact ⟨_, rfl⟩)
    obtain ⟨pre, hp⟩ := hend
    exact ⟨[], output ops pretty indent indent (.obj ms), [], ms, spaces_nil, rfl, hv, rfl, pre, [], spaces_nil, hp⟩

/-- C52, exactly, for ASCII trees whose floating point numbers print as characters of numbers: parsing what `ToString`
printed gives the same document without error if and only if the tree is an object in `Printable`. So the property fails
for every such tree with a quotation mark in a string or key, a backslash in a string, an integer that is not of 64 bits,
two members with one key in an object, or a floating point number that is not printed with an exponent or is not read back
as itself, wherever it is in the tree, and for every tree that is no object. -/
theorem C52_exact_partial (ops : FloatOps F) (j : Json F) (h : Written ops Ascii j) (pretty : Bool) (indent : Nat) (text : Str)
    (ht : j.toString ops pretty indent = .ok text) (hlen : text.length < npos) :
    document ops text = .ok (j, .noError) ↔ (∃ ms, j = .obj ms) ∧ Printable ops true j := by
  refine ⟨fun hd => ?_, fun ⟨⟨ms, e⟩, hp⟩ => by subst e; exact C52_partial ops true ms pretty indent hp text ht hlen⟩
  have hall : Ascii (output ops pretty indent indent j) := fun c hc =>
    written_all (P := fun c => ∃ b : UInt8, 0x01 ≤ b ∧ b ≤ 0x7F ∧ c = chr b) (fun b h1 h2 => ⟨b, h1, h2, rfl⟩) (fun _ hs => hs)
      h pretty indent indent c hc
  have hprint : j.toString ops pretty indent = .ok (output ops pretty indent indent j) :=
    Str.ofStdString_str _ fun c hc => by obtain ⟨b, h1, h2, rfl⟩ := hall c hc; exact .one b h1 h2
  rw [hprint] at ht
  injection ht with ht
  subst ht
  have hu := C59_parse ops _ j _ hd
  rw [C56_ascii_partial ops _ hall hlen] at hd
  refine ⟨?_, printable_of_read (fun _ h => h) h hu hd⟩
  obtain ⟨_, _, _, ms, _, _, _, e, _⟩ := hd
  exact ⟨ms, e⟩

/-- So a single quotation mark or backslash anywhere loses the document: here in a string of any array of any object. -/
theorem C52_bad_string_fails (ops : FloatOps F) (key s : Str) (js : List (Json F)) (hj : .str s ∈ js)
    (hs : chr 0x22 ∈ s ∨ chr 0x5C ∈ s) (h : Written ops Ascii (.obj [(key, .arr js)])) (pretty : Bool) (indent : Nat) (text : Str)
    (ht : (Json.obj [(key, .arr js)]).toString ops pretty indent = .ok text) (hlen : text.length < npos) :
    document ops text ≠ .ok (.obj [(key, .arr js)], .noError) := by
  rw [ne_eq, C52_exact_partial ops _ h pretty indent text ht hlen]
  rintro ⟨_, hp⟩
  cases hp with
  | obj _ _ _ hp =>
    cases hp _ (.head _) with
    | arr _ hp =>
      cases hp _ hj with
      | str _ hq hb => exact hs.elim hq.2.1 hb

example : Written oneFloat Ascii (.obj [(c!"a", .arr [.str c!"\\"])]) ∧
    ¬ Printable oneFloat true (.obj [(c!"a", .arr [.str c!"\\"])]) := by
  refine ⟨.obj _ ?_ ?_, ?_⟩
  · intro m hm c hc
    rw [List.mem_singleton.mp hm] at hc
    exact ⟨0x61, by decide, by decide, List.mem_singleton.mp hc⟩
  · intro m hm
    rw [List.mem_singleton.mp hm]
    refine .arr _ fun j hj => ?_
    rw [List.mem_singleton.mp hj]
    exact .str _ fun c hc => ⟨0x5C, by decide, by decide, List.mem_singleton.mp hc⟩
  · intro hp
    cases hp with
    | obj _ _ _ hp =>
      cases hp _ (.head _) with
      | arr _ hp =>
        cases hp _ (.head _) with
        | str _ _ hb => exact hb (by decide)

/-- C52 fails: a string with a quotation mark, a backslash or a line feed written as an escape, a key with a quotation
mark, and `true` after a character that is not ASCII. -/
theorem C52_fails :
    (∃ text, (Json.obj [(c!"a", .str c!"\"")] : Json Unit).toString oneFloat false 2 = .ok text ∧
      document oneFloat text = .ok (.null, .unexpectedCharacter)) ∧
    (∃ text, (Json.obj [(c!"a", .str c!"\\n")] : Json Unit).toString oneFloat false 2 = .ok text ∧
      document oneFloat text = .error .ub) ∧
    (∃ text, (Json.obj [(c!"a\"", .int 1)] : Json Unit).toString oneFloat false 2 = .ok text ∧
      document oneFloat text = .ok (.null, .missingColon)) ∧
    (∃ text, (Json.obj [(c!"é", .bool true)] : Json Unit).toString oneFloat false 2 = .ok text ∧
      document oneFloat text = .ok (.null, .unexpectedCharacter)) :=
  ⟨⟨_, rfl, rfl⟩, ⟨_, rfl, rfl⟩, ⟨_, rfl, rfl⟩, ⟨_, rfl, rfl⟩⟩

/-- C52 fails for every floating point number printed as a plain decimal: it comes back as an integer. -/
theorem C52_fails_float (ops : FloatOps F) (key lit frac : Str) (i : Int) (f : F) (hk : chr 0x22 ∉ key)
    (hks : Shapes key) (h : IntLit lit i) (h1 : -(2 ^ 63) ≤ i) (h2 : i < 2 ^ 63) (hf : ∀ c ∈ frac, Digit c)
    (hp : (ops.print f).map chr = lit ++ chr 0x2E :: frac) (text : Str)
    (ht : (Json.obj [(key, .float f)]).toString ops false 2 = .ok text) (hlen : text.length < npos) :
    document ops text = .ok (.obj [(key, .int i)], .noError) := by
  have hout : output ops false 2 2 (.obj [(key, .float f)]) = single key (lit ++ chr 0x2E :: frac) := by
    simp only [output, outputMember, outputMembers, whenPretty]
    rw [show (ops.print f).map Chr.ofByte = _ from hp]
    simp [single]
  have hdig : ∀ {s : Str}, (∀ c ∈ s, Digit c) → Shapes s := by
    intro s hs c hc
    obtain ⟨b, h1, h2, rfl⟩ := digit_ascii (hs c hc)
    exact .one b h1 h2
  have hlit : Shapes lit := by
    cases h with
    | nonneg ds _ hd => exact hdig hd
    | neg ds _ hd => exact .cons (.one 0x2D (by decide) (by decide)) (hdig hd)
  have hsh : Shapes (single key (lit ++ chr 0x2E :: frac)) := by
    refine .append (.append (.append (.append ?_ hks) ?_) (.append hlit (.cons (.one 0x2E (by decide) (by decide)) (hdig hf)))) ?_
    · exact .cons (.one _ (by decide) (by decide)) (.cons (.one _ (by decide) (by decide)) .nil)
    · exact .cons (.one _ (by decide) (by decide)) (.cons (.one _ (by decide) (by decide)) .nil)
    · exact .cons (.one _ (by decide) (by decide)) .nil
  unfold Json.toString at ht
  rw [hout, Str.ofStdString_str _ hsh] at ht
  injection ht with ht
  subst ht
  exact C58_fails_fraction ops key lit frac i hk hlen h h1 h2 hf

example : Printable oneFloat true (.obj [(c!"a", .arr [.int (-3), .bool true, .str c!"xy"]), (c!"b", .obj [])]) := by
  have hq : ∀ b : UInt8, 0x01 ≤ b → b ≤ 0x7F → b ≠ 0x22 → Quotable true [chr b] := by
    intro b h1 h2 h3
    refine ⟨?_, ?_, ?_⟩
    · intro c hc; rw [List.mem_singleton.mp hc]; exact .one b h1 h2
    · intro h; exact h3 (chr_inj (List.mem_singleton.mp h)).symm
    · intro _ c hc; rw [List.mem_singleton.mp hc]; exact ⟨b, h1, h2, rfl⟩
  refine .obj _ (by decide) ?_ ?_
  · intro m hm
    simp only [List.mem_cons, List.not_mem_nil, or_false] at hm
    rcases hm with rfl | rfl
    · exact hq 0x61 (by decide) (by decide) (by decide)
    · exact hq 0x62 (by decide) (by decide) (by decide)
  · intro m hm
    simp only [List.mem_cons, List.not_mem_nil, or_false] at hm
    rcases hm with rfl | rfl
    · refine .arr _ ?_
      intro j hj
      simp only [List.mem_cons, List.not_mem_nil, or_false] at hj
      rcases hj with rfl | rfl | rfl
      · exact .int _ (by decide) (by decide)
      · exact .bool _ rfl
      · refine .str _ ⟨?_, by decide, ?_⟩ (by decide)
        · exact Shapes.cons (.one _ (by decide) (by decide)) (.cons (.one _ (by decide) (by decide)) .nil)
        · intro _ c hc
          simp only [List.mem_cons, List.not_mem_nil, or_false] at hc
          rcases hc with rfl | rfl
          · exact ⟨0x78, by decide, by decide, rfl⟩
          · exact ⟨0x79, by decide, by decide, rfl⟩
    · exact .obj [] (by simp) (by simp) (by simp)

example : (Json.obj [(c!"a", .arr [.int (-3), .bool true]), (c!"b", .obj [])] : Json Unit).toString oneFloat true 1 =
    .ok c!"{\n \"a\": [\n  -3,\n  true\n ],\n \"b\": { }\n}" := rfl

end Caitlyn
