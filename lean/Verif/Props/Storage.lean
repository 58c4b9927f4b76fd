import Verif.Proofs.Storage
import Verif.Props.Console
import Verif.Props.BigInt
import Verif.Props.BigFloat
import Verif.Props.JsonDoc

/-!
# Property C125: values saved in a file, one per line, and loaded again

A combination of the printing and reading of values with `File` and the console.
-/

namespace Caitlyn
open Caitlyn.Spec BigInt BigFloat

/-- Saved and loaded: a `File` object writes the texts with `WriteLine` to an empty file and closes it; another object
reads as many lines and gets the texts. -/
def Spec.Kept (texts : List Str) : Prop :=
  ∃ w r, File.create (some []) = (.ok (), w) ∧
    (File.run w (texts.map .writeLine ++ [.close])).1 = List.replicate (texts.length + 1) (.ok .unit) ∧
    File.create (File.run w (texts.map .writeLine ++ [.close])).2.disk = (.ok (), r) ∧
    (File.run r (List.replicate texts.length (.readLine 0x0A))).1 = texts.map fun t => .ok (.str t)

/-- Written to a console and read from it by another program. -/
def Spec.Piped (texts : List Str) : Prop :=
  (Console.readLines texts.length (texts.foldl Console.writeLine [])).1 = texts.map .ok

/-- C125. Lines are kept. -/
theorem C125_lines (texts : List Str) (h : ∀ t ∈ texts, Spec.IsLine t) : Kept texts ∧ Piped texts := by
  refine ⟨?_, C77_write_read texts fun t ht c hc => ⟨(h t ht c hc).1, fun he => (h t ht c hc).2 (by rw [he])⟩⟩
  have hw := written_disk texts 0 0 []
  obtain ⟨r, h1, h2⟩ := C73_round_trip texts [] [] rfl h (by simp) 0
  refine ⟨_, r, File.create_ready _, hw.1, ?_, ?_⟩
  · rw [hw.2, List.nil_append]; exact h1
  · simpa using h2

variable {F : Type}

theorem doc_line (ops : FloatOps F) (lits : Bool) (j : Json F) (h : Printable ops lits j) (h1 : OneLine j) (n : Nat) :
    Spec.IsLine (Json.output ops false n n j) := fun c hc =>
  ⟨output_all (P := fun c => Shape c.data) (fun b h1 h2 => .one b h1 h2) (fun _ hs => hs.1) h _ _ _ c hc,
    fun hd => output_oneLine h h1 n n (by rw [← show c = chr 0x0A by cases c; simpa [chr] using hd]; exact hc)⟩

/-- C125 for JSON documents that survive printing (`Printable`, see C52) and whose strings and keys have no line feed: saved
in the compact form, one per line, and loaded with `ReadLine` and `Parse`, they are the same documents in the same
order, without error. Missing: what is missing in C52, and line feeds in strings. -/
theorem C125_json_partial (ops : FloatOps F) (lits : Bool) (n : Nat) (docs : List (List (Str × Json F)))
    (h : ∀ d ∈ docs, Printable ops lits (.obj d) ∧ OneLine (.obj d))
    (hlen : ∀ d ∈ docs, ∀ t, (Json.obj d).toString ops false n = .ok t → t.length < npos) (into : JsonDoc F) :
    ∃ texts, docs.map (fun d => (Json.obj d).toString ops false n) = texts.map .ok ∧ Kept texts ∧ Piped texts ∧
      texts.map (fun t => JsonDoc.parse ops t into) = docs.map fun d => .ok ⟨.obj d, .noError⟩ := by
  have hp : ∀ d ∈ docs, (Json.obj d).toString ops false n = .ok (Json.output ops false n n (.obj d)) := fun d hd =>
    C52_prints ops lits _ (h d hd).1 _ _
  refine ⟨docs.map fun d => Json.output ops false n n (.obj d), ?_, ?_⟩
  · rw [List.map_map]
    exact List.map_congr_left hp
  · have hl := C125_lines (docs.map fun d => Json.output ops false n n (.obj d)) (by
      intro t ht
      obtain ⟨d, hd, rfl⟩ := List.mem_map.mp ht
      exact doc_line ops lits _ (h d hd).1 (h d hd).2 n)
    refine ⟨hl.1, hl.2, ?_⟩
    rw [List.map_map]
    apply List.map_congr_left
    intro d hd
    have := C52_partial ops lits d false n (h d hd).1 _ (hp d hd) (hlen d hd _ (hp d hd))
    simp only [Function.comp, JsonDoc.parse, this]
    rfl

/-- The document in the example: what a program may keep. -/
example : ∃ texts : List Str, Kept texts ∧
    texts.map (fun t => JsonDoc.parse oneFloat t ⟨.null, .noError⟩) =
      [.ok ⟨.obj [(c!"name", .str c!"Ann"), (c!"ok", .bool true)], .noError⟩, .ok ⟨.obj [(c!"n", .int (-7))], .noError⟩] := by
  have h := C125_json_partial (F := Unit) oneFloat true 2 [[(c!"name", .str c!"Ann"), (c!"ok", .bool true)], [(c!"n", .int (-7))]]
    (by
      intro d hd
      have asc : ∀ s : Str, (s.all fun c => c.data.length == 1 && c.data.all fun b => 0x01 ≤ b ∧ b ≤ 0x7F) = true →
          ∀ c ∈ s, ∃ b : UInt8, 0x01 ≤ b ∧ b ≤ 0x7F ∧ c = chr b := by
        intro s hs c hc
        have := List.all_eq_true.mp hs c hc
        obtain ⟨d⟩ := c
        match d with
        | [] => simp at this
        | [b] => exact ⟨b, by simp at this; exact this.1, by simp at this; exact this.2, rfl⟩
        | _ :: _ :: _ => simp at this
      have q : ∀ s : Str, (s.all fun c => c.data.length == 1 && c.data.all fun b => 0x01 ≤ b ∧ b ≤ 0x7F) = true →
          chr 0x22 ∉ s → Quotable true s := fun s hs hq =>
        ⟨fun c hc => by obtain ⟨b, h1, h2, rfl⟩ := asc s hs c hc; exact .one b h1 h2, hq, fun _ => asc s hs⟩
      rcases List.mem_cons.mp hd with rfl | hd
      · refine ⟨.obj _ (by decide) ?_ ?_, .obj _ (by decide) ?_⟩ <;> intro m hm <;>
          simp only [List.mem_cons, List.not_mem_nil, or_false] at hm <;> rcases hm with rfl | rfl
        · exact q _ (by decide) (by decide)
        · exact q _ (by decide) (by decide)
        · exact .str _ (q _ (by decide) (by decide)) (by decide)
        · exact .bool _ rfl
        · exact .str _ (by decide)
        · exact .bool _
      · rw [List.mem_singleton.mp hd]
        refine ⟨.obj _ (by decide) ?_ ?_, .obj _ (by decide) ?_⟩ <;> intro m hm <;> rw [List.mem_singleton.mp hm]
        · exact q _ (by decide) (by decide)
        · exact .int _ (by decide) (by decide)
        · exact .int _)
    (by
      intro d hd t ht
      rcases List.mem_cons.mp hd with rfl | hd
      · cases ht; decide +kernel
      · rw [List.mem_singleton.mp hd] at ht; cases ht; decide +kernel)
    ⟨.null, .noError⟩
  obtain ⟨texts, _, h2, _, h4⟩ := h
  exact ⟨texts, h2, h4⟩

theorem txt_line (cs : List Char) (h : ∀ c ∈ cs, DigitChar c) : Spec.IsLine (txt cs) := by
  intro c hc
  obtain ⟨d, hd, rfl⟩ := List.mem_map.mp hc
  refine ⟨asc_shape d (h d hd), fun he => ?_⟩
  have := (h d hd).1
  have h2 := (h d hd).2
  have he : UInt8.ofNat d.toNat = 0x0A := by
    simp only [asc, Chr.ofByte] at he
    injection he
  have he := congrArg UInt8.toNat he
  simp only [UInt8.toNat_ofNat'] at he
  have : d.toNat % 2 ^ 8 = d.toNat := Nat.mod_eq_of_lt (by omega)
  rw [this] at he
  have he : d.toNat = 10 := he
  omega

theorem line_append {a b : Str} (ha : Spec.IsLine a) (hb : Spec.IsLine b) : Spec.IsLine (a ++ b) := fun c hc =>
  (List.mem_append.mp hc).elim (ha c) (hb c)

theorem line_one (b : UInt8) (h1 : 0x01 ≤ b) (h2 : b ≤ 0x7F) (h3 : b ≠ 0x0A) : Spec.IsLine [⟨[b]⟩] := by
  intro c hc
  rw [List.mem_singleton.mp hc]
  exact ⟨.one b h1 h2, by intro h; exact h3 (List.head_eq_of_cons_eq h)⟩

theorem decimal_line (z : Int) : Spec.IsLine (decimal z) := by
  rw [BigFloat.decimal_digits]
  refine line_append ?_ (txt_line _ (toDigits_digitChar _))
  split
  · exact line_one _ (by decide) (by decide) (by decide)
  · intro c hc; cases hc

/-- C125 for `BigInteger`: every list of numbers of any size is saved and loaded. -/
theorem C125_integers (zs : List Int) :
    Kept (zs.map fun z => BigInt.toString (big z)) ∧ Piped (zs.map fun z => BigInt.toString (big z)) ∧
    (zs.map fun z => BigInt.toString (big z)).map BigInt.parse = zs.map fun z => .ok (big z) := by
  have h := C125_lines (zs.map fun z => BigInt.toString (big z)) (by
    intro t ht
    obtain ⟨z, _, rfl⟩ := List.mem_map.mp ht
    rw [toString_big]
    exact decimal_line z)
  refine ⟨h.1, h.2, ?_⟩
  rw [List.map_map]
  apply List.map_congr_left
  intro z _
  simp only [Function.comp, (C36_round_trip z).2, (C36_round_trip z).1]

theorem float_back (i : Int) (f : Nat) (h : width i.natAbs + width f < 2 ^ 59) :
    BigFloat.parse (BigFloat.toString (flo i f)) = .ok (flo i f) := by
  have hd := toDigits_digitChar i.natAbs
  have hn : Nat.toDigits 10 i.natAbs ≠ [] := Nat.toDigits_ne_nil
  have hs : signed (decide (i < 0)) (num (Nat.toDigits 10 i.natAbs)) = i := by
    rw [num_toDigits]
    unfold signed
    by_cases hi : i < 0
    · simp only [hi, decide_true, if_true]; omega
    · simp only [hi, decide_false, Bool.false_eq_true, if_false]; omega
  have he : decimal i = (if decide (i < 0) = true then [asc '-'] else []) ++ txt (Nat.toDigits 10 i.natAbs) := by
    rw [decimal_digits]
    by_cases hi : i < 0 <;> simp [hi]
  rw [toString_flo]
  by_cases hf : f = 0
  · subst hf
    rw [if_pos rfl]
    have := parse_numeral_int (decide (i < 0)) _ hn hd
    rw [hs] at this
    rw [he]
    simpa [BigFloat.numeral] using this
  · rw [if_neg hf]
    have hd2 := toDigits_digitChar f
    have := parse_numeral_point (decide (i < 0)) _ (Nat.toDigits 10 f) hn hd hd2 (by
      rw [toDigits_length, toDigits_length]
      omega)
    rw [hs, num_toDigits] at this
    rw [he, decimal_nat]
    simpa [BigFloat.numeral, txt] using this

/-- C125 for `BigFloat`: every list of the values `i.f` (below 2^59 digits) is saved and loaded, the same objects and not only the
same values. That `BigFloat` drops zeros behind the point when it is made (C48) is no loss here: it happened before. -/
theorem C125_floats (xs : List (Int × Nat)) (h : ∀ x ∈ xs, width x.1.natAbs + width x.2 < 2 ^ 59) :
    Kept (xs.map fun x => BigFloat.toString (flo x.1 x.2)) ∧ Piped (xs.map fun x => BigFloat.toString (flo x.1 x.2)) ∧
    (xs.map fun x => BigFloat.toString (flo x.1 x.2)).map BigFloat.parse = xs.map fun x => .ok (flo x.1 x.2) := by
  have h' := C125_lines (xs.map fun x => BigFloat.toString (flo x.1 x.2)) (by
    intro t ht
    obtain ⟨x, _, rfl⟩ := List.mem_map.mp ht
    rw [toString_flo]
    split
    · exact decimal_line _
    · exact line_append (decimal_line _)
        (line_append (line_one 0x2E (by decide) (by decide) (by decide)) (decimal_line _)))
  refine ⟨h'.1, h'.2, ?_⟩
  rw [List.map_map]
  exact List.map_congr_left fun x hx => float_back x.1 x.2 (h x hx)

example : Kept [c!"12345678901234567890", c!"-3"] := by
  have := (C125_integers [12345678901234567890, -3]).1
  rw [show ([12345678901234567890, -3] : List Int).map (fun z => BigInt.toString (big z)) =
    [c!"12345678901234567890", c!"-3"] by decide +kernel] at this
  exact this

example : Kept [c!"-3.25", c!"7"] := by
  have := (C125_floats [(-3, 25), (7, 0)] (by
    intro x hx
    simp only [List.mem_cons, List.not_mem_nil, or_false] at hx
    rcases hx with rfl | rfl <;> decide +kernel)).1
  rw [show ([(-3, 25), (7, 0)] : List (Int × Nat)).map (fun x => BigFloat.toString (flo x.1 x.2)) =
    [c!"-3.25", c!"7"] by decide +kernel] at this
  exact this

/-! ## Where it fails -/

theorem content_text (texts : List Str) :
    texts.flatMap File.line = Str.str (texts.flatMap fun t => t ++ [⟨[0x0A]⟩]) := by
  induction texts with
  | nil => rfl
  | cons t ts ih =>
    rw [List.flatMap_cons, List.flatMap_cons, ih]
    simp only [File.line, Str.str, List.flatMap_append]
    congr 1

/-- C125 is false for `Read`: with any lines in the file, a program that loads the whole file and not line by line has
undefined behaviour. -/
theorem C125_read_fails (texts : List Str) (h : ∀ t ∈ texts, Spec.IsLine t) :
    ∃ w r, File.create (some []) = (.ok (), w) ∧
      File.create (File.run w (texts.map .writeLine ++ [.close])).2.disk = (.ok (), r) ∧
      (File.readAll r).1 = .error .ub := by
  have hw := (written_disk texts 0 0 []).2
  refine ⟨_, File.ready 0 0 (texts.flatMap File.line), File.create_ready _, ?_, ?_⟩
  · rw [hw]; exact File.create_ready _
  · rw [content_text]
    apply C76_text_fails
    intro c hc
    obtain ⟨t, ht, hc⟩ := List.mem_flatMap.mp hc
    rcases List.mem_append.mp hc with hc | hc
    · exact (h t ht c hc).1
    · rw [List.mem_singleton.mp hc]; exact .one _ (by decide) (by decide)

/-- C125 is false for the pretty form: of a document with members, `ReadLine` returns the opening bracket only, and parsing it reads
behind the end of the text. -/
theorem C125_pretty_fails (ops : FloatOps F) (lits : Bool) (n : Nat) (m : Str × Json F) (ms : List (Str × Json F))
    (h : Printable ops lits (.obj (m :: ms))) (into : JsonDoc F) :
    ∃ text w r, (Json.obj (m :: ms)).toString ops true n = .ok text ∧ File.create (some []) = (.ok (), w) ∧
      File.create (File.run w [.writeLine text, .close]).2.disk = (.ok (), r) ∧
      (File.run r [.readLine 0x0A]).1 = [.ok (.str c!"{")] ∧
      JsonDoc.parse ops c!"{" into = .error .ub := by
  refine ⟨_, _, File.ready 0 0 ([Json.output ops true n n (.obj (m :: ms))].flatMap File.line),
    C52_prints ops lits _ h _ _, File.create_ready _, ?_, ?_, rfl⟩
  · have := (written_disk [Json.output ops true n n (.obj (m :: ms))] 0 0 []).2
    exact (congrArg File.create this).trans (File.create_ready _)
  · have : ∃ rest, [Json.output ops true n n (.obj (m :: ms))].flatMap File.line = [0x7B] ++ 0x0A :: rest := by
      rw [Json.output]
      exact ⟨_, rfl⟩
    obtain ⟨rest, hr⟩ := this
    simp only [File.run, File.step]
    rw [hr]
    have := File.readLine_found 0x0A 0 0 ([0x7B] ++ 0x0A :: rest) [0x7B] rest rfl (by decide)
    simp only [Int.natCast_zero] at this
    rw [this]
    rfl

end Caitlyn
