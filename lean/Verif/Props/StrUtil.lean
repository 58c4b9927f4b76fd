import Verif.Proofs.StrUtil
import Verif.Proofs.Resolve
import Verif.Proofs.Kmp

/-!
# Properties C22-C27: search, split, repeat, escapes, spaces, string builder
-/

namespace Caitlyn
open Caitlyn.Spec

/-! ## C22 -/

/-- C22. For every non-empty pattern and every text, `kmp` returns (no access out of bounds, all loops
end) and says whether the pattern occurs in the text. The size hypothesis holds for every
`std::string`. -/
theorem C22_decides_substring (pattern text : List UInt8) (hp : pattern.length < npos) (hne : pattern ≠ []) :
    ∃ b, Kmp.kmp pattern text = .ok b ∧ (b = true ↔ Occurs pattern text) := by
  obtain ⟨b, h1, h2⟩ := Kmp.kmp_spec pattern text hp hne
  exact ⟨b, h1, h2.trans (occurs_iff_infix _ _).symm⟩

/-- C22, the empty pattern: the answer for an empty text is false, for a text that begins with a non-NUL
byte true; a text that begins with two NUL bytes makes it read past the end. -/
theorem C22_empty_pattern (c : UInt8) (text : List UInt8) (hc : c ≠ 0) :
    Kmp.kmp [] [] = .ok false ∧ Kmp.kmp [] (c :: text) = .ok true ∧
    Kmp.kmp [] [0] = .ok false ∧ Kmp.kmp [] [0, 0] = .error .ub := by
  refine ⟨by decide, ?_, by decide, by decide⟩
  have h : ¬ (0 : UInt8) = c := fun h => hc h.symm
  have e : Kmp.failureVec [] = .ok [npos] := by decide
  simp only [Kmp.kmp, e, bind, Except.bind, Kmp.searchLoop, List.length_nil]
  simp [Kmp.back, Kmp.strAt, h, npos, vecGet, bind, Except.bind, wadd, twoPow64, pure, Except.pure]

example : Kmp.kmp b!"aabaaa" b!"aabaabaaab" = .ok true ∧ Kmp.kmp b!"abab" b!"abaabba" = .ok false := by
  decide

/-! ## C23 -/

/-- C23. No piece of a split text contains the separator; joining the pieces with it gives the text
back, up to one separator at its end. -/
theorem C23_split_join (text : List UInt8) (delim : UInt8) :
    (∀ p ∈ StrUtil.split text delim, delim ∉ p) ∧
    (if text.getLast? = some delim then text = [delim].intercalate (StrUtil.split text delim) ++ [delim]
      else text = [delim].intercalate (StrUtil.split text delim)) :=
  StrUtil.getlines_spec delim text.length text (Nat.le_refl _)

example : StrUtil.split b!"a,,b,c," 0x2C = [b!"a", [], b!"b", b!"c"] ∧ StrUtil.split [] 0x2C = [] ∧
    StrUtil.split b!"," 0x2C = [[]] := by decide

/-! ## C24 -/

/-- C24. Partial: for n >= 1, `Repeat(s, n)` is n copies. Missing: n = 0 (`C24_fails`). -/
theorem C24_repeat_partial (s : List UInt8) (n : Nat) (h : 1 ≤ n) :
    StrUtil.repeatStr s n = (List.replicate n s).flatten := by
  unfold StrUtil.repeatStr
  split
  · have : n = 1 := by omega
    subst this; simp [List.replicate]
  · rfl

/-- C24 is false as stated: zero repetitions of a text give the text, whenever it is not
empty. -/
theorem C24_fails (s : List UInt8) (h : s ≠ []) :
    StrUtil.repeatStr s 0 = s ∧ StrUtil.repeatStr s 0 ≠ (List.replicate 0 s).flatten := by
  refine ⟨rfl, ?_⟩
  simpa [StrUtil.repeatStr] using h

example : StrUtil.repeatStr b!"ab" 3 = b!"ababab" := by decide

/-! ## C25 -/

/-- C25. Partial: a text made of ordinary characters, letter escapes and `\u` escapes of ASCII characters
is decoded to what it denotes. Missing: `\u` escapes from 0x80 on (cut to one byte) and
unknown escapes (`C25_fails`). -/
theorem C25_decodes_partial (items : List EscItem)
    (h : ∀ i ∈ items, match i with
      | .plain c => c ≠ ⟨b!"\\"⟩ ∧ Shape c.data
      | .letter l => (letterMeaning.lookup l).isSome
      | .unicode a b c d => ∃ n, EscItem.codeUnit a b c d = some n ∧ 0 < n ∧ n < 128) :
    StrUtil.escapeString (items.flatMap EscItem.written) = .ok (items.flatMap EscItem.denotes) := by
  apply StrUtil.escapeString_items
  intro i hi
  have := h i hi
  cases i <;> exact this

/-- C25. A text without backslashes is unchanged. -/
theorem C25_no_escapes (s : Str) (h : ∀ c ∈ s, c ≠ ⟨b!"\\"⟩ ∧ Shape c.data) :
    StrUtil.escapeString s = .ok s := by
  have := C25_decodes_partial (s.map .plain) (by
    intro i hi
    obtain ⟨c, hc, rfl⟩ := List.mem_map.mp hi
    exact h c hc)
  have e1 : (s.map EscItem.plain).flatMap EscItem.written = s := by
    rw [List.flatMap_map]; exact List.flatMap_singleton' s
  have e2 : (s.map EscItem.plain).flatMap EscItem.denotes = s := by
    rw [List.flatMap_map]; exact List.flatMap_singleton' s
  rw [e1, e2] at this
  exact this

/-- C25: on every text `EscapeString` makes a string of the bytes that reading from left to right gives (Spec/Resolve.lean, which
covers unknown escapes too); and where `\u` is followed by four characters that do not start with a number, the exception of
`std::stoi` leaves it. -/
theorem C25_exact (s : Str) (hs : ∀ c ∈ s, Shape c.data) :
    (∃ bs, Resolves s bs ∧ StrUtil.escapeString s = Str.ofStdString bs) ∨
    (∀ bs, ¬ Resolves s bs) ∧ StrUtil.escapeString s = .error .invalidArgument := by
  unfold StrUtil.escapeString
  rcases StrUtil.escapeLoop_exact (s.length + 1) s (by omega) hs with ⟨bs, h1, h2⟩ | ⟨h1, h2⟩
  · exact .inl ⟨bs, h1, by rw [h2]; rfl⟩
  · exact .inr ⟨h1, by rw [h2]; rfl⟩

/-- C25: the bytes are determined by the text. -/
theorem C25_one_reading (s : Str) (a b : List UInt8) (ha : Resolves s a) (hb : Resolves s b) :
    a = b := StrUtil.resolves_unique ha hb

example : Resolves c!"a\\q\\" b!"a\\qq\\" :=
  .plain _ _ b!"\\qq\\" (by decide) (.unknown _ _ b!"q\\" (by decide) (by decide) (.plain _ _ b!"\\" (by decide) .last))

/-- C25 is false as stated: the four characters behind `\u` need not be digits. A sign, spaces, a prefix `0x` and letters that
are no digits are taken as well. -/
theorem C25_four_digits_fails :
    StrUtil.escapeString c!"\\u 41z" = .ok c!"A" ∧ StrUtil.escapeString c!"\\u0x41" = .ok c!"A" ∧
    StrUtil.escapeString c!"\\u+041" = .ok c!"A" ∧ StrUtil.escapeString c!"\\u-0BF" = .ok c!"A" ∧
    StrUtil.escapeString c!"\\u0041" = .ok c!"A" ∧ StrUtil.escapeString c!"\\uwxyz" = .error .invalidArgument := by
  decide +kernel

/-- C25 is false as stated: the euro sign's escape is an error, and the letter of an unknown escape
comes out twice. -/
theorem C25_fails : StrUtil.escapeString c!"\\u20AC" = .error .runtimeError ∧
    StrUtil.escapeString c!"\\q" = .ok c!"\\qq" := by decide +kernel

example : StrUtil.escapeString c!"a\\n\\u0041\\\\é" = .ok c!"a\nA\\é" := by decide +kernel
example : (letterMeaning.lookup ⟨b!"n"⟩).isSome ∧ EscItem.codeUnit 0x30 0x30 0x34 0x31 = some 0x41 := by
  decide

/-! ## C26 -/

/-- The character at index `i` of `s` is not a space (by `IsSpace`). -/
def NonSpaceAt (s : Str) (i : Nat) : Prop :=
  ∃ c cp, s[i]? = some c ∧ c.getCodePoint = .ok cp ∧ CharUtil.isSpace cp = false

/-- C26. `FindFirstNonSpace` returns the least index of a non-space character, or the size. -/
theorem C26_first (s : Str) (h : ∀ c ∈ s, ∃ cp, c.getCodePoint = .ok cp) :
    ∃ k, StrUtil.findFirstNonSpace s = .ok k ∧ (∀ j, j < k → ¬ NonSpaceAt s j) ∧
      (NonSpaceAt s k ∨ k = s.length) := by
  obtain ⟨k, h1, h2, h3, h4⟩ := StrUtil.firstNonSpace_spec s 0 h
  refine ⟨k, by rw [StrUtil.findFirstNonSpace, h1]; simp, ?_, ?_⟩
  · rintro j hj ⟨c, cp, e1, e2, e3⟩
    obtain ⟨c', cp', f1, f2, f3⟩ := h3 j hj
    rw [f1] at e1; injection e1 with e1; subst e1
    rw [f2] at e2; injection e2 with e2; subst e2
    simp [f3] at e3
  · by_cases hk : k < s.length
    · exact .inl (h4 hk)
    · exact .inr (by omega)

/-- C26. Partial: for a non-empty string `FindLastNonSpace` returns the greatest index of a non-space
character if that index is positive, otherwise the size. Missing: a string whose only
non-space character is the first, and the empty string (`C26_fails`). -/
theorem C26_last_partial (s : Str) (hne : s ≠ []) (h : ∀ c ∈ s, ∃ cp, c.getCodePoint = .ok cp) :
    ∃ k, StrUtil.findLastNonSpace s = .ok k ∧
      ((0 < k ∧ NonSpaceAt s k ∧ ∀ j, k < j → ¬ NonSpaceAt s j) ∨
       (k = s.length ∧ ∀ j, 0 < j → ¬ NonSpaceAt s j)) := by
  have hpos : 0 < s.length := List.length_pos_iff.mpr hne
  obtain ⟨k, h1, h2⟩ := StrUtil.lastNonSpace_spec s h (s.length - 1) (by omega)
  have no : ∀ j, (∃ c cp, s[j]? = some c ∧ c.getCodePoint = .ok cp ∧ CharUtil.isSpace cp = true) →
      ¬ NonSpaceAt s j := by
    rintro j ⟨c', cp', f1, f2, f3⟩ ⟨c, cp, e1, e2, e3⟩
    rw [f1] at e1; injection e1 with e1; subst e1
    rw [f2] at e2; injection e2 with e2; subst e2
    simp [f3] at e3
  have out : ∀ j, s.length ≤ j → ¬ NonSpaceAt s j := by
    rintro j hj ⟨c, cp, e1, _⟩
    rw [List.getElem?_eq_none hj] at e1; cases e1
  refine ⟨k, by unfold StrUtil.findLastNonSpace; rw [if_neg (by omega), h1], ?_⟩
  rcases h2 with ⟨a, b, c, d⟩ | ⟨a, b⟩
  · refine .inl ⟨a, c, fun j hj => ?_⟩
    by_cases hl : s.length ≤ j
    · exact out j hl
    · exact no j (d j hj (by omega))
  · refine .inr ⟨a, fun j hj => ?_⟩
    by_cases hl : s.length ≤ j
    · exact out j hl
    · exact no j (b j hj (by omega))

/-- C26 is false as stated for `FindLastNonSpace`: it misses index 0 and reads out of bounds on the
empty string. -/
theorem C26_fails : StrUtil.findLastNonSpace c!"a  " = .ok 3 ∧ NonSpaceAt c!"a  " 0 ∧
    StrUtil.findLastNonSpace [] = .error .ub :=
  ⟨by decide +kernel, ⟨⟨b!"a"⟩, 0x61, rfl, by decide, by decide +kernel⟩, by decide⟩

example : StrUtil.findFirstNonSpace c!"  ab " = .ok 2 ∧ StrUtil.findLastNonSpace c!"  ab " = .ok 3 := by
  decide +kernel

/-! ## C27 -/

/-- How a builder came to be: every builder of a program is described by such a history. -/
inductive History where
  | new
  | ofStr (s : Str)
  | append (h : History) (s : Str)
  | appendLine (h : History) (s : Str)
  | move (h : History)
  | copy (h : History)

namespace History

/-- The builder after the history. -/
def run : History → Builder
  | new => Builder.default
  | ofStr s => Builder.ofStr s
  | append h s => Builder.append h.run s
  | appendLine h s => Builder.appendLine h.run s
  | move h => Builder.move h.run
  | copy h => Builder.copy h.run

/-- The concatenation of what was appended. -/
def text : History → Str
  | new => []
  | ofStr s => s
  | append h s => h.text ++ s
  | appendLine h s => h.text ++ s ++ c!"\n"
  | move h => h.text
  | copy h => h.text

/-- All strings involved are sequences of non-NUL characters. -/
def Clean : History → Prop
  | new => True
  | ofStr s => ∀ c ∈ s, Shape c.data
  | append h s => h.Clean ∧ ∀ c ∈ s, Shape c.data
  | appendLine h s => h.Clean ∧ ∀ c ∈ s, Shape c.data
  | move h => h.Clean
  | copy h => h.Clean

/-- No copying at all. -/
def NoCopy : History → Prop
  | new => True
  | ofStr _ => True
  | append h _ => h.NoCopy
  | appendLine h _ => h.NoCopy
  | move h => h.NoCopy
  | copy _ => False

/-- Nothing was appended to a copied builder (or to one moved from a copied one). -/
def NoAppendToCopy : History → Prop
  | new => True
  | ofStr _ => True
  | append h _ => h.NoCopy
  | appendLine h _ => h.NoCopy
  | move h => h.NoAppendToCopy
  | copy h => h.NoAppendToCopy

end History

theorem OStr.write_end (b : List UInt8) (s : List UInt8) :
    OStr.write ⟨b, b.length⟩ s = ⟨b ++ s, (b ++ s).length⟩ := by
  simp [OStr.write]

theorem History.run_noCopy (h : History) (hc : h.NoCopy) :
    h.run = ⟨Str.str h.text, (Str.str h.text).length⟩ := by
  have nl : Str.str c!"\n" = b!"\n" := by decide
  have e : OStr.empty = ⟨[], ([] : List UInt8).length⟩ := rfl
  induction h with
  | new => rfl
  | ofStr s => simp only [run, text, Builder.ofStr]; rw [e, OStr.write_end]; rfl
  | append h s ih =>
    simp only [run, text, Builder.append, Str.str_append]; rw [ih hc, OStr.write_end]
  | appendLine h s ih =>
    simp only [run, text, Builder.appendLine, Str.str_append, nl]
    rw [ih hc, OStr.write_end, OStr.write_end]
  | move h ih => exact ih hc
  | copy h ih => exact hc.elim

theorem History.buf (h : History) (hc : h.NoAppendToCopy) : h.run.buf = Str.str h.text := by
  induction h with
  | new => rfl
  | ofStr s => exact congrArg OStr.buf (run_noCopy (.ofStr s) trivial)
  | append h s ih => exact congrArg OStr.buf (run_noCopy (.append h s) hc)
  | appendLine h s ih => exact congrArg OStr.buf (run_noCopy (.appendLine h s) hc)
  | move h ih => exact ih hc
  | copy h ih => exact ih hc

theorem History.clean_text (h : History) (hc : h.Clean) : ∀ c ∈ h.text, Shape c.data := by
  induction h with
  | new => intro c hm; cases hm
  | ofStr s => exact hc
  | append h s ih =>
    intro c hm
    rcases List.mem_append.mp hm with hm | hm
    · exact ih hc.1 c hm
    · exact hc.2 c hm
  | appendLine h s ih =>
    intro c hm
    rcases List.mem_append.mp hm with hm | hm
    · rcases List.mem_append.mp hm with hm | hm
      · exact ih hc.1 c hm
      · exact hc.2 c hm
    · simp at hm; subst hm; exact .one _ (by decide) (by decide)
  | move h ih => exact ih hc
  | copy h ih => exact ih hc

/-- C27. Partial: `str()` is the concatenation of everything appended in the builder's history, when
nothing was appended after copying. Missing: appending to a copy, which overwrites its
beginning (`C27_fails`). -/
theorem C27_accumulates_partial (h : History) (hc : h.Clean) (ha : h.NoAppendToCopy) :
    Builder.str h.run = .ok h.text := by
  unfold Builder.str
  rw [h.buf ha]
  exact Str.ofStdString_str _ (h.clean_text hc)

/-- C27 is false as stated: appending "X" to a copy of a builder holding "abc" gives "Xbc". -/
theorem C27_fails :
    Builder.str (History.append (.copy (.ofStr c!"abc")) c!"X").run = .ok c!"Xbc" ∧
    (History.append (.copy (.ofStr c!"abc")) c!"X").text = c!"abcX" := by decide +kernel

/-- C27, appending to a copy in general: the appended text replaces the beginning. -/
theorem C27_append_to_copy (h : History) (s : Str) :
    (Builder.append (Builder.copy h.run) s).buf = Str.str s ++ h.run.buf.drop (Str.str s).length := by
  simp [Builder.append, Builder.copy, OStr.write, OStr.ofString]

example : Builder.str (History.appendLine (.move (.append (.ofStr c!"a") c!"b")) c!"c").run = .ok c!"abc\n" := by
  decide +kernel

end Caitlyn
