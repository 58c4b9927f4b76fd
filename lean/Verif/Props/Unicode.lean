import Verif.Model.CharUtil
import Verif.Spec.Unicode

/-!
# Properties: character classes and case mappings against the Unicode standard
-/

namespace Caitlyn
namespace CharUtil

open Spec.Unicode

/-- **C107 (spaces).** `IsSpace` is the property White_Space, for every code point. -/
theorem C107_space (cp : Nat) : isSpace cp = true ↔ WhiteSpace cp := by
  simp only [isSpace, spaceCodepoints, WhiteSpace, List.contains_eq_mem, List.mem_cons, List.not_mem_nil, or_false,
    decide_eq_true_eq]
  omega

/-- **C107 (digits).** `IsDigit` is true exactly of the decimal digits of the Basic Multilingual Plane that are not those of
Sinhala Lith. -/
theorem C107_digit_partial (cp : Nat) :
    isDigit cp = true ↔ (∃ v, DecimalDigit cp v) ∧ ¬ (0x0DE6 ≤ cp ∧ cp ≤ 0x0DEF) := by
  have e : zeros.filter (· != 0x0DE6) = digitRanges.map Prod.fst := by decide +kernel
  have e2 : ∀ r ∈ digitRanges, r.2 = r.1 + 9 := by decide +kernel
  have e3 : ∀ z ∈ zeros, z ≠ 0x0DE6 → z + 9 < 0x0DE6 ∨ 0x0DEF < z := by decide +kernel
  simp only [isDigit, List.any_eq_true, decide_eq_true_eq]
  constructor
  · rintro ⟨r, hr, h1, h2⟩
    have hz : r.1 ∈ zeros.filter (· != 0x0DE6) := by rw [e]; exact List.mem_map_of_mem hr
    rw [List.mem_filter] at hz
    have h9 := e2 r hr
    have hne : r.1 ≠ 0x0DE6 := by simpa using hz.2
    refine ⟨⟨cp - r.1, by omega, r.1, hz.1, by omega⟩, ?_⟩
    have := e3 _ hz.1 hne
    omega
  · rintro ⟨⟨v, hv, z, hz, hcp⟩, hn⟩
    have hne : z ≠ 0x0DE6 := by omega
    have hz' : z ∈ digitRanges.map Prod.fst := by
      rw [← e, List.mem_filter]; exact ⟨hz, by simpa using hne⟩
    obtain ⟨r, hr, rfl⟩ := List.mem_map.1 hz'
    have := e2 r hr
    exact ⟨r, hr, by omega, by omega⟩

/-- **C107 fails for some digits.** The digits of Sinhala Lith are decimal digits and `IsDigit` denies it; so it does for every
code point above U+FFFF, where there are digits too (such as U+1D7CE, MATHEMATICAL BOLD DIGIT ZERO). -/
theorem C107_digit_fails :
    (∀ v, v < 10 → DecimalDigit (0x0DE6 + v) v ∧ isDigit (0x0DE6 + v) = false) ∧
      ∀ cp, 0xFFFF < cp → isDigit cp = false := by
  constructor
  · intro v hv
    refine ⟨⟨hv, _, by decide +kernel, rfl⟩, ?_⟩
    cases h : isDigit (0x0DE6 + v)
    · rfl
    · exact absurd ((C107_digit_partial _).1 h).2 (by omega)
  · intro cp h
    have e2 : ∀ r ∈ digitRanges, r.2 ≤ 0xFFFF := by decide +kernel
    cases hd : isDigit cp
    · rfl
    · simp only [isDigit, List.any_eq_true, decide_eq_true_eq] at hd
      obtain ⟨r, hr, _, h2⟩ := hd
      have := e2 r hr
      omega

/-- **C107 fails for the value of digits.** `ToDigit` gives the value of the ten ASCII digits and -1 for every other digit that
`IsDigit` accepts. -/
theorem C107_value_fails (cp v : Nat) (h : DecimalDigit cp v) :
    toDigit cp = if cp < 0x80 then (v : Int) else -1 := by
  obtain ⟨hv, z, hz, rfl⟩ := h
  have e : ∀ z ∈ zeros, z = 0x30 ∨ 0x80 ≤ z := by decide +kernel
  unfold toDigit
  rcases e z hz with rfl | h
  · rw [if_pos (by omega), if_pos (by omega)]; omega
  · rw [if_neg (by omega), if_neg (by omega)]

/-- The rows for which `ToUppercase` is right. -/
def upperRows : List Row :=
  [⟨0x41, 0x61, 26, 1⟩, ⟨0x100, 0x101, 24, 2⟩, ⟨0x132, 0x133, 3, 2⟩, ⟨0x14A, 0x14B, 23, 2⟩, ⟨0x391, 0x3B1, 17, 1⟩,
   ⟨0x3A3, 0x3C3, 7, 1⟩, ⟨0x410, 0x430, 32, 1⟩]

/-- The rows for which `ToLowercase` is right: those and some of Greek Extended. -/
def lowerRows : List Row :=
  upperRows ++ [⟨0x1F08, 0x1F00, 8, 1⟩, ⟨0x1F18, 0x1F10, 6, 1⟩, ⟨0x1F28, 0x1F20, 8, 1⟩, ⟨0x1F38, 0x1F30, 8, 1⟩,
    ⟨0x1F48, 0x1F40, 6, 1⟩, ⟨0x1F68, 0x1F60, 8, 1⟩, ⟨0x1FB8, 0x1FB0, 2, 1⟩, ⟨0x1FD8, 0x1FD0, 2, 1⟩, ⟨0x1FE8, 0x1FE0, 2, 1⟩]

/-- A property of all pairs of some rows, checked on the rows. -/
theorem pair_of {rs : List Row} {P : Nat → Nat → Prop}
    (h : ∀ r ∈ rs, ∀ i : Fin r.count, P (r.upper + i.val * r.step) (r.lower + i.val * r.step)) {u l : Nat} (hp : Pair rs u l) :
    P u l := by
  obtain ⟨r, hr, i, hi, rfl, rfl⟩ := hp
  exact h r hr ⟨i, hi⟩

/-- **C107 (upper case).** The two functions agree with the simple case mappings of Unicode on the letters of ASCII, of most of
Latin Extended-A, and of the basic Greek and Cyrillic alphabets, `ToLowercase` also on some of Greek Extended. -/
theorem C107_case_partial (u l : Nat) :
    (Pair upperRows u l → toUppercase l = u ∧ toUppercase u = u) ∧
      (Pair lowerRows u l → toLowercase u = l ∧ toLowercase l = l) := by
  exact ⟨pair_of (P := fun u l => toUppercase l = u ∧ toUppercase u = u) (by decide +kernel),
    pair_of (P := fun u l => toLowercase u = l ∧ toLowercase l = l) (by decide +kernel)⟩

/-- **C107 fails for every other row.** For every other pair of letters of the same blocks one of the two letters is mapped to
something else: `ToUppercase` for Latin-1 (é), half of the accented letters of Latin Extended-A (ź, ŀ), Greek with accent (ά),
Cyrillic beyond Russian (ё) and all of Greek Extended; `ToLowercase` for the same but the rows of Greek Extended above. -/
theorem C107_case_fails (u l : Nat) :
    (Pair (rows.filter (· ∉ upperRows)) u l → ¬ (toUppercase l = u ∧ toUppercase u = u)) ∧
      (Pair (rows.filter (· ∉ lowerRows)) u l → ¬ (toLowercase u = l ∧ toLowercase l = l)) := by
  exact ⟨pair_of (P := fun u l => ¬ (toUppercase l = u ∧ toUppercase u = u)) (by decide +kernel),
    pair_of (P := fun u l => ¬ (toLowercase u = l ∧ toLowercase l = l)) (by decide +kernel)⟩

/-- **C107 (the classes do not mix).** In none of the rows is an upper case letter classified as lower case or conversely; outside
Latin Extended-A a pair that both functions map rightly is classified rightly. -/
theorem C107_class_partial (u l : Nat) :
    (Pair rows u l → isLowercase u = false ∧ isUppercase l = false) ∧
      (Pair (lowerRows.filter fun r => r.step = 1 ∧ r.upper < 0x1FB8) u l → isUppercase u = true ∧ isLowercase l = true) := by
  exact ⟨pair_of (P := fun u l => isLowercase u = false ∧ isUppercase l = false) (by decide +kernel),
    pair_of (P := fun u l => isUppercase u = true ∧ isLowercase l = true) (by decide +kernel)⟩

/-- **C107 fails for the classes in Latin Extended-A.** No letter of that block, apart from the special cases U+0130, U+0131 and
U+0149, is a letter for the library, although the functions map many of them. -/
theorem C107_class_fails (cp : Nat) (h1 : 0x100 ≤ cp) (h2 : cp ≤ 0x17F) :
    isLetter cp = true ↔ cp = 0x130 ∨ cp = 0x131 ∨ cp = 0x149 := by
  have key : ∀ d : Fin 128, isLetter (0x100 + d.val) = true ↔ 0x100 + d.val = 0x130 ∨ 0x100 + d.val = 0x131 ∨ 0x100 + d.val = 0x149 := by
    decide +kernel
  have := key ⟨cp - 0x100, by omega⟩
  simpa [Nat.add_sub_cancel' h1] using this

example : Pair upperRows 0x416 0x436 := ⟨⟨0x410, 0x430, 32, 1⟩, by decide, 6, by decide, rfl, rfl⟩
example : Pair (rows.filter (· ∉ upperRows)) 0xC9 0xE9 := ⟨⟨0xC0, 0xE0, 23, 1⟩, by decide, 9, by decide, rfl, rfl⟩
example : toUppercase 0x1F00 = 0x1EF8 ∧ toUppercase 0xE9 = 0xE9 ∧ toUppercase 0x139 = 0x138 := by decide

end CharUtil
end Caitlyn
