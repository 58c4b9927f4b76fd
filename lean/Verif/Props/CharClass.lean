import Verif.Lit
import Verif.Proofs.CharUtil

/-!
# Properties C16-C21: character classes and case mapping
-/

namespace Caitlyn
open Spec CharUtil

/-! ## C16 -/

theorem mapM_ok {α β : Type} (f : α → Res β) (g : α → β) :
    ∀ l : List α, (∀ a ∈ l, f a = .ok (g a)) → l.mapM f = .ok (l.map g)
  | [], _ => rfl
  | a :: l, h => by
    rw [List.mapM_cons, h a (by simp), mapM_ok f g l (fun b hb => h b (by simp [hb]))]
    rfl

/-- C16. If every element has a code point (`cps i` is the one of element `i`), `ToUppercase` and
`ToLowercase` return a string of the same size whose elements are the mapped code
points. -/
theorem C16_elementwise (s : Str) (cps : List Nat)
    (h : s.map Chr.getCodePoint = cps.map .ok) :
    ∃ u l, Str.toUppercase s = .ok u ∧ Str.toLowercase s = .ok l ∧
      Str.size u = Str.size s ∧ Str.size l = Str.size s ∧
      u = cps.map (fun cp => Chr.ofCodePoint (toUppercase cp)) ∧
      l = cps.map (fun cp => Chr.ofCodePoint (toLowercase cp)) := by
  have key : ∀ (f : Nat → Nat) (s : Str) (cps : List Nat),
      s.map Chr.getCodePoint = cps.map .ok →
      s.mapM (fun c => do let cp ← c.getCodePoint; return Chr.ofCodePoint (f cp)) =
        (.ok (cps.map fun cp => Chr.ofCodePoint (f cp)) : Res Str) := by
    intro f s
    induction s with
    | nil => intro cps h; cases cps with
      | nil => rfl
      | cons a b => simp at h
    | cons c s ih =>
      intro cps h
      cases cps with
      | nil => simp at h
      | cons a b =>
        simp only [List.map_cons, List.cons.injEq] at h
        rw [List.mapM_cons, ih b h.2, h.1]
        rfl
  have hl : cps.length = s.length := by simpa using (congrArg List.length h).symm
  refine ⟨_, _, key toUppercase s cps h, key toLowercase s cps h, ?_, ?_, rfl, rfl⟩ <;>
    simp [Str.size, hl]

/-- C16. On ASCII text the mappings are those of ASCII (reference: Lean core's `Char.toUpper` and
`Char.toLower`, which change exactly the 26 letters). -/
theorem C16_ascii (cs : List Char) (h : ∀ c ∈ cs, c.val.toNat < 128) :
    Str.toUppercase (cs.map fun c => Chr.ofCodePoint c.val.toNat) =
      .ok (cs.map fun c => Chr.ofCodePoint c.toUpper.val.toNat) ∧
    Str.toLowercase (cs.map fun c => Chr.ofCodePoint c.val.toNat) =
      .ok (cs.map fun c => Chr.ofCodePoint c.toLower.val.toNat) := by
  have hm : (cs.map fun c => Chr.ofCodePoint c.val.toNat).map Chr.getCodePoint =
      (cs.map fun c => c.val.toNat).map .ok := by
    rw [List.map_map, List.map_map]
    apply List.map_congr_left
    intro c hc
    exact Chr.getCodePoint_ofCodePoint _ (by have := h c hc; omega)
  have tab : ∀ n < 128, toUppercase n = (Char.ofNat n).toUpper.val.toNat ∧
      toLowercase n = (Char.ofNat n).toLower.val.toNat := by decide +kernel
  have hc : ∀ c : Char, Char.ofNat c.val.toNat = c := fun c => Char.ofNat_toNat c
  obtain ⟨u, l, h1, h2, _, _, rfl, rfl⟩ := C16_elementwise _ _ hm
  rw [h1, h2, List.map_map, List.map_map]
  constructor <;> refine congrArg Except.ok (List.map_congr_left fun c hcs => ?_) <;>
    have := tab _ (h c hcs) <;> rw [hc] at this <;>
    simp only [Function.comp_apply, this]

example : Str.toUppercase c!"grün, 9a" = .ok c!"GRüN, 9A" := by decide +kernel

example : ∀ c ∈ "Hello, World 1".toList, c.val.toNat < 128 := by decide

/-! ## C17 -/

/-- C17, `ToUppercase`: a code point that `IsLetter` rejects is unchanged, except the odd ones of Latin
Extended-A (U+0100..U+0177), which are letters that `IsLetter` does not know. -/
theorem C17_caseless_upper (cp : Nat) (h : isLetter cp = false)
    (h2 : cp < 0x100 ∨ 0x177 < cp) : toUppercase cp = cp :=
  toUppercase_fix cp ((letter_false cp).mp h).2 (.inl (by unfold ExtP; omega))

/-- C17, `ToLowercase`. Partial: only below U+1FEC. Missing: everything from U+1FEC on (punctuation,
currency signs, CJK, emoji), where the code point is reduced by 8 (`C17_fails_lower`). -/
theorem C17_caseless_lower_partial (cp : Nat) (h : isLetter cp = false)
    (h2 : cp < 0x100 ∨ 0x177 < cp) (h3 : cp < 0x1FEC) : toLowercase cp = cp :=
  toLowercase_fix cp (.inl ((letter_false cp).mp h).1) h3 (.inl (by unfold ExtP; omega))

/-- C17 is false for `ToLowercase`: every code point from U+1FEC on other than the Kelvin and Angstrom
signs is changed to the one 8 below. -/
theorem C17_fails_lower (cp : Nat) (h : 0x1FEC ≤ cp) (h2 : cp ≠ 0x212A ∧ cp ≠ 0x212B) :
    toLowercase cp = cp - 8 ∧ toLowercase cp ≠ cp := by
  have := toLowercase_high cp h h2
  omega

example : isLetter 0x20AC = false ∧ toLowercase 0x20AC = 0x20A4 ∧ isLetter 0x30 = false ∧
    toLowercase 0x30 = 0x30 ∧ isLetter 0x4E2D = false ∧ toUppercase 0x4E2D = 0x4E2D := by
  decide +kernel

/-! ## C18 -/

/-- C18. `ToUppercase` is idempotent. -/
theorem C18_upper_idempotent (cp : Nat) : toUppercase (toUppercase cp) = toUppercase cp :=
  toUppercase_fix _ (toUppercase_img cp).1 (toUppercase_img cp).2

/-- C18. `ToLowercase` is idempotent exactly on the code points below U+1FF0 and on the Kelvin and
Angstrom signs. Partial: the property claims it for all code points. -/
theorem C18_lower_idempotent_iff_partial (cp : Nat) :
    toLowercase (toLowercase cp) = toLowercase cp ↔ cp < 0x1FF0 ∨ cp = 0x212A ∨ cp = 0x212B := by
  constructor
  · intro h
    by_cases hc : cp < 0x1FF0 ∨ cp = 0x212A ∨ cp = 0x212B
    · exact hc
    · exfalso
      have e : toLowercase cp = cp - 8 := toLowercase_high cp (by omega) (by omega)
      rw [e] at h
      by_cases h4 : cp < 0x1FF4
      · have : cp = 0x1FF0 ∨ cp = 0x1FF1 ∨ cp = 0x1FF2 ∨ cp = 0x1FF3 := by omega
        rcases this with rfl | rfl | rfl | rfl <;> revert h <;> decide +kernel
      · by_cases h5 : cp = 0x2132 ∨ cp = 0x2133
        · rcases h5 with rfl | rfl <;> revert h <;> decide +kernel
        · have e2 : toLowercase (cp - 8) = cp - 8 - 8 :=
            toLowercase_high (cp - 8) (by omega) (by omega)
          omega
  · intro h
    obtain ⟨h1, h2, h3⟩ := toLowercase_img cp h
    exact toLowercase_fix _ h1 h2 h3

/-- C18 is false for `ToLowercase`: the euro sign keeps changing. -/
theorem C18_fails_lower : toLowercase 0x20AC = 0x20A4 ∧ toLowercase (toLowercase 0x20AC) = 0x209C := by
  decide +kernel

/-! ## C19 -/

/-- The letters of the basic Latin, Greek and Cyrillic alphabets (lower case). -/
def BasicLower (cp : Nat) : Prop :=
  0x61 ≤ cp ∧ cp ≤ 0x7A ∨ 0x3B1 ≤ cp ∧ cp ≤ 0x3C1 ∨ 0x3C3 ≤ cp ∧ cp ≤ 0x3C9 ∨
    0x430 ≤ cp ∧ cp ≤ 0x44F

/-- The same letters in upper case. -/
def BasicUpper (cp : Nat) : Prop :=
  0x41 ≤ cp ∧ cp ≤ 0x5A ∨ 0x391 ≤ cp ∧ cp ≤ 0x3A1 ∨ 0x3A3 ≤ cp ∧ cp ≤ 0x3A9 ∨
    0x410 ≤ cp ∧ cp ≤ 0x42F

theorem toUppercase_basic (cp : Nat) (h : BasicLower cp) : toUppercase cp = cp - 0x20 := by
  unfold BasicLower at h
  unfold toUppercase
  repeat' (refine ite_eq_of (fun _ => ?_) (fun _ => ?_))
  all_goals omega

theorem toLowercase_basic (cp : Nat) (h : BasicUpper cp) : toLowercase cp = cp + 0x20 := by
  unfold BasicUpper at h
  unfold toLowercase
  repeat' (refine ite_eq_of (fun _ => ?_) (fun _ => ?_))
  all_goals omega

/-- C19. On the basic Latin, Greek and Cyrillic letters the two mappings are inverse to each other and
map the alphabets onto each other. Partial: Latin-1 letters are missing because the code
leaves them unchanged (`C19_latin1_fails`). -/
theorem C19_inverse_partial (cp : Nat) :
    (BasicLower cp → BasicUpper (toUppercase cp) ∧ toLowercase (toUppercase cp) = cp) ∧
    (BasicUpper cp → BasicLower (toLowercase cp) ∧ toUppercase (toLowercase cp) = cp) := by
  constructor
  · intro h
    have e := toUppercase_basic cp h
    have hb : BasicUpper (toUppercase cp) := by rw [e]; unfold BasicLower at h; unfold BasicUpper; omega
    refine ⟨hb, ?_⟩
    rw [toLowercase_basic _ hb, e]
    unfold BasicLower at h
    omega
  · intro h
    have e := toLowercase_basic cp h
    have hb : BasicLower (toLowercase cp) := by rw [e]; unfold BasicUpper at h; unfold BasicLower; omega
    refine ⟨hb, ?_⟩
    rw [toUppercase_basic _ hb, e]
    omega

/-- C19, Latin-1: no letter of U+00C0..U+00FE other than ß is mapped by either function; é (U+00E9) is
its own upper case. -/
theorem C19_latin1_fails (cp : Nat) (h : 0xC0 ≤ cp ∧ cp ≤ 0xFF) (h2 : cp ≠ 0xDF) :
    toUppercase cp = cp ∧ toLowercase cp = cp :=
  ⟨toUppercase_fix cp (by unfold LowP; omega) (.inl (by unfold ExtP; omega)),
   toLowercase_fix cp (.inl (by unfold UpP; omega)) (by omega) (.inl (by unfold ExtP; omega))⟩

example : BasicLower 0x44F ∧ BasicUpper 0x42F ∧ toUppercase 0x44F = 0x42F ∧ toLowercase 0x42F = 0x44F := by
  refine ⟨by unfold BasicLower; omega, by unfold BasicUpper; omega, by decide +kernel, by decide +kernel⟩

/-! ## C20 -/

theorem mem_space (cp : Nat) (h : isSpace cp = true) : cp ∈ spaceCodepoints := by
  simpa [isSpace] using h

theorem isDigit_iff (cp : Nat) : isDigit cp = true ↔ ∃ r ∈ digitRanges, r.1 ≤ cp ∧ cp ≤ r.2 := by
  simp [isDigit]

/-- C20. The classes are pairwise disjoint. -/
theorem C20_disjoint (cp : Nat) :
    ¬ (isSpace cp = true ∧ isDigit cp = true) ∧ ¬ (isSpace cp = true ∧ isLetter cp = true) ∧
    ¬ (isDigit cp = true ∧ isLetter cp = true) ∧
    ¬ (isUppercase cp = true ∧ isLowercase cp = true) := by
  have sp : ∀ c ∈ spaceCodepoints, isDigit c = false ∧ isLetter c = false := by decide +kernel
  refine ⟨?_, ?_, ?_, ?_⟩
  · rintro ⟨h1, h2⟩; have := (sp cp (mem_space cp h1)).1; simp [this] at h2
  · rintro ⟨h1, h2⟩; have := (sp cp (mem_space cp h1)).2; simp [this] at h2
  · rintro ⟨h1, h2⟩
    obtain ⟨⟨a, b⟩, hr, h3, h4⟩ := (isDigit_iff cp).mp h1
    have tab : ∀ r ∈ digitRanges, ∀ i < 10, r.2 = r.1 + 9 ∧ isLetter (r.1 + i) = false := by
      decide +kernel
    simp only at h3 h4
    have h9 := (tab _ hr 0 (by omega)).1
    simp only at h9
    have := (tab _ hr (cp - a) (by omega)).2
    simp only at this
    rw [show a + (cp - a) = cp by omega] at this
    simp [this] at h2
  · rintro ⟨h1, h2⟩
    rw [upP_iff] at h1
    rw [lowP_iff] at h2
    unfold UpP at h1
    unfold LowP at h2
    omega

example : isSpace 0x20 = true ∧ isDigit 0x37 = true ∧ isUppercase 0x41 = true ∧
    isLowercase 0x3B1 = true := by decide +kernel

/-! ## C21 -/

/-- C21, what `ToDigit` computes: the value of the ASCII digits, -1 for everything else. -/
theorem C21_to_digit (cp : Nat) :
    (∀ d : Nat, d < 10 → (toDigit cp = (d : Int) ↔ cp = 0x30 + d)) ∧
    (toDigit cp = -1 ↔ ¬ (0x30 ≤ cp ∧ cp ≤ 0x39)) ∧ (-1 ≤ toDigit cp ∧ toDigit cp ≤ 9) := by
  unfold toDigit
  split
  · refine ⟨fun d hd => by omega, by omega, by omega⟩
  · rename_i h
    refine ⟨fun d hd => by omega, ⟨fun _ => h, fun _ => rfl⟩, by omega⟩

/-- C21. Partial: every character with a `ToDigit` value is accepted by `IsDigit`. Missing: the
converse, false outside ASCII (`C21_fails`). -/
theorem C21_digit_value_partial (cp : Nat) (h : toDigit cp ≠ -1) : isDigit cp = true := by
  have : 0x30 ≤ cp ∧ cp ≤ 0x39 := by
    have := (C21_to_digit cp).2.1
    by_cases h1 : 0x30 ≤ cp ∧ cp ≤ 0x39
    · exact h1
    · exact absurd (this.mpr h1) h
  exact (isDigit_iff cp).mpr ⟨(0x30, 0x39), by simp [digitRanges], this⟩

/-- C21 is false: the Arabic-Indic digit five is accepted by `IsDigit` but has no `ToDigit` value. -/
theorem C21_fails : isDigit 0x665 = true ∧ toDigit 0x665 = -1 := by decide +kernel

example : toDigit 0x37 = 7 ∧ toDigit 0x37 ≠ -1 := by decide

end Caitlyn
