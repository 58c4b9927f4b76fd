import Verif.Spec.Json
import Verif.Model.JsonParser
import Verif.Proofs.Safe
import Verif.Proofs.StdNum

/-! # Helper lemmas: ASCII characters and the numbers of JSON texts -/

namespace Caitlyn
open Caitlyn.Spec JsonParser

/-! ### ASCII characters -/

theorem chr_codePoint (b : UInt8) (h : b ≤ 0x7F) : (chr b).getCodePoint = .ok b.toNat := by
  revert h
  refine forall_u8 (P := fun b => b ≤ 0x7F → (chr b).getCodePoint = .ok b.toNat) ?_ b
  decide +kernel

theorem chr_inj {a b : UInt8} (h : chr a = chr b) : a = b := by
  simpa [chr] using h

theorem space_iff (b : UInt8) (h : b ≤ 0x7F) : CharUtil.isSpace b.toNat = true ↔ Space (chr b) := by
  revert h
  refine forall_u8 (P := fun b => b ≤ 0x7F → (CharUtil.isSpace b.toNat = true ↔ Space (chr b))) ?_ b
  unfold Space
  decide +kernel

theorem digit_chr (b : UInt8) : Digit (chr b) ↔ 0x30 ≤ b ∧ b ≤ 0x39 := by
  constructor
  · rintro ⟨b', h1, h2, h⟩
    cases chr_inj h; exact ⟨h1, h2⟩
  · intro h; exact ⟨b, h.1, h.2, rfl⟩

theorem isDigit_iff_digit (b : UInt8) (h : b ≤ 0x7F) : CharUtil.isDigit b.toNat = true ↔ Digit (chr b) := by
  rw [digit_chr]
  revert h
  refine forall_u8 (P := fun b => b ≤ 0x7F → (CharUtil.isDigit b.toNat = true ↔ 0x30 ≤ b ∧ b ≤ 0x39)) ?_ b
  decide +kernel

theorem chr_printed (b : UInt8) (h : 0x01 ≤ b) (h' : b ≤ 0x7F) : (chr b).printed = [b] :=
  Shape.printed (p := [b]) (.one b h h')

theorem digit_ascii {c : Chr} (h : Digit c) : ∃ b : UInt8, 0x01 ≤ b ∧ b ≤ 0x7F ∧ c = chr b := by
  obtain ⟨b, h1, h2, rfl⟩ := h
  rw [Chr.u8_le_iff] at h1 h2
  refine ⟨b, ?_, ?_, rfl⟩ <;> rw [Chr.u8_le_iff] <;> simp at * <;> omega

theorem numChar_ascii {c : Chr} (h : NumChar c) : ∃ b : UInt8, 0x01 ≤ b ∧ b ≤ 0x7F ∧ c = chr b := by
  rcases h with h | h
  · exact digit_ascii h
  · simp at h
    rcases h with rfl | rfl | rfl | rfl | rfl
    · exact ⟨0x2E, by decide, by decide, rfl⟩
    · exact ⟨0x65, by decide, by decide, rfl⟩
    · exact ⟨0x45, by decide, by decide, rfl⟩
    · exact ⟨0x2B, by decide, by decide, rfl⟩
    · exact ⟨0x2D, by decide, by decide, rfl⟩

theorem numStart_numChar {c : Chr} (h : NumStart c) : NumChar c := by
  rcases h with h | h | h
  · exact .inl h
  · subst h; exact .inr (by decide)
  · subst h; exact .inr (by decide)

theorem isNumChar_chr (b : UInt8) (h : b ≤ 0x7F) :
    ∃ r, isNumChar (chr b) = .ok r ∧ (r = true ↔ NumChar (chr b)) := by
  refine ⟨_, by unfold isNumChar; rw [chr_codePoint b h]; rfl, ?_⟩
  simp only [Bool.or_eq_true, decide_eq_true_eq, isDigit_iff_digit b h]
  simp only [NumChar, dot, lowerE, upperE, minus, plus, List.mem_cons, List.not_mem_nil, or_false]
  constructor
  · rintro (((((h | h) | h) | h) | h) | h)
    · exact .inl h
    · exact .inr (by simp [h])
    · exact .inr (by simp [h])
    · exact .inr (by simp [h])
    · exact .inr (by simp [h])
    · exact .inr (by simp [h])
  · rintro (h | h | h | h | h | h) <;> simp [h]

/-- `ParseNumber` takes the longest run of number characters. -/
theorem numLen_run : ∀ (t rest : Str), (∀ d ∈ t, NumChar d) → HeadIs (fun d => ¬ NumChar d) rest →
    numLen (t ++ rest) = .ok t.length
  | [], rest, _, hr => by
    cases rest with
    | nil => rfl
    | cons c rest =>
      obtain ⟨⟨b, hb, rfl⟩, hn⟩ := hr c rfl
      obtain ⟨r, h1, h2⟩ := isNumChar_chr b hb
      have : r = false := by
        cases r with
        | false => rfl
        | true => exact absurd (h2.mp rfl) hn
      subst this
      simp only [List.nil_append, numLen, h1, bind, Except.bind]
      rfl
  | c :: t, rest, ht, hr => by
    have hc := ht c (by simp)
    obtain ⟨b, hb1, hb, rfl⟩ := numChar_ascii hc
    obtain ⟨r, h1, h2⟩ := isNumChar_chr b hb
    have : r = true := h2.mpr hc
    subst this
    simp only [List.cons_append, numLen, h1, bind, Except.bind, if_pos,
      numLen_run t rest (fun d hd => ht d (by simp [hd])) hr]
    rfl

/-- Conversely, in an ASCII text. -/
theorem numLen_inv : ∀ (u : Str) (k : Nat), Ascii u → numLen u = .ok k →
    ∃ t rest, u = t ++ rest ∧ t.length = k ∧ (∀ d ∈ t, NumChar d) ∧ HeadIs (fun d => ¬ NumChar d) rest
  | [], k, _, h => by
    cases h
    exact ⟨[], [], rfl, rfl, by simp, fun c hc => by cases hc⟩
  | c :: u, k, ha, h => by
    obtain ⟨b, hb1, hb, rfl⟩ := ha c (by simp)
    obtain ⟨r, h1, h2⟩ := isNumChar_chr b hb
    simp only [numLen, h1, bind, Except.bind] at h
    cases r with
    | false =>
      cases h
      refine ⟨[], chr b :: u, rfl, rfl, by simp, fun c hc => ?_⟩
      simp at hc; subst hc
      exact ⟨⟨b, hb, rfl⟩, fun hn => by simpa using h2.mpr hn⟩
    | true =>
      simp only [if_pos] at h
      cases hn : numLen u with
      | error e => rw [hn] at h; cases h
      | ok k' =>
        rw [hn] at h; cases h
        obtain ⟨t, rest, rfl, rfl, h3, h4⟩ := numLen_inv u k' (fun d hd => ha d (by simp [hd])) hn
        refine ⟨chr b :: t, rest, rfl, rfl, fun d hd => ?_, h4⟩
        rcases List.mem_cons.mp hd with rfl | hd
        · exact h2.mp rfl
        · exact h3 d hd

/-! ### `stoll` on the characters of numbers -/

/-- `Digit`, as a test. -/
def isDig (c : Chr) : Bool := match c.data with | [b] => decide (0x30 ≤ b) && decide (b ≤ 0x39) | _ => false

theorem isDig_chr (b : UInt8) : isDig (chr b) = (decide (0x30 ≤ b) && decide (b ≤ 0x39)) := rfl

theorem isDig_iff (c : Chr) : isDig c = true ↔ Digit c := by
  constructor
  · intro h
    unfold isDig at h
    split at h
    · rename_i b hb
      simp at h
      exact ⟨b, h.1, h.2, by cases c; simpa [chr] using hb⟩
    · cases h
  · rintro ⟨b, h1, h2, rfl⟩
    rw [isDig_chr]; simp [h1, h2]

theorem isDigitIn_ten (b : UInt8) : StdNum.isDigitIn 10 b = (decide (0x30 ≤ b) && decide (b ≤ 0x39)) := by
  refine forall_u8 (P := fun b => StdNum.isDigitIn 10 b = (decide (0x30 ≤ b) && decide (b ≤ 0x39))) ?_ b
  decide +kernel

theorem digitVal_ten (b : UInt8) (h : 0x30 ≤ b) (h' : b ≤ 0x39) : StdNum.digitVal b = some (b.toNat - 0x30) := by
  unfold StdNum.digitVal
  rw [if_pos (by simp [h, h'])]

theorem ascii_str {t : Str} (h : Ascii t) : Str.str t = t.map fun c => c.data.headD 0 := by
  induction t with
  | nil => rfl
  | cons c t ih =>
    obtain ⟨b, h1, h2, rfl⟩ := h c (by simp)
    show (chr b).printed ++ Str.str t = _
    rw [chr_printed b h1 h2, ih (fun d hd => h d (by simp [hd]))]
    rfl

theorem ascii_of_numChars {t : Str} (h : ∀ d ∈ t, NumChar d) : Ascii t := fun c hc => numChar_ascii (h c hc)

theorem takeWhile_isDig {t : Str} (h : Ascii t) :
    (Str.str t).takeWhile (StdNum.isDigitIn 10) = Str.str (t.takeWhile isDig) := by
  induction t with
  | nil => rfl
  | cons c t ih =>
    obtain ⟨b, h1, h2, rfl⟩ := h c (by simp)
    have ih := ih (fun d hd => h d (by simp [hd]))
    have e : Str.str (chr b :: t) = b :: Str.str t := by
      show (chr b).printed ++ Str.str t = _
      rw [chr_printed b h1 h2]; rfl
    rw [e]
    by_cases hd : StdNum.isDigitIn 10 b = true
    · have hd' : isDig (chr b) = true := by rw [isDig_chr, ← isDigitIn_ten]; exact hd
      rw [List.takeWhile_cons_of_pos hd, List.takeWhile_cons_of_pos hd', ih]
      show _ = (chr b).printed ++ Str.str _
      rw [chr_printed b h1 h2]; rfl
    · have hd' : ¬ isDig (chr b) = true := by rw [isDig_chr, ← isDigitIn_ten]; exact hd
      rw [List.takeWhile_cons_of_neg hd, List.takeWhile_cons_of_neg hd']; rfl

theorem digitsVal_natValue_aux (ds : Str) (h : ∀ c ∈ ds, Digit c) (n : Nat) :
    (ds.map fun c => c.data.headD 0).foldl (fun acc b => acc * 10 + (StdNum.digitVal b).getD 0) n =
      ds.foldl (fun n c => 10 * n + ((c.data.headD 0).toNat - 0x30)) n := by
  induction ds generalizing n with
  | nil => rfl
  | cons c ds ih =>
    obtain ⟨b, h1, h2, rfl⟩ := h c (by simp)
    simp only [List.map_cons, List.foldl_cons]
    rw [ih (fun d hd => h d (by simp [hd]))]
    congr 1
    show n * 10 + (StdNum.digitVal b).getD 0 = 10 * n + (b.toNat - 0x30)
    rw [digitVal_ten b h1 h2, Option.getD_some]; omega

theorem digitsVal_natValue (ds : Str) (h : ∀ c ∈ ds, Digit c) :
    StdNum.digitsVal 10 (Str.str ds) = natValue ds := by
  rw [ascii_str (fun c hc => digit_ascii (h c hc))]
  exact digitsVal_natValue_aux ds h 0

theorem takeWhile_append_of {α : Type} {p : α → Bool} {l r : List α} (h : ∀ x ∈ l, p x = true)
    (hr : ∀ x, r.head? = some x → p x = false) : (l ++ r).takeWhile p = l := by
  induction l with
  | nil =>
    cases r with
    | nil => rfl
    | cons x r => rw [List.nil_append, List.takeWhile_cons_of_neg (by simp [hr x rfl])]
  | cons x l ih =>
    rw [List.cons_append, List.takeWhile_cons_of_pos (h x (by simp)), ih (fun y hy => h y (by simp [hy]))]

theorem takeWhile_mem {α : Type} {p : α → Bool} {l : List α} : ∀ x ∈ l.takeWhile p, p x = true := by
  induction l with
  | nil => simp
  | cons a l ih =>
    by_cases h : p a = true
    · rw [List.takeWhile_cons_of_pos h]
      intro x hx
      rcases List.mem_cons.mp hx with rfl | hx
      · exact h
      · exact ih x hx
    · rw [List.takeWhile_cons_of_neg h]; simp

theorem dropWhile_head {α : Type} {p : α → Bool} {l : List α} {x : α} (h : (l.dropWhile p).head? = some x) :
    p x = false := by
  induction l with
  | nil => cases h
  | cons a l ih =>
    by_cases hp : p a = true
    · rw [List.dropWhile_cons_of_pos hp] at h; exact ih h
    · rw [List.dropWhile_cons_of_neg hp] at h
      cases h; simpa using hp

theorem sign_digit (b : UInt8) (h : 0x30 ≤ b) (h' : b ≤ 0x39) (u : List UInt8) :
    StdNum.sign (b :: u) = (false, b :: u) ∧ StdNum.isSpace b = false := by
  have : ∀ b : UInt8, 0x30 ≤ b → b ≤ 0x39 → b ≠ 0x2D ∧ b ≠ 0x2B ∧ StdNum.isSpace b = false := by
    intro b
    refine forall_u8 (P := fun b => 0x30 ≤ b → b ≤ 0x39 → b ≠ 0x2D ∧ b ≠ 0x2B ∧ StdNum.isSpace b = false) ?_ b
    decide +kernel
  obtain ⟨h1, h2, h3⟩ := this b h h'
  exact ⟨StrUtil.sign_none b u h1 h2, h3⟩

/-- What `strtoll` reads from digits and other number characters. -/
theorem parse_numChars_digit (c : Chr) (t : Str) (hc : Digit c) (ht : ∀ d ∈ t, NumChar d) :
    StdNum.parse 10 (Str.str (c :: t)) = some (false, natValue ((c :: t).takeWhile isDig)) := by
  have hA : Ascii (c :: t) := by
    intro d hd
    rcases List.mem_cons.mp hd with rfl | hd
    · exact digit_ascii hc
    · exact numChar_ascii (ht d hd)
  obtain ⟨b, h1, h2, rfl⟩ := hc
  have e : Str.str (chr b :: t) = b :: Str.str t := by
    rw [ascii_str hA, ascii_str (fun d hd => hA d (by simp [hd]))]; rfl
  obtain ⟨hs, hsp⟩ := sign_digit b h1 h2 (Str.str t)
  unfold StdNum.parse
  rw [e, List.dropWhile_cons_of_neg (by simp [hsp]), hs]
  simp only [StdNum.hexPrefix_ten]
  rw [← e, takeWhile_isDig hA, if_neg, digitsVal_natValue _ (fun c hc => (isDig_iff c).mp (takeWhile_mem c hc))]
  rw [List.takeWhile_cons_of_pos ((isDig_iff _).mpr ⟨b, h1, h2, rfl⟩)]
  rw [ascii_str]
  · simp
  · intro d hd
    rcases List.mem_cons.mp hd with rfl | hd
    · exact digit_ascii ⟨b, h1, h2, rfl⟩
    · exact digit_ascii ((isDig_iff d).mp (takeWhile_mem d hd))

theorem str_eq_nil {t : Str} (h : Ascii t) : Str.str t = [] ↔ t = [] := by
  rw [ascii_str h]; simp

theorem parse_numChars_minus (t : Str) (ht : ∀ d ∈ t, NumChar d) :
    StdNum.parse 10 (Str.str (chr 0x2D :: t)) =
      if t.takeWhile isDig = [] then none else some (true, natValue (t.takeWhile isDig)) := by
  have hA : Ascii t := ascii_of_numChars ht
  have e : Str.str (chr 0x2D :: t) = 0x2D :: Str.str t := by
    show (chr 0x2D).printed ++ Str.str t = _
    rw [chr_printed _ (by decide) (by decide)]; rfl
  unfold StdNum.parse
  rw [e, List.dropWhile_cons_of_neg (by decide)]
  simp only [StdNum.sign, StdNum.hexPrefix_ten]
  rw [takeWhile_isDig hA, digitsVal_natValue _ (fun c hc => (isDig_iff c).mp (takeWhile_mem c hc))]
  have : Str.str (t.takeWhile isDig) = [] ↔ t.takeWhile isDig = [] :=
    str_eq_nil (fun d hd => digit_ascii ((isDig_iff d).mp (takeWhile_mem d hd)))
  by_cases hn : t.takeWhile isDig = []
  · rw [if_pos hn, if_pos (this.mpr hn)]
  · rw [if_neg hn, if_neg (fun h => hn (this.mp h))]

theorem floating_iff (t : Str) : Floating t ↔ plus ∈ t ∨ lowerE ∈ t ∨ upperE ∈ t := by
  unfold Floating
  simp only [List.mem_cons, List.not_mem_nil, or_false]
  constructor
  · rintro ⟨c, hc, rfl | rfl | rfl⟩
    · exact .inl hc
    · exact .inr (.inl hc)
    · exact .inr (.inr hc)
  · rintro (h | h | h)
    · exact ⟨_, h, .inl rfl⟩
    · exact ⟨_, h, .inr (.inl rfl)⟩
    · exact ⟨_, h, .inr (.inr rfl)⟩

/-- The integer literal at the start of a token, if any. -/
theorem intLit_iff (c : Chr) (t : Str) (hc : NumStart c) (hp : c ≠ chr 0x2B) (ht : ∀ d ∈ t, NumChar d) (i : Int) :
    (∃ neg n, StdNum.parse 10 (Str.str (c :: t)) = some (neg, n) ∧ i = if neg then -(n : Int) else n) ↔
      ∃ lit junk, c :: t = lit ++ junk ∧ IntLit lit i ∧ ∀ d, junk.head? = some d → ¬ Digit d := by
  rcases hc with hc | rfl | rfl
  · rw [parse_numChars_digit c t hc ht]
    constructor
    · rintro ⟨neg, n, h, rfl⟩
      cases h
      refine ⟨(c :: t).takeWhile isDig, (c :: t).dropWhile isDig, List.takeWhile_append_dropWhile.symm,
        .nonneg _ ?_ (fun d hd => (isDig_iff d).mp (takeWhile_mem d hd)), ?_⟩
      · rw [List.takeWhile_cons_of_pos ((isDig_iff _).mpr hc)]; simp
      · intro d hd; rw [← isDig_iff, dropWhile_head hd]; simp
    · rintro ⟨lit, junk, he, hl, hj⟩
      refine ⟨false, _, rfl, ?_⟩
      cases hl with
      | nonneg _ hne hd =>
        rw [he, takeWhile_append_of (fun x hx => (isDig_iff x).mpr (hd x hx))
          (fun x hx => by have := hj x hx; rw [← isDig_iff] at this; simpa using this)]
        rfl
      | neg ds hne hd =>
        rw [List.cons_append] at he
        injection he with he _
        subst he
        obtain ⟨b, h1, h2, hb⟩ := hc
        cases chr_inj hb
        exact absurd h1 (by decide)
  · rw [parse_numChars_minus t ht]
    constructor
    · rintro ⟨neg, n, h, rfl⟩
      by_cases hn : t.takeWhile isDig = []
      · rw [if_pos hn] at h; cases h
      · rw [if_neg hn] at h; cases h
        refine ⟨chr 0x2D :: t.takeWhile isDig, t.dropWhile isDig, ?_,
          .neg _ hn (fun d hd => (isDig_iff d).mp (takeWhile_mem d hd)), ?_⟩
        · rw [List.cons_append, List.takeWhile_append_dropWhile]
        · intro d hd; rw [← isDig_iff, dropWhile_head hd]; simp
    · rintro ⟨lit, junk, he, hl, hj⟩
      cases hl with
      | nonneg _ hne hd =>
        cases lit with
        | nil => exact absurd rfl hne
        | cons a lit =>
          rw [List.cons_append] at he
          injection he with he _
          subst he
          obtain ⟨b, h1, h2, hb⟩ := hd _ (List.mem_cons_self)
          cases chr_inj hb
          exact absurd h1 (by decide)
      | neg ds hne hd =>
        rw [List.cons_append] at he
        injection he with _ he
        have : t.takeWhile isDig = ds := by
          rw [he, takeWhile_append_of (fun x hx => (isDig_iff x).mpr (hd x hx))
            (fun x hx => by have := hj x hx; rw [← isDig_iff] at this; simpa using this)]
        rw [this, if_neg hne]
        exact ⟨true, _, rfl, rfl⟩
  · exact absurd rfl hp

/-- `ParseNumber` gives a token the value the specification gives it. -/
theorem convert_iff {F : Type} (ops : FloatOps F) (c : Chr) (t : Str) (hc : NumStart c) (ht : ∀ d ∈ t, NumChar d)
    (j : Json F) : convert ops (c :: t) = .ok j ↔ Number ops (c :: t) j := by
  unfold convert
  by_cases hf : Floating (c :: t)
  · rw [if_pos ((floating_iff _).mp hf)]
    constructor
    · intro h
      cases hs : ops.stod (Str.str (c :: t)) with
      | ok f => rw [hs] at h; cases h; exact .float _ _ hf hs
      | error b => rw [hs] at h; cases b <;> cases h
    · intro h
      generalize hg : c :: t = g at h hf ⊢
      cases h with
      | int lit junk i h1 h2 h3 h4 h5 => exact absurd hf h5
      | float _ f h1 h2 => rw [h2]
  · rw [if_neg (fun h => hf ((floating_iff _).mpr h))]
    have hp : c ≠ chr 0x2B := by
      rintro rfl; exact hf ⟨chr 0x2B, by simp, by decide⟩
    have key := intLit_iff c t hc hp ht
    constructor
    · intro h
      cases hs : StdNum.stoll 10 (Str.str (c :: t)) with
      | ok i =>
        rw [hs] at h; cases h
        unfold StdNum.stoll StdNum.signed at hs
        cases hpz : StdNum.parse 10 (Str.str (c :: t)) with
        | none => rw [hpz] at hs; cases hs
        | some p =>
          obtain ⟨neg, n⟩ := p
          rw [hpz] at hs
          simp only at hs
          obtain ⟨lit, junk, he, hl, hj⟩ := (key _).mp ⟨neg, n, hpz, rfl⟩
          generalize (if neg then -(n : Int) else n) = v at hs hl
          by_cases hr : -(2 ^ (64 - 1)) ≤ v ∧ v < 2 ^ (64 - 1)
          · rw [if_pos hr] at hs
            injection hs with hs
            subst hs
            rw [he] at hf ⊢
            exact .int lit junk _ hl hr.1 hr.2 hj hf
          · rw [if_neg hr] at hs; cases hs
      | error e => rw [hs] at h; cases e <;> cases h
    · intro h
      generalize hg : c :: t = g at h hf
      cases h with
      | int lit junk i h1 h2 h3 h4 h5 =>
        obtain ⟨neg, n, hpz, hi⟩ := (key i).mpr ⟨lit, junk, hg, h1, h4⟩
        have : StdNum.stoll 10 (Str.str (lit ++ junk)) = .ok i := by
          unfold StdNum.stoll StdNum.signed
          rw [← hg, hpz]
          simp only [← hi]
          rw [if_pos ⟨h2, h3⟩]
        rw [this]
      | float _ f h1 h2 => exact absurd h1 hf

end Caitlyn
