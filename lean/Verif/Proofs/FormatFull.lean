import Verif.Spec.FormatFull
import Verif.Proofs.FormatSpec
import Verif.Proofs.FormatSafe

/-! # Helper lemmas on arbitrary templates -/

namespace Caitlyn.Format
open Caitlyn.Spec BigInt FormatSpec

/-! ### Digits -/

theorem anyDigit_code {c : Chr} (h : Shape c.data) : ∃ cp, c.getCodePoint = .ok cp ∧ CharUtil.isDigit cp = anyDigit c := by
  obtain ⟨cp, e⟩ := Shape.getCodePoint h
  exact ⟨cp, e, by unfold anyDigit; rw [e]⟩

theorem startsWithDigit_any (t : Str) (h : ∀ c ∈ t, Shape c.data) :
    startsWithDigit t = .ok (decide (t.takeWhile anyDigit ≠ [])) := by
  cases t with
  | nil => rfl
  | cons c t =>
    obtain ⟨cp, e, e2⟩ := anyDigit_code (h c (by simp))
    simp only [startsWithDigit, e, bind, Except.bind, e2, pure, Except.pure]
    cases hd : anyDigit c <;> simp [hd]

theorem spanDigits_any (t : Str) (h : ∀ c ∈ t, Shape c.data) :
    spanDigits t = .ok (t.takeWhile anyDigit, t.dropWhile anyDigit) := by
  induction t with
  | nil => rfl
  | cons c t ih =>
    obtain ⟨cp, e, e2⟩ := anyDigit_code (h c (by simp))
    simp only [spanDigits, e, bind, Except.bind, e2, pure, Except.pure, ih fun d hd => h d (by simp [hd])]
    cases hd : anyDigit c <;> simp [hd]

theorem digitChr_asc : ∀ c ∈ digitChrs, ∃ d : Char, DigitChar d ∧ c = asc d ∧ digitChrs.idxOf c = d.toNat - 48 := by
  intro c hc
  have hall : ∀ c ∈ digitChrs, ∃ i : Fin 10, c = ⟨[UInt8.ofNat (48 + i)]⟩ := by decide
  have key : ∀ i : Fin 10, (⟨[UInt8.ofNat (48 + i)]⟩ : Chr) = asc (Char.ofNat (48 + i)) ∧
      digitChrs.idxOf (⟨[UInt8.ofNat (48 + i)]⟩ : Chr) = (Char.ofNat (48 + i)).toNat - 48 ∧
      48 ≤ (Char.ofNat (48 + i)).toNat ∧ (Char.ofNat (48 + i)).toNat ≤ 57 := by decide
  obtain ⟨i, rfl⟩ := hall c hc
  exact ⟨_, (key i).2.2, (key i).1, (key i).2.1⟩

theorem digitChrs_asc (ds : Str) (h : ∀ c ∈ ds, c ∈ digitChrs) :
    ∃ cs : List Char, (∀ c ∈ cs, DigitChar c) ∧ ds = cs.map asc ∧ numeral ds = Nat.ofDigitChars 10 cs 0 := by
  have key : ∀ (ds : Str), (∀ c ∈ ds, c ∈ digitChrs) → ∃ cs : List Char, (∀ c ∈ cs, DigitChar c) ∧ ds = cs.map asc ∧
      ∀ n, ds.foldl (fun n c => n * 10 + digitChrs.idxOf c) n = Nat.ofDigitChars 10 cs n := by
    intro ds
    induction ds with
    | nil => intro _; exact ⟨[], by simp, rfl, fun n => by simp [Nat.ofDigitChars]⟩
    | cons c ds ih =>
      intro h
      obtain ⟨d, hd, e, v⟩ := digitChr_asc c (h c (by simp))
      obtain ⟨cs, h1, h2, h3⟩ := ih fun x hx => h x (by simp [hx])
      refine ⟨d :: cs, ?_, by rw [h2, e]; rfl, fun n => ?_⟩
      · intro x hx
        rcases List.mem_cons.1 hx with rfl | hx
        · exact hd
        · exact h1 x hx
      · rw [List.foldl_cons, h3, v]
        simp only [Nat.ofDigitChars, List.foldl_cons]
        rw [Nat.mul_comm]
        rfl
  obtain ⟨cs, h1, h2, h3⟩ := key ds h
  exact ⟨cs, h1, h2, h3 0⟩

/-- The first byte of a character that is not an ASCII digit. -/
theorem not_digit_byte (c : Chr) (hs : Shape c.data) (h : c ∉ digitChrs) (t : Str) :
    ∀ b, (Str.str (c :: t)).head? = some b → StdNum.isDigitIn 10 b = false := by
  have e : Str.str (c :: t) = c.data ++ Str.str t := by
    have := Str.str_append [c] t
    rw [List.singleton_append] at this
    rw [this]
    congr 1
    simp [Str.str, Shape.printed hs]
  rw [e]
  have big : ∀ n, 0xC0 ≤ n → n < 256 → StdNum.isDigitIn 10 (UInt8.ofNat n) = false := by
    have : ∀ n < 256, 0xC0 ≤ n → StdNum.isDigitIn 10 (UInt8.ofNat n) = false := by decide +kernel
    exact fun n a b => this n b a
  have big' : ∀ b : UInt8, 0xC0 ≤ b → StdNum.isDigitIn 10 b = false := by
    intro b hb
    have := big b.toNat (by simpa using UInt8.le_iff_toNat_le.mp hb) (UInt8.toNat_lt b)
    rwa [UInt8.ofNat_toNat] at this
  obtain ⟨d⟩ := c
  simp only at hs
  cases hs with
  | one b h1 h2 =>
    rintro b' ⟨⟩
    have key : ∀ n < 128, (⟨[UInt8.ofNat n]⟩ : Chr) ∉ digitChrs → StdNum.isDigitIn 10 (UInt8.ofNat n) = false := by
      decide +kernel
    have hb : b.toNat < 128 := by
      have := UInt8.le_iff_toNat_le.mp h2
      have e : (0x7F : UInt8).toNat = 127 := rfl
      omega
    have := key b.toNat hb (by rwa [UInt8.ofNat_toNat])
    rwa [UInt8.ofNat_toNat] at this
  | two b c h1 => rintro b' ⟨⟩; exact big' b h1
  | three b c d h1 =>
    rintro b' ⟨⟩
    refine big' b (UInt8.le_iff_toNat_le.mpr ?_)
    have := UInt8.le_iff_toNat_le.mp h1
    have e1 : (0xE0 : UInt8).toNat = 224 := rfl
    have e2 : (0xC0 : UInt8).toNat = 192 := rfl
    omega
  | four b c d e h1 =>
    rintro b' ⟨⟩
    refine big' b (UInt8.le_iff_toNat_le.mpr ?_)
    have := UInt8.le_iff_toNat_le.mp h1
    have e1 : (0xF0 : UInt8).toNat = 240 := rfl
    have e2 : (0xC0 : UInt8).toNat = 192 := rfl
    omega

/-- What `strtoul` reads of a text that starts with a digit of some script. -/
theorem parse_any (t : Str) (h : ∀ c ∈ t, Shape c.data) (hd : t.takeWhile anyDigit ≠ []) :
    StdNum.parse 10 (Str.str t) =
      if t.takeWhile (· ∈ digitChrs) = [] then none else some (false, numeral (t.takeWhile (· ∈ digitChrs))) := by
  generalize hds : t.takeWhile (· ∈ digitChrs) = ds
  generalize hr : t.dropWhile (· ∈ digitChrs) = r
  have et : t = ds ++ r := by rw [← hds, ← hr]; exact (List.takeWhile_append_dropWhile).symm
  have hmem : ∀ c ∈ ds, c ∈ digitChrs := by
    intro c hc
    rw [← hds] at hc
    have : ∀ (l : Str), c ∈ l.takeWhile (· ∈ digitChrs) → c ∈ digitChrs := by
      intro l
      induction l with
      | nil => intro h; cases h
      | cons a l ih =>
        intro h
        rw [List.takeWhile_cons] at h
        split at h
        · rename_i ha
          rcases List.mem_cons.1 h with rfl | h
          · simpa using ha
          · exact ih h
        · cases h
    exact this t hc
  have hrhead : ∀ c, r.head? = some c → c ∉ digitChrs := by
    intro c hc
    have := List.head?_dropWhile_not (fun c => decide (c ∈ digitChrs)) t
    rw [hr, hc] at this
    simpa using this
  have htail : ∀ b, (Str.str r).head? = some b → StdNum.isDigitIn 10 b = false := by
    intro b hb
    cases r with
    | nil => simp [Str.str] at hb
    | cons c r' => exact not_digit_byte c (h c (by rw [et]; simp)) (hrhead c rfl) r' b hb
  obtain ⟨cs, h1, h2, h3⟩ := digitChrs_asc ds hmem
  by_cases he : ds = []
  · rw [if_pos he]
    subst he
    rw [List.nil_append] at et
    subst et
    cases t with
    | nil => exact absurd rfl hd
    | cons c t' =>
      have hc : anyDigit c = true := by
        cases hx : anyDigit c with
        | true => rfl
        | false => simp [hx] at hd
      have hn := hrhead c rfl
      have hsh := h c (by simp)
      have hfst : ∃ b bs, c.data = b :: bs ∧ 0xC0 ≤ b := by
        obtain ⟨d⟩ := c
        simp only at hsh
        cases hsh with
        | one b h1 h2 =>
          have hb : b < 0x80 := by
            have := UInt8.le_iff_toNat_le.mp h2
            have e : (0x7F : UInt8).toNat = 127 := rfl
            have e' : (0x80 : UInt8).toNat = 128 := rfl
            exact UInt8.lt_iff_toNat_lt.mpr (by omega)
          obtain ⟨cp, e1, e2⟩ := ascii_code b hb hn
          unfold anyDigit at hc
          rw [e1] at hc
          simp only at hc
          rw [e2] at hc
          cases hc
        | two b c h1 => exact ⟨_, _, rfl, h1⟩
        | three b c d h1 =>
          refine ⟨_, _, rfl, UInt8.le_iff_toNat_le.mpr ?_⟩
          have := UInt8.le_iff_toNat_le.mp h1
          have e1 : (0xE0 : UInt8).toNat = 224 := rfl
          have e2 : (0xC0 : UInt8).toNat = 192 := rfl
          omega
        | four b c d e h1 =>
          refine ⟨_, _, rfl, UInt8.le_iff_toNat_le.mpr ?_⟩
          have := UInt8.le_iff_toNat_le.mp h1
          have e1 : (0xF0 : UInt8).toNat = 240 := rfl
          have e2 : (0xC0 : UInt8).toNat = 192 := rfl
          omega
      obtain ⟨b, bs, e, hb⟩ := hfst
      have es : Str.str (c :: t') = b :: (bs ++ Str.str t') := by
        have := Str.str_append [c] t'
        rw [List.singleton_append] at this
        rw [this]
        simp [Str.str, Shape.printed hsh, e]
      have key : ∀ n < 256, 0xC0 ≤ n → StdNum.isSpace (UInt8.ofNat n) = false ∧ UInt8.ofNat n ≠ 0x2D ∧
          UInt8.ofNat n ≠ 0x2B ∧ StdNum.isDigitIn 10 (UInt8.ofNat n) = false := by decide +kernel
      obtain ⟨k1, k2, k3, k4⟩ := key b.toNat (UInt8.toNat_lt b) (by simpa using UInt8.le_iff_toNat_le.mp hb)
      rw [UInt8.ofNat_toNat] at k1 k2 k3 k4
      unfold StdNum.parse
      rw [es, List.dropWhile_cons_of_neg (by simp [k1])]
      have esign : StdNum.sign (b :: (bs ++ Str.str t')) = (false, b :: (bs ++ Str.str t')) := by
        unfold StdNum.sign
        split
        · rename_i heq; exact absurd (List.cons.inj heq).1 k2
        · rename_i heq; exact absurd (List.cons.inj heq).1 k3
        · rfl
      rw [esign]
      simp only [StdNum.hexPrefix_ten]
      rw [List.takeWhile_cons_of_neg (by simp [k4]), if_pos rfl]
  · rw [if_neg he]
    have hcs : cs ≠ [] := by rintro rfl; exact he h2
    rw [et, Str.str_append, h2, str_digits cs h1, StdNum.parse_digits cs hcs h1 _ htail, ← h2, h3]

theorem stoul_any (t : Str) (h : ∀ c ∈ t, Shape c.data) (hd : t.takeWhile anyDigit ≠ []) :
    StdNum.stoul 10 (Str.str t) = number (2 ^ 64) t := by
  unfold StdNum.stoul number
  rw [parse_any t h hd]
  simp only
  by_cases he : t.takeWhile (· ∈ digitChrs) = []
  · rw [if_pos he, if_pos he]
  · rw [if_neg he, if_neg he]
    rfl

theorem stoi_any (t : Str) (h : ∀ c ∈ t, Shape c.data) (hd : t.takeWhile anyDigit ≠ []) :
    StdNum.stoi 10 (Str.str t) = (number (2 ^ 31) t).map Int.ofNat := by
  unfold StdNum.stoi StdNum.signed number
  rw [parse_any t h hd]
  simp only
  by_cases he : t.takeWhile (· ∈ digitChrs) = []
  · rw [if_pos he, if_pos he]; rfl
  · rw [if_neg he, if_neg he]
    simp only [Bool.false_eq_true, if_false]
    generalize numeral _ = n
    by_cases hn : 2 ^ 31 ≤ n
    · rw [if_pos hn, if_neg (by omega)]; rfl
    · rw [if_neg hn, if_pos (by omega)]; rfl

/-! ### Specifications -/

theorem sideOf_eq (c : Chr) : sideOf c = alignOf c := by
  unfold sideOf alignOf
  by_cases h1 : c = ⟨b!"<"⟩
  · subst h1; rfl
  · by_cases h2 : c = ⟨b!">"⟩
    · subst h2; rfl
    · by_cases h3 : c = ⟨b!"^"⟩
      · subst h3; rfl
      · rw [if_neg h1, if_neg h2, if_neg h3]
        have h1 : ¬ (⟨b!"<"⟩ : Chr) = c := fun e => h1 e.symm
        have h2 : ¬ (⟨b!">"⟩ : Chr) = c := fun e => h2 e.symm
        have h3 : ¬ (⟨b!"^"⟩ : Chr) = c := fun e => h3 e.symm
        simp [sideChar, h1, h2, h3]

theorem parseAlignment_any (t : Str) (hne : t ≠ []) :
    parseAlignment {} t =
      .ok ({ align := ((alignmentPart t).1.map Prod.snd).getD .left, fill := ((alignmentPart t).1.bind Prod.fst).getD ⟨b!" "⟩ },
        (alignmentPart t).2) := by
  match t with
  | [] => exact absurd rfl hne
  | [c] =>
    simp only [parseAlignment, alignmentPart, sideOf_eq, List.getElem?_cons_zero, List.getElem?_cons_succ,
      List.getElem?_nil, Option.bind_none, Option.bind_some]
    cases alignOf c <;> rfl
  | c :: d :: r =>
    simp only [parseAlignment, alignmentPart, sideOf_eq, List.getElem?_cons_zero, List.getElem?_cons_succ,
      Option.bind_some]
    cases alignOf d <;> cases alignOf c <;> rfl

theorem alignmentPart_mem (t : Str) : (∀ c ∈ (alignmentPart t).2, c ∈ t) ∧
    ∀ f a, (alignmentPart t).1 = some (some f, a) → f ∈ t := by
  unfold alignmentPart
  split
  · refine ⟨fun c hc => List.mem_of_mem_drop hc, fun f a h => ?_⟩
    simp only [Option.some.injEq, Prod.mk.injEq] at h
    exact List.mem_of_getElem? h.1
  · split
    · exact ⟨fun c hc => List.mem_of_mem_drop hc, fun f a h => by simp at h⟩
    · exact ⟨fun c hc => hc, fun f a h => by simp at h⟩

theorem parseWidth_any (spec : Specifier) (t : Str) (h : ∀ c ∈ t, Shape c.data) :
    parseWidth spec t = (numberPart (2 ^ 64) t).map fun x => ({ spec with width := x.1.getD spec.width }, x.2) := by
  unfold parseWidth numberPart
  rw [startsWithDigit_any t h]
  simp only [bind, Except.bind]
  by_cases hd : t.takeWhile anyDigit = []
  · simp [hd, Except.map, pure, Except.pure]
  · simp only [hd, ne_eq, not_false_eq_true, decide_true, if_true, if_false, stoul_any t h hd, spanDigits_any t h]
    cases number (2 ^ 64) t <;> rfl

theorem parsePrecision_any (spec : Specifier) (hp : spec.precision = -1) (t : Str) (h : ∀ c ∈ t, Shape c.data) :
    parsePrecision spec t = (pointPart t).map fun x =>
      ({ spec with precision := (x.1.map Int.ofNat).getD (-1) }, x.2) := by
  unfold pointPart
  cases t with
  | nil => simp [parsePrecision, Except.map, ← hp]
  | cons c t =>
    have h' : ∀ c ∈ t, Shape c.data := fun d hd => h d (by simp [hd])
    simp only [parsePrecision, List.head?_cons, Option.some.injEq, List.tail_cons]
    by_cases hc : c = ⟨b!"."⟩
    · rw [if_pos hc, if_pos hc, startsWithDigit_any t h']
      unfold numberPart
      simp only [bind, Except.bind]
      by_cases hd : t.takeWhile anyDigit = []
      · simp [hd, Except.map, pure, Except.pure, ← hp]
      · simp only [hd, ne_eq, not_false_eq_true, decide_true, if_true, if_false, stoi_any t h' hd, spanDigits_any t h']
        cases number (2 ^ 31) t <;> rfl
    · rw [if_neg hc, if_neg hc]
      simp [Except.map, ← hp]

theorem parseValueType_any (spec : Specifier) (hs : spec.type = .string) (t : Str) :
    parseValueType spec t = { spec with type := (t.head?.bind typeOf).getD .string } := by
  cases t with
  | nil => simp [parseValueType, ← hs]
  | cons c t =>
    simp only [parseValueType, List.head?_cons, Option.bind_some, typeOf]
    by_cases h1 : c = ⟨b!"s"⟩
    · subst h1; rfl
    · by_cases h2 : c = ⟨b!"d"⟩
      · subst h2; rfl
      · by_cases h3 : c = ⟨b!"f"⟩
        · subst h3; rfl
        · rw [if_neg h1, if_neg h2, if_neg h3]
          have h1 : ¬ (⟨b!"s"⟩ : Chr) = c := fun e => h1 e.symm
          have h2 : ¬ (⟨b!"d"⟩ : Chr) = c := fun e => h2 e.symm
          have h3 : ¬ (⟨b!"f"⟩ : Chr) = c := fun e => h3 e.symm
          have : List.find? (fun t => decide (letter t = c)) [.string, .integral, .floating] = none := by
            simp [letter, h1, h2, h3]
          rw [this, Option.getD_none, ← hs]

/-- How the code represents a specification. -/
def toSpecifier (s : FormatSpec) : Specifier :=
  { align := s.side, width := s.width.getD 0, fill := s.fill, type := s.type.getD .string,
    precision := (s.precision.map Int.ofNat).getD (-1) }

theorem numberPart_mem (limit : Nat) (t : Str) (x : Option Nat × Str) (h : numberPart limit t = .ok x) :
    ∀ c ∈ x.2, c ∈ t := by
  unfold numberPart at h
  split at h
  · cases h; exact fun c hc => hc
  · cases hn : number limit t with
    | error e => rw [hn] at h; cases h
    | ok n =>
      rw [hn] at h
      cases h
      exact fun c hc => (List.dropWhile_sublist _).mem hc

theorem makeSpecifier_any (t : Str) (h : ∀ c ∈ t, Shape c.data) :
    makeSpecifier (⟨b!":"⟩ :: t) = (specification t).map toSpecifier := by
  simp only [makeSpecifier, ne_eq, not_true_eq_false, if_false]
  unfold specification
  by_cases ht : t = []
  · subst ht; rfl
  · rw [if_neg ht]
    have hs1 : ∀ c ∈ (alignmentPart t).2, Shape c.data := fun c hc => h c ((alignmentPart_mem t).1 c hc)
    simp only [bind, Except.bind, parseAlignment_any t ht, parseWidth_any _ _ hs1]
    cases hw : numberPart (2 ^ 64) (alignmentPart t).2 with
    | error e => rfl
    | ok x =>
      obtain ⟨w, r⟩ := x
      have hs2 : ∀ c ∈ r, Shape c.data := fun c hc => hs1 c (numberPart_mem _ _ _ hw c hc)
      simp only [Except.map]
      rw [parsePrecision_any _ rfl r hs2]
      cases pointPart r with
      | error e => rfl
      | ok y =>
        simp only [Except.map, pure, Except.pure]
        rw [parseValueType_any _ rfl]
        rfl

/-! ### Values -/

theorem fractionDigits_any (t : Str) (h : ∀ c ∈ t, Shape c.data) :
    ∀ n, fractionDigits t n = .ok ((t.takeWhile anyDigit).take n) := by
  induction t with
  | nil => intro n; simp [fractionDigits]
  | cons c t ih =>
    intro n
    obtain ⟨cp, e, e2⟩ := anyDigit_code (h c (by simp))
    simp only [fractionDigits, e, bind, Except.bind, e2, pure, Except.pure]
    cases hd : anyDigit c
    · simp [hd]
    · cases n with
      | zero => simp
      | succ n => simp [hd, ih (fun d hd => h d (by simp [hd])) n]

theorem floatingText_any (head rest : Str) (spec : Specifier) (p : Option Nat)
    (hs : spec.precision = (p.map Int.ofNat).getD (-1)) (hlen : head.length < npos)
    (hh : ⟨b!"."⟩ ∉ head) (hr : ∀ c ∈ rest, Shape c.data) :
    floatingText (head ++ ⟨b!"."⟩ :: rest) spec =
      .ok (Str.str (head ++ ⟨b!"."⟩ :: places (p.getD 0) (rest.takeWhile anyDigit))) := by
  have hsub : Str.substring (head ++ ⟨b!"."⟩ :: rest) 0 (head.length + 1) = .ok (head ++ [⟨b!"."⟩]) := by
    unfold Str.substring
    rw [if_neg (by omega)]
    congr 1
    rw [List.drop_zero, Nat.min_eq_left (by simp), show head ++ ⟨b!"."⟩ :: rest = (head ++ [⟨b!"."⟩]) ++ rest by simp]
    rw [show head.length + 1 = (head ++ [(⟨b!"."⟩ : Chr)]).length by simp, List.take_left]
  have hdrop : (head ++ ⟨b!"."⟩ :: rest).drop (head.length + 1) = rest := by
    rw [show head ++ ⟨b!"."⟩ :: rest = (head ++ [⟨b!"."⟩]) ++ rest by simp,
      show head.length + 1 = (head ++ [(⟨b!"."⟩ : Chr)]).length by simp, List.drop_left]
  simp only [floatingText, find_dot _ _ hh, bind, Except.bind]
  rw [if_pos (by omega), hsub]
  simp only [hdrop, hs]
  have hcons : ∀ x : Str, Str.str (head ++ ⟨b!"."⟩ :: x) = Str.str (head ++ [⟨b!"."⟩]) ++ Str.str x := by
    intro x
    rw [← Str.str_append]
    simp
  rw [hcons (places (p.getD 0) (rest.takeWhile anyDigit))]
  match p with
  | none => simp [places, Str.str, pure, Except.pure]
  | some 0 => simp [places, Str.str, pure, Except.pure]
  | some (p + 1) =>
    simp only [Option.map_some, Option.getD_some]
    rw [if_pos (by simp)]
    have e : (Int.ofNat (p + 1)).toNat = p + 1 := rfl
    rw [e, fractionDigits_any rest hr, places_eq, Str.str_append (List.take _ _), str_zeros]
    simp [pure, Except.pure]

theorem places_shape (p : Nat) (frac : Str) (h : ∀ c ∈ frac, Shape c.data) : ∀ c ∈ places p frac, Shape c.data := by
  intro c hc
  unfold places at hc
  rcases List.mem_append.1 (List.mem_of_mem_take hc) with hc | hc
  · exact h c hc
  · rw [List.eq_of_mem_replicate hc]
    exact .one _ (by decide) (by decide)

theorem withPlaces_shape (p : Nat) (v : Str) (h : ∀ c ∈ v, Shape c.data) : ∀ c ∈ withPlaces p v, Shape c.data := by
  have hdot : Shape (⟨b!"."⟩ : Chr).data := .one _ (by decide) (by decide)
  unfold withPlaces
  split
  · split
    · exact h
    · intro c hc
      rcases List.mem_append.1 hc with hc | hc
      · exact h c hc
      · rcases List.mem_cons.1 hc with rfl | hc
        · exact hdot
        · exact places_shape _ _ (by simp) c hc
  · rename_i x rest heq
    intro c hc
    rcases List.mem_append.1 hc with hc | hc
    · exact h c ((List.takeWhile_sublist _).mem hc)
    · rcases List.mem_cons.1 hc with rfl | hc
      · exact hdot
      · refine places_shape _ _ (fun d hd => h d ?_) c hc
        have hm := (List.takeWhile_sublist anyDigit).mem hd
        exact (List.dropWhile_sublist (fun c => decide (c ≠ (⟨b!"."⟩ : Chr)))).mem (by rw [heq]; simp [hm])

theorem valueText_shape (s : FormatSpec) (v : Str) (h : ∀ c ∈ v, Shape c.data) : ∀ c ∈ valueText s v, Shape c.data := by
  unfold valueText
  split
  · exact withPlaces_shape _ v h
  · exact h

theorem takeWhile_not_mem (x : Chr) (l : Str) : x ∉ l.takeWhile (· ≠ x) := by
  induction l with
  | nil => simp
  | cons c l ih =>
    rw [List.takeWhile_cons]
    by_cases hc : c = x
    · simp [hc]
    · have hc' : ¬ x = c := fun e => hc e.symm
      simp only [ne_eq, hc, not_false_eq_true, decide_true, if_true, List.mem_cons, hc', false_or]
      exact ih

theorem floatingText_places (v : Str) (s : FormatSpec) (h : ∀ c ∈ v, Shape c.data) (hl : v.length < npos) :
    floatingText v (toSpecifier s) = .ok (Str.str (withPlaces (s.precision.getD 0) v)) := by
  have e := List.takeWhile_append_dropWhile (p := fun c : Chr => decide (c ≠ ⟨b!"."⟩)) (l := v)
  unfold withPlaces
  cases heq : v.dropWhile (· ≠ ⟨b!"."⟩) with
  | nil =>
    rw [heq, List.append_nil] at e
    have hnot : (⟨b!"."⟩ : Chr) ∉ v := by
      rw [← e]
      exact takeWhile_not_mem _ v
    rw [floatingText_whole v _ s.precision rfl hnot]
    simp only
    generalize s.precision.getD 0 = p
    cases p <;> rfl
  | cons x rest =>
    have hx : x = ⟨b!"."⟩ := by
      have := List.head?_dropWhile_not (fun c : Chr => decide (c ≠ ⟨b!"."⟩)) v
      rw [heq] at this
      simpa using this
    subst hx
    rw [heq] at e
    have hlen := congrArg List.length e
    rw [List.length_append, List.length_cons] at hlen
    have := floatingText_any (v.takeWhile (· ≠ ⟨b!"."⟩)) rest (toSpecifier s) s.precision rfl (by omega) (takeWhile_not_mem _ v)
      (fun c hc => h c (by rw [← e]; simp [hc]))
    rw [e] at this
    exact this

theorem process_any (v : Str) (s : FormatSpec) (h : ∀ c ∈ v, Shape c.data) (hl : v.length < npos) :
    process v (toSpecifier s) = .ok (s.padded (valueText s v)) := by
  unfold valueText
  by_cases ht : s.type = some .floating
  · rw [if_pos ht]
    have hty : (toSpecifier s).type = .floating := by simp [toSpecifier, ht]
    simp only [process, hty, processFloating, floatingText_places v s h hl, bind, Except.bind,
      Str.ofStdString_str _ (withPlaces_shape _ v h), processAlignment_pad]
    rfl
  · rw [if_neg ht]
    have : process v (toSpecifier s) = processAlignment v (toSpecifier s) := by
      unfold process
      cases hty : s.type with
      | none => simp [toSpecifier, hty]
      | some t =>
        cases t
        · simp [toSpecifier, hty]
        · simp [toSpecifier, hty]
        · exact absurd hty ht
    rw [this, processAlignment_pad]
    rfl

/-! ### Placeholders -/

theorem argument_eq (args : List Str) (i : Nat) : vecGet args i = argument args i := by
  unfold vecGet argument
  cases args[i]? <;> rfl

theorem argument_mem (args : List Str) (i : Nat) (a : Str) (h : argument args i = .ok a) : a ∈ args := by
  unfold argument at h
  split at h
  · rename_i b e
    cases h
    exact List.mem_of_getElem? e
  · cases h

theorem formatted_any (args : List Str) (ha : ∀ a ∈ args, (∀ c ∈ a, Shape c.data) ∧ a.length < npos) (i : Nat) (t : Str)
    (h : ∀ c ∈ t, Shape c.data) (k : Nat) :
    (do
      let parsed ← makeSpecifier (⟨b!":"⟩ :: t)
      let a ← vecGet args i
      let r ← process a parsed
      return (Str.str r, k)) = (formattedArg args i t).map fun r => (Str.str r, k) := by
  rw [makeSpecifier_any t h, argument_eq]
  unfold formattedArg
  cases specification t with
  | error e => rfl
  | ok s =>
    simp only [Except.map, bind, Except.bind]
    cases hx : argument args i with
    | error e => rfl
    | ok a =>
      obtain ⟨h1, h2⟩ := ha a (argument_mem args i a hx)
      simp only [process_any a s h1 h2]
      rfl

theorem head_colon (t : Str) (h : t.head? = some ⟨b!":"⟩) : t = ⟨b!":"⟩ :: t.tail := by
  cases t with
  | nil => cases h
  | cons c t => simp only [List.head?_cons, Option.some.injEq] at h; rw [h]; rfl

theorem placeholder_any (args : List Str) (hl : args.length < 2 ^ 63)
    (ha : ∀ a ∈ args, (∀ c ∈ a, Shape c.data) ∧ a.length < npos) (k : Nat) (h : Str) (hs : ∀ c ∈ h, Shape c.data) :
    placeholder args k h = (hole args k h).map fun x => (Str.str x.1, x.2) := by
  unfold placeholder hole
  rw [startsWithDigit_any h hs, spanDigits_any h hs]
  simp only [bind, Except.bind]
  by_cases hd : h.takeWhile anyDigit = []
  · simp only [hd, ne_eq, not_true_eq_false, decide_false, Bool.false_eq_true, if_false]
    by_cases hc : h.head? = some ⟨b!":"⟩
    · rw [if_pos hc, if_pos hc]
      have := formatted_any args ha 0 h.tail (fun c hm => hs c (List.mem_of_mem_tail hm)) k
      rw [← head_colon h hc] at this
      simp only [bind, Except.bind] at this
      rw [this]
      cases formattedArg args 0 h.tail <;> rfl
    · rw [if_neg hc, if_neg hc]
      by_cases h0 : args.length = 0
      · rw [if_pos h0, if_neg (by omega), if_neg (by omega)]; rfl
      · rw [if_neg h0]
        by_cases h1 : args.length = 1
        · rw [if_pos h1, if_pos h1, argument_eq]
          cases argument args 0 <;> rfl
        · rw [if_neg h1, if_neg h1, if_pos (by omega), argument_eq]
          cases argument args k <;> rfl
  · simp only [hd, ne_eq, not_false_eq_true, decide_true, if_true]
    have hd2 : (h.takeWhile anyDigit).takeWhile anyDigit ≠ [] := by
      cases h with
      | nil => exact absurd rfl hd
      | cons c h =>
        cases hc : anyDigit c
        · simp [hc] at hd
        · simp [hc]
    have hs2 : ∀ c ∈ h.takeWhile anyDigit, Shape c.data := fun c hc => hs c ((List.takeWhile_sublist _).mem hc)
    unfold argIndex
    rw [stoul_any _ hs2 hd2]
    have hnum : ∀ e, number (2 ^ 64) (h.takeWhile anyDigit) = .error e → e = .outOfRange ∨ e = .invalidArgument := by
      intro e he
      unfold number at he
      simp only at he
      split at he
      · cases he; exact .inr rfl
      · split at he
        · cases he; exact .inl rfl
        · cases he
    have hlt : ∀ i, number (2 ^ 64) (h.takeWhile anyDigit) = .ok i → i < 2 ^ 64 := by
      intro i hi
      unfold number at hi
      simp only at hi
      split at hi
      · cases hi
      · split at hi
        · cases hi
        · cases hi; omega
    cases hn : number (2 ^ 64) (h.takeWhile anyDigit) with
    | error e => rcases hnum e hn with rfl | rfl <;> rfl
    | ok i =>
      have hi := hlt i hn
      simp only
      have hcond : i > wsub args.length 1 ↔ args ≠ [] ∧ args.length ≤ i := by
        cases args with
        | nil => simp [wsub, twoPow64]; omega
        | cons a as =>
          simp only [wsub, twoPow64, List.length_cons, ne_eq, reduceCtorEq, not_false_eq_true, true_and] at hl ⊢
          omega
      by_cases hc : args ≠ [] ∧ args.length ≤ i
      · rw [if_pos (hcond.2 hc), if_pos hc]; rfl
      · rw [if_neg (fun x => hc (hcond.1 x)), if_neg hc]
        cases hr : h.dropWhile anyDigit with
        | nil =>
          simp only [if_true, argument_eq]
          cases argument args i <;> rfl
        | cons c r =>
          simp only [reduceCtorEq, if_false, List.head?_cons, Option.some.injEq, List.tail_cons]
          by_cases hcc : c = ⟨b!":"⟩
          · rw [if_pos hcc, if_pos hcc]
            subst hcc
            have := formatted_any args ha k r (fun c hm => hs c ((List.dropWhile_sublist anyDigit).mem (by rw [hr]; simp [hm]))) k
            simp only [bind, Except.bind] at this
            rw [this]
            cases formattedArg args k r <;> rfl
          · rw [if_neg hcc, if_neg hcc]; rfl

theorem specification_fill (t : Str) (s : FormatSpec) (hs : ∀ c ∈ t, Shape c.data) (h : specification t = .ok s) :
    Shape s.fill.data := by
  unfold specification at h
  split at h
  · cases h
  · simp only [bind, Except.bind] at h
    split at h
    · cases h
    · split at h
      · cases h
      · cases h
        unfold FormatSpec.fill
        simp only
        have hm := (alignmentPart_mem t).2
        rcases hx : (alignmentPart t).1 with _ | ⟨f, a⟩
        · exact .one _ (by decide) (by decide)
        · cases f with
          | none => exact .one _ (by decide) (by decide)
          | some f => exact hs f (hm f a hx)

theorem formatted_shape (args : List Str) (ha : ∀ a ∈ args, ∀ c ∈ a, Shape c.data) (i : Nat) (t : Str)
    (h : ∀ c ∈ t, Shape c.data) (r : Str) (hr : formattedArg args i t = .ok r) : ∀ c ∈ r, Shape c.data := by
  unfold formattedArg at hr
  cases hsp : specification t with
  | error e => rw [hsp] at hr; cases hr
  | ok s =>
    rw [hsp] at hr
    cases hx : argument args i with
    | error e => rw [hx] at hr; cases hr
    | ok a =>
      rw [hx] at hr
      cases hr
      exact pad_shape _ _ _ _ (specification_fill t s h hsp) (valueText_shape s a (ha a (argument_mem args i a hx)))

theorem hole_shape (args : List Str) (ha : ∀ a ∈ args, ∀ c ∈ a, Shape c.data) (k : Nat) (h : Str)
    (hs : ∀ c ∈ h, Shape c.data) (x : Str × Nat) (hx : hole args k h = .ok x) : ∀ c ∈ x.1, Shape c.data := by
  have harg : ∀ i k, (argument args i).map (·, k) = .ok x → ∀ c ∈ x.1, Shape c.data := by
    intro i k hx
    cases he : argument args i with
    | error e => rw [he] at hx; cases hx
    | ok a => rw [he] at hx; cases hx; exact ha a (argument_mem args i a he)
  have hfor : ∀ i k t, (∀ c ∈ t, Shape c.data) → (formattedArg args i t).map (·, k) = .ok x → ∀ c ∈ x.1, Shape c.data := by
    intro i k t ht hx
    cases he : formattedArg args i t with
    | error e => rw [he] at hx; cases hx
    | ok r => rw [he] at hx; cases hx; exact formatted_shape args ha i t ht r he
  have hrest : ∀ c ∈ (h.dropWhile anyDigit).tail, Shape c.data :=
    fun c hc => hs c ((List.dropWhile_sublist _).mem (List.mem_of_mem_tail hc))
  unfold hole at hx
  simp only at hx
  split at hx
  · split at hx
    · cases hx
    · cases hx
    · split at hx
      · cases hx
      · split at hx
        · exact harg _ _ hx
        · split at hx
          · exact hfor _ _ _ hrest hx
          · cases hx; intro c hc; cases hc
  · split at hx
    · exact hfor _ _ _ (fun c hc => hs c (List.mem_of_mem_tail hc)) hx
    · split at hx
      · cases hx
      · split at hx <;> exact harg _ _ hx

/-! ### Templates -/

theorem printed_char (c : Chr) (t : Str) : Str.str (c :: t) = c.printed ++ Str.str t := by
  have := Str.str_append [c] t
  rw [List.singleton_append] at this
  rw [this]
  simp [Str.str]

theorem loop_items (args : List Str) (hl : args.length < 2 ^ 63)
    (ha : ∀ a ∈ args, (∀ c ∈ a, Shape c.data) ∧ a.length < npos) (left : Str) (hleft : Leftover left) (items : List Item) :
    ∀ (n k : Nat), (items.flatMap Item.written ++ left).length < n → (∀ i ∈ items, i.Proper) →
      (∀ c ∈ items.flatMap Item.written, Shape c.data) →
      loop args n (items.flatMap Item.written ++ left) k = (outcome args left k items).map Str.str ∧
      ∀ t, outcome args left k items = .ok t → ∀ c ∈ t, Shape c.data := by
  induction items with
  | nil =>
    intro n k hn _ _
    obtain ⟨m, rfl⟩ : ∃ m, n = m + 1 := ⟨n - 1, by omega⟩
    simp only [List.flatMap_nil, List.nil_append, outcome]
    rcases hleft with rfl | ⟨r, rfl, h1, h2⟩ | ⟨r, rfl, h1⟩
    · exact ⟨rfl, by intro t ht; cases ht; simp⟩
    · refine ⟨?_, by intro t ht; simp at ht⟩
      rw [if_neg (by simp), loop, if_pos rfl, if_neg h1]
      simp only [search_open (⟨b!"{"⟩ :: r) (by
        intro hm
        rcases List.mem_cons.mp hm with e | hm
        · exact absurd e (by decide)
        · exact h2 hm), if_true]
      rfl
    · refine ⟨?_, by intro t ht; simp at ht⟩
      rw [if_neg (by simp), loop, if_neg (by decide), if_pos rfl, if_neg h1]
      rfl
  | cons i items ih =>
    intro n k hn hp hs
    obtain ⟨m, rfl⟩ : ∃ m, n = m + 1 := ⟨n - 1, by omega⟩
    have hp' : ∀ i ∈ items, i.Proper := fun j hj => hp j (by simp [hj])
    have hs' : ∀ c ∈ items.flatMap Item.written, Shape c.data := fun c hc => hs c (by
      rw [List.flatMap_cons]; exact List.mem_append_right _ hc)
    have hpi := hp i (by simp)
    rw [List.flatMap_cons] at hn ⊢
    cases i with
    | char c =>
      simp only [Item.written, Item.Proper] at hpi hn ⊢
      have hc : Shape c.data := hs c (by rw [List.flatMap_cons]; simp [Item.written])
      obtain ⟨e1, e2⟩ := ih m k (by simp at hn ⊢; omega) hp' hs'
      constructor
      · rw [List.append_assoc, List.singleton_append, loop, if_neg hpi.1, if_neg hpi.2, e1]
        simp only [outcome]
        cases outcome args left k items with
        | error e => rfl
        | ok t => simp [Except.map, bind, Except.bind, pure, Except.pure, printed_char c t]
      · intro t ht
        simp only [outcome] at ht
        cases ho : outcome args left k items with
        | error e => rw [ho] at ht; cases ht
        | ok u =>
          rw [ho] at ht
          cases ht
          intro d hd
          rcases List.mem_cons.1 hd with rfl | hd
          · exact hc
          · exact e2 u ho d hd
    | bracket c =>
      simp only [Item.written, Item.Proper] at hpi hn ⊢
      have hc : Shape c.data := hs c (by rw [List.flatMap_cons]; simp [Item.written])
      obtain ⟨e1, e2⟩ := ih m k (by simp at hn ⊢; omega) hp' hs'
      constructor
      · have : loop args (m + 1) ([c, c] ++ items.flatMap Item.written ++ left) k =
            (do
              let out ← loop args m (items.flatMap Item.written ++ left) k
              return c.printed ++ out) := by
          have := loop_text args m c (items.flatMap Item.written ++ left) k
          simp only [Piece.written, if_pos hpi] at this
          rw [List.append_assoc]
          exact this
        rw [this, e1]
        simp only [outcome]
        cases outcome args left k items with
        | error e => rfl
        | ok t => simp [Except.map, bind, Except.bind, pure, Except.pure, printed_char c t]
      · intro t ht
        simp only [outcome] at ht
        cases ho : outcome args left k items with
        | error e => rw [ho] at ht; cases ht
        | ok u =>
          rw [ho] at ht
          cases ht
          intro d hd
          rcases List.mem_cons.1 hd with rfl | hd
          · exact hc
          · exact e2 u ho d hd
    | hole h =>
      simp only [Item.written, Item.Proper] at hpi hn ⊢
      have hsh : ∀ c ∈ h, Shape c.data := fun c hc => hs c (by rw [List.flatMap_cons]; simp [Item.written, hc])
      have e : ⟨b!"{"⟩ :: (h ++ [⟨b!"}"⟩]) ++ items.flatMap Item.written ++ left =
          ⟨b!"{"⟩ :: (h ++ ⟨b!"}"⟩ :: (items.flatMap Item.written ++ left)) := by simp
      have hlen : (items.flatMap Item.written ++ left).length < m := by
        simp only [List.length_append, List.length_cons, List.length_nil] at hn ⊢
        omega
      rw [e, loop_hole args m h _ k hpi.2 hpi.1, placeholder_any args hl ha k h hsh]
      simp only [outcome]
      cases hx : hole args k h with
      | error e => exact ⟨rfl, by intro t ht; cases ht⟩
      | ok x =>
        obtain ⟨t, k'⟩ := x
        have hts := hole_shape args (fun a h => (ha a h).1) k h hsh _ hx
        obtain ⟨e1, e2⟩ := ih m k' hlen hp' hs'
        simp only [Except.map, bind, Except.bind, e1]
        cases ho : outcome args left k' items with
        | error e => exact ⟨rfl, by intro t ht; cases ht⟩
        | ok u =>
          constructor
          · simp [pure, Except.pure, Str.str_append]
          · intro w hw
            cases hw
            intro c hc
            rcases List.mem_append.1 hc with hc | hc
            · exact hts c hc
            · exact e2 u ho c hc

theorem mem_first {c : Chr} {l : Str} (h : c ∈ l) : ∃ a b, l = a ++ c :: b ∧ c ∉ a := by
  induction l with
  | nil => cases h
  | cons x l ih =>
    by_cases hx : x = c
    · exact ⟨[], l, by rw [hx]; rfl, by simp⟩
    · have hx' : ¬ c = x := fun e => hx e.symm
      obtain ⟨a, b, h1, h2⟩ := ih ((List.mem_cons.1 h).resolve_left hx')
      exact ⟨x :: a, b, by rw [h1]; rfl, by simp [hx', h2]⟩

/-- Every text is cut into items and a leftover text. -/
theorem items_exist (t : Str) : ∃ (items : List Item) (left : Str), t = items.flatMap Item.written ++ left ∧ (∀ i ∈ items, i.Proper) ∧
    Leftover left := by
  generalize hn : t.length = n
  induction n using Nat.strongRecOn generalizing t with
  | _ n ih =>
    have step : ∀ (i : Item) (r : Str), i.Proper → t = i.written ++ r → r.length < n →
        ∃ (items : List Item) (left : Str), t = items.flatMap Item.written ++ left ∧ (∀ i ∈ items, i.Proper) ∧ Leftover left := by
      intro i r hi ht hr
      obtain ⟨items, left, h1, h2, h3⟩ := ih r.length hr r rfl
      refine ⟨i :: items, left, ?_, ?_, h3⟩
      · rw [List.flatMap_cons, List.append_assoc, ← h1, ht]
      · intro j hj
        rcases List.mem_cons.1 hj with rfl | hj
        · exact hi
        · exact h2 j hj
    cases t with
    | nil => exact ⟨[], [], rfl, by simp, .inl rfl⟩
    | cons c r =>
      simp only [List.length_cons] at hn
      by_cases h1 : c = ⟨b!"{"⟩
      · subst h1
        by_cases h2 : r.head? = some ⟨b!"{"⟩
        · cases r with
          | nil => cases h2
          | cons d r =>
            simp only [List.head?_cons, Option.some.injEq] at h2
            subst h2
            exact step (.bracket ⟨b!"{"⟩) r (.inl rfl) rfl (by simp at hn; omega)
        · by_cases h3 : ⟨b!"}"⟩ ∈ r
          · obtain ⟨a, b, rfl, h4⟩ := mem_first h3
            refine step (.hole a) b ⟨?_, h4⟩ (by simp [Item.written]) (by simp at hn; omega)
            cases a with
            | nil => simp
            | cons x a => exact h2
          · exact ⟨[], _, rfl, by simp, .inr (.inl ⟨r, rfl, h2, h3⟩)⟩
      · by_cases h1' : c = ⟨b!"}"⟩
        · subst h1'
          by_cases h2 : r.head? = some ⟨b!"}"⟩
          · cases r with
            | nil => cases h2
            | cons d r =>
              simp only [List.head?_cons, Option.some.injEq] at h2
              subst h2
              exact step (.bracket ⟨b!"}"⟩) r (.inr rfl) rfl (by simp at hn; omega)
          · exact ⟨[], _, rfl, by simp, .inr (.inr ⟨r, rfl, h2⟩)⟩
        · exact step (.char c) r ⟨h1, h1'⟩ rfl (by omega)

end Caitlyn.Format
