import Verif.Spec.FormatSpec
import Verif.Proofs.FormatSafe

/-! # Helper lemmas on full format specifications -/

namespace Caitlyn.Format
open Caitlyn.Spec BigInt FormatSpec

theorem decimal_alignOf (n : Nat) : ∀ c ∈ decimal (n : Int), alignOf c = none := by
  intro c hc
  rw [decimal_nat] at hc
  obtain ⟨d, hd, rfl⟩ := List.mem_map.mp hc
  exact alignOf_digit d (toDigits_digitChar n d hd)

theorem rest_alignOf (s : FormatSpec) :
    ∀ c ∈ widthPart s.width ++ (precisionPart s.precision ++ typePart s.type), alignOf c = none := by
  intro c hc
  rcases List.mem_append.mp hc with hc | hc
  · cases h : s.width with
    | none => rw [h] at hc; cases hc
    | some w => rw [h] at hc; exact decimal_alignOf w c hc
  · rcases List.mem_append.mp hc with hc | hc
    · cases h : s.precision with
      | none => rw [h] at hc; cases hc
      | some p =>
        rw [h] at hc
        rcases List.mem_cons.mp hc with rfl | hc
        · decide
        · exact decimal_alignOf p c hc
    · cases h : s.type with
      | none => rw [h] at hc; cases hc
      | some t =>
        rw [h] at hc
        rw [List.mem_singleton.mp hc]
        cases t <;> decide

theorem parseAlignment_full (a : Option (Option Chr × Alignment)) (rest : Str)
    (hr : ∀ c ∈ rest, alignOf c = none) (hne : alignPart a ++ rest ≠ []) :
    parseAlignment {} (alignPart a ++ rest) =
      .ok ({ align := (a.map Prod.snd).getD .left, fill := (a.bind Prod.fst).getD ⟨b!" "⟩ }, rest) := by
  match a with
  | none =>
    match rest with
    | [] => exact absurd rfl hne
    | [c] => simp only [alignPart, List.nil_append, parseAlignment, hr c (by simp)]; rfl
    | c :: d :: r =>
      simp only [alignPart, List.nil_append, parseAlignment, hr c (by simp), hr d (by simp)]; rfl
  | some (none, x) =>
    match rest with
    | [] =>
      simp only [alignPart, Option.toList, List.nil_append, List.cons_append, parseAlignment,
        (alignOf_some _ x).mpr rfl]
      rfl
    | c :: r =>
      simp only [alignPart, Option.toList, List.nil_append, List.cons_append, parseAlignment,
        (alignOf_some _ x).mpr rfl, hr c (by simp)]
      rfl
  | some (some f, x) =>
    simp only [alignPart, Option.toList, List.nil_append, List.cons_append, parseAlignment,
      (alignOf_some _ x).mpr rfl]
    rfl

/-- A character that ends a number: its code point is not a digit and neither is its first byte. -/
def Stops (tail : Str) : Prop :=
  (∀ c, tail.head? = some c → ∃ cp, c.getCodePoint = .ok cp ∧ CharUtil.isDigit cp = false) ∧
  ∀ b, (Str.str tail).head? = some b → StdNum.isDigitIn 10 b = false

theorem stops_nil : Stops [] := ⟨by simp, by simp [Str.str]⟩

theorem stops_letter (t : ValueType) (r : Str) : Stops (letter t :: r) := by
  have h := Str.str_append [letter t] r
  rw [List.singleton_append] at h
  unfold Stops
  rw [h]
  cases t
  · exact ⟨by rintro c ⟨⟩; exact ⟨0x73, by decide, by decide +kernel⟩, by rintro b ⟨⟩; decide⟩
  · exact ⟨by rintro c ⟨⟩; exact ⟨0x64, by decide, by decide +kernel⟩, by rintro b ⟨⟩; decide⟩
  · exact ⟨by rintro c ⟨⟩; exact ⟨0x66, by decide, by decide +kernel⟩, by rintro b ⟨⟩; decide⟩

theorem stops_dot (r : Str) : Stops (⟨b!"."⟩ :: r) := by
  have h := Str.str_append [⟨b!"."⟩] r
  rw [List.singleton_append] at h
  unfold Stops
  rw [h]
  exact ⟨by rintro c ⟨⟩; exact ⟨0x2E, by decide, by decide +kernel⟩, by rintro b ⟨⟩; decide⟩

theorem stops_type (t : Option ValueType) : Stops (typePart t) := by
  cases t with
  | none => exact stops_nil
  | some t => exact stops_letter t []

theorem stops_precision (p : Option Nat) (t : Option ValueType) : Stops (precisionPart p ++ typePart t) := by
  cases p with
  | none => exact stops_type t
  | some p => exact stops_dot _

theorem startsWithDigit_stops (s : Str) (h : Stops s) : startsWithDigit s = .ok false := by
  cases s with
  | nil => rfl
  | cons c r =>
    obtain ⟨cp, h1, h2⟩ := h.1 c rfl
    simp [startsWithDigit, h1, h2, bind, Except.bind, pure, Except.pure]

theorem str_decimal_append (n : Nat) (t : Str) :
    Str.str (decimal (n : Int) ++ t) = (Nat.toDigits 10 n).map chByte ++ Str.str t := by
  rw [Str.str_append, str_decimal]

theorem parseWidth_full (spec : Specifier) (hsp : spec.width = 0) (w : Option Nat) (tail : Str)
    (ht : Stops tail) :
    parseWidth spec (widthPart w ++ tail) =
      if w.getD 0 ≥ 2 ^ 64 then .error .outOfRange
      else .ok ({ spec with width := w.getD 0 }, tail) := by
  cases w with
  | none =>
    simp only [widthPart, List.nil_append, parseWidth, startsWithDigit_stops _ ht, bind, Except.bind]
    cases spec
    simp_all [pure, Except.pure]
  | some w =>
    have h1 := startsWithDigit_digits _ Nat.toDigits_ne_nil (toDigits_digitChar w) tail
    have h2 := spanDigits_digits _ (toDigits_digitChar w) tail ht.1
    rw [← decimal_nat] at h1 h2
    simp only [widthPart, parseWidth, h1, h2, bind, Except.bind, if_true, str_decimal_append,
      StdNum.stoul_digits w _ ht.2, Option.getD_some]
    by_cases h : w ≥ 2 ^ 64
    · simp [if_pos h]
    · simp [if_neg h, pure, Except.pure]

theorem stoi_digits (n : Nat) (tail : List UInt8)
    (ht : ∀ b, tail.head? = some b → StdNum.isDigitIn 10 b = false) :
    StdNum.stoi 10 ((Nat.toDigits 10 n).map chByte ++ tail) =
      if n ≥ 2 ^ 31 then .error .outOfRange else .ok (n : Int) := by
  unfold StdNum.stoi StdNum.signed
  rw [StdNum.parse_digits _ Nat.toDigits_ne_nil (toDigits_digitChar n) _ ht, Nat.ofDigitChars_ten_toDigits]
  simp only [Bool.false_eq_true, if_false]
  by_cases h : n ≥ 2 ^ 31
  · rw [if_pos h, if_neg (by omega)]
  · rw [if_neg h, if_pos (by omega)]

theorem parsePrecision_full (spec : Specifier) (hsp : spec.precision = -1) (p : Option Nat) (t : Option ValueType) :
    parsePrecision spec (precisionPart p ++ typePart t) =
      if p.getD 0 ≥ 2 ^ 31 then .error .outOfRange
      else .ok ({ spec with precision := (p.map Int.ofNat).getD (-1) }, typePart t) := by
  cases p with
  | none =>
    cases t with
    | none => cases spec; simp_all [precisionPart, typePart, parsePrecision]
    | some t =>
      have : letter t ≠ ⟨b!"."⟩ := by cases t <;> decide
      cases spec; simp_all [precisionPart, typePart, parsePrecision]
  | some p =>
    have ht := stops_type t
    have h1 := startsWithDigit_digits _ Nat.toDigits_ne_nil (toDigits_digitChar p) (typePart t)
    have h2 := spanDigits_digits _ (toDigits_digitChar p) (typePart t) ht.1
    rw [← decimal_nat] at h1 h2
    simp only [precisionPart, List.cons_append, parsePrecision, h1, h2, bind, Except.bind, if_true,
      str_decimal_append, stoi_digits p _ ht.2, Option.getD_some]
    by_cases h : p ≥ 2 ^ 31
    · simp [if_pos h]
    · simp [if_neg h, pure, Except.pure]

/-- What the code reads from a specification. -/
theorem makeSpecifier_full (s : FormatSpec) (hne : s.written ≠ []) :
    makeSpecifier (⟨b!":"⟩ :: s.written) =
      if s.width.getD 0 ≥ 2 ^ 64 ∨ s.precision.getD 0 ≥ 2 ^ 31 then .error .outOfRange
      else .ok { align := s.side, width := s.width.getD 0, fill := s.fill,
                 type := s.type.getD .string, precision := (s.precision.map Int.ofNat).getD (-1) } := by
  simp only [makeSpecifier]
  rw [if_neg (by simp)]
  unfold written at hne ⊢
  rw [parseAlignment_full _ _ (rest_alignOf s) hne]
  simp only [bind, Except.bind]
  rw [parseWidth_full _ rfl _ _ (stops_precision _ _)]
  by_cases h1 : s.width.getD 0 ≥ 2 ^ 64
  · rw [if_pos h1, if_pos (.inl h1)]
  · rw [if_neg h1]
    simp only []
    rw [parsePrecision_full _ rfl]
    by_cases h2 : s.precision.getD 0 ≥ 2 ^ 31
    · rw [if_pos h2, if_pos (.inr h2)]
    · rw [if_neg h2, if_neg (by rintro (h | h) <;> contradiction)]
      simp only [pure, Except.pure]
      cases s.type with
      | none => rfl
      | some t => cases t <;> rfl

theorem written_no_close (s : FormatSpec) (hf : s.fill ≠ ⟨b!"}"⟩) : ⟨b!"}"⟩ ∉ s.written := by
  unfold written
  intro hm
  rcases List.mem_append.mp hm with hm | hm
  · match h : s.align with
    | none => rw [h] at hm; cases hm
    | some (none, a) => rw [h] at hm; cases a <;> exact absurd hm (by decide)
    | some (some f, a) =>
      rw [h] at hm
      rcases List.mem_append.mp hm with hm | hm
      · apply hf
        unfold fill
        rw [h]
        exact (List.mem_singleton.mp hm).symm
      · cases a <;> exact absurd hm (by decide)
  · have := rest_alignOf s
    rcases List.mem_append.mp hm with hm | hm
    · cases h : s.width with
      | none => rw [h] at hm; cases hm
      | some w => rw [h] at hm; exact (digit_ne _ _ hm).1 rfl
    · rcases List.mem_append.mp hm with hm | hm
      · cases h : s.precision with
        | none => rw [h] at hm; cases hm
        | some p =>
          rw [h] at hm
          rcases List.mem_cons.mp hm with e | hm
          · exact absurd e (by decide)
          · exact (digit_ne _ _ hm).1 rfl
      · cases h : s.type with
        | none => rw [h] at hm; cases hm
        | some t => rw [h] at hm; cases t <;> exact absurd hm (by decide)

/-! ### The value -/

theorem digitChr_code : ∀ c ∈ digitChrs, ∃ cp, c.getCodePoint = .ok cp ∧ CharUtil.isDigit cp = true := by
  have key : ∀ i : Fin 10, ((⟨[UInt8.ofNat (48 + i)]⟩ : Chr).getCodePoint = .ok (48 + i) ∧
    CharUtil.isDigit (48 + i) = true) := by decide +kernel
  intro c hc
  have hall : ∀ c ∈ digitChrs, ∃ i : Fin 10, c = ⟨[UInt8.ofNat (48 + i)]⟩ := by decide
  obtain ⟨i, rfl⟩ := hall c hc
  exact ⟨_, key i⟩

theorem digitChr_shape : ∀ c ∈ digitChrs, Shape c.data := by
  have : ∀ c ∈ digitChrs, ∃ b : UInt8, c.data = [b] ∧ 1 ≤ b ∧ b ≤ 0x7F := by
    intro c hc
    have hall : ∀ c ∈ digitChrs, ∃ i : Fin 10, c = ⟨[UInt8.ofNat (48 + i)]⟩ := by decide
    obtain ⟨i, rfl⟩ := hall c hc
    exact ⟨_, rfl, by revert i; decide, by revert i; decide⟩
  intro c hc
  obtain ⟨b, h1, h2, h3⟩ := this c hc
  rw [h1]
  exact .one b h2 h3

theorem ascii_code (b : UInt8) (hb : b < 0x80) (hd : (⟨[b]⟩ : Chr) ∉ digitChrs) :
    ∃ cp, (⟨[b]⟩ : Chr).getCodePoint = .ok cp ∧ CharUtil.isDigit cp = false := by
  have key : ∀ n < 128, (⟨[UInt8.ofNat n]⟩ : Chr).getCodePoint = .ok n ∧
      ((⟨[UInt8.ofNat n]⟩ : Chr) ∈ digitChrs ∨ CharUtil.isDigit n = false) := by decide +kernel
  have := key b.toNat (by simpa using UInt8.lt_iff_toNat_lt.mp hb)
  rw [UInt8.ofNat_toNat] at this
  exact ⟨_, this.1, this.2.resolve_left hd⟩

theorem fractionDigits_cut (frac tail : Str) (hf : ∀ c ∈ frac, c ∈ digitChrs)
    (ht : ∀ c, tail.head? = some c → ∃ b, c = ⟨[b]⟩ ∧ b < 0x80 ∧ c ∉ digitChrs) :
    ∀ n, fractionDigits (frac ++ tail) n = .ok (frac.take n) := by
  induction frac with
  | nil =>
    intro n
    cases tail with
    | nil => simp [fractionDigits]
    | cons c r =>
      obtain ⟨b, rfl, h1, h2⟩ := ht c rfl
      obtain ⟨cp, h3, h4⟩ := ascii_code b h1 h2
      simp [fractionDigits, h3, h4, bind, Except.bind, pure, Except.pure]
  | cons c frac ih =>
    intro n
    obtain ⟨cp, h3, h4⟩ := digitChr_code c (hf c (by simp))
    cases n with
    | zero => simp [fractionDigits, h3, h4, bind, Except.bind, pure, Except.pure]
    | succ n =>
      simp [fractionDigits, h3, h4, bind, Except.bind, pure, Except.pure,
        ih (fun d hd => hf d (by simp [hd])) n]

theorem search_dot (head rest : Str) (h : ⟨b!"."⟩ ∉ head) :
    Str.search (head ++ ⟨b!"."⟩ :: rest) c!"." = head.length := by
  induction head with
  | nil => simp [Str.search, List.isPrefixOf]
  | cons c head ih =>
    rw [List.cons_append, Str.search]
    have : ¬ (⟨b!"."⟩ : Chr) = c := fun e => h (by rw [← e]; simp)
    simp only [List.isPrefixOf, Bool.and_eq_true, beq_iff_eq, this, false_and, if_false]
    rw [ih (fun hm => h (by simp [hm]))]
    rfl

theorem search_no_dot (s : Str) (h : ⟨b!"."⟩ ∉ s) : Str.search s c!"." = s.length := by
  apply Str.search_none
  rw [occurs_iff_infix]
  rintro ⟨a, b, e⟩
  apply h
  rw [← e]; simp

theorem find_dot (head rest : Str) (h : ⟨b!"."⟩ ∉ head) :
    Str.find (head ++ ⟨b!"."⟩ :: rest) c!"." 0 = .ok head.length := by
  unfold Str.find
  rw [if_neg (by omega), List.drop_zero, search_dot head rest h]
  simp

theorem find_no_dot (s : Str) (h : ⟨b!"."⟩ ∉ s) : Str.find s c!"." 0 = .ok npos := by
  unfold Str.find
  rw [if_neg (by omega), List.drop_zero, search_no_dot s h]
  simp

theorem str_zeros (n : Nat) : Str.str (List.replicate n ⟨b!"0"⟩) = List.replicate n 0x30 := by
  induction n with
  | zero => rfl
  | succ n ih =>
    have h := Str.str_append [⟨b!"0"⟩] (List.replicate n ⟨b!"0"⟩)
    rw [List.singleton_append] at h
    rw [List.replicate_succ, h, ih]
    rfl

theorem places_eq (p : Nat) (frac : Str) :
    places p frac = frac.take p ++ List.replicate (p - (frac.take p).length) ⟨b!"0"⟩ := by
  unfold places
  rw [List.take_append, List.take_replicate, List.length_take]
  congr 2
  omega

theorem floatingText_point (head frac tail : Str) (spec : Specifier) (p : Option Nat)
    (hs : spec.precision = (p.map Int.ofNat).getD (-1)) (hlen : head.length < npos)
    (hh : ⟨b!"."⟩ ∉ head) (hf : ∀ c ∈ frac, c ∈ digitChrs)
    (ht : ∀ c, tail.head? = some c → ∃ b, c = ⟨[b]⟩ ∧ b < 0x80 ∧ c ∉ digitChrs) :
    floatingText (head ++ ⟨b!"."⟩ :: (frac ++ tail)) spec =
      .ok (Str.str (head ++ ⟨b!"."⟩ :: places (p.getD 0) frac)) := by
  have hsub : Str.substring (head ++ ⟨b!"."⟩ :: (frac ++ tail)) 0 (head.length + 1) =
      .ok (head ++ [⟨b!"."⟩]) := by
    unfold Str.substring
    rw [if_neg (by omega)]
    congr 1
    rw [List.drop_zero, Nat.min_eq_left (by simp),
      show head ++ ⟨b!"."⟩ :: (frac ++ tail) = (head ++ [⟨b!"."⟩]) ++ (frac ++ tail) by simp]
    rw [show head.length + 1 = (head ++ [(⟨b!"."⟩ : Chr)]).length by simp, List.take_left]
  have hdrop : (head ++ ⟨b!"."⟩ :: (frac ++ tail)).drop (head.length + 1) = frac ++ tail := by
    rw [show head ++ ⟨b!"."⟩ :: (frac ++ tail) = (head ++ [⟨b!"."⟩]) ++ (frac ++ tail) by simp,
      show head.length + 1 = (head ++ [(⟨b!"."⟩ : Chr)]).length by simp, List.drop_left]
  simp only [floatingText, find_dot _ _ hh, bind, Except.bind]
  rw [if_pos (by omega), hsub]
  simp only [hdrop, hs]
  have hcons : (head ++ ⟨b!"."⟩ :: places (p.getD 0) frac) = (head ++ [⟨b!"."⟩]) ++ places (p.getD 0) frac := by
    simp
  rw [hcons, Str.str_append (head ++ _)]
  match p with
  | none => simp [places, Str.str, pure, Except.pure]
  | some 0 => simp [places, Str.str, pure, Except.pure]
  | some (p + 1) =>
    simp only [Option.map_some, Option.getD_some]
    rw [if_pos (by simp)]
    have e : (Int.ofNat (p + 1)).toNat = p + 1 := rfl
    rw [e, fractionDigits_cut frac tail hf ht, places_eq, Str.str_append, Str.str_append, str_zeros]
    simp [pure, Except.pure]

theorem floatingText_whole (value : Str) (spec : Specifier) (p : Option Nat)
    (hs : spec.precision = (p.map Int.ofNat).getD (-1)) (hh : ⟨b!"."⟩ ∉ value) :
    floatingText value spec = .ok (Str.str (match p.getD 0 with
      | 0 => value
      | q => value ++ ⟨b!"."⟩ :: places q [])) := by
  simp only [floatingText, find_no_dot _ hh, bind, Except.bind]
  rw [if_neg (by simp)]
  match p with
  | none => simp [hs, pure, Except.pure]
  | some 0 => simp [hs, pure, Except.pure]
  | some (p + 1) =>
    simp only [hs, Option.map_some, Option.getD_some]
    rw [if_pos (by simp)]
    have e : (Int.ofNat (p + 1)).toNat = p + 1 := rfl
    have h := Str.str_append [⟨b!"."⟩] (places (p + 1) [])
    rw [List.singleton_append] at h
    rw [e, Str.str_append, h, places_eq, List.take_nil, List.nil_append, str_zeros]
    simp only [pure, Except.pure, List.length_nil, Nat.sub_zero, List.append_assoc]
    rfl

end Caitlyn.Format
