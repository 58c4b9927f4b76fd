import Verif.Proofs.BigFloat
import Mathlib.Tactic.FieldSimp
import Mathlib.Tactic.Linarith
import Mathlib.Tactic.Ring
import Mathlib.Tactic.Positivity
import Mathlib.Algebra.Order.Ring.Rat

/-!
# Lemmas about `BigFloat`: the rational numbers denoted by what is printed
-/

namespace Caitlyn
namespace BigFloat
open Caitlyn.Spec BigInt

/-! ### Values of texts -/

theorem digitValue_asc (c : Char) (h : DigitChar c) : digitValue (asc c) = some (c.toNat - 48) := by
  unfold DigitChar at h
  unfold digitValue asc Chr.ofByte
  have hb : (UInt8.ofNat c.toNat).toNat = c.toNat := by simp; omega
  have h1 : (0x30 : UInt8) ≤ UInt8.ofNat c.toNat := by rw [UInt8.le_iff_toNat_le, hb]; exact h.1
  have h2 : UInt8.ofNat c.toNat ≤ 0x39 := by rw [UInt8.le_iff_toNat_le, hb]; exact h.2
  simp only [h1, h2, and_self, if_true, hb]

theorem decValue_fold : ∀ (cs : List Char) (init : Nat), (∀ c ∈ cs, DigitChar c) →
    (txt cs).foldlM (fun acc c => (digitValue c).map (10 * acc + ·)) init = some (Nat.ofDigitChars 10 cs init)
  | [], init, _ => rfl
  | c :: cs, init, h => by
    have hc := h c (by simp)
    simp only [txt, List.map_cons, List.foldlM_cons, digitValue_asc c hc, Option.map_some, Option.bind_eq_bind,
      Option.bind_some]
    have := decValue_fold cs (10 * init + (c.toNat - 48)) (fun d hd => h d (by simp [hd]))
    rw [txt] at this
    rw [this, Nat.ofDigitChars_cons]
    rfl

theorem decValue_txt (cs : List Char) (hne : cs ≠ []) (h : ∀ c ∈ cs, DigitChar c) :
    decValue (txt cs) = some (num cs) := by
  unfold decValue
  rw [if_neg (by simpa [txt] using hne)]
  exact decValue_fold cs 0 h

theorem dropWhile_point (a b : Str) (h : ⟨b!"."⟩ ∉ a) :
    (a ++ ⟨b!"."⟩ :: b).dropWhile (fun c => decide (c ≠ ⟨b!"."⟩)) = ⟨b!"."⟩ :: b ∧
    (a ++ ⟨b!"."⟩ :: b).takeWhile (fun c => decide (c ≠ ⟨b!"."⟩)) = a := by
  have ha : ∀ c ∈ a, decide (c ≠ (⟨b!"."⟩ : Chr)) = true := by
    intro c hc; simp; rintro rfl; exact h hc
  rw [List.dropWhile_append_of_pos ha, List.takeWhile_append_of_pos ha]
  simp

theorem dropWhile_nopoint (a : Str) (h : ⟨b!"."⟩ ∉ a) :
    a.dropWhile (fun c => decide (c ≠ ⟨b!"."⟩)) = [] := by
  have ha : ∀ c ∈ a, decide (c ≠ (⟨b!"."⟩ : Chr)) = true := by
    intro c hc; simp; rintro rfl; exact h hc
  have := List.dropWhile_append_of_pos (l₂ := []) ha
  simpa using this

theorem unsignedValue_point (ip fp : List Char) (hi : ip ≠ []) (hf : fp ≠ []) (h1 : ∀ c ∈ ip, DigitChar c)
    (h2 : ∀ c ∈ fp, DigitChar c) :
    unsignedValue (txt ip ++ ⟨b!"."⟩ :: txt fp) = some ((num ip : Rat) + (num fp : Rat) / 10 ^ fp.length) := by
  unfold unsignedValue
  obtain ⟨e1, e2⟩ := dropWhile_point (txt ip) (txt fp) (txt_nopoint ip h1)
  rw [e1, e2]
  simp only [decValue_txt ip hi h1, decValue_txt fp hf h2, txt_length]
  rfl

theorem unsignedValue_nopoint (ip : List Char) (hi : ip ≠ []) (h1 : ∀ c ∈ ip, DigitChar c) :
    unsignedValue (txt ip) = some (num ip : Rat) := by
  unfold unsignedValue
  rw [dropWhile_nopoint _ (txt_nopoint ip h1)]
  simp only [decValue_txt ip hi h1]
  rfl

/-- The text of a numeral: sign, integer digits, and the fraction if there is one. -/
def numeral (neg : Bool) (ip : List Char) (fp : Option (List Char)) : Str :=
  (if neg then [asc '-'] else []) ++ txt ip ++
    match fp with
    | none => []
    | some fp => ⟨b!"."⟩ :: txt fp

theorem minus_eq : (⟨b!"-"⟩ : Chr) = asc '-' := by decide

theorem asc_ne_minus (c : Char) (h : DigitChar c) : asc c ≠ ⟨b!"-"⟩ := (asc_ne c h).1

theorem denote_unsigned (ip : List Char) (r : Str) (hi : ip ≠ []) (h1 : ∀ c ∈ ip, DigitChar c) :
    denote (txt ip ++ r) = unsignedValue (txt ip ++ r) := by
  cases ip with
  | nil => exact absurd rfl hi
  | cons c cs =>
    have hc := asc_ne_minus c (h1 c (by simp))
    simp only [txt, List.map_cons, List.cons_append, denote, if_neg hc]

theorem denote_signed (r : Str) : denote (asc '-' :: r) = (unsignedValue r).map (- ·) := by
  simp only [denote, minus_eq, if_true]

/-- The value of the number with integer part `i` and fraction `f`: `i.f`. -/
def worth (i : Int) (f : Nat) : Rat :=
  if i < 0 then -((i.natAbs : Rat) + (f : Rat) / 10 ^ width f) else (i.natAbs : Rat) + (f : Rat) / 10 ^ width f

theorem toString_flo (i : Int) (f : Nat) :
    toString (flo i f) = if f = 0 then decimal i else decimal i ++ ⟨b!"."⟩ :: decimal (f : Int) := by
  unfold toString
  rw [flo_int, flo_frac, ← big_nat, toString_big, toString_big]
  by_cases h : f = 0
  · subst h
    rw [if_pos rfl]
    have : ¬ (decimal ((0 : Nat) : Int) ≠ [] ∧ ¬ Str.eqCStr (decimal ((0 : Nat) : Int)) b!"0" = true) := by
      decide
    simp only [this, if_false]
  · rw [if_neg h]
    have : decimal (f : Int) ≠ [] ∧ ¬ Str.eqCStr (decimal (f : Int)) b!"0" = true := by
      refine ⟨decimal_ne_nil _, ?_⟩
      intro he
      unfold Str.eqCStr at he
      have hs : Str.str (decimal (f : Int)) = stdToString f := by
        rw [decimal_eq]
        unfold Str.str
        have ha := toString_ascii (f : Int)
        generalize stdToString (f : Int) = bs at ha ⊢
        induction bs with
        | nil => rfl
        | cons b bs ih =>
          have hb := ha b (by simp)
          have := ih (fun x hx => ha x (by simp [hx]))
          simp only [List.map_cons, List.flatMap_cons, this]
          have : Chr.printed (Chr.ofByte b) = [b] := by
            unfold Chr.printed Chr.ofByte
            have : b ≠ 0 := by rintro rfl; exact absurd hb (by decide)
            simp [this]
          rw [this]; rfl
      rw [hs] at he
      have he : stdToString (f : Int) = stdToString (0 : Int) := by
        have := eq_of_beq he
        rw [this]; decide
      have : decimal (f : Int) = decimal 0 := by rw [decimal_eq, decimal_eq, he]
      have h2 := parse_decimal (f : Int)
      rw [this, parse_decimal] at h2
      injection h2 with h2
      have := (C46_unique 0 (f : Int)).mp h2
      omega
    simp only [if_pos this, Str.pushBack, List.append_assoc, List.singleton_append]

theorem decimal_digits (z : Int) :
    decimal z = (if z < 0 then [asc '-'] else []) ++ txt (Nat.toDigits 10 z.natAbs) := by
  rw [decimal_txt]; split <;> rfl

/-- What is printed denotes `i.f`. -/
theorem denote_flo (i : Int) (f : Nat) : denote (toString (flo i f)) = some (worth i f) := by
  rw [toString_flo]
  have hi := toDigits_digitChar i.natAbs
  have hni : Nat.toDigits 10 i.natAbs ≠ [] := Nat.toDigits_ne_nil
  have hf := toDigits_digitChar f
  have hnf : Nat.toDigits 10 f ≠ [] := Nat.toDigits_ne_nil
  have key : ∀ r v, unsignedValue (txt (Nat.toDigits 10 i.natAbs) ++ r) = some v →
      denote (decimal i ++ r) = some (if i < 0 then -v else v) := by
    intro r v h
    rw [decimal_txt]
    split
    · rw [List.cons_append, denote_signed, h]; rfl
    · rw [denote_unsigned _ _ hni hi, h]
  by_cases h : f = 0
  · subst h
    have := key [] _ (by rw [List.append_nil]; exact unsignedValue_nopoint _ hni hi)
    rw [List.append_nil] at this
    rw [if_pos rfl, this, num_toDigits]
    simp [worth, width_zero]
  · rw [if_neg h]
    have e : decimal (f : Int) = txt (Nat.toDigits 10 f) := by
      rw [decimal_txt, if_neg (by omega)]; simp
    rw [e, key _ _ (unsignedValue_point _ _ hni hnf hi hf), num_toDigits, num_toDigits, toDigits_length]
    have : max 1 (width f) = width f := by rw [width_pos f (by omega)]; omega
    rw [this]; rfl

theorem scaled_frac (n f : Nat) (h : width f ≤ n) : (f : Rat) / 10 ^ width f = (scaled n f : Rat) / 10 ^ n := by
  unfold scaled
  obtain ⟨k, rfl⟩ : ∃ k, n = width f + k := ⟨n - width f, by omega⟩
  rw [Nat.add_sub_cancel_left, pow_add]
  push_cast
  field_simp

/-- The value with the fraction written with `n` digits. -/
theorem worth_scaled (i : Int) (f n : Nat) (h : width f ≤ n) :
    worth i f = if i < 0 then -((i.natAbs : Rat) + (scaled n f : Rat) / 10 ^ n)
      else (i.natAbs : Rat) + (scaled n f : Rat) / 10 ^ n := by
  unfold worth; rw [scaled_frac n f h]

theorem natAbs_nonneg' {i : Int} (h : 0 ≤ i) : (i.natAbs : Rat) = (i : Rat) := by
  obtain ⟨n, rfl⟩ := Int.eq_ofNat_of_zero_le h
  simp

theorem natAbs_neg' {i : Int} (h : i < 0) : (i.natAbs : Rat) = -(i : Rat) := by
  have := natAbs_nonneg' (i := -i) (by omega)
  rw [Int.natAbs_neg] at this
  rw [this]; push_cast; rfl

theorem worth_nonneg (i : Int) (f n : Nat) (h : width f ≤ n) (hi : 0 ≤ i) :
    worth i f = (i : Rat) + (scaled n f : Rat) / 10 ^ n := by
  rw [worth_scaled i f n h, if_neg (by omega), natAbs_nonneg' hi]

theorem worth_neg (i : Int) (f n : Nat) (h : width f ≤ n) (hi : i < 0) :
    worth i f = (i : Rat) - (scaled n f : Rat) / 10 ^ n := by
  rw [worth_scaled i f n h, if_pos hi, natAbs_neg' hi]; ring

theorem scaled_self (f : Nat) : scaled (width f) f = f := by simp [scaled]

/-- The value in terms of all digits. -/
theorem worth_joined (i : Int) (f : Nat) : worth i f = (joined i f : Rat) / 10 ^ max 1 (width f) := by
  have key : (i.natAbs : Rat) + (f : Rat) / 10 ^ width f =
      ((i.natAbs * 10 ^ max 1 (width f) + f : Nat) : Rat) / 10 ^ max 1 (width f) := by
    by_cases h : f = 0
    · subst h; simp [width_zero]
    · have : max 1 (width f) = width f := by rw [width_pos f (by omega)]; omega
      rw [this]; push_cast; field_simp
  unfold worth joined
  split
  · rw [key, Int.cast_neg, Int.cast_natCast, neg_div]
  · rw [key, Int.cast_natCast]

/-! ### Reading numerals -/

/-- The integer part of a numeral as a number with its sign. -/
def signed (neg : Bool) (n : Nat) : Int := if neg then -(n : Int) else n

theorem parse_signed (neg : Bool) (ip : List Char) (hi : ip ≠ []) (h1 : ∀ c ∈ ip, DigitChar c) :
    BigInt.parse ((if neg then [asc '-'] else []) ++ txt ip) = .ok (big (signed neg (num ip))) := by
  cases neg
  · exact parse_digits_nat ip hi h1
  · exact parse_minus_int ip h1

theorem sign_nopoint (neg : Bool) (ip : List Char) (h1 : ∀ c ∈ ip, DigitChar c) :
    ⟨b!"."⟩ ∉ (if neg then [asc '-'] else []) ++ txt ip := by
  have := txt_nopoint ip h1
  cases neg
  · exact this
  · intro h
    rcases List.mem_cons.mp h with e | h
    · exact asc_ne_point '-' (by simp) e.symm
    · exact this h

theorem parse_numeral_point (neg : Bool) (ip fp : List Char) (hi : ip ≠ []) (h1 : ∀ c ∈ ip, DigitChar c)
    (h2 : ∀ c ∈ fp, DigitChar c) (hl : ip.length + fp.length < 2 ^ 60) :
    parse (numeral neg ip (some fp)) = .ok (flo (signed neg (num ip)) (num fp)) := by
  unfold numeral
  rw [parse_point _ _ (sign_nopoint neg ip h1)
    (by rw [npos_val]; cases neg <;> simp [txt] <;> omega)]
  have : orZero ((if neg then [asc '-'] else []) ++ txt ip) = (if neg then [asc '-'] else []) ++ txt ip := by
    unfold orZero
    rw [if_neg (by simp [txt, hi])]
  rw [this, parse_signed neg ip hi h1, orZero_txt fp h2]
  rfl

theorem parse_numeral_int (neg : Bool) (ip : List Char) (hi : ip ≠ []) (h1 : ∀ c ∈ ip, DigitChar c) :
    parse (numeral neg ip none) = .ok (flo (signed neg (num ip)) 0) := by
  unfold numeral
  rw [List.append_nil, parse_nopoint _ (sign_nopoint neg ip h1) (by simp [txt, hi]), parse_signed neg ip hi h1]
  rfl

theorem denote_numeral (neg : Bool) (ip : List Char) (fp : Option (List Char)) (hi : ip ≠ [])
    (h1 : ∀ c ∈ ip, DigitChar c) (hf : ∀ f, fp = some f → f ≠ [] ∧ ∀ c ∈ f, DigitChar c) :
    denote (numeral neg ip fp) = some (
      let v : Rat := match fp with
        | none => (num ip : Rat)
        | some f => (num ip : Rat) + (num f : Rat) / 10 ^ f.length
      if neg then -v else v) := by
  have key : ∀ r v, unsignedValue (txt ip ++ r) = some v →
      denote ((if neg then [asc '-'] else []) ++ txt ip ++ r) = some (if neg then -v else v) := by
    intro r v h
    cases neg
    · exact (denote_unsigned ip r hi h1).trans h
    · simp only [if_true, List.cons_append, List.nil_append]
      rw [denote_signed, h]; rfl
  cases fp with
  | none => exact key [] _ (by rw [List.append_nil]; exact unsignedValue_nopoint ip hi h1)
  | some f =>
    obtain ⟨hn, hd⟩ := hf f rfl
    exact key _ _ (unsignedValue_point ip f hi hn h1 hd)

theorem digit_zero (c : Char) (h : c.toNat = 48) : c = '0' := by
  apply Char.ext
  apply UInt32.toNat_inj.mp
  exact h

/-- A fraction without leading zero has as many digits as its number. -/
theorem width_num (f : List Char) (hd : ∀ c ∈ f, DigitChar c) (hn : f ≠ []) (h0 : f.head? ≠ some '0') :
    width (num f) = f.length := by
  cases f with
  | nil => exact absurd rfl hn
  | cons c cs =>
    have hlt := num_lt (c :: cs) hd
    have e : num (c :: cs) = (c.toNat - 48) * 10 ^ cs.length + num cs := by
      have := num_append [c] cs
      rw [List.singleton_append] at this
      rw [this]
      congr 2
      simp [num, Nat.ofDigitChars_cons]
    have hc := hd c (by simp)
    unfold DigitChar at hc
    have : c.toNat ≠ 48 := fun h => h0 (by simp [digit_zero c h])
    refine width_unique _ cs.length ?_ hlt
    rw [e]
    have := Nat.le_mul_of_pos_left (10 ^ cs.length) (show 0 < c.toNat - 48 by omega)
    omega

/-- A leading zero makes the fraction shorter. -/
theorem width_num_zero (f : List Char) (hd : ∀ c ∈ f, DigitChar c) (h0 : f.head? = some '0') :
    width (num f) < f.length := by
  cases f with
  | nil => simp at h0
  | cons c cs =>
    simp only [List.head?_cons, Option.some.injEq] at h0
    subst h0
    have e : num ('0' :: cs) = num cs := by
      have := num_append ['0'] cs
      rw [List.singleton_append] at this
      rw [this]
      simp [num, Nat.ofDigitChars_cons]
    rw [e]
    have := (width_le (num cs) cs.length).mpr (num_lt cs (fun c hc => hd c (by simp [hc])))
    simp; omega

theorem frac_lt_one (f : Nat) : (f : Rat) / 10 ^ width f < 1 := by
  rw [div_lt_one (by positivity)]
  exact_mod_cast lt_width f

theorem frac_nonneg (f n : Nat) : (0 : Rat) ≤ (f : Rat) / 10 ^ n := by positivity

theorem frac_inj (f m n : Nat) (h : (f : Rat) / 10 ^ m = (f : Rat) / 10 ^ n) : f = 0 ∨ m = n := by
  by_cases h0 : f = 0
  · exact .inl h0
  · right
    have hf : (f : Rat) ≠ 0 := by exact_mod_cast h0
    field_simp at h
    have h : (10 : Nat) ^ n = 10 ^ m := by exact_mod_cast h
    exact (Nat.pow_right_injective (le_refl 10 |>.trans' (by omega)) h).symm

end BigFloat
end Caitlyn
