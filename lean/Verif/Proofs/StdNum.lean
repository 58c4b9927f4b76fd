import Verif.Model.StdNum
import Verif.Proofs.BigIntMul
import Verif.Proofs.StrUtil

/-! # Decimal numbers and the standard parsers -/

namespace Caitlyn
open Caitlyn.Spec BigInt

/-- The byte of an ASCII character. -/
def chByte (c : Char) : UInt8 := UInt8.ofNat c.toNat

namespace StdNum

theorem digit_facts : ∀ n, 48 ≤ n → n ≤ 57 → digitVal (UInt8.ofNat n) = some (n - 48) ∧
    isSpace (UInt8.ofNat n) = false ∧ UInt8.ofNat n ≠ 0x2D ∧ UInt8.ofNat n ≠ 0x2B ∧
    isDigitIn 10 (UInt8.ofNat n) = true ∧ 1 ≤ UInt8.ofNat n ∧ UInt8.ofNat n ≤ 0x7F := by
  have key : ∀ n < 58, 48 ≤ n → digitVal (UInt8.ofNat n) = some (n - 48) ∧
    isSpace (UInt8.ofNat n) = false ∧ UInt8.ofNat n ≠ 0x2D ∧ UInt8.ofNat n ≠ 0x2B ∧
    isDigitIn 10 (UInt8.ofNat n) = true ∧ 1 ≤ UInt8.ofNat n ∧ UInt8.ofNat n ≤ 0x7F := by decide
  exact fun n h1 h2 => key n (by omega) h1

theorem digitsVal_aux : ∀ (cs : List Char) (acc : Nat), (∀ c ∈ cs, DigitChar c) →
    (cs.map chByte).foldl (fun acc b => acc * 10 + (digitVal b).getD 0) acc = Nat.ofDigitChars 10 cs acc
  | [], acc, _ => by simp [Nat.ofDigitChars]
  | c :: cs, acc, h => by
    have hc := h c (by simp)
    obtain ⟨h1, _⟩ := digit_facts c.toNat hc.1 hc.2
    rw [List.map_cons, List.foldl_cons, digitsVal_aux cs _ (fun d hd => h d (by simp [hd])),
      Nat.ofDigitChars_cons]
    congr 1
    unfold chByte
    rw [h1, Option.getD_some, Nat.mul_comm]
    rfl

theorem digitsVal_digits (cs : List Char) (h : ∀ c ∈ cs, DigitChar c) :
    digitsVal 10 (cs.map chByte) = Nat.ofDigitChars 10 cs 0 := digitsVal_aux cs 0 h

theorem takeWhile_digits (cs : List Char) (h : ∀ c ∈ cs, DigitChar c) (tail : List UInt8)
    (ht : ∀ b, tail.head? = some b → isDigitIn 10 b = false) :
    (cs.map chByte ++ tail).takeWhile (isDigitIn 10) = cs.map chByte := by
  induction cs with
  | nil =>
    cases tail with
    | nil => rfl
    | cons b t => simp [ht b rfl]
  | cons c cs ih =>
    have hc := h c (by simp)
    obtain ⟨_, _, _, _, h5, _⟩ := digit_facts c.toNat hc.1 hc.2
    rw [List.map_cons, List.cons_append, List.takeWhile_cons_of_pos (show isDigitIn 10 (chByte c) = true from h5),
      ih (fun d hd => h d (by simp [hd]))]

theorem hexPrefix_ten (s : List UInt8) : hexPrefix 10 s = s := by
  unfold hexPrefix
  split
  · rw [if_neg (by simp)]
  · rfl

theorem parse_digits (cs : List Char) (hne : cs ≠ []) (h : ∀ c ∈ cs, DigitChar c) (tail : List UInt8)
    (ht : ∀ b, tail.head? = some b → isDigitIn 10 b = false) :
    parse 10 (cs.map chByte ++ tail) = some (false, Nat.ofDigitChars 10 cs 0) := by
  unfold parse
  cases cs with
  | nil => exact absurd rfl hne
  | cons c cs =>
    have hc := h c (by simp)
    obtain ⟨_, h2, h3, h4, _⟩ := digit_facts c.toNat hc.1 hc.2
    rw [List.map_cons, List.cons_append, List.dropWhile_cons_of_neg (by simp [chByte, h2]),
      StrUtil.sign_none (chByte c) _ h3 h4]
    simp only [hexPrefix_ten]
    rw [← List.cons_append, ← List.map_cons, takeWhile_digits _ h _ ht, if_neg (by simp),
      digitsVal_digits _ h]

theorem parse_neg_digits (cs : List Char) (hne : cs ≠ []) (h : ∀ c ∈ cs, DigitChar c) (tail : List UInt8)
    (ht : ∀ b, tail.head? = some b → isDigitIn 10 b = false) :
    parse 10 (0x2D :: (cs.map chByte ++ tail)) = some (true, Nat.ofDigitChars 10 cs 0) := by
  unfold parse
  rw [List.dropWhile_cons_of_neg (by decide)]
  simp only [sign, hexPrefix_ten]
  rw [takeWhile_digits _ h _ ht, if_neg (by simpa using hne), digitsVal_digits _ h]

theorem stoul_digits (n : Nat) (tail : List UInt8)
    (ht : ∀ b, tail.head? = some b → isDigitIn 10 b = false) :
    stoul 10 ((Nat.toDigits 10 n).map chByte ++ tail) =
      if n ≥ 2 ^ 64 then .error .outOfRange else .ok n := by
  unfold stoul
  rw [parse_digits _ Nat.toDigits_ne_nil (toDigits_digitChar n) _ ht, Nat.ofDigitChars_ten_toDigits]
  rfl

end StdNum

/-! ### The decimal notation as a `String` -/

theorem decimal_nat (n : Nat) : decimal (n : Int) = (Nat.toDigits 10 n).map asc := by
  unfold decimal
  rw [toString_chars, if_neg (by omega), Int.natAbs_natCast]
  rfl

theorem asc_shape (c : Char) (h : DigitChar c) : Shape (asc c).data := by
  obtain ⟨_, _, _, _, _, h6, h7⟩ := StdNum.digit_facts c.toNat h.1 h.2
  exact .one _ h6 h7

theorem decimal_shape (n : Nat) : ∀ c ∈ decimal (n : Int), Shape c.data := by
  intro c hc
  rw [decimal_nat] at hc
  obtain ⟨d, hd, rfl⟩ := List.mem_map.mp hc
  exact asc_shape d (toDigits_digitChar n d hd)

theorem str_digits (cs : List Char) (h : ∀ c ∈ cs, DigitChar c) : Str.str (cs.map asc) = cs.map chByte := by
  induction cs with
  | nil => rfl
  | cons c cs ih =>
    have := Shape.printed (asc_shape c (h c (by simp)))
    simp only [Str.str, List.map_cons, List.flatMap_cons] at ih ⊢
    rw [ih (fun d hd => h d (by simp [hd]))]
    rw [show Chr.printed (asc c) = (asc c).data from this]
    rfl

theorem str_decimal (n : Nat) : Str.str (decimal (n : Int)) = (Nat.toDigits 10 n).map chByte := by
  rw [decimal_nat, str_digits _ (toDigits_digitChar n)]

end Caitlyn
