import Verif.Model.Char
import Verif.Spec.Utf8

/-! Helper lemmas about `Chr`. -/

namespace Caitlyn
namespace Chr

theorem byteAt_cons_zero (b : UInt8) (s) : byteAt (b :: s) 0 = .ok b := by
  simp [byteAt, vecGet]

theorem or_C0 : ∀ x < 32, (0xC0 ||| x : Nat) = x + 0xC0 := by decide
theorem or_80 : ∀ x < 64, (0x80 ||| x : Nat) = x + 0x80 := by decide
theorem or_E0 : ∀ x < 16, (0xE0 ||| x : Nat) = x + 0xE0 := by decide
theorem or_F0 : ∀ x < 8, (0xF0 ||| x : Nat) = x + 0xF0 := by decide

theorem and_3F (x : Nat) : x &&& 0x3F = x % 64 :=
  Nat.and_two_pow_sub_one_eq_mod x 6

/-- Encoding in terms of division and remainder. -/
theorem fromCodePoint_arith (cp : Nat) (h : cp < 0x200000) :
    fromCodePoint cp =
      if cp = 0 then []
      else if cp < 0x80 then [UInt8.ofNat cp]
      else if cp < 0x800 then [UInt8.ofNat (cp / 64 + 0xC0), UInt8.ofNat (cp % 64 + 0x80)]
      else if cp < 0x10000 then
        [UInt8.ofNat (cp / 4096 + 0xE0), UInt8.ofNat (cp / 64 % 64 + 0x80),
         UInt8.ofNat (cp % 64 + 0x80)]
      else
        [UInt8.ofNat (cp / 262144 + 0xF0), UInt8.ofNat (cp / 4096 % 64 + 0x80),
         UInt8.ofNat (cp / 64 % 64 + 0x80), UInt8.ofNat (cp % 64 + 0x80)] := by
  have m := fun x : Nat => or_80 (x % 64) (Nat.mod_lt _ (by decide))
  simp only [fromCodePoint, calculateLength, and_3F, Nat.shiftRight_eq_div_pow, Nat.reducePow, m]
  by_cases h0 : cp = 0
  · simp [h0]
  by_cases h1 : cp < 0x80
  · simp [h0, h1]
  by_cases h2 : cp < 0x800
  · simp [h0, h1, h2, or_C0 (cp / 64) (by omega)]
  by_cases h3 : cp < 0x10000
  · simp [h0, h1, h2, h3, or_E0 (cp / 4096) (by omega)]
  · simp [h0, h1, h2, h3, or_F0 (cp / 262144) (by omega)]

theorem cont_ofNat : ∀ x < 64, isContinuationByte (UInt8.ofNat (x + 0x80)) = true := by decide
theorem cont_and : ∀ x < 64, (UInt8.ofNat (x + 0x80) &&& 0x3F).toNat = x := by decide
theorem lead1 : ∀ x < 128, (UInt8.ofNat x &&& 0x80) = 0 := by decide
theorem lead1' : ∀ x < 128, (UInt8.ofNat x).toNat = x := by decide
theorem lead2 : ∀ x < 32, (UInt8.ofNat (x + 0xC0) &&& 0x80 == 0) = false ∧
    (UInt8.ofNat (x + 0xC0) &&& 0xE0 == 0xC0) = true ∧
    (UInt8.ofNat (x + 0xC0) &&& 0x1F).toNat = x := by decide
theorem lead3 : ∀ x < 16, (UInt8.ofNat (x + 0xE0) &&& 0x80 == 0) = false ∧
    (UInt8.ofNat (x + 0xE0) &&& 0xE0 == 0xC0) = false ∧
    (UInt8.ofNat (x + 0xE0) &&& 0xF0 == 0xE0) = true ∧
    (UInt8.ofNat (x + 0xE0) &&& 0x0F).toNat = x := by decide
theorem lead4 : ∀ x < 8, (UInt8.ofNat (x + 0xF0) &&& 0x80 == 0) = false ∧
    (UInt8.ofNat (x + 0xF0) &&& 0xE0 == 0xC0) = false ∧
    (UInt8.ofNat (x + 0xF0) &&& 0xF0 == 0xE0) = false ∧
    (UInt8.ofNat (x + 0xF0) &&& 0xF8 == 0xF0) = true ∧
    (UInt8.ofNat (x + 0xF0) &&& 0x07).toNat = x := by decide

theorem or_shift (a b k : Nat) (h : b < 2 ^ k) : (a <<< k) ||| b = a * 2 ^ k + b := by
  rw [← Nat.shiftLeft_add_eq_or_of_lt h, Nat.shiftLeft_eq]

/-- The bit-assembly of a 3-byte sequence as arithmetic. -/
theorem assemble3 (a b c : Nat) (hb : b < 64) (hc : c < 64) :
    ((a <<< 12) ||| (b <<< 6)) ||| c = a * 4096 + b * 64 + c := by
  have e : (a <<< 12) ||| (b <<< 6) = ((a * 64 + b) <<< 6) := by
    rw [← or_shift a b 6 hb, Nat.shiftLeft_or_distrib, ← Nat.shiftLeft_add]
  rw [e, or_shift _ _ 6 hc]; omega

theorem assemble4 (a b c d : Nat) (hb : b < 64) (hc : c < 64) (hd : d < 64) :
    (((a <<< 18) ||| (b <<< 12)) ||| (c <<< 6)) ||| d
      = a * 262144 + b * 4096 + c * 64 + d := by
  have e : ((a <<< 18) ||| (b <<< 12)) ||| (c <<< 6) = ((a * 4096 + b * 64 + c) <<< 6) := by
    rw [← assemble3 a b c hb hc, Nat.shiftLeft_or_distrib, Nat.shiftLeft_or_distrib,
      ← Nat.shiftLeft_add, ← Nat.shiftLeft_add]
  rw [e, or_shift _ _ 6 hd]; omega

theorem assemble2 (a b : Nat) (hb : b < 64) : (a <<< 6) ||| b = a * 64 + b :=
  or_shift a b 6 hb

theorem and3F_lt (b : UInt8) : (b &&& 0x3F).toNat < 64 := by
  have : (b &&& 0x3F).toNat = b.toNat &&& 63 := UInt8.toNat_and ..
  rw [this]
  exact Nat.lt_of_le_of_lt Nat.and_le_right (by decide)

theorem getCodePoint_ofCodePoint (cp : Nat) (h : cp < 0x200000) :
    getCodePoint (ofCodePoint cp) = .ok cp := by
  simp only [ofCodePoint, fromCodePoint_arith cp h]
  by_cases h0 : cp = 0
  · subst h0; rfl
  by_cases h1 : cp < 0x80
  · simp [h0, h1, getCodePoint, byteAt, vecGet, bind, Except.bind, lead1 cp h1, lead1' cp h1, pure,
      Except.pure]
  by_cases h2 : cp < 0x800
  · obtain ⟨a, b, c⟩ := lead2 (cp / 64) (by omega)
    have d := cont_and (cp % 64) (by omega)
    simp [h0, h1, h2, getCodePoint, byteAt, vecGet, bind, Except.bind, pure, Except.pure,
      -UInt8.ofNat_add, -UInt8.toNat_and, a, b, c, d, assemble2 _ _ (Nat.mod_lt cp (by decide : 64 > 0))]
    omega
  by_cases h3 : cp < 0x10000
  · obtain ⟨a, b, c, e⟩ := lead3 (cp / 4096) (by omega)
    have d := cont_and (cp % 64) (by omega)
    have d' := cont_and (cp / 64 % 64) (by omega)
    simp [h0, h1, h2, h3, getCodePoint, byteAt, vecGet, bind, Except.bind, pure, Except.pure,
      -UInt8.ofNat_add, -UInt8.toNat_and, a, b, c, d, d', e, assemble3 _ _ _ (Nat.mod_lt _ (by decide : 64 > 0))
        (Nat.mod_lt cp (by decide : 64 > 0))]
    omega
  · obtain ⟨a, b, c, e, f⟩ := lead4 (cp / 262144) (by omega)
    have d := cont_and (cp % 64) (by omega)
    have d' := cont_and (cp / 64 % 64) (by omega)
    have d'' := cont_and (cp / 4096 % 64) (by omega)
    simp [h0, h1, h2, h3, getCodePoint, byteAt, vecGet, bind, Except.bind, pure, Except.pure,
      -UInt8.ofNat_add, -UInt8.toNat_and, a, b, c, d, d', d'', e, f, assemble4 _ _ _ _ (Nat.mod_lt _ (by decide : 64 > 0))
        (Nat.mod_lt _ (by decide : 64 > 0)) (Nat.mod_lt cp (by decide : 64 > 0))]
    omega

theorem fromCodePoint_eq_utf8 (c : Char) (h : c ≠ Char.ofNat 0) :
    fromCodePoint c.val.toNat = String.utf8EncodeChar c := by
  have hv : c.val.toNat < 0x110000 := by
    have := c.valid
    simp only [UInt32.isValidChar, Nat.isValidChar] at this
    omega
  have h0 : c.val.toNat ≠ 0 := by
    intro h'
    apply h
    apply Char.ext
    apply UInt32.toNat_inj.mp
    rw [h']; rfl
  rw [fromCodePoint_arith _ (by omega)]
  simp only [String.utf8EncodeChar, h0, if_false]
  split
  · rw [if_pos (by omega)]
  split
  · rw [if_neg (by omega), if_pos (by omega), Nat.mod_eq_of_lt (by omega : c.val.toNat / 64 < 32)]
  split
  · rw [if_neg (by omega), if_neg (by omega), if_pos (by omega),
      Nat.mod_eq_of_lt (by omega : c.val.toNat / 4096 < 16)]
  · rw [if_neg (by omega), if_neg (by omega), if_neg (by omega),
      Nat.mod_eq_of_lt (by omega : c.val.toNat / 262144 < 8)]

end Chr
end Caitlyn
