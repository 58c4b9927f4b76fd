import Verif.Model.Convert
import Verif.Props.BigFloatDouble
import Verif.Proofs.Char

/-!
# Property C160: built-in values given for objects of the library

Reference: the number that the expression has. A `Char` stands for its code point, a `BigInteger` for the number it was made from,
a `BigFloat` for the number its text denotes (`Spec.denote`), a `JsonData` for its number.
-/

namespace Caitlyn
open Caitlyn.Spec Caitlyn.Traits Caitlyn.Convert BigInt BigFloat

theorem direct_char (b : Base) (h : (integer b).isSome = true) : direct .char (.value b) =
    if b = .char then some (.arith .char) else if b = .uint ∨ b = .char32 then some (.arith .uint) else none := by
  cases b <;> first | (simp [integer] at h; done) | decide

theorem direct_bigInteger (b : Base) (h : (integer b).isSome = true) : direct .bigInteger (.value b) =
    if b = .long ∨ b = .ulong then some (.arith b) else none := by
  cases b <;> first | (simp [integer] at h; done) | decide

theorem direct_bigFloat (b : Base) (h : (integer b).isSome = true) : direct .bigFloat (.value b) = some (.arith .double) := by
  cases b <;> first | (simp [integer] at h; done) | decide

theorem direct_builder (b : Base) (h : (integer b).isSome = true) : direct .builder (.value b) = some (.arith .char) := by
  cases b <;> first | (simp [integer] at h; done) | decide

/-- The least and the greatest value of the integer types (LP64). -/
def Spec.Given.range : Base → Option (Int × Int)
  | .bool => some (0, 1)
  | .char | .schar => some (-128, 127)
  | .uchar => some (0, 255)
  | .char16 | .ushort => some (0, 65535)
  | .short => some (-32768, 32767)
  | .wchar | .int => some (-2147483648, 2147483647)
  | .char32 | .uint => some (0, 4294967295)
  | .long | .llong => some (-9223372036854775808, 9223372036854775807)
  | .ulong | .ullong => some (0, 18446744073709551615)
  | _ => none

/-- C160. The integer types and their values, by their least and greatest ones. -/
theorem C160_range (b : Base) (v : Int) : Holds b v ↔ ∃ l u, Spec.Given.range b = some (l, u) ∧ l ≤ v ∧ v ≤ u := by
  cases b <;> simp [Holds, integer, Spec.Given.range] <;> omega

/-- C160. Nothing but numbers can be given as a number: an expression of another type that is not a class of the library, a
text or `nullptr` can be given for no class. -/
theorem C160_other (c : Class) (b : Base) (h : Spec.Given.range b = none) (hf : b ≠ .float ∧ b ≠ .double ∧ b ≠ .ldouble) :
    direct c (.value b) = none := by
  cases b <;> first | (simp [Spec.Given.range] at h; done) | (simp at hf; done) | (cases c <;> rfl)

/-- C160. Which integer types can be given for which class: for `Char` only `char`, `unsigned int` and `char32_t`, for `BigInteger`
only `long` and `unsigned long` (so `BigInteger x(5)` does not compile), for `BigFloat`, `StringBuilder` and `JsonData` every one,
for `String` none. The operators of `BigInteger` and `BigFloat` take the same types, also floating point ones for `BigFloat`. -/
theorem C160_compiles_partial (F : Type) (b : Base) (v : Int) (h : (integer b).isSome = true) :
    ((makeChar b v).isSome = true ↔ b ∈ [.char, .uint, .char32]) ∧
    ((makeBigInteger b v).isSome = true ↔ b ∈ [.long, .ulong]) ∧
    (makeBigFloat b v).isSome = true ∧ (makeBuilder b v).isSome = true ∧ (makeJson (F := F) b v).isSome = true ∧
    direct .string (.value b) = none ∧
    ((call (.value b) Function.withBigInteger.params).isSome = true ↔ b ∈ [.long, .ulong]) ∧
    (call (.value b) Function.withBigFloat.params).isSome = true ∧
    ((call (.value b) Function.withChar.params).isSome = true ↔ b ∈ [.char, .uint, .char32]) := by
  unfold makeChar makeBigInteger makeBigFloat makeBuilder makeJson
  rw [direct_char b h, direct_bigInteger b h, direct_bigFloat b h, direct_builder b h]
  cases b <;> first
    | (simp [integer] at h; done)
    | exact ⟨by simp, by simp, rfl, rfl, rfl, by decide, by decide, by decide, by decide⟩

example : (makeBigInteger .long 5).isSome = true ∧ (makeBigInteger .int 5).isSome = false ∧ (makeChar .int 65).isSome = false ∧
    makeChar .char32 65 = some ⟨b!"A"⟩ := by decide +kernel

/-- C160. A `BigInteger` made from a built-in value is this number. -/
theorem C160_big_integer (b : Base) (v : Int) (hv : Holds b v) (r : Res BigInt) (h : makeBigInteger b v = some r) :
    r = .ok (big v) := by
  have hi : (integer b).isSome = true := by
    unfold Holds at hv
    split at hv <;> simp_all
  unfold makeBigInteger at h
  rw [direct_bigInteger b hi] at h
  by_cases hb : b = .long ∨ b = .ulong
  · rw [if_pos hb] at h
    injection h with h
    subst h
    have : toInteger b v = v := by
      rcases hb with rfl | rfl
      · have hv : -2 ^ 63 ≤ v ∧ v < 2 ^ 63 := hv
        exact Int.bmod_eq_of_le (by omega) (by omega)
      · have hv : 0 ≤ v ∧ v < 2 ^ 64 := hv
        exact Int.emod_eq_of_lt hv.1 hv.2
    rw [this]; exact ofInt_eq v
  · rw [if_neg hb] at h; cases h

example : makeBigInteger .long (-9223372036854775808) = some (.ok (big (-9223372036854775808))) ∧
    Holds .long (-9223372036854775808) := by
  refine ⟨by decide +kernel, by simp [Holds, integer]⟩

theorem roundEven_exact (n b : Nat) (hb : 0 < b) : Dbl.roundEven n b * b = n ↔ b ∣ n := by
  constructor
  · intro h; exact ⟨_, by rw [Nat.mul_comm]; exact h.symm⟩
  · rintro ⟨q, rfl⟩
    unfold Dbl.roundEven
    simp only [Nat.mul_mod_right, Nat.mul_div_cancel_left _ hb]
    rw [if_pos (by omega), Nat.mul_comm]

theorem log_le {n : Nat} (h : n ≠ 0) : 2 ^ n.log2 ≤ n := Nat.log2_self_le h
theorem lt_log (n : Nat) : n < 2 ^ (n.log2 + 1) := Nat.lt_log2_self

/-- An integer is a `double` exactly if the distance of the neighbouring ones divides it. -/
theorem representable (n : Nat) : (∃ m e : Nat, m < 2 ^ 53 ∧ n = m * 2 ^ e) ↔ 2 ^ (n.log2 - 52) ∣ n := by
  constructor
  · rintro ⟨m, e, hm, rfl⟩
    by_cases h0 : m * 2 ^ e = 0
    · rw [h0]; exact Nat.dvd_zero _
    · apply dvd_trans _ (Nat.dvd_mul_left (2 ^ e) m)
      apply pow_dvd_pow
      have h1 := log_le h0
      have h2 : m * 2 ^ e < 2 ^ (53 + e) := by
        rw [pow_add]; exact Nat.mul_lt_mul_of_pos_right hm (by positivity)
      have h3 := (Nat.pow_lt_pow_iff_right (by decide : 1 < 2)).mp (Nat.lt_of_le_of_lt h1 h2)
      omega
  · rintro ⟨q, hq⟩
    refine ⟨q, n.log2 - 52, ?_, by rw [Nat.mul_comm]; exact hq⟩
    have h := lt_log n
    by_contra hm
    have : 2 ^ (n.log2 - 52) * 2 ^ 53 ≤ n := by
      conv => rhs; rw [hq]
      exact Nat.mul_le_mul_left _ (by omega)
    rw [← pow_add] at this
    have := (Nat.pow_lt_pow_iff_right (by decide : 1 < 2)).mp (Nat.lt_of_le_of_lt this h)
    omega

theorem toDouble_spec (v : Int) (hv : v.natAbs < 2 ^ 64) : ∃ m e : Nat, m < 2 ^ 53 ∧ e ≤ 971 ∧
    toDouble v = .finite (decide (v < 0)) m e ∧
    m * 2 ^ e = Dbl.roundEven v.natAbs (2 ^ (v.natAbs.log2 - 52)) * 2 ^ (v.natAbs.log2 - 52) := by
  have hk : v.natAbs.log2 < 64 := by
    by_cases h0 : v.natAbs = 0
    · rw [h0]; decide
    · exact (Nat.log2_lt h0).mpr hv
  have hl := lt_log v.natAbs
  unfold toDouble
  simp only
  generalize hn : v.natAbs = n at *
  have hr : Dbl.roundEven n (2 ^ (n.log2 - 52)) ≤ 2 ^ 53 := by
    have hq : n / 2 ^ (n.log2 - 52) < 2 ^ 53 := by
      rw [Nat.div_lt_iff_lt_mul (by positivity), ← pow_add]
      exact Nat.lt_of_lt_of_le hl (Nat.pow_le_pow_right (by decide) (by omega))
    unfold Dbl.roundEven
    simp only
    split
    · omega
    split
    · omega
    split <;> omega
  by_cases hm : Dbl.roundEven n (2 ^ (n.log2 - 52)) = 2 ^ 53
  · refine ⟨2 ^ 52, n.log2 - 52 + 1, by decide, by omega, ?_, ?_⟩
    · rw [if_pos hm]; rfl
    · rw [hm, pow_succ 2 (n.log2 - 52)]
      generalize 2 ^ (n.log2 - 52) = x
      omega
  · refine ⟨_, n.log2 - 52, by omega, by omega, ?_, rfl⟩
    rw [if_neg hm]

/-- C160. A `BigFloat` made from an integer of any type is the nearest `double`: it is this number exactly if the number is a
`double`, that is a number below 2^53 times a power of two. -/
theorem C160_big_float_partial (b : Base) (v : Int) (hv : Holds b v) :
    ∃ x, makeBigFloat b v = some (.ok x) ∧
      (denote (BigFloat.toString x) = some (v : Rat) ↔ ∃ m e : Nat, m < 2 ^ 53 ∧ v.natAbs = m * 2 ^ e) := by
  have hi : (integer b).isSome = true := by
    unfold Holds at hv
    split at hv <;> simp_all
  have hb : v.natAbs < 2 ^ 64 := by
    unfold Holds at hv
    cases b <;> simp [integer] at hv hi <;> omega
  obtain ⟨m, e, hm, he, hd, hv'⟩ := toDouble_spec v hb
  obtain ⟨n, h1, h2, h3⟩ := C98_double (decide (v < 0)) m e hm (by omega)
  have hn : n = m * 2 ^ e * 1000000 := by
    have hq : binValue m e = ((m * 2 ^ e : Nat) : Rat) := by simp [binValue]
    rw [hq] at h1
    generalize m * 2 ^ e = x at h1 ⊢
    rw [abs_le] at h1
    obtain ⟨a, c⟩ := h1
    have a' : (2 * x * 1000000 : Rat) ≤ 2 * n + 1 := by linarith
    have c' : (2 * n : Rat) ≤ 2 * x * 1000000 + 1 := by linarith
    have a'' : 2 * x * 1000000 ≤ 2 * n + 1 := by exact_mod_cast a'
    have c'' : 2 * n ≤ 2 * x * 1000000 + 1 := by exact_mod_cast c'
    omega
  refine ⟨flo (signed (decide (v < 0)) (n / 1000000)) (n % 1000000), ?_, ?_⟩
  · unfold makeBigFloat
    rw [direct_bigFloat b hi, hd]
    exact congrArg some h3
  · have hz : n % 1000000 = 0 := by omega
    rw [(C98_value_partial (decide (v < 0)) n).mpr ⟨.inl hz, fun _ => .inr hz⟩, representable,
      ← roundEven_exact _ _ (by positivity), ← hv', hn]
    generalize m * 2 ^ e = x
    have hx : ((x * 1000000 : Nat) : Rat) / 10 ^ 6 = x := by push_cast; ring
    rw [hx, Option.some.injEq]
    by_cases hneg : v < 0
    · rw [if_pos (by simpa using hneg)]
      constructor
      · intro h
        have : -(x : Int) = v := by exact_mod_cast h
        omega
      · intro h
        have : -(x : Int) = v := by omega
        exact_mod_cast this
    · rw [if_neg (by simpa using hneg)]
      constructor
      · intro h
        have : (x : Int) = v := by exact_mod_cast h
        omega
      · intro h
        have : (x : Int) = v := by omega
        exact_mod_cast this

/-- C160 fails for `BigFloat`: no odd number beyond 2^53 is kept. -/
theorem C160_big_float_fails (b : Base) (v : Int) (hv : Holds b v) (odd : v % 2 = 1) (big : 2 ^ 53 < v.natAbs) :
    ∃ x, makeBigFloat b v = some (.ok x) ∧ denote (BigFloat.toString x) ≠ some (v : Rat) := by
  obtain ⟨x, h1, h2⟩ := C160_big_float_partial b v hv
  refine ⟨x, h1, fun h => ?_⟩
  obtain ⟨m, e, hm, he⟩ := h2.mp h
  cases e with
  | zero => omega
  | succ e =>
    rw [pow_succ, ← Nat.mul_assoc] at he
    generalize m * 2 ^ e = y at he
    omega

example : Holds .long 9007199254740993 ∧ (9007199254740993 : Int) % 2 = 1 ∧ 2 ^ 53 < (9007199254740993 : Int).natAbs ∧
    (makeBigFloat .bool 1).map (·.map BigFloat.toString) = some (.ok c!"1") := by
  refine ⟨by simp [Holds, integer], by norm_num, by norm_num, by decide +kernel⟩

theorem getCodePoint_bound (c : Chr) (n : Nat) (h : c.getCodePoint = .ok n) : n < 0x200000 := by
  have small : ∀ (m : Nat) (a : UInt8) (k : UInt8), k.toNat ≤ m → (a &&& k).toNat ≤ m := by
    intro m a k hk
    rw [UInt8.toNat_and]
    exact Nat.le_trans Nat.and_le_right hk
  unfold Chr.getCodePoint at h
  cases h0 : Chr.byteAt c.data 0 with
  | error e => rw [h0] at h; cases h
  | ok lead =>
  cases h1 : Chr.byteAt c.data 1 with
  | error e =>
    rw [h0, h1] at h
    simp only [bind, Except.bind, pure, Except.pure] at h
    have := lead.toNat_lt
    repeat' split at h
    all_goals first | (cases h; done) | (injection h with h; omega)
  | ok b1 =>
  have x1 := Chr.and3F_lt b1
  have l1 := small 31 lead 0x1F (by decide)
  have l2 := small 15 lead 0x0F (by decide)
  have l3 := small 7 lead 0x07 (by decide)
  have := lead.toNat_lt
  cases h2 : Chr.byteAt c.data 2 with
  | error e =>
    rw [h0, h1, h2] at h
    simp only [bind, Except.bind, pure, Except.pure] at h
    repeat' split at h
    all_goals first | (cases h; done) | (injection h with h; omega) |
      (injection h with h; rw [Chr.assemble2 _ _ x1] at h; omega)
  | ok b2 =>
  have x2 := Chr.and3F_lt b2
  cases h3 : Chr.byteAt c.data 3 with
  | error e =>
    rw [h0, h1, h2, h3] at h
    simp only [bind, Except.bind, pure, Except.pure] at h
    repeat' split at h
    all_goals first | (cases h; done) | (injection h with h; omega) |
      (injection h with h; rw [Chr.assemble2 _ _ x1] at h; omega) |
      (injection h with h; rw [Chr.assemble3 _ _ _ x1 x2] at h; omega)
  | ok b3 =>
  have x3 := Chr.and3F_lt b3
  rw [h0, h1, h2, h3] at h
  simp only [bind, Except.bind, pure, Except.pure] at h
  repeat' split at h
  all_goals first | (cases h; done) | (injection h with h; omega) |
    (injection h with h; rw [Chr.assemble2 _ _ x1] at h; omega) |
    (injection h with h; rw [Chr.assemble3 _ _ _ x1 x2] at h; omega) |
    (injection h with h; rw [Chr.assemble4 _ _ _ _ x1 x2 x3] at h; omega)

/-- C160. A `Char` made from a built-in value stands for this code point exactly if the value is not negative (a negative `char` is
a byte of a longer sequence) and has at most 21 bits. -/
theorem C160_char_partial (b : Base) (v : Int) (hv : Holds b v) (c : Chr) (h : makeChar b v = some c) :
    (∃ n, c.getCodePoint = .ok n ∧ (n : Int) = v) ↔ 0 ≤ v ∧ v < 0x200000 := by
  have hi : (integer b).isSome = true := by
    unfold Holds at hv
    split at hv <;> simp_all
  unfold makeChar at h
  rw [direct_char b hi] at h
  constructor
  · rintro ⟨n, h1, rfl⟩
    have := getCodePoint_bound c n h1
    omega
  rintro ⟨h0, hl⟩
  by_cases hc : b = .char
  · subst hc
    rw [if_pos rfl] at h
    injection h with h
    subst h
    have hv : -2 ^ 7 ≤ v ∧ v < 2 ^ 7 := by simpa [Holds, integer] using hv
    obtain ⟨n, rfl⟩ := Int.eq_ofNat_of_zero_le h0
    have hn : n < 128 := by omega
    refine ⟨n, ?_, rfl⟩
    have e : (toInteger .uchar (toInteger .char (n : Int))).toNat = n := by
      have e1 : toInteger .char (n : Int) = n := by
        have : toInteger .char (n : Int) = Int.bmod (n : Int) 256 := rfl
        rw [this]
        exact Int.bmod_eq_of_le (by omega) (by omega)
      rw [e1]
      have e2 : toInteger .uchar (n : Int) = n := Int.emod_eq_of_lt (by omega) (by simp; omega)
      rw [e2]; rfl
    rw [e]
    have key : ∀ n < 128, (Chr.ofByte (UInt8.ofNat n)).getCodePoint = .ok n := by decide +kernel
    exact key n hn
  · rw [if_neg hc] at h
    by_cases hu : b = .uint ∨ b = .char32
    · rw [if_pos hu] at h
      injection h with h
      subst h
      have e : toInteger .uint v = v := Int.emod_eq_of_lt h0 (by simp; omega)
      rw [e]
      exact ⟨v.toNat, Chr.getCodePoint_ofCodePoint _ (by omega), by omega⟩
    · rw [if_neg hu] at h; cases h

example : Holds .char (-61) ∧ makeChar .char (-61) = some ⟨[0xC3]⟩ ∧ makeChar .uint 0xE9 = some ⟨b!"é"⟩ := by
  refine ⟨by simp [Holds, integer], by decide +kernel, by decide +kernel⟩

/-- C160. A JSON value made from a truth value is this truth value, one made from another integer type is a number, and it is the
number given exactly if this is below 2^63; only `unsigned long` and `unsigned long long` have others. -/
theorem C160_json_partial (F : Type) (b : Base) (v : Int) (hv : Holds b v) :
    (b = .bool → makeJson (F := F) b v = some (.bool (decide (v = 1)))) ∧
    (b ≠ .bool → ∃ i, makeJson (F := F) b v = some (.int i) ∧ (i = v ↔ v < 2 ^ 63)) := by
  have hi : (integer b).isSome = true := by
    unfold Holds at hv
    split at hv <;> simp_all
  have hb : -2 ^ 63 ≤ v ∧ v < 2 ^ 64 := by
    unfold Holds at hv
    cases b <;> simp [integer] at hv hi <;> omega
  constructor
  · rintro rfl
    have hv : 0 ≤ v ∧ v < 2 := by simpa [Holds, integer] using hv
    obtain rfl | rfl : v = 0 ∨ v = 1 := by omega
    · rfl
    · rfl
  · intro hn
    refine ⟨toInteger .long v, ?_, ?_⟩
    · unfold makeJson
      rw [if_neg hn, if_pos hi]
    · constructor
      · intro h
        have : toInteger .long v < 2 ^ 63 := by
          have := Int.bmod_lt (x := v) (m := 2 ^ 64) (by decide)
          have e : toInteger .long v = Int.bmod v (2 ^ 64) := rfl
          rw [e]
          simp only [Nat.reducePow] at this ⊢
          omega
        omega
      · intro h
        exact Int.bmod_eq_of_le (by simp; omega) (by simp; omega)

example : Holds .ulong (2 ^ 64 - 1) ∧ (makeJson (F := Unit) .ulong (2 ^ 64 - 1)) = some (.int (-1)) := by
  refine ⟨by simp [Holds, integer], by rfl⟩

/-- C160. A `StringBuilder` made from a built-in value of any integer type holds one byte, the value modulo 256: for a `char` this
character. -/
theorem C160_builder_partial (b : Base) (v : Int) (hv : Holds b v) :
    ∃ o, makeBuilder b v = some (.ok o) ∧ o.stream.buf = [UInt8.ofNat (v % 256).toNat] := by
  have hi : (integer b).isSome = true := by
    unfold Holds at hv
    split at hv <;> simp_all
  have hc : (toInteger .uchar (toInteger .char v)).toNat = (v % 256).toNat := by
    have e1 : toInteger .char v = Int.bmod v 256 := rfl
    have e2 : toInteger .uchar (Int.bmod v 256) = Int.bmod v 256 % 256 := rfl
    rw [e1, e2]
    exact congrArg Int.toNat (Int.bmod_emod (x := v) (m := 256))
  refine ⟨BuilderProg.Obj.write ⟨OStr.empty, false⟩ [UInt8.ofNat (v % 256).toNat], ?_, ?_⟩
  · unfold makeBuilder
    rw [direct_builder b hi, hc]
    rfl
  · rfl

/-- C160 fails for `StringBuilder`: of a number that is given for one never the digits are written. -/
theorem C160_builder_fails (b : Base) (v : Int) (hv : Holds b v) (_hb : b ∉ [.char, .schar, .uchar]) :
    ∃ o, makeBuilder b v = some (.ok o) ∧ o.stream.buf ≠ stdToString v := by
  obtain ⟨o, h1, h2⟩ := C160_builder_partial b v hv
  refine ⟨o, h1, ?_⟩
  rw [h2]
  · intro h
    unfold stdToString at h
    rw [toString_chars] at h
    have hlen := congrArg List.length h
    rw [List.length_map] at hlen
    split at hlen
    · rename_i hneg
      simp only [List.length_cons, List.length_nil, toDigits_length] at hlen
      omega
    · rename_i hneg
      rw [if_neg hneg] at h
      rw [toDigits_length] at hlen
      simp only [List.length_cons, List.length_nil] at hlen
      have hn : v.natAbs < 10 ^ 1 := (width_le _ 1).mp (by omega)
      obtain ⟨n, rfl⟩ := Int.eq_ofNat_of_zero_le (by omega : 0 ≤ v)
      have key : ∀ n < 10, [UInt8.ofNat (Int.ofNat n % 256).toNat] ≠
          (Nat.toDigits 10 (Int.ofNat n).natAbs).map fun c => UInt8.ofNat c.toNat := by
        decide +kernel
      exact key n (by omega) h

example : Holds .int 65 ∧ (makeBuilder .int 65).map (·.map (·.stream.buf)) = some (.ok b!"A") := by
  refine ⟨by simp [Holds, integer], by decide +kernel⟩

/-- C160 fails for null pointers: `String`, `Char`, `BigInteger` and `BigFloat` can be made from `nullptr`, which is undefined
behaviour; a `StringBuilder` made from it is empty. The literal `0` is a null pointer for `String`, does not compile for the
others, although other literals do for `BigFloat` and `StringBuilder`. -/
theorem C160_null_fails :
    (∀ c, ofNull c .null = some (if c = .builder then .ok () else .error .ub)) ∧
    (∀ c, ofNull c .zero = if c = .string then some (.error .ub) else none) ∧
    (∀ c, direct c .zero = none ↔ c ≠ .string) ∧
    (∀ c, direct c (.value .int) = none ↔ c ≠ .bigFloat ∧ c ≠ .builder) := by
  refine ⟨?_, ?_, ?_, ?_⟩ <;> intro c <;> cases c <;> decide

/-- C160 fails for calls: every function that takes a `String` takes the literal `0` and reads through a null pointer (`s == 0`,
`s + 0`, `s.Append(0)`), and so does `s.Append(n, 0)`; every function takes `nullptr` and does so. -/
theorem C160_call_fails (f : Function) :
    readsNull f .null = true ∧ (readsNull f .zero = true ↔ f ∉ [.withChar, .withBigInteger, .withBigFloat]) ∧
    ((call .zero f.params).isSome = true ↔ f ∉ [.withChar, .withBigInteger, .withBigFloat]) := by
  cases f <;> decide

/-- C160 fails for `std::string`: a `BigInteger`, `BigFloat` or `StringBuilder` can be made from one by `T x(s)`, but not by
`T x = s` and not in a call. -/
theorem C160_std_string_fails :
    (∀ c, (direct c .stdString).isSome = true) ∧
    (∀ c, (implicit c .stdString).isSome = true ↔ c = .string ∨ c = .char) ∧
    call .stdString Function.withBigInteger.params = none ∧ call .stdString Function.withBigFloat.params = none ∧
    (call .stdString Function.withString.params).isSome = true := by
  refine ⟨?_, ?_, by decide, by decide, by decide⟩ <;> intro c <;> cases c <;> decide

end Caitlyn
