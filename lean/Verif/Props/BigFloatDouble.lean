import Verif.Model.Double
import Verif.Props.BigFloat

/-!
# Properties C98: `BigFloat` from C strings and from `double`

Reference: `Spec.denote`, `flo` and `worth` as in C48; the value of a `double` is a rational number.
-/

namespace Caitlyn
open Caitlyn.Spec BigInt BigFloat

theorem roundEven_near (a b : Nat) (hb : 0 < b) :
    2 * a ≤ 2 * (Dbl.roundEven a b * b) + b ∧ 2 * (Dbl.roundEven a b * b) ≤ 2 * a + b := by
  have h := Nat.div_add_mod a b
  have hr := Nat.mod_lt a hb
  unfold Dbl.roundEven
  simp only
  have e1 : a / b * b = b * (a / b) := Nat.mul_comm _ _
  have e2 : (a / b + 1) * b = b * (a / b) + b := by rw [Nat.add_mul, e1]; omega
  split
  · rw [e1]; omega
  split
  · rw [e2]; omega
  split
  · rw [e1]; omega
  · rw [e2]; omega

/-- The value of `m·2^e`. -/
def binValue (m : Nat) (e : Int) : Rat := (m : Rat) * (2 : Rat) ^ e

theorem millionths_near (m : Nat) (e : Int) :
    |(Dbl.millionths m e : Rat) / 10 ^ 6 - binValue m e| ≤ 1 / 2 / 10 ^ 6 := by
  unfold Dbl.millionths binValue
  split
  · rename_i h
    obtain ⟨k, rfl⟩ := Int.eq_ofNat_of_zero_le h
    have : ((m * 2 ^ (Int.ofNat k).toNat * 1000000 : Nat) : Rat) / 10 ^ 6 - (m : Rat) * (2 : Rat) ^ (Int.ofNat k) = 0 := by
      simp
      ring
    simp only [Int.ofNat_eq_natCast] at this ⊢
    rw [this]; norm_num
  · rename_i h
    obtain ⟨k, rfl⟩ : ∃ k : Nat, e = -(k : Int) := ⟨(-e).toNat, by omega⟩
    rw [show (- -(k : Int)).toNat = k by omega, zpow_neg, zpow_natCast]
    obtain ⟨h1, h2⟩ := roundEven_near (m * 1000000) (2 ^ k) (by positivity)
    generalize Dbl.roundEven (m * 1000000) (2 ^ k) = n at h1 h2
    have h1' : 2 * ((m : Rat) * 1000000) ≤ 2 * ((n : Rat) * 2 ^ k) + 2 ^ k := by exact_mod_cast h1
    have h2' : 2 * ((n : Rat) * 2 ^ k) ≤ 2 * ((m : Rat) * 1000000) + 2 ^ k := by exact_mod_cast h2
    have hp : (0 : Rat) < 2 ^ k := by positivity
    have e : (n : Rat) / 10 ^ 6 - (m : Rat) * (2 ^ k)⁻¹ = ((n : Rat) * 2 ^ k - m * 1000000) / (2 ^ k * 1000000) := by
      field_simp
      ring
    rw [e, abs_le]
    constructor
    · rw [le_div_iff₀ (by positivity)]
      nlinarith
    · rw [div_le_iff₀ (by positivity)]
      nlinarith

theorem roundEven_tie (a b : Nat) (hb : 0 < b)
    (h : 2 * a = 2 * (Dbl.roundEven a b * b) + b ∨ 2 * (Dbl.roundEven a b * b) = 2 * a + b) :
    Dbl.roundEven a b % 2 = 0 := by
  have hd := Nat.div_add_mod a b
  have hr := Nat.mod_lt a hb
  have e1 : a / b * b = b * (a / b) := Nat.mul_comm _ _
  have e2 : (a / b + 1) * b = b * (a / b) + b := by rw [Nat.add_mul, e1]; omega
  unfold Dbl.roundEven at h ⊢
  simp only at h ⊢
  split at h
  · rw [e1] at h; omega
  · rename_i h1
    rw [if_neg h1]
    split at h
    · rw [e2] at h; omega
    · rename_i h2
      rw [if_neg h2]
      split <;> omega

theorem millionths_tie (m : Nat) (e : Int)
    (ht : |(Dbl.millionths m e : Rat) / 10 ^ 6 - binValue m e| = 1 / 2 / 10 ^ 6) : Dbl.millionths m e % 2 = 0 := by
  unfold Dbl.millionths binValue at *
  split at ht
  · rename_i h
    obtain ⟨k, rfl⟩ := Int.eq_ofNat_of_zero_le h
    have : ((m * 2 ^ (Int.ofNat k).toNat * 1000000 : Nat) : Rat) / 10 ^ 6 - (m : Rat) * (2 : Rat) ^ (Int.ofNat k) = 0 := by
      simp
      ring
    simp only [Int.ofNat_eq_natCast] at this ht
    rw [this] at ht
    norm_num at ht
  · rename_i h
    rw [if_neg h]
    obtain ⟨k, rfl⟩ : ∃ k : Nat, e = -(k : Int) := ⟨(-e).toNat, by omega⟩
    rw [show (- -(k : Int)).toNat = k by omega] at ht ⊢
    rw [zpow_neg, zpow_natCast] at ht
    refine roundEven_tie _ _ (by positivity) ?_
    generalize Dbl.roundEven (m * 1000000) (2 ^ k) = n at ht
    have hp : (0 : Rat) < 2 ^ k := by positivity
    have e : (n : Rat) / 10 ^ 6 - (m : Rat) * (2 ^ k)⁻¹ = ((n : Rat) * 2 ^ k - m * 1000000) / (2 ^ k * 1000000) := by
      field_simp
      ring
    rw [e] at ht
    have hq : (2 ^ k * 1000000 : Rat) ≠ 0 := by positivity
    rcases abs_eq (by norm_num) |>.mp ht with h | h
    · right
      rw [div_eq_iff hq] at h
      have : 2 * ((n : Rat) * 2 ^ k) = 2 * ((m : Rat) * 1000000) + 2 ^ k := by linarith
      exact_mod_cast this
    · left
      rw [div_eq_iff hq] at h
      have : 2 * ((m : Rat) * 1000000) = 2 * ((n : Rat) * 2 ^ k) + 2 ^ k := by linarith
      exact_mod_cast this

theorem padded_spec (k n : Nat) (h : n < 10 ^ k) :
    (Dbl.padded k n).length = k ∧ (∀ c ∈ Dbl.padded k n, DigitChar c) ∧ num (Dbl.padded k n) = n := by
  induction k generalizing n with
  | zero =>
    have : n = 0 := by omega
    subst this
    exact ⟨rfl, by simp [Dbl.padded], rfl⟩
  | succ k ih =>
    obtain ⟨h1, h2, h3⟩ := ih (n / 10) (by rw [Nat.pow_succ] at h; omega)
    have hd : ∀ d < 10, DigitChar (Char.ofNat (48 + d)) ∧ num [Char.ofNat (48 + d)] = d := by
      unfold DigitChar; decide +kernel
    obtain ⟨d1, d2⟩ := hd (n % 10) (by omega)
    refine ⟨by simp [Dbl.padded, h1], ?_, ?_⟩
    · intro c hc
      simp only [Dbl.padded, List.mem_append, List.mem_singleton] at hc
      rcases hc with hc | rfl
      · exact h2 c hc
      · exact d1
    · simp only [Dbl.padded]
      rw [num_append, h3, d2]
      simp
      omega

theorem text_finite (neg : Bool) (m : Nat) (e : Int) :
    Str.ofStdString (Dbl.text (.finite neg m e)) =
      .ok (numeral neg (Nat.toDigits 10 (Dbl.millionths m e / 1000000))
        (some (Dbl.padded 6 (Dbl.millionths m e % 1000000)))) := by
  have hd : ∀ c : Char, DigitChar c ∨ c = '-' ∨ c = '.' →
      UInt8.ofNat c.toNat ≠ 0 ∧ UInt8.ofNat c.toNat ≤ 0x7F := by
    have key : ∀ n < 58, 45 ≤ n → UInt8.ofNat n ≠ 0 ∧ UInt8.ofNat n ≤ 0x7F := by decide +kernel
    rintro c (h | rfl | rfl)
    · exact key _ (by unfold DigitChar at h; omega) (by unfold DigitChar at h; omega)
    · decide
    · decide
  obtain ⟨_, hp, _⟩ := padded_spec 6 (Dbl.millionths m e % 1000000) (Nat.mod_lt _ (by decide))
  rw [Str.ofStdString_ascii]
  · congr 1
    unfold Dbl.text Dbl.toChars numeral txt
    simp only [List.map_map, List.map_append, List.map_cons]
    have : (Chr.ofByte ∘ fun c : Char => UInt8.ofNat c.toNat) = asc := rfl
    rw [this]
    cases neg <;> simp <;> rfl
  · intro b hb
    unfold Dbl.text Dbl.toChars at hb
    obtain ⟨c, hc, rfl⟩ := List.mem_map.mp hb
    apply hd
    simp only [List.mem_append, List.mem_cons] at hc
    rcases hc with (hc | hc) | hc | hc
    · cases neg
      · simp at hc
      · simp at hc; exact .inr (.inl hc)
    · exact .inl (toDigits_digitChar _ c hc)
    · exact .inr (.inr hc)
    · exact .inl (hp c hc)

/-- C98. `BigFloat(double)` for every finite `double`: with `n` the number of millionths nearest to its magnitude (the
even one of two), the object has integer part `±n / 10^6` and the fraction `n % 10^6`, as a number. -/
theorem C98_double (neg : Bool) (m : Nat) (e : Int) (hm : m < 2 ^ 53) (he : e ≤ 971) :
    ∃ n : Nat, |(n : Rat) / 10 ^ 6 - binValue m e| ≤ 1 / 2 / 10 ^ 6 ∧
      (|(n : Rat) / 10 ^ 6 - binValue m e| = 1 / 2 / 10 ^ 6 → n % 2 = 0) ∧
      BigFloat.ofDouble (Dbl.text (.finite neg m e)) = .ok (flo (signed neg (n / 1000000)) (n % 1000000)) := by
  refine ⟨Dbl.millionths m e, millionths_near m e, millionths_tie m e, ?_⟩
  obtain ⟨p1, p2, p3⟩ := padded_spec 6 (Dbl.millionths m e % 1000000) (Nat.mod_lt _ (by decide))
  unfold BigFloat.ofDouble
  rw [text_finite]
  simp only [bind, Except.bind]
  have hne : Nat.toDigits 10 (Dbl.millionths m e / 1000000) ≠ [] := by
    intro h
    have := toDigits_length (Dbl.millionths m e / 1000000)
    rw [h] at this; simp at this; omega
  have hlen : (Nat.toDigits 10 (Dbl.millionths m e / 1000000)).length < 1000 := by
    rw [toDigits_length]
    have : width (Dbl.millionths m e / 1000000) ≤ 400 := by
      rw [width_le]
      have hb : Dbl.millionths m e ≤ m * 2 ^ e.toNat * 1000000 + 1 := by
        unfold Dbl.millionths
        split
        · omega
        · rename_i h
          have hz : e.toNat = 0 := by omega
          rw [hz, pow_zero, Nat.mul_one]
          obtain ⟨_, h2⟩ := roundEven_near (m * 1000000) (2 ^ (-e).toNat) (by positivity)
          generalize Dbl.roundEven (m * 1000000) (2 ^ (-e).toNat) = r at h2 ⊢
          have hq : 1 ≤ 2 ^ (-e).toNat := Nat.one_le_two_pow
          generalize 2 ^ (-e).toNat = p at h2 hq
          by_contra hc
          have : m * 1000000 + 2 ≤ r := by omega
          have := Nat.mul_le_mul_right p this
          have h3 : m * 1000000 ≤ m * 1000000 * p := Nat.le_mul_of_pos_right _ hq
          rw [Nat.add_mul] at this
          omega
      have h1 : m * 2 ^ e.toNat ≤ 2 ^ 53 * 2 ^ 971 :=
        Nat.mul_le_mul (Nat.le_of_lt hm) (Nat.pow_le_pow_right (by decide) (by omega))
      have h2 : Dbl.millionths m e / 1000000 ≤ 2 ^ 53 * 2 ^ 971 + 1 := by
        omega
      refine Nat.lt_of_le_of_lt h2 ?_
      decide +kernel
    omega
  have := (C48_parse neg _ hne (fun c hc => toDigits_digitChar _ c hc)).2 _ p2 (by rw [p1]; omega)
  rw [this, num_toDigits, p3]

/-- C98, partial: the value of the object is the value of the `double` rounded to six decimals exactly if the first
decimal is not 0 (or all decimals are) and a negative number is not above -1 (or is zero). -/
theorem C98_value_partial (neg : Bool) (n : Nat) :
    denote (BigFloat.toString (flo (signed neg (n / 1000000)) (n % 1000000))) =
        some (if neg then -((n : Rat) / 10 ^ 6) else (n : Rat) / 10 ^ 6) ↔
      (n % 1000000 = 0 ∨ 100000 ≤ n % 1000000) ∧ (neg = true → 1000000 ≤ n ∨ n % 1000000 = 0) := by
  obtain ⟨p1, p2, p3⟩ := padded_spec 6 (n % 1000000) (Nat.mod_lt _ (by decide))
  have hne : Nat.toDigits 10 (n / 1000000) ≠ [] := by
    intro h
    have := toDigits_length (n / 1000000)
    rw [h] at this; simp at this; omega
  have hw : width (n % 1000000) ≤ 6 := (width_le _ 6).mpr (Nat.mod_lt _ (by decide))
  have hs : worth (signed neg (n / 1000000)) (n % 1000000) =
      if neg = true ∧ 0 < n / 1000000 then
        -(((n / 1000000 : Nat) : Rat) + ((n % 1000000 : Nat) : Rat) / 10 ^ width (n % 1000000))
      else ((n / 1000000 : Nat) : Rat) + ((n % 1000000 : Nat) : Rat) / 10 ^ width (n % 1000000) := by
    unfold worth signed
    cases neg
    · simp only [Bool.false_eq_true, if_false, false_and, Int.natAbs_natCast]
      rw [if_neg (by omega)]
    · by_cases h : 0 < n / 1000000
      · simp only [if_true, Int.natAbs_neg, Int.natAbs_natCast]
        rw [if_pos (by omega), if_pos ⟨trivial, h⟩]
      · have h0 : n / 1000000 = 0 := by omega
        simp [h0]
  have hn : (n : Rat) / 10 ^ 6 = ((n / 1000000 : Nat) : Rat) + ((n % 1000000 : Nat) : Rat) / 10 ^ 6 := by
    have : (n : Rat) = 1000000 * ((n / 1000000 : Nat) : Rat) + ((n % 1000000 : Nat) : Rat) := by
      exact_mod_cast (Nat.div_add_mod n 1000000).symm
    rw [this]
    ring
  have hfr : ((n % 1000000 : Nat) : Rat) / 10 ^ width (n % 1000000) = ((n % 1000000 : Nat) : Rat) / 10 ^ 6 ↔
      (n % 1000000 = 0 ∨ 100000 ≤ n % 1000000) := by
    constructor
    · intro h
      rcases frac_inj _ _ _ h with h | h
      · exact .inl h
      · exact .inr (width_lower _ 5 (by omega))
    · rintro (h | h)
      · simp [h]
      · rw [width_unique (n % 1000000) 5 h (Nat.mod_lt _ (by decide))]
  rw [denote_flo, Option.some.injEq, hs, hn]
  generalize hi : n / 1000000 = i at *
  generalize hf : n % 1000000 = f at *
  have hnn : 1000000 ≤ n ↔ 0 < i := by omega
  rw [hnn]
  have f0 : (0 : Rat) ≤ (f : Rat) / 10 ^ width f := frac_nonneg f _
  have f1 : (0 : Rat) ≤ (f : Rat) / 10 ^ 6 := frac_nonneg f _
  cases neg
  · simp only [Bool.false_eq_true, false_and, if_false, false_implies, and_true]
    rw [add_right_inj, hfr]
  · simp only [true_and, if_true, forall_const]
    by_cases h : 0 < i
    · rw [if_pos h, neg_inj, add_right_inj, hfr]
      simp [h]
    · rw [if_neg h]
      have i0 : i = 0 := by omega
      subst i0
      simp only [Nat.cast_zero, zero_add, Nat.lt_irrefl, false_or]
      constructor
      · intro hh
        have z : (f : Rat) / 10 ^ 6 = 0 := by linarith
        have : f = 0 := by
          rcases div_eq_zero_iff.mp z with z | z
          · exact_mod_cast z
          · norm_num at z
        exact ⟨.inl this, this⟩
      · rintro ⟨_, h0⟩
        simp [h0]

/-- C98. Infinities and NaNs throw `invalid_argument`. -/
theorem C98_not_finite (neg : Bool) :
    BigFloat.ofDouble (Dbl.text (.inf neg)) = .error .invalidArgument ∧
    BigFloat.ofDouble (Dbl.text (.nan neg)) = .error .invalidArgument := by
  cases neg <;> decide +kernel

/-- C98 fails: the object made from 0.0625 prints as 0.62500, the one made from -0.5 as 0.500000. -/
theorem C98_fails :
    (BigFloat.ofDouble (Dbl.text (.finite false 1 (-4)))).map BigFloat.toString = .ok c!"0.62500" ∧
    binValue 1 (-4) = 625 / 10000 ∧
    (BigFloat.ofDouble (Dbl.text (.finite true 1 (-1)))).map BigFloat.toString = .ok c!"0.500000" := by
  refine ⟨by decide +kernel, by norm_num [binValue], by decide +kernel⟩

/-- C98. A C string is read like the `String` of its characters: for every numeral and whatever follows its terminator.
The default constructed number is zero and prints as "0". -/
theorem C98_cstr (neg : Bool) (ip : List Char) (fp : Option (List Char)) (h1 : ∀ c ∈ ip, DigitChar c)
    (h2 : ∀ f, fp = some f → ∀ c ∈ f, DigitChar c) (rest : List UInt8) :
    BigFloat.ofCStr (Str.str (numeral neg ip fp) ++ 0 :: rest) = BigFloat.parse (numeral neg ip fp) ∧
    BigInt.ofCStr (Str.str (numeral neg ip none) ++ 0 :: rest) = BigInt.parse (numeral neg ip none) ∧
    BigFloat.toString BigFloat.default = c!"0" ∧ BigFloat.default = flo 0 0 := by
  have sh : ∀ c : Char, (DigitChar c ∨ c = '-' ∨ c = '.') → Shape (asc c).data := by
    have key : ∀ n < 58, 45 ≤ n → 0x01 ≤ UInt8.ofNat n ∧ UInt8.ofNat n ≤ 0x7F := by decide +kernel
    intro c h
    have : 0x01 ≤ UInt8.ofNat c.toNat ∧ UInt8.ofNat c.toNat ≤ 0x7F := by
      rcases h with h | rfl | rfl
      · exact key _ (by unfold DigitChar at h; omega) (by unfold DigitChar at h; omega)
      · decide
      · decide
    exact Shape.one _ this.1 this.2
  have all : ∀ fp : Option (List Char), (∀ f, fp = some f → ∀ c ∈ f, DigitChar c) →
      ∀ c ∈ numeral neg ip fp, Shape c.data := by
    intro fp h2 c hc
    unfold numeral txt at hc
    simp only [List.mem_append, List.mem_map] at hc
    rcases hc with (hc | ⟨d, hd, rfl⟩) | hc
    · cases neg
      · simp at hc
      · simp at hc; subst hc; exact sh '-' (.inr (.inl rfl))
    · exact sh d (.inl (h1 d hd))
    · cases fp with
      | none => simp at hc
      | some f =>
        rcases List.mem_cons.mp hc with rfl | hc
        · exact sh '.' (.inr (.inr rfl))
        · obtain ⟨d, hd, rfl⟩ := List.mem_map.mp hc
          exact sh d (.inl (h2 f rfl d hd))
  have read : ∀ s : Str, (∀ c ∈ s, Shape c.data) → Str.ofCStr (Str.str s ++ 0 :: rest) = .ok s := by
    intro s hs
    rw [Str.str_shapes s hs, Str.ofCStr_shapes (s.map Chr.data) (by
      intro p hp
      obtain ⟨c, hc, rfl⟩ := List.mem_map.mp hp
      exact hs c hc) rest]
    simp [List.map_map, Function.comp_def]
  refine ⟨?_, ?_, by decide +kernel, by decide +kernel⟩
  · unfold BigFloat.ofCStr
    rw [read _ (all fp h2)]; rfl
  · unfold BigInt.ofCStr
    rw [read _ (all none (by simp))]; rfl

example : (5 : Nat) < 2 ^ 53 ∧ (-1 : Int) ≤ 971 ∧
    BigFloat.ofDouble (Dbl.text (.finite true 5 (-1))) = .ok (flo (-2) 500000) ∧
    BigFloat.toString (flo (-2) 500000) = c!"-2.500000" := by decide +kernel

end Caitlyn
