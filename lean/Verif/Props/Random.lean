import Verif.Model.Random
import Mathlib.Tactic.FieldSimp
import Mathlib.Tactic.Linarith
import Mathlib.Tactic.Ring
import Mathlib.Tactic.Positivity
import Mathlib.Algebra.Order.Ring.Rat
import Mathlib.Algebra.Order.Field.Power
import Mathlib.Data.Rat.Floor

/-! # C103: random numbers -/

namespace Caitlyn
open Rand Cmp

/-- C103: for every engine and clock, `Random<T>(min, max)` with `min ≤ max` returns a number from `min` to `max`. -/
theorem C103_range (engine : Nat → Nat) (clock : Nat) (ty : IntTy) (a b : Int) (h : a ≤ b) :
    ∃ v, random engine clock ty (some a) (some b) = .ok v ∧ a ≤ v ∧ v ≤ b := by
  refine ⟨_, by simp only [random, uniformInt, Option.getD_some, if_pos h]; rfl, ?_⟩
  have := Int.emod_nonneg (engine clock : Int) (show b - a + 1 ≠ 0 by omega)
  have := Int.emod_lt_of_pos (engine clock : Int) (show 0 < b - a + 1 by omega)
  omega

/-- C103: every number from `min` to `max` is the result for some engine. -/
theorem C103_reaches_all (clock : Nat) (ty : IntTy) (a b v : Int) (ha : a ≤ v) (hb : v ≤ b) :
    ∃ engine, random engine clock ty (some a) (some b) = .ok v := by
  refine ⟨fun _ => (v - a).toNat, ?_⟩
  simp only [random, uniformInt, Option.getD_some, if_pos (show a ≤ b by omega)]
  rw [Int.toNat_of_nonneg (by omega), Int.emod_eq_of_lt (by omega) (by omega)]
  congr 1
  omega

/-- C103: a call without arguments returns a value of the type: for signed and unsigned types of every width. -/
theorem C103_default (engine : Nat → Nat) (clock : Nat) (ty : IntTy) :
    ∃ v, random engine clock ty none none = .ok v ∧
      (ty.signed = true → -(2 ^ (ty.bits - 1) : Nat) ≤ v ∧ v < (2 ^ (ty.bits - 1) : Nat)) ∧
      (ty.signed = false → 0 ≤ v ∧ v < (2 ^ ty.bits : Nat)) := by
  have p1 : (0 : Int) < (2 ^ (ty.bits - 1) : Nat) := by exact_mod_cast Nat.pos_of_ne_zero (by positivity)
  have p2 : (0 : Int) < (2 ^ ty.bits : Nat) := by exact_mod_cast Nat.pos_of_ne_zero (by positivity)
  have hle : limMin ty ≤ limMax ty := by
    unfold limMin limMax
    split <;> omega
  obtain ⟨v, h1, h2, h3⟩ := C103_range engine clock ty _ _ hle
  refine ⟨v, h1, ?_, ?_⟩
  · intro hs
    simp only [limMin, limMax, hs, if_true] at h2 h3
    omega
  · intro hs
    simp only [limMin, limMax, hs, Bool.false_eq_true, if_false] at h2 h3
    omega

/-- C103: `ValueRange<T>()` is the range of the type: a number is between its ends exactly if the type has it. -/
theorem C103_value_range (ty : IntTy) (v : Int) :
    (valueRange ty).1 ≤ v ∧ v ≤ (valueRange ty).2 ↔
      if ty.signed then -(2 ^ (ty.bits - 1) : Nat) ≤ v ∧ v < (2 ^ (ty.bits - 1) : Nat)
      else 0 ≤ v ∧ v < (2 ^ ty.bits : Nat) := by
  unfold valueRange limMin limMax
  cases ty.signed <;> simp only [Bool.false_eq_true, if_false, if_true] <;> omega

/-- C103 does not hold when `min > max`: the behaviour is undefined, no exception is thrown. -/
theorem C103_fails_order (engine : Nat → Nat) (clock : Nat) (ty : IntTy) (a b : Int) (h : b < a) :
    random engine clock ty (some a) (some b) = .error .ub := by
  simp only [random, uniformInt, Option.getD_some, if_neg (show ¬ a ≤ b by omega)]

/-- C103 (part, rounding is not modelled): a floating point call returns a number from `min` up to, but not including,
`max`, if their difference is a number of the type. -/
theorem C103_real_partial (engine : Nat → Rat) (clock : Nat) (ty : RealTy) (a b : Rat) (h : a < b)
    (hd : b - a ≤ ty.huge) (he : 0 ≤ engine clock ∧ engine clock < 1) :
    ∃ v, randomReal engine clock ty (some a) (some b) = .ok v ∧ a ≤ v ∧ v < b := by
  refine ⟨_, by simp only [randomReal, uniformReal, Option.getD_some, if_pos (And.intro h.le hd)]; rfl, ?_, ?_⟩
  · nlinarith [mul_nonneg he.1 (sub_nonneg.2 h.le)]
  · nlinarith [mul_lt_mul_of_pos_right he.2 (sub_pos.2 h)]

/-- C103 does not hold for the default range of `Double`: the call without arguments never gives a negative number or
zero. -/
theorem C103_fails_default_double (engine : Nat → Rat) (clock : Nat)
    (he : 0 ≤ engine clock ∧ engine clock < 1) :
    ∃ v, randomReal engine clock double none none = .ok v ∧ 0 < v := by
  have h0 : (0 : Rat) < 1 / 2 ^ 1022 := by positivity
  have h1 : (1 : Rat) / 2 ^ 1022 ≤ (2 ^ 53 - 1) * 2 ^ 971 := by
    rw [div_le_iff₀ (by positivity)]
    have a1 : (1 : Rat) ≤ 2 ^ 1022 := one_le_pow₀ (by norm_num)
    have a2 : (1 : Rat) ≤ 2 ^ 971 := one_le_pow₀ (by norm_num)
    have a3 : (1 : Rat) ≤ 2 ^ 53 - 1 := by norm_num
    exact one_le_mul_of_one_le_of_one_le (one_le_mul_of_one_le_of_one_le a3 a2) a1
  have hc : double.tiny ≤ double.huge ∧ double.huge - double.tiny ≤ double.huge := by
    refine ⟨h1, ?_⟩
    have : (0 : Rat) < double.tiny := h0
    linarith
  refine ⟨_, by simp only [randomReal, uniformReal, Option.getD_none, if_pos hc]; rfl, ?_⟩
  have : (0 : Rat) < double.tiny := h0
  nlinarith [mul_nonneg he.1 (sub_nonneg.2 hc.1)]

/-- C103 does not hold for wide ranges of `Double`: `Random(-max, max)` is undefined. -/
theorem C103_fails_wide (engine : Nat → Rat) (clock : Nat) :
    randomReal engine clock double (some (-double.huge)) (some double.huge) = .error .ub := by
  have : (0 : Rat) < double.huge := by
    show (0 : Rat) < (2 ^ 53 - 1) * 2 ^ 971
    exact mul_pos (by norm_num) (by positivity)
  simp only [randomReal, uniformReal, Option.getD_some]
  rw [if_neg]
  rintro ⟨_, h⟩
  linarith

/-- The value of a finite `double`. -/
def Spec.dblValue (neg : Bool) (m : Nat) (e : Int) : Rat := (if neg then -1 else 1) * (m : Rat) * (2 : Rat) ^ e

theorem pow_pos2 (e : Int) : (0 : Rat) < (2 : Rat) ^ e := zpow_pos (by norm_num) e

theorem ltZero_iff (neg : Bool) (m : Nat) (e : Int) :
    ltZero (.finite neg m e) = true ↔ Spec.dblValue neg m e < 0 := by
  unfold ltZero Spec.dblValue
  have hp := pow_pos2 e
  rcases Nat.eq_zero_or_pos m with rfl | hm
  · cases neg <;> simp
  · have hm' : (0 : Rat) < m := by exact_mod_cast hm
    cases neg
    · simp only [Bool.false_and, Bool.false_eq_true, if_false, one_mul, false_iff, not_lt]
      positivity
    · have : (0 : Rat) < m * 2 ^ e := by positivity
      simp only [Bool.true_and, bne_iff_ne, ne_eq, if_true]
      constructor
      · intro _; linarith
      · intro _; omega

theorem scaled (m : Nat) (e : Int) (h : ¬ 0 ≤ e) : (m : Rat) * (2 : Rat) ^ e = m / (2 ^ (-e).toNat : Nat) := by
  obtain ⟨k, rfl⟩ : ∃ k : Nat, e = -(k : Int) := ⟨(-e).toNat, by omega⟩
  rw [show (- -(k : Int)).toNat = k by omega, zpow_neg, zpow_natCast]
  push_cast
  rfl

theorem scaled' (m : Nat) (e : Int) (h : 0 ≤ e) : (m : Rat) * (2 : Rat) ^ e = (m * 2 ^ e.toNat : Nat) := by
  obtain ⟨k, rfl⟩ := Int.eq_ofNat_of_zero_le h
  simp

theorem gtOne_iff (neg : Bool) (m : Nat) (e : Int) :
    gtOne (.finite neg m e) = true ↔ 1 < Spec.dblValue neg m e := by
  unfold gtOne Spec.dblValue
  have hp := pow_pos2 e
  cases neg
  · simp only [Bool.not_false, Bool.true_and, Bool.false_eq_true, if_false, one_mul]
    split
    · rename_i h
      rw [scaled' m e h, decide_eq_true_iff]
      exact_mod_cast Iff.rfl
    · rename_i h
      rw [scaled m e h, decide_eq_true_iff, lt_div_iff₀ (by positivity), one_mul]
      exact_mod_cast Iff.rfl
  · have : (0 : Rat) ≤ m * 2 ^ e := by positivity
    simp only [Bool.not_true, Bool.false_and, Bool.false_eq_true, if_true, false_iff, not_lt]
    linarith

/-- C103: `RandomBoolean(p)` throws `invalid_argument` for every number outside 0..1, infinities included. -/
theorem C103_boolean_rejects (engine : Nat → Nat) (clock : Nat) (neg : Bool) (m : Nat) (e : Int)
    (h : Spec.dblValue neg m e < 0 ∨ 1 < Spec.dblValue neg m e) :
    randomBoolean engine clock (.finite neg m e) = .error .invalidArgument ∧
      randomBoolean engine clock (.inf neg) = .error .invalidArgument := by
  constructor
  · unfold randomBoolean
    rw [if_pos]
    rw [Bool.or_eq_true]
    exact h.imp (ltZero_iff neg m e).2 (gtOne_iff neg m e).2
  · cases neg <;> rfl

/-- C103: for `0 ≤ p ≤ 1`, `RandomBoolean(p)` is true exactly if the number drawn, in `[0, 1)`, is below `p`. -/
theorem C103_boolean (engine : Nat → Nat) (clock : Nat) (neg : Bool) (m : Nat) (e : Int)
    (h0 : 0 ≤ Spec.dblValue neg m e) (h1 : Spec.dblValue neg m e ≤ 1) :
    randomBoolean engine clock (.finite neg m e) =
      .ok (decide (((engine clock % 2 ^ 53 : Nat) : Rat) / 2 ^ 53 < Spec.dblValue neg m e)) := by
  have hz : ltZero (.finite neg m e) = false := by
    rw [← Bool.not_eq_true]; exact fun h => absurd ((ltZero_iff neg m e).1 h) (not_lt.2 h0)
  have ho : gtOne (.finite neg m e) = false := by
    rw [← Bool.not_eq_true]; exact fun h => absurd ((gtOne_iff neg m e).1 h) (not_lt.2 h1)
  unfold randomBoolean bernoulli
  simp only [hz, ho, Bool.or_false, Bool.false_eq_true, if_false]
  have hv : Spec.dblValue neg m e = m * (2 : Rat) ^ e := by
    unfold Spec.dblValue
    cases neg
    · simp
    · have hp := pow_pos2 e
      rcases Nat.eq_zero_or_pos m with rfl | hm
      · simp
      · exfalso
        have hm' : (0 : Rat) < m := by exact_mod_cast hm
        unfold Spec.dblValue at h0
        simp only [if_true] at h0
        nlinarith [mul_pos hm' hp]
  rw [hv]
  generalize engine clock % 2 ^ 53 = k
  split
  · rename_i h
    rw [scaled' m e h]
    congr 1
    rw [decide_eq_decide, div_lt_iff₀ (by positivity)]
    exact_mod_cast Iff.rfl
  · rename_i h
    rw [scaled m e h]
    congr 1
    rw [decide_eq_decide, div_lt_div_iff₀ (by positivity) (by positivity)]
    exact_mod_cast Iff.rfl

theorem countP_lt (n : Nat) (f : Nat → Bool) (c : Nat) (hc : c ≤ n) (hf : ∀ k < n, f k = true ↔ k < c) :
    (List.range n).countP f = c := by
  induction n generalizing c with
  | zero => simp; omega
  | succ n ih =>
    rw [List.range_succ, List.countP_append]
    by_cases h : c ≤ n
    · rw [ih c h (fun k hk => hf k (by omega))]
      have : f n = false := by
        rw [← Bool.not_eq_true, hf n (by omega)]; omega
      simp [this]
    · have e : c = n + 1 := by omega
      subst e
      rw [ih n (by omega) (fun k hk => by rw [hf k (by omega)]; omega)]
      have : f n = true := (hf n (by omega)).2 (by omega)
      simp [this]

/-- C103: of the `2^53` equally likely draws, the share that gives true differs from `p` by less than `2^-53`. -/
theorem C103_boolean_share (clock : Nat) (m : Nat) (e : Int) (h1 : Spec.dblValue false m e ≤ 1) :
    ∃ n, (List.range (2 ^ 53)).countP
          (fun k => randomBoolean (fun _ => k) clock (.finite false m e) matches .ok true) = n ∧
      (Spec.dblValue false m e ≤ n / 2 ^ 53 ∧ (n : Rat) / 2 ^ 53 < Spec.dblValue false m e + 1 / 2 ^ 53) := by
  have h0 : 0 ≤ Spec.dblValue false m e := by
    have := pow_pos2 e
    unfold Spec.dblValue
    simp only [Bool.false_eq_true, if_false]
    positivity
  generalize hp : Spec.dblValue false m e = p at h0 h1
  have hq : (0 : Rat) < 2 ^ 53 := by positivity
  obtain ⟨n, hn1, hn2⟩ : ∃ n : Nat, p * 2 ^ 53 ≤ n ∧ (n : Rat) < p * 2 ^ 53 + 1 := by
    refine ⟨⌈p * 2 ^ 53⌉.toNat, ?_, ?_⟩
    · have := Int.le_ceil (p * 2 ^ 53)
      have h2 : (0 : Int) ≤ ⌈p * 2 ^ 53⌉ := Int.ceil_nonneg (by positivity)
      have h3 : ((⌈p * 2 ^ 53⌉.toNat : Int) : Rat) = (⌈p * 2 ^ 53⌉ : Rat) := by rw [Int.toNat_of_nonneg h2]
      rw [← Int.cast_natCast, h3]
      exact this
    · have := Int.ceil_lt_add_one (p * 2 ^ 53)
      have h2 : (0 : Int) ≤ ⌈p * 2 ^ 53⌉ := Int.ceil_nonneg (by positivity)
      have h3 : ((⌈p * 2 ^ 53⌉.toNat : Int) : Rat) = (⌈p * 2 ^ 53⌉ : Rat) := by rw [Int.toNat_of_nonneg h2]
      rw [← Int.cast_natCast, h3]
      exact this
  refine ⟨n, countP_lt _ _ n ?_ ?_, ?_, ?_⟩
  · have : (n : Rat) < (2 ^ 53 : Nat) + 1 := by push_cast; nlinarith
    have : n < 2 ^ 53 + 1 := by exact_mod_cast this
    omega
  · intro k hk
    have := C103_boolean (fun _ => k) clock false m e (by rw [hp]; exact h0) (by rw [hp]; exact h1)
    rw [this, hp, Nat.mod_eq_of_lt hk]
    have hiff : ((k : Rat) / 2 ^ 53 < p) ↔ k < n := by
      rw [div_lt_iff₀ hq]
      constructor
      · intro h
        have : (k : Rat) < n := lt_of_lt_of_le h hn1
        exact_mod_cast this
      · intro h
        have : (k : Rat) + 1 ≤ n := by exact_mod_cast h
        linarith
    by_cases hb : (k : Rat) / 2 ^ 53 < p
    · simp [decide_eq_true hb, hiff.1 hb]
    · rw [decide_eq_false hb]
      have := mt hiff.2 hb
      simp only [Bool.false_eq_true, false_iff]
      exact this
  · rw [le_div_iff₀ hq]; exact hn1
  · rw [div_lt_iff₀ hq, add_mul]
    have : (1 : Rat) / 2 ^ 53 * 2 ^ 53 = 1 := by field_simp
    rw [this]
    exact hn2

/-- C103: `RandomBoolean(0)` is never true and `RandomBoolean(1)` always. -/
theorem C103_boolean_certain (engine : Nat → Nat) (clock : Nat) (neg : Bool) (e : Int) :
    randomBoolean engine clock (.finite neg 0 e) = .ok false ∧
      randomBoolean engine clock (.finite false 1 0) = .ok true := by
  constructor
  · rw [C103_boolean engine clock neg 0 e (by simp [Spec.dblValue]) (by simp [Spec.dblValue])]
    congr 1
    rw [decide_eq_false_iff_not, not_lt]
    have : Spec.dblValue neg 0 e = 0 := by simp [Spec.dblValue]
    rw [this]
    positivity
  · rw [C103_boolean engine clock false 1 0 (by simp [Spec.dblValue]) (by simp [Spec.dblValue])]
    congr 1
    rw [decide_eq_true_iff, div_lt_iff₀ (by positivity)]
    have : engine clock % 2 ^ 53 < 2 ^ 53 := Nat.mod_lt _ (by positivity)
    simp only [Spec.dblValue, Bool.false_eq_true, if_false, zpow_zero, mul_one, one_mul, Nat.cast_one]
    exact_mod_cast this

/-- C103 does not hold for NaN: it passes the check and the behaviour is undefined. -/
theorem C103_fails_nan (engine : Nat → Nat) (clock : Nat) (neg : Bool) :
    randomBoolean engine clock (.nan neg) = .error .ub := rfl

example : Spec.dblValue false 3 (-2) = 3 / 4 ∧ randomBoolean (fun _ => 2 ^ 52) 0 (.finite false 3 (-2)) = .ok true ∧
    randomBoolean (fun _ => 2 ^ 53 - 1) 0 (.finite false 3 (-2)) = .ok false ∧
    random (fun c => c) 17 ⟨true, 16⟩ (some (-5)) (some 5) = .ok 1 := by
  refine ⟨by norm_num [Spec.dblValue], by decide, by decide, by decide⟩

end Caitlyn
