import Verif.Props.BigFloat

/-!
# Properties C83-C86: division, powers, roots, signs and copies of `BigFloat`

Reference as for C48-C51: `Spec.denote` is the number a numeral denotes, `flo i f` the object read from the numeral `i.f`
and `worth i f` its value.
-/

namespace Caitlyn
open Caitlyn.Spec BigInt BigFloat

/-! ## C83 -/

/-- C83. Dividing by zero is an exception, for every dividend. -/
theorem C83_zero (i : Int) (f : Nat) (h : Small i f) :
    BigFloat.divide (flo i f) (flo 0 0) = .error .invalidArgument := by
  rw [divide_flo i 0 f 0 h (by unfold Small; decide)]
  simp

/-- C83. The result in all other cases: never a quotient if the divisor has more fraction digits. -/
theorem C83_exact (i j : Int) (f g : Nat) (h1 : Small i f) (h2 : Small j g) (h0 : ¬ (j = 0 ∧ g = 0)) :
    BigFloat.divide (flo i f) (flo j g) =
      if width f < width g then .error .memory
      else pointed ((joined i f).tdiv (joined j g)) (width f - width g) := by
  rw [divide_flo i j f g h1 h2, if_neg h0]

theorem joined_nonneg (i : Int) (f : Nat) (h : 0 ≤ i) :
    joined i f = ((i.natAbs * 10 ^ max 1 (width f) + f : Nat) : Int) := by
  unfold joined; rw [if_neg (by omega)]

/-- C83, partial: for non-negative numbers that both have no fraction, or both have one and the divisor's is not longer,
the quotient is the exact one, cut off after as many digits as the dividend's fraction is longer -- unless the digits
kept begin with zero. Missing: negative numbers, and all other lengths. -/
theorem C83_partial (i j : Int) (f g : Nat) (h1 : Small i f) (h2 : Small j g) (hi : 0 ≤ i) (hj : 0 ≤ j)
    (h0 : ¬ (j = 0 ∧ g = 0)) (hz : f = 0 ↔ g = 0) (hw : width g ≤ width f)
    (hd : let t := width f - width g
      let last := (joined i f).natAbs / (joined j g).natAbs % 10 ^ t
      last = 0 ∨ 10 ^ t ≤ 10 * last) :
    ∃ r v, BigFloat.divide (flo i f) (flo j g) = .ok r ∧ denote (BigFloat.toString r) = some v ∧
      v ≤ worth i f / worth j g ∧ worth i f / worth j g < v + 1 / 10 ^ (width f - width g) ∧
      ∃ k : Nat, v = (k : Rat) / 10 ^ (width f - width g) := by
  rw [C83_exact i j f g h1 h2 h0, if_neg (by omega)]
  have hm : max 1 (width f) = max 1 (width g) + (width f - width g) := by
    by_cases hf : f = 0
    · have := hz.mp hf; subst hf; subst this; rfl
    · have hg : g ≠ 0 := fun h => hf (hz.mpr h)
      rw [width_max f hf, width_max g hg]; omega
  have hval : worth i f / worth j g = ((joined i f : Rat) / joined j g) / 10 ^ (width f - width g) := by
    rw [worth_joined, worth_joined, hm, pow_add]
    have : (joined j g : Rat) ≠ 0 := by
      have := (joined_eq_zero j g).not.mpr h0
      exact_mod_cast this
    field_simp
  rw [hval]
  have hA := joined_nonneg i f hi
  have hB := joined_nonneg j g hj
  have hB0 := (joined_eq_zero j g).not.mpr h0
  generalize i.natAbs * 10 ^ max 1 (width f) + f = A at hA
  generalize j.natAbs * 10 ^ max 1 (width g) + g = B at hB
  rw [hA, hB] at hd ⊢
  rw [hB] at hB0
  simp only [Int.natAbs_natCast] at hd
  have hB0 : 0 < B := by omega
  generalize width f - width g = t at hd ⊢
  have hq : ((A : Int).tdiv B) = ((A / B : Nat) : Int) := rfl
  rw [hq]
  have hp : pointed ((A / B : Nat) : Int) t = .ok (flo ((A / B / 10 ^ t : Nat) : Int) (A / B % 10 ^ t)) := by
    unfold pointed
    rw [if_pos (Int.natCast_nonneg _), Int.natAbs_natCast]
  have hv := (pointed_value _ t _ hp (.inl (Int.natCast_nonneg _))).mpr hd
  refine ⟨_, _, hp, hv, ?_, ?_, A / B, ?_⟩
  · have hBq : (0 : Rat) < B := by exact_mod_cast hB0
    apply div_le_div_of_nonneg_right _ (by positivity)
    push_cast
    rw [le_div_iff₀ hBq]
    exact_mod_cast Nat.div_mul_le_self A B
  · have hBq : (0 : Rat) < B := by exact_mod_cast hB0
    rw [← add_div]
    apply div_lt_div_of_pos_right _ (by positivity)
    push_cast
    rw [div_lt_iff₀ hBq]
    have : A < (A / B + 1) * B := by
      have h1 := Nat.div_add_mod A B
      have h2 := Nat.mod_lt A hB0
      rw [Nat.add_mul, Nat.mul_comm]; omega
    exact_mod_cast this
  · push_cast; rfl

/-- C83 is false as stated: 1 / 0.5 exhausts the memory, 2.5 / 5 = 0 and 15.5 / 5 = 0.3: a tenth of the quotient, cut off.
(7.5 / 2.5 = 3 and 1 / 3 = 0 are cases of `C83_partial`.) -/
theorem C83_fails :
    BigFloat.calc BigFloat.divide c!"1" c!"0.5" = .error .memory ∧
    BigFloat.calc BigFloat.divide c!"2.5" c!"5" = .ok c!"0" ∧
    BigFloat.calc BigFloat.divide c!"7.5" c!"2.5" = .ok c!"3" ∧
    BigFloat.calc BigFloat.divide c!"15.5" c!"5" = .ok c!"0.3" ∧
    BigFloat.calc BigFloat.divide c!"1" c!"3" = .ok c!"0" := by decide +kernel

/-! ## C84 -/

/-- C84. A negative exponent is an exception; the zeroth power is 1. -/
theorem C84_small (i : Int) (f fuel : Nat) (hf : 0 < fuel) :
    (∀ e : Int, e < 0 → BigFloat.pow fuel (flo i f) e = .error .invalidArgument) ∧
    BigFloat.pow fuel (flo i f) 0 = .ok (flo 1 0) := by
  constructor
  · intro e he
    unfold BigFloat.pow
    rw [if_pos he]
  · unfold BigFloat.pow
    obtain ⟨n, rfl⟩ : ∃ n, fuel = n + 1 := ⟨fuel - 1, by omega⟩
    rw [if_neg (by omega), parse_one_flo]
    simp only [bind, Except.bind, BigFloat.powLoop, Int.lt_irrefl, if_false]

theorem small_int (i : Int) (h : width i.natAbs < 2 ^ 57) : Small i 0 := by
  unfold Small; rw [width_zero]; omega

/-- The larger of 1 and the absolute value. -/
def atLeast (i : Int) : Nat := max 1 i.natAbs

theorem atLeast_square (b : Int) : 100 * atLeast (100 * (b * b)) ≤ (100 * atLeast b) ^ 2 := by
  unfold atLeast
  have e : (100 * (b * b)).natAbs = 100 * (b.natAbs * b.natAbs) := by rw [Int.natAbs_mul, Int.natAbs_mul]; rfl
  rw [e, Nat.pow_two]
  generalize b.natAbs = n
  rcases Nat.eq_zero_or_pos n with h | h
  · subst h; decide
  · have h1 : max 1 n = n := by omega
    have h2 : 0 < n * n := Nat.mul_pos h h
    rw [h1, Nat.max_eq_right (by omega)]
    have : 100 * n * (100 * n) = 100 * (100 * (n * n)) := by ring
    omega

theorem powLoop_int : ∀ (n : Nat) (r b : Int) (e M : Nat), e < n →
    atLeast r * (100 * atLeast b) ^ (2 * e) ≤ M → width M < 2 ^ 57 →
    BigFloat.powLoop n (flo r 0) (flo b 0) e = .ok (flo (r * (100 * b) ^ e) 0)
  | 0, _, _, _, _, h, _, _ => by omega
  | n + 1, r, b, e, M, h, hM, hw => by
    rw [BigFloat.powLoop]
    by_cases he : e = 0
    · subst he; simp
    · rw [if_pos (by omega)]
      have hB : 1 ≤ atLeast b := by unfold atLeast; omega
      have hR : 1 ≤ atLeast r := by unfold atLeast; omega
      have hrM : r.natAbs ≤ M := by
        refine Nat.le_trans ?_ hM
        calc r.natAbs ≤ atLeast r := by unfold atLeast; omega
          _ ≤ _ := Nat.le_mul_of_pos_right _ (Nat.pow_pos (by omega))
      have hbM : b.natAbs ≤ M := by
        refine Nat.le_trans ?_ hM
        calc b.natAbs ≤ (100 * atLeast b) ^ 1 := by rw [Nat.pow_one]; unfold atLeast; omega
          _ ≤ (100 * atLeast b) ^ (2 * e) := Nat.pow_le_pow_right (by omega) (by omega)
          _ ≤ _ := Nat.le_mul_of_pos_left _ (by omega)
      have hsr := small_int r (Nat.lt_of_le_of_lt (width_mono hrM) hw)
      have hsb := small_int b (Nat.lt_of_le_of_lt (width_mono hbM) hw)
      have hsq := atLeast_square b
      have hbb := multiply_int b b hsb hsb
      have hrb := multiply_int r b hsr hsb
      have hdiv : (e : Int).tdiv 2 = ((e / 2 : Nat) : Int) := rfl
      have hmod : (e : Int).tmod 2 = ((e % 2 : Nat) : Int) := rfl
      rw [hmod, hdiv, hbb, hrb]
      have hpow : (100 * atLeast (100 * (b * b))) ^ (2 * (e / 2)) ≤ (100 * atLeast b) ^ (2 * (2 * (e / 2))) := by
        rw [Nat.pow_mul (100 * atLeast b) 2 (2 * (e / 2))]
        exact Nat.pow_le_pow_left hsq _
      have hint : (100 * (100 * (b * b)) : Int) ^ (e / 2) = (100 * b) ^ (2 * (e / 2)) := by
        rw [pow_mul]; congr 1; ring
      by_cases ho : e % 2 = 1
      · rw [ho]
        simp only [Int.natCast_one, if_true, bind, Except.bind]
        have hnew : atLeast (100 * (r * b)) ≤ atLeast r * (100 * atLeast b) := by
          unfold atLeast
          have e1 : (100 * (r * b)).natAbs = 100 * (r.natAbs * b.natAbs) := by rw [Int.natAbs_mul, Int.natAbs_mul]; rfl
          rw [e1]
          have : r.natAbs * b.natAbs ≤ max 1 r.natAbs * max 1 b.natAbs := Nat.mul_le_mul (by omega) (by omega)
          have e2 : max 1 r.natAbs * (100 * max 1 b.natAbs) = 100 * (max 1 r.natAbs * max 1 b.natAbs) := by ring
          have : 0 < max 1 r.natAbs * max 1 b.natAbs := Nat.mul_pos (by omega) (by omega)
          rw [e2]
          omega
        rw [powLoop_int n _ _ (e / 2) M (by omega) ?_ hw]
        · congr 2
          rw [hint]
          have : e = 2 * (e / 2) + 1 := by omega
          conv => rhs; rw [this, pow_succ]
          ring
        · refine Nat.le_trans (Nat.mul_le_mul hnew hpow) (Nat.le_trans ?_ hM)
          rw [Nat.mul_assoc, ← Nat.pow_succ']
          exact Nat.mul_le_mul_left _ (Nat.pow_le_pow_right (by omega) (by omega))
      · have h0 : e % 2 = 0 := by omega
        rw [h0]
        simp only [Int.natCast_zero, bind, Except.bind]
        rw [if_neg (by decide)]
        show BigFloat.powLoop n (flo r 0) (flo (100 * (b * b)) 0) ((e / 2 : Nat) : Int) = _
        rw [powLoop_int n _ _ (e / 2) M (by omega) ?_ hw]
        · congr 2
          rw [hint]
          have : e = 2 * (e / 2) := by omega
          conv => rhs; rw [this]
        · refine Nat.le_trans (Nat.mul_le_mul_left _ hpow) (Nat.le_trans ?_ hM)
          exact Nat.mul_le_mul_left _ (Nat.pow_le_pow_right (by omega) (by omega))

/-- C84 is false as stated: the power of an integer is `100 ^ e` times too large, for every base and exponent. -/
theorem C84_integers_fails (i : Int) (e fuel : Nat) (hf : e < fuel)
    (hs : width ((100 * max 1 i.natAbs) ^ (2 * e)) < 2 ^ 57) :
    ∃ r, BigFloat.pow fuel (flo i 0) e = .ok r ∧ denote (BigFloat.toString r) = some (100 ^ e * worth i 0 ^ e) := by
  refine ⟨flo ((100 * i) ^ e) 0, ?_, ?_⟩
  · unfold BigFloat.pow
    rw [if_neg (by omega), parse_one_flo]
    simp only [bind, Except.bind]
    have h := powLoop_int fuel 1 i e ((100 * max 1 i.natAbs) ^ (2 * e)) hf (by simp [atLeast]) hs
    rw [h, Int.one_mul]
  · rw [denote_flo]
    congr 1
    have : (10 : Rat) ^ max 1 (width 0) = 10 := by simp [width_zero]
    rw [worth_joined, worth_joined, joined_int, joined_int, this, ← mul_pow]
    push_cast
    rw [mul_div_cancel_left₀ _ (by norm_num), mul_div_cancel_left₀ _ (by norm_num)]

/-- C84 is false as stated also for fractions: 2.5 to the power 1 is 25. -/
theorem C84_fails :
    (do return BigFloat.toString (← BigFloat.pow 9 (← BigFloat.parse c!"2.5") 1)) = Except.ok c!"25" ∧
    (do return BigFloat.toString (← BigFloat.pow 9 (← BigFloat.parse c!"3") 2)) = Except.ok c!"90000" := by
  decide +kernel

/-! ## C85 -/

theorem less_one (i : Int) (f : Nat) (h : i ≤ 0) :
    BigFloat.lessThan (flo 1 0) (flo i f) = false ∧ BigFloat.equal (flo 1 0) (flo i f) = false := by
  rw [lessThan_flo, equal_flo, if_neg (by omega), if_neg (by omega)]
  constructor
  · rw [decide_eq_false_iff_not]; omega
  · rw [decide_eq_false_iff_not]; omega

/-- C85. `Sqrt` of a number below 1, or of 1, is the number itself: correct for 0 and 1 only. No exception for negative
numbers. -/
theorem C85_itself_fails (i : Int) (f fuel : Nat) (hf : 0 < fuel) (h : i ≤ 0 ∨ i = 1 ∧ f = 0) :
    BigFloat.sqrt fuel (flo i f) = .ok (flo i f) := by
  obtain ⟨n, rfl⟩ : ∃ n, fuel = n + 1 := ⟨fuel - 1, by omega⟩
  unfold BigFloat.sqrt
  rw [flo_neg, parse_zero_flo, parse_one_flo]
  simp only [bind, Except.bind, Bool.false_eq_true, if_false, equal_flo]
  by_cases h1 : i = 0 ∧ f = 0
  · simp [h1]
  · by_cases h2 : i = 1 ∧ f = 0
    · simp [h2]
    · have hi : i ≤ 0 := by rcases h with h | h; exact h; exact absurd h h2
      rw [decide_eq_false h1, decide_eq_false h2]
      obtain ⟨a, b⟩ := less_one i f hi
      simp only [Bool.or_self, Bool.false_eq_true, if_false, BigFloat.sqrtLoop, a, b]

/-- C85 is false as stated: `Sqrt` of a number above 1 with a fraction never returns. -/
theorem C85_diverges_fails (i : Int) (f fuel : Nat) (hi : 1 ≤ i) (hf : f ≠ 0) :
    BigFloat.sqrt fuel (flo i f) = .error .fuel := by
  unfold BigFloat.sqrt
  rw [flo_neg, parse_zero_flo, parse_one_flo]
  simp only [bind, Except.bind, Bool.false_eq_true, if_false, equal_flo]
  rw [decide_eq_false (by omega), decide_eq_false (by omega)]
  simp only [Bool.or_self, Bool.false_eq_true, if_false]
  cases fuel with
  | zero => rfl
  | succ n =>
    have hl : BigFloat.lessThan (flo 1 0) (flo i f) = true := by
      rw [lessThan_flo]
      split
      · simp; omega
      · rw [if_neg (by omega), decide_eq_true_eq]; omega
    have ha : BigFloat.add (n + 1) (flo 1 0) (flo i f) = .error .fuel := by
      apply add_diverges
      simp [hf]
    simp only [BigFloat.sqrtLoop, hl, Bool.true_or, if_true, bind, Except.bind, ha]

theorem add_int (i j : Int) (fuel : Nat) (hi : 0 ≤ i) (h1 : Small i 0) (h2 : Small j 0) (hf : 0 < fuel) :
    BigFloat.add fuel (flo i 0) (flo j 0) = .ok (flo (i + j) 0) := by
  rw [add_flo i j 0 0 fuel (by simp) (by simpa [width_zero] using hf) h1 h2]
  simp only [scaled_zero, width_zero]
  have : addI i j = i + j := by unfold addI; rw [if_neg (by omega)]
  rw [this]
  simp

theorem subtract_int (i j : Int) (fuel : Nat) (hi : 0 ≤ i) (hj : 0 ≤ j) (h1 : Small i 0) (h2 : Small j 0) (hf : 0 < fuel) :
    BigFloat.subtract fuel (flo i 0) (flo j 0) = .ok (flo (i - j) 0) := by
  rw [subtract_flo i j 0 0 fuel (by simp) (by simpa [width_zero] using hf) h1 h2]
  simp only [scaled_zero, width_zero]
  have : subI i j = i - j := by unfold subI; rw [if_pos ⟨hi, hj⟩]
  rw [this]
  simp

theorem divide_two (x : Nat) (h : Small x 0) : BigFloat.divide (flo x 0) (flo 2 0) = .ok (flo ((x / 2 : Nat) : Int) 0) := by
  rw [divide_flo _ 2 0 0 h (by unfold Small; decide), if_neg (by omega), if_neg (by omega), joined_int, joined_int, width_zero]
  have : (10 * (x : Int)).tdiv (10 * 2) = ((x / 2 : Nat) : Int) := by
    rw [show (10 * (x : Int)) = ((10 * x : Nat) : Int) by push_cast; rfl]
    show (((10 * x) / 20 : Nat) : Int) = _
    congr 1; omega
  rw [this]
  unfold pointed
  rw [if_pos (Int.natCast_nonneg _), Int.natAbs_natCast]
  simp [Nat.mod_one]

theorem sqrtLoop_int (N fuel : Nat) (hN : width N < 2 ^ 56) (hf : 0 < fuel) : ∀ (n l h : Nat), 1 ≤ l → l ≤ h + 1 → h ≤ N → h + 1 - l < n →
    100 * ((l - 1) * (l - 1)) ≤ N → N < 100 * ((h + 1) * (h + 1)) →
    ∃ s : Nat, BigFloat.sqrtLoop fuel (flo N 0) n (flo l 0) (flo h 0) = .ok (flo s 0) ∧
      100 * (s * s) ≤ N ∧ N < 100 * ((s + 1) * (s + 1))
  | 0, _, _, _, _, _, hn, _, _ => by omega
  | n + 1, l, h, hl, hlh, hh, hn, hlow, hhigh => by
    rw [BigFloat.sqrtLoop]
    have small : ∀ x : Nat, x ≤ 2 * N + 1 → Small x 0 := by
      intro x hx
      apply small_int
      rw [Int.natAbs_natCast]
      have h1 := width_mono hx
      have h2 : width (2 * N + 1) ≤ width N + 1 := by
        rw [width_le, Nat.pow_succ]
        have := lt_width N
        omega
      omega
    have hcond : (BigFloat.lessThan (flo l 0) (flo h 0) || BigFloat.equal (flo l 0) (flo h 0)) = decide (l ≤ h) := by
      rw [lessThan_flo, equal_flo]
      by_cases e : l = h
      · subst e; simp
      · have : ¬ ((l : Int) = h) := by omega
        rw [if_neg this, if_neg (by omega)]
        simp only [this, false_and, decide_false, Bool.or_false]
        apply Bool.decide_congr; omega
    rw [hcond]
    by_cases hle : l ≤ h
    · rw [decide_eq_true hle, if_pos rfl, add_int l h fuel (by omega) (small l (by omega)) (small h (by omega)) hf,
        parse_two_flo, parse_one_flo]
      simp only [bind, Except.bind]
      rw [show ((l : Int) + h) = ((l + h : Nat) : Int) by push_cast; rfl, divide_two _ (small _ (by omega))]
      simp only []
      generalize hm : (l + h) / 2 = m
      have hlm : l ≤ m := by omega
      have hmh : m ≤ h := by omega
      have hsm := small m (by omega)
      unfold BigFloat.sqr
      rw [multiply_int m m hsm hsm]
      simp only []
      have hsq : (100 * ((m : Int) * m)) = ((100 * (m * m) : Nat) : Int) := by push_cast; rfl
      rw [hsq, equal_flo, lessThan_flo]
      generalize hS : 100 * (m * m) = S
      by_cases he : S = N
      · have hc : decide ((S : Int) = N ∧ 0 = 0) = true := by simp [he]
        rw [hc, if_pos rfl]
        refine ⟨m, rfl, by omega, ?_⟩
        have : (m + 1) * (m + 1) = m * m + 2 * m + 1 := by ring
        rw [this]; omega
      · have hc : decide ((S : Int) = N ∧ 0 = 0) = false := by
          rw [decide_eq_false_iff_not]; omega
        have hless : (if (S : Int) = N then decide (0 < 0) else if (S : Int) < 0 ∧ (N : Int) < 0 then decide ((N : Int) < S)
            else decide ((S : Int) < N)) = decide (S < N) := by
          rw [if_neg (by omega), if_neg (by omega)]
          apply Bool.decide_congr; omega
        rw [hc, hless]
        simp only [Bool.false_eq_true, if_false]
        by_cases hlt : S < N
        · rw [decide_eq_true hlt, if_pos rfl, add_int m 1 fuel (by omega) hsm (by unfold Small; decide) hf]
          simp only []
          have := sqrtLoop_int N fuel hN hf n (m + 1) h (by omega) (by omega) hh (by omega)
            (by rw [Nat.add_sub_cancel]; omega) hhigh
          simpa using this
        · rw [decide_eq_false hlt]
          simp only [Bool.false_eq_true, if_false]
          rw [subtract_int m 1 fuel (by omega) (by omega) hsm (by unfold Small; decide) hf]
          simp only []
          have := sqrtLoop_int N fuel hN hf n l (m - 1) hl (by omega) (by omega) (by omega) hlow
            (by rw [Nat.sub_add_cancel (by omega)]; omega)
          rw [show ((m : Int) - 1) = ((m - 1 : Nat) : Int) by omega]
          exact this
    · rw [decide_eq_false hle]
      simp only [Bool.false_eq_true, if_false]
      have : l = h + 1 := by omega
      subst this
      rw [Nat.add_sub_cancel] at hlow
      exact ⟨h, rfl, hlow, hhigh⟩

/-- C85 is false as stated: `Sqrt` of an integer above 1 returns the integer part of a tenth of the root. -/
theorem C85_integers_fails (N fuel : Nat) (h2 : 2 ≤ N) (hN : width N < 2 ^ 56) (hf : N < fuel) :
    ∃ s : Nat, BigFloat.sqrt fuel (flo N 0) = .ok (flo s 0) ∧ (10 * s) ^ 2 ≤ N ∧ N < (10 * (s + 1)) ^ 2 := by
  obtain ⟨s, h, a, b⟩ := sqrtLoop_int N fuel hN (by omega) fuel 1 N (by omega) (by omega) (by omega) (by omega) (by omega)
    (by have : (N + 1) * (N + 1) = N * N + 2 * N + 1 := by ring
        omega)
  refine ⟨s, ?_, ?_, ?_⟩
  · unfold BigFloat.sqrt
    rw [flo_neg, parse_zero_flo, parse_one_flo]
    simp only [bind, Except.bind, Bool.false_eq_true, if_false, equal_flo]
    rw [decide_eq_false (by omega), decide_eq_false (by omega)]
    exact h
  · have : (10 * s) ^ 2 = 100 * (s * s) := by ring
    omega
  · have : (10 * (s + 1)) ^ 2 = 100 * ((s + 1) * (s + 1)) := by ring
    omega

/-- C85 is false as stated: the roots of 16, 400 and 2 are 0, 2 and 0; the root of -16.5 is -16.5. -/
theorem C85_fails :
    (do return BigFloat.toString (← BigFloat.sqrt 99 (← BigFloat.parse c!"16"))) = Except.ok c!"0" ∧
    (do return BigFloat.toString (← BigFloat.sqrt 999 (← BigFloat.parse c!"400"))) = Except.ok c!"2" ∧
    (do return BigFloat.toString (← BigFloat.sqrt 99 (← BigFloat.parse c!"-16.5"))) = Except.ok c!"-16.5" := by
  decide +kernel

/-! ## C86 -/

/-- C86. Copies are equal to the original. -/
theorem C86_copy (b : BigFloat) : BigFloat.copy b = b := rfl

/-- C86. The target of a move has the value; the source, read again, prints as 0. -/
theorem C86_move (i : Int) (f : Nat) :
    (BigFloat.move (flo i f)).1 = flo i f ∧ BigFloat.toString (BigFloat.move (flo i f)).2 = c!"0" := by
  constructor
  · rfl
  · rfl

/-- C86. The absolute value of a non-negative number is the number. -/
theorem C86_abs_nonneg (i : Int) (f : Nat) (h : 0 ≤ i) :
    ∃ v, denote (BigFloat.toString (BigFloat.abs (flo i f))) = some v ∧ v = worth i f ∧ 0 ≤ v := by
  refine ⟨_, denote_flo i f, rfl, ?_⟩
  unfold worth
  rw [if_neg (by omega)]
  positivity

/-- C86 is false as stated: `Abs` of a negative number is that negative number. -/
theorem C86_abs_fails (i : Int) (f : Nat) (h : i < 0) :
    ∃ v, denote (BigFloat.toString (BigFloat.abs (flo i f))) = some v ∧ v = worth i f ∧ v < 0 := by
  refine ⟨_, denote_flo i f, rfl, ?_⟩
  unfold worth
  rw [if_pos h]
  have h1 : (0 : Rat) < (i.natAbs : Rat) := by
    have : 0 < i.natAbs := by omega
    exact_mod_cast this
  have h2 := frac_nonneg f (width f)
  linarith

/-- C86. `Size` is the number of digits of both parts, a part that is zero having none. -/
theorem C86_size (i : Int) (f : Nat) : BigFloat.size (flo i f) = width i.natAbs + width f := by
  unfold BigFloat.size
  rw [flo_int, big_size, flo_frac, mk'_size]

example : BigFloat.toString (BigFloat.abs (flo (-3) 5)) = c!"-3.5" ∧ BigFloat.size (flo (-30) 25) = 4 := by decide +kernel

end Caitlyn
