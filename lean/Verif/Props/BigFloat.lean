import Verif.Proofs.BigFloatValue

/-!
# Properties C48-C51: `BigFloat`

Reference: `Spec.denote` is the rational number a decimal numeral denotes. `numeral neg ip fp` is the text made of an optional
minus sign, the digits `ip` and, if there is one, a point and the digits `fp`. `flo i f` is the object with the integer part
`i` and the fraction digits of `f`; `worth i f` is the number `i.f`. C48 ties these to the constructor and `ToString`, so that
the other theorems can be read as statements about what a program reads and prints.

`Small i f` excludes numbers with 2^57 digits or more, which do not fit into memory.
-/

namespace Caitlyn
open Caitlyn.Spec BigInt BigFloat

/-! ## C48 -/

/-- C48. What the constructor makes of a numeral. -/
theorem C48_parse (neg : Bool) (ip : List Char) (hi : ip ≠ []) (h1 : ∀ c ∈ ip, DigitChar c) :
    BigFloat.parse (numeral neg ip none) = .ok (flo (signed neg (num ip)) 0) ∧
    ∀ fp : List Char, (∀ c ∈ fp, DigitChar c) → ip.length + fp.length < 2 ^ 60 →
      BigFloat.parse (numeral neg ip (some fp)) = .ok (flo (signed neg (num ip)) (num fp)) :=
  ⟨parse_numeral_int neg ip hi h1, fun fp h2 hl => parse_numeral_point neg ip fp hi h1 h2 hl⟩

/-- C48. What is printed denotes `i.f`. -/
theorem C48_value (i : Int) (f : Nat) : denote (BigFloat.toString (flo i f)) = some (worth i f) := denote_flo i f

/-- C48 for integers: a numeral without point keeps its value. -/
theorem C48_integer (neg : Bool) (ip : List Char) (hi : ip ≠ []) (h1 : ∀ c ∈ ip, DigitChar c) :
    ∃ b v, BigFloat.parse (numeral neg ip none) = .ok b ∧ denote (numeral neg ip none) = some v ∧
      denote (BigFloat.toString b) = some v := by
  refine ⟨_, _, parse_numeral_int neg ip hi h1, denote_numeral neg ip none hi h1 (by simp), ?_⟩
  rw [denote_flo]
  congr 1
  unfold worth signed
  cases neg
  · simp [width_zero]
  · by_cases h : num ip = 0
    · simp [h, width_zero]
    · simp only [if_true, Int.natAbs_neg, Int.natAbs_natCast]
      rw [if_pos (by omega)]
      simp [width_zero]

/-- C48 for numerals with a point: the value is kept exactly if the fraction does not begin with zero (or is zero), and a
negative numeral is not above -1 (or is zero). -/
theorem C48_point_partial (neg : Bool) (ip fp : List Char) (hi : ip ≠ []) (hf : fp ≠ []) (h1 : ∀ c ∈ ip, DigitChar c)
    (h2 : ∀ c ∈ fp, DigitChar c) (hl : ip.length + fp.length < 2 ^ 60) :
    ∃ b v, BigFloat.parse (numeral neg ip (some fp)) = .ok b ∧ denote (numeral neg ip (some fp)) = some v ∧
      (denote (BigFloat.toString b) = some v ↔
        (num fp = 0 ∨ fp.head? ≠ some '0') ∧ (neg = true → num ip ≠ 0 ∨ num fp = 0)) := by
  refine ⟨_, _, parse_numeral_point neg ip fp hi h1 h2 hl,
    denote_numeral neg ip (some fp) hi h1 (by rintro f ⟨⟩; exact ⟨hf, h2⟩), ?_⟩
  rw [denote_flo, Option.some.injEq]
  have hw : (num fp : Rat) / 10 ^ width (num fp) = (num fp : Rat) / 10 ^ fp.length ↔
      (num fp = 0 ∨ fp.head? ≠ some '0') := by
    constructor
    · intro h
      rcases frac_inj _ _ _ h with h | h
      · exact .inl h
      · exact .inr fun h0 => by have := width_num_zero fp h2 h0; omega
    · rintro (h | h)
      · simp [h]
      · rw [width_num fp h2 hf h]
  have hnn := frac_nonneg (num fp) (width (num fp))
  have hnn' := frac_nonneg (num fp) fp.length
  rw [← hw]
  unfold worth signed
  cases neg
  · have : ¬ (num ip : Int) < 0 := by omega
    simp [this]
  · simp only [if_true, Int.natAbs_neg, Int.natAbs_natCast, true_implies]
    by_cases h : num ip = 0
    · simp only [h, Int.natCast_zero, Int.neg_zero, Int.lt_irrefl, if_false, ne_eq, not_true, false_or]
      constructor
      · intro e
        have : (num fp : Rat) / 10 ^ fp.length = 0 := by
          push_cast at e; linarith
        have : num fp = 0 := by
          rw [div_eq_zero_iff] at this
          rcases this with h | h
          · exact_mod_cast h
          · exact absurd h (by positivity)
        exact ⟨by simp [this], this⟩
      · rintro ⟨_, h⟩; simp [h]
    · rw [if_pos (by omega)]
      simp [h]

/-- C48 is false as stated: 0.05 is read as 0.5, and -0.5 as 0.5. -/
theorem C48_fails :
    (BigFloat.parse c!"0.05").map BigFloat.toString = .ok c!"0.5" ∧ (BigFloat.parse c!"-0.5").map BigFloat.toString = .ok c!"0.5" ∧
    denote c!"0.05" ≠ denote c!"0.5" ∧ denote c!"-0.5" ≠ denote c!"0.5" := by decide +kernel

/-- Texts that are no numerals are accepted, and printed again. -/
theorem C48_accepts_fails :
    (BigFloat.parse c!"1.-5").map BigFloat.toString = .ok c!"1.-5" ∧ denote c!"1.-5" = none := by decide +kernel

example : numeral true ['1', '2'] (some ['3', '0']) = c!"-12.30" ∧ BigFloat.toString (flo (-12) 30) = c!"-12.30" ∧
    worth (-12) 30 = -123 / 10 := by decide +kernel

/-! ## C49 -/

theorem worth_zero_scaled (f n : Nat) (h : width f ≤ n) : worth 0 f = (scaled n f : Rat) / 10 ^ n := by
  rw [worth_nonneg 0 f n h (by omega)]; simp

theorem frac_sum_lt (f g n : Nat) (h1 : width f ≤ n) (h2 : width g ≤ n) :
    worth 0 f + worth 0 g < 1 ↔ scaled n f + scaled n g < 10 ^ n := by
  rw [worth_zero_scaled f n h1, worth_zero_scaled g n h2, ← add_div, div_lt_one (by positivity)]
  exact_mod_cast Iff.rfl

theorem frac_le (f g n : Nat) (h1 : width f ≤ n) (h2 : width g ≤ n) :
    worth 0 f ≤ worth 0 g ↔ scaled n f ≤ scaled n g := by
  rw [worth_zero_scaled f n h1, worth_zero_scaled g n h2, div_le_div_iff_of_pos_right (by positivity)]
  exact_mod_cast Iff.rfl

/-- `F / 10 ^ n` for a number `F` of exactly `n` digits. -/
theorem scaled_id (n F : Nat) (h : width F = n) : scaled n F = F := by rw [← h]; exact scaled_self F

theorem width_sum (f g n : Nat) (hz : f = 0 ↔ g = 0) (hn : n = max (width f) (width g))
    (h : scaled n f + scaled n g < 10 ^ n) : width (scaled n f + scaled n g) = n := by
  by_cases h0 : f = 0
  · have := hz.mp h0
    subst h0; subst this; subst hn; simp [scaled, width_zero]
  · have h1 := scaled_ge n f (by omega) (by omega)
    have : 0 < width f := by rw [width_pos f (by omega)]; omega
    have := width_unique (scaled n f + scaled n g) (n - 1) (by omega) (by rw [show n - 1 + 1 = n by omega]; exact h)
    omega

/-- C49, addition: for numbers of the same sign that both have a fraction or both have none, the sum is exact if the
fractions add up to less than one, or have one digit and the numbers are not negative. Missing: every other sum. -/
theorem C49_add_partial (i j : Int) (f g fuel : Nat) (h1 : Small i f) (h2 : Small j g)
    (hf : max (width f) (width g) < fuel) (hz : f = 0 ↔ g = 0)
    (hs : worth 0 f + worth 0 g < 1 ∧ (0 ≤ i ↔ 0 ≤ j) ∨ width f ≤ 1 ∧ width g ≤ 1 ∧ 0 ≤ i ∧ 0 ≤ j) :
    ∃ r, BigFloat.add fuel (flo i f) (flo j g) = .ok r ∧
      denote (BigFloat.toString r) = some (worth i f + worth j g) := by
  refine ⟨_, add_flo i j f g fuel hz hf h1 h2, ?_⟩
  generalize hn : max (width f) (width g) = n
  have hwf : width f ≤ n := by omega
  have hwg : width g ≤ n := by omega
  simp only []
  have hc := frac_sum_lt f g n hwf hwg
  have hp : (10 : Rat) ^ n ≠ 0 := by positivity
  split
  · rename_i hlt
    have hw := width_sum f g n hz hn.symm hlt
    have hij : 0 ≤ i ↔ 0 ≤ j := by rcases hs with h | h <;> omega
    rw [denote_flo]
    congr 1
    have ha : addI i j = i + j := by unfold addI; rw [if_neg (by omega)]
    rw [ha]
    by_cases hi : 0 ≤ i
    · have hj := hij.mp hi
      rw [worth_nonneg i f n hwf hi, worth_nonneg j g n hwg hj, worth_nonneg _ _ n (by omega) (by omega),
        scaled_id n _ hw]
      push_cast; ring
    · have hj : j < 0 := by omega
      rw [worth_neg i f n hwf (by omega), worth_neg j g n hwg hj, worth_neg _ _ n (by omega) (by omega),
        scaled_id n _ hw]
      push_cast; ring
  · rename_i hge
    have hw : width f ≤ 1 ∧ width g ≤ 1 ∧ 0 ≤ i ∧ 0 ≤ j := by
      rcases hs with h | h
      · exact absurd (hc.mp h.1) hge
      · exact h
    obtain ⟨hwf1, hwg1, hi, hj⟩ := hw
    have hn1 : n = 1 := by
      rcases Nat.lt_or_ge n 1 with h | h
      · exfalso
        obtain rfl : n = 0 := by omega
        have a1 := scaled_lt 0 f hwf
        have a2 := scaled_lt 0 g hwg
        omega
      · omega
    subst hn1
    rw [denote_flo]
    congr 1
    have ha : addI (addI i j) 1 = i + j + 1 := by unfold addI; rw [if_neg (by omega), if_neg (by omega)]
    have hF := scaled_lt 1 f hwf
    have hG := scaled_lt 1 g hwg
    rw [ha, worth_nonneg i f 1 hwf hi, worth_nonneg j g 1 hwg hj]
    generalize scaled 1 f = F at *
    generalize scaled 1 g = G at *
    have hd : width (F + G - 10 * 1) ≤ 1 := by rw [width_le]; omega
    rw [worth_nonneg _ _ 1 hd (by omega)]
    have hs : scaled 1 (F + G - 10 * 1) = F + G - 10 := by
      by_cases h0 : F + G - 10 = 0
      · simp [h0, scaled_zero]
      · rw [show F + G - 10 * 1 = F + G - 10 by omega] at hd ⊢
        apply scaled_id
        have := width_pos (F + G - 10) (by omega)
        omega
    have e : ((F + G - 10 : Nat) : Rat) = (F : Rat) + G - 10 := by
      rw [Nat.cast_sub (by omega)]; push_cast; rfl
    rw [hs, e]
    push_cast
    ring

/-- C49, subtraction: for non-negative numbers that both have a fraction or both have none, the difference is exact if the
fraction and the integer of the second are not above those of the first and the difference of the fractions does
not begin with zero (or is zero), or if there is a borrow, the fractions have one digit and the difference is at least zero.
Missing: every other difference. -/
theorem C49_subtract_partial (i j : Int) (f g fuel : Nat) (h1 : Small i f) (h2 : Small j g)
    (hf : max (width f) (width g) < fuel) (hz : f = 0 ↔ g = 0) (hi : 0 ≤ i) (hj : 0 ≤ j)
    (hs : j ≤ i ∧ worth 0 g ≤ worth 0 f ∧ (worth 0 f = worth 0 g ∨ 1 / 10 ≤ worth 0 f - worth 0 g) ∨
      width f ≤ 1 ∧ width g ≤ 1 ∧ j < i) :
    ∃ r, BigFloat.subtract fuel (flo i f) (flo j g) = .ok r ∧
      denote (BigFloat.toString r) = some (worth i f - worth j g) := by
  refine ⟨_, subtract_flo i j f g fuel hz hf h1 h2, ?_⟩
  generalize hn : max (width f) (width g) = n
  have hwf : width f ≤ n := by omega
  have hwg : width g ≤ n := by omega
  simp only []
  have hc := frac_le g f n hwg hwf
  have hc' := frac_le f g n hwf hwg
  have hF := scaled_lt n f hwf
  have hG := scaled_lt n g hwg
  have hsub : subI i j = i - j := by unfold subI; rw [if_pos ⟨hi, hj⟩]
  have hji : j ≤ i := by rcases hs with h | h <;> omega
  rw [worth_nonneg i f n hwf hi, worth_nonneg j g n hwg hj]
  split
  · rename_i hle
    rw [denote_flo, hsub]
    congr 1
    have hws : scaled n (scaled n f - scaled n g) = scaled n f - scaled n g := by
      by_cases h0 : scaled n f - scaled n g = 0
      · rw [h0, scaled_zero]
      · apply scaled_id
        have hn0 : 0 < n := by
          rcases Nat.eq_zero_or_pos n with h | h
          · subst h; omega
          · exact h
        have hlow : 10 ^ (n - 1) ≤ scaled n f - scaled n g := by
          rcases hs with ⟨_, _, h | h⟩ | ⟨h, h', _⟩
          · have := hc'.mp (le_of_eq h); omega
          · rw [worth_zero_scaled f n hwf, worth_zero_scaled g n hwg, ← sub_div] at h
            rw [le_div_iff₀ (by positivity)] at h
            obtain ⟨m, rfl⟩ : ∃ m, n = m + 1 := ⟨n - 1, by omega⟩
            have : (10 : Rat) ^ m ≤ (scaled (m + 1) f : Rat) - scaled (m + 1) g := by
              rw [pow_succ] at h; linarith
            have : ((10 ^ m + scaled (m + 1) g : Nat) : Rat) ≤ (scaled (m + 1) f : Nat) := by
              push_cast; linarith
            have : 10 ^ m + scaled (m + 1) g ≤ scaled (m + 1) f := by exact_mod_cast this
            simp only [Nat.add_sub_cancel]
            omega
          · have : n = 1 := by omega
            subst this
            simp; omega
        have := width_unique (scaled n f - scaled n g) (n - 1) hlow (by rw [show n - 1 + 1 = n by omega]; omega)
        omega
    have hww : width (scaled n f - scaled n g) ≤ n := by rw [width_le]; omega
    rw [worth_nonneg _ _ n hww (by omega), hws, Nat.cast_sub hle]
    push_cast
    ring
  · rename_i hlt
    have hw : width f ≤ 1 ∧ width g ≤ 1 ∧ j < i := by
      rcases hs with h | h
      · exact absurd (hc.mp h.2.1) hlt
      · exact h
    obtain ⟨hwf1, hwg1, hlt'⟩ := hw
    have hn1 : n = 1 := by
      rcases Nat.lt_or_ge n 1 with h | h
      · exfalso
        obtain rfl : n = 0 := by omega
        omega
      · omega
    subst hn1
    have hsub2 : subI (subI i j) 1 = i - j - 1 := by rw [hsub]; unfold subI; rw [if_pos (by omega)]
    rw [hsub2]
    generalize scaled 1 f = F at *
    generalize scaled 1 g = G at *
    have e : (F : Int) + 10 * (1 : Nat) - G = ((F + 10 - G : Nat) : Int) := by omega
    rw [e]
    show denote (BigFloat.toString (flo (i - j - 1) (F + 10 - G))) = _
    have hd : width (F + 10 - G) ≤ 1 := by rw [width_le]; omega
    have hs : scaled 1 (F + 10 - G) = F + 10 - G := by
      apply scaled_id
      have := width_pos (F + 10 - G) (by omega)
      omega
    rw [denote_flo]
    congr 1
    rw [worth_nonneg _ _ 1 hd (by omega), hs, Nat.cast_sub (by omega)]
    push_cast
    ring

/-- C49 is false as stated: if exactly one of the numbers has a fraction, neither the sum nor the difference is ever
returned, however many rounds the loops are allowed. -/
theorem C49_diverges_fails (i j : Int) (f g fuel : Nat) (h : f = 0 ∧ g ≠ 0 ∨ f ≠ 0 ∧ g = 0) :
    BigFloat.add fuel (flo i f) (flo j g) = .error .fuel ∧ BigFloat.subtract fuel (flo i f) (flo j g) = .error .fuel := by
  have hz : (f = 0) ≠ (g = 0) := by
    rcases h with ⟨h, h'⟩ | ⟨h, h'⟩ <;> simp [h, h']
  exact ⟨add_diverges i j f g fuel hz, subtract_diverges i j f g fuel hz⟩

/-- C49. In all other cases both terminate, and these are the results. -/
theorem C49_exact (i j : Int) (f g fuel : Nat) (h1 : Small i f) (h2 : Small j g)
    (hf : max (width f) (width g) < fuel) (hz : f = 0 ↔ g = 0) :
    (BigFloat.add fuel (flo i f) (flo j g) = .ok (
      let n := max (width f) (width g)
      if scaled n f + scaled n g < 10 ^ n then flo (addI i j) (scaled n f + scaled n g)
      else flo (addI (addI i j) 1) (scaled n f + scaled n g - 10 * n))) ∧
    BigFloat.subtract fuel (flo i f) (flo j g) = .ok (
      let n := max (width f) (width g)
      if scaled n g ≤ scaled n f then flo (subI i j) (scaled n f - scaled n g)
      else ⟨big (subI (subI i j) 1), big ((scaled n f : Int) + 10 * n - scaled n g), false⟩) :=
  ⟨add_flo i j f g fuel hz hf h1 h2, subtract_flo i j f g fuel hz hf h1 h2⟩

/-- The result of an operation on two numerals, printed. -/
def BigFloat.calc (op : BigFloat → BigFloat → Res BigFloat) (a b : Str) : Res Str := do
  return BigFloat.toString (← op (← BigFloat.parse a) (← BigFloat.parse b))

/-- C49 is false as stated also where both terminate: 0.99 + 0.99 = 1.178, -1.5 + -1.7 = 1.2,
-1.5 + 2.7 = 2.2, 1.10 - 0.95 = 0.-65, 1.5 - 2.7 = 0.8. -/
theorem C49_fails :
    BigFloat.calc (BigFloat.add 9) c!"0.99" c!"0.99" = .ok c!"1.178" ∧
    BigFloat.calc (BigFloat.add 9) c!"-1.5" c!"-1.7" = .ok c!"1.2" ∧
    BigFloat.calc (BigFloat.add 9) c!"-1.5" c!"2.7" = .ok c!"2.2" ∧
    BigFloat.calc (BigFloat.subtract 9) c!"1.10" c!"0.95" = .ok c!"0.-65" ∧
    BigFloat.calc (BigFloat.subtract 9) c!"1.5" c!"2.7" = .ok c!"0.8" := by decide +kernel

/-- Non-vacuity: sums and differences that meet the hypotheses. -/
example : BigFloat.calc (BigFloat.add 9) c!"1.25" c!"2.5" = .ok c!"3.75" ∧
    BigFloat.calc (BigFloat.add 9) c!"1.7" c!"2.5" = .ok c!"4.2" ∧
    BigFloat.calc (BigFloat.subtract 9) c!"3.2" c!"1.7" = .ok c!"1.5" ∧
    worth 0 25 + worth 0 5 < 1 ∧ width 7 ≤ 1 ∧ Small 1 25 := by unfold Small; decide +kernel

/-! ## C50 -/

theorem width_max (f : Nat) (h : f ≠ 0) : max 1 (width f) = width f := by rw [width_pos f (by omega)]; omega

theorem digits_frac (n t : Nat) :
    (n : Rat) / 10 ^ t = ((n / 10 ^ t : Nat) : Rat) + ((n % 10 ^ t : Nat) : Rat) / 10 ^ t := by
  have : (n : Rat) = ((10 ^ t * (n / 10 ^ t) + n % 10 ^ t : Nat) : Rat) := by rw [Nat.div_add_mod]
  rw [this]
  push_cast
  field_simp

theorem frac_kept (m t : Nat) (hm : m < 10 ^ t) :
    (m : Rat) / 10 ^ width m = (m : Rat) / 10 ^ t ↔ m = 0 ∨ 10 ^ t ≤ 10 * m := by
  constructor
  · intro h
    rcases frac_inj _ _ _ h with h | h
    · exact .inl h
    · by_cases h0 : m = 0
      · exact .inl h0
      · right
        have hw := width_max m h0
        have := width_lower m (width m - 1) (by omega)
        have e : 10 ^ t = 10 ^ (width m - 1) * 10 := by rw [← Nat.pow_succ]; congr 1; omega
        omega
  · rintro (h | h)
    · simp [h]
    · cases t with
      | zero => simp at hm; subst hm; simp [width_zero]
      | succ k =>
        rw [width_unique m k (by rw [Nat.pow_succ] at h; omega) hm]

/-- The value of what `putPoint` makes of a number: `z / 10 ^ t`, exactly if the fraction keeps its digits and the
sign does not get lost. -/
theorem pointed_value (z : Int) (t : Nat) (r : BigFloat) (h : pointed z t = .ok r) (hr : 0 ≤ z ∨ 10 ^ t ≤ z.natAbs) :
    denote (BigFloat.toString r) = some ((z : Rat) / 10 ^ t) ↔
      (z.natAbs % 10 ^ t = 0 ∨ 10 ^ t ≤ 10 * (z.natAbs % 10 ^ t)) := by
  have hk := frac_kept (z.natAbs % 10 ^ t) t (Nat.mod_lt _ (Nat.pow_pos (by omega)))
  have hd := digits_frac z.natAbs t
  unfold pointed at h
  by_cases hz : 0 ≤ z
  · rw [if_pos hz] at h
    injection h with h
    rw [← h, denote_flo, Option.some.injEq, ← hk, ← natAbs_nonneg' hz, hd]
    unfold worth
    rw [if_neg (not_lt.mpr (Int.natCast_nonneg _)), Int.natAbs_natCast]
    exact add_right_inj _
  · rw [if_neg hz] at h
    have hq : 0 < z.natAbs / 10 ^ t := Nat.div_pos (by omega) (Nat.pow_pos (by omega))
    have hle : t ≤ width z.natAbs := by
      rcases Nat.lt_or_ge (width z.natAbs) t with hlt | hge
      · have h1 := lt_width z.natAbs
        have h2 : 10 ^ width z.natAbs ≤ 10 ^ t := Nat.pow_le_pow_right (by omega) (by omega)
        omega
      · exact hge
    rw [if_pos hle] at h
    injection h with h
    have e : (z : Rat) / 10 ^ t = -((z.natAbs : Rat) / 10 ^ t) := by
      rw [natAbs_neg' (by omega)]; ring
    rw [← h, denote_flo, Option.some.injEq, ← hk, e, hd]
    unfold worth
    rw [if_pos (by omega), Int.natAbs_neg, Int.natAbs_natCast, neg_inj]
    exact add_right_inj _

/-- The digits of a product of two numbers that both have a fraction. -/
theorem product_value (i j : Int) (f g : Nat) (hf : f ≠ 0) (hg : g ≠ 0) :
    worth i f * worth j g = ((joined i f * joined j g : Int) : Rat) / 10 ^ (width f + width g) := by
  rw [worth_joined, worth_joined, width_max f hf, width_max g hg, pow_add]
  push_cast
  field_simp

/-- C50 for two numbers that both have a fraction: the product is exact if and only if its fraction, written with as many
digits as the fractions of the factors together, is zero or does not begin with zero -- provided the product is not
between -1 and 0. -/
theorem C50_fractions_partial (i j : Int) (f g : Nat) (h1 : Small i f) (h2 : Small j g) (hf : f ≠ 0) (hg : g ≠ 0)
    (hr : 0 ≤ worth i f * worth j g ∨ worth i f * worth j g ≤ -1) :
    ∃ r, BigFloat.multiply (flo i f) (flo j g) = .ok r ∧
      (denote (BigFloat.toString r) = some (worth i f * worth j g) ↔
        let t := width f + width g
        let last := (joined i f * joined j g).natAbs % 10 ^ t
        last = 0 ∨ 10 ^ t ≤ 10 * last) := by
  rw [multiply_flo i j f g h1 h2]
  rw [product_value i j f g hf hg] at hr ⊢
  generalize joined i f * joined j g = z at *
  generalize width f + width g = t at *
  have hr' : 0 ≤ z ∨ 10 ^ t ≤ z.natAbs := by
    rcases hr with h | h
    · left
      rw [le_div_iff₀ (by positivity), zero_mul] at h
      exact_mod_cast h
    · right
      rw [div_le_iff₀ (by positivity)] at h
      have : z ≤ -(10 ^ t : Nat) := by
        have : (z : Rat) ≤ ((-(10 ^ t : Nat) : Int) : Rat) := by push_cast; linarith
        exact_mod_cast this
      omega
  have hok : ∃ r, pointed z t = .ok r := by
    unfold pointed
    by_cases hz : 0 ≤ z
    · rw [if_pos hz]; exact ⟨_, rfl⟩
    · rw [if_neg hz]
      have hle : t ≤ width z.natAbs := by
        rcases Nat.lt_or_ge (width z.natAbs) t with hlt | hge
        · have h1 := lt_width z.natAbs
          have h2 : 10 ^ width z.natAbs ≤ 10 ^ t := Nat.pow_le_pow_right (by omega) (by omega)
          omega
        · exact hge
      rw [if_pos hle]; exact ⟨_, rfl⟩
  obtain ⟨r, hok⟩ := hok
  exact ⟨r, hok, pointed_value z t r hok hr'⟩

/-- C50. The result in all cases. -/
theorem C50_exact (i j : Int) (f g : Nat) (h1 : Small i f) (h2 : Small j g) :
    BigFloat.multiply (flo i f) (flo j g) =
      let z := joined i f * joined j g
      let t := width f + width g
      if 0 ≤ z then .ok (flo ((z.natAbs / 10 ^ t : Nat) : Int) (z.natAbs % 10 ^ t))
      else if t ≤ width z.natAbs then .ok (flo (-((z.natAbs / 10 ^ t : Nat) : Int)) (z.natAbs % 10 ^ t))
      else if t = width z.natAbs + 1 then .ok ⟨big 0, big z, false⟩
      else .error .invalidArgument := multiply_flo i j f g h1 h2

theorem joined_int (i : Int) : joined i 0 = 10 * i := by
  unfold joined
  have : 10 ^ max 1 (width 0) = 10 := rfl
  rw [this]
  split <;> omega

theorem multiply_int (i j : Int) (h1 : Small i 0) (h2 : Small j 0) :
    BigFloat.multiply (flo i 0) (flo j 0) = .ok (flo (100 * (i * j)) 0) := by
  have e : 10 * i * (10 * j) = 100 * (i * j) := by ring
  rw [multiply_flo i j 0 0 h1 h2, joined_int, joined_int, width_zero, e]
  generalize i * j = k
  unfold pointed
  by_cases h : 0 ≤ 100 * k
  · rw [if_pos h]
    simp only [Nat.add_zero, Nat.pow_zero, Nat.div_one, Nat.mod_one]
    congr 2; omega
  · rw [if_neg h, if_pos (by omega)]
    simp only [Nat.add_zero, Nat.pow_zero, Nat.div_one, Nat.mod_one]
    congr 2; omega

/-- C50 is false as stated: the product of two integers is a hundred times too large. -/
theorem C50_integers_fails (i j : Int) (h1 : Small i 0) (h2 : Small j 0) :
    ∃ r, BigFloat.multiply (flo i 0) (flo j 0) = .ok r ∧
      denote (BigFloat.toString r) = some (100 * (worth i 0 * worth j 0)) := by
  refine ⟨_, multiply_int i j h1 h2, ?_⟩
  rw [denote_flo]
  congr 1
  have : (10 : Rat) ^ max 1 (width 0) = 10 := by simp [width_zero]
  rw [worth_joined, worth_joined, worth_joined, joined_int, joined_int, joined_int, this]
  push_cast
  ring

/-- C50 is false as stated: 12 * 3 = 3600, 1.1 * 1.9 = 2.9, -1.5 * 0.5 = 0.75, 2.5 * 2 = 50. -/
theorem C50_fails :
    BigFloat.calc BigFloat.multiply c!"12" c!"3" = .ok c!"3600" ∧
    BigFloat.calc BigFloat.multiply c!"1.1" c!"1.9" = .ok c!"2.9" ∧
    BigFloat.calc BigFloat.multiply c!"-1.5" c!"0.5" = .ok c!"0.75" ∧
    BigFloat.calc BigFloat.multiply c!"2.5" c!"2" = .ok c!"50" := by decide +kernel

example : BigFloat.calc BigFloat.multiply c!"1.5" c!"2.5" = .ok c!"3.75" ∧
    BigFloat.calc BigFloat.multiply c!"-1.5" c!"10.5" = .ok c!"-15.75" ∧ joined 1 5 * joined 2 5 = 375 ∧
    BigFloat.calc BigFloat.multiply c!"2.5" c!"0.4" = .ok c!"1" := by decide +kernel

/-! ## C51 -/

theorem lessThan_flo (i j : Int) (f g : Nat) :
    BigFloat.lessThan (flo i f) (flo j g) =
      if i = j then decide (f < g) else if i < 0 ∧ j < 0 then decide (j < i) else decide (i < j) := by
  unfold BigFloat.lessThan
  obtain ⟨-, -, hl, hg, -, -⟩ := C45_compare_exact i j
  obtain ⟨-, -, hf, -, -, -⟩ := C45_compare_exact f g
  unfold BigInt.opLt at hl hf
  unfold BigInt.opGt at hg
  have hf' : BigInt.lessThan (flo i f).frac (flo j g).frac = decide (f < g) := by
    refine hf.trans ?_
    rw [if_neg (by omega)]; simp
  rw [flo_int, flo_int, hl, hg, hf', flo_neg, flo_neg]
  simp only [ne_eq, not_true, if_false]
  by_cases hij : i = j
  · subst hij; simp
  · rw [if_neg hij]
    by_cases hn : i < 0 ∧ j < 0
    · simp only [if_pos hn]
      by_cases h : j < i
      · simp [h]
      · have : i < j := by omega
        simp [h, this]
    · simp only [if_neg hn]
      by_cases h : i < j
      · simp [h]
      · have : j < i := by omega
        simp [h, this]

/-- C51. The results of the comparisons in all cases. -/
theorem C51_exact (i j : Int) (f g : Nat) :
    BigFloat.opLt (flo i f) (flo j g) =
      (if i = j then decide (f < g) else if i < 0 ∧ j < 0 then decide (j < i) else decide (i < j)) ∧
    BigFloat.opEq (flo i f) (flo j g) = decide (i = j ∧ f = g) ∧
    BigFloat.opNe (flo i f) (flo j g) = !decide (i = j ∧ f = g) ∧
    BigFloat.opGt (flo i f) (flo j g) = BigFloat.opLt (flo j g) (flo i f) ∧
    BigFloat.opLe (flo i f) (flo j g) = !BigFloat.opLt (flo j g) (flo i f) ∧
    BigFloat.opGe (flo i f) (flo j g) = !BigFloat.opLt (flo i f) (flo j g) := by
  have he := equal_flo i j f g
  have hl := lessThan_flo i j f g
  have hg := lessThan_flo j i g f
  unfold BigFloat.opLt BigFloat.opEq BigFloat.opNe BigFloat.opGt BigFloat.opLe BigFloat.opGe BigFloat.greaterThan
  rw [he, hl, hg]
  refine ⟨rfl, rfl, rfl, ?_, ?_, ?_⟩ <;>
  · by_cases hij : i = j
    · subst hij
      simp only [if_true, true_and]
      by_cases h1 : f < g <;> by_cases h2 : g < f <;> by_cases h3 : f = g <;> simp [h1, h2, h3] <;> omega
    · have hji : ¬ j = i := fun h => hij h.symm
      simp only [if_neg hji, hij, if_false, false_and, decide_false]
      by_cases hn : i < 0 ∧ j < 0
      · have hn' : j < 0 ∧ i < 0 := ⟨hn.2, hn.1⟩
        simp only [if_pos hn, if_pos hn']
        by_cases h : j < i
        · have : ¬ i < j := by omega
          simp [h, this]
        · have : i < j := by omega
          simp [h, this]
      · have hn' : ¬ (j < 0 ∧ i < 0) := by omega
        simp only [if_neg hn, if_neg hn']
        by_cases h : j < i
        · have : ¬ i < j := by omega
          simp [h, this]
        · have : i < j := by omega
          simp [h, this]

theorem worth_lt_int (i j : Int) (f g : Nat) (h : i < j) (h0 : 0 ≤ j) : worth i f < worth j g := by
  have a := frac_lt_one f
  have b := frac_nonneg f (width f)
  have d := frac_nonneg g (width g)
  have hj := worth_nonneg j g (width g) (le_refl _) h0
  rw [scaled_self] at hj
  by_cases hi : 0 ≤ i
  · have e := worth_nonneg i f (width f) (le_refl _) hi
    rw [scaled_self] at e
    have : (i : Rat) + 1 ≤ j := by exact_mod_cast h
    rw [e, hj]; linarith
  · have e := worth_neg i f (width f) (le_refl _) (by omega)
    rw [scaled_self] at e
    have : (i : Rat) + 1 ≤ j := by exact_mod_cast h
    rw [e, hj]; linarith

/-- C51, partial: `<` is the order of the values if the integer parts differ and are not both negative, or are
equal and not negative and the fractions have the same number of digits (or one of them is zero). -/
theorem C51_less_partial (i j : Int) (f g : Nat)
    (h : i ≠ j ∧ (0 ≤ i ∨ 0 ≤ j) ∨ i = j ∧ 0 ≤ i ∧ (width f = width g ∨ f = 0 ∨ g = 0)) :
    BigFloat.opLt (flo i f) (flo j g) = decide (worth i f < worth j g) := by
  rw [(C51_exact i j f g).1]
  rcases h with ⟨hij, hs⟩ | ⟨rfl, hi, hw⟩
  · rw [if_neg hij, if_neg (by omega)]
    apply Bool.decide_congr
    constructor
    · intro h; exact worth_lt_int i j f g h (by omega)
    · intro h
      rcases lt_or_ge i j with h' | h'
      · exact h'
      · have := worth_lt_int j i g f (by omega) (by omega)
        exact absurd h (not_lt.mpr (le_of_lt this))
  · rw [if_pos rfl]
    apply Bool.decide_congr
    have e := worth_nonneg i f (width f) (le_refl _) hi
    have e' := worth_nonneg i g (width g) (le_refl _) hi
    rw [scaled_self] at e e'
    rw [e, e', add_lt_add_iff_left]
    rcases hw with hw | hw | hw
    · rw [hw, div_lt_div_iff_of_pos_right (by positivity)]
      exact_mod_cast Iff.rfl
    · subst hw
      simp only [Nat.cast_zero, zero_div]
      constructor
      · intro h
        have : (0 : Rat) < g := by exact_mod_cast h
        positivity
      · intro h
        rcases Nat.eq_zero_or_pos g with h0 | h0
        · subst h0; simp at h
        · exact h0
    · subst hw
      simp only [Nat.cast_zero, zero_div, Nat.not_lt_zero, false_iff, not_lt]
      positivity

/-- C51. Numbers that compare equal have the same value. -/
theorem C51_equal_sound (i j : Int) (f g : Nat) (h : BigFloat.opEq (flo i f) (flo j g) = true) :
    worth i f = worth j g := by
  rw [(C51_exact i j f g).2.1, decide_eq_true_eq] at h
  rw [h.1, h.2]

/-- C51, partial: for fractions that do not end with zero (or are zero), `==` is equality of the values. -/
theorem C51_equal_partial (i j : Int) (f g : Nat) (hf : f = 0 ∨ f % 10 ≠ 0) (hg : g = 0 ∨ g % 10 ≠ 0) :
    BigFloat.opEq (flo i f) (flo j g) = decide (worth i f = worth j g) := by
  rw [(C51_exact i j f g).2.1]
  apply Bool.decide_congr
  constructor
  · rintro ⟨rfl, rfl⟩; rfl
  · intro h
    generalize hn : max (width f) (width g) = n
    have h1 : width f ≤ n := by omega
    have h2 : width g ≤ n := by omega
    have l1 := scaled_lt n f h1
    have l2 := scaled_lt n g h2
    have key : i = j ∧ scaled n f = scaled n g := by
      rw [worth_scaled i f n h1, worth_scaled j g n h2] at h
      have u : ∀ a b c d : Nat, (a : Rat) + (c : Rat) / 10 ^ n = b + (d : Rat) / 10 ^ n →
          a * 10 ^ n + c = b * 10 ^ n + d := by
        intro a b c d h
        field_simp at h
        rw [Nat.mul_comm b]
        exact_mod_cast h
      have dm : ∀ a b c d : Nat, c < 10 ^ n → d < 10 ^ n → a * 10 ^ n + c = b * 10 ^ n + d → a = b ∧ c = d := by
        intro a b c d hc hd h
        have hp : 0 < 10 ^ n := Nat.pow_pos (by omega)
        have q := congrArg (· / 10 ^ n) h
        simp only [Nat.add_comm _ c, Nat.add_comm _ d, Nat.add_mul_div_right _ _ hp, Nat.div_eq_of_lt hc,
          Nat.div_eq_of_lt hd, Nat.zero_add] at q
        subst q
        exact ⟨rfl, by omega⟩
      have nn : ∀ a c : Nat, (0 : Rat) ≤ (a : Rat) + (c : Rat) / 10 ^ n := by intro a c; positivity
      have pos : ∀ (a c : Nat), 0 < a → (0 : Rat) < (a : Rat) + (c : Rat) / 10 ^ n := by
        intro a c h
        have : (0 : Rat) < a := by exact_mod_cast h
        positivity
      by_cases hi : i < 0 <;> by_cases hj : j < 0
      · rw [if_pos hi, if_pos hj, neg_inj] at h
        obtain ⟨a, b⟩ := dm _ _ _ _ l1 l2 (u _ _ _ _ h)
        exact ⟨by omega, b⟩
      · rw [if_pos hi, if_neg hj] at h
        have := pos i.natAbs (scaled n f) (by omega)
        have := nn j.natAbs (scaled n g)
        exfalso; linarith
      · rw [if_neg hi, if_pos hj] at h
        have := pos j.natAbs (scaled n g) (by omega)
        have := nn i.natAbs (scaled n f)
        exfalso; linarith
      · rw [if_neg hi, if_neg hj] at h
        obtain ⟨a, b⟩ := dm _ _ _ _ l1 l2 (u _ _ _ _ h)
        exact ⟨by omega, b⟩
    obtain ⟨hij, hs⟩ := key
    refine ⟨hij, ?_⟩
    have zero : ∀ a b : Nat, width a ≤ n → b = 0 → scaled n a = scaled n b → a = 0 := by
      intro a b ha hb h
      by_contra h0
      have := scaled_ge n a (by omega) ha
      have : 0 < 10 ^ (n - 1) := Nat.pow_pos (by omega)
      rw [hb, scaled_zero] at h
      omega
    by_cases h0 : f = 0
    · have := zero g f h2 h0 hs.symm; omega
    · by_cases h0' : g = 0
      · have := zero f g h1 h0' hs; omega
      · have tail : ∀ a b : Nat, a % 10 ≠ 0 → width a < n → width b = n → scaled n a = scaled n b → b % 10 = 0 := by
          intro a b _ ha hb h
          rw [scaled_id n b hb] at h
          rw [← h]
          unfold scaled
          obtain ⟨k, hk⟩ : ∃ k, n - width a = k + 1 := ⟨n - width a - 1, by omega⟩
          rw [hk, Nat.pow_succ, ← Nat.mul_assoc]
          exact Nat.mul_mod_left _ _
        have e1 : width f = n := by
          by_contra hne
          have := tail f g (by omega) (by omega) (by omega) hs
          omega
        have e2 : width g = n := by
          by_contra hne
          have := tail g f (by omega) (by omega) (by omega) hs.symm
          omega
        rw [scaled_id n f e1, scaled_id n g e2] at hs
        exact hs

/-- C51 is false as stated: 1.5 < 1.25, 1.5 is not 1.50, and -2 < -1 is reported false. -/
theorem C51_fails :
    BigFloat.opLt (flo 1 5) (flo 1 25) = true ∧ BigFloat.opEq (flo 1 5) (flo 1 50) = false ∧
    BigFloat.opLt (flo (-2) 0) (flo (-1) 0) = false ∧ BigFloat.opLt (flo (-1) 5) (flo (-1) 4) = false := by decide +kernel

example : BigFloat.opLt (flo 1 25) (flo 1 50) = true ∧ BigFloat.opLt (flo (-1) 5) (flo 0 5) = true ∧ width 25 = width 50 ∧
    worth 1 25 < worth 1 50 := by decide +kernel

end Caitlyn
