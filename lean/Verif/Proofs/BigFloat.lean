import Verif.Model.BigFloat
import Verif.Spec.Numeral
import Verif.Proofs.Search
import Verif.Props.BigInt

/-!
# Lemmas about `BigFloat`
-/

namespace Caitlyn
namespace BigFloat
open Caitlyn.Spec BigInt

/-- The `BigFloat` with the given parts. -/
def flo (i : Int) (f : Nat) : BigFloat := ⟨big i, big f, false⟩

/-! ### Texts -/

/-- A sequence of digits as a `String`. -/
def txt (cs : List Char) : Str := cs.map asc

/-- The number of a sequence of digits. -/
abbrev num (cs : List Char) : Nat := Nat.ofDigitChars 10 cs 0

theorem num_append (a b : List Char) : num (a ++ b) = num a * 10 ^ b.length + num b := by
  rw [num, Nat.ofDigitChars_append, Nat.ofDigitChars_eq_ofDigitChars_zero, Nat.mul_comm]

theorem num_lt : ∀ cs : List Char, (∀ c ∈ cs, DigitChar c) → num cs < 10 ^ cs.length := by
  intro cs h
  have h1 := val_lt _ (show Valid (cs.map fun c => ((c.toNat : Int) - 48)).reverse by
    intro d hd
    exact valid_digits cs h d (by simpa using hd))
  have h2 := val_reverse_digits cs 0 h
  simp only [Int.natCast_zero, Int.mul_zero, Int.add_zero] at h2
  rw [h2] at h1
  simp only [List.length_reverse, List.length_map] at h1
  exact_mod_cast h1

theorem num_toDigits (n : Nat) : num (Nat.toDigits 10 n) = n := Nat.ofDigitChars_ten_toDigits

theorem asc_ne_point (c : Char) (h : DigitChar c ∨ c = '-' ∨ c = '+') : asc c ≠ ⟨b!"."⟩ := by
  rcases h with h | h | h
  · unfold DigitChar at h
    intro e
    have : UInt8.ofNat c.toNat = 0x2E := by
      have := congrArg Chr.data e
      simpa [asc, Chr.ofByte] using this
    have := congrArg UInt8.toNat this
    simp at this
    omega
  · subst h; decide
  · subst h; decide

theorem search_point : ∀ (a b : Str), ⟨b!"."⟩ ∉ a → Str.search (a ++ ⟨b!"."⟩ :: b) c!"." = a.length
  | [], b, _ => by rw [Str.search.eq_def]; simp
  | c :: a, b, h => by
    rw [Str.search.eq_def]
    have h1 : ¬ (c!"." : Str).isPrefixOf (c :: a ++ ⟨b!"."⟩ :: b) = true := by
      simp [List.isPrefixOf]
      intro e; exact h (by simp [← e])
    rw [if_neg h1]
    simp only [List.cons_append, List.length_cons]
    rw [search_point a b (by simp_all)]

theorem search_nopoint : ∀ (a : Str), ⟨b!"."⟩ ∉ a → Str.search a c!"." = a.length
  | [], _ => by rw [Str.search.eq_def]; simp
  | c :: a, h => by
    rw [Str.search.eq_def]
    have h1 : ¬ (c!"." : Str).isPrefixOf (c :: a) = true := by
      simp [List.isPrefixOf]
      intro e; exact h (by simp [← e])
    rw [if_neg h1]
    simp only [List.length_cons]
    rw [search_nopoint a (by simp_all)]

/-- The text or, if there is none, "0". -/
def orZero (s : Str) : Str := if s = [] then c!"0" else s

theorem parse_point (a b : Str) (ha : ⟨b!"."⟩ ∉ a) (hl : a.length + b.length < npos) :
    parse (a ++ ⟨b!"."⟩ :: b) = (do
      let int ← BigInt.parse (orZero a)
      return ⟨int, ← BigInt.parse (orZero b), false⟩) := by
  unfold parse
  rw [if_neg (by simp)]
  have h1 : Str.find (a ++ ⟨b!"."⟩ :: b) c!"." 0 = .ok a.length := by
    unfold Str.find
    rw [if_neg (by omega)]
    simp only [List.drop_zero, search_point a b ha, Nat.zero_add]
    rw [if_pos (by simp)]
  have h2 : Str.substring (a ++ ⟨b!"."⟩ :: b) 0 a.length = .ok a := by
    unfold Str.substring
    rw [if_neg (by simp)]
    simp
  have h3 : Str.substring (a ++ ⟨b!"."⟩ :: b) (a.length + 1) npos = .ok b := by
    unfold Str.substring
    rw [if_neg (by simp)]
    have : (a ++ ⟨b!"."⟩ :: b).length - (a.length + 1) = b.length := by simp; omega
    rw [this, Nat.min_eq_right (by omega)]
    have : (a ++ ⟨b!"."⟩ :: b).drop (a.length + 1) = b := by
      rw [← List.drop_drop]; simp
    rw [this, List.take_length]
  simp only [h1, h2, h3, bind, Except.bind]
  rw [if_neg (by omega)]
  rfl

theorem parse_nopoint (a : Str) (ha : ⟨b!"."⟩ ∉ a) (hne : a ≠ []) :
    parse a = (do return ⟨← BigInt.parse a, .default, false⟩) := by
  unfold parse
  rw [if_neg hne]
  have h1 : Str.find a c!"." 0 = .ok npos := by
    unfold Str.find
    rw [if_neg (by omega)]
    simp only [List.drop_zero, search_nopoint a ha, Nat.zero_add]
    rw [if_neg (by simp)]
  simp only [h1, bind, Except.bind, if_true]

theorem decimal_txt (z : Int) : decimal z =
    if z < 0 then asc '-' :: txt (Nat.toDigits 10 z.natAbs) else txt (Nat.toDigits 10 z.natAbs) := by
  unfold decimal
  rw [toString_chars]
  split <;> rfl

theorem txt_nopoint (cs : List Char) (h : ∀ c ∈ cs, DigitChar c) : ⟨b!"."⟩ ∉ txt cs := by
  intro hm
  obtain ⟨c, hc, e⟩ := List.mem_map.mp hm
  exact asc_ne_point c (.inl (h c hc)) e

theorem decimal_nopoint (z : Int) : ⟨b!"."⟩ ∉ decimal z := by
  have h := txt_nopoint _ (toDigits_digitChar z.natAbs)
  rw [decimal_txt]
  split
  · intro hm
    rcases List.mem_cons.mp hm with e | hm
    · exact asc_ne_point '-' (by simp) e.symm
    · exact h hm
  · exact h

theorem decimal_ne_nil (z : Int) : decimal z ≠ [] := by
  rw [decimal_txt]
  split
  · simp
  · simp [txt, Nat.toDigits_ne_nil]

/-- Texts that fit into memory. -/
def Fits (a b : Str) : Prop := a.length + b.length < npos

theorem parse_decimals (i z : Int) (h : Fits (decimal i) (decimal z)) :
    parse (Str.plus (Str.plus (decimal i) c!".") (decimal z)) = .ok ⟨big i, big z, false⟩ := by
  unfold Str.plus
  rw [List.append_assoc, List.singleton_append, parse_point _ _ (decimal_nopoint i) h]
  simp only [orZero, if_neg (decimal_ne_nil _), parse_decimal, bind, Except.bind]
  rfl

theorem parse_digits_nat (cs : List Char) (hne : cs ≠ []) (h : ∀ c ∈ cs, DigitChar c) :
    BigInt.parse (txt cs) = .ok (big (num cs)) := by
  refine (parse_digits cs hne h).trans ?_
  simp [big, mk']

theorem parse_minus_int (cs : List Char) (h : ∀ c ∈ cs, DigitChar c) :
    BigInt.parse (asc '-' :: txt cs) = .ok (big (-(num cs : Nat))) := by
  refine (parse_minus cs h).trans ?_
  unfold num
  generalize Nat.ofDigitChars 10 cs 0 = n
  refine congrArg Except.ok ?_
  by_cases hn : n = 0
  · subst hn; rfl
  · rw [if_neg hn]
    unfold big mk'
    rw [Int.natAbs_neg, Int.natAbs_natCast, decide_eq_true (by omega)]

theorem orZero_txt (cs : List Char) (h : ∀ c ∈ cs, DigitChar c) :
    BigInt.parse (orZero (txt cs)) = .ok (big (num cs)) := by
  unfold orZero
  by_cases hc : cs = []
  · subst hc; decide +kernel
  · rw [if_neg (by simpa [txt] using hc), parse_digits_nat cs hc h]

/-! ### The number of digits -/

/-- The number of digits of a fraction: that of its `BigInteger`. -/
def width (n : Nat) : Nat := (digs n).length

theorem width_zero : width 0 = 0 := rfl

theorem width_pos (n : Nat) (h : 0 < n) : width n = width (n / 10) + 1 := by
  unfold width; rw [digs_pos n h]; simp

theorem width_eq (n : Nat) (h : 0 < n) : width n = (Nat.toDigits 10 n).length := by
  unfold width digs; rw [if_neg (by omega)]; simp

theorem width_le (n k : Nat) : width n ≤ k ↔ n < 10 ^ k := by
  by_cases h : n = 0
  · subst h; simp [width_zero, Nat.pow_pos]
  · rw [width_eq n (by omega)]
    cases k with
    | zero =>
      have : (Nat.toDigits 10 n).length ≠ 0 := by simp [Nat.toDigits_ne_nil]
      simp; omega
    | succ k => exact Nat.length_toDigits_le_iff (by omega) (by omega)

theorem lt_width (n : Nat) : n < 10 ^ width n := (width_le n _).mp (Nat.le_refl _)

theorem width_lower (n k : Nat) (h : k < width n) : 10 ^ k ≤ n := by
  have := mt (width_le n k).mpr; omega

theorem width_unique (n k : Nat) (h1 : 10 ^ k ≤ n) (h2 : n < 10 ^ (k + 1)) : width n = k + 1 := by
  have h3 := (width_le n (k + 1)).mpr h2
  have h4 := mt (width_le n k).mp (by omega)
  omega

theorem width_mul_pow (n k : Nat) (h : 0 < n) : width (n * 10 ^ k) = width n + k := by
  have hw : 0 < width n := by rw [width_pos n h]; omega
  have h1 := width_lower n (width n - 1) (by omega)
  have h2 := lt_width n
  have := width_unique (n * 10 ^ k) (width n - 1 + k)
    (by rw [Nat.pow_add]; exact Nat.mul_le_mul_right _ h1)
    (by
      rw [show width n - 1 + k + 1 = width n + k by omega, Nat.pow_add]
      exact Nat.mul_lt_mul_of_pos_right h2 (Nat.pow_pos (by omega)))
  omega

theorem mk'_size (m : Nat) (s : Bool) : (mk' m s).size = width m := rfl

theorem big_nat (n : Nat) : big (n : Int) = mk' n false := by simp [big, mk']

theorem big_size (z : Int) : (big z).size = width z.natAbs := rfl

theorem parse_ten : BigInt.parse c!"10" = .ok (mk' 10 false) := by decide +kernel

/-! ### The loops of `Add` and `Subtract` -/

theorem stretch_same (fuel m n : Nat) (hf : 0 < fuel) (h : width n ≤ width m) :
    stretch fuel (mk' m false) (mk' n false) = .ok (mk' m false) := by
  obtain ⟨k, rfl⟩ : ∃ k, fuel = k + 1 := ⟨fuel - 1, by omega⟩
  unfold stretch
  rw [if_neg (by rw [mk'_size, mk'_size]; omega)]

theorem stretch_spec (n : Nat) : ∀ (d fuel m : Nat), 0 < m → width m + d = width n → d < fuel →
    stretch fuel (mk' m false) (mk' n false) = .ok (mk' (m * 10 ^ d) false)
  | 0, fuel, m, _, h, hf => by
    rw [stretch_same fuel m n hf (by omega)]; simp
  | d + 1, fuel, m, hm, h, hf => by
    obtain ⟨k, rfl⟩ : ∃ k, fuel = k + 1 := ⟨fuel - 1, by omega⟩
    unfold stretch
    rw [if_pos (by rw [mk'_size, mk'_size]; omega)]
    simp only [parse_ten, bind, Except.bind, multiply_mk, bne_self_eq_false, ite_self]
    have := width_mul_pow m 1 hm
    rw [Nat.pow_one] at this
    rw [stretch_spec n d k (m * 10) (by omega) (by omega) (by omega), Nat.mul_assoc, Nat.pow_succ,
      Nat.mul_comm 10]

theorem stretch_zero (n : Nat) (h : 0 < n) : ∀ fuel, stretch fuel (mk' 0 false) (mk' n false) = .error .fuel
  | 0 => rfl
  | k + 1 => by
    unfold stretch
    rw [if_pos (by rw [mk'_size, mk'_size, width_zero, width_pos n h]; omega)]
    simp only [parse_ten, bind, Except.bind, multiply_mk, bne_self_eq_false, ite_self, Nat.zero_mul]
    exact stretch_zero n h k

/-! ### Sizes -/

/-- The digits of a number fit into memory. -/
def Small (i : Int) (f : Nat) : Prop := width i.natAbs + width f < 2 ^ 57

theorem decimal_length (z : Int) : (decimal z).length ≤ width z.natAbs + 2 := by
  have h : (Nat.toDigits 10 z.natAbs).length ≤ width z.natAbs + 1 := by
    by_cases hz : z.natAbs = 0
    · rw [hz]; decide
    · rw [width_eq _ (by omega)]; omega
  rw [decimal_txt]
  split <;> simp [txt] <;> omega

theorem width_add (m n : Nat) : width (m + n) ≤ max (width m) (width n) + 1 := by
  rw [width_le, Nat.pow_succ]
  have h1 := lt_width m
  have h2 := lt_width n
  have h3 : 10 ^ width m ≤ 10 ^ max (width m) (width n) := Nat.pow_le_pow_right (by omega) (by omega)
  have h4 : 10 ^ width n ≤ 10 ^ max (width m) (width n) := Nat.pow_le_pow_right (by omega) (by omega)
  omega

theorem width_mono {m n : Nat} (h : m ≤ n) : width m ≤ width n := by
  rw [width_le]; have := lt_width n; omega

theorem npos_val : npos = 2 ^ 64 - 1 := by decide

theorem fits_of (x z : Int) (h : width x.natAbs + width z.natAbs < 2 ^ 60) : Fits (decimal x) (decimal z) := by
  unfold Fits
  have h1 := decimal_length x
  have h2 := decimal_length z
  rw [npos_val]
  omega

/-! ### Sums -/

/-- What `BigInteger::Add` prints (C38). -/
def addI (i j : Int) : Int := if i < 0 ∧ 0 ≤ j ∧ j < -i then -(i + j) else i + j

/-- What `BigInteger::Subtract` prints (C39). -/
def subI (i j : Int) : Int :=
  if 0 ≤ i ∧ 0 ≤ j then i - j else if i < 0 ∧ j < 0 then j - i else if 0 ≤ i then (i + j).natAbs else -(i + j).natAbs

/-- A `BigInteger` that prints as the integer: the canonical one, or zero with the sign set. -/
def Shows (b : BigInt) (z : Int) : Prop := b = big z ∨ (b = negZero ∧ z = 0)

theorem shows_toString {b z} (h : Shows b z) : b.toString = decimal z := by
  rcases h with rfl | ⟨rfl, rfl⟩
  · exact toString_big z
  · decide

theorem add_shows (i j : Int) : ∃ r, BigInt.add (big i) (big j) = .ok r ∧ Shows r (addI i j) := by
  refine ⟨_, C38_add_exact i j, ?_⟩
  unfold addI
  by_cases h1 : i < 0 ∧ 0 ≤ j ∧ j < -i
  · simp only [if_pos h1]; exact .inl rfl
  · simp only [if_neg h1]
    by_cases h2 : 0 < i ∧ j = -i
    · rw [if_pos h2]; exact .inr ⟨rfl, by omega⟩
    · rw [if_neg h2]; exact .inl rfl

theorem subtract_shows (i j : Int) : ∃ r, BigInt.subtract (big i) (big j) = .ok r ∧ Shows r (subI i j) := by
  refine ⟨_, C39_subtract_exact i j, ?_⟩
  unfold subI
  by_cases h1 : 0 ≤ i ∧ 0 ≤ j
  · simp only [if_pos h1]; exact .inl rfl
  · simp only [if_neg h1]
    by_cases h2 : i < 0 ∧ j < 0
    · simp only [if_pos h2]; exact .inl rfl
    · simp only [if_neg h2]
      by_cases h3 : 0 ≤ i
      · simp only [if_pos h3]; exact .inl rfl
      · simp only [if_neg h3]
        by_cases h4 : i + j = 0
        · rw [if_pos h4]; exact .inr ⟨rfl, by omega⟩
        · rw [if_neg h4]; exact .inl rfl

theorem add_one_shows {b z} (h : Shows b z) : ∃ r, BigInt.add b (big 1) = .ok r ∧ Shows r (addI z 1) := by
  rcases h with rfl | ⟨rfl, rfl⟩
  · exact add_shows z 1
  · exact ⟨big 1, by decide +kernel, .inl rfl⟩

theorem subtract_one_shows {b z} (h : Shows b z) :
    ∃ r, BigInt.subtract b (big 1) = .ok r ∧ Shows r (subI z 1) := by
  rcases h with rfl | ⟨rfl, rfl⟩
  · exact subtract_shows z 1
  · exact ⟨big (-1), by decide +kernel, .inl rfl⟩

theorem ofInt_nat (n : Nat) : BigInt.ofInt n = .ok (mk' n false) := by
  rw [ofInt_nonneg _ (by omega), Int.toNat_natCast]

/-- A fraction written with `n` digits, as an integer. -/
def scaled (n f : Nat) : Nat := f * 10 ^ (n - width f)

theorem scaled_lt (n f : Nat) (h : width f ≤ n) : scaled n f < 10 ^ n := by
  unfold scaled
  have h1 := Nat.mul_lt_mul_of_pos_right (lt_width f) (show 0 < 10 ^ (n - width f) from Nat.pow_pos (by omega))
  rw [← Nat.pow_add, show width f + (n - width f) = n by omega] at h1
  exact h1

theorem scaled_ge (n f : Nat) (h : 0 < f) (hn : width f ≤ n) : 10 ^ (n - 1) ≤ scaled n f := by
  unfold scaled
  have hw : 0 < width f := by rw [width_pos f h]; omega
  have h1 := Nat.mul_le_mul_right (10 ^ (n - width f)) (width_lower f (width f - 1) (by omega))
  rw [← Nat.pow_add, show width f - 1 + (n - width f) = n - 1 by omega] at h1
  exact h1

theorem scaled_width (n f : Nat) (h : 0 < f) (hn : width f ≤ n) : width (scaled n f) = n := by
  unfold scaled; rw [width_mul_pow _ _ h]; omega

theorem scaled_zero (n : Nat) : scaled n 0 = 0 := by simp [scaled]

/-- Both loops: the fractions with the same number of digits. -/
theorem stretch_both (f g fuel : Nat) (hz : f = 0 ↔ g = 0) (hf : max (width f) (width g) < fuel) :
    stretch fuel (mk' f false) (mk' g false) = .ok (mk' (scaled (max (width f) (width g)) f) false) ∧
    stretch fuel (mk' g false) (mk' (scaled (max (width f) (width g)) f) false) =
      .ok (mk' (scaled (max (width f) (width g)) g) false) := by
  by_cases h0 : f = 0
  · have hg := hz.mp h0
    subst h0; subst hg
    simp only [scaled_zero]
    exact ⟨stretch_same _ _ _ (by omega) (by omega), stretch_same _ _ _ (by omega) (by omega)⟩
  · have hg : g ≠ 0 := fun h => h0 (hz.mpr h)
    have hw := scaled_width (max (width f) (width g)) f (by omega) (by omega)
    by_cases h : width f ≤ width g
    · rw [Nat.max_eq_right h] at hw hf ⊢
      refine ⟨stretch_spec g _ _ f (by omega) (by omega) (by omega), ?_⟩
      rw [stretch_same _ _ _ (by omega) (by omega)]
      simp [scaled]
    · rw [Nat.max_eq_left (by omega)] at hw hf ⊢
      constructor
      · rw [stretch_same _ _ _ (by omega) (by omega)]
        simp [scaled]
      · exact stretch_spec _ _ _ g (by omega) (by omega) (by omega)

theorem addI_natAbs (i j : Int) : (addI i j).natAbs ≤ i.natAbs + j.natAbs := by
  unfold addI; split <;> omega

theorem subI_natAbs (i j : Int) : (subI i j).natAbs ≤ i.natAbs + j.natAbs := by
  unfold subI; repeat' split
  all_goals omega

theorem flo_int (i f) : (flo i f).int = big i := rfl
theorem flo_frac (i f) : (flo i f).frac = mk' f false := big_nat f
theorem flo_neg (i f) : (flo i f).neg = false := rfl

theorem ten_mul_le_pow : ∀ n : Nat, 1 ≤ n → 10 * n ≤ 10 ^ n
  | 0, h => by omega
  | 1, _ => by decide
  | n + 2, _ => by
    have := ten_mul_le_pow (n + 1) (by omega)
    rw [Nat.pow_succ]
    omega

theorem width_one : width 1 = 1 := by decide

/-- The sum as the code computes it. -/
theorem add_flo (i j : Int) (f g fuel : Nat) (hz : f = 0 ↔ g = 0) (hf : max (width f) (width g) < fuel)
    (h1 : Small i f) (h2 : Small j g) :
    add fuel (flo i f) (flo j g) = .ok (
      let n := max (width f) (width g)
      if scaled n f + scaled n g < 10 ^ n then flo (addI i j) (scaled n f + scaled n g)
      else flo (addI (addI i j) 1) (scaled n f + scaled n g - 10 * n)) := by
  unfold Small at h1 h2
  obtain ⟨e1, e2⟩ := stretch_both f g fuel hz hf
  unfold add
  simp only [flo_frac, flo_int, e1, e2, bind, Except.bind, add_same, ite_self]
  generalize hn : max (width f) (width g) = n at *
  have hF := scaled_lt n f (by omega)
  have hG := scaled_lt n g (by omega)
  have hw : width (scaled n f) = if f = 0 then 0 else n := by
    split
    · next h => subst h; simp [scaled_zero, width_zero]
    · exact scaled_width n f (by omega) (by omega)
  have hc : (width (scaled n f) < width (scaled n f + scaled n g)) ↔ ¬ scaled n f + scaled n g < 10 ^ n := by
    rw [hw, ← width_le]
    by_cases h0 : f = 0
    · have hg := hz.mp h0
      subst h0; subst hg
      rw [if_pos rfl]
      simp [scaled_zero, width_zero]
    · rw [if_neg h0]; omega
  simp only [mk'_size, gt_iff_lt, decide_eq_true_eq]
  obtain ⟨r, hr1, hr2⟩ := add_shows i j
  simp only [hr1]
  have hb := addI_natAbs i j
  have hi := width_add i.natAbs j.natAbs
  have hb' := width_mono hb
  by_cases hcarry : scaled n f + scaled n g < 10 ^ n
  · rw [if_neg (by rw [hc]; simpa using hcarry), if_neg (by rw [hc]; simpa using hcarry)]
    simp only [if_pos hcarry]
    rw [shows_toString hr2, ← big_nat, toString_big]
    have := (width_le _ _).mpr hcarry
    rw [parse_decimals]
    · rfl
    · apply fits_of
      rw [Int.natAbs_natCast]
      omega
  · have hf0 : f ≠ 0 := by
      intro h0
      have hg := hz.mp h0
      subst h0; subst hg
      simp [scaled_zero, Nat.pow_pos] at hcarry
    rw [if_neg hf0] at hw
    have hn1 : 1 ≤ n := by rw [width_pos f (by omega)] at hn; omega
    have hle := ten_mul_le_pow n hn1
    have hlt := hc.mpr hcarry
    have e1 : BigInt.parse c!"1" = .ok (big 1) := parse_one
    obtain ⟨q, hq1, hq2⟩ := add_one_shows hr2
    have hsub : BigInt.subtract (mk' (scaled n f + scaled n g) false) (mk' (10 * n) false) =
        .ok (mk' (scaled n f + scaled n g - 10 * n) false) := by
      rw [subtract_same]
      split
      · next h => rw [h, Nat.sub_self]
      · rw [if_neg (by omega)]
    have hb2 := addI_natAbs (addI i j) 1
    have hw2 := width_mono hb2
    have hw3 := width_add (addI i j).natAbs (1 : Int).natAbs
    have hw4 : width (scaled n f + scaled n g - 10 * n) ≤ n + 1 := by
      rw [width_le, Nat.pow_succ]; omega
    have w1 : width (1 : Int).natAbs = 1 := width_one
    rw [hw] at hlt
    simp only [hw, hlt, if_true, hcarry, if_false, parse_ten, ofInt_nat, multiply_mk, bne_self_eq_false, ite_self, hsub,
      e1, hq1]
    rw [shows_toString hq2, ← big_nat, toString_big, parse_decimals]
    · rfl
    · apply fits_of
      rw [Int.natAbs_natCast]
      omega

theorem add_diverges (i j : Int) (f g fuel : Nat) (hz : (f = 0) ≠ (g = 0)) :
    add fuel (flo i f) (flo j g) = .error .fuel := by
  unfold add
  simp only [flo_frac]
  by_cases h0 : f = 0
  · have hg : g ≠ 0 := by intro h; simp [h0, h] at hz
    subst h0
    rw [stretch_zero g (by omega)]
    rfl
  · have hg : g = 0 := by
      apply Classical.byContradiction
      intro h; simp [h0, h] at hz
    subst hg
    by_cases hf : fuel = 0
    · subst hf; rfl
    · rw [stretch_same _ _ _ (by omega) (by rw [width_zero]; omega)]
      simp only [bind, Except.bind]
      rw [stretch_zero f (by omega)]

theorem subtract_diverges (i j : Int) (f g fuel : Nat) (hz : (f = 0) ≠ (g = 0)) :
    subtract fuel (flo i f) (flo j g) = .error .fuel := by
  unfold subtract
  simp only [flo_frac]
  by_cases h0 : f = 0
  · have hg : g ≠ 0 := by intro h; simp [h0, h] at hz
    subst h0
    rw [stretch_zero g (by omega)]
    rfl
  · have hg : g = 0 := by
      apply Classical.byContradiction
      intro h; simp [h0, h] at hz
    subst hg
    by_cases hf : fuel = 0
    · subst hf; rfl
    · rw [stretch_same _ _ _ (by omega) (by rw [width_zero]; omega)]
      simp only [bind, Except.bind]
      rw [stretch_zero f (by omega)]

/-- The difference as the code computes it. -/
theorem subtract_flo (i j : Int) (f g fuel : Nat) (hz : f = 0 ↔ g = 0) (hf : max (width f) (width g) < fuel)
    (h1 : Small i f) (h2 : Small j g) :
    subtract fuel (flo i f) (flo j g) = .ok (
      let n := max (width f) (width g)
      if scaled n g ≤ scaled n f then flo (subI i j) (scaled n f - scaled n g)
      else ⟨big (subI (subI i j) 1), big ((scaled n f : Int) + 10 * n - scaled n g), false⟩) := by
  unfold Small at h1 h2
  obtain ⟨e1, e2⟩ := stretch_both f g fuel hz hf
  unfold subtract
  simp only [flo_frac, flo_int, e1, e2, bind, Except.bind]
  generalize hn : max (width f) (width g) = n at *
  have hF := scaled_lt n f (by omega)
  have hG := scaled_lt n g (by omega)
  obtain ⟨r, hr1, hr2⟩ := subtract_shows i j
  obtain ⟨q, hq1, hq2⟩ := subtract_one_shows hr2
  have hb := subI_natAbs i j
  have hi := width_add i.natAbs j.natAbs
  have hb' := width_mono hb
  rw [lessThan_mk]
  simp only [ne_eq, not_true_eq_false, if_false, decide_eq_true_eq]
  by_cases hle : scaled n g ≤ scaled n f
  · rw [if_neg (by omega)]
    simp only [if_pos hle, hr1]
    have hsub : BigInt.subtract (mk' (scaled n f) false) (mk' (scaled n g) false) =
        .ok (mk' (scaled n f - scaled n g) false) := by
      rw [subtract_same]
      split
      · next h => rw [h, Nat.sub_self]
      · rw [if_neg (by omega)]
    simp only [hsub]
    rw [if_neg (by omega), shows_toString hr2, ← big_nat, toString_big]
    have := (width_le (scaled n f - scaled n g) n).mpr (by omega)
    rw [parse_decimals]
    · rfl
    · apply fits_of
      rw [Int.natAbs_natCast]
      omega
  · have hf0 : f ≠ 0 := by
      intro h0
      have hg := hz.mp h0
      subst h0; subst hg
      exact hle (Nat.le_refl _)
    have hw := scaled_width n f (by omega) (by omega)
    have hn1 : 1 ≤ n := by rw [width_pos f (by omega)] at hn; omega
    have hten := ten_mul_le_pow n hn1
    have hlt : scaled n f < scaled n g := by omega
    have hsub : BigInt.subtract (mk' (scaled n f + 10 * n) false) (mk' (scaled n g) false) =
        .ok (big ((scaled n f : Int) + 10 * n - scaled n g)) := by
      rw [← big_nat, ← big_nat, C39_subtract_exact, if_pos (by omega)]
      congr 2
    have e1 : BigInt.parse c!"1" = .ok (big 1) := parse_one
    have hb2 := subI_natAbs (subI i j) 1
    have hw2 := width_mono hb2
    have hw3 := width_add (subI i j).natAbs (1 : Int).natAbs
    have hw4 : width ((scaled n f : Int) + 10 * n - scaled n g).natAbs ≤ n + 1 := by
      rw [width_le, Nat.pow_succ]; omega
    have w1 : width (1 : Int).natAbs = 1 := width_one
    simp only [hlt, if_true, hle, if_false, parse_ten, mk'_size, hw, ofInt_nat, multiply_mk, bne_self_eq_false, ite_self,
      add_same, hsub, hr1, e1, hq1]
    rw [shows_toString hq2, toString_big, parse_decimals]
    apply fits_of
    omega

/-! ### Products and quotients -/

/-- The digits of both parts as one integer. -/
def joined (i : Int) (f : Nat) : Int :=
  if i < 0 then -((i.natAbs * 10 ^ (max 1 (width f)) + f : Nat) : Int)
  else ((i.natAbs * 10 ^ (max 1 (width f)) + f : Nat) : Int)

theorem toDigits_length (n : Nat) : (Nat.toDigits 10 n).length = max 1 (width n) := by
  by_cases h : n = 0
  · subst h; decide
  · rw [width_eq n (by omega)]
    have : (Nat.toDigits 10 n).length ≠ 0 := by simp [Nat.toDigits_ne_nil]
    omega

theorem txt_append (a b : List Char) : txt (a ++ b) = txt a ++ txt b := by simp [txt]

theorem full_flo (i : Int) (f : Nat) : full (flo i f) = .ok (big (joined i f)) := by
  unfold full Str.plus
  rw [flo_int, flo_frac, ← big_nat, toString_big, toString_big, decimal_txt, decimal_txt (f : Int),
    if_neg (show ¬ (f : Int) < 0 by omega), Int.natAbs_natCast]
  have hd : ∀ c ∈ Nat.toDigits 10 i.natAbs ++ Nat.toDigits 10 f, DigitChar c := by
    intro c hc
    rcases List.mem_append.mp hc with h | h
    · exact toDigits_digitChar _ c h
    · exact toDigits_digitChar _ c h
  have hnum : num (Nat.toDigits 10 i.natAbs ++ Nat.toDigits 10 f) =
      i.natAbs * 10 ^ (max 1 (width f)) + f := by
    rw [num_append, num_toDigits, num_toDigits, toDigits_length]
  unfold joined
  split
  · rw [List.cons_append, ← txt_append, parse_minus_int _ hd, hnum]
  · rw [← txt_append, parse_digits_nat _ (by simp [Nat.toDigits_ne_nil]) hd, hnum]

theorem txt_length (cs : List Char) : (txt cs).length = cs.length := by simp [txt]

/-- A point is put among digits. -/
theorem point_digits (ds : List Char) (t : Nat) (hd : ∀ c ∈ ds, DigitChar c) (ht : t < ds.length)
    (hl : ds.length < 2 ^ 62) :
    (do parse (← Str.insertCount (txt ds) (wsub (txt ds).length t) 1 ⟨b!"."⟩)) =
      .ok (flo ((num ds / 10 ^ t : Nat) : Int) (num ds % 10 ^ t)) := by
  have hw : wsub (txt ds).length t = ds.length - t := by
    rw [txt_length]; unfold wsub twoPow64; omega
  rw [hw]
  unfold Str.insertCount
  rw [if_neg (by rw [txt_length]; omega)]
  simp only [bind, Except.bind, List.replicate_one, List.append_assoc, List.singleton_append]
  have e1 : (txt ds).take (ds.length - t) = txt (ds.take (ds.length - t)) := by simp [txt, List.map_take]
  have e2 : (txt ds).drop (ds.length - t) = txt (ds.drop (ds.length - t)) := by simp [txt, List.map_drop]
  have hd1 : ∀ c ∈ ds.take (ds.length - t), DigitChar c := fun c hc => hd c (List.mem_of_mem_take hc)
  have hd2 : ∀ c ∈ ds.drop (ds.length - t), DigitChar c := fun c hc => hd c (List.mem_of_mem_drop hc)
  rw [e1, e2, parse_point _ _ (txt_nopoint _ hd1)
    (by rw [txt_length, txt_length, List.length_take, List.length_drop, npos_val]; omega)]
  simp only [orZero_txt _ hd1, orZero_txt _ hd2, bind, Except.bind]
  have hsplit : num ds = num (ds.take (ds.length - t)) * 10 ^ t + num (ds.drop (ds.length - t)) := by
    conv => lhs; rw [← List.take_append_drop (ds.length - t) ds]
    rw [num_append, List.length_drop, show ds.length - (ds.length - t) = t by omega]
  have hlt := num_lt _ hd2
  rw [List.length_drop, show ds.length - (ds.length - t) = t by omega] at hlt
  have hp : 0 < 10 ^ t := Nat.pow_pos (by omega)
  have q1 : num ds / 10 ^ t = num (ds.take (ds.length - t)) := by
    rw [hsplit, Nat.mul_comm, Nat.mul_add_div hp, Nat.div_eq_of_lt hlt, Nat.add_zero]
  have q2 : num ds % 10 ^ t = num (ds.drop (ds.length - t)) := by
    rw [hsplit, Nat.mul_comm, Nat.mul_add_mod, Nat.mod_eq_of_lt hlt]
  rw [q1, q2]
  rfl

/-- What `putPoint` computes: `t` is the number of digits after the point. -/
def pointed (z : Int) (t : Nat) : Res BigFloat :=
  if 0 ≤ z then .ok (flo ((z.natAbs / 10 ^ t : Nat) : Int) (z.natAbs % 10 ^ t))
  else if t ≤ width z.natAbs then .ok (flo (-((z.natAbs / 10 ^ t : Nat) : Int)) (z.natAbs % 10 ^ t))
  else if t = width z.natAbs + 1 then .ok ⟨big 0, big z, false⟩
  else .error .invalidArgument

theorem zeros_eq (k : Nat) (h : k < 2 ^ 60) : zeros k = .ok (txt (List.replicate k '0')) := by
  unfold zeros Str.ofCountByte
  rw [if_neg (by omega)]
  by_cases hk : k = 0
  · subst hk; rfl
  · rw [if_neg hk]
    have : Chr.ofBytes [0x30] = .ok (asc '0') := by decide
    simp only [this, bind, Except.bind]
    simp [txt]
    rfl

theorem putPoint_nonneg (m t : Nat) (ht : t < 2 ^ 59) (hm : width m < 2 ^ 59) :
    putPoint (big m) t = .ok (flo ((m / 10 ^ t : Nat) : Int) (m % 10 ^ t)) := by
  unfold putPoint
  rw [toString_big, decimal_txt, if_neg (show ¬ (m : Int) < 0 by omega), Int.natAbs_natCast]
  have hlen := toDigits_length m
  have hd := toDigits_digitChar m
  simp only [txt_length]
  by_cases h : t ≥ (Nat.toDigits 10 m).length
  · rw [if_pos h]
    have hw : wadd (wsub t (Nat.toDigits 10 m).length) 1 = t - (Nat.toDigits 10 m).length + 1 := by
      unfold wadd wsub twoPow64; omega
    rw [hw, zeros_eq _ (by omega)]
    simp only [bind, Except.bind, Str.insert, Nat.not_lt_zero, if_false, List.take_zero, List.drop_zero, List.nil_append,
      ← txt_append]
    have hd' : ∀ c ∈ List.replicate (t - (Nat.toDigits 10 m).length + 1) '0' ++ Nat.toDigits 10 m, DigitChar c := by
      intro c hc
      rcases List.mem_append.mp hc with h | h
      · obtain ⟨_, rfl⟩ := List.mem_replicate.mp h
        unfold DigitChar; decide
      · exact hd c h
    have := point_digits _ t hd' (by simp; omega) (by simp; omega)
    simp only [bind, Except.bind] at this
    have hz : num (List.replicate (t - (Nat.toDigits 10 m).length + 1) '0') = 0 := by
      unfold num; rw [Nat.ofDigitChars_replicate_zero, Nat.mul_zero]
    rw [this, num_append, hz, Nat.zero_mul, Nat.zero_add, num_toDigits]
  · rw [if_neg h]
    simp only [bind, Except.bind]
    have := point_digits _ t hd (by omega) (by omega)
    simp only [bind, Except.bind] at this
    rw [this, num_toDigits]

theorem parseDigits_bad : ∀ (cs : List Char) (r : Str), (∀ c ∈ cs, DigitChar c) →
    parseDigits (txt cs ++ asc '-' :: r) = .error .invalidArgument
  | [], r, _ => by
    have : (asc '-').getCodePoint = .ok 45 := by decide
    simp only [txt, List.map_nil, List.nil_append, parseDigits, this, bind, Except.bind]
    rw [if_neg (by decide)]
  | c :: cs, r, h => by
    have hc := h c (by simp)
    have ih := parseDigits_bad cs r (fun d hd => h d (by simp [hd]))
    unfold txt at ih ⊢
    have hlt : c.toNat < 128 := by unfold DigitChar at hc; omega
    simp only [List.map_cons, List.cons_append, parseDigits, asc_codePoint c hlt, bind, Except.bind, isDigit_ascii _ hc,
      if_true, ih]

theorem parse_bad (cs : List Char) (r : Str) (h : ∀ c ∈ cs, DigitChar c) (hne : cs ≠ []) :
    BigInt.parse (txt cs ++ asc '-' :: r) = .error .invalidArgument := by
  have hb := parseDigits_bad cs r h
  cases cs with
  | nil => exact absurd rfl hne
  | cons c cs =>
    have hc := asc_ne c (h c (by simp))
    unfold txt at hb ⊢
    simp only [List.map_cons, List.cons_append] at hb ⊢
    unfold BigInt.parse
    simp only []
    rw [if_neg hc.1, if_neg hc.2]
    simp only [hb, bind, Except.bind]

theorem replicate_digits (k : Nat) : ∀ c ∈ List.replicate k '0', DigitChar c := by
  intro c hc
  obtain ⟨_, rfl⟩ := List.mem_replicate.mp hc
  unfold DigitChar; decide

theorem putPoint_neg (m t : Nat) (h0 : 0 < m) (ht : t < 2 ^ 59) (hm : width m < 2 ^ 59) :
    putPoint (big (-(m : Int))) t =
      if t ≤ width m then .ok (flo (-((m / 10 ^ t : Nat) : Int)) (m % 10 ^ t))
      else if t = width m + 1 then .ok ⟨big 0, big (-(m : Int)), false⟩
      else .error .invalidArgument := by
  unfold putPoint
  rw [toString_big, decimal_txt, if_pos (show -(m : Int) < 0 by omega), Int.natAbs_neg, Int.natAbs_natCast]
  have hlen := toDigits_length m
  have hw0 : 0 < width m := by rw [width_pos m h0]; omega
  rw [Nat.max_eq_right hw0] at hlen
  have hd := toDigits_digitChar m
  generalize hcs : Nat.toDigits 10 m = cs at *
  have hnum : num cs = m := by rw [← hcs, num_toDigits]
  simp only [List.length_cons, txt_length]
  by_cases h : t ≥ cs.length + 1
  · rw [if_pos h, if_neg (by omega)]
    have hw : wadd (wsub t (cs.length + 1)) 1 = (t - cs.length - 1) + 1 := by
      unfold wadd wsub twoPow64; omega
    rw [hw, zeros_eq _ (by omega)]
    simp only [bind, Except.bind, Str.insert, Nat.not_lt_zero, if_false, List.take_zero, List.drop_zero, List.nil_append]
    generalize hk : t - cs.length - 1 = k
    have hw2 : wsub (txt (List.replicate (k + 1) '0') ++ asc '-' :: txt cs).length t = 1 := by
      rw [List.length_append, List.length_cons, txt_length, txt_length, List.length_replicate]
      unfold wsub twoPow64
      omega
    rw [hw2]
    have hins : Str.insertCount (txt (List.replicate (k + 1) '0') ++ asc '-' :: txt cs) 1 1 ⟨b!"."⟩ =
        .ok (c!"0" ++ ⟨b!"."⟩ :: (txt (List.replicate k '0') ++ asc '-' :: txt cs)) := by
      unfold Str.insertCount
      rw [if_neg (by simp)]
      simp [txt, List.replicate_succ]
      decide
    rw [hins]
    simp only []
    rw [parse_point _ _ (by decide) (by
      simp only [List.length_append, List.length_cons, List.length_nil, txt_length, List.length_replicate]
      rw [npos_val]; omega)]
    have hz : BigInt.parse (orZero c!"0") = .ok (big 0) := by decide
    simp only [hz, bind, Except.bind]
    by_cases hk0 : k = 0
    · subst hk0
      rw [if_pos (by omega)]
      simp only [List.replicate_zero]
      have : orZero (txt [] ++ asc '-' :: txt cs) = asc '-' :: txt cs := by simp [orZero, txt]
      rw [this, parse_minus_int _ hd, hnum]
      rfl
    · rw [if_neg (by omega)]
      have : orZero (txt (List.replicate k '0') ++ asc '-' :: txt cs) =
          txt (List.replicate k '0') ++ asc '-' :: txt cs := by simp [orZero]
      rw [this, parse_bad _ _ (replicate_digits k) (by simp [hk0])]
  · rw [if_neg h, if_pos (by omega)]
    simp only [bind, Except.bind, List.length_cons, txt_length]
    have hw : wsub (cs.length + 1) t = (cs.length - t) + 1 := by
      unfold wsub twoPow64; omega
    rw [hw]
    have hd1 : ∀ c ∈ cs.take (cs.length - t), DigitChar c := fun c hc => hd c (List.mem_of_mem_take hc)
    have hd2 : ∀ c ∈ cs.drop (cs.length - t), DigitChar c := fun c hc => hd c (List.mem_of_mem_drop hc)
    have hins : Str.insertCount (asc '-' :: txt cs) (cs.length - t + 1) 1 ⟨b!"."⟩ =
        .ok ((asc '-' :: txt (cs.take (cs.length - t))) ++ ⟨b!"."⟩ :: txt (cs.drop (cs.length - t))) := by
      unfold Str.insertCount
      rw [if_neg (by simp only [List.length_cons, txt_length]; omega)]
      simp [txt, List.map_take, List.map_drop]
    rw [hins]
    simp only []
    have hno : ⟨b!"."⟩ ∉ asc '-' :: txt (cs.take (cs.length - t)) := by
      intro hm
      rcases List.mem_cons.mp hm with e | hm
      · exact asc_ne_point '-' (by simp) e.symm
      · exact txt_nopoint _ hd1 hm
    rw [parse_point _ _ hno (by
      simp only [List.length_cons, txt_length, List.length_take, List.length_drop]
      rw [npos_val]; omega)]
    have ho : orZero (asc '-' :: txt (cs.take (cs.length - t))) = asc '-' :: txt (cs.take (cs.length - t)) := by
      simp [orZero]
    simp only [ho, parse_minus_int _ hd1, orZero_txt _ hd2, bind, Except.bind]
    have hsplit : m = num (cs.take (cs.length - t)) * 10 ^ t + num (cs.drop (cs.length - t)) := by
      conv => lhs; rw [← hnum, ← List.take_append_drop (cs.length - t) cs]
      rw [num_append, List.length_drop, show cs.length - (cs.length - t) = t by omega]
    have hlt := num_lt _ hd2
    rw [List.length_drop, show cs.length - (cs.length - t) = t by omega] at hlt
    have hp : 0 < 10 ^ t := Nat.pow_pos (by omega)
    have q1 : m / 10 ^ t = num (cs.take (cs.length - t)) := by
      rw [hsplit, Nat.mul_comm, Nat.mul_add_div hp, Nat.div_eq_of_lt hlt, Nat.add_zero]
    have q2 : m % 10 ^ t = num (cs.drop (cs.length - t)) := by
      rw [hsplit, Nat.mul_comm, Nat.mul_add_mod, Nat.mod_eq_of_lt hlt]
    rw [q1, q2]
    rfl

theorem putPoint_eq (z : Int) (t : Nat) (ht : t < 2 ^ 59) (hm : width z.natAbs < 2 ^ 59) :
    putPoint (big z) t = pointed z t := by
  unfold pointed
  split
  · next h =>
    have := putPoint_nonneg z.natAbs t ht hm
    rwa [show ((z.natAbs : Nat) : Int) = z by omega] at this
  · next h =>
    have := putPoint_neg z.natAbs t (by omega) ht hm
    rwa [show (-(z.natAbs : Nat) : Int) = z by omega] at this

theorem width_mul (m n : Nat) : width (m * n) ≤ width m + width n := by
  rw [width_le, Nat.pow_add]
  exact Nat.mul_lt_mul_of_lt_of_lt (lt_width m) (lt_width n)

theorem joined_natAbs (i : Int) (f : Nat) : (joined i f).natAbs = i.natAbs * 10 ^ (max 1 (width f)) + f := by
  unfold joined; split <;> omega

theorem joined_width (i : Int) (f : Nat) : width (joined i f).natAbs ≤ width i.natAbs + width f + 1 := by
  rw [joined_natAbs, width_le]
  have h1 := lt_width i.natAbs
  have h2 : f < 10 ^ (max 1 (width f)) :=
    Nat.lt_of_lt_of_le (lt_width f) (Nat.pow_le_pow_right (by omega) (by omega))
  have h3 : i.natAbs * 10 ^ (max 1 (width f)) + f < (i.natAbs + 1) * 10 ^ (max 1 (width f)) := by
    rw [Nat.add_mul]; omega
  refine Nat.lt_of_lt_of_le h3 ?_
  refine Nat.le_trans (Nat.mul_le_mul_right _ (show i.natAbs + 1 ≤ 10 ^ width i.natAbs by omega)) ?_
  rw [← Nat.pow_add]
  exact Nat.pow_le_pow_right (by omega) (by omega)

/-- The product as the code computes it. -/
theorem multiply_flo (i j : Int) (f g : Nat) (h1 : Small i f) (h2 : Small j g) :
    multiply (flo i f) (flo j g) = pointed (joined i f * joined j g) (width f + width g) := by
  unfold Small at h1 h2
  unfold multiply
  simp only [full_flo, bind, Except.bind, multiply_big, flo_frac, mk'_size]
  have hw : wadd (width f) (width g) = width f + width g := by unfold wadd twoPow64; omega
  rw [hw]
  apply putPoint_eq
  · omega
  · have a1 := joined_width i f
    have a2 := joined_width j g
    have a3 := width_mul (joined i f).natAbs (joined j g).natAbs
    rw [Int.natAbs_mul]
    omega

theorem parse_zero_flo : parse c!"0" = .ok (flo 0 0) := by decide
theorem parse_one_flo : parse c!"1" = .ok (flo 1 0) := by decide
theorem parse_two_flo : parse c!"2" = .ok (flo 2 0) := by decide

theorem equal_flo (i j : Int) (f g : Nat) : equal (flo i f) (flo j g) = decide (i = j ∧ f = g) := by
  unfold equal
  have h1 : (big i).equal (big j) = decide (i = j) := (C45_compare_exact i j).1
  have h2 : (big (f : Int)).equal (big (g : Int)) = decide (f = g) := by
    have := (C45_compare_exact f g).1
    simp only [Int.natCast_inj] at this
    exact this
  show ((big i).equal (big j) && (big (f : Int)).equal (big (g : Int)) && (false == false)) = _
  rw [h1, h2]
  simp

theorem joined_eq_zero (i : Int) (f : Nat) : joined i f = 0 ↔ i = 0 ∧ f = 0 := by
  have h := joined_natAbs i f
  have hp : 0 < 10 ^ (max 1 (width f)) := Nat.pow_pos (by omega)
  constructor
  · intro e
    rw [e, Int.natAbs_zero] at h
    have h3 : i.natAbs * 10 ^ (max 1 (width f)) = 0 := by omega
    have h4 := Nat.mul_eq_zero.mp h3
    exact ⟨by omega, by omega⟩
  · rintro ⟨rfl, rfl⟩; rfl

/-- The quotient as the code computes it. -/
theorem divide_flo (i j : Int) (f g : Nat) (h1 : Small i f) (h2 : Small j g) :
    divide (flo i f) (flo j g) =
      if j = 0 ∧ g = 0 then .error .invalidArgument
      else if width f < width g then .error .memory
      else pointed ((joined i f).tdiv (joined j g)) (width f - width g) := by
  unfold Small at h1 h2
  unfold divide
  simp only [parse_zero_flo, bind, Except.bind, equal_flo, decide_eq_true_eq]
  by_cases h0 : j = 0 ∧ g = 0
  · rw [if_pos h0, if_pos h0]
  · rw [if_neg h0, if_neg h0]
    have hj : joined j g ≠ 0 := fun h => h0 ((joined_eq_zero j g).mp h)
    simp only [full_flo, divide_big _ _ hj, flo_frac, mk'_size]
    have a1 := joined_width i f
    have a3 : width ((joined i f).tdiv (joined j g)).natAbs ≤ width (joined i f).natAbs := by
      apply width_mono
      rw [Int.natAbs_tdiv]
      exact Nat.div_le_self _ _
    by_cases hw : width f < width g
    · rw [if_pos hw]
      have e : wsub (width f) (width g) = 2 ^ 64 - (width g - width f) := by unfold wsub twoPow64; omega
      unfold putPoint
      rw [e, toString_big]
      have hl := decimal_length ((joined i f).tdiv (joined j g))
      rw [if_pos (by omega)]
      have e2 : wadd (wsub (2 ^ 64 - (width g - width f)) (decimal ((joined i f).tdiv (joined j g))).length) 1 =
          2 ^ 64 - (width g - width f) - (decimal ((joined i f).tdiv (joined j g))).length + 1 := by
        have : (decimal ((joined i f).tdiv (joined j g))).length ≠ 0 := by simp [decimal_ne_nil]
        unfold wadd wsub twoPow64; omega
      rw [e2]
      unfold zeros
      rw [if_pos (by omega)]
      rfl
    · rw [if_neg hw]
      have e : wsub (width f) (width g) = width f - width g := by unfold wsub twoPow64; omega
      rw [e]
      exact putPoint_eq _ _ (by omega) (by omega)

end BigFloat
end Caitlyn
