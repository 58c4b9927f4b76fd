import Verif.Spec.BigFloatProg
import Verif.Props.BigIntProg
import Verif.Props.BigFloatMore

/-!
# Programs with `BigFloat`: one statement
-/

namespace Caitlyn.BigFloatProg
open BigInt BigFloat Spec
open BigIntProg (rep text_ok lt_rep eq_rep gt_iff)

/-- The object that holds two integers. -/
def repF (a : Dec) : BigFloat := ⟨big a.int, big a.frac, false⟩

/-- All variables. -/
def repsF (w : DecVars) : Vars := fun x => repF (w x)

theorem repsF_set (w : DecVars) (x : Nat) (a : Dec) : (repsF w).set x (repF a) = repsF (w.set x a) := by
  funext y; simp only [Vars.set, repsF, DecVars.set]; split <;> rfl

theorem rep_ofInt (z : Int) : rep (.ofInt z) = big z := rfl

theorem digits_width (z : Int) : Dec.digits z = width z.natAbs := by
  simp only [Dec.digits, Signed.digits, width, digs]
  split <;> simp

theorem digits_nat (n : Nat) : Signed.digits n = width n := by
  simp only [Signed.digits, width, digs]
  split <;> simp

theorem digits_zero : Dec.digits 0 = 0 := rfl

theorem digits_eq_zero (z : Int) : Dec.digits z = 0 ↔ z = 0 := by
  rw [digits_width]
  constructor
  · intro h
    have := (width_le z.natAbs 0).mp (by omega)
    omega
  · rintro rfl; rfl

theorem plus_ok (a b : Signed) : BigInt.add (rep a) (rep b) = .ok (rep (a.plus b)) :=
  BigIntProg.bin_ok .add a b _ rfl rfl

theorem minus_ok (a b : Signed) : BigInt.subtract (rep a) (rep b) = .ok (rep (a.minus b)) :=
  BigIntProg.bin_ok .subtract a b _ rfl rfl

theorem plus_mag (a b : Signed) : (a.plus b).mag ≤ a.mag + b.mag := by
  simp only [Signed.plus, Signed.bin, Option.getD_some]
  split
  · exact Nat.le_refl _
  · split <;> simp only <;> omega

theorem minus_mag (a b : Signed) : (a.minus b).mag ≤ a.mag + b.mag := by
  simp only [Signed.minus, Signed.bin, Option.getD_some]
  split <;> simp only <;> omega

theorem int_natAbs (a : Signed) : a.int.natAbs = a.mag := by
  simp only [Signed.int]; split <;> omega

/-! ### The loops -/

theorem stretch_sign (n : Nat) (t s : Bool) : ∀ (d fuel m : Nat), 0 < m → width n ≤ width m + d →
    (d ≠ 0 → width m + d = width n) → d < fuel →
    stretch fuel (mk' m s) (mk' n t) = .ok (mk' (m * 10 ^ d) s)
  | 0, fuel, m, _, h, _, hf => by
    obtain ⟨k, rfl⟩ : ∃ k, fuel = k + 1 := ⟨fuel - 1, by omega⟩
    unfold stretch
    rw [if_neg (by rw [mk'_size, mk'_size]; omega)]; simp
  | d + 1, fuel, m, hm, h, he, hf => by
    obtain ⟨k, rfl⟩ : ∃ k, fuel = k + 1 := ⟨fuel - 1, by omega⟩
    have he := he (by omega)
    unfold stretch
    rw [if_pos (by rw [mk'_size, mk'_size]; omega)]
    have hs : (if m * 10 = 0 then false else s != false) = s := by rw [if_neg (by omega)]; simp
    simp only [parse_ten, bind, Except.bind, multiply_mk, hs]
    have := width_mul_pow m 1 hm
    rw [Nat.pow_one] at this
    rw [stretch_sign n t s d k (m * 10) (by omega) (by omega) (by omega) (by omega), Nat.mul_assoc, Nat.pow_succ,
      Nat.mul_comm 10]

theorem stretch_none (n : Nat) (t : Bool) (h : 0 < n) : ∀ fuel, stretch fuel (mk' 0 false) (mk' n t) = .error .fuel
  | 0 => rfl
  | k + 1 => by
    unfold stretch
    rw [if_pos (by rw [mk'_size, mk'_size, width_zero, width_pos n h]; omega)]
    simp only [parse_ten, bind, Except.bind, multiply_mk, bne_self_eq_false, ite_self, Nat.zero_mul]
    exact stretch_none n t h k

theorem big_mk' (z : Int) : big z = mk' z.natAbs (decide (z < 0)) := rfl

theorem stretched_zero (n : Nat) : Dec.stretched n 0 = 0 := by simp [Dec.stretched]

theorem stretched_natAbs (n : Nat) (g : Int) :
    (Dec.stretched n g).natAbs = g.natAbs * 10 ^ (n - width g.natAbs) := by
  rw [Dec.stretched, Int.natAbs_mul, digits_width, Int.natAbs_pow]; rfl

theorem stretched_neg (n : Nat) (g : Int) : Dec.stretched n g < 0 ↔ g < 0 := by
  have hp : (0 : Int) < 10 ^ (n - Dec.digits g) := Int.pow_pos (by decide)
  unfold Dec.stretched
  constructor
  · intro h
    rcases (show g < 0 ∨ 0 ≤ g by omega) with h1 | h1
    · exact h1
    · have := Int.mul_nonneg h1 (Int.le_of_lt hp); omega
  · intro h; exact Int.mul_neg_of_neg_of_pos h hp

theorem stretched_big (n : Nat) (g : Int) :
    big (Dec.stretched n g) = mk' (g.natAbs * 10 ^ (n - width g.natAbs)) (decide (g < 0)) := by
  rw [big_mk', stretched_natAbs, decide_eq_decide.mpr (stretched_neg n g)]

theorem stretched_width (n : Nat) (g : Int) (h : g ≠ 0) (hn : width g.natAbs ≤ n) :
    width (Dec.stretched n g).natAbs = n := by
  rw [stretched_natAbs]; exact scaled_width n g.natAbs (by omega) hn

theorem stretched_lt (n : Nat) (g : Int) (hn : width g.natAbs ≤ n) : (Dec.stretched n g).natAbs < 10 ^ n := by
  rw [stretched_natAbs]; exact scaled_lt n g.natAbs hn

/-- Both loops. -/
theorem stretch_two (f g : Int) (fuel : Nat) (hz : f = 0 ↔ g = 0)
    (hf : max (Dec.digits f) (Dec.digits g) < fuel) :
    stretch fuel (big f) (big g) = .ok (big (Dec.stretched (max (Dec.digits f) (Dec.digits g)) f)) ∧
    stretch fuel (big g) (big (Dec.stretched (max (Dec.digits f) (Dec.digits g)) f)) =
      .ok (big (Dec.stretched (max (Dec.digits f) (Dec.digits g)) g)) := by
  rw [digits_width, digits_width] at *
  by_cases h0 : f = 0
  · have hg := hz.mp h0
    subst h0; subst hg
    simp only [stretched_zero]
    exact ⟨stretch_same _ 0 0 (by omega) (by omega), stretch_same _ 0 0 (by omega) (by omega)⟩
  · have hg : g ≠ 0 := fun h => h0 (hz.mpr h)
    have hw := stretched_width (max (width f.natAbs) (width g.natAbs)) f h0 (by omega)
    generalize hn : max (width f.natAbs) (width g.natAbs) = n at *
    constructor
    · rw [big_mk' f, big_mk' g, stretch_sign _ _ _ (n - width f.natAbs) _ _ (by omega) (by omega) (by omega) (by omega),
        stretched_big]
    · rw [big_mk' g, big_mk' (Dec.stretched n f), stretch_sign _ _ _ (n - width g.natAbs) _ _ (by omega)
        (by omega) (by omega) (by omega), stretched_big]

theorem stretch_hangs (f g : Int) (fuel : Nat) (hz : ¬ (f = 0 ↔ g = 0)) :
    stretch fuel (big f) (big g) = .error .fuel ∨
      stretch fuel (big f) (big g) = .ok (big f) ∧ stretch fuel (big g) (big f) = .error .fuel := by
  by_cases h0 : f = 0
  · subst h0
    have hg : g ≠ 0 := by intro h; simp [h] at hz
    left
    exact stretch_none g.natAbs _ (by omega) fuel
  · have hg : g = 0 := by
      apply Classical.byContradiction
      intro h; simp [h0, h] at hz
    subst hg
    by_cases hf : fuel = 0
    · subst hf; left; rfl
    · right
      refine ⟨?_, stretch_none f.natAbs _ (by omega) fuel⟩
      obtain ⟨k, rfl⟩ : ∃ k, fuel = k + 1 := ⟨fuel - 1, by omega⟩
      unfold stretch
      rw [if_neg (by rw [big_mk', big_mk', mk'_size, mk'_size, Int.natAbs_zero, width_zero]; omega)]

theorem parse_parts (a b : Signed) (h : width a.mag + width b.mag < 2 ^ 60) :
    BigFloat.parse (Str.plus (Str.plus (BigInt.toString (rep a)) c!".") (BigInt.toString (rep b))) =
      .ok (repF ⟨a.int, b.int⟩) := by
  rw [text_ok, text_ok, parse_decimals]
  · rfl
  · apply fits_of; rw [int_natAbs, int_natAbs]; exact h

theorem parse_one_rep : BigInt.parse c!"1" = .ok (rep ⟨1, false⟩) := parse_one

theorem ten_times (n : Nat) : BigInt.multiply (mk' 10 false) (mk' n false) = .ok (rep ⟨10 * n, false⟩) := by
  simp only [multiply_mk, bne_self_eq_false, ite_self]; rfl

/-! ### The operators -/

theorem add_hangs (a b : Dec) (fuel : Nat) (hz : ¬ (a.frac = 0 ↔ b.frac = 0)) :
    BigFloat.add fuel (repF a) (repF b) = .error .fuel ∧ BigFloat.subtract fuel (repF a) (repF b) = .error .fuel := by
  unfold BigFloat.add BigFloat.subtract
  simp only [repF]
  rcases stretch_hangs a.frac b.frac fuel hz with h | ⟨h1, h2⟩
  · rw [h]; exact ⟨rfl, rfl⟩
  · rw [h1]; simp only [bind, Except.bind, h2, and_self]

theorem width_ten (n : Nat) : width (10 * n) ≤ n + 1 := by
  rw [width_le, Nat.pow_succ]
  have : n < 10 ^ n := Nat.lt_pow_self (by decide)
  omega

theorem width_sum_le (k m n : Nat) (h : k ≤ m + n) : width k ≤ max (width m) (width n) + 1 :=
  Nat.le_trans (width_mono h) (width_add m n)

theorem add_repF (a b : Dec) (fuel : Nat) (hz : a.frac = 0 ↔ b.frac = 0) (ha : a.fits) (hb : b.fits)
    (hf : max (Dec.digits a.frac) (Dec.digits b.frac) < fuel) :
    ∃ d, a.add b = .value d ∧ BigFloat.add fuel (repF a) (repF b) = .ok (repF d) := by
  obtain ⟨i, f⟩ := a; obtain ⟨j, g⟩ := b
  simp only [Dec.fits] at *
  obtain ⟨e1, e2⟩ := stretch_two f g fuel hz hf
  unfold BigFloat.add Dec.add
  simp only [repF, e1, e2, bind, Except.bind]
  rw [if_neg (by simpa using hz)]
  generalize hn : max (Dec.digits f) (Dec.digits g) = n at *
  have h1 := stretched_lt n f (by rw [← digits_width]; omega)
  have h2 := stretched_lt n g (by rw [← digits_width]; omega)
  have w1 := (width_le _ _).mpr h1
  have w2 := (width_le _ _).mpr h2
  have hsize : width (Dec.stretched n f).natAbs = n := by
    by_cases h0 : f = 0
    · have hg := hz.mp h0
      subst h0; subst hg
      rw [stretched_zero, Int.natAbs_zero, width_zero, ← hn]; rfl
    · exact stretched_width n f h0 (by rw [← digits_width]; omega)
  rw [digits_width, digits_width] at ha hb
  rw [← rep_ofInt i, ← rep_ofInt j, ← rep_ofInt (Dec.stretched n f), ← rep_ofInt (Dec.stretched n g)]
  simp only [plus_ok]
  have hs := width_sum_le _ _ _ (plus_mag (.ofInt (Dec.stretched n f)) (.ofInt (Dec.stretched n g)))
  have hi := width_sum_le _ _ _ (plus_mag (.ofInt i) (.ofInt j))
  generalize Signed.plus (.ofInt (Dec.stretched n f)) (.ofInt (Dec.stretched n g)) = sum at *
  generalize Signed.plus (.ofInt i) (.ofInt j) = int at *
  simp only [Signed.ofInt] at hs hi
  have hsz : (rep (Signed.ofInt (Dec.stretched n f))).size = n := hsize
  have hsz2 : (rep sum).size = width sum.mag := rfl
  rw [hsz, hsz2, digits_nat]
  by_cases hc : n < width sum.mag
  · refine ⟨_, if_pos hc, ?_⟩
    simp only [decide_eq_true_eq, gt_iff_lt, if_pos hc, parse_ten, ofInt_nat, ten_times, minus_ok, parse_one_rep, plus_ok]
    have hs2 := width_sum_le _ _ _ (minus_mag sum ⟨10 * n, false⟩)
    have hi2 := width_sum_le _ _ _ (plus_mag int ⟨1, false⟩)
    have := width_ten n
    have := width_one
    rw [digits_width, digits_width] at hn
    rw [parse_parts]
    · rfl
    · simp only at hs2 hi2; omega
  · refine ⟨_, if_neg hc, ?_⟩
    simp only [decide_eq_true_eq, gt_iff_lt, if_neg hc]
    rw [digits_width, digits_width] at hn
    rw [parse_parts]
    · rfl
    · omega

theorem subtract_repF (a b : Dec) (fuel : Nat) (hz : a.frac = 0 ↔ b.frac = 0) (ha : a.fits) (hb : b.fits)
    (hf : max (Dec.digits a.frac) (Dec.digits b.frac) < fuel) :
    ∃ d, a.subtract b = .value d ∧ BigFloat.subtract fuel (repF a) (repF b) = .ok (repF d) := by
  obtain ⟨i, f⟩ := a; obtain ⟨j, g⟩ := b
  simp only [Dec.fits] at *
  obtain ⟨e1, e2⟩ := stretch_two f g fuel hz hf
  unfold BigFloat.subtract Dec.subtract
  simp only [repF, e1, e2, bind, Except.bind]
  rw [if_neg (by simpa using hz)]
  generalize hn : max (Dec.digits f) (Dec.digits g) = n at *
  have h1 := stretched_lt n f (by rw [← digits_width]; omega)
  have h2 := stretched_lt n g (by rw [← digits_width]; omega)
  have w1 := (width_le _ _).mpr h1
  have w2 := (width_le _ _).mpr h2
  have hsize : width (Dec.stretched n f).natAbs = n := by
    by_cases h0 : f = 0
    · have hg := hz.mp h0
      subst h0; subst hg
      rw [stretched_zero, Int.natAbs_zero, width_zero, ← hn]; rfl
    · exact stretched_width n f h0 (by rw [← digits_width]; omega)
  rw [digits_width, digits_width] at ha hb
  rw [← rep_ofInt i, ← rep_ofInt j, ← rep_ofInt (Dec.stretched n f), ← rep_ofInt (Dec.stretched n g)]
  have hsz : (rep (Signed.ofInt (Dec.stretched n f))).size = n := hsize
  rw [hsz, lt_rep]
  simp only [minus_ok]
  have hi := width_sum_le _ _ _ (minus_mag (.ofInt i) (.ofInt j))
  generalize hF : Signed.ofInt (Dec.stretched n f) = F at *
  generalize hG : Signed.ofInt (Dec.stretched n g) = G at *
  have mF : F.mag = (Dec.stretched n f).natAbs := by rw [← hF]; rfl
  have mG : G.mag = (Dec.stretched n g).natAbs := by rw [← hG]; rfl
  rw [← mF] at w1
  rw [← mG] at w2
  generalize Signed.minus (.ofInt i) (.ofInt j) = int at *
  simp only [Signed.ofInt] at hi
  rw [digits_width, digits_width] at hn
  by_cases hc : F.less G
  · refine ⟨_, if_pos hc, ?_⟩
    simp only [decide_eq_true_eq, if_pos hc, parse_ten, ofInt_nat, ten_times, minus_ok, parse_one_rep, plus_ok]
    have hs2 := width_sum_le _ _ _ (plus_mag F ⟨10 * n, false⟩)
    have hs3 := width_sum_le _ _ _ (minus_mag (F.plus ⟨10 * n, false⟩) G)
    have hi2 := width_sum_le _ _ _ (minus_mag int ⟨1, false⟩)
    have := width_ten n
    have := width_one
    rw [parse_parts]
    · rfl
    · simp only at hs2 hs3 hi2; omega
  · refine ⟨_, if_neg hc, ?_⟩
    simp only [decide_eq_true_eq, if_neg hc, minus_ok]
    have hs3 := width_sum_le _ _ _ (minus_mag F G)
    rw [parse_parts]
    · rfl
    · omega

/-! ### Products and quotients -/

theorem repF_flo (i : Int) (f : Nat) : repF ⟨i, f⟩ = flo i f := rfl

theorem dec_flo (a : Dec) (h : 0 ≤ a.frac) : ∃ (i : Int) (f : Nat), a = ⟨i, f⟩ ∧ repF a = flo i f := by
  obtain ⟨i, g⟩ := a
  obtain ⟨f, rfl⟩ := Int.eq_ofNat_of_zero_le h
  exact ⟨i, f, rfl, rfl⟩

theorem joined_dec (i : Int) (f : Nat) : Dec.joined ⟨i, f⟩ = joined i f := by
  simp only [Dec.joined, joined, digits_width, Int.natAbs_natCast]

/-- A text with a minus sign after its beginning is no `BigInteger`. -/
theorem full_bad (a : Dec) (h : a.frac < 0) : full (repF a) = .error .invalidArgument := by
  obtain ⟨i, g⟩ := a
  unfold full Str.plus
  simp only [repF, toString_big]
  rw [decimal_txt g, if_pos h, decimal_txt i]
  have hd := toDigits_digitChar i.natAbs
  split
  · rw [List.cons_append]
    unfold BigInt.parse
    simp only []
    rw [if_pos (by decide)]
    simp only [parseDigits_bad _ _ hd, bind, Except.bind]
  · exact parse_bad _ _ hd Nat.toDigits_ne_nil

/-- What an operation of the specification stands for. -/
def Got.res : Got → Res BigFloat
  | .value d => .ok (repF d)
  | .threw => .error .invalidArgument
  | .noMemory => .error .memory
  | .hangs => .error .fuel

theorem pointed_dec (z : Int) (t : Nat) : pointed z t = Got.res (Dec.point z t) := by
  unfold pointed Dec.point
  rw [digits_width]
  by_cases h0 : 0 ≤ z
  · rw [if_pos h0, if_pos (.inl h0)]
    obtain ⟨n, rfl⟩ := Int.eq_ofNat_of_zero_le h0
    simp only [Got.res, Int.natAbs_natCast]
    rw [← repF_flo]
    congr 3
  · rw [if_neg h0]
    by_cases h1 : t ≤ width z.natAbs
    · rw [if_pos h1, if_pos (.inr h1)]
      simp only [Got.res]
      rw [← repF_flo]
      congr 3
      obtain ⟨n, hn⟩ := Int.eq_ofNat_of_zero_le (show 0 ≤ -z by omega)
      have : z = -(n : Int) := by omega
      subst this
      rw [Int.neg_tdiv, Int.tdiv_eq_ediv_of_nonneg (by omega), Int.natAbs_neg, Int.natAbs_natCast]
      simp
    · have hn : ¬ (0 ≤ z ∨ t ≤ width z.natAbs) := by omega
      rw [if_neg h1, if_neg hn]
      by_cases h2 : t = width z.natAbs + 1
      · rw [if_pos h2, if_pos h2]; rfl
      · rw [if_neg h2, if_neg h2]; rfl

theorem small_fits (i : Int) (f : Nat) (h : Dec.fits ⟨i, f⟩) : Small i f := by
  simp only [Dec.fits, digits_width, Int.natAbs_natCast] at h
  unfold Small; omega

theorem multiply_repF (a b : Dec) (ha : a.fits) (hb : b.fits) :
    BigFloat.multiply (repF a) (repF b) = Got.res (a.multiply b) := by
  unfold Dec.multiply
  by_cases h : a.frac < 0 ∨ b.frac < 0
  · rw [if_pos h]
    unfold BigFloat.multiply
    by_cases h1 : a.frac < 0
    · rw [full_bad a h1]; rfl
    · have h2 : b.frac < 0 := by omega
      obtain ⟨i, f, rfl, e⟩ := dec_flo a (by omega)
      rw [e, full_flo, full_bad b h2]; rfl
  · rw [if_neg h]
    obtain ⟨i, f, rfl, e1⟩ := dec_flo a (by omega)
    obtain ⟨j, g, rfl, e2⟩ := dec_flo b (by omega)
    rw [e1, e2, multiply_flo i j f g (small_fits i f ha) (small_fits j g hb), pointed_dec, joined_dec, joined_dec]
    simp only [digits_width, Int.natAbs_natCast]

theorem equal_repF (a b : Dec) : BigFloat.equal (repF a) (repF b) = decide (a = b) := by
  obtain ⟨i, f⟩ := a; obtain ⟨j, g⟩ := b
  unfold BigFloat.equal
  simp only [repF]
  rw [(show (big i).equal (big j) = decide (i = j) from (C45_compare_exact i j).1),
    (show (big f).equal (big g) = decide (f = g) from (C45_compare_exact f g).1)]
  rw [Bool.eq_iff_iff]
  simp [Dec.mk.injEq]

theorem divide_repF (a b : Dec) (ha : a.fits) (hb : b.fits) :
    BigFloat.divide (repF a) (repF b) = Got.res (a.divide b) := by
  unfold Dec.divide
  by_cases h0 : b = ⟨0, 0⟩
  · subst h0
    rw [if_pos rfl]
    unfold BigFloat.divide
    have hz : BigFloat.parse c!"0" = .ok (repF ⟨0, 0⟩) := parse_zero_flo
    simp only [hz, bind, Except.bind, equal_repF]
    rw [if_pos (by decide)]; rfl
  · rw [if_neg h0]
    by_cases h : a.frac < 0 ∨ b.frac < 0
    · rw [if_pos h]
      unfold BigFloat.divide
      have hz : BigFloat.parse c!"0" = .ok (repF ⟨0, 0⟩) := parse_zero_flo
      simp only [hz, bind, Except.bind, equal_repF]
      rw [if_neg (by simpa using h0)]
      by_cases h1 : a.frac < 0
      · rw [full_bad a h1]; rfl
      · have h2 : b.frac < 0 := by omega
        obtain ⟨i, f, rfl, e⟩ := dec_flo a (by omega)
        rw [e, full_flo, full_bad b h2]; rfl
    · rw [if_neg h]
      obtain ⟨i, f, rfl, e1⟩ := dec_flo a (by omega)
      obtain ⟨j, g, rfl, e2⟩ := dec_flo b (by omega)
      rw [e1, e2, divide_flo i j f g (small_fits i f ha) (small_fits j g hb),
        if_neg (by simpa [Dec.mk.injEq] using h0), joined_dec, joined_dec]
      simp only [digits_width, Int.natAbs_natCast]
      split
      · rfl
      · exact pointed_dec _ _

/-! ### Powers -/

/-- The digits of both parts. -/
def wide (a : Dec) : Nat := Dec.digits a.int + Dec.digits a.frac

theorem wide_fits (a : Dec) (h : wide a < 2 ^ 56) : a.fits := h

theorem joined_wide (a : Dec) (h : 0 ≤ a.frac) : width a.joined.natAbs ≤ wide a + 1 := by
  obtain ⟨i, f, rfl, _⟩ := dec_flo a h
  rw [joined_dec]
  have := joined_width i f
  simp only [wide, digits_width, Int.natAbs_natCast]
  omega

theorem point_wide (z : Int) (t : Nat) (d : Dec) (h : Dec.point z t = .value d) :
    wide d ≤ max (width z.natAbs) t := by
  unfold Dec.point at h
  rw [digits_width] at h
  split at h
  · injection h with h
    subst h
    simp only [wide, digits_width, Int.natAbs_natCast, Int.natAbs_tdiv]
    have e : ((10 : Int) ^ t).natAbs = 10 ^ t := by rw [Int.natAbs_pow]; rfl
    rw [e]
    rw [show z.natAbs.div (10 ^ t) = z.natAbs / 10 ^ t from rfl]
    have hp : 0 < 10 ^ t := Nat.pow_pos (by omega)
    have h2 : width (z.natAbs % 10 ^ t) ≤ t := by
      rw [width_le]; exact Nat.mod_lt _ hp
    have h1 : width (z.natAbs / 10 ^ t) ≤ width z.natAbs - t := by
      rw [width_le, Nat.div_lt_iff_lt_mul hp, ← Nat.pow_add]
      refine Nat.lt_of_lt_of_le (lt_width z.natAbs) (Nat.pow_le_pow_right (by omega) (by omega))
    by_cases hlt : width z.natAbs ≤ t
    · omega
    · omega
  · split at h
    · rename_i h1 h2
      injection h with h
      subst h
      simp only [wide, digits_width, Int.natAbs_zero, width_zero]; omega
    · cases h

theorem multiply_wide (a b d : Dec) (h : a.multiply b = .value d) : wide d + 2 ≤ (wide a + 2) + (wide b + 2) := by
  unfold Dec.multiply at h
  split at h
  · cases h
  · have h1 := point_wide _ _ _ h
    have h2 := joined_wide a (by omega)
    have h3 := joined_wide b (by omega)
    have h4 := width_mul a.joined.natAbs b.joined.natAbs
    rw [Int.natAbs_mul] at h1
    have h5 : Dec.digits a.frac ≤ wide a := by unfold wide; omega
    have h6 : Dec.digits b.frac ≤ wide b := by unfold wide; omega
    omega

theorem multiply_kinds (a b : Dec) : (∃ d, a.multiply b = .value d) ∨ a.multiply b = .threw := by
  unfold Dec.multiply
  split
  · exact .inr rfl
  · unfold Dec.point
    repeat' split
    · exact .inl ⟨_, rfl⟩
    · exact .inl ⟨_, rfl⟩
    · exact .inr rfl

theorem pow_repF : ∀ (steps fuel : Nat) (r b : Dec) (e : Nat), e ≤ steps → e < fuel →
    wide r + 2 + 2 * (e * (wide b + 2)) < 2 ^ 56 →
    BigFloat.powLoop fuel (repF r) (repF b) e = Got.res (Dec.powGo steps r b e)
  | 0, fuel, r, b, e, hs, hf, _ => by
    obtain ⟨k, rfl⟩ : ∃ k, fuel = k + 1 := ⟨fuel - 1, by omega⟩
    obtain rfl : e = 0 := by omega
    unfold BigFloat.powLoop
    rw [if_neg (by decide)]; rfl
  | steps + 1, fuel, r, b, e, hs, hf, hw => by
    obtain ⟨k, rfl⟩ : ∃ k, fuel = k + 1 := ⟨fuel - 1, by omega⟩
    unfold BigFloat.powLoop Dec.powGo
    by_cases h0 : e = 0
    · subst h0; rw [if_neg (by decide), if_pos rfl]; rfl
    · rw [if_pos (by omega), if_neg h0]
      have hdiv : (e : Int).tdiv 2 = ((e / 2 : Nat) : Int) := rfl
      have hmod : (e : Int).tmod 2 = ((e % 2 : Nat) : Int) := rfl
      have hb : wide b < 2 ^ 56 := by
        have := Nat.mul_le_mul_right (wide b + 2) (show 1 ≤ e by omega); omega
      have hbb := multiply_repF b b (wide_fits _ hb) (wide_fits _ hb)
      have hrb := multiply_repF r b (wide_fits _ (by omega)) (wide_fits _ hb)
      rw [hdiv, hmod]
      have key : ∀ r', wide r' + 2 ≤ (wide r + 2) + (e % 2) * (wide b + 2) → ∀ b', b.multiply b = .value b' →
          BigFloat.powLoop k (repF r') (repF b') ((e / 2 : Nat) : Int) = Got.res (Dec.powGo steps r' b' (e / 2)) := by
        intro r' hr' b' hb'
        refine pow_repF steps k r' b' (e / 2) (by omega) (by omega) ?_
        have h1 := multiply_wide b b b' hb'
        have h2 : e / 2 * (wide b' + 2) ≤ e / 2 * ((wide b + 2) + (wide b + 2)) := Nat.mul_le_mul_left _ h1
        have h3 : e / 2 * ((wide b + 2) + (wide b + 2)) = 2 * (e / 2) * (wide b + 2) := by
          rw [← Nat.two_mul, ← Nat.mul_assoc, Nat.mul_comm (e / 2) 2]
        have h4 : e * (wide b + 2) = 2 * (e / 2) * (wide b + 2) + (e % 2) * (wide b + 2) := by
          rw [← Nat.add_mul, Nat.div_add_mod]
        omega
      by_cases ho : e % 2 = 1
      · simp only [ho, if_true, Int.natCast_one]
        simp only [bind, Except.bind, hrb, hbb]
        rcases multiply_kinds r b with ⟨d, hd⟩ | hd <;> simp only [hd, Got.res]
        · rcases multiply_kinds b b with ⟨c, hc⟩ | hc <;> simp only [hc]
          exact key d (by have := multiply_wide r b d hd; rw [ho, Nat.one_mul]; omega) c hc
      · have ho' : ¬ ((e % 2 : Nat) : Int) = 1 := by omega
        simp only [if_neg ho, if_neg ho', bind, Except.bind, hbb]
        rcases multiply_kinds b b with ⟨c, hc⟩ | hc <;> simp only [hc, Got.res]
        exact key r (by omega) c hc

theorem powGo_kinds : ∀ (steps : Nat) (r b : Dec) (e : Nat),
    (∃ d, Dec.powGo steps r b e = .value d) ∨ Dec.powGo steps r b e = .threw
  | 0, r, _, _ => .inl ⟨r, rfl⟩
  | steps + 1, r, b, e => by
    unfold Dec.powGo
    split
    · exact .inl ⟨r, rfl⟩
    · have h1 : (∃ d, (if e % 2 = 1 then r.multiply b else .value r) = .value d) ∨
          (if e % 2 = 1 then r.multiply b else .value r) = .threw := by
        split
        · exact multiply_kinds r b
        · exact .inl ⟨r, rfl⟩
      rcases h1 with ⟨d, hd⟩ | hd <;> rcases multiply_kinds b b with ⟨c, hc⟩ | hc <;> simp only [hd, hc]
      · exact powGo_kinds steps d c _
      · exact .inr trivial
      · exact .inr trivial
      · exact .inr trivial

/-! ### Comparison -/

theorem less_repF (a b : Dec) : BigFloat.lessThan (repF a) (repF b) = decide (a.less b) := by
  obtain ⟨i, f⟩ := a; obtain ⟨j, g⟩ := b
  have e : BigFloat.lessThan (repF ⟨i, f⟩) (repF ⟨j, g⟩) =
      if BigInt.lessThan (rep (.ofInt i)) (rep (.ofInt j)) = true then true
      else if (!BigInt.lessThan (rep (.ofInt i)) (rep (.ofInt j)) &&
        !BigInt.equal (rep (.ofInt i)) (rep (.ofInt j))) = true then false
      else BigInt.lessThan (rep (.ofInt f)) (rep (.ofInt g)) := rfl
  rw [e, lt_rep, lt_rep, eq_rep, gt_iff]
  simp only [Dec.less, decide_eq_true_eq]
  by_cases h1 : (Signed.ofInt i).less (.ofInt j)
  · simp [h1]
  · by_cases h2 : (Signed.ofInt j).less (.ofInt i)
    · have hne : i ≠ j := fun e => by subst e; exact BigIntProg.less_irrefl _ h2
      simp [h1, h2, hne]
    · have he : i = j := by
        rcases BigIntProg.less_total (.ofInt i) (.ofInt j) with h | h | h
        · exact absurd h h1
        · exact (ofInt_inj i j).mp h
        · exact absurd h h2
      subst he
      simp [h1]

theorem dec_total (a b : Dec) : a.less b ∨ a = b ∨ b.less a := by
  obtain ⟨i, f⟩ := a; obtain ⟨j, g⟩ := b
  simp only [Dec.less, Dec.mk.injEq]
  rcases BigIntProg.less_total (.ofInt i) (.ofInt j) with h | h | h
  · exact .inl (.inl h)
  · have := (ofInt_inj i j).mp h
    subst this
    rcases BigIntProg.less_total (.ofInt f) (.ofInt g) with h | h | h
    · exact .inl (.inr ⟨rfl, h⟩)
    · exact .inr (.inl ⟨rfl, (ofInt_inj f g).mp h⟩)
    · exact .inr (.inr (.inr ⟨rfl, h⟩))
  · exact .inr (.inr (.inl h))

theorem dec_irrefl (a : Dec) : ¬ a.less a := by
  simp only [Dec.less]
  rintro (h | ⟨_, h⟩) <;> exact BigIntProg.less_irrefl _ h

theorem dec_trans {a b c : Dec} (h1 : a.less b) (h2 : b.less c) : a.less c := by
  simp only [Dec.less] at *
  rcases h1 with h1 | ⟨e1, h1⟩ <;> rcases h2 with h2 | ⟨e2, h2⟩
  · exact .inl (BigIntProg.less_trans h1 h2)
  · rw [← e2]; exact .inl h1
  · rw [e1]; exact .inl h2
  · exact .inr ⟨e1.trans e2, BigIntProg.less_trans h1 h2⟩

theorem dec_gt (a b : Dec) : (!decide (a.less b) && !decide (a = b)) = decide (b.less a) := by
  rcases dec_total a b with h | h | h
  · have : ¬ b.less a := fun h' => dec_irrefl _ (dec_trans h h')
    simp [h, this]
  · subst h; simp [dec_irrefl]
  · have h1 : ¬ a.less b := fun h' => dec_irrefl _ (dec_trans h h')
    have h2 : a ≠ b := fun e => by subst e; exact dec_irrefl _ h
    simp [h, h1, h2]

theorem cmp_repF (op : Cmp) (a b : Dec) : op.eval (repF a) (repF b) = Dec.cmp op a b := by
  have hab := dec_gt a b
  have hba := dec_gt b a
  have hs : decide (b = a) = decide (a = b) := by rw [Bool.eq_iff_iff]; simp [eq_comm]
  rw [hs] at hba
  cases op <;> simp only [Cmp.eval, Dec.cmp, BigFloat.opLt, BigFloat.opGt, BigFloat.opLe, BigFloat.opGe,
    BigFloat.opEq, BigFloat.opNe, BigFloat.greaterThan, less_repF,
    equal_repF]
  · exact hab
  · rw [← hab]; simp
  · rw [hab, ← hba]
    cases h : decide (b.less a) <;> cases h' : decide (a = b) <;> simp_all
  · simp

/-! ### Roots -/

theorem isqrt_tenth (N s : Nat) (h1 : (10 * s) ^ 2 ≤ N) (h2 : N < (10 * (s + 1)) ^ 2) : s = Signed.isqrt N / 10 := by
  have h := BigIntProg.isqrt_spec N
  rw [Nat.pow_two] at h1 h2
  generalize Signed.isqrt N = r at *
  have h3 : 10 * s ≤ r := by
    apply Classical.byContradiction
    intro hc
    have := Nat.mul_le_mul (show r + 1 ≤ 10 * s by omega) (show r + 1 ≤ 10 * s by omega)
    omega
  have h4 : r < 10 * (s + 1) := by
    apply Classical.byContradiction
    intro hc
    have := Nat.mul_le_mul (show 10 * (s + 1) ≤ r by omega) (show 10 * (s + 1) ≤ r by omega)
    omega
  omega

theorem sqrt_repF (a : Dec) (ha : a.fits) :
    (∀ d, Dec.un .sqrt a = .value d → ∃ N, ∀ fuel, N ≤ fuel → BigFloat.sqrt fuel (repF a) = .ok (repF d)) ∧
    (Dec.un .sqrt a = .hangs → ∀ fuel, BigFloat.sqrt fuel (repF a) = .error .fuel) ∧
    ((∃ d, Dec.un .sqrt a = .value d) ∨ Dec.un .sqrt a = .hangs) := by
  have hz : BigFloat.parse c!"0" = .ok (repF ⟨0, 0⟩) := parse_zero_flo
  have ho : BigFloat.parse c!"1" = .ok (repF ⟨1, 0⟩) := parse_one_flo
  obtain ⟨i, f⟩ := a
  simp only [Dec.un]
  by_cases h1 : i ≤ 0 ∨ i = 1 ∧ f ≤ 0
  · rw [if_pos h1]
    refine ⟨?_, by simp, .inl ⟨_, rfl⟩⟩
    intro d hd
    injection hd with hd
    subst hd
    refine ⟨1, fun fuel hf => ?_⟩
    obtain ⟨n, rfl⟩ : ∃ n, fuel = n + 1 := ⟨fuel - 1, by omega⟩
    unfold BigFloat.sqrt
    simp only [show (repF ⟨i, f⟩).neg = false from rfl, hz, ho, bind, Except.bind, Bool.false_eq_true, if_false,
      equal_repF]
    split
    · rfl
    · rename_i hne
      simp only [Bool.or_eq_true, decide_eq_true_eq, not_or, Dec.mk.injEq] at hne
      have hl : ¬ (Dec.mk 1 0).less ⟨i, f⟩ := by
        simp only [Dec.less, Signed.less, Signed.ofInt, decide_eq_true_eq, decide_eq_decide, decide_eq_false_iff_not]
        omega
      have he : ¬ (Dec.mk 1 0) = ⟨i, f⟩ := by simp only [Dec.mk.injEq]; omega
      simp only [BigFloat.sqrtLoop, less_repF, equal_repF, decide_eq_false hl, decide_eq_false he, Bool.or_self,
        Bool.false_eq_true, if_false]
  · rw [if_neg h1]
    by_cases h2 : f = 0
    · subst h2
      rw [if_neg (by simp)]
      refine ⟨?_, by simp, .inl ⟨_, rfl⟩⟩
      intro d hd
      injection hd with hd
      subst hd
      obtain ⟨N, rfl⟩ := Int.eq_ofNat_of_zero_le (show 0 ≤ i by omega)
      refine ⟨N + 1, fun fuel hf => ?_⟩
      simp only [Dec.fits, digits_width, Int.natAbs_natCast] at ha
      obtain ⟨s, e, l1, l2⟩ := C85_integers_fails N fuel (by omega) (by omega) (by omega)
      have := isqrt_tenth N s l1 l2
      rw [show repF ⟨N, 0⟩ = flo N 0 from rfl, e, this, Int.natAbs_natCast]
      rfl
    · rw [if_pos h2]
      refine ⟨by simp, fun _ fuel => ?_, .inr rfl⟩
      unfold BigFloat.sqrt
      simp only [show (repF ⟨i, f⟩).neg = false from rfl, hz, ho, bind, Except.bind, Bool.false_eq_true, if_false,
        equal_repF]
      rw [if_neg (by simp only [Bool.or_eq_true, decide_eq_true_eq, not_or, Dec.mk.injEq]; omega)]
      cases fuel with
      | zero => rfl
      | succ n =>
        have hl : (Dec.mk 1 0).less ⟨i, f⟩ := by
          simp only [Dec.less, Signed.less, Signed.ofInt, decide_eq_true_eq, decide_eq_decide, decide_eq_false_iff_not]
          omega
        have hh := (add_hangs ⟨1, 0⟩ ⟨i, f⟩ (n + 1) (by simp [h2])).1
        simp only [BigFloat.sqrtLoop, less_repF, decide_eq_true hl, Bool.true_or, if_true, bind, Except.bind, hh]

/-! ### Texts -/

theorem text_repF (a : Dec) : BigFloat.toString (repF a) = a.text := by
  obtain ⟨i, f⟩ := a
  unfold BigFloat.toString Dec.text
  simp only [repF, toString_big]
  by_cases h : f = 0
  · subst h
    rw [if_neg (by decide), if_pos rfl]
  · rw [if_neg h, if_pos]
    · simp [Str.pushBack]
    · refine ⟨decimal_ne_nil f, fun e => ?_⟩
      rcases (show 0 ≤ f ∨ f < 0 by omega) with hf | hf
      · obtain ⟨n, rfl⟩ := Int.eq_ofNat_of_zero_le hf
        have ht := toString_flo 0 n
        unfold BigFloat.toString at ht
        simp only [flo, toString_big] at ht
        rw [if_neg (fun h => h.2 e)] at ht
        rw [if_neg (by omega)] at ht
        have := congrArg List.length ht
        simp at this
      · unfold Str.eqCStr at e
        have := eq_of_beq e
        rw [decimal_txt, if_pos hf] at this
        unfold Str.str at this
        rw [List.flatMap_cons, show Chr.printed (asc '-') = [0x2D] by decide] at this
        simp at this

theorem round_trip (a : Dec) (h : Dec.digits a.int + Dec.digits a.frac < 2 ^ 60) :
    BigFloat.parse a.text = .ok (repF a) := by
  obtain ⟨i, f⟩ := a
  unfold Dec.text
  split
  · rename_i h0
    simp only at h0
    subst h0
    rw [parse_nopoint _ (decimal_nopoint i) (decimal_ne_nil i), parse_decimal]
    rfl
  · have := parse_decimals i f (fits_of i f (by rw [← digits_width, ← digits_width]; exact h))
    exact this

/-! ### More rounds -/

/-- What more fuel does not change. -/
def Stable {α : Type} (r s : Res α) : Prop := r ≠ .error .fuel → s = r

theorem stable_refl {α : Type} (r : Res α) : Stable r r := fun _ => rfl

theorem stable_bind {α β : Type} {r s : Res α} {f g : α → Res β} (h : Stable r s)
    (hf : ∀ a, Stable (f a) (g a)) : Stable (r >>= f) (s >>= g) := by
  intro hne
  cases r with
  | error e =>
    have he : e ≠ .fuel := by intro h; subst h; exact hne rfl
    rw [h (by intro h; injection h with h; exact he h)]
    rfl
  | ok a =>
    rw [h (by simp)]
    exact hf a hne

theorem stable_ite {α : Type} {c : Prop} [Decidable c] {r s t u : Res α} (h1 : Stable r t) (h2 : Stable s u) :
    Stable (if c then r else s) (if c then t else u) := by
  split
  · exact h1
  · exact h2

theorem stretch_stable : ∀ (n : Nat) (x y : BigInt), Stable (stretch n x y) (stretch (n + 1) x y)
  | 0, x, y => fun h => absurd rfl h
  | n + 1, x, y => by
    unfold stretch
    refine stable_ite (stable_bind (stable_refl _) fun a => stable_bind (stable_refl _) fun b => ?_) (stable_refl _)
    exact stretch_stable n _ y

theorem add_stable (n : Nat) (a b : BigFloat) : Stable (BigFloat.add n a b) (BigFloat.add (n + 1) a b) := by
  unfold BigFloat.add
  exact stable_bind (stretch_stable n _ _) fun _ => stable_bind (stretch_stable n _ _) fun _ => stable_refl _

theorem subtract_stable (n : Nat) (a b : BigFloat) :
    Stable (BigFloat.subtract n a b) (BigFloat.subtract (n + 1) a b) := by
  unfold BigFloat.subtract
  exact stable_bind (stretch_stable n _ _) fun _ => stable_bind (stretch_stable n _ _) fun _ => stable_refl _

theorem powLoop_stable : ∀ (n : Nat) (r b : BigFloat) (e : Int),
    Stable (BigFloat.powLoop n r b e) (BigFloat.powLoop (n + 1) r b e)
  | 0, _, _, _ => fun h => absurd rfl h
  | n + 1, r, b, e => by
    unfold BigFloat.powLoop
    refine stable_ite ?_ (stable_refl _)
    exact stable_ite
      (stable_bind (stable_refl _) fun _ => stable_bind (stable_refl _) fun _ => powLoop_stable n _ _ _)
      (stable_bind (stable_refl _) fun _ => stable_bind (stable_refl _) fun _ => powLoop_stable n _ _ _)

theorem sqrtLoop_stable (k : Nat) (a : BigFloat) : ∀ (n : Nat) (l h : BigFloat),
    Stable (BigFloat.sqrtLoop k a n l h) (BigFloat.sqrtLoop (k + 1) a (n + 1) l h)
  | 0, _, _ => fun h => absurd rfl h
  | n + 1, l, h => by
    unfold BigFloat.sqrtLoop
    refine stable_ite (stable_bind (add_stable k _ _) fun _ => stable_bind (stable_refl _) fun _ =>
      stable_bind (stable_refl _) fun _ => stable_bind (stable_refl _) fun _ => ?_) (stable_refl _)
    refine stable_ite (stable_refl _) (stable_ite ?_ ?_)
    · exact stable_bind (stable_refl _) fun _ => stable_bind (add_stable k _ _) fun _ => sqrtLoop_stable k a n _ _
    · exact stable_bind (stable_refl _) fun _ => stable_bind (subtract_stable k _ _) fun _ => sqrtLoop_stable k a n _ _

theorem store_stable (v : Vars) (x : Nat) {r s : Res BigFloat} (h : Stable r s) :
    Stable (store v x r) (store v x s) := by
  intro hne
  rw [h (by intro e; subst e; exact hne rfl)]

theorem step_stable (n : Nat) (v : Vars) (s : Stmt) : Stable (step n v s) (step (n + 1) v s) := by
  cases s with
  | bin op x y z =>
    refine store_stable v x ?_
    cases op with
    | add => exact add_stable n _ _
    | subtract => exact subtract_stable n _ _
    | multiply => exact stable_refl _
    | divide => exact stable_refl _
  | un op x y =>
    refine store_stable v x ?_
    cases op with
    | abs => exact stable_refl _
    | sqr => exact stable_refl _
    | sqrt =>
      show Stable (BigFloat.sqrt n _) (BigFloat.sqrt (n + 1) _)
      unfold BigFloat.sqrt
      refine stable_ite (stable_refl _) (stable_bind (stable_refl _) fun _ => stable_bind (stable_refl _) fun _ =>
        stable_ite (stable_refl _) (stable_bind (stable_refl _) fun _ => ?_))
      exact sqrtLoop_stable n _ n _ _
    | pow e =>
      show Stable (BigFloat.pow n _ e) (BigFloat.pow (n + 1) _ e)
      unfold BigFloat.pow
      exact stable_ite (stable_refl _) (stable_bind (stable_refl _) fun _ => powLoop_stable n _ _ _)
  | _ => exact stable_refl _

theorem run_stable (n : Nat) : ∀ (p : List Stmt) (v : Vars), Stable (run n v p) (run (n + 1) v p)
  | [], _ => stable_refl _
  | s :: p, v => by
    rw [run, run]
    exact stable_bind (step_stable n v s) fun _ => stable_bind (run_stable n p _) fun _ => stable_refl _

/-- A program that ends does so with any larger bound, and in the same way. -/
theorem run_more (n m : Nat) (h : n ≤ m) (p : List Stmt) (v : Vars) : Stable (run n v p) (run m v p) := by
  induction h with
  | refl => exact stable_refl _
  | step _ ih => exact fun hne => (run_stable _ p v (by rw [ih hne]; exact hne)).trans (ih hne)

end Caitlyn.BigFloatProg
