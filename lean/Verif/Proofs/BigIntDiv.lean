import Verif.Proofs.BigIntMul

/-!
# Lemmas about `BigInteger`: division, power, square root
-/

namespace Caitlyn

/-- Decoding pure ASCII text. -/
theorem Str.ofStdString_ascii (bs : List UInt8) (h : ∀ b ∈ bs, b ≠ 0 ∧ b ≤ 0x7F) :
    Str.ofStdString bs = .ok (bs.map Chr.ofByte) := by
  have := Str.ofCStr_shapes (bs.map fun b => [b])
    (by
      intro p hp
      obtain ⟨b, hb, rfl⟩ := List.mem_map.mp hp
      have := h b hb
      exact Spec.Shape.one b (by
        rw [UInt8.le_iff_toNat_le]
        have : b.toNat ≠ 0 := fun e => this.1 (UInt8.toNat_inj.mp e)
        have e0 : (1 : UInt8).toNat = 1 := rfl
        omega) this.2) []
  unfold Str.ofStdString
  rw [show (bs.map fun b => [b]).flatten = bs by
    clear h this
    induction bs with
    | nil => rfl
    | cons b bs ih => simp [ih]] at this
  rw [this, List.map_map]
  rfl

namespace BigInt
open Caitlyn.Spec

theorem decimal_eq (z : Int) : decimal z = (stdToString z).map Chr.ofByte := by
  simp [decimal, stdToString]

theorem toString_ascii (z : Int) : ∀ b ∈ stdToString z, b ≠ 0 ∧ b ≤ 0x7F := by
  intro b hb
  unfold stdToString at hb
  rw [toString_chars] at hb
  obtain ⟨c, hc, rfl⟩ := List.mem_map.mp hb
  have hc' : 45 ≤ c.toNat ∧ c.toNat ≤ 57 := by
    split at hc
    · rcases List.mem_cons.mp hc with rfl | hc
      · decide
      · have := toDigits_digitChar _ c hc
        unfold DigitChar at this; omega
    · have := toDigits_digitChar _ c hc
      unfold DigitChar at this; omega
  have key : ∀ n < 58, 45 ≤ n → UInt8.ofNat n ≠ 0 ∧ UInt8.ofNat n ≤ 0x7F := by decide +kernel
  exact key _ (by omega) hc'.1

theorem ofInt_eq (z : Int) : ofInt z = .ok (big z) := by
  unfold ofInt
  rw [Str.ofStdString_ascii _ (toString_ascii z)]
  simp only [bind, Except.bind]
  rw [← decimal_eq, parse_decimal]

theorem ofInt_nonneg (z : Int) (h : 0 ≤ z) : ofInt z = .ok (mk' z.toNat false) := by
  rw [ofInt_eq, big, show z.natAbs = z.toNat by omega]
  simp [mk']; omega

/-! ### Divide -/

theorem divSearch_spec (n c : Nat) : ∀ (fuel : Nat) (x left right : Int),
    (left = 0 ∧ x = 0 ∨ 0 < left ∧ x = left - 1) → right ≤ 10 → left ≤ right + 1 →
    right + 1 - left < fuel → x * n ≤ c → (c : Int) < (right + 1) * n →
    ∃ q : Nat, divSearch (mk' n false) (mk' c false) fuel x left right = .ok (q : Int) ∧
      q ≤ 10 ∧ q * n ≤ c ∧ c < (q + 1) * n := by
  intro fuel
  induction fuel with
  | zero => intro x left right _ _ h1 h2; omega
  | succ k ih =>
    intro x left right hx h10 hlr hf hlo hhi
    unfold divSearch
    by_cases hle : left ≤ right
    · rw [if_pos hle]
      have hl0 : 0 ≤ left := by omega
      have hmid : (left + right).tdiv 2 = (left + right) / 2 := Int.tdiv_eq_ediv_of_nonneg (by omega)
      rw [hmid]
      generalize hm : (left + right) / 2 = mid
      have hm1 : left ≤ mid := by omega
      have hm2 : mid ≤ right := by omega
      obtain ⟨md, rfl⟩ := Int.eq_ofNat_of_zero_le (show 0 ≤ mid by omega)
      simp only [bind, Except.bind]
      rw [ofInt_nonneg _ (by omega)]
      simp only [Int.toNat_natCast]
      rw [multiply_mk]
      simp only [bne_self_eq_false, ite_self]
      rw [lessThan_mk, equal_mk]
      have e : ((if false ≠ false then false else decide (n * md < c)) ||
          decide (n * md = c) && (false == false)) = decide (n * md ≤ c) := by
        simp only [ne_eq, not_true_eq_false, if_false, BEq.rfl, Bool.and_true]
        by_cases h1 : n * md < c
        · simp [h1]; omega
        · by_cases h2 : n * md = c
          · simp [h2]
          · simp [h1, h2]; omega
      simp only [e, decide_eq_true_eq]
      by_cases h : n * md ≤ c
      · rw [if_pos h]
        refine ih md (md + 1) right (.inr ⟨by omega, by omega⟩) h10 (by omega) (by omega) ?_ hhi
        have := Int.ofNat_le.mpr h
        rw [Int.natCast_mul] at this
        rw [Int.mul_comm]; exact this
      · rw [if_neg h]
        refine ih x left (md - 1) hx (by omega) (by omega) (by omega) hlo ?_
        have := Int.ofNat_lt.mpr (Nat.lt_of_not_le h)
        rw [Int.natCast_mul] at this
        rw [Int.sub_add_cancel, Int.mul_comm]; exact this
    · rw [if_neg hle]
      have hr : right = left - 1 := by omega
      subst hr
      rcases hx with ⟨h1, h2⟩ | ⟨h1, h2⟩
      · subst h1; simp at hhi; omega
      · subst h2
        obtain ⟨q, hq⟩ := Int.eq_ofNat_of_zero_le (show 0 ≤ left - 1 by omega)
        rw [hq] at hlo hhi ⊢
        refine ⟨q, rfl, by omega, ?_, ?_⟩
        · exact_mod_cast hlo
        · exact_mod_cast hhi

theorem divLoop_spec (n : Nat) (hn : 0 < n) (neg : Bool) : ∀ (ds q : List Int) (c : Nat), Valid ds → Valid q →
    c < n → ∃ q' r, divLoop (mk' n false) ds ⟨q, neg⟩ (mk' c false) = .ok ⟨q', neg⟩ ∧ Valid q' ∧
      0 ≤ r ∧ r < (n : Int) ∧ val q' * n + r = (val q * n + c) * 10 ^ ds.length + val ds.reverse := by
  intro ds
  induction ds with
  | nil =>
    intro q c _ hq hc
    exact ⟨q, c, rfl, hq, by omega, by omega, by simp [val]⟩
  | cons d ds ih =>
    intro q c hd hq hc
    have hd' := valid_cons.mp hd
    obtain ⟨dn, rfl⟩ := Int.eq_ofNat_of_zero_le hd'.1.1
    have hcur : removeLeadingZeros ⟨(dn : Int) :: digs c, false⟩ = mk' (dn + 10 * c) false := by
      rw [rlz_eq _ _ (by rw [valid_cons]; exact ⟨hd'.1, digs_valid c⟩) (dn + 10 * c)
        (by rw [val, val_digs]; omega)]
      simp
    obtain ⟨x, h1, h2, h3, h4⟩ := divSearch_spec n (dn + 10 * c) 12 0 0 10 (.inl ⟨rfl, rfl⟩)
      (by omega) (by omega) (by omega) (by omega) (by have := hd'.1.2; omega)
    have hx9 : x ≤ 9 := by
      rcases Nat.lt_or_ge x 10 with h | h
      · omega
      · have : x = 10 := by omega
        subst this
        have := hd'.1.2
        omega
    have hsub : subtract (mk' (dn + 10 * c) false) (mk' (n * x) false) =
        .ok (mk' (dn + 10 * c - x * n) false) := by
      rw [subtract_same, Nat.mul_comm n x]
      by_cases he : dn + 10 * c = x * n
      · rw [if_pos he, he]; simp
      · rw [if_neg he, if_neg (by omega)]
    obtain ⟨q', r, g1, g2, g3, g4, g5⟩ := ih ((x : Int) :: q) (dn + 10 * c - x * n) hd'.2
      (by rw [valid_cons]; exact ⟨by omega, hq⟩)
      (by rw [Nat.add_mul, Nat.one_mul] at h4; omega)
    refine ⟨q', r, ?_, g2, g3, g4, ?_⟩
    · rw [divLoop]
      simp only [mk'_digits, mk'_neg, hcur, bind, Except.bind, h1]
      rw [ofInt_nonneg _ (by omega)]
      simp only [Int.toNat_natCast]
      rw [multiply_mk]
      simp only [bne_self_eq_false, ite_self]
      rw [hsub]
      simp only [g1]
    · rw [g5, List.reverse_cons, val_append, List.length_reverse, List.length_cons, Int.pow_succ]
      have e : ((dn + 10 * c - x * n : Nat) : Int) = dn + 10 * c - x * n := by
        rw [Int.ofNat_sub h3]
        simp
      rw [e]
      simp only [val]
      grind

theorem divide_mk (m n : Nat) (s t : Bool) (hn : 0 < n) :
    divide (mk' m s) (mk' n t) = .ok (mk' (m / n) (if m / n = 0 then false else s != t)) := by
  unfold divide
  simp only [parse_zero, bind, Except.bind]
  rw [equal_mk, show decide (n = 0) = false by simp; omega]
  simp only [Bool.false_and, Bool.false_eq_true, if_false]
  obtain ⟨q', r, h1, h2, h3, h4, h5⟩ := divLoop_spec n hn false (digs m).reverse [] 0
    (fun d hd => digs_valid m d (List.mem_reverse.mp hd)) valid_nil hn
  have hz : (mk' 0 false : BigInt) = ⟨[], false⟩ := rfl
  rw [hz] at h1
  have hd : (⟨digs n, false⟩ : BigInt) = mk' n false := rfl
  simp only [mk'_digits, mk'_neg]
  rw [hd, hz, h1]
  simp only [pure, Except.pure]
  have h0 := val_nonneg q' h2
  obtain ⟨v, hv⟩ := Int.eq_ofNat_of_zero_le h0
  rw [rlz_eq q' _ h2 v hv]
  have : v = m / n := by
    rw [hv] at h5
    simp only [val, List.reverse_reverse, val_digs] at h5
    simp only [Int.zero_mul, Int.natCast_zero, Int.add_zero, Int.zero_add] at h5
    obtain ⟨rn, rfl⟩ := Int.eq_ofNat_of_zero_le h3
    have h5' : v * n + rn = m := by exact_mod_cast h5
    have h4' : rn < n := by omega
    rw [← h5', Nat.add_comm, Nat.add_mul_div_right _ _ hn, Nat.div_eq_of_lt h4']; omega
  rw [this]

theorem divide_zero (a : BigInt) : divide a (mk' 0 false) = .error .invalidArgument := by
  unfold divide
  simp only [parse_zero, bind, Except.bind]
  rw [equal_mk]
  simp

/-! ### the integers -/

theorem big_mk (z : Int) : big z = mk' z.natAbs (decide (z < 0)) := rfl

theorem multiply_big (x y : Int) : multiply (big x) (big y) = .ok (big (x * y)) := by
  rw [big_mk, big_mk, multiply_mk, big_mk, Int.natAbs_mul]
  congr 2
  by_cases hx : x = 0
  · subst hx; simp
  by_cases hy : y = 0
  · subst hy; simp
  have : ¬ (x.natAbs * y.natAbs = 0) := by
    rw [Nat.mul_eq_zero]; omega
  rw [if_neg this]
  rcases Int.lt_or_gt_of_ne hx with h1 | h1 <;> rcases Int.lt_or_gt_of_ne hy with h2 | h2
  · have := Int.mul_pos_of_neg_of_neg h1 h2
    rw [decide_eq_true (show x < 0 by omega), decide_eq_true (show y < 0 by omega), decide_eq_false (show ¬ x * y < 0 by omega)]; rfl
  · have := Int.mul_neg_of_neg_of_pos h1 h2
    rw [decide_eq_true (show x < 0 by omega), decide_eq_false (show ¬ y < 0 by omega), decide_eq_true (show x * y < 0 by omega)]; rfl
  · have := Int.mul_neg_of_pos_of_neg h1 h2
    rw [decide_eq_false (show ¬ x < 0 by omega), decide_eq_true (show y < 0 by omega), decide_eq_true (show x * y < 0 by omega)]; rfl
  · have := Int.mul_pos h1 h2
    rw [decide_eq_false (show ¬ x < 0 by omega), decide_eq_false (show ¬ y < 0 by omega), decide_eq_false (show ¬ x * y < 0 by omega)]; rfl

theorem divide_big (x y : Int) (hy : y ≠ 0) : divide (big x) (big y) = .ok (big (x.tdiv y)) := by
  rw [big_mk, big_mk, divide_mk _ _ _ _ (by omega), big_mk, Int.natAbs_tdiv]
  congr 2
  have hmag : (x.tdiv y).natAbs = x.natAbs / y.natAbs := Int.natAbs_tdiv x y
  by_cases h0 : x.natAbs / y.natAbs = 0
  · rw [if_pos h0]
    have : x.tdiv y = 0 := by omega
    rw [this]; rfl
  · rw [if_neg h0]
    have hne : x.tdiv y ≠ 0 := by omega
    have hx : x ≠ 0 := by intro h; subst h; simp at hne
    rcases Int.lt_or_gt_of_ne hx with h1 | h1 <;> rcases Int.lt_or_gt_of_ne hy with h2 | h2
    · have : 0 ≤ x.tdiv y := by
        rw [← Int.neg_neg x, ← Int.neg_neg y, Int.neg_tdiv, Int.tdiv_neg, Int.neg_neg]
        exact Int.tdiv_nonneg (by omega) (by omega)
      rw [decide_eq_true (show x < 0 by omega), decide_eq_true (show y < 0 by omega), decide_eq_false (show ¬ x.tdiv y < 0 by omega)]; rfl
    · have : x.tdiv y ≤ 0 := by
        rw [← Int.neg_neg x, Int.neg_tdiv]
        have := Int.tdiv_nonneg (a := -x) (b := y) (by omega) (by omega)
        omega
      rw [decide_eq_true (show x < 0 by omega), decide_eq_false (show ¬ y < 0 by omega), decide_eq_true (show x.tdiv y < 0 by omega)]; rfl
    · have : x.tdiv y ≤ 0 := by
        rw [← Int.neg_neg y, Int.tdiv_neg]
        have := Int.tdiv_nonneg (a := x) (b := -y) (by omega) (by omega)
        omega
      rw [decide_eq_false (show ¬ x < 0 by omega), decide_eq_true (show y < 0 by omega), decide_eq_true (show x.tdiv y < 0 by omega)]; rfl
    · have := Int.tdiv_nonneg (a := x) (b := y) (by omega) (by omega)
      rw [decide_eq_false (show ¬ x < 0 by omega), decide_eq_false (show ¬ y < 0 by omega), decide_eq_false (show ¬ x.tdiv y < 0 by omega)]; rfl

theorem add_mk (m n : Nat) (s t : Bool) : add (mk' m s) (mk' n t) =
    .ok (if s = t then mk' (m + n) (if m + n = 0 then false else s)
      else if n < m then mk' (m - n) false else mk' (n - m) t) := by
  by_cases h : s = t
  · subst h; rw [add_same]; simp
  · have : t = !s := by cases s <;> cases t <;> simp_all
    subst this; rw [add_diff]; simp

theorem subtract_mk (m n : Nat) (s t : Bool) : subtract (mk' m s) (mk' n t) =
    .ok (if s = t then
        (if m = n then mk' 0 false else if m < n then mk' (n - m) true else mk' (m - n) false)
      else mk' (if n < m then m - n else n - m) s) := by
  by_cases h : s = t
  · subst h; rw [subtract_same]; simp
  · have : t = !s := by cases s <;> cases t <;> simp_all
    subst this; rw [subtract_diff]; simp

theorem parse_one : parse c!"1" = .ok (big 1) := by decide +kernel
theorem parse_two : parse c!"2" = .ok (big 2) := by decide +kernel

/-! ### Pow -/

theorem powLoop_spec : ∀ (fuel : Nat) (r b : Int) (e : Nat), e < fuel →
    powLoop fuel (big r) (big b) e = .ok (big (r * b ^ e)) := by
  intro fuel
  induction fuel with
  | zero => intro r b e h; omega
  | succ k ih =>
    intro r b e h
    unfold powLoop
    by_cases he : e = 0
    · subst he; simp
    · rw [if_pos (by omega)]
      have hd : ((e : Int)).tdiv 2 = ((e / 2 : Nat) : Int) := by
        rw [Int.tdiv_eq_ediv_of_nonneg (by omega)]; rfl
      have hm : ((e : Int)).tmod 2 = ((e % 2 : Nat) : Int) := by
        rw [Int.tmod_eq_emod_of_nonneg (by omega)]; rfl
      rw [hm, hd]
      simp only [bind, Except.bind, multiply_big]
      have hsq : ∀ j : Nat, (b * b) ^ j = b ^ (2 * j) := by
        intro j
        rw [Int.pow_mul, show b ^ 2 = b * b by rw [Int.pow_succ, Int.pow_succ, Int.pow_zero, Int.one_mul]]
      rcases Nat.mod_two_eq_zero_or_one e with h0 | h1
      · rw [h0]
        rw [if_neg (by omega)]
        rw [ih _ _ _ (by omega), hsq, show 2 * (e / 2) = e by omega]
      · rw [h1]
        rw [if_pos (by rfl)]
        rw [ih _ _ _ (by omega), hsq]
        rw [show b ^ e = b ^ (2 * (e / 2) + 1) by rw [show 2 * (e / 2) + 1 = e by omega]]
        rw [Int.pow_succ]
        congr 2
        grind

/-! ### Sqrt -/

theorem sqrtLoop_spec (n : Nat) : ∀ (fuel l h : Nat), 1 ≤ l → l ≤ h + 1 →
    (l - 1) * (l - 1) ≤ n → n < (h + 1) * (h + 1) → h + 1 - l < fuel →
    ∃ r : Nat, sqrtLoop (mk' n false) fuel (mk' l false) (mk' h false) = .ok (mk' r false) ∧
      r * r ≤ n ∧ n < (r + 1) * (r + 1) := by
  intro fuel
  induction fuel with
  | zero => intro l h _ _ _ _ h; omega
  | succ k ih =>
    intro l h hl hlh hlo hhi hf
    unfold sqrtLoop
    rw [lessThan_mk, equal_mk]
    have ec : ((if false ≠ false then false else decide (l < h)) ||
        decide (l = h) && (false == false)) = decide (l ≤ h) := by
      simp only [ne_eq, not_true_eq_false, if_false, BEq.rfl, Bool.and_true]
      by_cases h1 : l < h
      · simp [h1]; omega
      · by_cases h2 : l = h
        · simp [h2]
        · simp [h1, h2]; omega
    simp only [ec, decide_eq_true_eq]
    by_cases hle : l ≤ h
    · rw [if_pos hle]
      simp only [bind, Except.bind, add_same, ite_self]
      have e2 : parse c!"2" = .ok (mk' 2 false) := parse_two
      have e1 : parse c!"1" = .ok (mk' 1 false) := parse_one
      simp only [e2, e1]
      rw [divide_mk _ _ _ _ (by omega)]
      simp only [bne_self_eq_false, ite_self]
      generalize hm : (l + h) / 2 = mid
      have hm1 : l ≤ mid := by omega
      have hm2 : mid ≤ h := by omega
      simp only [sqr, multiply_mk, bne_self_eq_false, ite_self]
      rw [equal_mk, lessThan_mk]
      simp only [BEq.rfl, Bool.and_true, decide_eq_true_eq, ne_eq, not_true_eq_false, if_false]
      by_cases h1 : mid * mid = n
      · rw [if_pos h1]
        exact ⟨mid, rfl, by omega, by rw [Nat.add_mul, Nat.mul_add]; omega⟩
      · rw [if_neg h1]
        by_cases h2 : mid * mid < n
        · rw [if_pos h2]
          have ha : add (mk' mid false) (mk' 1 false) = .ok (mk' (mid + 1) false) := by
            rw [add_same]; simp
          simp only [add_same, ite_self]
          exact ih (mid + 1) h (by omega) (by omega) (by simpa using Nat.le_of_lt h2) hhi (by omega)
        · rw [if_neg h2]
          have hs : subtract (mk' mid false) (mk' 1 false) = .ok (mk' (mid - 1) false) := by
            rw [subtract_same]
            by_cases hmm : mid = 1
            · subst hmm; simp
            · rw [if_neg hmm, if_neg (by omega)]
          simp only [hs]
          exact ih l (mid - 1) hl (by omega) hlo
            (by rw [show mid - 1 + 1 = mid by omega]; omega) (by omega)
    · rw [if_neg hle]
      have : l - 1 = h := by omega
      rw [this] at hlo
      exact ⟨h, rfl, hlo, hhi⟩

end BigInt
end Caitlyn
