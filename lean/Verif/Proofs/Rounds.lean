import Verif.Proofs.BigIntDiv

/-! # How often the loops of `BigInteger` run -/

namespace Caitlyn
namespace BigInt
open Caitlyn.Spec

theorem divSearch_log (n c : Nat) : ∀ (k : Nat) (x left right : Int),
    (left = 0 ∧ x = 0 ∨ 0 < left ∧ x = left - 1) → right ≤ 10 → left ≤ right + 1 →
    right + 1 - left < 2 ^ k → x * n ≤ c → (c : Int) < (right + 1) * n →
    ∃ q : Nat, divSearch (mk' n false) (mk' c false) (k + 1) x left right = .ok (q : Int) ∧
      q ≤ 10 ∧ q * n ≤ c ∧ c < (q + 1) * n := by
  intro k
  induction k with
  | zero =>
    intro x left right hx h10 hlr hf hlo hhi
    unfold divSearch
    have hle : ¬ left ≤ right := by omega
    rw [if_neg hle]
    have hr : right = left - 1 := by omega
    subst hr
    rcases hx with ⟨h1, h2⟩ | ⟨h1, h2⟩
    · subst h1; simp at hhi; omega
    · subst h2
      obtain ⟨q, hq⟩ := Int.eq_ofNat_of_zero_le (show 0 ≤ left - 1 by omega)
      rw [hq] at hlo hhi ⊢
      refine ⟨q, rfl, by omega, ?_, ?_⟩
      · exact_mod_cast hlo
      · exact_mod_cast hhi
  | succ k ih =>
    intro x left right hx h10 hlr hf hlo hhi
    unfold divSearch
    by_cases hle : left ≤ right
    · rw [if_pos hle]
      have hl0 : 0 ≤ left := by omega
      have hmid : (left + right).tdiv 2 = (left + right) / 2 := Int.tdiv_eq_ediv_of_nonneg (by omega)
      rw [hmid]
      generalize hm : (left + right) / 2 = mid
      have hm1 : left ≤ mid := by omega
      have hm2 : mid ≤ right := by omega
      obtain ⟨md, rfl⟩ := Int.eq_ofNat_of_zero_le (show 0 ≤ mid by omega)
      simp only [bind, Except.bind]
      rw [ofInt_nonneg _ (by omega)]
      simp only [Int.toNat_natCast]
      rw [multiply_mk]
      simp only [bne_self_eq_false, ite_self]
      rw [lessThan_mk, equal_mk]
      have e : ((if false ≠ false then false else decide (n * md < c)) ||
          decide (n * md = c) && (false == false)) = decide (n * md ≤ c) := by
        simp only [ne_eq, not_true_eq_false, if_false, BEq.rfl, Bool.and_true]
        by_cases h1 : n * md < c
        · simp [h1]; omega
        · by_cases h2 : n * md = c
          · simp [h2]
          · simp [h1, h2]; omega
      simp only [e, decide_eq_true_eq]
      by_cases h : n * md ≤ c
      · rw [if_pos h]
        refine ih md (md + 1) right (.inr ⟨by omega, by omega⟩) h10 (by omega) (by omega) ?_ hhi
        have := Int.ofNat_le.mpr h
        rw [Int.natCast_mul] at this
        rw [Int.mul_comm]; exact this
      · rw [if_neg h]
        refine ih x left (md - 1) hx (by omega) (by omega) (by omega) hlo ?_
        have := Int.ofNat_lt.mpr (Nat.lt_of_not_le h)
        rw [Int.natCast_mul] at this
        rw [Int.sub_add_cancel, Int.mul_comm]; exact this
    · rw [if_neg hle]
      have hr : right = left - 1 := by omega
      subst hr
      rcases hx with ⟨h1, h2⟩ | ⟨h1, h2⟩
      · subst h1; simp at hhi; omega
      · subst h2
        obtain ⟨q, hq⟩ := Int.eq_ofNat_of_zero_le (show 0 ≤ left - 1 by omega)
        rw [hq] at hlo hhi ⊢
        refine ⟨q, rfl, by omega, ?_, ?_⟩
        · exact_mod_cast hlo
        · exact_mod_cast hhi

theorem powLoop_log : ∀ (k : Nat) (r b : Int) (e : Nat), e < 2 ^ k →
    powLoop (k + 1) (big r) (big b) e = .ok (big (r * b ^ e)) := by
  intro k
  induction k with
  | zero =>
    intro r b e h
    have he : e = 0 := by simpa using h
    subst he
    unfold powLoop
    simp
  | succ k ih =>
    intro r b e h
    unfold powLoop
    by_cases he : e = 0
    · subst he; simp
    · rw [if_pos (by omega)]
      have hd : ((e : Int)).tdiv 2 = ((e / 2 : Nat) : Int) := by
        rw [Int.tdiv_eq_ediv_of_nonneg (by omega)]; rfl
      have hm : ((e : Int)).tmod 2 = ((e % 2 : Nat) : Int) := by
        rw [Int.tmod_eq_emod_of_nonneg (by omega)]; rfl
      rw [hm, hd]
      simp only [bind, Except.bind, multiply_big]
      have hsq : ∀ j : Nat, (b * b) ^ j = b ^ (2 * j) := by
        intro j
        rw [Int.pow_mul, show b ^ 2 = b * b by rw [Int.pow_succ, Int.pow_succ, Int.pow_zero, Int.one_mul]]
      rcases Nat.mod_two_eq_zero_or_one e with h0 | h1
      · rw [h0]
        rw [if_neg (by omega)]
        rw [ih _ _ _ (by omega), hsq, show 2 * (e / 2) = e by omega]
      · rw [h1]
        rw [if_pos (by rfl)]
        rw [ih _ _ _ (by omega), hsq]
        rw [show b ^ e = b ^ (2 * (e / 2) + 1) by rw [show 2 * (e / 2) + 1 = e by omega]]
        rw [Int.pow_succ]
        congr 2
        grind


theorem sqrtLoop_log (n : Nat) : ∀ (k l h : Nat), 1 ≤ l → l ≤ h + 1 →
    (l - 1) * (l - 1) ≤ n → n < (h + 1) * (h + 1) → h + 1 - l < 2 ^ k →
    ∃ r : Nat, sqrtLoop (mk' n false) (k + 1) (mk' l false) (mk' h false) = .ok (mk' r false) ∧
      r * r ≤ n ∧ n < (r + 1) * (r + 1) := by
  intro k
  induction k with
  | zero =>
    intro l h hl hlh hlo hhi hf
    unfold sqrtLoop
    have h1 : ¬ l < h := by omega
    have h2 : ¬ l = h := by omega
    rw [lessThan_mk, equal_mk]
    rw [if_neg (by simp [h1, h2])]
    have : l - 1 = h := by omega
    rw [this] at hlo
    exact ⟨h, rfl, hlo, hhi⟩
  | succ k ih =>
    intro l h hl hlh hlo hhi hf
    unfold sqrtLoop
    rw [lessThan_mk, equal_mk]
    have ec : ((if false ≠ false then false else decide (l < h)) ||
        decide (l = h) && (false == false)) = decide (l ≤ h) := by
      simp only [ne_eq, not_true_eq_false, if_false, BEq.rfl, Bool.and_true]
      by_cases h1 : l < h
      · simp [h1]; omega
      · by_cases h2 : l = h
        · simp [h2]
        · simp [h1, h2]; omega
    simp only [ec, decide_eq_true_eq]
    by_cases hle : l ≤ h
    · rw [if_pos hle]
      simp only [bind, Except.bind, add_same, ite_self]
      have e2 : parse c!"2" = .ok (mk' 2 false) := parse_two
      have e1 : parse c!"1" = .ok (mk' 1 false) := parse_one
      simp only [e2, e1]
      rw [divide_mk _ _ _ _ (by omega)]
      simp only [bne_self_eq_false, ite_self]
      generalize hm : (l + h) / 2 = mid
      have hm1 : l ≤ mid := by omega
      have hm2 : mid ≤ h := by omega
      simp only [sqr, multiply_mk, bne_self_eq_false, ite_self]
      rw [equal_mk, lessThan_mk]
      simp only [BEq.rfl, Bool.and_true, decide_eq_true_eq, ne_eq, not_true_eq_false, if_false]
      by_cases h1 : mid * mid = n
      · rw [if_pos h1]
        exact ⟨mid, rfl, by omega, by rw [Nat.add_mul, Nat.mul_add]; omega⟩
      · rw [if_neg h1]
        by_cases h2 : mid * mid < n
        · rw [if_pos h2]
          have ha : add (mk' mid false) (mk' 1 false) = .ok (mk' (mid + 1) false) := by
            rw [add_same]; simp
          simp only [add_same, ite_self]
          exact ih (mid + 1) h (by omega) (by omega) (by simpa using Nat.le_of_lt h2) hhi (by omega)
        · rw [if_neg h2]
          have hs : subtract (mk' mid false) (mk' 1 false) = .ok (mk' (mid - 1) false) := by
            rw [subtract_same]
            by_cases hmm : mid = 1
            · subst hmm; simp
            · rw [if_neg hmm, if_neg (by omega)]
          simp only [hs]
          exact ih l (mid - 1) hl (by omega) hlo
            (by rw [show mid - 1 + 1 = mid by omega]; omega) (by omega)
    · rw [if_neg hle]
      have : l - 1 = h := by omega
      rw [this] at hlo
      exact ⟨h, rfl, hlo, hhi⟩

theorem powLoop_few : ∀ (k : Nat) (r b : Int) (e : Nat), 2 ^ k ≤ e →
    powLoop (k + 1) (big r) (big b) e = .error .fuel := by
  intro k
  induction k with
  | zero =>
    intro r b e h
    unfold powLoop
    rw [if_pos (by omega)]
    simp only [bind, Except.bind, multiply_big]
    split <;> rfl
  | succ k ih =>
    intro r b e h
    unfold powLoop
    have := Nat.pow_pos (n := k) (show 0 < 2 by omega)
    rw [if_pos (by omega)]
    have hd : ((e : Int)).tdiv 2 = ((e / 2 : Nat) : Int) := by
      rw [Int.tdiv_eq_ediv_of_nonneg (by omega)]; rfl
    simp only [bind, Except.bind, multiply_big, hd]
    split <;> exact ih _ _ _ (by omega)

end BigInt
end Caitlyn
