import Verif.Proofs.KmpCost
import Verif.Proofs.Rounds

/-!
# Properties C126 and C127: how long the loops run

The correctness of the results is C22 and C41-C44.
-/

namespace Caitlyn
open Caitlyn.Spec BigInt

/-! ## C126 -/

/-- C126. The instrumented copy of `kmp` computes what the model does, for all arguments. -/
theorem C126_same (pattern text : List UInt8) : (Kmp.kmpC pattern text).map Prod.fst = Kmp.kmp pattern text := by
  rw [← Kmp.kmpC_fst]
  cases Kmp.kmpC pattern text <;> rfl

/-- C126. A search compares at most twice as many characters as pattern and text have together, less two, whether it finds the
pattern or not. -/
theorem C126_linear (pattern text : List UInt8) (hp : pattern.length < npos) (hne : pattern ≠ []) :
    ∃ b n, Kmp.kmpC pattern text = .ok (b, n) ∧ n + 2 ≤ 2 * (pattern.length + text.length) := by
  obtain ⟨b, h, _⟩ := Kmp.kmp_spec pattern text hp hne
  obtain ⟨n, hn⟩ := Kmp.fst_ok ((Kmp.kmpC_fst pattern text).trans h)
  exact ⟨b, n, hn, Kmp.kmpC_cost pattern text hp hne b n hn⟩

/-- One round of the loops compares at least once, unless it starts anew. -/
theorem Kmp.backC_least (pattern : List UInt8) (failure : List Nat) (c : UInt8) (hp : pattern.length + 1 < npos) :
    ∀ (f j r n : Nat), backC pattern failure c f j = .ok (r, n) → wadd r 1 ≠ npos ∧ (j ≠ npos → 1 ≤ n) := by
  intro f
  induction f with
  | zero => intro j r n h; cases h
  | succ f ih =>
    intro j r n h
    unfold backC at h
    split at h
    · rename_i hj
      cases h
      exact ⟨by subst hj; decide, fun h => absurd hj h⟩
    · simp only [bind, Except.bind] at h
      split at h
      · cases h
      · rename_i p hs
        have hlt : j ≤ pattern.length := by
          unfold strAt at hs
          split at hs
          · omega
          · unfold vecGet at hs
            split at hs
            · rename_i hx
              have := (List.getElem?_eq_some_iff.mp hx).1
              omega
            · cases hs
        split at h
        · cases h
          refine ⟨?_, fun _ => Nat.le_refl 1⟩
          unfold wadd
          rw [Nat.mod_eq_of_lt (by unfold npos twoPow64 at *; omega)]
          omega
        · split at h
          · cases h
          · split at h
            · cases h
            · rename_i v hv
              obtain ⟨r', k⟩ := v
              cases h
              exact ⟨(ih _ _ _ hv).1, fun _ => Nat.le_add_left 1 k⟩

theorem Kmp.failureLoopC_least (pattern : List UInt8) (hp : pattern.length + 1 < npos) :
    ∀ (k i j : Nat) (failure r : List Nat) (n : Nat), j ≠ npos → failureLoopC pattern k i j failure = .ok (r, n) → k ≤ n := by
  intro k
  induction k with
  | zero => intros; exact Nat.zero_le _
  | succ k ih =>
    intro i j failure r n hj h
    unfold failureLoopC at h
    simp only [bind, Except.bind] at h
    split at h
    · cases h
    · split at h
      · cases h
      · rename_i v hv
        obtain ⟨j', n'⟩ := v
        have hl := backC_least _ _ _ hp _ _ _ _ hv
        simp only at h
        split at h
        · cases h
        · split at h
          · cases h
          · rename_i w hw
            obtain ⟨f', m⟩ := w
            cases h
            have := ih _ _ _ _ _ hl.1 hw
            have := hl.2 hj
            omega

theorem Kmp.searchLoopC_least (pattern : List UInt8) (failure : List Nat) (hp : pattern.length + 1 < npos) :
    ∀ (text : List UInt8) (j n : Nat), j ≠ npos → searchLoopC pattern failure text j = .ok (false, n) → text.length ≤ n := by
  intro text
  induction text with
  | nil => intros; exact Nat.zero_le _
  | cons c text ih =>
    intro j n hj h
    unfold searchLoopC at h
    simp only [bind, Except.bind] at h
    split at h
    · cases h
    · rename_i v hv
      obtain ⟨j', n'⟩ := v
      have hl := backC_least _ _ _ hp _ _ _ _ hv
      simp only at h
      split at h
      · cases h
      · split at h
        · cases h
        · rename_i w hw
          obtain ⟨b, m⟩ := w
          cases h
          have := ih _ _ hl.1 hw
          have := hl.2 hj
          simp only [List.length_cons]
          omega

/-- C126. A search that does not find the pattern has compared every character of the text at least once, and every character of the
pattern but the first before. -/
theorem C126_least (pattern text : List UInt8) (hp : pattern.length + 1 < npos) (n : Nat)
    (h : Kmp.kmpC pattern text = .ok (false, n)) : pattern.length - 1 + text.length ≤ n := by
  unfold Kmp.kmpC at h
  simp only [bind, Except.bind] at h
  split at h
  · cases h
  · rename_i v hv
    obtain ⟨failure, n1⟩ := v
    simp only at h
    split at h
    · cases h
    · rename_i w hw
      obtain ⟨b, m⟩ := w
      cases h
      have h2 := Kmp.searchLoopC_least _ _ hp _ _ _ (by decide) hw
      have h1 : pattern.length - 1 ≤ n1 := by
        unfold Kmp.failureVecC at hv
        simp only [bind, Except.bind] at hv
        split at hv
        · cases hv
        · split at hv
          · cases hv
          · cases hk : pattern.length with
            | zero => exact Nat.zero_le _
            | succ k =>
              rw [hk] at hv
              unfold Kmp.failureLoopC at hv
              simp only [bind, Except.bind] at hv
              split at hv
              · cases hv
              · split at hv
                · cases hv
                · rename_i u hu
                  obtain ⟨j', n'⟩ := u
                  have hl := Kmp.backC_least _ _ _ hp _ _ _ _ hu
                  simp only at hv
                  split at hv
                  · cases hv
                  · split at hv
                    · cases hv
                    · rename_i x hx
                      obtain ⟨f', m'⟩ := x
                      cases hv
                      have := Kmp.failureLoopC_least _ hp _ _ _ _ _ _ hl.1 hx
                      omega
      omega

/-- Both bounds: 22 comparisons, at least 12, at most 24. -/
example : Kmp.kmpC b!"aaab" b!"aaaaaaaac" = .ok (false, 22) ∧ Kmp.kmpC b!"abc" b!"xxabcabc" = .ok (true, 7) := by
  decide +kernel

/-! ## C127 -/

/-- C127. `Pow` ends within `k` rounds of its loop exactly for the exponents below `2 ^ k`: the number of rounds is the number of
binary digits of the exponent. -/
theorem C127_pow (x : Int) (e k : Nat) :
    BigInt.pow (k + 1) (big x) e = if e < 2 ^ k then .ok (big (x ^ e)) else .error .fuel := by
  unfold BigInt.pow
  rw [if_neg (by omega)]
  simp only [parse_one, bind, Except.bind]
  by_cases h : e < 2 ^ k
  · rw [if_pos h, powLoop_log k 1 x e h, Int.one_mul]
  · rw [if_neg h, powLoop_few k 1 x e (by omega)]

/-- C127. `Sqrt` of a number below `2 ^ k` ends within `k` rounds of its loop, with the integer square root. -/
theorem C127_sqrt (n k : Nat) (h : n < 2 ^ k) :
    ∃ r : Nat, BigInt.sqrt (k + 1) (big n) = .ok (big r) ∧ r * r ≤ n ∧ n < (r + 1) * (r + 1) := by
  have e : ∀ n : Nat, big (n : Int) = mk' n false := by intro n; simp [big, mk']
  by_cases h2 : n < 2
  · refine ⟨n, ?_, ?_, ?_⟩
    · have : n = 0 ∨ n = 1 := by omega
      unfold BigInt.sqrt
      rcases this with rfl | rfl
      · rw [if_neg (by decide)]
        simp only [parse_zero, bind, Except.bind, parse_one]
        rfl
      · rw [if_neg (by decide)]
        simp only [parse_zero, bind, Except.bind, parse_one]
        rfl
    · have : n = 0 ∨ n = 1 := by omega
      rcases this with rfl | rfl <;> decide
    · have : n = 0 ∨ n = 1 := by omega
      rcases this with rfl | rfl <;> decide
  · have hb : n < (n + 1) * (n + 1) := by
      rw [Nat.add_mul, Nat.mul_add]
      omega
    obtain ⟨r, h1, h3, h4⟩ := sqrtLoop_log n k 1 n (by omega) (by omega) (by simp) hb (by omega)
    refine ⟨r, ?_, h3, h4⟩
    unfold BigInt.sqrt
    rw [e, if_neg (by simp [mk'_neg])]
    have e1 : BigInt.parse c!"1" = .ok (mk' 1 false) := parse_one
    simp only [parse_zero, bind, Except.bind, e1]
    rw [equal_mk, equal_mk, show decide (n = 0) = false by simp; omega,
      show decide (n = 1) = false by simp; omega]
    simp only [Bool.false_and, Bool.or_false, Bool.false_eq_true, if_false]
    rw [h1, e]

/-- C127. `Divide` finds each digit of the quotient, of a remainder `c` below ten times the divisor, in at most four rounds. -/
theorem C127_digit (n c : Nat) (h : c < 11 * n) :
    BigInt.divSearch (big n) (big c) 5 0 0 10 = .ok ((c / n : Nat) : Int) := by
  have e : ∀ n : Nat, big (n : Int) = mk' n false := by intro n; simp [big, mk']
  obtain ⟨q, h1, _, h3, h4⟩ := divSearch_log n c 4 0 0 10 (.inl ⟨rfl, rfl⟩) (by omega) (by omega) (by omega) (by omega)
    (by omega)
  have hn : 0 < n := by omega
  rw [e, e, h1]
  congr 2
  have h5 : q ≤ c / n := (Nat.le_div_iff_mul_le hn).mpr h3
  have h6 : c / n < q + 1 := (Nat.div_lt_iff_lt_mul hn).mpr h4
  omega

example : BigInt.pow 5 (big 3) 15 = .ok (big 14348907) ∧ BigInt.pow 5 (big 3) 16 = .error .fuel ∧
    BigInt.sqrt 11 (big 1000) = .ok (big 31) ∧ BigInt.divSearch (big 7) (big 69) 5 0 0 10 = .ok 9 ∧
    BigInt.divSearch (big 7) (big 69) 4 0 0 10 = .error .fuel := by decide +kernel

end Caitlyn
