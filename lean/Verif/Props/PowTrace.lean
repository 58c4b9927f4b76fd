import Verif.Proofs.PowTrace
import Verif.Props.DivCost

/-! # Property C173: the size of the numbers with which powers and roots are computed -/

namespace Caitlyn
open Spec BigInt

/-- C173. The copies of the model that list the numbers formed compute what the model computes, for all objects. -/
theorem C173_same (fuel : Nat) (a : BigInt) (e : Int) :
    (powT fuel a e).map Prod.fst = pow fuel a e ∧ (sqrtT fuel a).map Prod.fst = sqrt fuel a := by
  constructor
  · unfold powT pow
    split
    · rfl
    · simp only [parse_one, bind, Except.bind]
      exact powLoopT_same _ _ _ _
  · unfold sqrtT sqrt
    split
    · rfl
    · simp only [parse_one, parse_zero, bind, Except.bind]
      split
      · rfl
      · exact sqrtLoopT_same _ _ _ _

/-- C173, what holds: `Pow` (with an exponent below `2 ^ k`) forms only numbers with at most twice as many digits as its result, and the last
of them is the base to the first power of two above the exponent. -/
theorem C173_partial (x : Int) (e k : Nat) (h : e < 2 ^ k) :
    ∃ l : List Int, powT (k + 1) (big x) e = .ok (big (x ^ e), l.map big) ∧
      (∀ z ∈ l, numDigits z ≤ 2 * numDigits (x ^ e)) ∧
      ∀ j, 2 ^ j ≤ e → e < 2 ^ (j + 1) → l.getLast? = some (x ^ (2 ^ (j + 1))) := by
  obtain ⟨l, h1, h2, h3⟩ := powLoopT_spec k 1 x e h (.inl (by decide))
  rw [Int.one_mul] at h1
  refine ⟨l, ?_, fun z hz => digs_square ?_, h3⟩
  · unfold powT
    rw [if_neg (by omega)]
    simp only [parse_one, bind, Except.bind]
    exact h1
  · have := h2 z hz
    rw [Int.natAbs_pow, ← Nat.pow_add, ← Nat.two_mul]
    simpa using this

/-- C173, what holds of `Sqrt`: it forms only numbers with at most twice as many digits as its argument. -/
theorem C173_sqrt_partial (n k : Nat) (h : n < 2 ^ k) :
    ∃ (r : Nat) (l : List Nat), sqrtT (k + 1) (big n) = .ok (big r, l.map fun m : Nat => big m) ∧ r * r ≤ n ∧ n < (r + 1) * (r + 1) ∧
      (∀ m ∈ l, numDigits m ≤ 2 * numDigits n) ∧ (2 ≤ n → (1 + n) / 2 * ((1 + n) / 2) ∈ l) := by
  have e : ∀ n : Nat, big (n : Int) = mk' n false := by intro n; simp [big, mk']
  have e1 : BigInt.parse c!"1" = .ok (mk' 1 false) := parse_one
  by_cases h2 : n < 2
  · refine ⟨n, [], ?_, ?_, ?_, by simp, fun _ => by omega⟩
    · have : n = 0 ∨ n = 1 := by omega
      unfold BigInt.sqrtT
      rcases this with rfl | rfl
      · rw [if_neg (by decide)]
        simp only [parse_zero, bind, Except.bind, parse_one]
        rfl
      · rw [if_neg (by decide)]
        simp only [parse_zero, bind, Except.bind, parse_one]
        rfl
    · have : n = 0 ∨ n = 1 := by omega
      rcases this with rfl | rfl <;> decide
    · have : n = 0 ∨ n = 1 := by omega
      rcases this with rfl | rfl <;> decide
  · have hb : n < (n + 1) * (n + 1) := by
      rw [Nat.add_mul, Nat.mul_add]
      omega
    obtain ⟨r, h1, h3, h4⟩ := sqrtLoop_log n k 1 n (by omega) (by omega) (by simp) hb (by omega)
    obtain ⟨r', l, g1, g2, g3⟩ := sqrtLoopT_spec n (by omega) k 1 n (by omega) (by omega) (by omega) (by omega)
    have hs := sqrtLoopT_same (mk' n false) (k + 1) (mk' 1 false) (mk' n false)
    rw [h1, g1] at hs
    simp only [Except.map, Except.ok.injEq] at hs
    refine ⟨r, l, ?_, h3, h4, fun m hm => digs_square ?_, fun _ => g3 (by omega)⟩
    · unfold BigInt.sqrtT
      rw [e, if_neg (by simp [mk'_neg])]
      simp only [parse_zero, bind, Except.bind, e1]
      rw [equal_mk, equal_mk, show decide (n = 0) = false by simp; omega,
        show decide (n = 1) = false by simp; omega]
      simp only [Bool.false_and, Bool.or_false, Bool.false_eq_true, if_false]
      rw [g1, hs, e]
      simp only [e]
    · have := g2 m hm
      simpa using this

/-- C173 does not hold of `Pow`: whatever the positive exponent, and whatever the base of at least two digits, a number with more digits than
the result is formed, namely by the last squaring, of which nothing is used. -/
theorem C173_fails (x : Int) (hx : 10 ≤ x.natAbs) (e k : Nat) (h0 : 0 < e) (h : e < 2 ^ k) (q : BigInt) (l : List BigInt)
    (run : powT (k + 1) (big x) e = .ok (q, l)) : q = big (x ^ e) ∧ ∃ z, l.getLast? = some (big z) ∧ numDigits (x ^ e) < numDigits z := by
  obtain ⟨l', h1, h2, h3⟩ := C173_partial x e k h
  rw [run] at h1
  simp only [Except.ok.injEq, Prod.mk.injEq] at h1
  obtain ⟨rfl, rfl⟩ := h1
  obtain ⟨j, j1, j2⟩ : ∃ j, 2 ^ j ≤ e ∧ e < 2 ^ (j + 1) := ⟨e.log2, Nat.log2_self_le (by omega), Nat.lt_log2_self⟩
  refine ⟨rfl, x ^ 2 ^ (j + 1), by rw [List.getLast?_map, h3 j j1 j2]; rfl, digs_more ?_ ?_⟩
  · rw [Int.natAbs_pow]; exact Nat.pow_pos (by omega)
  · rw [Int.natAbs_pow, Int.natAbs_pow, show 2 ^ (j + 1) = e + 1 + (2 ^ (j + 1) - (e + 1)) by omega, Nat.pow_add, Nat.pow_succ]
    refine Nat.le_trans ?_ (Nat.le_mul_of_pos_right _ (Nat.pow_pos (by omega)))
    rw [Nat.mul_comm 10]
    exact Nat.mul_le_mul_left _ hx

/-- C173 does not hold of `Sqrt` either: of every number from 40 on the first round forms one with more digits than it. -/
theorem C173_sqrt_fails (n k : Nat) (h : n < 2 ^ k) (hn : 40 ≤ n) (q : BigInt) (l : List BigInt)
    (run : sqrtT (k + 1) (big n) = .ok (q, l)) : ∃ m : Nat, big m ∈ l ∧ numDigits n < numDigits m := by
  obtain ⟨r, l', h1, _, _, _, h2⟩ := C173_sqrt_partial n k h
  rw [run] at h1
  simp only [Except.ok.injEq, Prod.mk.injEq] at h1
  obtain ⟨-, rfl⟩ := h1
  refine ⟨_, List.mem_map.mpr ⟨_, h2 (by omega), rfl⟩, digs_more (by simp; omega) ?_⟩
  rw [Int.natAbs_natCast, Int.natAbs_natCast]
  have h3 : 20 * ((1 + n) / 2) ≤ (1 + n) / 2 * ((1 + n) / 2) := Nat.mul_le_mul_right _ (by omega)
  omega

/-- C173. The bound of `C173_partial` is reached, for every base and infinitely many exponents: to compute `x` to a power of two, the square of
the result is computed. -/
theorem C173_square_fails (x : Int) (j : Nat) : ∃ l, powT (j + 2) (big x) (2 ^ j : Nat) = .ok (big (x ^ 2 ^ j), l) ∧
    l.getLast? = some (big (x ^ 2 ^ j * x ^ 2 ^ j)) := by
  obtain ⟨l, h1, -, h3⟩ := C173_partial x (2 ^ j) (j + 1) (by rw [Nat.pow_succ]; have := Nat.two_pow_pos j; omega)
  refine ⟨_, h1, ?_⟩
  rw [List.getLast?_map, h3 j (Nat.le_refl _) (by rw [Nat.pow_succ]; have := Nat.two_pow_pos j; omega), ← Int.pow_add, Nat.pow_succ,
    Nat.mul_two]
  rfl

example : (powT 4 (big (-12)) 4).map (fun r => r.2.getLast?) = .ok (some (big 429981696)) := by decide +kernel
example : (sqrtT 8 (big 100)).map (fun r => r.2.take 4) = .ok [big 101, big 50, big 2500, big 49] := by decide +kernel

end Caitlyn
