import Verif.Model.PowTrace
import Verif.Proofs.DivCost

/-! # The numbers formed by `Pow` and `Sqrt` -/

namespace Caitlyn.BigInt
open Caitlyn.Spec

theorem powLoopT_same : ∀ (n : Nat) (r b : BigInt) (e : Int), (powLoopT n r b e).map Prod.fst = powLoop n r b e
  | 0, _, _, _ => rfl
  | n + 1, r, b, e => by
    rw [powLoopT, powLoop]
    by_cases h : 0 < e
    · rw [if_pos h, if_pos h]
      by_cases o : e.tmod 2 = 1
      · rw [if_pos o, if_pos o]
        simp only [bind, Except.bind, pure, Except.pure]
        cases multiply r b with
        | error _ => rfl
        | ok p =>
          simp only []
          cases multiply b b with
          | error _ => rfl
          | ok s =>
            simp only []
            rw [← powLoopT_same n]
            cases powLoopT n p s (e.tdiv 2) <;> rfl
      · rw [if_neg o, if_neg o]
        simp only [bind, Except.bind]
        cases multiply b b with
        | error _ => rfl
        | ok s =>
          simp only []
          rw [← powLoopT_same n]
          cases powLoopT n r s (e.tdiv 2) <;> rfl
    · rw [if_neg h, if_neg h]
      rfl

theorem sqrtLoopT_same (t : BigInt) : ∀ (n : Nat) (l h : BigInt), (sqrtLoopT t n l h).map Prod.fst = sqrtLoop t n l h
  | 0, _, _ => rfl
  | n + 1, l, h => by
    rw [sqrtLoopT, sqrtLoop]
    by_cases c : (lessThan l h || equal l h) = true
    · rw [if_pos c, if_pos c]
      simp only [bind, Except.bind, parse_two, parse_one]
      cases add l h with
      | error _ => rfl
      | ok s =>
        simp only []
        cases divide s (big 2) with
        | error _ => rfl
        | ok m =>
          simp only []
          cases sqr m with
          | error _ => rfl
          | ok q =>
            simp only []
            by_cases c1 : equal q t = true
            · rw [if_pos c1, if_pos c1]; rfl
            · rw [if_neg c1, if_neg c1]
              by_cases c2 : lessThan q t = true
              · rw [if_pos c2, if_pos c2]
                cases add m (big 1) with
                | error _ => rfl
                | ok l' =>
                  simp only []
                  rw [← sqrtLoopT_same t n]
                  cases sqrtLoopT t n l' h <;> rfl
              · rw [if_neg c2, if_neg c2]
                cases subtract m (big 1) with
                | error _ => rfl
                | ok h' =>
                  simp only []
                  rw [← sqrtLoopT_same t n]
                  cases sqrtLoopT t n l h' <;> rfl
    · rw [if_neg c, if_neg c]; rfl

/-! ## Digits -/

theorem digs_lt_pow : ∀ (d n : Nat), n < 10 ^ d → (digs n).length ≤ d
  | 0, n, h => by rw [show n = 0 by simpa using h, digs_zero]; simp
  | d + 1, n, h => by
    rcases Nat.eq_zero_or_pos n with rfl | hn
    · rw [digs_zero]; simp
    · rw [digs_pos _ hn, List.length_cons]
      have := digs_lt_pow d (n / 10) (by rw [Nat.pow_succ] at h; omega)
      omega

theorem lt_pow_digs (n : Nat) : n < 10 ^ (digs n).length := by
  have h := val_lt (digs n) (digs_valid n)
  rw [val_digs] at h
  exact_mod_cast h

theorem digs_square {m r : Nat} (h : m ≤ r * r) : (digs m).length ≤ 2 * (digs r).length := by
  refine digs_lt_pow _ _ ?_
  have h1 := lt_pow_digs r
  have h2 : r * r < 10 ^ (digs r).length * 10 ^ (digs r).length :=
    Nat.lt_of_le_of_lt (Nat.mul_le_mul_left r (Nat.le_of_lt h1)) (Nat.mul_lt_mul_of_pos_right h1 (Nat.pow_pos (by decide)))
  rw [Nat.two_mul, Nat.pow_add]
  omega

theorem digs_more {n m : Nat} (h0 : 0 < m) (h : 10 * m ≤ n) : (digs m).length < (digs n).length := by
  have := digs_mono (show m ≤ n / 10 by omega)
  rw [digs_pos n (by omega), List.length_cons]
  omega

/-! ## Pow -/

theorem mul_self_pow (B k : Nat) : (B * B) ^ k = B ^ (2 * k) := by
  rw [Nat.pow_mul, show B ^ 2 = B * B by rw [Nat.pow_succ, Nat.pow_one]]

theorem base_le {R B k : Nat} (h : 0 < R ∨ B = 0) (hk : 0 < k) : B ≤ R * B ^ k := by
  rcases Nat.eq_zero_or_pos B with rfl | hB
  · omega
  · have hR : 0 < R := by omega
    calc B = B ^ 1 := (Nat.pow_one B).symm
      _ ≤ B ^ k := Nat.pow_le_pow_right hB hk
      _ ≤ R * B ^ k := Nat.le_mul_of_pos_left _ hR

theorem powLoopT_spec : ∀ (k : Nat) (r b : Int) (e : Nat), e < 2 ^ k → (0 < r.natAbs ∨ b.natAbs = 0) →
    ∃ l : List Int, powLoopT (k + 1) (big r) (big b) e = .ok (big (r * b ^ e), l.map big) ∧
      (∀ z ∈ l, z.natAbs ≤ r.natAbs * b.natAbs ^ (2 * e)) ∧
      ∀ j, 2 ^ j ≤ e → e < 2 ^ (j + 1) → l.getLast? = some (b ^ (2 ^ (j + 1))) := by
  intro k
  induction k with
  | zero =>
    intro r b e h _
    have he : e = 0 := by simpa using h
    subst he
    refine ⟨[], by rw [powLoopT]; simp, by simp, fun j hj => ?_⟩
    have := Nat.two_pow_pos j
    omega
  | succ k ih =>
    intro r b e h hp
    rw [powLoopT]
    by_cases he : e = 0
    · subst he
      refine ⟨[], by simp, by simp, fun j hj => ?_⟩
      have := Nat.two_pow_pos j
      omega
    · rw [if_pos (by omega)]
      have hd : ((e : Int)).tdiv 2 = ((e / 2 : Nat) : Int) := by
        rw [Int.tdiv_eq_ediv_of_nonneg (by omega)]; rfl
      have hm : ((e : Int)).tmod 2 = ((e % 2 : Nat) : Int) := by
        rw [Int.tmod_eq_emod_of_nonneg (by omega)]; rfl
      rw [hm, hd]
      simp only [bind, Except.bind, multiply_big]
      have hsq : ∀ j : Nat, (b * b) ^ j = b ^ (2 * j) := by
        intro j
        rw [Int.pow_mul, show b ^ 2 = b * b by rw [Int.pow_succ, Int.pow_succ, Int.pow_zero, Int.one_mul]]
      have last : ∀ (l' pre : List Int) (s : Int), s = b * b →
          (∀ j, 2 ^ j ≤ e / 2 → e / 2 < 2 ^ (j + 1) → l'.getLast? = some ((b * b) ^ (2 ^ (j + 1)))) → (e / 2 = 0 → l' = []) →
          ∀ j, 2 ^ j ≤ e → e < 2 ^ (j + 1) → (pre ++ s :: l').getLast? = some (b ^ (2 ^ (j + 1))) := by
        intro l' pre s hs hl h0 j h1 h2
        cases j with
        | zero =>
          rw [h0 (by simp at h2; omega), List.getLast?_append]
          simp only [List.getLast?_singleton, Option.some_or, hs]
          rw [show (2 : Nat) ^ (0 + 1) = 2 from rfl, Int.pow_succ, Int.pow_succ, Int.pow_zero, Int.one_mul]
        | succ j =>
          have := hl j (by rw [Nat.pow_succ] at h1; omega) (by rw [Nat.pow_succ 2 (j + 1)] at h2; omega)
          rw [List.getLast?_append, List.getLast?_cons, this, hsq, Nat.mul_comm 2, ← Nat.pow_succ]
          rfl
      have hB : b.natAbs * b.natAbs ≤ r.natAbs * b.natAbs ^ (2 * e) := by
        rw [← mul_self_pow]
        refine base_le ?_ (by omega)
        rcases hp with h | h
        · exact .inl h
        · exact .inr (by rw [h])
      rcases Nat.mod_two_eq_zero_or_one e with h0 | h1
      · rw [h0, if_neg (by omega)]
        obtain ⟨l, e1, e2, e3⟩ := ih r (b * b) (e / 2) (by omega) (by
          rcases hp with h | h
          · exact .inl h
          · exact .inr (by rw [Int.natAbs_mul, h]))
        refine ⟨b * b :: l, ?_, ?_, ?_⟩
        · simp only [e1]
          rw [hsq, show 2 * (e / 2) = e by omega]
          rfl
        · intro z hz
          rcases List.mem_cons.mp hz with rfl | hz
          · rw [Int.natAbs_mul]; exact hB
          · have := e2 z hz
            rw [Int.natAbs_mul, mul_self_pow, show 2 * (2 * (e / 2)) = 2 * e by omega] at this
            exact this
        · exact last l [] _ rfl e3 (fun h => by omega)
      · rw [h1, if_pos (by rfl)]
        obtain ⟨l, e1, e2, e3⟩ := ih (r * b) (b * b) (e / 2) (by omega) (by
          rw [Int.natAbs_mul, Int.natAbs_mul]
          rcases Nat.eq_zero_or_pos b.natAbs with h | h
          · exact .inr (by rw [h])
          · exact .inl (Nat.mul_pos (by omega) h))
        refine ⟨r * b :: b * b :: l, ?_, ?_, ?_⟩
        · simp only [pure, Except.pure, e1]
          rw [hsq]
          rw [show b ^ e = b ^ (2 * (e / 2) + 1) by rw [show 2 * (e / 2) + 1 = e by omega]]
          rw [Int.pow_succ]
          simp only [List.map_cons, Except.ok.injEq, Prod.mk.injEq, List.singleton_append, and_true]
          congr 1
          grind
        · intro z hz
          rcases List.mem_cons.mp hz with rfl | hz
          · rw [Int.natAbs_mul]
            exact Nat.mul_le_mul_left _ (Nat.le_trans (base_le (R := 1) (.inl (by omega)) (by omega : 0 < 2 * e)) (by omega))
          rcases List.mem_cons.mp hz with rfl | hz
          · rw [Int.natAbs_mul]; exact hB
          · have := e2 z hz
            rw [Int.natAbs_mul, Int.natAbs_mul, mul_self_pow, Nat.mul_assoc, Nat.mul_comm b.natAbs, ← Nat.pow_succ] at this
            refine Nat.le_trans this (Nat.mul_le_mul_left _ ?_)
            rw [show 2 * e = (2 * (2 * (e / 2))).succ + 1 by omega, Nat.pow_succ b.natAbs (Nat.succ _)]
            rcases Nat.eq_zero_or_pos b.natAbs with h | h
            · rw [h, Nat.zero_pow (by omega)]; omega
            · exact Nat.le_mul_of_pos_right _ h
        · refine last l [r * b] _ rfl e3 (fun h => ?_)
          have h' : ((e / 2 : Nat) : Int) = 0 := by omega
          rw [h', powLoopT, if_neg (by omega)] at e1
          simp only [Except.ok.injEq, Prod.mk.injEq] at e1
          exact List.map_eq_nil_iff.mp e1.2.symm

/-! ## Sqrt -/

theorem sqrtLoopT_spec (n : Nat) (hn : 2 ≤ n) : ∀ (k l h : Nat), 1 ≤ l → l ≤ h + 1 → h ≤ n → h + 1 - l < 2 ^ k →
    ∃ (r : Nat) (t : List Nat), sqrtLoopT (mk' n false) (k + 1) (mk' l false) (mk' h false) = .ok (mk' r false, t.map (mk' · false)) ∧
      (∀ z ∈ t, z ≤ n * n) ∧ (l ≤ h → (l + h) / 2 * ((l + h) / 2) ∈ t) := by
  intro k
  have hnn : 2 * n ≤ n * n := Nat.mul_le_mul_right n hn
  induction k with
  | zero =>
    intro l h hl hlh _ hf
    rw [sqrtLoopT]
    have h1 : ¬ l < h := by omega
    have h2 : ¬ l = h := by omega
    rw [lessThan_mk, equal_mk]
    rw [if_neg (by simp [h1, h2])]
    exact ⟨h, [], rfl, by simp, fun _ => by omega⟩
  | succ k ih =>
    intro l h hl hlh hh hf
    rw [sqrtLoopT]
    rw [lessThan_mk, equal_mk]
    have ec : ((if false ≠ false then false else decide (l < h)) ||
        decide (l = h) && (false == false)) = decide (l ≤ h) := by
      simp only [ne_eq, not_true_eq_false, if_false, BEq.rfl, Bool.and_true]
      by_cases h1 : l < h
      · simp [h1]; omega
      · by_cases h2 : l = h
        · simp [h2]
        · simp [h1, h2]; omega
    simp only [ec, decide_eq_true_eq]
    by_cases hle : l ≤ h
    · rw [if_pos hle]
      simp only [bind, Except.bind, add_same, ite_self]
      have e2 : parse c!"2" = .ok (mk' 2 false) := parse_two
      have e1 : parse c!"1" = .ok (mk' 1 false) := parse_one
      simp only [e2, e1]
      rw [divide_mk _ _ _ _ (by omega)]
      simp only [bne_self_eq_false, ite_self]
      generalize hm : (l + h) / 2 = mid
      have hm1 : l ≤ mid := by omega
      have hm2 : mid ≤ h := by omega
      have hmm : mid * mid ≤ n * n := Nat.mul_le_mul (by omega) (by omega)
      simp only [sqr, multiply_mk, bne_self_eq_false, ite_self]
      rw [equal_mk, lessThan_mk]
      simp only [BEq.rfl, Bool.and_true, decide_eq_true_eq, ne_eq, not_true_eq_false, if_false]
      by_cases h1 : mid * mid = n
      · rw [if_pos h1]
        refine ⟨mid, [l + h, mid, mid * mid], rfl, fun z hz => ?_, fun _ => by simp⟩
        simp only [List.mem_cons, List.not_mem_nil, or_false] at hz
        omega
      · rw [if_neg h1]
        by_cases h2 : mid * mid < n
        · rw [if_pos h2]
          obtain ⟨r, t, g1, g2, _⟩ := ih (mid + 1) h (by omega) (by omega) hh (by omega)
          simp only [add_same, ite_self, g1]
          refine ⟨r, (l + h) :: mid :: mid * mid :: (mid + 1) :: t, rfl, fun z hz => ?_, fun _ => by simp⟩
          simp only [List.mem_cons] at hz
          rcases hz with hz | hz | hz | hz | hz
          · omega
          · omega
          · omega
          · omega
          · exact g2 z hz
        · rw [if_neg h2]
          have hs : subtract (mk' mid false) (mk' 1 false) = .ok (mk' (mid - 1) false) := by
            rw [subtract_same]
            by_cases hmm : mid = 1
            · subst hmm; simp
            · rw [if_neg hmm, if_neg (by omega)]
          obtain ⟨r, t, g1, g2, _⟩ := ih l (mid - 1) hl (by omega) (by omega) (by omega)
          simp only [hs, g1]
          refine ⟨r, (l + h) :: mid :: mid * mid :: (mid - 1) :: t, rfl, fun z hz => ?_, fun _ => by simp⟩
          simp only [List.mem_cons] at hz
          rcases hz with hz | hz | hz | hz | hz
          · omega
          · omega
          · omega
          · omega
          · exact g2 z hz
    · rw [if_neg hle]
      exact ⟨h, [], rfl, by simp, fun c => absurd c hle⟩

end Caitlyn.BigInt
