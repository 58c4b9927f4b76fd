import Verif.Spec.BigIntProg
import Verif.Props.BigInt

/-!
# Programs with `BigInteger`: one statement
-/

namespace Caitlyn.BigIntProg
open BigInt Spec

/-- The object that holds a number with sign flag. -/
def rep (a : Signed) : BigInt := mk' a.mag a.neg

/-- All variables. -/
def reps (w : SignedVars) : Vars := fun x => rep (w x)

theorem reps_set (w : SignedVars) (x : Nat) (a : Signed) : (reps w).set x (rep a) = reps (w.set x a) := by
  funext y; simp only [Vars.set, reps, SignedVars.set]; split <;> rfl

theorem rep_zero : rep ⟨0, false⟩ = ⟨[], false⟩ := rfl

theorem isqrt_spec (n : Nat) : Signed.isqrt n * Signed.isqrt n ≤ n ∧
    n < (Signed.isqrt n + 1) * (Signed.isqrt n + 1) := by
  induction n with
  | zero => simp [Signed.isqrt]
  | succ n ih =>
    unfold Signed.isqrt
    generalize Signed.isqrt n = r at *
    split
    · rename_i h
      refine ⟨h, ?_⟩
      have : (r + 1 + 1) * (r + 1 + 1) = (r + 1) * (r + 1) + 2 * r + 3 := by grind
      omega
    · omega

theorem root_unique {n r q : Nat} (h1 : r * r ≤ n) (h2 : n < (r + 1) * (r + 1)) (h3 : q * q ≤ n)
    (h4 : n < (q + 1) * (q + 1)) : r = q := by
  rcases Nat.lt_trichotomy r q with h | h | h
  · have := Nat.mul_le_mul h h; simp only [Nat.succ_eq_add_one] at this; omega
  · exact h
  · have := Nat.mul_le_mul h h; simp only [Nat.succ_eq_add_one] at this; omega

/-! ### Division by a zero with the flag -/

theorem divSearch_zero (c : Nat) : divSearch (mk' 0 false) (mk' c false) 12 0 0 10 = .ok 10 := by
  have key : ∀ (z : Int), 0 ≤ z → ∀ f x l r, l ≤ r → (l + r).tdiv 2 = z →
      divSearch (mk' 0 false) (mk' c false) (f + 1) x l r =
        divSearch (mk' 0 false) (mk' c false) f z (z + 1) r := by
    intro z hz f x l r h e
    rw [divSearch, if_pos h, e]
    simp only [ofInt_nonneg z hz, bind, Except.bind, multiply_mk, Nat.zero_mul, if_pos, lessThan_mk, equal_mk]
    rw [if_pos]
    · rcases Nat.eq_zero_or_pos c with h | h
      · subst h; simp
      · simp [h]
  rw [key 5 (by decide) _ _ _ _ (by decide) (by decide), key 8 (by decide) _ _ _ _ (by decide) (by decide),
    key 9 (by decide) _ _ _ _ (by decide) (by decide), key 10 (by decide) _ _ _ _ (by decide) (by decide)]
  unfold divSearch
  rw [if_neg (by decide)]

theorem divLoop_zero (neg : Bool) : ∀ (ds q : List Int) (c : Nat), Valid ds →
    divLoop (mk' 0 false) ds ⟨q, neg⟩ (mk' c false) = .ok ⟨List.replicate ds.length 10 ++ q, neg⟩
  | [], q, c, _ => rfl
  | d :: ds, q, c, h => by
    rw [valid_cons] at h
    unfold divLoop
    have hc : removeLeadingZeros ⟨d :: digs c, false⟩ = mk' (d.toNat + 10 * c) false := by
      rw [rlz_eq _ _ (valid_cons.mpr ⟨h.1, digs_valid c⟩) (d.toNat + 10 * c)]
      · simp
      · simp only [val, val_digs]; omega
    simp only [mk'_digits, mk'_neg, hc, divSearch_zero, bind, Except.bind]
    rw [ofInt_nonneg 10 (by decide)]
    simp only [multiply_mk, Nat.zero_mul, if_pos]
    rw [subtract_mk, if_pos rfl]
    have : (if d.toNat + 10 * c = 0 then mk' 0 false else if d.toNat + 10 * c < 0 then mk' (0 - (d.toNat + 10 * c)) true
        else mk' (d.toNat + 10 * c - 0) false) = mk' (d.toNat + 10 * c) false := by
      split
      · rename_i h; rw [h]
      · simp
    rw [this]
    show divLoop (mk' 0 false) ds ⟨10 :: q, neg⟩ _ = _
    rw [divLoop_zero neg ds (10 :: q) _ h.2]
    rw [List.length_cons, List.replicate_succ', List.append_assoc]; rfl

/-- Every digit of the result is ten. -/
theorem divide_negZero (m : Nat) (s : Bool) :
    divide (mk' m s) (mk' 0 true) = .ok ⟨List.replicate (digs m).length 10, !s && decide (m ≠ 0)⟩ := by
  unfold divide
  rw [parse_zero]
  simp only [bind, Except.bind, equal_mk]
  rw [if_neg (by decide)]
  have hl : divLoop ⟨(mk' 0 true).digits, false⟩ (mk' m s).digits.reverse (mk' 0 false) (mk' 0 false) =
      .ok ⟨List.replicate (digs m).reverse.length 10 ++ [], false⟩ :=
    divLoop_zero false _ _ 0 (by intro d hd; exact digs_valid m d (List.mem_reverse.mp hd))
  rw [hl]
  simp only [List.append_nil, List.length_reverse, pure, Except.pure, removeLeadingZeros, mk'_neg]
  have ht : trim (List.replicate (digs m).length 10) = List.replicate (digs m).length 10 := by
    cases (digs m).length with
    | zero => rfl
    | succ k => rw [List.replicate_succ', trim_concat_ne _ _ (by decide)]
  rw [ht]
  by_cases h : m = 0
  · subst h; cases s <;> rfl
  · have : (digs m).length ≠ 0 := by
      rw [ne_eq, List.length_eq_zero_iff, digs_eq_nil]; exact h
    have h2 : (List.replicate (digs m).length (10 : Int)).isEmpty = false := by
      rw [List.isEmpty_replicate]; simpa using this
    rw [h2]
    simp [h]

/-! ### The operators -/

theorem mulOuter_nil : ∀ xs rs : List Int, xs.length ≤ rs.length → mulOuter xs [] rs = .ok rs
  | [], _, _ => rfl
  | x :: xs, [], h => by simp at h
  | x :: xs, r :: rs, h => by
    have hi : mulInner x [] (r :: rs) 0 = .ok (r :: rs) := by unfold mulInner; exact if_pos (by simp)
    unfold mulOuter
    simp only [hi, bind, Except.bind, List.tail_cons, mulOuter_nil xs rs (by simpa using h)]
    rfl

theorem multiply_nil (ds : List Int) (s t : Bool) : multiply ⟨ds, s⟩ ⟨[], t⟩ = .ok (mk' 0 false) := by
  unfold multiply
  simp only [List.length_nil, Nat.add_zero]
  rw [mulOuter_nil _ _ (by simp)]
  simp only [bind, Except.bind, pure, Except.pure]
  rw [rlz_eq _ _ (by intro d hd; rw [List.mem_replicate] at hd; omega) 0 (by rw [val_replicate_zero]; rfl)]
  rfl

theorem abs_sub (m n : Nat) : ((m : Int) - n).natAbs = if n < m then m - n else n - m := by split <;> omega

theorem modulo_mk (m n : Nat) (s t : Bool) (h : ¬ (n = 0 ∧ t = false)) :
    modulo (mk' m s) (mk' n t) = .ok (mk' (m % n) s) := by
  unfold modulo
  by_cases hn : n = 0
  · subst hn
    have ht : t = true := by simpa using h
    subst ht
    rw [divide_negZero]
    simp only [bind, Except.bind]
    rw [show mk' 0 true = ⟨[], true⟩ from rfl, multiply_nil]
    simp only [subtract_mk, pure, Except.pure, Nat.mod_zero]
    cases s with
    | false =>
      simp only [if_pos]
      split
      · rename_i h; subst h; rfl
      · simp [mk']
    | true =>
      rw [if_neg (by decide)]
      simp only [mk'_neg, mk'_digits]
      have : (if 0 < m then m - 0 else 0 - m) = m := by split <;> omega
      rw [this]; rfl
  · rw [divide_mk _ _ _ _ (by omega)]
    simp only [bind, Except.bind, multiply_mk]
    have hle : m / n * n ≤ m := Nat.div_mul_le_self m n
    have hmod : m - m / n * n = m % n := by
      have := Nat.div_add_mod m n; rw [Nat.mul_comm] at this; omega
    have hfix : ∀ r : BigInt, (⟨r.digits, if r.neg ≠ (mk' m s).neg then (mk' m s).neg else r.neg⟩ : BigInt) =
        ⟨r.digits, s⟩ := by
      intro r; rw [mk'_neg]; split <;> simp_all
    rw [subtract_mk]
    simp only [pure, Except.pure, hfix]
    generalize (if m / n * n = 0 then false else (if m / n = 0 then false else s != t) != t) = u
    by_cases hs : s = u
    · rw [if_pos hs]
      by_cases he : m = m / n * n
      · rw [if_pos he, ← hmod, show m - m / n * n = 0 by omega]; rfl
      · rw [if_neg he, if_neg (by omega), hmod]; rfl
    · rw [if_neg hs]
      have : (if m / n * n < m then m - m / n * n else m / n * n - m) = m % n := by split <;> omega
      rw [this]; rfl

theorem bin_ok (op : Bin) (a b r : Signed) (ht : Signed.binThrows op b = false) (h : Signed.bin op a b = some r) :
    op.eval (rep a) (rep b) = .ok (rep r) := by
  obtain ⟨m, s⟩ := a; obtain ⟨n, t⟩ := b
  cases op <;> simp only [Signed.bin, Option.some.injEq] at h <;> simp only [Bin.eval, rep]
  · rw [add_mk, ← h]
    split
    · congr 1
      by_cases hz : m + n = 0
      · simp only [hz]; simp
      · rw [if_neg hz, decide_eq_true hz, Bool.and_true]
    · split <;> rfl
  · rw [subtract_mk, ← h]
    split
    · simp only [abs_sub]
      split
      · rename_i e; subst e; simp
      · split
        · rename_i h1 h2; simp [h2, Nat.not_lt_of_lt h2]
        · rename_i h1 h2; rw [if_pos (by omega), decide_eq_false h2]
    · simp only [abs_sub]
  · rw [multiply_mk, ← h]
    by_cases hz : m * n = 0 <;> simp [hz]
  · by_cases hn : n = 0
    · subst hn
      have htt : t = true := by simpa [Signed.binThrows] using ht
      subst htt
      by_cases hm : m = 0
      · subst hm; simp at h; rw [divide_negZero, ← h]; simp [mk', digs_zero]
      · simp [hm] at h
    · rw [if_neg (by simp [hn])] at h
      injection h with h
      rw [divide_mk _ _ _ _ (by omega), ← h]
      by_cases hz : m / n = 0
      · simp only [hz]; simp
      · rw [if_neg hz, decide_eq_true hz, Bool.and_true]
  · rw [← h]
    exact modulo_mk m n s t (by intro ⟨h1, h2⟩; subst h1 h2; simp [Signed.binThrows] at ht)

theorem bin_throws (op : Bin) (a b : Signed) (h : Signed.binThrows op b = true) :
    op.eval (rep a) (rep b) = .error .invalidArgument := by
  cases op <;> simp [Signed.binThrows] at h
  · subst h; exact divide_zero _
  · subst h
    simp only [Bin.eval, modulo, rep]
    rw [divide_zero]; rfl

/-! ### Products that do not fit -/

theorem chkInt_cases (x : Int) : chkInt x = .ok x ∨ chkInt x = .error .ub := by
  unfold chkInt; split <;> simp

/-- A multiplication that returns has found room for the product; one that does not is undefined. -/
theorem mulInner_room (x : Int) (hx : 0 ≤ x) : ∀ (rs ys : List Int) (c : Int), Valid rs → (∀ y ∈ ys, 0 ≤ y) → 0 ≤ c →
    mulInner x ys rs c = .error .ub ∨ ∃ r, mulInner x ys rs c = .ok r ∧ Valid r ∧ r.length = rs.length ∧
      val r = val rs + x * val ys + c
  | [], ys, c, hr, hy, hc => by
    unfold mulInner
    by_cases h : ys.isEmpty ∧ c = 0
    · rw [if_pos h]
      obtain ⟨h1, h2⟩ := h
      rw [List.isEmpty_iff] at h1
      subst h1 h2
      exact .inr ⟨[], rfl, hr, rfl, by simp [val]⟩
    · rw [if_neg h]; exact .inl rfl
  | r :: rs, ys, c, hr, hy, hc => by
    unfold mulInner
    by_cases h : ys.isEmpty ∧ c = 0
    · simp only [if_pos h]
      obtain ⟨h1, h2⟩ := h
      rw [List.isEmpty_iff] at h1
      subst h1 h2
      exact .inr ⟨r :: rs, rfl, hr, rfl, by simp [val]⟩
    · simp only [if_neg h]
      rw [valid_cons] at hr
      rcases chkInt_cases (x * ys.headD 0) with h1 | h1 <;> simp only [h1, bind, Except.bind]
      · rcases chkInt_cases (r + x * ys.headD 0) with h2 | h2 <;> simp only [h2]
        · rcases chkInt_cases (r + x * ys.headD 0 + c) with h3 | h3 <;> simp only [h3]
          · have hh : 0 ≤ x * ys.headD 0 := by
              cases ys with
              | nil => simp
              | cons y ys => exact Int.mul_nonneg hx (hy y (by simp))
            generalize hs : r + x * ys.headD 0 + c = sum
            have hs0 : 0 ≤ sum := by omega
            have hd : sum.tdiv 10 = sum / 10 := Int.tdiv_eq_ediv_of_nonneg hs0
            have hm : sum.tmod 10 = sum % 10 := Int.tmod_eq_emod_of_nonneg hs0
            rcases mulInner_room x hx rs ys.tail (sum.tdiv 10) hr.2 (fun y h => hy y (List.mem_of_mem_tail h))
                (by rw [hd]; omega) with h4 | ⟨q, h4, h5, h6, h7⟩
            · simp only [h4]; exact .inl trivial
            · simp only [h4]
              refine .inr ⟨_, rfl, valid_cons.mpr ⟨by rw [hm]; omega, h5⟩, by simp [h6], ?_⟩
              have : x * val ys = x * ys.headD 0 + 10 * (x * val ys.tail) := by
                rw [val_eq_head_tail ys, Int.mul_add, ← Int.mul_assoc x 10, Int.mul_comm x 10, Int.mul_assoc]
              rw [val, val, h7, this, hm, hd]
              omega
          · exact .inl trivial
        · exact .inl trivial
      · exact .inl trivial

theorem mulOuter_room (ys : List Int) (hy : ∀ y ∈ ys, 0 ≤ y) : ∀ (xs rs : List Int), Valid rs → (∀ x ∈ xs, 0 ≤ x) →
    xs.length ≤ rs.length →
    mulOuter xs ys rs = .error .ub ∨ ∃ r, mulOuter xs ys rs = .ok r ∧ Valid r ∧ r.length = rs.length ∧
      val r = val rs + val xs * val ys
  | [], rs, hr, _, _ => .inr ⟨rs, rfl, hr, rfl, by simp [val]⟩
  | x :: xs, rs, hr, hx, hl => by
    unfold mulOuter
    rcases mulInner_room x (hx x (by simp)) rs ys 0 hr hy (by omega) with h1 | ⟨q, h1, h2, h3, h4⟩ <;>
      simp only [h1, bind, Except.bind]
    · exact .inl trivial
    · cases q with
      | nil => simp at h3; simp [← h3] at hl
      | cons d q =>
        rw [valid_cons] at h2
        rcases mulOuter_room ys hy xs q h2.2 (fun x h => hx x (by simp [h])) (by simp at hl h3; omega) with
          h5 | ⟨r, h5, h6, h7, h8⟩ <;> simp only [List.tail_cons, h5]
        · exact .inl trivial
        · refine .inr ⟨_, rfl, valid_cons.mpr ⟨h2.1, h6⟩, by simp at h3 ⊢; omega, ?_⟩
          show d + 10 * val r = _
          rw [h8, show val (x :: xs) = x + 10 * val xs from rfl, Int.add_mul, Int.mul_assoc]
          rw [show val (d :: q) = d + 10 * val q from rfl] at h4
          omega

/-- A product that needs more digits than both factors have is undefined. -/
theorem multiply_overflow (a b : BigInt) (ha : ∀ d ∈ a.digits, 0 ≤ d) (hb : ∀ d ∈ b.digits, 0 ≤ d)
    (h : 10 ^ (a.digits.length + b.digits.length) ≤ val a.digits * val b.digits) : multiply a b = .error .ub := by
  unfold multiply
  rcases mulOuter_room b.digits hb a.digits (List.replicate (a.digits.length + b.digits.length) 0)
      (by intro d hd; rw [List.mem_replicate] at hd; omega) ha (by simp) with h1 | ⟨r, h1, h2, h3, h4⟩
  · rw [h1]; rfl
  · have := val_lt r h2
    rw [h3, h4, val_replicate_zero, List.length_replicate] at this
    omega

theorem val_tens : ∀ k, 9 * val (List.replicate k 10) = 10 * (10 ^ k - 1)
  | 0 => rfl
  | k + 1 => by
    have := val_tens k
    rw [List.replicate_succ, val, Int.pow_succ]; omega

theorem tens_square (k : Nat) (hk : 0 < k) :
    (10 : Int) ^ (k + k) ≤ val (List.replicate k 10) * val (List.replicate k 10) := by
  have h := val_tens k
  have hp : (10 : Int) ≤ 10 ^ k := by
    obtain ⟨j, rfl⟩ : ∃ j, k = j + 1 := ⟨k - 1, by omega⟩
    rw [Int.pow_succ]
    have : (0 : Int) < 10 ^ j := Int.pow_pos (by decide)
    omega
  have hle : (10 : Int) ^ k ≤ val (List.replicate k 10) := by omega
  rw [Int.pow_add]
  exact Int.mul_le_mul hle hle (by omega) (by omega)

/-! ### The functions of one number -/

theorem pow_sign (b : Int) (e : Nat) : (b ^ e < 0) ↔ (b < 0 ∧ e % 2 = 1) := by
  induction e using Nat.strongRecOn with
  | ind e ih =>
    match e, ih with
    | 0, _ => simp
    | 1, _ => simp [Int.pow_succ]
    | e + 2, ih =>
      have h := ih e (by omega)
      rw [Int.pow_succ, Int.pow_succ, Int.mul_assoc]
      by_cases hb : b = 0
      · subst hb; simp
      · have : 0 < b * b := by
          rcases Int.lt_or_gt_of_ne hb with h | h
          · exact Int.mul_pos_of_neg_of_neg h h
          · exact Int.mul_pos h h
        rw [show (e + 2) % 2 = e % 2 by omega, ← h]
        constructor
        · intro hh
          rcases (show b ^ e < 0 ∨ 0 ≤ b ^ e by omega) with h1 | h1
          · exact h1
          · have := Int.mul_nonneg h1 (Int.le_of_lt this); omega
        · intro hh; exact Int.mul_neg_of_neg_of_pos hh this

theorem pow_ok (fuel : Nat) (a : Signed) (e : Int) (he : 0 ≤ e) (hf : e.toNat < fuel) :
    pow fuel (rep a) e = .ok (rep (Signed.un (.pow e) a)) := by
  obtain ⟨m, s⟩ := a
  obtain ⟨e, rfl⟩ := Int.eq_ofNat_of_zero_le he
  simp only [Int.toNat_natCast] at hf
  unfold BigInt.pow
  rw [if_neg (by omega), parse_one]
  simp only [bind, Except.bind, Signed.un, Int.toNat_natCast]
  by_cases hz : m = 0 ∧ s = true
  · obtain ⟨rfl, rfl⟩ := hz
    obtain ⟨f, rfl⟩ : ∃ f, fuel = f + 1 := ⟨fuel - 1, by omega⟩
    unfold powLoop
    by_cases h0 : e = 0
    · subst h0; rfl
    · rw [if_pos (by omega)]
      have e1 : multiply (big 1) (rep ⟨0, true⟩) = .ok (big 0) := multiply_nil _ _ _
      have e2 : multiply (rep ⟨0, true⟩) (rep ⟨0, true⟩) = .ok (big 0) := multiply_nil _ _ _
      have hd : ((e : Int).tdiv 2) = ((e / 2 : Nat) : Int) := by
        rw [Int.tdiv_eq_ediv_of_nonneg (by omega)]; rfl
      have hm2 : (e : Int).tmod 2 = ((e % 2 : Nat) : Int) := by
        rw [Int.tmod_eq_emod_of_nonneg (by omega)]; rfl
      rw [e1, e2, hd, hm2]
      simp only [bind, Except.bind]
      have hr : rep ⟨0 ^ e, true && decide (e % 2 = 1 ∧ (0 : Nat) ≠ 0)⟩ = big 0 := by
        rw [Nat.zero_pow (by omega)]; simp; rfl
      rw [hr]
      rcases Nat.mod_two_eq_zero_or_one e with h | h
      · rw [if_neg (by omega)]
        rw [powLoop_spec _ _ _ _ (by omega)]
        have : e / 2 ≠ 0 := by omega
        simp [Int.zero_pow this]
      · rw [if_pos (by omega)]
        rw [powLoop_spec _ _ _ _ (by omega)]
        simp
  · have hb : rep ⟨m, s⟩ = big (Signed.int ⟨m, s⟩) := by
      cases s with
      | false => simp [rep, big, mk', Signed.int]
      | true =>
        have : m ≠ 0 := by simpa using hz
        simp only [rep, big, mk', Signed.int, if_pos, Int.natAbs_neg, Int.natAbs_natCast]
        rw [decide_eq_true (by omega)]
    rw [hb, powLoop_spec _ _ _ _ hf]
    simp only [rep, big, mk', Int.one_mul, Int.natAbs_pow]
    congr 3
    · cases s <;> simp [Signed.int]
    · rw [Bool.eq_iff_iff]
      simp only [decide_eq_true_eq, pow_sign, Bool.and_eq_true]
      cases s with
      | false => simp [Signed.int]; omega
      | true =>
        have : m ≠ 0 := by simpa using hz
        simp [Signed.int, this]; omega

theorem sqrt_ok (fuel : Nat) (m : Nat) (hf : m < fuel) :
    sqrt fuel (rep ⟨m, false⟩) = .ok (rep ⟨Signed.isqrt m, false⟩) := by
  unfold BigInt.sqrt
  have e1 : parse c!"1" = .ok (mk' 1 false) := parse_one
  simp only [rep, mk'_neg, Bool.false_eq_true, if_false, parse_zero, e1, bind, Except.bind, equal_mk]
  by_cases h : m = 0 ∨ m = 1
  · rcases h with rfl | rfl
    · rfl
    · rfl
  · rw [if_neg (by simpa using h)]
    obtain ⟨r, h1, h2, h3⟩ := sqrtLoop_spec m fuel 1 m (by omega) (by omega) (by omega)
      (by have : (m + 1) * (m + 1) = m * m + 2 * m + 1 := by grind
          omega) (by omega)
    have := isqrt_spec m
    rw [h1, root_unique h2 h3 this.1 this.2]

theorem un_ok (op : Un) (a : Signed) (h : Signed.unThrows op a = false) :
    ∃ N, ∀ fuel, N ≤ fuel → op.eval fuel (rep a) = .ok (rep (Signed.un op a)) := by
  obtain ⟨m, s⟩ := a
  cases op with
  | abs => exact ⟨0, fun _ _ => rfl⟩
  | sqr =>
    refine ⟨0, fun _ _ => ?_⟩
    simp only [Un.eval, sqr, rep, multiply_mk, Signed.un]
    simp
  | sqrt =>
    simp only [Signed.unThrows] at h
    subst h
    exact ⟨m + 1, fun fuel hf => sqrt_ok fuel m (by omega)⟩
  | pow e =>
    simp [Signed.unThrows] at h
    exact ⟨e.toNat + 1, fun fuel hf => pow_ok fuel _ e h (by omega)⟩

theorem un_throws (op : Un) (a : Signed) (h : Signed.unThrows op a = true) (fuel : Nat) :
    op.eval fuel (rep a) = .error .invalidArgument := by
  cases op with
  | sqrt => simp only [Signed.unThrows] at h; simp [Un.eval, sqrt, rep, mk'_neg, h]
  | pow e => simp [Signed.unThrows] at h; simp [Un.eval, pow, h]
  | _ => simp [Signed.unThrows] at h

/-! ### Comparison, text, size -/

theorem lt_rep (a b : Signed) : lessThan (rep a) (rep b) = decide (a.less b) := by
  obtain ⟨m, s⟩ := a; obtain ⟨n, t⟩ := b
  simp only [rep, lessThan_mk, Signed.less]
  cases s <;> cases t <;> simp

theorem eq_rep (a b : Signed) : equal (rep a) (rep b) = decide (a = b) := by
  obtain ⟨m, s⟩ := a; obtain ⟨n, t⟩ := b
  simp only [rep, equal_mk, Signed.mk.injEq]
  rw [Bool.eq_iff_iff]; simp

theorem less_total (a b : Signed) : a.less b ∨ a = b ∨ b.less a := by
  obtain ⟨m, s⟩ := a; obtain ⟨n, t⟩ := b
  simp only [Signed.less, Signed.mk.injEq]
  cases s <;> cases t <;> simp <;> omega

theorem less_irrefl (a : Signed) : ¬ a.less a := by
  obtain ⟨m, s⟩ := a; simp only [Signed.less]; cases s <;> simp

theorem less_trans {a b c : Signed} (h1 : a.less b) (h2 : b.less c) : a.less c := by
  obtain ⟨m, s⟩ := a; obtain ⟨n, t⟩ := b; obtain ⟨k, u⟩ := c
  simp only [Signed.less] at *
  cases s <;> cases t <;> cases u <;> simp_all <;> omega

theorem gt_iff (a b : Signed) : (!decide (a.less b) && !decide (a = b)) = decide (b.less a) := by
  rcases less_total a b with h | h | h
  · have : ¬ b.less a := fun h' => less_irrefl _ (less_trans h h')
    simp [h, this]
  · subst h; simp [less_irrefl]
  · have h1 : ¬ a.less b := fun h' => less_irrefl _ (less_trans h h')
    have h2 : a ≠ b := fun e => by subst e; exact less_irrefl _ h
    simp [h, h1, h2]

theorem cmp_ok (op : Cmp) (a b : Signed) : op.eval (rep a) (rep b) = Signed.cmp op a b := by
  have hab := gt_iff a b
  have hba := gt_iff b a
  have hs : decide (b = a) = decide (a = b) := by rw [Bool.eq_iff_iff]; simp [eq_comm]
  rw [hs] at hba
  cases op <;> simp only [Cmp.eval, Signed.cmp, opLt, opGt, opLe, opGe, opEq, opNe, greaterThan, lt_rep, eq_rep]
  · exact hab
  · rw [← hab]; simp
  · rw [hab, ← hba]
    cases h : decide (b.less a) <;> cases h' : decide (a = b) <;> simp_all
  · simp

theorem size_ok (a : Signed) : (rep a).size = Signed.digits a.mag := by
  simp only [size, rep, mk', Signed.digits, digs]
  split <;> simp

theorem text_ok (a : Signed) : BigInt.toString (rep a) = decimal a.int := by
  obtain ⟨m, s⟩ := a
  cases s with
  | false =>
    rw [← toString_big]
    simp only [rep, big, mk', Signed.int, Bool.false_eq_true, if_false, Int.natAbs_natCast]
    rw [decide_eq_false (by omega)]
  | true =>
    by_cases h : m = 0
    · subst h; decide +kernel
    · rw [← toString_big]
      simp only [rep, big, mk', Signed.int, if_pos, Int.natAbs_neg, Int.natAbs_natCast]
      rw [decide_eq_true (by omega)]

end Caitlyn.BigIntProg
