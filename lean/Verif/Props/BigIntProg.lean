import Verif.Proofs.BigIntProg

/-!
# C145: programs with `BigInteger`
-/

namespace Caitlyn
open BigIntProg Spec BigInt

theorem bigprog_store (v : Vars) (x : Nat) (b : BigInt) : store v x (.ok b) = .ok (.done, v.set x b) := rfl

theorem bigprog_throw (v : Vars) (x : Nat) : store v x (.error .invalidArgument) = .ok (.threw, v) := rfl

theorem bigprog_ub (v : Vars) (x : Nat) : store v x (.error .ub) = .error .ub := rfl

theorem bigprog_step (w : SignedVars) (s : Stmt) (o : Out) (w' : SignedVars) (h : w.step s = some (o, w')) :
    ∃ N, ∀ fuel, N ≤ fuel → step fuel (reps w) s = .ok (o, reps w') := by
  cases s with
  | numeral x z =>
    simp only [SignedVars.step, Option.some.injEq, Prod.mk.injEq] at h
    refine ⟨0, fun fuel _ => ?_⟩
    simp only [step, parse_decimal, bigprog_store, ← h.1, ← h.2]
    rw [← reps_set]; rfl
  | bin op x y z =>
    refine ⟨0, fun fuel _ => ?_⟩
    simp only [SignedVars.step] at h
    split at h
    · rename_i ht
      simp only [Option.some.injEq, Prod.mk.injEq] at h
      simp only [step, reps, bin_throws op _ _ ht, bigprog_throw, ← h.1, ← h.2]
    · rename_i ht
      cases hr : Signed.bin op (w y) (w z) with
      | none => rw [hr] at h; cases h
      | some r =>
        rw [hr] at h
        simp only [Option.map_some, Option.some.injEq, Prod.mk.injEq] at h
        have := bin_ok op _ _ r (by simpa using ht) hr
        simp only [step, show reps w y = rep (w y) from rfl, show reps w z = rep (w z) from rfl, this,
          bigprog_store, ← h.1, ← h.2, reps_set]
  | un op x y =>
    simp only [SignedVars.step, Option.some.injEq] at h
    split at h
    · rename_i ht
      simp only [Prod.mk.injEq] at h
      refine ⟨0, fun fuel _ => ?_⟩
      simp only [step, reps, un_throws op _ ht, bigprog_throw, ← h.1, ← h.2]
    · rename_i ht
      simp only [Prod.mk.injEq] at h
      obtain ⟨N, hN⟩ := un_ok op (w y) (by simpa using ht)
      refine ⟨N, fun fuel hf => ?_⟩
      simp only [step, show reps w y = rep (w y) from rfl, hN fuel hf, bigprog_store, ← h.1, ← h.2, reps_set]
  | copy x y =>
    simp only [SignedVars.step, Option.some.injEq, Prod.mk.injEq] at h
    refine ⟨0, fun fuel _ => ?_⟩
    simp only [step, ← h.1, ← h.2]
    split
    · rename_i e
      subst e
      congr 2; funext k; simp only [reps, SignedVars.set]; split
      · rename_i e; rw [e]
      · rfl
    · rw [show BigInt.copy (reps w y) = rep (w y) from rfl, reps_set]
  | move x y =>
    simp only [SignedVars.step, Option.some.injEq, Prod.mk.injEq] at h
    refine ⟨0, fun fuel _ => ?_⟩
    simp only [step, ← h.1, ← h.2]
    split
    · rfl
    · rw [show (BigInt.move (reps w y)).1 = rep (w y) from rfl,
        show (BigInt.move (reps w y)).2 = rep ⟨0, false⟩ from rfl, reps_set, reps_set]
  | print x =>
    simp only [SignedVars.step, Option.some.injEq, Prod.mk.injEq] at h
    exact ⟨0, fun fuel _ => by simp only [step, ← h.1, ← h.2, reps, text_ok]⟩
  | compare op x y =>
    simp only [SignedVars.step, Option.some.injEq, Prod.mk.injEq] at h
    exact ⟨0, fun fuel _ => by simp only [step, ← h.1, ← h.2, reps, cmp_ok]⟩
  | size x =>
    simp only [SignedVars.step, Option.some.injEq, Prod.mk.injEq] at h
    exact ⟨0, fun fuel _ => by simp only [step, ← h.1, ← h.2, reps, size_ok]⟩

theorem bigprog_run (p : List Stmt) : ∀ (w : SignedVars) (os : List Out) (w' : SignedVars),
    w.run p = some (os, w') → ∃ N, ∀ fuel, N ≤ fuel → run fuel (reps w) p = .ok (os, reps w') := by
  induction p with
  | nil =>
    intro w os w' h
    simp only [SignedVars.run, Option.some.injEq, Prod.mk.injEq] at h
    exact ⟨0, fun fuel _ => by simp only [run, ← h.1, ← h.2]⟩
  | cons s p ih =>
    intro w os w' h
    simp only [SignedVars.run] at h
    cases hs : w.step s with
    | none => rw [hs] at h; cases h
    | some r =>
      obtain ⟨o, w1⟩ := r
      rw [hs] at h
      simp only [Option.bind_some] at h
      cases hr : SignedVars.run w1 p with
      | none => rw [hr] at h; cases h
      | some q =>
        rw [hr] at h
        simp only [Option.map_some, Option.some.injEq, Prod.mk.injEq] at h
        obtain ⟨N, hN⟩ := bigprog_step w s o w1 hs
        obtain ⟨M, hM⟩ := ih w1 q.1 q.2 hr
        refine ⟨max N M, fun fuel hf => ?_⟩
        simp only [run, hN fuel (by omega), hM fuel (by omega), bind, Except.bind, pure, Except.pure, ← h.1, ← h.2]

/-- C145, what every program gives that does not divide a number other than zero by a zero with the sign flag: what the
operations on magnitude and flag give, with no other exception than those of the specification, no undefined behaviour
and an end of all loops. The intended meaning differs (`C145_fails`). -/
theorem C145_exact_fails (p : List Stmt) (os : List Out) (w : SignedVars)
    (h : SignedVars.run (fun _ => ⟨0, false⟩) p = some (os, w)) :
    ∃ N, ∀ fuel, N ≤ fuel → ∃ v, run fuel (fun _ => BigInt.default) p = .ok (os, v) ∧
      ∀ x, BigInt.toString (v x) = decimal (w x).int ∧ (v x).neg = (w x).neg := by
  obtain ⟨N, hN⟩ := bigprog_run p _ _ _ h
  exact ⟨N, fun fuel hf => ⟨reps w, hN fuel hf, fun x => ⟨text_ok _, rfl⟩⟩⟩

/-! ### Programs that are right -/

/-- The numbers with the flags that belong to them. -/
def signedOf (v : IntVars) : SignedVars := fun x => .ofInt (v x)

theorem signedOf_set (v : IntVars) (x : Nat) (z : Int) : (signedOf v).set x (.ofInt z) = signedOf (v.set x z) := by
  funext y; simp only [SignedVars.set, signedOf, IntVars.set]; split <;> rfl

theorem signed_ext {a b : Signed} (h1 : a.mag = b.mag) (h2 : a.neg = b.neg) : a = b := by
  cases a; cases b; simp_all

theorem int_ofInt (z : Int) : (Signed.ofInt z).int = z := by
  simp only [Signed.int, Signed.ofInt, decide_eq_true_eq]; split <;> omega

theorem ofInt_zero (z : Int) : Signed.ofInt z = ⟨0, false⟩ ↔ z = 0 := by
  simp only [Signed.ofInt, Signed.mk.injEq, decide_eq_false_iff_not]; omega

theorem ofInt_inj (a b : Int) : Signed.ofInt a = Signed.ofInt b ↔ a = b := by
  simp only [Signed.ofInt, Signed.mk.injEq, decide_eq_decide]; omega

theorem mul_sign (a b : Int) : (a * b < 0) ↔ (a < 0 ∧ 0 < b ∨ 0 < a ∧ b < 0) := by
  constructor
  · intro h
    rcases (show a < 0 ∨ a = 0 ∨ 0 < a by omega) with ha | ha | ha <;>
      rcases (show b < 0 ∨ b = 0 ∨ 0 < b by omega) with hb | hb | hb
    all_goals first
      | (subst ha; simp at h; done)
      | (subst hb; simp at h; done)
      | omega
      | (have := Int.mul_pos_of_neg_of_neg ha hb; omega)
      | (have := Int.mul_pos ha hb; omega)
  · rintro (⟨ha, hb⟩ | ⟨ha, hb⟩)
    · exact Int.mul_neg_of_neg_of_pos ha hb
    · exact Int.mul_neg_of_pos_of_neg ha hb

theorem eq_ofInt (m : Nat) (s : Bool) (z : Int) :
    (⟨m, s⟩ : Signed) = .ofInt z ↔ m = z.natAbs ∧ (s = true ↔ z < 0) := by
  simp only [Signed.ofInt, Signed.mk.injEq]
  refine and_congr_right fun _ => ?_
  rw [Bool.eq_iff_iff, decide_eq_true_iff]

theorem ofInt_mag (z : Int) : (Signed.ofInt z).mag = z.natAbs := rfl

theorem ofInt_neg (z : Int) : (Signed.ofInt z).neg = true ↔ z < 0 := by simp [Signed.ofInt]

theorem ofInt_neg_eq (y z : Int) : (Signed.ofInt y).neg = (Signed.ofInt z).neg ↔ (y < 0 ↔ z < 0) := by
  rw [Bool.eq_iff_iff, ofInt_neg, ofInt_neg]

/-- The operators on numbers that have the flags that belong to them: right unless `Wrong` says otherwise. -/
theorem bin_ofInt (op : Bin) (a b : Int) (hb : (op = .divide ∨ op = .modulo) → b ≠ 0) :
    Signed.bin op (.ofInt a) (.ofInt b) = some (.ofInt (intBin op a b)) ↔
      ¬ Wrong (fun x => if x = 0 then a else b) (.bin op 0 0 1) := by
  have h10 : ¬ (1 : Nat) = 0 := by decide
  cases op with
  | add =>
    have e : Signed.bin .add (.ofInt a) (.ofInt b) = some (if decide (a < 0) = decide (b < 0) then
        ⟨a.natAbs + b.natAbs, decide (a < 0) && decide (a.natAbs + b.natAbs ≠ 0)⟩
      else if b.natAbs < a.natAbs then ⟨a.natAbs - b.natAbs, false⟩
      else ⟨b.natAbs - a.natAbs, decide (b < 0)⟩) := rfl
    rw [e, show intBin .add a b = a + b from rfl, Option.some.injEq]
    simp only [Wrong, if_pos, if_neg h10, decide_eq_decide]
    split
    · simp only [eq_ofInt, Bool.and_eq_true, decide_eq_true_eq]; omega
    · split <;> simp only [eq_ofInt, Bool.false_eq_true, false_iff, decide_eq_true_eq] <;> omega
  | subtract =>
    have e : Signed.bin .subtract (.ofInt a) (.ofInt b) = some (if decide (a < 0) = decide (b < 0) then
        ⟨((a.natAbs : Int) - b.natAbs).natAbs, decide (a.natAbs < b.natAbs)⟩
      else ⟨((a.natAbs : Int) - b.natAbs).natAbs, decide (a < 0)⟩) := rfl
    rw [e, show intBin .subtract a b = a - b from rfl, Option.some.injEq]
    simp only [Wrong, if_pos, if_neg h10, decide_eq_decide]
    split <;> simp only [eq_ofInt, decide_eq_true_eq] <;> omega
  | multiply =>
    simp only [Signed.bin, Option.some.injEq, intBin, Wrong, not_false_eq_true, iff_true, eq_ofInt, ofInt_mag,
      Int.natAbs_mul, true_and, Bool.and_eq_true, bne_iff_ne, ne_eq, ofInt_neg_eq, decide_eq_true_eq, mul_sign,
      Nat.mul_eq_zero]
    omega
  | divide =>
    have hb := hb (.inl rfl)
    simp only [Signed.bin, intBin, Wrong, not_false_eq_true, iff_true]
    rw [if_neg (by simp only [ofInt_mag]; omega)]
    rw [Option.some.injEq, eq_ofInt]
    have hm : (a.tdiv b).natAbs = a.natAbs / b.natAbs := Int.natAbs_tdiv a b
    refine ⟨hm.symm, ?_⟩
    have h1 := divide_big a b hb
    rw [big_mk, big_mk, divide_mk _ _ _ _ (by omega), big_mk] at h1
    injection h1 with h1
    have h2 := congrArg BigInt.neg h1
    simp only [mk'_neg] at h2
    rw [← decide_eq_true_iff (p := a.tdiv b < 0), ← h2]
    show ((decide (a < 0) != decide (b < 0)) && decide (a.natAbs / b.natAbs ≠ 0)) = true ↔ _
    by_cases hz : a.natAbs / b.natAbs = 0
    · simp only [hz]; simp
    · rw [if_neg hz, decide_eq_true hz, Bool.and_true]
  | modulo =>
    have hb := hb (.inr rfl)
    simp only [Signed.bin, intBin, Wrong, if_pos, if_neg h10, Option.some.injEq, eq_ofInt]
    have hm : (a.tmod b).natAbs = a.natAbs % b.natAbs := Int.natAbs_tmod a b
    have hs : a < 0 → a.tmod b ≤ 0 := fun h => by
      have := Int.tmod_nonneg b (show 0 ≤ -a by omega)
      rw [Int.neg_tmod] at this; omega
    have hp : 0 ≤ a → 0 ≤ a.tmod b := fun h => Int.tmod_nonneg b h
    simp only [ofInt_mag, ofInt_neg, hm, true_and]
    omega

/-- The operands alone decide whether an operator goes wrong. -/
theorem wrong_bin (v : IntVars) (op : Bin) (x y z : Nat) :
    Wrong (fun k => if k = 0 then v y else v z) (.bin op 0 0 1) ↔ Wrong v (.bin op x y z) := by
  cases op <;> simp [Wrong]

theorem cmp_ofInt (op : Cmp) (a b : Int) : Signed.cmp op (.ofInt a) (.ofInt b) = intCmp op a b ↔
    ¬ ((op ≠ .eq ∧ op ≠ .ne) ∧ a < 0 ∧ b < 0 ∧ a ≠ b) := by
  cases op <;> simp only [Signed.cmp, intCmp, ne_eq, reduceCtorEq, not_false_eq_true, not_true_eq_false, true_and,
    false_and, and_true, and_false, ofInt_inj]
  all_goals
    simp only [← decide_not, decide_eq_decide, Signed.less, Signed.ofInt, decide_eq_true_eq, decide_eq_false_iff_not]
    omega

theorem un_ofInt (op : Un) (a : Int) (h : Signed.unThrows op (.ofInt a) = false) :
    Signed.un op (.ofInt a) = .ofInt (intUn op a) := by
  cases op with
  | abs =>
    show (⟨a.natAbs, false⟩ : Signed) = .ofInt (a.natAbs : Int)
    rw [eq_ofInt]; simp only [Bool.false_eq_true, false_iff]; omega
  | sqr =>
    show (⟨a.natAbs * a.natAbs, false⟩ : Signed) = .ofInt (a * a)
    rw [eq_ofInt, mul_sign, Int.natAbs_mul]; simp only [Bool.false_eq_true, false_iff, true_and]; omega
  | sqrt =>
    have h : ¬ a < 0 := by rw [← ofInt_neg]; simpa [Signed.unThrows] using h
    show (⟨Signed.isqrt a.natAbs, false⟩ : Signed) = .ofInt (Signed.isqrt a.toNat : Int)
    rw [eq_ofInt, show a.natAbs = a.toNat by omega]; simp only [Bool.false_eq_true, false_iff]; omega
  | pow e =>
    show (⟨a.natAbs ^ e.toNat, decide (a < 0) && decide (e.toNat % 2 = 1 ∧ a.natAbs ≠ 0)⟩ : Signed) =
      .ofInt (a ^ e.toNat)
    rw [eq_ofInt, pow_sign, Int.natAbs_pow]; simp only [Bool.and_eq_true, decide_eq_true_eq, true_and]; omega

theorem bigprog_right (v : IntVars) (s : Stmt) (h : ¬ Wrong v s) :
    (signedOf v).step s = some ((v.step s).1, signedOf (v.step s).2) := by
  cases s with
  | numeral x z => simp only [SignedVars.step, IntVars.step, signedOf_set]
  | bin op x y z =>
    simp only [SignedVars.step, IntVars.step]
    have ht : Signed.binThrows op (signedOf v z) = decide ((op = .divide ∨ op = .modulo) ∧ v z = 0) := by
      cases op <;> simp [Signed.binThrows, signedOf, ofInt_zero]
    rw [ht]
    by_cases hz : (op = .divide ∨ op = .modulo) ∧ v z = 0
    · rw [if_pos (by simpa using hz), if_pos hz]
    · rw [if_neg (by simpa using hz), if_neg hz]
      have := (bin_ofInt op (v y) (v z) (fun h e => hz ⟨h, e⟩)).mpr (by rwa [wrong_bin v op x y z])
      simp only [signedOf] at *
      rw [this]
      simp only [Option.map_some]
      exact congrArg (fun q => some (Out.done, q)) (signedOf_set v x _)
  | un op x y =>
    simp only [SignedVars.step]
    by_cases ht : Signed.unThrows op (signedOf v y) = true
    · rw [if_pos ht]
      cases op <;> simp only [Signed.unThrows, signedOf, Signed.ofInt, decide_eq_true_eq, Bool.false_eq_true] at ht
      · simp only [IntVars.step, if_pos ht]
      · simp only [IntVars.step, if_pos ht]
    · rw [if_neg ht]
      have hu := un_ofInt op (v y) (Bool.eq_false_iff.mpr ht)
      rw [show signedOf v y = Signed.ofInt (v y) from rfl, hu, signedOf_set]
      cases op <;> simp only [Signed.unThrows, signedOf, Signed.ofInt, decide_eq_true_eq, Bool.false_eq_true] at ht
      · simp only [IntVars.step]
      · simp only [IntVars.step]
      · simp only [IntVars.step, if_neg ht]
      · simp only [IntVars.step, if_neg ht]
  | copy x y =>
    simp only [SignedVars.step, IntVars.step]
    rw [show signedOf v y = Signed.ofInt (v y) from rfl, signedOf_set]
  | move x y =>
    simp only [SignedVars.step, IntVars.step]
    split
    · rfl
    · rw [show signedOf v y = Signed.ofInt (v y) from rfl, signedOf_set,
        show (⟨0, false⟩ : Signed) = .ofInt 0 from rfl, signedOf_set]
  | print x => simp only [SignedVars.step, IntVars.step, signedOf, int_ofInt]
  | compare op x y =>
    simp only [Wrong] at h
    simp only [SignedVars.step, IntVars.step, signedOf, (cmp_ofInt op _ _).mpr h]
  | size x => simp only [SignedVars.step, IntVars.step, signedOf, Signed.ofInt]

theorem bigprog_right_run (p : List Stmt) : ∀ v : IntVars, NoneWrong v p →
    (signedOf v).run p = some ((v.run p).1, signedOf (v.run p).2) := by
  induction p with
  | nil => intro v _; rfl
  | cons s p ih =>
    intro v h
    simp only [NoneWrong] at h
    simp only [SignedVars.run, bigprog_right v s h.1, Option.bind_some, ih _ h.2, Option.map_some, IntVars.run]

/-- C145. Partial: a program in which no statement of `Wrong` is executed gives what the same program with integers gives,
and ends with the canonical numbers of the same integers. Missing: the programs in which there is one (`C145_sharp_fails`,
`C145_exact_fails`). -/
theorem C145_right_partial (p : List Stmt) (h : NoneWrong (fun _ => 0) p) :
    ∃ N, ∀ fuel, N ≤ fuel → run fuel (fun _ => BigInt.default) p =
      .ok ((IntVars.run (fun _ => 0) p).1, fun x => big ((IntVars.run (fun _ => 0) p).2 x)) := by
  obtain ⟨N, hN⟩ := bigprog_run p _ _ _ (bigprog_right_run p _ h)
  exact ⟨N, hN⟩

theorem neverNegative_right (p : List Stmt) : ∀ v, NeverNegative v p → NoneWrong v p := by
  induction p with
  | nil => intro _ _; trivial
  | cons s p ih =>
    intro v h
    simp only [NeverNegative] at h
    refine ⟨?_, ih _ h.2⟩
    cases s with
    | bin op x y z =>
      have h1 := h.1 y
      have h2 := h.1 z
      cases op <;> simp only [Wrong, not_false_eq_true] <;> omega
    | compare op x y =>
      have h1 := h.1 x
      simp only [Wrong]; omega
    | _ => simp [Wrong]

/-- C145. Partial: a program in which no variable gets below zero gives what it gives with integers. Missing: negative
numbers. -/
theorem C145_natural_partial (p : List Stmt) (h : NeverNegative (fun _ => 0) p) :
    ∃ N, ∀ fuel, N ≤ fuel → run fuel (fun _ => BigInt.default) p =
      .ok ((IntVars.run (fun _ => 0) p).1, fun x => big ((IntVars.run (fun _ => 0) p).2 x)) :=
  C145_right_partial p (neverNegative_right p _ h)

/-- C145, the statements of `Wrong` do go wrong: executed with the canonical numbers of the integers, each of them gives
another output than intended or leaves a variable that is not the canonical number of the intended integer, and so
compares unequal to it. -/
theorem C145_sharp_fails (v : IntVars) (s : Stmt) (h : Wrong v s) :
    ∃ N, ∀ fuel, N ≤ fuel → ∃ o v', step fuel (fun x => big (v x)) s = .ok (o, v') ∧
      (o ≠ (v.step s).1 ∨ ∃ x, BigInt.opEq (v' x) (big ((v.step s).2 x)) = false) := by
  have hsome : ∃ r, (signedOf v).step s = some r := by
    cases s with
    | bin op x y z =>
      cases op <;> simp only [Wrong] at h <;> try exact ⟨_, rfl⟩
      refine ⟨_, if_neg ?_⟩
      simp only [Signed.binThrows, signedOf, ofInt_zero, decide_eq_true_eq]; omega
    | compare op x y => exact ⟨_, rfl⟩
    | _ => exact h.elim
  obtain ⟨⟨o, w⟩, hr⟩ := hsome
  obtain ⟨N, hN⟩ := bigprog_step _ _ _ _ hr
  refine ⟨N, fun fuel hf => ⟨o, reps w, hN fuel hf, ?_⟩⟩
  have neq : ∀ (a : Signed) (z : Int), a ≠ .ofInt z → BigInt.opEq (rep a) (big z) = false := by
    intro a z hne
    show BigInt.equal (rep a) (rep (.ofInt z)) = false
    rw [eq_rep, decide_eq_false hne]
  cases s with
  | bin op x y z =>
    have hz : ¬ ((op = .divide ∨ op = .modulo) ∧ v z = 0) := by
      cases op <;> simp [Wrong] at h ⊢; exact h.2.1
    have hb := (not_congr (bin_ofInt op (v y) (v z) (fun h e => hz ⟨h, e⟩))).mpr
      (by rw [wrong_bin v op x y z]; exact fun hn => hn h)
    have ht : Signed.binThrows op (signedOf v z) = false := by
      cases op <;> simp [Wrong] at h <;> simp [Signed.binThrows, signedOf, ofInt_zero]
      exact h.2.1
    right
    refine ⟨x, ?_⟩
    simp only [SignedVars.step, ht, Bool.false_eq_true, if_false] at hr
    cases hq : Signed.bin op (signedOf v y) (signedOf v z) with
    | none => rw [hq] at hr; cases hr
    | some q =>
      rw [hq] at hr
      simp only [Option.map_some, Option.some.injEq, Prod.mk.injEq] at hr
      simp only [IntVars.step, if_neg hz, ← hr.2]
      have e1 : reps ((signedOf v).set x q) x = rep q := by simp [reps, SignedVars.set]
      have e2 : (v.set x (intBin op (v y) (v z))) x = intBin op (v y) (v z) := by simp [IntVars.set]
      rw [e1, e2]
      refine neq _ _ fun e => hb ?_
      rw [← e]; exact hq
  | compare op x y =>
    left
    simp only [Wrong] at h
    simp only [SignedVars.step, Option.some.injEq, Prod.mk.injEq] at hr
    simp only [IntVars.step, ← hr.1, ne_eq, Out.flag.injEq]
    intro e
    exact (cmp_ofInt op _ _).mp e h
  | _ => exact h.elim

/-- C145 is false as stated: `x = 5; y = -5; x = x + y; z = 0;` and then `x == z` is false, `x < z` is true, both print as
0, and `Sqrt` of `x` throws. -/
theorem C145_fails :
    let p : List Stmt := [.numeral 0 5, .numeral 1 (-5), .bin .add 0 0 1, .compare .eq 0 2, .compare .lt 0 2,
      .print 0, .print 2, .un .sqrt 3 0]
    ∃ N, ∀ fuel, N ≤ fuel → ∃ v, run fuel (fun _ => BigInt.default) p =
        .ok ([.done, .done, .done, .flag false, .flag true, .text c!"0", .text c!"0", .threw], v) ∧
      (IntVars.run (fun _ => 0) p).1 =
        [.done, .done, .done, .flag true, .flag false, .text c!"0", .text c!"0", .done] := by
  have h : ∃ w, SignedVars.run (fun _ => ⟨0, false⟩) [.numeral 0 5, .numeral 1 (-5), .bin .add 0 0 1,
      .compare .eq 0 2, .compare .lt 0 2, .print 0, .print 2, .un .sqrt 3 0] =
        some ([.done, .done, .done, .flag false, .flag true, .text c!"0", .text c!"0", .threw], w) := ⟨_, by rfl⟩
  obtain ⟨w, hw⟩ := h
  obtain ⟨N, hN⟩ := C145_exact_fails _ _ _ hw
  exact ⟨N, fun fuel hf => (hN fuel hf).imp fun v hv => ⟨hv.1, by decide +kernel⟩⟩

/-- A program that computes with negative numbers and has no statement of `Wrong`: `x = -7; y = 2; z = x / y; w = x % y;
z = z * y; z = z + w;` and then `z == x`, printed. -/
example :
    let p : List Stmt := [.numeral 0 (-7), .numeral 1 2, .bin .divide 2 0 1, .bin .modulo 3 0 1, .bin .multiply 2 2 1,
      .bin .add 2 2 3, .compare .eq 2 0, .print 2]
    NoneWrong (fun _ => 0) p ∧ (IntVars.run (fun _ => 0) p).1 =
      [.done, .done, .done, .done, .done, .done, .flag true, .text c!"-7"] := by
  refine ⟨?_, by decide +kernel⟩
  simp only [NoneWrong, Wrong]
  decide +kernel

theorem set_nonneg (v : IntVars) (h : ∀ x, 0 ≤ v x) (y : Nat) (z : Int) (hz : 0 ≤ z) : ∀ x, 0 ≤ v.set y z x := by
  intro x; simp only [IntVars.set]; split
  · exact hz
  · exact h x

/-- A program without negative numbers: the power and the root. -/
example :
    let p : List Stmt := [.numeral 0 3, .un (.pow 2) 1 0, .un .sqrt 2 1, .print 1, .print 2, .size 1]
    NeverNegative (fun _ => 0) p ∧ (IntVars.run (fun _ => 0) p).1 =
      [.done, .done, .done, .text c!"9", .text c!"3", .number 1] := by
  refine ⟨?_, by decide +kernel⟩
  have h0 : ∀ x : Nat, 0 ≤ (fun _ => 0 : IntVars) x := fun _ => Int.le_refl _
  have h1 := set_nonneg _ h0 0 3 (by decide)
  have h2 := set_nonneg _ h1 1 9 (by decide)
  have h3 := set_nonneg _ h2 2 3 (by decide)
  exact ⟨h0, h1, h2, h3, h3, h3, h3⟩

/-! ### The order -/

/-- C145. Partial: although the operators do not compare the values of negative numbers, `<` is a strict total order on
all computed numbers, equality of which is `==`; so numbers can be sorted and used as keys. Missing: that it is the
order of the values (`C45_fails`). -/
theorem C145_order_partial (a b c : BigInt) (ha : Computed a) (hb : Computed b) (hc : Computed c) :
    BigInt.opLt a a = false ∧
      (BigInt.opLt a b = true → BigInt.opLt b c = true → BigInt.opLt a c = true) ∧
      (BigInt.opLt a b = true ∨ BigInt.opEq a b = true ∨ BigInt.opLt b a = true) ∧
      (BigInt.opEq a b = true ↔ a = b) ∧
      BigInt.opGt a b = BigInt.opLt b a ∧ BigInt.opLe a b = !BigInt.opLt b a ∧ BigInt.opGe a b = !BigInt.opLt a b ∧
      BigInt.opNe a b = !BigInt.opEq a b := by
  obtain ⟨m, s, rfl⟩ := computed_mk a ha
  obtain ⟨n, t, rfl⟩ := computed_mk b hb
  obtain ⟨k, u, rfl⟩ := computed_mk c hc
  have lt : ∀ a b : Signed, BigInt.opLt (rep a) (rep b) = decide (a.less b) := cmp_ok .lt
  have eq : ∀ a b : Signed, BigInt.opEq (rep a) (rep b) = decide (a = b) := cmp_ok .eq
  have gt : ∀ a b : Signed, BigInt.opGt (rep a) (rep b) = decide (b.less a) := cmp_ok .gt
  have le : ∀ a b : Signed, BigInt.opLe (rep a) (rep b) = !decide (b.less a) := cmp_ok .le
  have ge : ∀ a b : Signed, BigInt.opGe (rep a) (rep b) = !decide (a.less b) := cmp_ok .ge
  have inj : ∀ a b : Signed, rep a = rep b → a = b := by
    intro a b h
    have := eq a b
    rw [h, eq b b] at this
    simpa using this
  have e1 : mk' m s = rep ⟨m, s⟩ := rfl
  have e2 : mk' n t = rep ⟨n, t⟩ := rfl
  have e3 : mk' k u = rep ⟨k, u⟩ := rfl
  rw [e1, e2, e3]
  refine ⟨?_, ?_, ?_, ?_, ?_, ?_, ?_, ?_⟩
  · rw [lt, decide_eq_false (less_irrefl _)]
  · rw [lt, lt, lt]; simp only [decide_eq_true_eq]; exact less_trans
  · rw [lt, eq, lt]; simp only [decide_eq_true_eq]; exact less_total _ _
  · rw [eq, decide_eq_true_eq]; exact ⟨fun h => by rw [h], inj _ _⟩
  · rw [gt, lt]
  · rw [le, lt]
  · rw [ge, lt]
  · rfl

/-- From the smallest: the zero with the flag, -1, -2, then 0, 1, 2. -/
example : BigInt.opLt negZero (big (-1)) = true ∧ BigInt.opLt (big (-1)) (big (-2)) = true ∧
    BigInt.opLt (big (-2)) (big 0) = true ∧ BigInt.opLt (big 0) (big 1) = true ∧
    BigInt.opLt (big 1) (big 2) = true ∧ Computed negZero := ⟨by decide +kernel, by decide +kernel, by decide +kernel,
      by decide +kernel, by decide +kernel, C46_fails⟩

/-! ### Division by the zero with the flag -/

/-- C145, the programs that `C145_exact_fails` leaves out: a number other than zero divided by a zero with the flag is
a number of as many digits as the dividend, each of them ten, and prints as so many colons. -/
theorem C145_colons_fails (m : Int) (hm : m ≠ 0) :
    ∃ q, BigInt.divide (big m) negZero = .ok q ∧ q.digits = List.replicate (Signed.digits m.natAbs) 10 ∧
      BigInt.toString q = (if 0 < m then c!"-" else []) ++ List.replicate (Signed.digits m.natAbs) (Chr.ofByte 0x3A) := by
  have hd : (digs m.natAbs).length = Signed.digits m.natAbs := by
    have := size_ok ⟨m.natAbs, false⟩
    exact this
  refine ⟨_, divide_negZero m.natAbs (decide (m < 0)), by rw [hd], ?_⟩
  rw [hd]
  have hpos : Signed.digits m.natAbs ≠ 0 := by
    rw [← hd, ne_eq, List.length_eq_zero_iff, digs_eq_nil]; omega
  unfold BigInt.toString
  rw [if_neg (by rw [List.isEmpty_replicate]; simpa using hpos)]
  have hn : ((!decide (m < 0)) && decide (m.natAbs ≠ 0)) = decide (0 < m) := by
    rw [Bool.eq_iff_iff]; simp; omega
  simp only [hn, decide_eq_true_eq, List.reverse_replicate, List.map_replicate]
  rfl

/-- C145: the square of such a quotient is undefined behaviour for every dividend: `Multiply` writes behind the end of the
digits of the result. Every step before it is a call of the public interface that returns. -/
theorem C145_overflow_fails (m : Int) (hm : m ≠ 0) (x : Nat) (hx : 0 < x) (fuel : Nat) :
    let p : List Stmt := [.numeral 0 x, .numeral 1 (-x), .bin .add 0 0 1, .numeral 2 m, .bin .divide 2 2 0]
    (∃ v, run fuel (fun _ => BigInt.default) p = .ok (List.replicate 5 .done, v)) ∧
      run fuel (fun _ => BigInt.default) (p ++ [.bin .multiply 3 2 2]) = .error .ub := by
  have hadd : BigInt.add (big x) (big (-x)) = .ok (mk' 0 true) := by
    rw [big_mk, big_mk, add_mk, Int.natAbs_neg, decide_eq_false (by omega), decide_eq_true (by omega),
      if_neg (by decide), if_neg (by omega), Nat.sub_self]
  have hdiv := divide_negZero m.natAbs (decide (m < 0))
  have hover : ∀ s, BigInt.multiply ⟨List.replicate (digs m.natAbs).length 10, s⟩
      ⟨List.replicate (digs m.natAbs).length 10, s⟩ = .error .ub := by
    intro s
    refine multiply_overflow _ _ ?_ ?_ ?_
    · intro d hd; rw [List.mem_replicate] at hd; omega
    · intro d hd; rw [List.mem_replicate] at hd; omega
    · simp only [List.length_replicate]
      refine tens_square _ (List.length_pos_iff.mpr ?_)
      rw [ne_eq, digs_eq_nil]; omega
  simp only [List.cons_append, List.nil_append]
  simp [run, step, Bin.eval, parse_decimal, bigprog_store, Vars.set, bind, Except.bind, pure, Except.pure, hadd,
    show big m = mk' m.natAbs (decide (m < 0)) from rfl, hdiv, hover, bigprog_ub,
    List.replicate_succ]

end Caitlyn
