import Verif.Proofs.BigFloatProg

/-!
# C146: programs with `BigFloat`
-/

namespace Caitlyn
open BigFloatProg Spec BigInt BigFloat

theorem floatprog_store (w : DecVars) (x : Nat) (g : Got) (r : Res BigFloat) (h : r = Got.res g) :
    (∀ o w', w.store x g = some (o, w') → store (repsF w) x r = .ok (o, repsF w')) ∧
    (w.store x g = none → store (repsF w) x r = .error .fuel) := by
  subst h
  cases g with
  | value d =>
    refine ⟨?_, by simp [DecVars.store]⟩
    intro o w' h
    simp only [DecVars.store, Option.some.injEq, Prod.mk.injEq] at h
    rw [← h.1, ← h.2, ← repsF_set]
    rfl
  | threw =>
    refine ⟨?_, by simp [DecVars.store]⟩
    intro o w' h
    simp only [DecVars.store, Option.some.injEq, Prod.mk.injEq] at h
    rw [← h.1, ← h.2]
    rfl
  | noMemory =>
    refine ⟨?_, by simp [DecVars.store]⟩
    intro o w' h
    simp only [DecVars.store, Option.some.injEq, Prod.mk.injEq] at h
    rw [← h.1, ← h.2]
    rfl
  | hangs =>
    refine ⟨?_, fun _ => rfl⟩
    intro o w' h
    simp [DecVars.store] at h

theorem floatprog_bin (op : Bin) (a b : Dec) (ha : a.fits) (hb : b.fits) :
    ∃ N, ∀ fuel, N ≤ fuel ∨ Dec.bin op a b = .hangs → op.eval fuel (repF a) (repF b) = Got.res (Dec.bin op a b) := by
  cases op with
  | add =>
    by_cases hz : a.frac = 0 ↔ b.frac = 0
    · refine ⟨max (Dec.digits a.frac) (Dec.digits b.frac) + 1, fun fuel hf => ?_⟩
      obtain ⟨d, h1, _⟩ := add_repF a b (max (Dec.digits a.frac) (Dec.digits b.frac) + 1) hz ha hb (by omega)
      simp only [Dec.bin, h1, reduceCtorEq, or_false] at hf ⊢
      obtain ⟨d', h1', h2⟩ := add_repF a b fuel hz ha hb (by omega)
      rw [h1] at h1'
      injection h1' with e
      subst e
      exact h2
    · refine ⟨0, fun fuel _ => ?_⟩
      have h : Dec.bin .add a b = .hangs := by
        simp only [Dec.bin, Dec.add]; rw [if_pos hz]
      rw [h]
      exact (add_hangs a b fuel hz).1
  | subtract =>
    by_cases hz : a.frac = 0 ↔ b.frac = 0
    · refine ⟨max (Dec.digits a.frac) (Dec.digits b.frac) + 1, fun fuel hf => ?_⟩
      obtain ⟨d, h1, _⟩ := subtract_repF a b (max (Dec.digits a.frac) (Dec.digits b.frac) + 1) hz ha hb (by omega)
      simp only [Dec.bin, h1, reduceCtorEq, or_false] at hf ⊢
      obtain ⟨d', h1', h2⟩ := subtract_repF a b fuel hz ha hb (by omega)
      rw [h1] at h1'
      injection h1' with e
      subst e
      exact h2
    · refine ⟨0, fun fuel _ => ?_⟩
      have h : Dec.bin .subtract a b = .hangs := by
        simp only [Dec.bin, Dec.subtract]; rw [if_pos hz]
      rw [h]
      exact (add_hangs a b fuel hz).2
  | multiply => exact ⟨0, fun fuel _ => multiply_repF a b ha hb⟩
  | divide => exact ⟨0, fun fuel _ => divide_repF a b ha hb⟩

theorem floatprog_un (w : DecVars) (op : Un) (x y : Nat) (h : w.Room (.un op x y)) :
    ∃ N, ∀ fuel, N ≤ fuel ∨ Dec.un op (w y) = .hangs → op.eval fuel (repF (w y)) = Got.res (Dec.un op (w y)) := by
  cases op with
  | abs => exact ⟨0, fun _ _ => rfl⟩
  | sqr => exact ⟨0, fun _ _ => multiply_repF _ _ h h⟩
  | sqrt =>
    obtain ⟨h1, h2, h3⟩ := sqrt_repF (w y) h
    rcases h3 with ⟨d, hd⟩ | hh
    · obtain ⟨N, hN⟩ := h1 d hd
      refine ⟨N, fun fuel hf => ?_⟩
      rw [hd] at hf ⊢
      simp only [reduceCtorEq, or_false] at hf
      exact hN fuel hf
    · refine ⟨0, fun fuel _ => ?_⟩
      rw [hh]
      exact h2 hh fuel
  | pow e =>
    simp only [DecVars.Room] at h
    by_cases he : e < 0
    · refine ⟨0, fun fuel _ => ?_⟩
      simp only [Un.eval, BigFloat.pow, Dec.un, if_pos he]
      rfl
    · obtain ⟨n, rfl⟩ := Int.eq_ofNat_of_zero_le (show 0 ≤ e by omega)
      refine ⟨n + 1, fun fuel hf => ?_⟩
      have ho : BigFloat.parse c!"1" = .ok (repF ⟨1, 0⟩) := parse_one_flo
      simp only [Un.eval, BigFloat.pow, Dec.un, if_neg he, ho, bind, Except.bind, Int.toNat_natCast] at hf ⊢
      have hf : n < fuel := by
        rcases hf with hf | hf
        · exact hf
        · rcases powGo_kinds n ⟨1, 0⟩ (w y) n with ⟨d, hd⟩ | hd <;> rw [hd] at hf <;> cases hf
      refine pow_repF n fuel _ _ n (Nat.le_refl _) hf ?_
      rw [Int.toNat_natCast] at h
      have h1 : wide ⟨1, 0⟩ = 1 := by decide
      rw [h1]
      have h2 : (2 * n + 1) * (Dec.digits (w y).int + Dec.digits (w y).frac + 3) =
          2 * (n * (wide (w y) + 2)) + 2 * n + (wide (w y) + 3) := by
        unfold wide; grind
      omega

theorem numeral_text (neg : Bool) (i zeros f : Nat) : pointText neg i zeros f =
    numeral neg (Nat.toDigits 10 i) (some (List.replicate zeros '0' ++ Nat.toDigits 10 f)) := by
  unfold pointText numeral
  have hd : ∀ n : Nat, decimal (n : Int) = txt (Nat.toDigits 10 n) := by
    intro n; rw [decimal_txt, if_neg (by omega), Int.natAbs_natCast]
  rw [hd, hd]
  have h0 : (⟨b!"0"⟩ : Chr) = asc '0' := by decide
  have hm : (⟨b!"-"⟩ : Chr) = asc '-' := by decide
  simp only [txt, List.map_append, List.map_replicate, h0, hm, List.append_assoc,
    List.cons_append, List.nil_append]

theorem floatprog_point (neg : Bool) (i zeros f : Nat) (h : Dec.digits i + zeros + Dec.digits f < 2 ^ 56) :
    BigFloat.parse (pointText neg i zeros f) = .ok (repF ⟨if neg then -i else i, f⟩) := by
  simp only [digits_width, Int.natAbs_natCast] at h
  rw [numeral_text, parse_numeral_point]
  · rw [← repF_flo]
    have hz : num (List.replicate zeros '0') = 0 := by
      unfold num; rw [Nat.ofDigitChars_replicate_zero, Nat.mul_zero]
    rw [num_append, hz, num_toDigits, num_toDigits, Nat.zero_mul, Nat.zero_add]
    rfl
  · exact Nat.toDigits_ne_nil
  · exact toDigits_digitChar i
  · intro c hc
    rcases List.mem_append.mp hc with h | h
    · exact replicate_digits zeros c h
    · exact toDigits_digitChar f c h
  · rw [List.length_append, List.length_replicate, toDigits_length, toDigits_length]
    omega

theorem floatprog_step (w : DecVars) (s : Stmt) (hr : w.Room s) :
    (∀ o w', w.step s = some (o, w') → ∃ N, ∀ fuel, N ≤ fuel → step fuel (repsF w) s = .ok (o, repsF w')) ∧
    (w.step s = none → ∀ fuel, step fuel (repsF w) s = .error .fuel) := by
  cases s with
  | whole x z =>
    refine ⟨fun o w' h => ⟨0, fun fuel _ => ?_⟩, by simp [DecVars.step]⟩
    simp only [DecVars.step, Option.some.injEq, Prod.mk.injEq] at h
    have e : BigFloat.parse (decimal z) = Got.res (.value ⟨z, 0⟩) := by
      rw [parse_nopoint _ (decimal_nopoint z) (decimal_ne_nil z), parse_decimal]; rfl
    refine (floatprog_store w x _ _ e).1 o w' ?_
    rw [← h.1, ← h.2]; rfl
  | point x neg i zeros f =>
    refine ⟨fun o w' h => ⟨0, fun fuel _ => ?_⟩, by simp [DecVars.step]⟩
    simp only [DecVars.step, Option.some.injEq, Prod.mk.injEq] at h
    refine (floatprog_store w x (.value ⟨if neg then -i else i, f⟩) _ (floatprog_point neg i zeros f hr)).1 o w' ?_
    rw [← h.1, ← h.2]; rfl
  | bin op x y z =>
    obtain ⟨N, hN⟩ := floatprog_bin op (w y) (w z) hr.1 hr.2
    refine ⟨fun o w' h => ⟨N, fun fuel hf => ?_⟩, fun h fuel => ?_⟩
    · exact (floatprog_store w x _ _ (hN fuel (.inl hf))).1 o w' h
    · have hh : Dec.bin op (w y) (w z) = .hangs := by
        simp only [DecVars.step] at h
        cases hg : Dec.bin op (w y) (w z) <;> rw [hg] at h <;> simp [DecVars.store] at h ⊢
      exact (floatprog_store w x _ _ (hN fuel (.inr hh))).2 h
  | un op x y =>
    obtain ⟨N, hN⟩ := floatprog_un w op x y hr
    refine ⟨fun o w' h => ⟨N, fun fuel hf => ?_⟩, fun h fuel => ?_⟩
    · exact (floatprog_store w x _ _ (hN fuel (.inl hf))).1 o w' h
    · have hh : Dec.un op (w y) = .hangs := by
        simp only [DecVars.step] at h
        cases hg : Dec.un op (w y) <;> rw [hg] at h <;> simp [DecVars.store] at h ⊢
      exact (floatprog_store w x _ _ (hN fuel (.inr hh))).2 h
  | copy x y =>
    refine ⟨fun o w' h => ⟨0, fun fuel _ => ?_⟩, by simp [DecVars.step]⟩
    simp only [DecVars.step, Option.some.injEq, Prod.mk.injEq] at h
    simp only [step, ← h.1, ← h.2]
    split
    · rename_i e
      subst e
      congr 2; funext k; simp only [repsF, DecVars.set]; split
      · rename_i e; rw [e]
      · rfl
    · rw [show BigFloat.copy (repsF w y) = repF (w y) from rfl, repsF_set]
  | move x y =>
    refine ⟨fun o w' h => ⟨0, fun fuel _ => ?_⟩, by simp [DecVars.step]⟩
    simp only [DecVars.step, Option.some.injEq, Prod.mk.injEq] at h
    simp only [step, ← h.1, ← h.2]
    split
    · rfl
    · rw [show (BigFloat.move (repsF w y)).1 = repF (w y) from rfl,
        show (BigFloat.move (repsF w y)).2 = repF ⟨0, 0⟩ from rfl, repsF_set, repsF_set]
  | print x =>
    refine ⟨fun o w' h => ⟨0, fun fuel _ => ?_⟩, by simp [DecVars.step]⟩
    simp only [DecVars.step, Option.some.injEq, Prod.mk.injEq] at h
    simp only [step, ← h.1, ← h.2, repsF, text_repF]
  | compare op x y =>
    refine ⟨fun o w' h => ⟨0, fun fuel _ => ?_⟩, by simp [DecVars.step]⟩
    simp only [DecVars.step, Option.some.injEq, Prod.mk.injEq] at h
    simp only [step, ← h.1, ← h.2, repsF, cmp_repF]
  | size x =>
    refine ⟨fun o w' h => ⟨0, fun fuel _ => ?_⟩, by simp [DecVars.step]⟩
    simp only [DecVars.step, Option.some.injEq, Prod.mk.injEq] at h
    simp only [step, ← h.1, ← h.2, repsF, digits_width]
    rfl

theorem floatprog_run (p : List Stmt) : ∀ w : DecVars, w.AllRoom p →
    (∀ os w', w.run p = some (os, w') → ∃ N, ∀ fuel, N ≤ fuel → run fuel (repsF w) p = .ok (os, repsF w')) ∧
    (w.run p = none → ∃ N, ∀ fuel, N ≤ fuel → run fuel (repsF w) p = .error .fuel) := by
  induction p with
  | nil =>
    intro w _
    refine ⟨fun os w' h => ⟨0, fun fuel _ => ?_⟩, by simp [DecVars.run]⟩
    simp only [DecVars.run, Option.some.injEq, Prod.mk.injEq] at h
    simp only [run, ← h.1, ← h.2]
  | cons s p ih =>
    intro w hr
    simp only [DecVars.AllRoom] at hr
    obtain ⟨h1, h2⟩ := floatprog_step w s hr.1
    simp only [DecVars.run]
    cases hs : w.step s with
    | none =>
      refine ⟨by simp, fun _ => ⟨0, fun fuel _ => ?_⟩⟩
      simp only [run, h2 hs fuel, bind, Except.bind]
    | some r =>
      obtain ⟨o, w1⟩ := r
      obtain ⟨N, hN⟩ := h1 o w1 hs
      obtain ⟨i1, i2⟩ := ih w1 (hr.2 _ hs)
      simp only [Option.bind_some]
      cases hq : DecVars.run w1 p with
      | none =>
        refine ⟨by simp, fun _ => ?_⟩
        obtain ⟨M, hM⟩ := i2 hq
        refine ⟨max N M, fun fuel hf => ?_⟩
        simp only [run, hN fuel (by omega), hM fuel (by omega), bind, Except.bind]
      | some q =>
        refine ⟨?_, by simp⟩
        intro os w' h
        simp only [Option.map_some, Option.some.injEq, Prod.mk.injEq] at h
        obtain ⟨M, hM⟩ := i1 q.1 q.2 hq
        refine ⟨max N M, fun fuel hf => ?_⟩
        simp only [run, hN fuel (by omega), hM fuel (by omega), bind, Except.bind, pure, Except.pure, ← h.1, ← h.2]

/-- C146, what every program gives: what the operations on the two integers give, if the numbers it computes with have
less than 2^56 digits. It ends exactly if none of them hangs; there is no undefined behaviour. The intended meaning
differs (`C146_fails`). -/
theorem C146_exact_fails (p : List Stmt) (hr : DecVars.AllRoom (fun _ => ⟨0, 0⟩) p) :
    (∀ os w, DecVars.run (fun _ => ⟨0, 0⟩) p = some (os, w) → ∃ N, ∀ fuel, N ≤ fuel → ∃ v,
      run fuel (fun _ => BigFloat.default) p = .ok (os, v) ∧ ∀ x, BigFloat.toString (v x) = (w x).text) ∧
    (DecVars.run (fun _ => ⟨0, 0⟩) p = none → ∀ fuel, run fuel (fun _ => BigFloat.default) p = .error .fuel) := by
  obtain ⟨h1, h2⟩ := floatprog_run p _ hr
  refine ⟨fun os w h => ?_, fun h fuel => ?_⟩
  · obtain ⟨N, hN⟩ := h1 os w h
    exact ⟨N, fun fuel hf => ⟨repsF w, hN fuel hf, fun x => text_repF _⟩⟩
  · obtain ⟨N, hN⟩ := h2 h
    apply Classical.byContradiction
    intro hne
    have := run_more fuel (max fuel N) (by omega) p (repsF fun _ => ⟨0, 0⟩) hne
    rw [hN (max fuel N) (by omega)] at this
    exact hne this.symm

/-- C146. The numbers of a program that ends survive being printed and read: `BigFloat{x.ToString()} == x`, for every
variable that has less than 2^56 digits. None has `isNegative_` set. -/
theorem C146_round_trip (p : List Stmt) (hr : DecVars.AllRoom (fun _ => ⟨0, 0⟩) p) (fuel : Nat) (os : List Out)
    (v : Vars) (h : run fuel (fun _ => BigFloat.default) p = .ok (os, v)) (x : Nat) :
    (v x).neg = false ∧ ((v x).size < 2 ^ 56 → ∃ y, BigFloat.parse (BigFloat.toString (v x)) = .ok y ∧
      BigFloat.opEq y (v x) = true ∧ BigFloat.toString y = BigFloat.toString (v x)) := by
  obtain ⟨h1, h2⟩ := floatprog_run p _ hr
  have key : ∃ w, v = repsF w := by
    cases hq : DecVars.run (fun _ => ⟨0, 0⟩) p with
    | none =>
      have := (C146_exact_fails p hr).2 hq fuel
      rw [this] at h; cases h
    | some q =>
      obtain ⟨N, hN⟩ := h1 q.1 q.2 hq
      have hm := run_more fuel (max fuel N) (by omega) p _ (by rw [h]; simp)
      have e := hN (max fuel N) (by omega)
      rw [show (repsF fun _ => ⟨0, 0⟩) = (fun _ => BigFloat.default) from rfl] at e
      rw [hm, h] at e
      injection e with e
      injection e with e1 e2
      exact ⟨q.2, e2⟩
  obtain ⟨w, rfl⟩ := key
  refine ⟨rfl, fun hs => ⟨repF (w x), ?_, ?_, rfl⟩⟩
  · rw [show repsF w x = repF (w x) from rfl, text_repF]
    refine round_trip (w x) ?_
    have : (repsF w x).size = Dec.digits (w x).int + Dec.digits (w x).frac := by
      rw [digits_width, digits_width]; rfl
    omega
  · show BigFloat.equal (repF (w x)) (repF (w x)) = true
    rw [equal_repF]; simp

/-! ### Natural numbers -/

/-- Natural numbers as what stands before the point. -/
def decsOf (v : NatVars) : DecVars := fun x => ⟨v x, 0⟩

theorem decsOf_set (v : NatVars) (x n : Nat) : (decsOf v).set x ⟨n, 0⟩ = decsOf (v.set x n) := by
  funext y; simp only [DecVars.set, decsOf, NatVars.set]; split <;> rfl

theorem ofInt_nat_signed (m : Nat) : Signed.ofInt (m : Int) = ⟨m, false⟩ := by
  simp only [Signed.ofInt, Int.natAbs_natCast]; rw [decide_eq_false (by omega)]

theorem add_nat (m n : Nat) : Dec.add ⟨m, 0⟩ ⟨n, 0⟩ = .value ⟨(m + n : Nat), 0⟩ := by
  have h1 : Signed.plus (.ofInt 0) (.ofInt 0) = ⟨0, false⟩ := by decide
  have h2 : Signed.plus (.ofInt m) (.ofInt n) = ⟨m + n, false⟩ := by
    rw [ofInt_nat_signed, ofInt_nat_signed]
    simp [Signed.plus, Signed.bin]
  simp only [Dec.add, stretched_zero, h1, h2, digits_zero]
  simp [Signed.digits, Signed.int]

theorem subtract_nat (m n : Nat) (h : n ≤ m) : Dec.subtract ⟨m, 0⟩ ⟨n, 0⟩ = .value ⟨(m - n : Nat), 0⟩ := by
  have h1 : Signed.minus (.ofInt 0) (.ofInt 0) = ⟨0, false⟩ := by decide
  have h2 : Signed.minus (.ofInt m) (.ofInt n) = ⟨m - n, false⟩ := by
    rw [ofInt_nat_signed, ofInt_nat_signed]
    simp only [Signed.minus, Signed.bin, if_true, Option.getD_some, decide_eq_false (show ¬ m < n by omega)]
    congr 1
    omega
  have h3 : ¬ (Signed.ofInt 0).less (.ofInt 0) := by decide
  simp only [Dec.subtract, stretched_zero, h1, h2, if_neg h3, digits_zero]
  simp [Signed.int]

theorem divide_nat (m n : Nat) (h : n ≠ 0) : Dec.divide ⟨m, 0⟩ ⟨n, 0⟩ = .value ⟨(m / n : Nat), 0⟩ := by
  have hj : ∀ k : Nat, Dec.joined ⟨k, 0⟩ = (k * 10 : Nat) := by
    intro k
    simp only [Dec.joined, digits_zero, Int.natAbs_natCast, Int.natAbs_zero]
    rw [if_neg (by omega)]; simp
  have hq : ((m * 10 : Nat) : Int).tdiv ((n * 10 : Nat) : Int) = ((m / n : Nat) : Int) := by
    rw [show ((m * 10 : Nat) : Int).tdiv ((n * 10 : Nat) : Int) = ((m * 10 / (n * 10) : Nat) : Int) from rfl,
      Nat.mul_div_mul_right _ _ (by decide)]
  unfold Dec.divide
  rw [if_neg (by simp [Dec.mk.injEq, h]), if_neg (by simp), if_neg (by simp [digits_zero]), hj, hj, hq]
  unfold Dec.point
  rw [if_pos (.inl (Int.natCast_nonneg _))]
  simp only [digits_zero, Nat.sub_self, Int.pow_zero, Int.tdiv_one, Nat.pow_zero, Nat.mod_one]
  rfl

theorem less_nat (m n : Nat) : Dec.less ⟨m, 0⟩ ⟨n, 0⟩ ↔ m < n := by
  simp only [Dec.less, Signed.less, Signed.ofInt, decide_eq_true_eq, decide_eq_false_iff_not, decide_eq_decide]
  omega

theorem floatprog_nat (v : NatVars) (s : Stmt) (o : Out) (v' : NatVars) (h : v.step s = some (o, v')) :
    (decsOf v).step s = some (o, decsOf v') := by
  cases s with
  | whole x z =>
    simp only [NatVars.step] at h
    split at h
    · rename_i hz
      simp only [Option.some.injEq, Prod.mk.injEq] at h
      simp only [DecVars.step, ← h.1, ← h.2, ← decsOf_set]
      rw [Int.toNat_of_nonneg hz]
    · cases h
  | point x neg i zeros f => cases h
  | bin op x y z =>
    cases op with
    | add =>
      simp only [NatVars.step, Option.some.injEq, Prod.mk.injEq] at h
      simp only [DecVars.step, Dec.bin]
      rw [show Dec.add (decsOf v y) (decsOf v z) = _ from add_nat (v y) (v z)]
      simp only [DecVars.store, ← h.1, ← h.2, ← decsOf_set]
    | subtract =>
      simp only [NatVars.step] at h
      split at h
      · rename_i hle
        simp only [Option.some.injEq, Prod.mk.injEq] at h
        simp only [DecVars.step, Dec.bin]
        rw [show Dec.subtract (decsOf v y) (decsOf v z) = _ from subtract_nat (v y) (v z) hle]
        simp only [DecVars.store, ← h.1, ← h.2, ← decsOf_set]
      · cases h
    | multiply => cases h
    | divide =>
      simp only [NatVars.step, Option.some.injEq] at h
      simp only [DecVars.step, Dec.bin]
      split at h
      · rename_i hz
        simp only [Prod.mk.injEq] at h
        have : decsOf v z = ⟨0, 0⟩ := by simp [decsOf, hz]
        rw [Dec.divide, if_pos this, ← h.1, ← h.2]
        rfl
      · rename_i hz
        simp only [Prod.mk.injEq] at h
        rw [show Dec.divide (decsOf v y) (decsOf v z) = _ from divide_nat (v y) (v z) hz]
        simp only [DecVars.store, ← h.1, ← h.2, ← decsOf_set]
  | un op x y =>
    cases op with
    | abs =>
      simp only [NatVars.step, Option.some.injEq, Prod.mk.injEq] at h
      simp only [DecVars.step, Dec.un, DecVars.store, ← h.1, ← h.2, ← decsOf_set]
      rfl
    | _ => cases h
  | copy x y =>
    simp only [NatVars.step, Option.some.injEq, Prod.mk.injEq] at h
    simp only [DecVars.step, ← h.1, ← h.2, ← decsOf_set]
    rfl
  | move x y =>
    simp only [NatVars.step, Option.some.injEq, Prod.mk.injEq] at h
    simp only [DecVars.step, ← h.1, ← h.2]
    split
    · rfl
    · rw [← decsOf_set, ← decsOf_set]; rfl
  | print x =>
    simp only [NatVars.step, Option.some.injEq, Prod.mk.injEq] at h
    simp only [DecVars.step, ← h.1, ← h.2]
    rfl
  | compare op x y =>
    simp only [NatVars.step, Option.some.injEq, Prod.mk.injEq] at h
    simp only [DecVars.step, ← h.1, ← h.2]
    have hl := less_nat (v x) (v y)
    have hg := less_nat (v y) (v x)
    have he : (Dec.mk (v x) 0 = ⟨v y, 0⟩) ↔ v x = v y := by simp
    rw [show decsOf v x = ⟨v x, 0⟩ from rfl, show decsOf v y = ⟨v y, 0⟩ from rfl]
    cases op <;> simp only [Dec.cmp, natCmp, Option.some.injEq, Prod.mk.injEq, Out.flag.injEq, and_true,
      ← decide_not, decide_eq_decide, hl, hg, he, ne_eq] <;> omega
  | size x =>
    simp only [NatVars.step, Option.some.injEq, Prod.mk.injEq] at h
    simp only [DecVars.step, ← h.1, ← h.2]
    rfl

theorem floatprog_nat_run (p : List Stmt) : ∀ (v : NatVars) (os : List Out) (v' : NatVars),
    v.run p = some (os, v') → (decsOf v).run p = some (os, decsOf v') := by
  induction p with
  | nil =>
    intro v os v' h
    simp only [NatVars.run, Option.some.injEq, Prod.mk.injEq] at h
    simp only [DecVars.run, ← h.1, ← h.2]
  | cons s p ih =>
    intro v os v' h
    simp only [NatVars.run] at h
    cases hs : v.step s with
    | none => rw [hs] at h; cases h
    | some r =>
      obtain ⟨o, v1⟩ := r
      rw [hs] at h
      simp only [Option.bind_some] at h
      cases hq : NatVars.run v1 p with
      | none => rw [hq] at h; cases h
      | some q =>
        rw [hq] at h
        simp only [Option.map_some, Option.some.injEq, Prod.mk.injEq] at h
        simp only [DecVars.run, floatprog_nat v s o v1 hs, Option.bind_some, ih v1 q.1 q.2 hq, Option.map_some, ← h.1,
          ← h.2]

/-- C146. Partial: a program on natural numbers with sums, differences that do not fall below zero, quotients, copies,
moves, comparisons and output gives what it gives with natural numbers, quotients being rounded down. Missing: products,
powers, roots, fractions and negative numbers, which go wrong (`C146_exact_fails`). -/
theorem C146_natural_partial (p : List Stmt) (os : List Out) (n : NatVars)
    (hr : DecVars.AllRoom (fun _ => ⟨0, 0⟩) p) (h : NatVars.run (fun _ => 0) p = some (os, n)) :
    ∃ N, ∀ fuel, N ≤ fuel → ∃ v, run fuel (fun _ => BigFloat.default) p = .ok (os, v) ∧
      ∀ x, BigFloat.toString (v x) = decimal (n x) := by
  obtain ⟨N, hN⟩ := (C146_exact_fails p hr).1 _ _ (floatprog_nat_run p _ _ _ h)
  exact ⟨N, fun fuel hf => (hN fuel hf).imp fun v hv => ⟨hv.1, fun x => hv.2 x⟩⟩

/-! ### What goes wrong -/

/-- The text of variable 0 at the end, by the exact meaning. -/
def lastText (p : List Stmt) : Option Str := (DecVars.run (fun _ => ⟨0, 0⟩) p).map fun r => (r.2 0).text

/-- A program that ends, with its variable 0 printed: what `C146_exact_fails` says of it. -/
theorem floatprog_prints (p : List Stmt) (t : Str) (hr : DecVars.AllRoom (fun _ => ⟨0, 0⟩) p) (h : lastText p = some t) :
    ∃ N, ∀ fuel, N ≤ fuel → ∃ os v, run fuel (fun _ => BigFloat.default) p = .ok (os, v) ∧
      BigFloat.toString (v 0) = t := by
  unfold lastText at h
  cases hq : DecVars.run (fun _ => ⟨0, 0⟩) p with
  | none => rw [hq] at h; cases h
  | some q =>
    rw [hq] at h
    simp only [Option.map_some, Option.some.injEq] at h
    obtain ⟨N, hN⟩ := (C146_exact_fails p hr).1 q.1 q.2 hq
    refine ⟨N, fun fuel hf => ?_⟩
    obtain ⟨v, h1, h2⟩ := hN fuel hf
    exact ⟨q.1, v, h1, by rw [h2, h]⟩

theorem allRoom_cons (v : DecVars) (s : Stmt) (p : List Stmt) (h1 : v.Room s)
    (h2 : ∀ r, v.step s = some r → DecVars.AllRoom r.2 p) : v.AllRoom (s :: p) := ⟨h1, h2⟩

/-- Whether all numbers fit, as a computation. -/
def roomy : DecVars → List Stmt → Bool
  | _, [] => true
  | v, s :: p =>
    (match s with
      | .point _ _ i zeros f => decide (Dec.digits i + zeros + Dec.digits f < 2 ^ 56)
      | .bin _ _ y z => decide (v y).fits && decide (v z).fits
      | .un (.pow e) _ y => decide ((2 * e.toNat + 1) * (Dec.digits (v y).int + Dec.digits (v y).frac + 3) < 2 ^ 56)
      | .un _ _ y => decide (v y).fits
      | _ => true) &&
    (match v.step s with
      | none => true
      | some r => roomy r.2 p)

theorem roomy_allRoom : ∀ (p : List Stmt) (v : DecVars), roomy v p = true → v.AllRoom p
  | [], _, _ => trivial
  | s :: p, v, h => by
    unfold roomy at h
    rw [Bool.and_eq_true] at h
    refine ⟨?_, fun r hr => ?_⟩
    · have h1 := h.1
      cases s with
      | point => simpa [DecVars.Room] using h1
      | bin => simpa [DecVars.Room] using h1
      | un op x y => cases op <;> simpa [DecVars.Room] using h1
      | _ => trivial
    · have h2 := h.2
      rw [hr] at h2
      exact roomy_allRoom p r.2 h2

/-- C146 is false as stated: programs that end, what they print and what they should have computed. In turn: reading 0.05
and -0.5, 0.99 + 0.99, 1.10 - 0.95, (1.5 - 2.7), 12 * 3, 15.5 / 5, the third power of 2, the absolute value of -3. -/
theorem C146_fails : ∀ c ∈ ([
    ([.point 0 false 0 1 5], c!"0.5", 1 / 20),
    ([.point 0 true 0 0 5], c!"0.5", -1 / 2),
    ([.point 1 false 0 0 99, .bin .add 0 1 1], c!"1.178", 198 / 100),
    ([.point 1 false 1 0 10, .point 2 false 0 0 95, .bin .subtract 0 1 2], c!"0.-65", 15 / 100),
    ([.point 1 false 1 0 5, .point 2 false 2 0 7, .bin .subtract 0 1 2], c!"0.8", -12 / 10),
    ([.whole 1 12, .whole 2 3, .bin .multiply 0 1 2], c!"3600", 36),
    ([.point 1 false 15 0 5, .whole 2 5, .bin .divide 0 1 2], c!"0.3", 31 / 10),
    ([.whole 1 2, .un (.pow 3) 0 1], c!"8000000", 8),
    ([.whole 1 (-3), .un .abs 0 1], c!"-3", 3)] : List (List Stmt × Str × Rat)),
    (∃ N, ∀ fuel, N ≤ fuel → ∃ os v, run fuel (fun _ => BigFloat.default) c.1 = .ok (os, v) ∧
      BigFloat.toString (v 0) = c.2.1) ∧
    RatVars.run (fun _ => 0) c.1 0 = c.2.2 ∧ denote c.2.1 ≠ some c.2.2 := by
  intro c hc
  have h : (roomy (fun _ => ⟨0, 0⟩) c.1 && decide (lastText c.1 = some c.2.1)) = true ∧
      RatVars.run (fun _ => 0) c.1 0 = c.2.2 ∧ denote c.2.1 ≠ some c.2.2 := by
    revert c
    decide +kernel
  rw [Bool.and_eq_true, decide_eq_true_eq] at h
  exact ⟨floatprog_prints c.1 c.2.1 (roomy_allRoom _ _ h.1.1) h.1.2, h.2⟩

/-- C146 is false as stated: programs of the public interface that should end and never do. In turn: 1.5 + 1, 2.5 - 2, the
root of 2.25, and 0.5 + (0.5 + 0.5). -/
theorem C146_hangs_fails : ∀ p ∈ ([
    [.point 0 false 1 0 5, .whole 1 1, .bin .add 0 0 1],
    [.point 0 false 2 0 5, .whole 1 2, .bin .subtract 0 0 1],
    [.point 0 false 2 0 25, .un .sqrt 0 0],
    [.point 0 false 0 0 5, .bin .add 1 0 0, .bin .add 1 0 1]] : List (List Stmt)),
    ∀ fuel, run fuel (fun _ => BigFloat.default) p = .error .fuel := by
  intro p hp
  have h : (roomy (fun _ => ⟨0, 0⟩) p && (DecVars.run (fun _ => ⟨0, 0⟩) p).isNone) = true := by
    revert p
    decide +kernel
  rw [Bool.and_eq_true, Option.isNone_iff_eq_none] at h
  exact (C146_exact_fails p (roomy_allRoom _ _ h.1)).2 h.2

/-- C146 is false as stated: a difference of two numbers cannot be multiplied, and one cannot be divided by a half. -/
theorem C146_throws_fails :
    let p : List Stmt := [.point 0 false 1 0 10, .point 1 false 0 0 95, .bin .subtract 2 0 1, .un .sqr 3 2,
      .whole 4 1, .point 5 false 0 0 5, .bin .divide 6 4 5]
    ∃ N, ∀ fuel, N ≤ fuel → ∃ v, run fuel (fun _ => BigFloat.default) p =
      .ok ([.done, .done, .done, .threw, .done, .done, .noMemory], v) := by
  intro p
  have h : roomy (fun _ => ⟨0, 0⟩) p = true ∧ (DecVars.run (fun _ => ⟨0, 0⟩) p).map (·.1) =
      some [.done, .done, .done, .threw, .done, .done, .noMemory] := by decide +kernel
  cases hq : DecVars.run (fun _ => ⟨0, 0⟩) p with
  | none => rw [hq] at h; cases h.2
  | some q =>
    rw [hq] at h
    simp only [Option.map_some, Option.some.injEq] at h
    obtain ⟨N, hN⟩ := (C146_exact_fails p (roomy_allRoom _ _ h.1)).1 q.1 q.2 hq
    refine ⟨N, fun fuel hf => ?_⟩
    obtain ⟨v, h1, _⟩ := hN fuel hf
    exact ⟨v, by rw [h1, h.2]⟩

/-- Programs that meet the hypotheses: one on natural numbers, `x = 7; y = 2; z = x / y; z = z + x; z < x`, and one with
fractions that ends. -/
example :
    let p : List Stmt := [.whole 0 7, .whole 1 2, .bin .divide 2 0 1, .bin .add 2 2 0, .compare .lt 2 0, .print 2]
    DecVars.AllRoom (fun _ => ⟨0, 0⟩) p ∧
    (NatVars.run (fun _ => 0) p).map (·.1) = some [.done, .done, .done, .done, .flag false, .text c!"10"] :=
  ⟨roomy_allRoom _ _ (by decide +kernel), by decide +kernel⟩

example :
    let p : List Stmt := [.point 0 false 1 0 25, .point 1 false 2 0 5, .bin .add 2 0 1, .bin .multiply 3 0 1, .print 2]
    DecVars.AllRoom (fun _ => ⟨0, 0⟩) p ∧ (DecVars.run (fun _ => ⟨0, 0⟩) p).map (·.1) =
      some [.done, .done, .done, .done, .text c!"3.75"] :=
  ⟨roomy_allRoom _ _ (by decide +kernel), by decide +kernel⟩

end Caitlyn
