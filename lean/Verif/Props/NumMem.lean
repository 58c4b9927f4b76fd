import Verif.Model.NumMem
import Verif.Lit

/-!
# Property C165: large numbers and too little memory

Reference: the program from which the statements that threw `std::bad_alloc` are left out, executed by the models of C145 and C146, in
which memory does not end.
-/

namespace Caitlyn
open Caitlyn.NumMem

/-- The statements that did not throw. -/
def NumMem.surviving {S O : Type} (p : List (S × Fate)) (os : List (Option O)) : List S :=
  (p.zip os).filterMap fun q => q.2.map fun _ => q.1.1

/-- Whether a statement assigns a variable to another. -/
def NumMem.intCopies : BigIntProg.Stmt → Bool
  | .copy x y => x != y
  | _ => false

/-- Whether a statement assigns a variable to another. -/
def NumMem.floatCopies : BigFloatProg.Stmt → Bool
  | .copy x y => x != y
  | _ => false

theorem assign_eq (releases fails : Bool) (cap : Nat) (a b : BigInt) :
    assign releases fails cap a b =
      if b.digits.length ≤ cap then (true, b, cap)
      else if fails then (false, if releases then (⟨[], a.neg⟩, 0) else (a, cap))
      else (true, b, b.digits.length) := by
  unfold assign assignDigits
  by_cases h : b.digits.length ≤ cap
  · simp [h]
  · cases fails <;> cases releases <;> simp [h]

theorem Vars.int_set_self (v : BigIntProg.Vars) (x : Nat) : v.set x (v x) = v := by
  funext z
  unfold BigIntProg.Vars.set
  split <;> simp_all

theorem Vars.float_set_self (v : BigFloatProg.Vars) (x : Nat) : v.set x (v x) = v := by
  funext z
  unfold BigFloatProg.Vars.set
  split <;> simp_all

theorem intStep_spec (releases : Bool) (fuel : Nat) (w : Ints) (s : BigIntProg.Stmt) (f : Fate)
    (h : releases = false ∨ intCopies s = false) :
    match intStep releases fuel w s f with
    | .ok (none, w') => w'.vars = w.vars
    | .ok (some o, w') => BigIntProg.step fuel w.vars s = .ok (o, w'.vars)
    | .error e => BigIntProg.step fuel w.vars s = .error e := by
  cases s with
  | copy x y =>
    by_cases hxy : x = y
    · simp [intStep, BigIntProg.step, hxy]
    · have hr : releases = false := by simpa [intCopies, hxy] using h
      subst hr
      simp only [intStep, hxy, if_false, assign_eq]
      by_cases h1 : (w.vars y).digits.length ≤ w.caps x
      · simp [h1, BigIntProg.step, hxy, Ints.put, BigInt.copy]
      · cases hf : f.first
        · simp [h1, BigIntProg.step, hxy, Ints.put, BigInt.copy]
        · simp [h1, Ints.put, Vars.int_set_self]
  | move x y =>
    by_cases hxy : x = y
    · simp [intStep, BigIntProg.step, hxy]
    · simp [intStep, BigIntProg.step, hxy, Ints.put]
  | _ =>
    simp only [intStep]
    generalize (intAllocates _ && f.first) = c
    generalize BigIntProg.step fuel w.vars _ = r
    cases c
    · rcases r with e | ⟨o, v⟩ <;> simp [bind, Except.bind, pure, Except.pure]
    · simp

theorem floatStep_spec (releases : Bool) (fuel : Nat) (w : Floats) (s : BigFloatProg.Stmt) (f : Fate) (h : floatCopies s = false) :
    match floatStep releases fuel w s f with
    | .ok (none, w') => w' = w
    | .ok (some o, w') => BigFloatProg.step fuel w.vars s = .ok (o, w'.vars)
    | .error e => BigFloatProg.step fuel w.vars s = .error e := by
  cases s with
  | copy x y =>
    have hxy : x = y := by simpa [floatCopies] using h
    simp [floatStep, BigFloatProg.step, hxy]
  | move x y =>
    by_cases hxy : x = y
    · simp [floatStep, BigFloatProg.step, hxy]
    · simp [floatStep, BigFloatProg.step, hxy, Floats.put]
  | _ =>
    simp only [floatStep]
    generalize (floatAllocates _ && f.first) = c
    generalize BigFloatProg.step fuel w.vars _ = r
    cases c
    · rcases r with e | ⟨o, v⟩ <;> simp [bind, Except.bind, pure, Except.pure]
    · simp

/-- C165. A program with `BigInteger` variables in which allocations fail gives what the program without the statements that threw
`std::bad_alloc` gives, and its variables have the numbers they have there; if its behaviour is undefined, so is that of a part of the
program in which memory does not end. For a vector that gives up its storage first this holds for programs that do not assign one
variable to another. -/
theorem C165_integer_partial (releases : Bool) (fuel : Nat) (w : Ints) (p : List (BigIntProg.Stmt × Fate))
    (h : releases = false ∨ ∀ s ∈ p, intCopies s.1 = false) :
    match intRun releases fuel w p with
    | .ok (os, w') => os.length = p.length ∧
        BigIntProg.run fuel w.vars (surviving p os) = .ok (os.filterMap id, w'.vars)
    | .error e => ∃ q, q.Sublist (p.map (·.1)) ∧ BigIntProg.run fuel w.vars q = .error e := by
  induction p generalizing w with
  | nil => exact ⟨rfl, rfl⟩
  | cons sf p ih =>
    obtain ⟨s, f⟩ := sf
    have hs := intStep_spec releases fuel w s f (h.imp id fun h => h (s, f) (List.mem_cons_self ..))
    have ih := fun w => ih w (h.imp id fun h t ht => h t (List.mem_cons_of_mem _ ht))
    simp only [intRun, bind, Except.bind]
    rcases hstep : intStep releases fuel w s f with e | ⟨o, w1⟩
    · rw [hstep] at hs
      exact ⟨[s], by simp, by simp only at hs; simp [BigIntProg.run, hs, bind, Except.bind]⟩
    · rw [hstep] at hs
      have ih := ih w1
      simp only
      rcases hrun : intRun releases fuel w1 p with e | ⟨os, w2⟩
      · rw [hrun] at ih
        obtain ⟨q, hq, hr⟩ := ih
        simp only
        rcases o with _ | o
        · simp only at hs
          exact ⟨q, hq.trans (by simp), by rw [← hs]; exact hr⟩
        · simp only at hs
          exact ⟨s :: q, by simpa using hq, by simp [BigIntProg.run, hs, hr, bind, Except.bind]⟩
      · rw [hrun] at ih
        obtain ⟨hl, hr⟩ := ih
        simp only [pure, Except.pure]
        refine ⟨by simp [hl], ?_⟩
        rcases o with _ | o
        · simp only at hs
          rw [hs] at hr
          simpa [surviving] using hr
        · simp only at hs
          simp only [surviving] at hr
          simp [surviving, BigIntProg.run, hs, hr, bind, Except.bind, pure, Except.pure]

/-- `x = 7; y = 123; x = y` without memory for it; `print x`. -/
example : (match intRun false 100 ⟨fun _ => BigInt.default, fun _ => 0⟩
      [(.numeral 0 7, ⟨false, false, (0, 0)⟩), (.numeral 1 123, ⟨false, false, (0, 0)⟩), (.copy 0 1, ⟨true, false, (0, 0)⟩),
       (.print 0, ⟨false, false, (0, 0)⟩)] with
    | .ok (os, _) => decide (os = [some .done, some .done, none, some (.text c!"7")])
    | .error _ => false) = true := by decide +kernel

/-- C165. The same for `BigFloat`, of programs that do not assign one variable to another, with either vector. -/
theorem C165_float_partial (releases : Bool) (fuel : Nat) (w : Floats) (p : List (BigFloatProg.Stmt × Fate))
    (h : ∀ s ∈ p, floatCopies s.1 = false) :
    match floatRun releases fuel w p with
    | .ok (os, w') => os.length = p.length ∧
        BigFloatProg.run fuel w.vars (surviving p os) = .ok (os.filterMap id, w'.vars)
    | .error e => ∃ q, q.Sublist (p.map (·.1)) ∧ BigFloatProg.run fuel w.vars q = .error e := by
  induction p generalizing w with
  | nil => exact ⟨rfl, rfl⟩
  | cons sf p ih =>
    obtain ⟨s, f⟩ := sf
    have hs := floatStep_spec releases fuel w s f (h (s, f) (List.mem_cons_self ..))
    have ih := fun w => ih w (fun t ht => h t (List.mem_cons_of_mem _ ht))
    simp only [floatRun, bind, Except.bind]
    rcases hstep : floatStep releases fuel w s f with e | ⟨o, w1⟩
    · rw [hstep] at hs
      exact ⟨[s], by simp, by simp only at hs; simp [BigFloatProg.run, hs, bind, Except.bind]⟩
    · rw [hstep] at hs
      have ih := ih w1
      simp only
      rcases hrun : floatRun releases fuel w1 p with e | ⟨os, w2⟩
      · rw [hrun] at ih
        obtain ⟨q, hq, hr⟩ := ih
        simp only
        rcases o with _ | o
        · simp only at hs
          exact ⟨q, hq.trans (by simp), by rw [← hs]; exact hr⟩
        · simp only at hs
          exact ⟨s :: q, by simpa using hq, by simp [BigFloatProg.run, hs, hr, bind, Except.bind]⟩
      · rw [hrun] at ih
        obtain ⟨hl, hr⟩ := ih
        simp only [pure, Except.pure]
        refine ⟨by simp [hl], ?_⟩
        rcases o with _ | o
        · simp only at hs
          rw [hs] at hr
          simpa [surviving] using hr
        · simp only at hs
          simp only [surviving] at hr
          simp [surviving, BigFloatProg.run, hs, hr, bind, Except.bind, pure, Except.pure]

/-- C165. The assignment of one `BigFloat` to another, exactly, with a vector that gets new storage first: if the allocation for the
integer part fails, nothing has changed; if that for the fraction fails, the variable has the integer part of the other, and its own
fraction and sign. -/
theorem C165_assign_exact (f : Fate) (fuel : Nat) (w : Floats) (x y : Nat) (h : x ≠ y) :
    ∃ w', floatStep false fuel w (.copy x y) f = .ok (
      (if (w.vars y).int.digits.length > (w.caps x).1 ∧ f.first = true then none
       else if (w.vars y).frac.digits.length > (w.caps x).2 ∧ f.second = true then none
       else some .done), w') ∧
    w'.vars = w.vars.set x (
      if (w.vars y).int.digits.length > (w.caps x).1 ∧ f.first = true then w.vars x
      else if (w.vars y).frac.digits.length > (w.caps x).2 ∧ f.second = true then ⟨(w.vars y).int, (w.vars x).frac, (w.vars x).neg⟩
      else w.vars y) := by
  simp only [floatStep, h, if_false, assignFloat, assign_eq]
  by_cases h1 : (w.vars y).int.digits.length ≤ (w.caps x).1 <;> by_cases h2 : (w.vars y).frac.digits.length ≤ (w.caps x).2 <;>
    cases hf : f.first <;> cases hg : f.second <;> simp [h1, h2, Floats.put, Nat.not_lt.mpr, Nat.not_le.mp]

/-- C165 fails: when there is no memory for the fraction, a variable whose number differs from that of the other in both parts has a number
afterwards that it had not before, and that is not the other's. -/
theorem C165_float_fails (fuel : Nat) (w : Floats) (x y : Nat) (hi : (w.vars y).int ≠ (w.vars x).int)
    (hf : (w.vars y).frac ≠ (w.vars x).frac) (hcap : (w.vars y).frac.digits.length > (w.caps x).2) :
    ∃ w', floatStep false fuel w (.copy x y) ⟨false, true, (0, 0)⟩ = .ok (none, w') ∧
      w'.vars x ≠ w.vars x ∧ w'.vars x ≠ w.vars y := by
  have hxy : x ≠ y := fun h => hi (by rw [h])
  obtain ⟨w', h1, h2⟩ := C165_assign_exact ⟨false, true, (0, 0)⟩ fuel w x y hxy
  have hval : w'.vars x = ⟨(w.vars y).int, (w.vars x).frac, (w.vars x).neg⟩ := by
    rw [h2]
    simp [BigFloatProg.Vars.set, hcap]
  refine ⟨w', by rw [h1]; simp [hcap], ?_, ?_⟩
  · rw [hval]
    intro h
    exact hi (by rw [← h])
  · rw [hval]
    intro h
    exact hf (by rw [← h])

/-- `x = 1.5; y = 12.25; x = y;` with no memory for the second fraction: `x` is `12.5`. -/
example : (match floatRun false 100 ⟨fun _ => BigFloat.default, fun _ => (0, 0)⟩
      [(.point 0 false 1 0 5, ⟨false, false, (0, 0)⟩), (.point 1 false 12 0 25, ⟨false, false, (0, 0)⟩),
       (.copy 0 1, ⟨false, true, (0, 0)⟩), (.print 0, ⟨false, false, (0, 0)⟩)] with
    | .ok (os, _) => decide (os = [some .done, some .done, none, some (.text c!"12.5")])
    | .error _ => false) = true := by decide +kernel

/-- C165 fails for a vector that gives up its storage first: a `BigInteger` that is assigned a number too long for its storage has no
digits afterwards, whatever it was, and a negative one keeps its sign. -/
theorem C165_released_fails (fuel : Nat) (w : Ints) (x y : Nat) (h : x ≠ y) (hcap : (w.vars y).digits.length > w.caps x) :
    ∃ w', intStep true fuel w (.copy x y) ⟨true, false, (0, 0)⟩ = .ok (none, w') ∧ w'.vars x = ⟨[], (w.vars x).neg⟩ := by
  refine ⟨w.put x ⟨[], (w.vars x).neg⟩ 0, ?_, ?_⟩
  · simp [intStep, h, assign_eq, Nat.not_le.mpr hcap]
  · simp [Ints.put, BigIntProg.Vars.set]

/-- C165. With enough memory the programs give what they give in C145 and C146. -/
theorem C165_enough (releases : Bool) (fuel : Nat) :
    (∀ (w : Ints) (p : List (BigIntProg.Stmt × Fate)), (∀ s ∈ p, s.2.first = false) →
      (intRun releases fuel w p).map (fun r => (r.1, r.2.vars)) =
        (BigIntProg.run fuel w.vars (p.map (·.1))).map fun r => (r.1.map some, r.2)) ∧
    ∀ (w : Floats) (p : List (BigFloatProg.Stmt × Fate)), (∀ s ∈ p, s.2.first = false ∧ s.2.second = false) →
      (floatRun releases fuel w p).map (fun r => (r.1, r.2.vars)) =
        (BigFloatProg.run fuel w.vars (p.map (·.1))).map fun r => (r.1.map some, r.2) := by
  have hi : ∀ (w : Ints) s (f : Fate), f.first = false → (intStep releases fuel w s f).map (fun r => (r.1, r.2.vars)) =
      (BigIntProg.step fuel w.vars s).map fun r => (some r.1, r.2) := by
    intro w s f hf
    cases s with
    | copy x y =>
      by_cases hxy : x = y
      · simp [intStep, BigIntProg.step, hxy, Except.map]
      · by_cases h1 : (w.vars y).digits.length ≤ w.caps x <;>
          simp [intStep, BigIntProg.step, hxy, Except.map, assign_eq, hf, h1, Ints.put, BigInt.copy]
    | move x y =>
      by_cases hxy : x = y <;> simp [intStep, BigIntProg.step, hxy, Except.map, Ints.put]
    | _ =>
      simp only [intStep, hf, Bool.and_false]
      generalize BigIntProg.step fuel w.vars _ = r
      rcases r with e | ⟨o, v⟩ <;> simp [bind, Except.bind, pure, Except.pure, Except.map]
  have hf : ∀ (w : Floats) s (f : Fate), f.first = false → f.second = false →
      (floatStep releases fuel w s f).map (fun r => (r.1, r.2.vars)) =
      (BigFloatProg.step fuel w.vars s).map fun r => (some r.1, r.2) := by
    intro w s f hf hg
    cases s with
    | copy x y =>
      by_cases hxy : x = y
      · simp [floatStep, BigFloatProg.step, hxy, Except.map]
      · by_cases h1 : (w.vars y).int.digits.length ≤ (w.caps x).1 <;> by_cases h2 : (w.vars y).frac.digits.length ≤ (w.caps x).2 <;>
          simp [floatStep, BigFloatProg.step, hxy, Except.map, assignFloat, assign_eq, hf, hg, h1, h2, Floats.put, BigFloat.copy, BigInt.copy]
    | move x y =>
      by_cases hxy : x = y <;> simp [floatStep, BigFloatProg.step, hxy, Except.map, Floats.put]
    | _ =>
      simp only [floatStep, hf, Bool.and_false]
      generalize BigFloatProg.step fuel w.vars _ = r
      rcases r with e | ⟨o, v⟩ <;> simp [bind, Except.bind, pure, Except.pure, Except.map]
  constructor
  · intro w p
    induction p generalizing w with
    | nil => intro _; rfl
    | cons sf p ih =>
      obtain ⟨s, f⟩ := sf
      intro h
      have h1 := hi w s f (h (s, f) (List.mem_cons_self ..))
      have ih := fun w => ih w fun t ht => h t (List.mem_cons_of_mem _ ht)
      simp only [intRun, List.map_cons, BigIntProg.run, bind, Except.bind]
      rcases ha : intStep releases fuel w s f with e | ⟨o, w1⟩ <;> rcases hb : BigIntProg.step fuel w.vars s with e' | ⟨o', v1⟩ <;>
        rw [ha, hb] at h1 <;> simp only [Except.map] at h1
      · injection h1 with h1; subst h1; rfl
      · cases h1
      · cases h1
      · injection h1 with h1
        injection h1 with h1 h2
        subst h1
        have ih := ih w1
        rw [h2] at ih
        simp only
        rcases hc : intRun releases fuel w1 p with e | ⟨os, w2⟩ <;> rcases hd : BigIntProg.run fuel v1 (p.map (·.1)) with e' | ⟨os', v2⟩ <;>
          rw [hc, hd] at ih <;> simp only [Except.map] at ih <;> simp_all [Except.map, pure, Except.pure]
  · intro w p
    induction p generalizing w with
    | nil => intro _; rfl
    | cons sf p ih =>
      obtain ⟨s, f⟩ := sf
      intro h
      have h1 := hf w s f (h (s, f) (List.mem_cons_self ..)).1 (h (s, f) (List.mem_cons_self ..)).2
      have ih := fun w => ih w fun t ht => h t (List.mem_cons_of_mem _ ht)
      simp only [floatRun, List.map_cons, BigFloatProg.run, bind, Except.bind]
      rcases ha : floatStep releases fuel w s f with e | ⟨o, w1⟩ <;> rcases hb : BigFloatProg.step fuel w.vars s with e' | ⟨o', v1⟩ <;>
        rw [ha, hb] at h1 <;> simp only [Except.map] at h1
      · injection h1 with h1; subst h1; rfl
      · cases h1
      · cases h1
      · injection h1 with h1
        injection h1 with h1 h2
        subst h1
        have ih := ih w1
        rw [h2] at ih
        simp only
        rcases hc : floatRun releases fuel w1 p with e | ⟨os, w2⟩ <;> rcases hd : BigFloatProg.run fuel v1 (p.map (·.1)) with e' | ⟨os', v2⟩ <;>
          rw [hc, hd] at ih <;> simp only [Except.map] at ih <;> simp_all [Except.map, pure, Except.pure]

/-- C165, which statements can end with `std::bad_alloc`, exactly: those that compute or print a number, and the assignment of a variable
whose number is too long for the storage of the other. Moves, comparisons and `Size` never do. -/
theorem C165_can_throw (releases : Bool) (fuel : Nat) :
    (∀ (w : Ints) (s : BigIntProg.Stmt), (∃ f w', intStep releases fuel w s f = .ok (none, w')) ↔
      match s with
      | .numeral .. | .bin .. | .un .. | .print _ => True
      | .copy x y => x ≠ y ∧ (w.vars y).digits.length > w.caps x
      | .move .. | .compare .. | .size _ => False) ∧
    ∀ (w : Floats) (s : BigFloatProg.Stmt), (∃ f w', floatStep releases fuel w s f = .ok (none, w')) ↔
      match s with
      | .whole .. | .point .. | .bin .. | .un .. | .print _ => True
      | .copy x y => x ≠ y ∧ ((w.vars y).int.digits.length > (w.caps x).1 ∨ (w.vars y).frac.digits.length > (w.caps x).2)
      | .move .. | .compare .. | .size _ => False := by
  constructor
  · intro w s
    cases s with
    | copy x y =>
      by_cases hxy : x = y
      · simp [intStep, hxy]
      · simp only [intStep, hxy, if_false, assign_eq, ne_eq, not_false_eq_true, true_and]
        by_cases h1 : (w.vars y).digits.length ≤ w.caps x
        · simp [h1, Nat.not_lt.mpr h1]
        · refine iff_of_true ⟨⟨true, false, (0, 0)⟩, ?_⟩ (Nat.not_le.mp h1)
          simp [h1]
    | move x y => by_cases hxy : x = y <;> simp [intStep, hxy]
    | compare op x y => simp [intStep, intAllocates, BigIntProg.step, bind, Except.bind, pure, Except.pure]
    | size x => simp [intStep, intAllocates, BigIntProg.step, bind, Except.bind, pure, Except.pure]
    | _ => exact iff_of_true ⟨⟨true, false, (0, 0)⟩, w, by simp [intStep, intAllocates]⟩ trivial
  · intro w s
    cases s with
    | copy x y =>
      by_cases hxy : x = y
      · simp [floatStep, hxy]
      · simp only [floatStep, hxy, if_false, assignFloat, assign_eq, ne_eq, not_false_eq_true, true_and]
        by_cases h1 : (w.vars y).int.digits.length ≤ (w.caps x).1
        · by_cases h2 : (w.vars y).frac.digits.length ≤ (w.caps x).2
          · simp [h1, h2, Nat.not_lt.mpr h1, Nat.not_lt.mpr h2]
          · refine iff_of_true ⟨⟨false, true, (0, 0)⟩, ?_⟩ (.inr (Nat.not_le.mp h2))
            simp [h1, h2]
        · refine iff_of_true ⟨⟨true, false, (0, 0)⟩, ?_⟩ (.inl (Nat.not_le.mp h1))
          simp [h1]
    | move x y => by_cases hxy : x = y <;> simp [floatStep, hxy]
    | compare op x y => simp [floatStep, floatAllocates, BigFloatProg.step, bind, Except.bind, pure, Except.pure]
    | size x => simp [floatStep, floatAllocates, BigFloatProg.step, bind, Except.bind, pure, Except.pure]
    | _ => exact iff_of_true ⟨⟨true, false, (0, 0)⟩, w, by simp [floatStep, floatAllocates]⟩ trivial

/-- The digits of every variable are in its storage. -/
def NumMem.IntsFit (w : Ints) : Prop := ∀ z, (w.vars z).digits.length ≤ w.caps z

/-- The digits of both parts of every variable are in their storage. -/
def NumMem.FloatsFit (w : Floats) : Prop :=
  ∀ z, (w.vars z).int.digits.length ≤ (w.caps z).1 ∧ (w.vars z).frac.digits.length ≤ (w.caps z).2

theorem assign_fits {releases fails : Bool} {cap : Nat} {a b : BigInt} (h : a.digits.length ≤ cap) :
    (assign releases fails cap a b).2.1.digits.length ≤ (assign releases fails cap a b).2.2 := by
  rw [assign_eq]
  split
  · assumption
  · cases fails <;> cases releases <;> simp [h]

theorem int_store_fits (v : BigIntProg.Vars) (x : Nat) (r : Res BigInt) (o : BigIntProg.Out) (v' : BigIntProg.Vars)
    (h : BigIntProg.store v x r = .ok (o, v')) (z : Nat) : z = x ∧ o = .done ∨ v' z = v z := by
  unfold BigIntProg.store at h
  split at h
  · cases h
    by_cases hz : z = x
    · exact .inl ⟨hz, rfl⟩
    · exact .inr (by simp [BigIntProg.Vars.set, hz])
  · cases h; exact .inr rfl
  · cases h

theorem float_store_fits (v : BigFloatProg.Vars) (x : Nat) (r : Res BigFloat) (o : BigFloatProg.Out) (v' : BigFloatProg.Vars)
    (h : BigFloatProg.store v x r = .ok (o, v')) (z : Nat) : z = x ∧ o = .done ∨ v' z = v z := by
  unfold BigFloatProg.store at h
  split at h
  · cases h
    by_cases hz : z = x
    · exact .inl ⟨hz, rfl⟩
    · exact .inr (by simp [BigFloatProg.Vars.set, hz])
  · cases h; exact .inr rfl
  · cases h; exact .inr rfl
  · cases h

theorem intStep_fits {releases : Bool} {fuel : Nat} {w w' : Ints} {s : BigIntProg.Stmt} {f : Fate} {o : Option BigIntProg.Out}
    (h : IntsFit w) (hs : intStep releases fuel w s f = .ok (o, w')) : IntsFit w' := by
  intro z
  have rest : ∀ (a : Bool) (r : Res (BigIntProg.Out × BigIntProg.Vars)) (t : Option Nat),
      (∀ o v, r = .ok (o, v) → ∀ z, t = some z ∧ o = .done ∨ v z = w.vars z) →
      (if a = true then (.ok (none, w) : Res (Option BigIntProg.Out × Ints)) else do
        let (o, v) ← r
        return (some o, ⟨v, fun z => if t = some z ∧ o = .done then (v z).digits.length + f.spare.1 else w.caps z⟩)) =
        .ok (o, w') → (w'.vars z).digits.length ≤ w'.caps z := by
    intro a r t hr he
    cases a
    · rcases r with e | ⟨o', v⟩
      · cases he
      · cases he
        simp only
        split
        · omega
        · rename_i hn
          rcases hr o' v rfl z with hz | hz
          · exact absurd hz hn
          · rw [hz]; exact h z
    · cases he; exact h z
  cases s with
  | copy x y =>
    by_cases hxy : x = y
    · simp only [intStep, hxy, if_true] at hs; cases hs; exact h z
    · simp only [intStep, hxy, if_false] at hs
      have := assign_fits (releases := releases) (fails := f.first) (b := w.vars y) (h x)
      cases hs
      by_cases hz : z = x
      · simpa [Ints.put, BigIntProg.Vars.set, hz] using this
      · simpa [Ints.put, BigIntProg.Vars.set, hz] using h z
  | move x y =>
    by_cases hxy : x = y
    · simp only [intStep, hxy, if_true] at hs; cases hs; exact h z
    · simp only [intStep, hxy, if_false] at hs
      cases hs
      by_cases hy : z = y
      · simp [Ints.put, BigIntProg.Vars.set, hy, BigInt.move]
      · by_cases hz : z = x
        · subst hz
          simpa [Ints.put, BigIntProg.Vars.set, hy, BigInt.move] using h y
        · simpa [Ints.put, BigIntProg.Vars.set, hz, hy] using h z
  | numeral x i =>
    exact rest _ _ (some x) (fun o v hv z => by simpa [eq_comm] using int_store_fits _ x _ o v hv z) hs
  | bin op x y i =>
    exact rest _ _ (some x) (fun o v hv z => by simpa [eq_comm] using int_store_fits _ x _ o v hv z) hs
  | un op x y =>
    exact rest _ _ (some x) (fun o v hv z => by simpa [eq_comm] using int_store_fits _ x _ o v hv z) hs
  | print x => exact rest _ _ none (fun o v hv z => by cases hv; exact .inr rfl) hs
  | compare op x y => exact rest (intAllocates (.compare op x y) && f.first) (BigIntProg.step fuel w.vars (.compare op x y)) none (fun o v hv z => by cases hv; exact .inr rfl) hs
  | size x => exact rest (intAllocates (.size x) && f.first) (BigIntProg.step fuel w.vars (.size x)) none (fun o v hv z => by cases hv; exact .inr rfl) hs

theorem floatStep_fits {releases : Bool} {fuel : Nat} {w w' : Floats} {s : BigFloatProg.Stmt} {f : Fate} {o : Option BigFloatProg.Out}
    (h : FloatsFit w) (hs : floatStep releases fuel w s f = .ok (o, w')) : FloatsFit w' := by
  intro z
  have rest : ∀ (a : Bool) (r : Res (BigFloatProg.Out × BigFloatProg.Vars)) (t : Option Nat),
      (∀ o v, r = .ok (o, v) → ∀ z, t = some z ∧ o = .done ∨ v z = w.vars z) →
      (if a = true then (.ok (none, w) : Res (Option BigFloatProg.Out × Floats)) else do
        let (o, v) ← r
        return (some o, ⟨v, fun z =>
          if t = some z ∧ o = .done then ((v z).int.digits.length + f.spare.1, (v z).frac.digits.length + f.spare.2)
          else w.caps z⟩)) =
        .ok (o, w') → (w'.vars z).int.digits.length ≤ (w'.caps z).1 ∧ (w'.vars z).frac.digits.length ≤ (w'.caps z).2 := by
    intro a r t hr he
    cases a
    · rcases r with e | ⟨o', v⟩
      · cases he
      · cases he
        simp only
        split
        · simp only; omega
        · rename_i hn
          rcases hr o' v rfl z with hz | hz
          · exact absurd hz hn
          · rw [hz]; exact h z
    · cases he; exact h z
  cases s with
  | copy x y =>
    by_cases hxy : x = y
    · simp only [floatStep, hxy, if_true] at hs; cases hs; exact h z
    · simp only [floatStep, hxy, if_false] at hs
      have h1 := assign_fits (releases := releases) (fails := f.first) (b := (w.vars y).int) (h x).1
      have h2 := assign_fits (releases := releases) (fails := f.second) (b := (w.vars y).frac) (h x).2
      have key : (assignFloat releases f (w.caps x) (w.vars x) (w.vars y)).2.1.int.digits.length ≤
            (assignFloat releases f (w.caps x) (w.vars x) (w.vars y)).2.2.1 ∧
          (assignFloat releases f (w.caps x) (w.vars x) (w.vars y)).2.1.frac.digits.length ≤
            (assignFloat releases f (w.caps x) (w.vars x) (w.vars y)).2.2.2 := by
        unfold assignFloat
        revert h1 h2
        rcases assign releases f.first (w.caps x).1 (w.vars x).int (w.vars y).int with ⟨a, i, c⟩
        rcases assign releases f.second (w.caps x).2 (w.vars x).frac (w.vars y).frac with ⟨b, r, d⟩
        intro h1 h2
        cases a
        · exact ⟨h1, (h x).2⟩
        · cases b <;> exact ⟨h1, h2⟩
      cases hs
      by_cases hz : z = x
      · simpa [Floats.put, BigFloatProg.Vars.set, hz] using key
      · simpa [Floats.put, BigFloatProg.Vars.set, hz] using h z
  | move x y =>
    by_cases hxy : x = y
    · simp only [floatStep, hxy, if_true] at hs; cases hs; exact h z
    · simp only [floatStep, hxy, if_false] at hs
      cases hs
      by_cases hy : z = y
      · simp [Floats.put, BigFloatProg.Vars.set, hy, BigFloat.move, BigInt.move]
      · by_cases hz : z = x
        · subst hz
          simpa [Floats.put, BigFloatProg.Vars.set, hy, BigFloat.move, BigInt.move] using h y
        · simpa [Floats.put, BigFloatProg.Vars.set, hz, hy] using h z
  | whole x i =>
    exact rest _ _ (some x) (fun o v hv z => by simpa [eq_comm] using float_store_fits _ x _ o v hv z) hs
  | point x n i k j =>
    exact rest _ _ (some x) (fun o v hv z => by simpa [eq_comm] using float_store_fits _ x _ o v hv z) hs
  | bin op x y i =>
    exact rest _ _ (some x) (fun o v hv z => by simpa [eq_comm] using float_store_fits _ x _ o v hv z) hs
  | un op x y =>
    exact rest _ _ (some x) (fun o v hv z => by simpa [eq_comm] using float_store_fits _ x _ o v hv z) hs
  | print x => exact rest _ _ none (fun o v hv z => by cases hv; exact .inr rfl) hs
  | compare op x y => exact rest (floatAllocates (.compare op x y) && f.first) (BigFloatProg.step fuel w.vars (.compare op x y)) none (fun o v hv z => by cases hv; exact .inr rfl) hs
  | size x => exact rest (floatAllocates (.size x) && f.first) (BigFloatProg.step fuel w.vars (.size x)) none (fun o v hv z => by cases hv; exact .inr rfl) hs

/-- C165. The digits of the variables are always in storage that is large enough for them, whatever fails. -/
theorem C165_storage (releases : Bool) (fuel : Nat) :
    (∀ (p : List (BigIntProg.Stmt × Fate)) (w w' : Ints) (os : List (Option BigIntProg.Out)), IntsFit w →
      intRun releases fuel w p = .ok (os, w') → IntsFit w') ∧
    ∀ (p : List (BigFloatProg.Stmt × Fate)) (w w' : Floats) (os : List (Option BigFloatProg.Out)), FloatsFit w →
      floatRun releases fuel w p = .ok (os, w') → FloatsFit w' := by
  constructor
  · intro p
    induction p with
    | nil => intro w w' os h hr; cases hr; exact h
    | cons sf p ih =>
      intro w w' os h hr
      simp only [intRun, bind, Except.bind] at hr
      cases hs : intStep releases fuel w sf.1 sf.2 with
      | error e => rw [hs] at hr; cases hr
      | ok r =>
        rw [hs] at hr
        simp only at hr
        cases ht : intRun releases fuel r.2 p with
        | error e => rw [ht] at hr; cases hr
        | ok t =>
          rw [ht] at hr
          cases hr
          exact ih _ _ _ (intStep_fits h hs) ht
  · intro p
    induction p with
    | nil => intro w w' os h hr; cases hr; exact h
    | cons sf p ih =>
      intro w w' os h hr
      simp only [floatRun, bind, Except.bind] at hr
      cases hs : floatStep releases fuel w sf.1 sf.2 with
      | error e => rw [hs] at hr; cases hr
      | ok r =>
        rw [hs] at hr
        simp only at hr
        cases ht : floatRun releases fuel r.2 p with
        | error e => rw [ht] at hr; cases hr
        | ok t =>
          rw [ht] at hr
          cases hr
          exact ih _ _ _ (floatStep_fits h hs) ht

end Caitlyn
