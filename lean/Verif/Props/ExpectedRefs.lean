import Verif.Proofs.ExpectedRefs
import Verif.Lit

/-! # Property C174: references to the value and the error of an `Expected` -/

namespace Caitlyn
open ExpectedRefs Spec.ExpectedRefs
open ExpectedProg (Moved)

variable {T E : Type}

theorem ExpectedRefs.start_past : ({} : State T E).Past := fun _ _ h => by cases h

/-- The binding of a reference to what a variable holds, and a program after it. -/
theorem ExpectedRefs.bound (moved : Moved T E) {st st' : State T E} {os : List (Out T E)} {r x : Nat} {k : Bool} {c : T ⊕ E}
    {q : List (Stmt T E)} (h : st.Past) (hc : st.holds x = some c) (hk : c.isLeft = k) (keep : Keeps r q)
    (e : run moved st (.bind r k (.var x) :: q) = .ok (os, st')) :
    ∃ s, st'.refs r = some (some (x, s)) ∧ (st'.Alive x s ↔ Steady moved st.holds x k q) := by
  obtain ⟨o, st1, os', e1, e2, rfl⟩ := run_cons moved e
  obtain ⟨a, b, -⟩ := step_spec moved h e1
  simp only [State.holds, Option.map_eq_some_iff] at hc
  obtain ⟨d, hd, rfl⟩ := hc
  rw [step, hd] at e1
  simp only [if_pos hk, Except.ok.injEq, Prod.mk.injEq] at e1
  obtain ⟨-, rfl⟩ := e1
  refine ⟨d.since, ?_, ?_⟩
  · rw [run_refs moved r q _ _ _ b.past keep e2]
    simp
  · have := run_alive moved x d.since k q _ _ _ b.past (h x d hd) (fun c (hc : st.vars x = _) _ => by
      rw [hd] at hc; cases hc; exact hk) e2
    rw [this]
    exact ⟨And.right, fun g => ⟨⟨d, hd, rfl⟩, g⟩⟩

/-- C174. In every program the variables hold what the assignments say, references or not. -/
theorem C174_variables (moved : Moved T E) (p : List (Stmt T E)) (os : List (Out T E)) (st : State T E)
    (h : run moved {} p = .ok (os, st)) (x : Nat) : (st.vars x).map (·.content) = afterAll moved (fun _ => none) p x := by
  exact congrFun (run_spec moved p {} st os start_past h).1 x

/-- C174, exactly: after any program `p`, `const T& r = x.Get();` (or `const E& r = x.GetError();`) and any statements `q` without undefined
behaviour, reading `r` is defined if and only if `x` has existed and has held a value (an error) all the time of `q`; and what is read is
then what `x` holds now. -/
theorem C174_partial (moved : Moved T E) (p q : List (Stmt T E)) (r x : Nat) (k : Bool) (c : T ⊕ E) (keep : Keeps r q)
    (hc : afterAll moved (fun _ => none) p x = some c) (hk : c.isLeft = k) (os : List (Out T E)) (st : State T E)
    (h : run moved {} (p ++ .bind r k (.var x) :: q) = .ok (os, st)) :
    (Steady moved (afterAll moved (fun _ => none) p) x k q →
      ∃ c', afterAll moved (fun _ => none) (p ++ q) x = some c' ∧ step moved st (.get r) = .ok (.read c', st)) ∧
    (¬ Steady moved (afterAll moved (fun _ => none) p) x k q → step moved st (.get r) = .error .ub) := by
  have split : ∀ (p q : List (Stmt T E)) (st st' : State T E) (os : List (Out T E)), run moved st (p ++ q) = .ok (os, st') →
      ∃ os1 st1 os2, run moved st p = .ok (os1, st1) ∧ run moved st1 q = .ok (os2, st') := by
    intro p
    induction p with
    | nil => intro q st st' os e; exact ⟨[], st, os, rfl, e⟩
    | cons s p ih =>
      intro q st st' os e
      obtain ⟨o, st1, os', e1, e2, rfl⟩ := run_cons moved e
      obtain ⟨os1, st2, os2, g1, g2⟩ := ih q st1 st' os' e2
      exact ⟨o :: os1, st2, os2, by rw [run, e1]; simp only [bind, Except.bind, g1]; rfl, g2⟩
  obtain ⟨os1, st1, os2, h1, h2⟩ := split p _ _ _ _ h
  obtain ⟨a1, a2⟩ := run_spec moved p {} st1 os1 start_past h1
  have a1 : st1.holds = afterAll moved (fun _ => none) p := a1
  obtain ⟨s, b1, b2⟩ := bound moved a2 (by rw [a1]; exact hc) hk keep h2
  obtain ⟨c1, c2⟩ := run_spec moved _ st1 st os2 a2 h2
  rw [← a1, ← b2]
  constructor
  · intro ⟨d, hd, hds⟩
    refine ⟨d.content, ?_, by simp [step, b1, hd, hds]⟩
    have : afterAll moved (fun _ => none) (p ++ q) = st.holds := by
      rw [c1, a1]
      simp [afterAll, List.foldl_append, List.foldl_cons, after]
    rw [this]
    simp [State.holds, hd]
  · intro n
    rw [step, b1]
    simp only
    cases hv : st.vars x with
    | none => rfl
    | some d => simp only; rw [if_neg fun g => n ⟨d, hv, g⟩]

/-- C174 does not hold: the variable exists all the time and holds a value at the end, but in between it held an error, and reading the
reference is undefined. For all values and errors. -/
theorem C174_fails (moved : Moved T E) (v w : T) (e : E) (x r : Nat) :
    ∃ os st, run moved {} [.make x (.inl v), .bind r true (.var x), .set x (.inr e), .set x (.inl w)] = .ok (os, st) ∧
      (st.vars x).map (·.content) = some (.inl w) ∧ step moved st (.get r) = .error .ub := by
  refine ⟨[.done, .done, .done, .done], _, by simp [run, step, State.put, bind, Except.bind, pure, Except.pure]; rfl, ?_, ?_⟩
  · simp
  · simp [step]

/-- C174. A reference to the value of a temporary, `const T& r = f().Get();`, is never valid: reading it is undefined, whatever the program and
the statements between. (`UnwrapOr` returns a copy.) -/
theorem C174_temporary_fails (moved : Moved T E) (p q : List (Stmt T E)) (r : Nat) (c : T ⊕ E) (keep : Keeps r q) (os : List (Out T E))
    (st : State T E) (h : run moved {} (p ++ .bind r c.isLeft (.temp c) :: q) = .ok (os, st)) : step moved st (.get r) = .error .ub := by
  have gen : ∀ (p : List (Stmt T E)) (st0 : State T E) (os : List (Out T E)), st0.Past →
      run moved st0 (p ++ .bind r c.isLeft (.temp c) :: q) = .ok (os, st) → st.refs r = some none := by
    intro p
    induction p with
    | nil =>
      intro st0 os h0 e
      obtain ⟨o, st1, os', e1, e2, rfl⟩ := run_cons moved e
      obtain ⟨-, b, -⟩ := step_spec moved h0 e1
      rw [run_refs moved r q _ _ _ b.past keep e2]
      rw [step, if_pos rfl] at e1
      cases e1
      simp
    | cons s p ih =>
      intro st0 os h0 e
      obtain ⟨o, st1, os', e1, e2, rfl⟩ := run_cons moved e
      exact ih st1 os' (step_spec moved h0 e1).2.1.past e2
  rw [step, gen p _ _ start_past h]

/-- A program in which a reference follows an assignment. -/
example : (run (⟨id, id⟩ : Moved Nat Bool) {} [.make 0 (.inl 1), .bind 0 true (.var 0), .set 0 (.inl 2), .get 0]).map (fun r => r.1.getLast?.map fun
    | .read c => some c
    | _ => none) = .ok (some (some (.inl 2))) := by decide +kernel

end Caitlyn
