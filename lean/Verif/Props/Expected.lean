import Verif.Proofs.ExpectedExact

/-! # C65-C67: `Expected` is a sum type with lawful combinators and safe lifetimes -/

namespace Caitlyn
open Expected

/-- The objects a program can have: constructed from a value or from an error. -/
inductive Spec.Built {T E : Type} : Expected T E → Prop where
  | value (v : T) : Spec.Built (ofValue v)
  | error (e : E) : Spec.Built (ofError e)

open Spec
variable {T E U V σ : Type}

/-! ## C65 -/

/-- C65: `HasValue` and `HasError` are complementary, on every object. -/
theorem C65_complementary (x : Expected T E) : x.hasError = !x.hasValue' := rfl

/-- C65: an object constructed from a value has it: the tag says so, `Get`, `Expect`, `UnwrapOr`, `UnwrapOrElse`
and `Fold` give or use it, `GetError` throws `logic_error`, `ExpectError` throws `runtime_error`. -/
theorem C65_value (v d : T) (u : U) (g : E → Eff σ T) (f : U → T → Eff σ U) :
    let x : Expected T E := ofValue v
    x.hasValue' = true ∧ x.hasError = false ∧ x.get = .ok v ∧ x.getError = .error .logicError ∧
      x.unwrapOr d = .ok v ∧ x.unwrapOrElse g = pure v ∧ x.fold u f = f u v ∧
      x.expect = .ok v ∧ x.expectError = .error .runtimeError := by
  refine ⟨rfl, rfl, rfl, rfl, rfl, rfl, ?_, rfl, rfl⟩
  simp [Expected.fold, ofValue, readValue, liftM, monadLift, MonadLift.monadLift]
  rfl

/-- C65: an object constructed from an error has it. -/
theorem C65_error (e : E) (d : T) (u : U) (g : E → Eff σ T) (f : U → T → Eff σ U) :
    let x : Expected T E := ofError e
    x.hasValue' = false ∧ x.hasError = true ∧ x.getError = .ok e ∧ x.get = .error .logicError ∧
      x.unwrapOr d = .ok d ∧ x.unwrapOrElse g = g e ∧ x.fold u f = pure u ∧
      x.expectError = .ok e ∧ x.expect = .error .runtimeError := by
  exact ⟨rfl, rfl, rfl, rfl, rfl, rfl, rfl, rfl, rfl⟩

/-- C65: copies hold the same, and every object a program can have is of one of the two kinds: `Get` and `GetError`
never read the member of the union that is not alive. -/
theorem C65_sum (x : Expected T E) (h : Built x) :
    x.copy = .ok x ∧
      ((∃ v, x.get = .ok v ∧ x.getError = .error .logicError) ∨
        ∃ e, x.getError = .ok e ∧ x.get = .error .logicError) := by
  cases h with
  | value v => exact ⟨rfl, .inl ⟨v, rfl, rfl⟩⟩
  | error e => exact ⟨rfl, .inr ⟨e, rfl, rfl⟩⟩

example : (ofValue 3 : Expected Nat String).get = .ok 3 ∧ (ofError "no" : Expected Nat String).unwrapOr 7 = .ok 7 ∧
    Built (ofError "no" : Expected Nat String) := ⟨rfl, rfl, .error _⟩

/-! ## C66 -/

/-- C66: combinators on the value side do not run their function on an error and pass the error on; they leave the
world as it was. -/
theorem C66_short_circuit_error (e : E) (f : T → Eff σ U) (g : T → Eff σ (Expected T E)) :
    (ofError e : Expected T E).map f = pure (ofError e) ∧ (ofError e : Expected T E).andThen g = pure (ofError e) :=
  ⟨rfl, rfl⟩

/-- C66: combinators on the error side do not run their function on a value and pass the value on. -/
theorem C66_short_circuit_value (v : T) (f : E → Eff σ E) (g : E → Eff σ (Expected T E)) (k : E → Eff σ Unit) :
    (ofValue v : Expected T E).mapError f = pure (ofValue v) ∧
      (ofValue v : Expected T E).orElse g = pure (ofValue v) ∧
      (ofValue v : Expected T E).onError k = pure (ofValue v) :=
  ⟨rfl, rfl, rfl⟩

/-- C66: on their own side the combinators run the function exactly once and use its result. -/
theorem C66_runs_once (v : T) (e : E) (f : T → Eff σ U) (g : T → Eff σ (Expected T E)) (p : E → Eff σ E)
    (q : E → Eff σ (Expected T E)) (k : E → Eff σ Unit) :
    (ofValue v : Expected T E).map f = (do return ofValue (← f v)) ∧
      (ofValue v : Expected T E).andThen g = g v ∧
      (ofError e : Expected T E).mapError p = (do return ofError (← p e)) ∧
      (ofError e : Expected T E).orElse q = q e ∧
      (ofError e : Expected T E).onError k = (do k e; return ofError e) :=
  ⟨rfl, rfl, rfl, rfl, rfl⟩

theorem map_value (v : T) (f : T → Eff σ U) :
    (ofValue v : Expected T E).map f = (do return ofValue (← f v)) := rfl

theorem mapError_error (e : E) (f : E → Eff σ E) :
    (ofError e : Expected T E).mapError f = (do return ofError (← f e)) := rfl

/-- C66: functor laws of `Map`, for functions with effects. -/
theorem C66_functor (x : Expected T E) (h : Built x) (f : T → Eff σ U) (g : U → Eff σ V) :
    x.map (fun v => (pure v : Eff σ T)) = pure x ∧
      x.map (fun v => do g (← f v)) = (do (← x.map f).map g) := by
  cases h with
  | error e => exact ⟨rfl, rfl⟩
  | value v =>
    refine ⟨rfl, ?_⟩
    simp only [map_value, bind_assoc, pure_bind]

/-- C66: functor laws of `MapError`. -/
theorem C66_functor_error (x : Expected T E) (h : Built x) (f g : E → Eff σ E) :
    x.mapError (fun v => (pure v : Eff σ E)) = pure x ∧
      x.mapError (fun v => do g (← f v)) = (do (← x.mapError f).mapError g) := by
  cases h with
  | value e => exact ⟨rfl, rfl⟩
  | error v =>
    refine ⟨rfl, ?_⟩
    simp only [mapError_error, bind_assoc, pure_bind]

/-- C66: monad laws of `AndThen` (and of `Then`, which is the same code). -/
theorem C66_monad (x : Expected T E) (h : Built x) (v : T) (f g : T → Eff σ (Expected T E)) :
    (ofValue v : Expected T E).andThen f = f v ∧
      x.andThen (σ := σ) (fun v => pure (ofValue v)) = pure x ∧
      (do (← x.andThen f).andThen g) = x.andThen (fun v => do (← f v).andThen g) := by
  cases h <;> exact ⟨rfl, rfl, rfl⟩

/-- C66: the same laws for `OrElse` (and `CatchError`) on errors. -/
theorem C66_monad_error (x : Expected T E) (h : Built x) (e : E) (f g : E → Eff σ (Expected T E)) :
    (ofError e : Expected T E).orElse f = f e ∧
      x.orElse (σ := σ) (fun e => pure (ofError e)) = pure x ∧
      (do (← x.orElse f).orElse g) = x.orElse (fun e => do (← f e).orElse g) := by
  cases h <;> exact ⟨rfl, rfl, rfl⟩

/-- C66: `Map` is `AndThen` with a wrapped result, as for every monad. -/
theorem C66_map_is_andThen (x : Expected T E) (h : Built x) (f : T → Eff σ T) :
    x.map f = x.andThen (fun v => do return ofValue (← f v)) := by
  cases h <;> rfl

/-- C66: `OnError` returns the object unchanged whenever its function returns, and `Inspect` runs exactly the
function of the object's side. -/
theorem C66_observers (x : Expected T E) (h : Built x) (k : E → Eff σ Unit) (f : T → Eff σ U) (g : E → Eff σ U) :
    (∀ s y s', x.onError k s = .ok (y, s') → y = x) ∧
      ((∃ v, x = ofValue v ∧ x.inspect f g = f v) ∨ ∃ e, x = ofError e ∧ x.inspect f g = g e) := by
  cases h with
  | value v =>
    refine ⟨fun s y s' hk => ?_, .inl ⟨v, rfl, rfl⟩⟩
    rw [(C66_short_circuit_value v (fun e => pure e) (fun e => pure (ofError e)) k).2.2] at hk
    injection hk with hk
    exact (Prod.mk.inj hk).1.symm
  | error e =>
    refine ⟨fun s y s' hk => ?_, .inr ⟨e, rfl, rfl⟩⟩
    change (do k e; return ofError e : Eff σ (Expected T E)) s = _ at hk
    simp only [bind, StateT.bind, Except.bind, pure, StateT.pure, Except.pure] at hk
    cases hr : k e s with
    | error _ => rw [hr] at hk; cases hk
    | ok r =>
      rw [hr] at hk
      injection hk with hk
      exact (Prod.mk.inj hk).1.symm

/-- A function with effects: it counts its calls and throws on zero. -/
private def half : Nat → Eff Nat (Expected Nat String) := fun n => do
  modify (· + 1)
  if n = 0 then throw .invalidArgument
  if n % 2 = 0 then return ofValue (n / 2) else return ofError "odd"

example : (((ofValue 12 : Expected Nat String).andThen half >>= (·.andThen half)) 0).map (·.2) = .ok 2 ∧
    (((ofValue 6 : Expected Nat String).andThen half >>= (·.andThen half)) 0).map (fun r => (r.1.getError, r.2)) =
      .ok (.ok "odd", 2) ∧
    (((ofError "odd" : Expected Nat String).andThen half >>= (·.andThen half)) 0).map (·.2) = .ok 0 := by
  refine ⟨rfl, rfl, rfl⟩

/-! ## C67 -/

open Lifetime

/-- The history has no assignment during which copying (or moving) the contained object throws. -/
def Spec.NoThrowingAssignment (ops : List Op) : Prop :=
  ∀ op ∈ ops, ∀ x y, op ≠ .assign x y true

/-- C67 (part): over every history of construction (also throwing), copy, move, assignment (also to itself) and
destruction of `Expected` variables, in which the copy made by an assignment does not throw, no contained object is
used or destroyed while not alive; every contained object ever created is either alive, inside exactly one existing
variable, or has been destroyed exactly once. -/
theorem C67_no_throw_partial (ops : List Op) (h : NoThrowingAssignment ops) :
    ∃ w, run {} ops = .ok w ∧
      (∀ id < w.next, w.live.count id + w.dead.count id = 1) ∧
      (∀ id, w.live.count id = (w.vars.filter fun e => e.2.payload = some (e.2.hasValue, id)).length) ∧
      ∀ e ∈ w.vars, ∃ id ∈ w.live, e.2.payload = some (e.2.hasValue, id) := by
  obtain ⟨w, h1, h2⟩ := Inv.run Inv.init ops (by
    intro op hop
    cases op with
    | assign x y t =>
      cases t with
      | false => rfl
      | true => exact absurd rfl (h _ hop x y)
    | _ => trivial)
  refine ⟨w, h1, ?_, ?_, ?_⟩
  · intro id hid
    rw [← List.count_append, h2.all.count_eq]
    have h1 := List.nodup_iff_count.1 (List.nodup_range (n := w.next)) id
    have h2 := List.count_pos_iff.2 (List.mem_range.2 hid)
    omega
  · intro id
    rw [h2.live.count_eq, ids]
    have hf := h2.full
    generalize w.vars = vars at hf
    induction vars with
    | nil => rfl
    | cons e t ih =>
      obtain ⟨i, hi⟩ := hf e (by simp)
      have ih := ih (fun e he => hf e (by simp [he]))
      rw [List.filterMap_cons, hi]
      simp only [Option.map_some, List.count_cons, List.filter_cons, hi]
      by_cases hc : i = id
      · subst hc
        simp [ih]
      · rw [ih]
        simp [hc]
  · intro e he
    obtain ⟨id, hid⟩ := h2.full e he
    refine ⟨id, h2.live.mem_iff.2 ?_, hid⟩
    exact ids_mem (y := e.1) (s := e.2) he hid

/-- C67 (part): once all variables are gone, everything created has been destroyed exactly once. -/
theorem C67_no_leak_partial (ops : List Op) (h : NoThrowingAssignment ops) (w : World) (hw : run {} ops = .ok w)
    (hv : w.vars = []) : w.live = [] ∧ ∀ id < w.next, w.dead.count id = 1 := by
  obtain ⟨w', h1, h2, h3, h4⟩ := C67_no_throw_partial ops h
  rw [hw] at h1
  injection h1 with h1
  subst h1
  have hl : w.live = [] := by
    rw [List.eq_nil_iff_forall_not_mem]
    intro id hid
    have := h3 id
    rw [hv] at this
    exact absurd (List.count_pos_iff.2 hid) (by simp [this])
  refine ⟨hl, fun id hid => ?_⟩
  have := h2 id hid
  rw [hl] at this
  simpa using this

example : NoThrowingAssignment [.make 0 true false, .make 1 false false, .assign 0 1 false, .make_from 2 0 true,
      .assign 0 0 false, .destroy 0, .destroy 1] ∧
    (run {} [.make 0 true false, .make 1 false false, .assign 0 1 false, .make_from 2 0 true,
      .assign 0 0 false, .destroy 0, .destroy 1]).map (fun w => (w.live, w.dead)) = .ok ([], [1, 2, 0]) := by
  refine ⟨?_, by decide⟩
  intro op hop x y
  simp only [List.mem_cons, List.not_mem_nil, or_false] at hop
  rcases hop with rfl | rfl | rfl | rfl | rfl | rfl | rfl <;> simp

/-- C67 does not hold when copies may throw, exactly so: an assignment whose copy throws leaves a broken variable, and
a history is undefined exactly when it uses one later (destroys it, assigns to it or from it, copies it). Otherwise
every variable holds what the history says, every contained object ever created is alive or has been destroyed exactly
once, and it is alive exactly when it is inside an existing variable that is not broken. -/
theorem C67_exact_fails (ops : List Op) :
    match healthRun (fun _ => none) ops with
    | none => run {} ops = .error .ub
    | some s => ∃ w, run {} ops = .ok w ∧
        (∀ x, (w.get x).map (fun e => e.payload.map Prod.fst) = s x) ∧
        (∀ e ∈ w.vars, ∀ b id, e.2.payload = some (b, id) → b = e.2.hasValue ∧ id < w.next) ∧
        (∀ id < w.next, w.live.count id + w.dead.count id = 1) ∧
        ∀ id, w.live.count id = (w.vars.filter fun e => e.2.payload = some (e.2.hasValue, id)).length := by
  have h := Exact.init.run ops
  cases hs : healthRun (fun _ => none) ops with
  | none => rw [hs] at h; exact h
  | some s =>
    rw [hs] at h
    obtain ⟨w, h1, h2⟩ := h
    refine ⟨w, h1, h2.state, ?_, ?_, ?_⟩
    · intro e he b id hp
      refine ⟨h2.flag e he b id hp, ?_⟩
      have := h2.live.mem_iff.2 (ids_mem (y := e.1) (s := e.2) he hp)
      exact List.mem_range.1 (h2.all.mem_iff.1 (List.mem_append_left _ this))
    · intro id hid
      rw [← List.count_append, h2.all.count_eq]
      have h1 := List.nodup_iff_count.1 (List.nodup_range (n := w.next)) id
      have h2 := List.count_pos_iff.2 (List.mem_range.2 hid)
      omega
    · intro id
      rw [h2.live.count_eq, ids]
      have hf := h2.flag
      generalize w.vars = vars at hf
      induction vars with
      | nil => rfl
      | cons e t ih =>
        have ih := ih fun e he => hf e (by simp [he])
        have hf := hf e (by simp)
        obtain ⟨x, b, p⟩ := e
        cases p with
        | none => simpa using ih
        | some p =>
          obtain ⟨c, i⟩ := p
          have hc : c = b := hf c i rfl
          subst hc
          by_cases hi : i = id
          · subst hi; simpa using ih
          · simp only [List.filterMap_cons, Option.map_some, List.count_cons, beq_iff_eq, hi, if_false, Nat.add_zero]
            rw [List.filter_cons_of_neg (by simpa using hi)]
            exact ih

/-- C67 does not hold when copies may throw: every assignment between two healthy variables that throws destroys the
contents of its target for good, and no later statement gives them back: the target then can never be destroyed without
undefined behaviour. -/
theorem C67_doomed_fails (ops later : List Op) (s : Health) (x y : Nat) (a b : Bool)
    (h : healthRun (fun _ => none) ops = some s) (hx : s x = some (some a)) (hy : s y = some (some b)) (hxy : x ≠ y) :
    run {} (ops ++ [.assign x y true] ++ later ++ [.destroy x]) = .error .ub := by
  have happ : ∀ (l m : List Op) (s : Health), healthRun s (l ++ m) = (healthRun s l).bind fun s => healthRun s m := by
    intro l
    induction l with
    | nil => intro m s; rfl
    | cons op l ih =>
      intro m s
      rw [List.cons_append, healthRun, healthRun]
      cases healthStep s op with
      | none => rfl
      | some s' => exact ih m s'
  have hkeep : ∀ (op : Op) (s s' : Health), s x = some none → healthStep s op = some s' → s' x = some none := by
    intro op s s' hx hs
    cases op with
    | make z b t =>
      simp only [healthStep, Option.some.injEq] at hs
      subst hs
      split
      · rename_i hc
        unfold Health.put
        rw [if_neg (by rintro rfl; rw [hx] at hc; cases hc.1)]
        exact hx
      · exact hx
    | make_from z y t =>
      simp only [healthStep] at hs
      split at hs
      · cases hs
      · rename_i hz _
        cases t
        · simp only [Bool.false_eq_true, if_false, Option.some.injEq] at hs
          subst hs
          unfold Health.put
          rw [if_neg (by rintro rfl; rw [hx] at hz; cases hz)]
          exact hx
        · simp only [if_true, Option.some.injEq] at hs
          subst hs
          exact hx
      · injection hs with hs; subst hs; exact hx
    | assign z y t =>
      simp only [healthStep] at hs
      split at hs
      · injection hs with hs; subst hs; exact hx
      · split at hs
        · rename_i hz _
          injection hs with hs
          subst hs
          unfold Health.put
          rw [if_neg (by rintro rfl; rw [hx] at hz; cases hz)]
          exact hx
        · cases hs
        · injection hs with hs; subst hs; exact hx
    | destroy z =>
      simp only [healthStep] at hs
      split at hs
      · cases hs
      · rename_i hz
        injection hs with hs
        subst hs
        unfold Health.put
        rw [if_neg (by rintro rfl; exact hz hx)]
        exact hx
  have hrun : ∀ (l : List Op) (s : Health), s x = some none → healthRun s (l ++ [.destroy x]) = none := by
    intro l
    induction l with
    | nil => intro s hs; simp [healthRun, healthStep, hs]
    | cons op l ih =>
      intro s hs
      rw [List.cons_append, healthRun]
      cases hst : healthStep s op with
      | none => rfl
      | some s' => exact ih s' (hkeep op s s' hs hst)
  have h1 := C67_exact_fails (ops ++ [.assign x y true] ++ later ++ [.destroy x])
  rw [List.append_assoc, List.append_assoc] at h1 ⊢
  rw [happ, h] at h1
  have h2 : healthRun s ([.assign x y true] ++ (later ++ [.destroy x])) = none := by
    rw [List.cons_append, List.nil_append, healthRun]
    simp only [healthStep, hxy, if_false, hx, hy, if_true, Option.bind_some]
    exact hrun later _ (by simp [Health.put])
  simp only [Option.bind_some, h2] at h1
  exact h1

example : ((healthRun (fun _ => none) [.make 0 true false, .make 1 false false, .assign 0 1 true, .make_from 2 1 false,
      .assign 1 2 false]).map fun s => (s 0, s 1, s 2, s 3)) =
        some (some none, some (some false), some (some false), none) ∧
    (run {} [.make 0 true false, .make 1 false false, .assign 0 1 true, .make_from 2 1 false,
      .assign 1 2 false]).map (fun w => (w.live, w.dead)) = .ok ([3, 2], [1, 0]) := by
  decide

/-- C67 does not hold when copies may throw: `Expected x{value}; Expected y{value}; try { x = y; } catch (...) {}`
with a copy constructor that throws leaves `x` with its flag set but its value destroyed, and the destructor of `x`
destroys the value again. -/
theorem C67_fails :
    run {} [.make 0 true false, .make 1 true false, .assign 0 1 true, .destroy 0] = .error .ub := by decide

end Caitlyn
