import Verif.Model.ExpectedProg

/-! # C114: variables of type `Expected` behave like variables of a sum type -/

namespace Caitlyn
open ExpectedProg

namespace Spec

/-- The intended meaning: every variable in scope holds a value or an error. -/
abbrev SumVars (T E : Type) := Nat → Option (T ⊕ E)

variable {T E : Type}

/-- The contents of the variables after a statement. -/
def SumVars.after (m : Moved T E) (v : SumVars T E) : Op T E → SumVars T E
  | .make x c throws => fun z => if z = x ∧ v x = none ∧ throws = false then some c else v z
  | .copy x y throws => fun z => if z = x ∧ v x = none ∧ throws = false then v y else v z
  | .move x y throws => fun z =>
    if v x = none ∧ throws = false then
      if z = x then v y else if z = y then (v y).map m.sum else v z
    else v z
  | .assign x y throws => fun z => if z = x ∧ v x ≠ none ∧ v y ≠ none ∧ throws = false then v y else v z
  | .moveAssign x y throws => fun z =>
    if v x ≠ none ∧ v y ≠ none ∧ x ≠ y ∧ throws = false then
      if z = x then v y else if z = y then (v y).map m.sum else v z
    else v z
  | .destroy x => fun z => if z = x then none else v z
  | .get _ | .getError _ | .hasValue _ => v

/-- The contents after a program. -/
def SumVars.afterAll (m : Moved T E) (v : SumVars T E) (ops : List (Op T E)) : SumVars T E :=
  ops.foldl (SumVars.after m) v

/-- What a statement gives, from the contents of the variables. -/
def SumVars.gives (v : SumVars T E) : Op T E → Out T E
  | .make x _ throws => if v x = none ∧ throws = true then .thrown else .unit
  | .copy x y throws | .move x y throws => if v x = none ∧ v y ≠ none ∧ throws = true then .thrown else .unit
  | .assign _ _ _ | .moveAssign _ _ _ | .destroy _ => .unit
  | .get x =>
    match v x with
    | some (.inl a) => .value a
    | some (.inr _) => .logicError
    | none => .unit
  | .getError x =>
    match v x with
    | some (.inr e) => .error e
    | some (.inl _) => .logicError
    | none => .unit
  | .hasValue x =>
    match v x with
    | some (.inl _) => .flag true
    | some (.inr _) => .flag false
    | none => .unit

/-- What the statements of a program give. -/
def SumVars.givesAll (m : Moved T E) : SumVars T E → List (Op T E) → List (Out T E)
  | _, [] => []
  | v, op :: ops => v.gives op :: SumVars.givesAll m (v.after m op) ops

/-- What a variable in scope can be: it holds a value or an error; or it is broken, an assignment to it having thrown,
and only its flag is left. -/
inductive Cell (T E : Type) where
  | holds (c : T ⊕ E)
  | broken (flag : Bool)

/-- The variables in scope, broken ones among them. -/
abbrev Cells (T E : Type) := Nat → Option (Cell T E)

def Cells.put (v : Cells T E) (x : Nat) (c : Option (Cell T E)) : Cells T E := fun z => if z = x then c else v z

/-- What a statement gives and the variables after it, where assignments may throw; `none` if it needs the contents of
a broken variable. -/
def Cells.step (m : Moved T E) (v : Cells T E) : Op T E → Option (Out T E × Cells T E)
  | .make x c throws =>
    match v x with
    | some _ => some (.unit, v)
    | none => some (if throws then (.thrown, v) else (.unit, v.put x (some (.holds c))))
  | .copy x y throws =>
    match v x, v y with
    | none, some (.broken _) => none
    | none, some (.holds c) => some (if throws then (.thrown, v) else (.unit, v.put x (some (.holds c))))
    | _, _ => some (.unit, v)
  | .move x y throws =>
    match v x, v y with
    | none, some (.broken _) => none
    | none, some (.holds c) =>
      some (if throws then (.thrown, v)
        else (.unit, (v.put y (some (.holds (m.sum c)))).put x (some (.holds c))))
    | _, _ => some (.unit, v)
  | .assign x y throws =>
    if x = y then some (.unit, v)
    else match v x, v y with
    | some (.holds _), some (.holds c) =>
      some (if throws then (.thrown, v.put x (some (.broken c.isLeft))) else (.unit, v.put x (some (.holds c))))
    | some _, some _ => none
    | _, _ => some (.unit, v)
  | .moveAssign x y throws =>
    if x = y then some (.unit, v)
    else match v x, v y with
    | some (.holds _), some (.holds c) =>
      some (if throws then (.thrown, v.put x (some (.broken c.isLeft)))
        else (.unit, (v.put y (some (.holds (m.sum c)))).put x (some (.holds c))))
    | some _, some _ => none
    | _, _ => some (.unit, v)
  | .destroy x =>
    match v x with
    | some (.broken _) => none
    | _ => some (.unit, v.put x none)
  | .get x =>
    match v x with
    | some (.holds (.inl a)) => some (.value a, v)
    | some (.holds (.inr _)) | some (.broken false) => some (.logicError, v)
    | some (.broken true) => none
    | none => some (.unit, v)
  | .getError x =>
    match v x with
    | some (.holds (.inr e)) => some (.error e, v)
    | some (.holds (.inl _)) | some (.broken true) => some (.logicError, v)
    | some (.broken false) => none
    | none => some (.unit, v)
  | .hasValue x =>
    match v x with
    | some (.holds c) => some (.flag c.isLeft, v)
    | some (.broken b) => some (.flag b, v)
    | none => some (.unit, v)

/-- What the statements of a program give, and the variables after it. -/
def Cells.run (m : Moved T E) : Cells T E → List (Op T E) → Option (List (Out T E) × Cells T E)
  | v, [] => some ([], v)
  | v, op :: ops => (v.step m op).bind fun r => (Cells.run m r.2 ops).map fun q => (r.1 :: q.1, q.2)

/-- No assignment throws; constructors may. -/
def Quiet : Op T E → Prop
  | .assign _ _ throws | .moveAssign _ _ throws => throws = false
  | _ => True

end Spec

open Spec
variable {T E : Type}

/-- The variables whose unions hold what the flags say. -/
def slots (v : SumVars T E) : Vars T E := fun x => (v x).map ofContents

private theorem named_ofContents (c : T ⊕ E) : (ofContents c).named = .ok c := by cases c <;> rfl
private theorem destroy_ofContents (c : T ⊕ E) : (ofContents c).destroyUnion = .ok () := by cases c <;> rfl
private theorem refill (c d : T ⊕ E) (m : Moved T E) :
    (⟨(ofContents c).hasValue, some c⟩ : Slot T E) = ofContents c ∧
    (⟨(ofContents c).hasValue, some (m.sum c)⟩ : Slot T E) = ofContents (m.sum c) := by cases c <;> exact ⟨rfl, rfl⟩

private theorem step_slots (m : Moved T E) (v : SumVars T E) (op : Op T E) (hq : Quiet op) :
    step m (slots v) op = .ok (v.gives op, slots (v.after m op)) := by
  cases op with
  | make x c throws =>
    simp only [step, slots, SumVars.gives]
    cases hx : v x with
    | some a => simp [SumVars.after, hx]
    | none =>
      cases throws
      · simp only [Option.map_none, SumVars.after, hx]
        simp only [Bool.false_eq_true, if_false]
        refine congrArg Except.ok (Prod.ext (by simp) (funext fun z => ?_))
        grind [slots, Vars.set]
      · simp [SumVars.after, hx]
  | copy x y throws =>
    simp only [step, slots, SumVars.gives]
    cases hx : v x with
    | some a => simp [SumVars.after, hx]
    | none =>
      cases hy : v y with
      | none =>
        simp only [Option.map_none, SumVars.after, hx, hy]
        refine congrArg Except.ok (Prod.ext (by simp) (funext fun z => ?_))
        grind [slots, Vars.set]
      | some c =>
        simp only [Option.map_none, Option.map_some, ExpectedProg.copy, named_ofContents, bind, Except.bind, pure, Except.pure,
          SumVars.after, hx, hy, (refill c c m).1]
        cases throws
        · simp only [Bool.false_eq_true, if_false]
          refine congrArg Except.ok (Prod.ext (by simp) (funext fun z => ?_))
          grind [slots, Vars.set]
        · simp
  | move x y throws =>
    simp only [step, slots, SumVars.gives]
    cases hx : v x with
    | some a => simp [SumVars.after, hx]
    | none =>
      cases hy : v y with
      | none =>
        simp only [Option.map_none, SumVars.after, hx, hy]
        refine congrArg Except.ok (Prod.ext (by simp) (funext fun z => ?_))
        grind [slots, Vars.set]
      | some c =>
        simp only [Option.map_none, Option.map_some, ExpectedProg.move, named_ofContents, bind, Except.bind, pure, Except.pure,
          SumVars.after, hx, hy, (refill c c m).1, (refill c c m).2]
        cases throws
        · simp only [Bool.false_eq_true, if_false]
          refine congrArg Except.ok (Prod.ext (by simp) (funext fun z => ?_))
          grind [slots, Vars.set]
        · simp
  | assign x y throws =>
    simp only [Quiet] at hq
    subst hq
    simp only [step, slots, SumVars.gives]
    cases hx : v x with
    | none =>
      simp [SumVars.after, hx]
    | some a =>
      cases hy : v y with
      | none => simp [SumVars.after, hy]
      | some c =>
        simp only [Option.map_some, ExpectedProg.assign, SumVars.after]
        by_cases hxy : x = y
        · subst hxy
          simp only [if_true]
          refine congrArg Except.ok (Prod.ext rfl (funext fun z => ?_))
          grind [slots, Vars.set]
        · simp only [hxy, if_false, destroy_ofContents, named_ofContents, bind, Except.bind, pure, Except.pure,
            Bool.false_eq_true, (refill c c m).1]
          refine congrArg Except.ok (Prod.ext rfl (funext fun z => ?_))
          grind [slots, Vars.set]
  | moveAssign x y throws =>
    simp only [Quiet] at hq
    subst hq
    simp only [step, slots, SumVars.gives]
    cases hx : v x with
    | none => simp [SumVars.after, hx]
    | some a =>
      cases hy : v y with
      | none => simp [SumVars.after, hy]
      | some c =>
        simp only [Option.map_some, ExpectedProg.moveAssign, SumVars.after]
        by_cases hxy : x = y
        · subst hxy; simp
        · simp only [hxy, if_false, destroy_ofContents, named_ofContents, bind, Except.bind, pure, Except.pure,
            Bool.false_eq_true, (refill c c m).1, (refill c c m).2]
          refine congrArg Except.ok (Prod.ext rfl (funext fun z => ?_))
          grind [slots, Vars.set]
  | destroy x =>
    simp only [step, slots, SumVars.gives]
    cases hx : v x with
    | none =>
      simp only [Option.map_none, SumVars.after]
      refine congrArg Except.ok (Prod.ext rfl (funext fun z => ?_))
      grind [slots, Vars.set]
    | some a =>
      simp only [Option.map_some, destroy_ofContents, bind, Except.bind, pure, Except.pure, SumVars.after]
      refine congrArg Except.ok (Prod.ext rfl (funext fun z => ?_))
      grind [slots, Vars.set]
  | get x =>
    simp only [step, slots, SumVars.gives, SumVars.after]
    rcases hx : v x with _ | ⟨_ | _⟩ <;> rfl
  | getError x =>
    simp only [step, slots, SumVars.gives, SumVars.after]
    rcases hx : v x with _ | ⟨_ | _⟩ <;> rfl
  | hasValue x =>
    simp only [step, slots, SumVars.gives, SumVars.after]
    rcases hx : v x with _ | ⟨_ | _⟩ <;> rfl

private theorem run_slots (m : Moved T E) (ops : List (Op T E)) (v : SumVars T E) (h : ∀ op ∈ ops, Quiet op) :
    run m (slots v) ops = .ok (v.givesAll m ops, slots (v.afterAll m ops)) := by
  induction ops generalizing v with
  | nil => rfl
  | cons op ops ih =>
    simp only [run, step_slots m v op (h op (by simp)), bind, Except.bind, ih _ fun o ho => h o (by simp [ho])]
    rfl

/-- C114. Partial: in every program in which no assignment throws, the variables behave like variables of a sum type: what
every statement gives, and the variables after it, are those of the intended meaning, and nothing is undefined. Constructors may
throw. Missing: assignments that throw (`C114_fails`). -/
theorem C114_sum_partial (m : Moved T E) (ops : List (Op T E)) (h : ∀ op ∈ ops, Quiet op) :
    run m (fun _ => none) ops =
      .ok (SumVars.givesAll m (fun _ => none) ops, slots (SumVars.afterAll m (fun _ => none) ops)) :=
  run_slots m ops (fun _ => none) h

/-- C114. A copy is independent: whatever is done later to the other variables, the copy keeps what it was made of. -/
theorem C114_independent (m : Moved T E) (v : SumVars T E) (x y : Nat) (c : T ⊕ E) (hx : v x = none) (hy : v y = some c)
    (ops : List (Op T E)) (h : ∀ op ∈ ops, Quiet op)
    (hk : ∀ op ∈ ops, ∀ y b, op ≠ .assign x y b ∧ op ≠ .moveAssign x y b ∧ op ≠ .moveAssign y x b ∧ op ≠ .move y x b ∧
      op ≠ .destroy x) :
    ∃ os w, run m (slots v) (.copy x y false :: ops) = .ok (os, w) ∧ w x = some (ofContents c) := by
  refine ⟨_, _, run_slots m (.copy x y false :: ops) v ?_, ?_⟩
  · intro op hop
    rcases List.mem_cons.1 hop with rfl | hop
    · trivial
    · exact h op hop
  · have key : ∀ (ops : List (Op T E)) (u : SumVars T E), u x = some c →
        (∀ op ∈ ops, ∀ y b, op ≠ .assign x y b ∧ op ≠ .moveAssign x y b ∧ op ≠ .moveAssign y x b ∧ op ≠ .move y x b ∧
          op ≠ .destroy x) → u.afterAll m ops x = some c := by
      intro ops
      induction ops with
      | nil => intro u hu _; exact hu
      | cons op ops ih =>
        intro u hu hk
        refine ih (u.after m op) ?_ fun o ho => hk o (by simp [ho])
        have hk := hk op (by simp)
        cases op with
        | make z d t => by_cases hz : x = z <;> simp [SumVars.after, hz] <;> simp_all
        | copy z z' t => by_cases hz : x = z <;> simp [SumVars.after, hz] <;> simp_all
        | move z z' t =>
          have h1 : z' ≠ x := fun e => (hk z t).2.2.2.1 (by rw [e])
          have h2 : x ≠ z' := fun e => h1 e.symm
          by_cases hz : x = z
          · subst hz; simp [SumVars.after, hu]
          · simp [SumVars.after, hz, h2, hu]
        | assign z z' t =>
          have h1 : x ≠ z := fun e => (hk z' t).1 (by rw [e])
          simp [SumVars.after, h1, hu]
        | moveAssign z z' t =>
          have h1 : x ≠ z := fun e => (hk z' t).2.1 (by rw [e])
          have h2 : x ≠ z' := fun e => (hk z t).2.2.1 (by rw [e])
          simp [SumVars.after, h1, h2, hu]
        | destroy z =>
          have h1 : x ≠ z := fun e => (hk z true).2.2.2.2 (by rw [e])
          simp [SumVars.after, h1, hu]
        | get | getError | hasValue => exact hu
    have := key ops (v.after m (.copy x y false)) (by simp [SumVars.after, hx, hy]) hk
    show Option.map ofContents (SumVars.afterAll m (v.after m (.copy x y false)) ops x) = _
    rw [this]
    rfl

/-- C114. Exchanging two variables by moves through a third, as `std::swap` does, exchanges what they hold. -/
theorem C114_swap (m : Moved T E) (v : SumVars T E) (x y t : Nat) (a b : T ⊕ E) (hx : v x = some a) (hy : v y = some b)
    (ht : v t = none) (hxy : x ≠ y) :
    ∃ os w, run m (slots v) [.move t x false, .moveAssign x y false, .moveAssign y t false, .destroy t] = .ok (os, w) ∧
      w x = some (ofContents b) ∧ w y = some (ofContents a) ∧ w t = none ∧ ∀ z, z ≠ x → z ≠ y → z ≠ t → w z = slots v z := by
  have htx : t ≠ x := fun e => by rw [e, hx] at ht; cases ht
  have hty : t ≠ y := fun e => by rw [e, hy] at ht; cases ht
  refine ⟨_, _, run_slots m _ v ?_, ?_, ?_, ?_, ?_⟩
  · intro op hop
    simp only [List.mem_cons, List.not_mem_nil, or_false] at hop
    rcases hop with rfl | rfl | rfl | rfl <;> simp [Quiet]
  all_goals simp [slots, SumVars.afterAll, SumVars.after, hx, hy, ht, hxy, hxy.symm, htx, hty, htx.symm, hty.symm]
  intro z h1 h2 h3
  simp [h1, h2, h3]

/-- C114 fails if an assignment throws: the flag then names an object that does not exist, so that the end of the variable's
lifetime and every assignment to it are undefined, and so is asking for what it seems to hold. -/
theorem C114_fails (m : Moved T E) (v : SumVars T E) (x y : Nat) (a c : T ⊕ E) (hx : v x = some a) (hy : v y = some c)
    (hxy : x ≠ y) (t : Bool) :
    ∃ w, step m (slots v) (.assign x y true) = .ok (.thrown, w) ∧ step m (slots v) (.moveAssign x y true) = .ok (.thrown, w) ∧
      step m w (.destroy x) = .error .ub ∧ step m w (.assign x y t) = .error .ub ∧ step m w (.moveAssign x y t) = .error .ub ∧
      step m w (if c.isLeft then .get x else .getError x) = .error .ub := by
  refine ⟨(slots v).set x (some ⟨(ofContents c).hasValue, none⟩), ?_, ?_, ?_⟩
  · simp [step, slots, hx, hy, ExpectedProg.assign, hxy, destroy_ofContents, named_ofContents, bind, Except.bind, pure,
      Except.pure]
  · simp [step, slots, hx, hy, ExpectedProg.moveAssign, hxy, destroy_ofContents, named_ofContents, bind, Except.bind, pure,
      Except.pure]
  · have hyw : ((slots v).set x (some ⟨(ofContents c).hasValue, none⟩)) y = some (ofContents c) := by
      simp [Vars.set, hxy.symm, slots, hy]
    have hxw : ((slots v).set x (some ⟨(ofContents c).hasValue, none⟩)) x = some ⟨(ofContents c).hasValue, none⟩ := by
      simp [Vars.set]
    generalize (slots v).set x (some ⟨(ofContents c).hasValue, none⟩) = w at hyw hxw
    cases c <;> simp [step, hxw, hyw, ExpectedProg.assign, ExpectedProg.moveAssign, hxy, Slot.destroyUnion, ofContents,
      Slot.value, Slot.error, bind, Except.bind]

/-- What a broken variable consists of. -/
def Spec.Cell.slot : Cell T E → Slot T E
  | .holds c => ofContents c
  | .broken b => ⟨b, none⟩

/-- The variables with their flags and unions. -/
def cellSlots (v : Cells T E) : Vars T E := fun x => (v x).map Cell.slot

private theorem named_broken (b : Bool) : (⟨b, none⟩ : Slot T E).named = .error .ub := by cases b <;> rfl
private theorem destroy_broken (b : Bool) : (⟨b, none⟩ : Slot T E).destroyUnion = .error .ub := by cases b <;> rfl
private theorem flag_ofContents (c : T ⊕ E) : (ofContents c).hasValue = c.isLeft := by cases c <;> rfl

private theorem step_cells (m : Moved T E) (v : Cells T E) (op : Op T E) :
    step m (cellSlots v) op =
      match v.step m op with
      | none => .error .ub
      | some (o, u) => .ok (o, cellSlots u) := by
  have hput : ∀ (v : Cells T E) x c, cellSlots (v.put x (some c)) = (cellSlots v).set x (some c.slot) := by
    intro v x c
    funext z
    simp only [cellSlots, Cells.put, Vars.set]
    split <;> rfl
  have hset : ∀ (w : Vars T E) x a b, (w.set x a).set x b = w.set x b := by
    intro w x a b; funext z; simp only [Vars.set]; split <;> rfl
  have hswap : ∀ (w : Vars T E) x y a b c, x ≠ y → ((w.set x a).set y b).set x c = (w.set y b).set x c := by
    intro w x y a b c _; funext z; simp only [Vars.set]; split <;> rfl
  cases op with
  | make x c throws =>
    simp only [step, cellSlots, Cells.step]
    cases hx : v x with
    | some a => rfl
    | none =>
      cases throws
      · exact congrArg (fun u => Except.ok (Out.unit, u)) (hput v x (.holds c)).symm
      · rfl
  | copy x y throws =>
    simp only [step, cellSlots, Cells.step]
    cases hx : v x with
    | some a => cases hy : v y <;> rfl
    | none =>
      rcases hy : v y with _ | ⟨c | b⟩
      · rfl
      · simp only [Option.map_none, Option.map_some, Cell.slot, ExpectedProg.copy, named_ofContents, bind, Except.bind,
          pure, Except.pure, (refill c c m).1]
        cases throws
        · exact congrArg (fun u => Except.ok (Out.unit, u)) (hput v x (.holds c)).symm
        · rfl
      · simp [Cell.slot, ExpectedProg.copy, named_broken, bind, Except.bind]
  | move x y throws =>
    simp only [step, cellSlots, Cells.step]
    cases hx : v x with
    | some a => cases hy : v y <;> rfl
    | none =>
      rcases hy : v y with _ | ⟨c | b⟩
      · rfl
      · simp only [Option.map_none, Option.map_some, Cell.slot, ExpectedProg.move, named_ofContents, bind, Except.bind,
          pure, Except.pure, (refill c c m).1, (refill c c m).2]
        cases throws
        · refine congrArg (fun u => Except.ok (Out.unit, u)) (Eq.symm ?_)
          exact (hput _ x (.holds c)).trans (congrArg (fun w => Vars.set w x _) (hput v y (.holds (m.sum c))))
        · rfl
      · simp [Cell.slot, ExpectedProg.move, named_broken, bind, Except.bind]
  | assign x y throws =>
    simp only [step, cellSlots, Cells.step]
    by_cases hxy : x = y
    · subst hxy
      simp only [if_true]
      cases hx : v x <;> simp [ExpectedProg.assign]
    · simp only [hxy, if_false]
      rcases hx : v x with _ | ⟨a | f⟩ <;> rcases hy : v y with _ | ⟨c | b⟩ <;>
        simp only [Option.map_none, Option.map_some, Cell.slot, ExpectedProg.assign, hxy, if_false, destroy_ofContents,
          named_ofContents, destroy_broken, named_broken, bind, Except.bind, pure, Except.pure]
      all_goals try rfl
      rw [(refill c c m).1]
      cases throws
      · refine congrArg (fun u => Except.ok (Out.unit, u)) (Eq.symm ?_)
        exact (hput v x (.holds c)).trans (hset _ _ _ _).symm
      · refine congrArg (fun u => Except.ok (Out.thrown, u)) (Eq.symm ?_)
        rw [flag_ofContents]
        exact hput v x (.broken c.isLeft)
  | moveAssign x y throws =>
    simp only [step, cellSlots, Cells.step]
    by_cases hxy : x = y
    · subst hxy
      simp only [if_true]
      cases hx : v x <;> simp [ExpectedProg.moveAssign]
    · simp only [hxy, if_false]
      rcases hx : v x with _ | ⟨a | f⟩ <;> rcases hy : v y with _ | ⟨c | b⟩ <;>
        simp only [Option.map_none, Option.map_some, Cell.slot, ExpectedProg.moveAssign, hxy, if_false, destroy_ofContents,
          named_ofContents, destroy_broken, named_broken, bind, Except.bind, pure, Except.pure]
      all_goals try rfl
      rw [(refill c c m).1, (refill c c m).2]
      cases throws
      · refine congrArg (fun u => Except.ok (Out.unit, u)) (Eq.symm ?_)
        refine ((hput _ x (.holds c)).trans (congrArg (fun w => Vars.set w x _) (hput v y (.holds (m.sum c))))).trans ?_
        exact (hswap _ _ _ _ _ _ hxy).symm
      · refine congrArg (fun u => Except.ok (Out.thrown, u)) (Eq.symm ?_)
        rw [flag_ofContents]
        exact hput v x (.broken c.isLeft)
  | destroy x =>
    have hnone : cellSlots (v.put x none) = (cellSlots v).set x none := by
      funext z
      simp only [cellSlots, Cells.put, Vars.set]
      split <;> rfl
    simp only [step, cellSlots, Cells.step]
    rcases hx : v x with _ | ⟨c | b⟩
    · refine congrArg (fun u => Except.ok (Out.unit, u)) (funext fun z => ?_)
      show (v z).map Cell.slot = (if z = x then none else v z).map Cell.slot
      split
      · rename_i hz; rw [hz, hx]
      · rfl
    · simp only [Option.map_some, Cell.slot, destroy_ofContents, bind, Except.bind, pure, Except.pure]
      exact congrArg (fun u => Except.ok (Out.unit, u)) hnone.symm
    · simp [Cell.slot, destroy_broken, bind, Except.bind]
  | get x =>
    simp only [step, cellSlots, Cells.step]
    rcases hx : v x with _ | ⟨⟨_ | _⟩ | ⟨_ | _⟩⟩ <;> rfl
  | getError x =>
    simp only [step, cellSlots, Cells.step]
    rcases hx : v x with _ | ⟨⟨_ | _⟩ | ⟨_ | _⟩⟩ <;> rfl
  | hasValue x =>
    simp only [step, cellSlots, Cells.step]
    rcases hx : v x with _ | ⟨⟨_ | _⟩ | ⟨_ | _⟩⟩ <;> rfl

/-- C114 fails if an assignment throws, exactly so: for every program, with constructors and assignments throwing where
they like, what the statements give and the variables after it are those of `Cells`, in which a variable whose assignment
threw has lost its contents; and the program is undefined exactly when it needs the contents of such a variable, be it
only to destroy or to replace them. -/
theorem C114_exact_fails (m : Moved T E) (ops : List (Op T E)) :
    run m (fun _ => none) ops =
      match Cells.run m (fun _ => none) ops with
      | none => .error .ub
      | some (os, v) => .ok (os, cellSlots v) := by
  suffices ∀ v : Cells T E, run m (cellSlots v) ops =
      match v.run m ops with
      | none => .error .ub
      | some (os, u) => .ok (os, cellSlots u) from this fun _ => none
  induction ops with
  | nil => intro v; rfl
  | cons op ops ih =>
    intro v
    rw [run, Cells.run, step_cells]
    cases hs : v.step m op with
    | none => rfl
    | some r =>
      obtain ⟨o, u⟩ := r
      simp only [bind, Except.bind, Option.bind, ih u]
      cases Cells.run m u ops <;> rfl

/-- An assignment throws: the variable says that it holds an error, has none, and cannot go out of scope. -/
example :
    let ops : List (Op Nat String) := [.make 0 (.inl 7) false, .make 1 (.inr "no") false, .moveAssign 0 1 true,
      .hasValue 0, .get 0, .copy 2 1 false, .getError 2]
    (Cells.run ⟨id, id⟩ (fun _ => none) ops).map (·.1) =
      some [.unit, .unit, .thrown, .flag false, .logicError, .unit, .error "no"] ∧
    (Cells.run ⟨id, id⟩ (fun _ => none) (ops ++ [.getError 0])).isNone ∧
    (Cells.run ⟨id, id⟩ (fun _ => none) (ops ++ [.destroy 0])).isNone := by
  decide +kernel

/-- A program with three variables; moving a `Nat` leaves it as it is, and a moved-from text is empty. -/
example :
    (run (⟨id, fun _ => ""⟩ : Moved Nat String) (fun _ => none)
      [.make 0 (.inr "no") false, .copy 1 0 false, .make 2 (.inl 7) false, .moveAssign 2 0 false, .getError 0, .getError 2,
       .get 1, .assign 1 1 false, .hasValue 1, .destroy 2, .get 2]).toOption.map (·.1) =
    some [.unit, .unit, .unit, .unit, .error "", .error "no", .logicError, .unit, .flag false, .unit, .unit] := by
  decide +kernel

end Caitlyn
