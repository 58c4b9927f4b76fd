import Verif.Proofs.JsonMemProg

/-! # Property C149: programs that build JSON values when memory runs out -/

namespace Caitlyn
open Caitlyn.Spec JsonMem

variable {F : Type}

/-- C149. If memory does not run out, every program that builds and changes JSON values ends, no statement throws, the variables
hold what the statements say, the nodes are exactly those of the variables, and at the end none of them is left. -/
theorem C149_enough (fails : Nat → Bool) (hf : ∀ i, fails i = false) (ss : List (Stmt F)) (js : List (Json F)) (m : Mem)
    (hm : totalNodes (js.map Held.value) ≤ m.nodes) :
    ∃ bs m' m'', run fails (js.map Held.value) m ss = .ok (bs, (ss.foldl built js).map Held.value, m') ∧ false ∉ bs ∧
      m'.nodes + totalNodes (js.map Held.value) = m.nodes + totalNodes ((ss.foldl built js).map Held.value) ∧
      finish ((ss.foldl built js).map Held.value) m' = .ok m'' ∧
      m''.nodes + totalNodes (js.map Held.value) = m.nodes := by
  have h := run_right (fails := fails) ss js m hm
  have hno : ¬ ∃ i, fails i = true := fun ⟨i, hi⟩ => by rw [hf] at hi; cases hi
  cases hr : run fails (js.map Held.value) m ss with
  | error e => exact absurd (h.1 e hr) hno
  | ok r =>
    obtain ⟨bs, vars', m'⟩ := r
    have h := h.2 _ _ _ hr
    have hb : false ∉ bs := fun hb => hno (h.1 hb)
    obtain ⟨rfl, h2⟩ := h.2 hb
    obtain ⟨m'', h3, h4⟩ := finish_values (ss.foldl built js) m' (by omega)
    exact ⟨bs, m', m'', rfl, hb, h2, h3, by omega⟩

example : totalNodes ([Json.null, .null].map (Held.value (F := Int))) ≤ (⟨0, 0⟩ : Mem).nodes := by decide

/-- C149. Whatever fails, in every program and from every state: no statement releases a node that belongs to something else; the
variables never have more nodes than there are. -/
theorem C149_bound (fails : Nat → Bool) (ss : List (Stmt F)) (vars vars' : Vars F) (m m' : Mem) (bs : List Bool) (others : Nat)
    (hm : totalNodes vars + others ≤ m.nodes) (h : run fails vars m ss = .ok (bs, vars', m')) :
    totalNodes vars' + others ≤ m'.nodes :=
  run_acc h hm

example : run (F := Int) (fun i => i == 1) [.value .null] ⟨0, 3⟩ [.member 0 c!"a", .member 0 c!"b"] =
    .ok ([false, true], [.value (.obj [(c!"b", .null)])], ⟨4, 5⟩) := by rfl

/-- C149 for programs in which no statement throws, whatever fails: the variables hold what the statements say, the nodes are
those of the variables, and at the end none is left. Partial: C149_lost_fails, C149_leak_fails, C149_doomed_fails and
C149_terminate_fails are about programs in which a statement fails. -/
theorem C149_partial (fails : Nat → Bool) (ss : List (Stmt F)) (js : List (Json F)) (vars' : Vars F) (m m' : Mem) (bs : List Bool)
    (hm : totalNodes (js.map Held.value) ≤ m.nodes) (h : run fails (js.map Held.value) m ss = .ok (bs, vars', m'))
    (hb : false ∉ bs) :
    vars' = (ss.foldl built js).map Held.value ∧
    m'.nodes + totalNodes (js.map Held.value) = m.nodes + totalNodes vars' ∧
    ∃ m'', finish vars' m' = .ok m'' ∧ m''.nodes + totalNodes (js.map Held.value) = m.nodes := by
  obtain ⟨rfl, h2⟩ := ((run_right ss js m hm).2 _ _ _ h).2 hb
  obtain ⟨m'', h3, h4⟩ := finish_values (ss.foldl built js) m' (by omega)
  exact ⟨rfl, h2, m'', h3, by omega⟩

example : run (F := Int) (fun i => i == 50) [.value .null, .value .null] ⟨0, 0⟩
    [.memberScalar 0 c!"a" (.int 1), .append 1 0] =
    .ok ([true, true], [.value (.obj [(c!"a", .int 1)]), .value (.arr [.obj [(c!"a", .int 1)]])], ⟨9, 3⟩) := by
  simp [whole, run, step, on, append, appendCopied, addItem, setScalar, indexScalar, index, addMember, Json.findMember, Json.setMember,
    destroy, attempt, Mem.release, copyNode, copyUnion, copyItems, copyMembers, released, releasedItems, releasedMembers, Scalar.json,
    bind, Except.bind, pure, Except.pure]

/-- C149 for statements that keep the type of the value (a text assigned to a text, a member of an object, an item appended to an
array), for moves and for scalars: if they throw, every variable is what it was, whatever the state. Partial: for other statements
see C149_lost_fails. -/
theorem C149_kept_partial (fails : Nat → Bool) (s : Stmt F) (vars vars' : Vars F) (m m' : Mem) (hs : SameType vars s)
    (h : step fails vars m s = .ok (false, vars', m')) : vars' = vars :=
  step_kept hs h

example : SameType [Held.value (.arr [.int 1]), .value (.str c!"x" : Json Int)] (.append 0 1) := ⟨_, rfl⟩

example : step (F := Int) (fun _ => true) [.value (.arr [.int 1]), .value (.str c!"x")] ⟨0, 1⟩ (.append 0 1) =
    .ok (false, [.value (.arr [.int 1]), .value (.str c!"x")], ⟨1, 1⟩) := by
  simp [whole, run, step, on, append, appendCopied, addItem, setScalar, indexScalar, index, addMember, Json.findMember, Json.setMember,
    destroy, attempt, Mem.release, copyNode, copyUnion, copyItems, copyMembers, released, releasedItems, releasedMembers, Scalar.json,
    bind, Except.bind, pure, Except.pure]

/-- C149 fails for statements that change the type: if the first step fails that may allocate, then for every value of another
type the old value is gone, and the variable holds what nobody put there: an empty text, an empty object, for an assigned text
a null-like object without a text, for an assigned array an object of type `Array` without an array. -/
theorem C149_lost_fails (fails : Nat → Bool) (vars : Vars F) (x : Nat) (j : Json F) (m : Mem) (hx : vars[x]? = some (.value j))
    (hf : fails m.tries = true) :
    (∀ s, (∀ old, j ≠ .str old) → step fails vars m (.text x s) =
      .ok (false, vars.set x (.value (.str [])), ⟨m.tries + 1, m.nodes - released j⟩)) ∧
    (∀ key, (∀ ms, j ≠ .obj ms) → step fails vars m (.member x key) =
      .ok (false, vars.set x (.value (.obj [])), ⟨m.tries + 1, m.nodes - released j⟩)) ∧
    (∀ y s, y ≠ x → vars[y]? = some (.value (.str s)) → step fails vars m (.assign x y) =
      .ok (false, vars.set x (.nothing .string), ⟨m.tries + 1, m.nodes - released j⟩)) ∧
    (∀ y js, y ≠ x → vars[y]? = some (.value (.arr js)) → step fails vars m (.assign x y) =
      .ok (false, vars.set x (.nothing .array), ⟨m.tries + 1, m.nodes - released j⟩)) := by
  refine ⟨fun s hj => ?_, fun key hj => ?_, fun y s hy hv => ?_, fun y js hy hv => ?_⟩
  · simp only [step, on, hx]
    cases j with
    | str old => exact absurd rfl (hj old)
    | _ => simp [setText, destroy_value, attempt, Mem.release, hf, bind, Except.bind, pure, Except.pure]
  · simp only [step, on, hx]
    cases j with
    | obj ms => exact absurd rfl (hj ms)
    | _ => simp [index, addMember, Json.findMember, destroy_value, attempt, Mem.release, hf, bind, Except.bind, pure, Except.pure]
  · simp [step, hv, Ne.symm hy, on, hx, copyTo, destroy_value, JsonMem.assign, attempt, Mem.release, hf, released, bind, Except.bind,
      pure, Except.pure]
  · simp [step, hv, Ne.symm hy, on, hx, copyTo, destroy_value, JsonMem.assign, attempt, Mem.release, hf, released, bind, Except.bind,
      pure, Except.pure]

/-- C149 fails: `x[key]` for a new key, with every object and every key: if the node can be allocated and the place for it
cannot, the statement throws, `x` is as before, and the node stays: it belongs to no variable, and at the end of every
continuation without further failures there is one node too many. -/
theorem C149_leak_fails (fails : Nat → Bool) (js : List (Json F)) (x : Nat) (ms : List (Str × Json F)) (key : Str) (m : Mem)
    (hm : totalNodes (js.map Held.value) ≤ m.nodes) (hx : js[x]? = some (.obj ms)) (hk : key ∉ ms.map Prod.fst)
    (h1 : fails m.tries = false) (h2 : fails (m.tries + 1) = true) :
    step fails (js.map Held.value) m (.member x key) = .ok (false, js.map Held.value, ⟨m.tries + 2, m.nodes + 1⟩) ∧
    ∀ ss, (∀ i, m.tries + 2 ≤ i → fails i = false) → ∀ bs vars' m',
      run fails (js.map Held.value) ⟨m.tries + 2, m.nodes + 1⟩ ss = .ok (bs, vars', m') → false ∉ bs →
      ∃ m'', finish vars' m' = .ok m'' ∧ m''.nodes + totalNodes (js.map Held.value) = m.nodes + 1 := by
  constructor
  · have hx' : (js.map Held.value)[x]? = some (.value (.obj ms)) := by rw [map_value_get, hx]; rfl
    have hs : (js.map Held.value).set x (.value (.obj ms)) = js.map Held.value := by
      apply List.ext_getElem?
      intro i
      rw [List.getElem?_set]
      split
      · rename_i h
        subst h
        rw [hx', if_pos (List.getElem?_eq_some_iff.mp hx').1]
      · rfl
    have hf : Json.findMember key ms = none := findMember_none.mpr hk
    simp [step, on, hx', index, addMember, hf, attempt, h1, h2, bind, Except.bind, pure, Except.pure, hs]
  · intro ss _ bs vars' m' hr hb
    have hm' : totalNodes (js.map Held.value) ≤ (⟨m.tries + 2, m.nodes + 1⟩ : Mem).nodes := by simp only; omega
    obtain ⟨_, _, h⟩ := C149_partial fails ss js vars' _ m' bs hm' hr hb
    exact h

example : whole (F := Int) (fun i => i == 1) [.value (.obj [])] ⟨0, 0⟩ [.member 0 c!"a", .scalar 0 (.int 1)] =
    .ok ([false, true], ⟨2, 1⟩) := by rfl

/-- C149 fails for every value that is not an array and every value appended to it: if the constructor of the deque fails, `Append`
throws and leaves a variable of type `Array` without an array, and then no program ends normally, whatever its statements and
whatever fails: what remains is undefined behaviour or `std::terminate`, at the latest in the destructor. -/
theorem C149_doomed_fails (fails : Nat → Bool) (vars : Vars F) (x y : Nat) (j v : Json F) (m : Mem)
    (hx : vars[x]? = some (.value j)) (hj : ∀ js, j ≠ .arr js) (hy : vars[y]? = some (.value v))
    (h1 : Clear fails m.tries (m.tries + (work v - 1))) (h2 : fails (m.tries + (work v - 1)) = true) :
    (∃ m', step fails vars m (.append x y) = .ok (false, vars.set x (.nothing .array), m')) ∧
    ∀ ss bs m', whole fails vars m (.append x y :: ss) ≠ .ok (bs, m') := by
  have hs : ∃ m', step fails vars m (.append x y) = .ok (false, vars.set x (.nothing .array), m') := by
    have ho := (union_outcome fails v m).clear h1
    cases hc : copyUnion fails v m with
    | mk b1 m1 =>
      rw [hc] at ho
      simp only at ho
      obtain ⟨rfl, rfl⟩ := ho
      simp only [step, hy, on, hx, append, hc]
      cases j with
      | arr js => exact absurd rfl (hj js)
      | _ => simp [appendCopied, destroy_value, attempt, Mem.release, h2, bind, Except.bind, pure, Except.pure]
  refine ⟨hs, fun ss bs m' h => ?_⟩
  obtain ⟨m1, hs⟩ := hs
  unfold whole at h
  cases hr : run fails vars m (.append x y :: ss) with
  | error e => rw [hr] at h; cases h
  | ok r =>
    obtain ⟨bs', vars', m2⟩ := r
    rw [hr] at h
    simp only [run, hs, bind, Except.bind] at hr
    cases hr2 : run fails (vars.set x (.nothing .array)) m1 ss with
    | error e => rw [hr2] at hr; cases hr
    | ok r =>
      obtain ⟨bs2, vars2, m3⟩ := r
      rw [hr2] at hr
      cases hr
      have hd : Doomed (vars.set x (.nothing .array)) :=
        ⟨x, List.getElem?_set_self (List.getElem?_eq_some_iff.mp hx).1⟩
      have hd := run_doomed hd hr2
      cases hfin : finish vars2 m3 with
      | error e => simp only [bind, Except.bind, hfin] at h; cases h
      | ok m4 => exact finish_doomed hd hfin

example : whole (F := Int) (fun i => i == 0) [.value .null, .value (.int 1)] ⟨0, 0⟩ [.append 0 1, .scalar 0 (.int 1)] =
    .error .ub := by
  simp [whole, run, step, on, append, appendCopied, addItem, setScalar, indexScalar, index, addMember, Json.findMember, Json.setMember,
    destroy, attempt, Mem.release, copyNode, copyUnion, copyItems, copyMembers, released, releasedItems, releasedMembers, Scalar.json,
    bind, Except.bind, pure, Except.pure]

/-- C149 fails for moves: if the step of the move constructor of `std::deque` fails, a program that moves an array ends in
`std::terminate`, whatever it moves it to and whatever follows: the functions are `noexcept`. -/
theorem C149_terminate_fails (fails : Nat → Bool) (vars : Vars F) (x y : Nat) (j : Json F) (js : List (Json F)) (m : Mem)
    (ss : List (Stmt F)) (hxy : x ≠ y) (hx : vars[x]? = some (.value j)) (hy : vars[y]? = some (.value (.arr js)))
    (hf : fails m.tries = true) : whole fails vars m (.move x y :: ss) = .error .terminated := by
  have hlt : ¬ (x = y ∨ vars.length ≤ x) := by
    have := (List.getElem?_eq_some_iff.mp hx).1
    omega
  simp [whole, run, step, hy, if_neg hlt, on, hx, moveTo, destroy_value, attempt, Mem.release, hf, bind, Except.bind]

example : whole (F := Int) (fun i => i == 0) [.value .null, .value (.arr [])] ⟨0, 0⟩ [.move 0 1] = .error .terminated := by rfl

end Caitlyn
