import Verif.Proofs.JsonOverlap
import Verif.Props.JsonNodes

/-! # C63: what every statement on `JsonData` variables does, overlapping assignments and `RemoveMember` included -/

namespace Caitlyn
open Spec JsonNodes

variable {F : Type}

theorem Inv.memoryAnd {h : Heap F} {vars : List (Json F)} {E : List Nat} (i : Inv h vars E) : MemoryAnd h vars E.length := by
  obtain ⟨fp, r, nd, cov, le, w⟩ := i
  have f := r.facts
  constructor
  · cases f.1 with
    | arr c l k => exact ⟨_, c, l, k⟩
  · refine ⟨fp ++ E, nd, fun x => ⟨fun c => ?_, cov x⟩, ?_⟩
    · rcases List.mem_append.mp c with c | c
      · exact r.live x c
      · exact le x c
    · rw [List.length_append, f.2, nodes]

/-- A program comes to `o`. -/
def Comes' (o : Outcome F) (res : Res (Heap F)) : Prop :=
  match o with
  | .undefined => res = .error .ub
  | .done vars' lost => ∃ h' E', res = .ok h' ∧ Inv h' vars' E' ∧ E'.length = lost

theorem Inv.acts {as : List (Act F)} {h : Heap F} {vars : List (Json F)} {E : List Nat} {o : Outcome F} (i : Inv h vars E)
    (m : effects vars E.length as = some o) : Comes' o (runActs h as) := by
  induction as generalizing h vars E with
  | nil =>
    simp only [effects, Option.some.injEq] at m
    subst m
    exact ⟨h, E, rfl, i, rfl⟩
  | cons a as ih =>
    rw [effects] at m
    cases ea : effect vars a with
    | none => rw [ea] at m; cases m
    | some o1 =>
      have c := i.act ea
      rw [ea] at m
      cases o1 with
      | undefined =>
        cases m
        simp only [Comes] at c
        rw [runActs, List.foldlM_cons, c]; rfl
      | done v1 l1 =>
        obtain ⟨h1, E1, e1, i1, rfl⟩ := c
        have := ih i1 (by rw [List.length_append, Nat.add_comm]; exact m)
        have hr : runActs h (a :: as) = runActs h1 as := by
          rw [runActs, List.foldlM_cons, e1]; rfl
        rw [hr]
        exact this

/-- C63. What every program of declarations, copies, moves, assignments, `operator[]`, `Append`, `RemoveMember` and ends of
scopes does, in any order and on any places that exist, assignments between a value and its parts included: it is
undefined exactly if a part of a value is assigned to the value, by copy or by move; otherwise the variables have the
values that the specification without memory gives, and the nodes in memory are those of the values and those lost by
`RemoveMember` or by moving a value into a part of it, no more and no less. -/
theorem C63_exact (as : List (Act F)) :
    (∀ vars lost, effects [] 0 as = some (.done vars lost) → ∃ h, runActs start as = .ok h ∧ MemoryAnd h vars lost) ∧
    (effects [] 0 as = some .undefined → runActs start as = .error .ub) := by
  constructor
  · intro vars lost m
    obtain ⟨h, E, e, i, rfl⟩ := Inv.acts (E := []) Inv.start m
    exact ⟨h, e, Inv.memoryAnd i⟩
  · intro m
    exact Inv.acts (E := []) Inv.start m

/-- C63. What is lost stays lost: when the last variable has left its scope, as many nodes are alive as the program has
lost, besides the one that stands for the stack. -/
theorem C63_lost_forever (as : List (Act F)) (lost : Nat) (m : effects [] 0 as = some (.done [] lost)) :
    ∃ h, runActs start as = .ok h ∧ ∃ alive : List Nat, alive.Nodup ∧ (∀ x, x ∈ alive ↔ h.cells x ≠ none ∧ x ≠ 0) ∧
      alive.length = lost := by
  obtain ⟨h, e, mem⟩ := (C63_exact as).1 [] lost m
  obtain ⟨ids, h0, _⟩ := mem.values
  obtain ⟨alive, nd, ha, len⟩ := mem.nodes
  refine ⟨h, e, alive.erase 0, nd.erase 0, ?_, ?_⟩
  · intro x
    rw [nd.mem_erase_iff, ha]
    exact And.comm
  · rw [List.length_erase_of_mem ((ha 0).mpr (by simp [h0])), len, nodesList]
    omega

theorem run_acts (h : Heap F) (ss : List (Stmt F)) : runActs h (ss.map .stmt) = run h ss := by
  induction ss generalizing h with
  | nil => rfl
  | cons s ss ih =>
    rw [List.map_cons, runActs, run, List.foldlM_cons, List.foldlM_cons]
    change (s.run h >>= fun h => runActs h (ss.map .stmt)) = s.run h >>= fun h => run h ss
    cases s.run h with
    | error => rfl
    | ok h1 => exact ih h1

/-- One more statement after a program that has a meaning. -/
theorem run_one (ss : List (Stmt F)) (vars : List (Json F)) (m : meanings [] ss = some vars) (a : Act F) (o : Outcome F)
    (e : effect vars a = some o) :
    match o with
    | .undefined => runActs start (ss.map .stmt ++ [a]) = .error .ub
    | .done vars' lost => ∃ h', runActs start (ss.map .stmt ++ [a]) = .ok h' ∧ MemoryAnd h' vars' lost := by
  obtain ⟨h, hr, i⟩ := Inv.runs Inv.start m
  have c := i.act e
  have ha : runActs start (ss.map .stmt ++ [a]) = a.run h := by
    rw [runActs, List.foldlM_append]
    change (runActs start (ss.map .stmt) >>= fun h => [a].foldlM (fun h a => a.run h) h) = _
    rw [run_acts, hr]
    change [a].foldlM (fun h a => a.run h) h = _
    rw [List.foldlM_cons]
    cases a.run h <;> rfl
  rw [ha]
  cases o with
  | undefined => exact c
  | done vars' lost =>
    obtain ⟨h', E', e1, i1, rfl⟩ := c
    refine ⟨h', e1, ?_⟩
    have := Inv.memoryAnd i1
    simpa using this

theorem part_prefix {p r : List Step} (hr : r ≠ []) : p ≠ p ++ r ∧ ¬ (p ++ r <+: p) ∧ p <+: p ++ r := by
  have hl : 0 < r.length := by cases r with | nil => exact absurd rfl hr | cons => simp
  refine ⟨fun c => ?_, fun c => ?_, List.prefix_append _ _⟩
  · have := congrArg List.length c
    simp only [List.length_append] at this; omega
  · have := c.length_le
    simp only [List.length_append] at this; omega

/-- C63 fails, for every value and every part of it: after every program, `a = a.part` and `a = std::move(a.part)` destroy
the source before they read it. -/
theorem C63_part_of_itself_fails (ss : List (Stmt F)) (vars : List (Json F)) (m : meanings [] ss = some vars)
    (p r : List Step) (v w : Json F) (hr : r ≠ []) (ep : look vars p = some v) (eq : look vars (p ++ r) = some w) :
    runActs start (ss.map .stmt ++ [.stmt (.assign p (p ++ r))]) = .error .ub ∧
      runActs start (ss.map .stmt ++ [.stmt (.moveAssign p (p ++ r))]) = .error .ub := by
  obtain ⟨h1, _, h2⟩ := part_prefix (p := p) hr
  constructor
  · exact run_one ss vars m _ .undefined (by rw [effect, ep, eq]; simp [h1, h2])
  · exact run_one ss vars m _ .undefined (by rw [effect, ep, eq]; simp [h1, h2])

/-- What comes before the part that a path leads to. -/
def Spec.before : List Step → Json F → Json F
  | .index i :: _, .arr js => .arr (js.take i)
  | .key k :: _, .obj ms => .obj (ms.takeWhile fun m => decide (m.1 ≠ k))
  | _, j => j

/-- Putting something into a part changes nothing only if it is there already. -/
theorem put_id {p : List Step} {j u w : Json F} (e : part p j = some w) (h : put u p j = j) : w = u := by
  have := part_put u e
  rw [h, e] at this
  exact Option.some.inj this

/-- C63 fails, for every value and every part of it: after every program, `a.part = a` is defined, but does not give the
part the value that `a` has had, except where the part has been equal to the array of the items, or the object of the members,
before the one that it is in. -/
theorem C63_whole_into_part_fails (ss : List (Stmt F)) (vars : List (Json F)) (m : meanings [] ss = some vars)
    (p r : List Step) (v w : Json F) (hr : r ≠ []) (ep : look vars p = some v) (eq : look vars (p ++ r) = some w) :
    ∃ h' vars' u, runActs start (ss.map .stmt ++ [.stmt (.assign (p ++ r) p)]) = .ok h' ∧ MemoryAnd h' vars' 0 ∧
      vars' = store vars (p ++ r) u ∧ look vars' (p ++ r) = some u ∧ u = absorbed r v ∧ (u = v ↔ w = before r v) := by
  obtain ⟨h1, h2, h3⟩ := part_prefix (p := p) hr
  obtain ⟨h', e', mem⟩ := run_one ss vars m (.stmt (.assign (p ++ r) p)) (.done (store vars (p ++ r) (absorbed r v)) 0)
    (by rw [effect, ep, eq]; simp [h2, h3, Ne.symm h1])
  refine ⟨h', _, _, e', mem, rfl, look_store _ eq, rfl, ?_⟩
  rw [look_part ep] at eq
  cases r with
  | nil => exact absurd rfl hr
  | cons s r =>
    rw [get_slot] at eq
    cases hs : slot s v with
    | none => simp [hs] at eq
    | some i =>
    simp only [hs, Option.bind_some] at eq
    cases hk : (kids v)[i]? with
    | none => simp [hk] at eq
    | some z =>
    simp only [hk, Option.bind_some] at eq
    have main : ∀ u, (setKids v ((kids v).modify i (put u r)) = v) ↔ w = u := by
      intro u
      constructor
      · intro c
        have := congrArg kids c
        rw [kids_setKids _ _ (by simp)] at this
        have g := congrArg (fun l => l[i]?) this
        simp only [List.getElem?_modify, hk] at g
        simp only [if_true, Option.map_eq_map, Option.map_some, Option.some.injEq] at g
        exact put_id eq g
      · rintro rfl
        rw [modify_set _ hk, put_get eq, ← modify_set (fun _ => z) hk]
        have : (kids v).modify i (fun _ => z) = kids v := by
          apply List.ext_getElem?
          intro n
          rw [List.getElem?_modify]
          by_cases d : i = n
          · subst d; rw [hk]; simp
          · simp [d]
        rw [this]; exact setKids_self v
    cases s with
    | key k =>
      cases v with
      | obj ms =>
        simp only [slot, Option.some.injEq] at hs
        subst hs
        rw [absorbed, before, changeKey_pos]
        exact main _
      | _ => simp [slot] at hs
    | index k =>
      cases v with
      | arr js =>
        simp only [slot, Option.some.injEq] at hs
        subst hs
        rw [absorbed, before]
        exact main _
      | _ => simp [slot] at hs

/-- C63 fails, for every value and every part of it: after every program, `a.part = std::move(a)` is defined, but `a` is Null
after it and its value is lost: of its nodes, only those below the part are released, the others are not, and belong to no
variable. -/
theorem C63_move_into_part_fails (ss : List (Stmt F)) (vars : List (Json F)) (m : meanings [] ss = some vars)
    (p r : List Step) (v w : Json F) (hr : r ≠ []) (ep : look vars p = some v) (eq : look vars (p ++ r) = some w) :
    ∃ h', runActs start (ss.map .stmt ++ [.stmt (.moveAssign (p ++ r) p)]) = .ok h' ∧
      MemoryAnd h' (store vars p .null) (nodes v - nodes w) := by
  obtain ⟨h1, h2, h3⟩ := part_prefix (p := p) hr
  exact run_one ss vars m (.stmt (.moveAssign (p ++ r) p)) (.done (store vars p .null) (nodes v - nodes w))
    (by rw [effect, ep, eq]; simp [h2, h3, Ne.symm h1])

/-- C63 fails: what `RemoveMember` removes is never released, after every program and for every document and key. -/
theorem C63_remove_leaks_fails (ss : List (Stmt F)) (vars : List (Json F)) (m : meanings [] ss = some vars)
    (i : Nat) (key : Str) (ms : List (Str × Json F)) (e : vars[i]? = some (.obj ms)) :
    ∃ h', runActs start (ss.map .stmt ++ [.remove i key]) = .ok h' ∧
      MemoryAnd h' (vars.set i (.obj (ms.filter fun m => !decide (m.1 = key))))
        (nodesMembers (ms.filter fun m => decide (m.1 = key))) :=
  run_one ss vars m (.remove i key) (.done _ _) (by rw [effect, e]; rfl)

/-! Concrete programs. -/

section Examples

/-- `JsonData a = {}; a["x"] = 7;` -/
def sevenX : List (Stmt Unit) := [.declare .emptyObject, .touch [.index 0] keyX, .set [.index 0, .key keyX] (.int 7)]

example : meanings [] sevenX = some [.obj [(keyX, .int 7)]] := by rfl

/-- `a = a["x"]` and `a = std::move(a["x"])`. -/
example : runActs start (sevenX.map .stmt ++ [.stmt (.assign [.index 0] ([.index 0] ++ [.key keyX]))]) = .error .ub ∧
    runActs start (sevenX.map .stmt ++ [.stmt (.moveAssign [.index 0] ([.index 0] ++ [.key keyX]))]) = .error .ub :=
  C63_part_of_itself_fails sevenX _ rfl [.index 0] [.key keyX] (.obj [(keyX, .int 7)]) (.int 7) (by simp) rfl rfl

/-- `a["x"] = a` gives `a` the value `{"x": {"x": {}}}`, and not `{"x": {"x": 7}}`. -/
example : effects [] 0 (sevenX.map .stmt ++ [.stmt (.assign [.index 0, .key keyX] [.index 0])]) =
    some (.done [.obj [(keyX, .obj [(keyX, .obj [])])]] 0) := by rfl

/-- Where `a` is `[1, [2]]`, `a[1][0] = a` gives `a[1][0]` the value `[1, [[1]]]`, and not `[1, [2]]`. -/
example : absorbed [.index 1, .index 0] (.arr [.int 1, .arr [.int 2]] : Json Unit) =
    .arr [.int 1, .arr [.arr [.int 1]]] := by rfl

/-- Where `a` is `[1, [1]]`, `a[1] = a` gives `a[1]` the value that `a` has had. -/
example : absorbed [.index 1] (.arr [.int 1, .arr [.int 1]] : Json Unit) = .arr [.int 1, .arr [.int 1]] := by rfl

/-- `a["x"] = std::move(a)`: `a` is Null and a node is lost; it still is when `a` has left its scope. -/
example : effects [] 0 (sevenX.map .stmt ++ [.stmt (.moveAssign [.index 0, .key keyX] [.index 0]), .stmt .leave]) =
    some (.done [] 1) := by rfl

/-- `RemoveMember` on a document with one member. -/
example : effects [] 0 (sevenX.map .stmt ++ [.remove 0 keyX, .stmt .leave]) = some (.done [] 1) := by rfl

end Examples

end Caitlyn
