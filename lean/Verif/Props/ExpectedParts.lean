import Verif.Spec.ExpectedParts

/-! # C156: an `Expected` can be assigned a part of what it holds -/

namespace Caitlyn
open Spec.Nested Parts

variable {N E : Type}

namespace Parts

mutual

theorem copy_objOf : ∀ t : SumTree N E, copy (objOf t) = .ok (objOf t)
  | .node n kids => by rw [objOf, copy, copyAll_objsOf kids]; rfl
  | .fail e => by rw [objOf, copy]; rfl

theorem copyAll_objsOf : ∀ ts : List (SumTree N E), copyAll (objsOf ts) = .ok (objsOf ts)
  | [] => by rw [objsOf, copyAll]
  | t :: ts => by rw [objsOf, copyAll, copy_objOf t, copyAll_objsOf ts]; rfl

end

mutual

theorem destroy_objOf : ∀ t : SumTree N E, destroy (objOf t) = .ok ()
  | .node n kids => by rw [objOf, destroy, destroyAll_objsOf kids]; rfl
  | .fail e => by rw [objOf, destroy]; rfl

theorem destroyAll_objsOf : ∀ ts : List (SumTree N E), destroyAll (objsOf ts) = .ok ()
  | [] => by rw [objsOf, destroyAll]
  | t :: ts => by rw [objsOf, destroyAll, destroy_objOf t, destroyAll_objsOf ts]; rfl

end

theorem length_objsOf : ∀ ts : List (SumTree N E), (objsOf ts).length = ts.length
  | [] => by rw [objsOf]; rfl
  | t :: ts => by rw [objsOf, List.length_cons, length_objsOf ts, List.length_cons]

theorem get_objsOf : ∀ (ts : List (SumTree N E)) (i : Nat) (h : i < ts.length) (h' : i < (objsOf ts).length),
    (objsOf ts)[i] = objOf ts[i]
  | t :: ts, 0, _, _ => by simp only [objsOf]; rfl
  | t :: ts, i + 1, h, h' => by
    simp only [objsOf, List.getElem_cons_succ]
    exact get_objsOf ts i (by simpa using h) _

/-- Walking to a part finds the object of the part, or throws. -/
theorem walk_objOf : ∀ (path : List Nat) (t : SumTree N E),
    (∃ u, t.part path = some u ∧ walk (objOf t) path = .ok (objOf u) ∧ deref (objOf t) path = .ok (objOf u)) ∨
    (t.part path = none ∧ ∃ e, walk (objOf t) path = .error e ∧ e ≠ .ub)
  | [], t => .inl ⟨t, rfl, rfl, rfl⟩
  | i :: path, .fail e => .inr ⟨rfl, .logicError, by rw [objOf]; rfl, by simp⟩
  | i :: path, .node n kids => by
    rw [objOf]
    by_cases h : i < kids.length
    · have h' : i < (objsOf kids).length := by rw [length_objsOf]; exact h
      simp only [SumTree.part, walk, deref, Obj.flag, if_true, dif_pos h, dif_pos h', get_objsOf kids i h h']
      exact walk_objOf path kids[i]
    · have h' : ¬ i < (objsOf kids).length := by rw [length_objsOf]; exact h
      refine .inr ⟨by simp only [SumTree.part, dif_neg h], .outOfRange, ?_, by simp⟩
      simp only [walk, Obj.flag, if_true, dif_neg h']

theorem refer_storeOf (v : SumState N E) (p : Place) (h : v p.var ≠ none) :
    (∃ u, treeAt v p = some u ∧ refer (storeOf v) p = .ok (objOf u) ∧ derefAt (storeOf v) p = .ok (objOf u)) ∨
    (treeAt v p = none ∧ ∃ e, refer (storeOf v) p = .error e ∧ e ≠ .ub) := by
  cases ht : v p.var with
  | none => exact absurd ht h
  | some t =>
    simp only [treeAt, refer, derefAt, storeOf, ht, Option.map_some, Option.bind_some]
    exact walk_objOf p.path t

theorem copies_storeOf (v : SumState N E) : ∀ ps : List Place, (∀ p ∈ ps, v p.var ≠ none) →
    (∃ us, treesAt v ps = some us ∧ copies (storeOf v) ps = .ok (objsOf us)) ∨
    (treesAt v ps = none ∧ ∃ e, copies (storeOf v) ps = .error e ∧ e ≠ .ub)
  | [], _ => .inl ⟨[], rfl, by rw [copies, objsOf]⟩
  | p :: ps, h => by
    rcases refer_storeOf v p (h p (by simp)) with ⟨u, h1, h2, _⟩ | ⟨h1, e, h2, h3⟩
    · rcases copies_storeOf v ps (fun q hq => h q (by simp [hq])) with ⟨us, g1, g2⟩ | ⟨g1, e, g2, g3⟩
      · refine .inl ⟨u :: us, by simp only [treesAt, h1, g1]; rfl, ?_⟩
        rw [copies, h2, objsOf]
        show (do return (← copy (objOf u)) :: (← copies (storeOf v) ps) : Res _) = _
        rw [copy_objOf, g2]
        rfl
      · refine .inr ⟨by simp only [treesAt, h1, g1]; rfl, e, ?_, g3⟩
        rw [copies, h2]
        show (do return (← copy (objOf u)) :: (← copies (storeOf v) ps) : Res _) = _
        rw [copy_objOf, g2]
        rfl
    · exact .inr ⟨by simp only [treesAt, h1]; rfl, e, by rw [copies, h2]; rfl, h3⟩

theorem set_storeOf (v : SumState N E) (x : Nat) (t : Option (SumTree N E)) :
    (storeOf v).set x (t.map objOf) = storeOf fun y => if y = x then t else v y := by
  funext y
  by_cases h : y = x
  · simp [Vars.set, storeOf, h]
  · simp [Vars.set, storeOf, h]

theorem set_set (w : Vars N E) (x : Nat) (a b : Option (Obj N E)) : (w.set x a).set x b = w.set x b := by
  funext y
  by_cases h : y = x <;> simp [Vars.set, h]

/-- `x = p` for a place in another variable, or for `x` itself. -/
theorem assign_other (v : SumState N E) (x : Nat) (t : SumTree N E) (hx : v x = some t) (p : Place) (hp : v p.var ≠ none)
    (h : p.var ≠ x ∨ p.path = []) :
    (∃ u, treeAt v p = some u ∧ assign (storeOf v) x (objOf t) p = .ok (storeOf fun y => if y = x then some u else v y)) ∨
    (treeAt v p = none ∧ ∃ e, assign (storeOf v) x (objOf t) p = .error e ∧ e ≠ .ub) := by
  rcases refer_storeOf v p hp with ⟨u, h1, h2, h3⟩ | ⟨h1, e, h2, h3⟩
  · refine .inl ⟨u, h1, ?_⟩
    unfold assign
    rw [h2]
    by_cases hs : p = ⟨x, []⟩
    · rw [if_pos hs]
      have : (fun y => if y = x then some u else v y) = v := by
        funext y
        by_cases hy : y = x
        · subst hs hy
          rw [if_pos rfl, hx]
          simp only [treeAt, hx, SumTree.part, Option.bind_some] at h1
          exact h1.symm
        · rw [if_neg hy]
      rw [this]
      rfl
    · rw [if_neg hs]
      have hv : p.var ≠ x := by
        rcases h with h | h
        · exact h
        · intro e; exact hs (by cases p; simp_all)
      have hd : ∀ o, derefAt ((storeOf v).set x o) p = .ok (objOf u) := by
        intro o
        rw [← h3]
        simp only [derefAt, Vars.set, if_neg hv]
      show (do
        destroy (objOf t)
        let other ← derefAt ((storeOf v).set x (some (.nothing (objOf t).flag))) p
        let o ← copy (← derefAt (((storeOf v).set x (some (.nothing (objOf t).flag))).set x (some (.nothing other.flag))) p)
        return (((storeOf v).set x (some (.nothing (objOf t).flag))).set x (some (.nothing other.flag))).set x (some o) : Res _) = _
      rw [destroy_objOf, hd]
      show (do
        let o ← copy (← derefAt (((storeOf v).set x (some (.nothing (objOf t).flag))).set x (some (.nothing (objOf u).flag))) p)
        return (((storeOf v).set x (some (.nothing (objOf t).flag))).set x (some (.nothing (objOf u).flag))).set x (some o) : Res _) = _
      rw [set_set, hd]
      show (do
        let o ← copy (objOf u)
        return ((storeOf v).set x (some (.nothing (objOf u).flag))).set x (some o) : Res _) = _
      rw [copy_objOf, ← set_storeOf]
      show Except.ok _ = _
      rw [set_set]
      rfl
  · exact .inr ⟨h1, e, by unfold assign; rw [h2]; rfl, h3⟩

/-- `x = x.Get().kids.at(i)…`: the source is destroyed before it is read. -/
theorem assign_own (v : SumState N E) (x : Nat) (t : SumTree N E) (hx : v x = some t) (p : Place) (hp : p.var = x)
    (hq : p.path ≠ []) (hs : (treeAt v p).isSome) : assign (storeOf v) x (objOf t) p = .error .ub := by
  rcases refer_storeOf v p (by rw [hp, hx]; simp) with ⟨u, h1, h2, h3⟩ | ⟨h1, _⟩
  · unfold assign
    rw [h2]
    have hne : p ≠ ⟨x, []⟩ := fun e => hq (by rw [e])
    show (if p = ⟨x, []⟩ then _ else _ : Res _) = _
    rw [if_neg hne, destroy_objOf]
    have hd : derefAt ((storeOf v).set x (some (.nothing (objOf t).flag))) p = .error .ub := by
      obtain ⟨y, path⟩ := p
      cases hp
      cases path with
      | nil => exact absurd rfl hq
      | cons i path => simp only [derefAt, Vars.set, if_true, deref]
    show (do let other ← derefAt ((storeOf v).set x (some (.nothing (objOf t).flag))) p; _ : Res _) = _
    rw [hd]
    rfl
  · rw [h1] at hs
    cases hs

theorem exec_storeOf (v : SumState N E) (op : Op N E) (h : Scoped v op) :
    (OwnPart v op ∧ exec (storeOf v) op = .error .ub) ∨
    (¬ OwnPart v op ∧ (exec (storeOf v) op = .ok (storeOf (after v op)) ∨
      (after v op = v ∧ ∃ e, exec (storeOf v) op = .error e ∧ e ≠ .ub))) := by
  cases op with
  | makeValue x n kids =>
    refine .inr ⟨fun h => h, ?_⟩
    have hx : storeOf v x = none := by simp only [storeOf, h.1, Option.map_none]
    rcases copies_storeOf v kids h.2 with ⟨us, h1, h2⟩ | ⟨h1, e, h2, h3⟩
    · left
      simp only [exec, hx, h2]
      have : after v (.makeValue x n kids) = fun y => if y = x then some (.node n us) else v y := by
        simp only [after, sumWrites, h1]; rfl
      rw [this, ← set_storeOf, Option.map_some, objOf]
      rfl
    · right
      exact ⟨by simp only [after, sumWrites, h1]; rfl, e, by simp only [exec, hx, h2]; rfl, h3⟩
  | makeError x e =>
    refine .inr ⟨fun h => h, .inl ?_⟩
    have hx : storeOf v x = none := by simp only [storeOf, show v x = none from h, Option.map_none]
    simp only [exec, hx]
    have : after v (.makeError x e) = fun y => if y = x then some (.fail e) else v y := rfl
    rw [this, ← set_storeOf, Option.map_some, objOf]
  | makeFrom x p =>
    refine .inr ⟨fun h => h, ?_⟩
    have hx : storeOf v x = none := by simp only [storeOf, h.1, Option.map_none]
    rcases refer_storeOf v p h.2 with ⟨u, h1, h2, _⟩ | ⟨h1, e, h2, h3⟩
    · left
      have : after v (.makeFrom x p) = fun y => if y = x then some u else v y := by
        simp only [after, sumWrites, h1]; rfl
      simp only [exec, hx, h2]
      rw [this, ← set_storeOf]
      show (do let o ← copy (objOf u); return (storeOf v).set x (some o) : Res _) = _
      rw [copy_objOf]
      rfl
    · right
      exact ⟨by simp only [after, sumWrites, h1]; rfl, e, by simp only [exec, hx, h2]; rfl, h3⟩
  | assign x p =>
    cases ht : v x with
    | none => exact absurd ht h.1
    | some t =>
      have hx : storeOf v x = some (objOf t) := by simp only [storeOf, ht, Option.map_some]
      have hex : exec (storeOf v) (.assign x p) = assign (storeOf v) x (objOf t) p := by simp only [exec, hx]
      rw [hex]
      by_cases hown : OwnPart v (.assign x p)
      · exact .inl ⟨hown, assign_own v x t ht p hown.1 hown.2.1 hown.2.2⟩
      · refine .inr ⟨hown, ?_⟩
        have hplain : treeAt v p = none → ∃ e, assign (storeOf v) x (objOf t) p = .error e ∧ e ≠ .ub := by
          intro hn
          rcases refer_storeOf v p h.2 with ⟨u, h1, _⟩ | ⟨_, e, h2, h3⟩
          · rw [hn] at h1; cases h1
          · exact ⟨e, by unfold assign; rw [h2]; rfl, h3⟩
        cases ht' : treeAt v p with
        | none => exact .inr ⟨by simp only [after, sumWrites, ht']; rfl, hplain ht'⟩
        | some u =>
          have hd : p.var ≠ x ∨ p.path = [] := by
            by_cases h1 : p.var = x
            · by_cases h2 : p.path = []
              · exact .inr h2
              · exact absurd ⟨h1, h2, by rw [ht']; rfl⟩ hown
            · exact .inl h1
          rcases assign_other v x t ht p h.2 hd with ⟨u', h1, h2⟩ | ⟨h1, _⟩
          · left
            rw [h2]
            have : after v (.assign x p) = fun y => if y = x then some u' else v y := by
              simp only [after, sumWrites, h1]; rfl
            rw [this]
          · rw [h1] at ht'; cases ht'
  | drop x =>
    refine .inr ⟨fun h => h, .inl ?_⟩
    cases ht : v x with
    | none => exact absurd ht h
    | some t =>
      have hx : storeOf v x = some (objOf t) := by simp only [storeOf, ht, Option.map_some]
      simp only [exec, hx]
      have : after v (.drop x : Op N E) = fun y => if y = x then none else v y := rfl
      rw [this, ← set_storeOf, destroy_objOf]
      rfl

end Parts

/-- C156, exactly, for all programs with variables of type `Expected` whose values contain further ones: if no statement assigns to a
variable a proper part of what it holds, the variables hold what variables of a recursive sum type hold, and exceptions of `Get` and
`at` leave them unchanged. If some statement does, the behaviour of the program is undefined, because the old value, and with it
the part, is destroyed before the part is read. -/
theorem C156_exact_fails (ops : List (Op N E)) : ∀ (v : SumState N E), ScopedAll v ops →
    (¬ SomeOwnPart v ops → run (storeOf v) ops = .ok (storeOf (afterAll v ops))) ∧
    (SomeOwnPart v ops → run (storeOf v) ops = .error .ub) := by
  induction ops with
  | nil => exact fun v _ => ⟨fun _ => rfl, fun h => h.elim⟩
  | cons op ops ih =>
    intro v h
    rcases exec_storeOf v op h.1 with ⟨ho, he⟩ | ⟨ho, he | ⟨ha, e, he, hne⟩⟩
    · refine ⟨fun hn => absurd (.inl ho) hn, fun _ => ?_⟩
      simp only [run, he]
    · have ih := ih (after v op) h.2
      have hr : run (storeOf v) (op :: ops) = run (storeOf (after v op)) ops := by simp only [run, he]
      rw [hr]
      exact ⟨fun hn => ih.1 fun hs => hn (.inr hs), fun hs => ih.2 (hs.resolve_left ho)⟩
    · have ih := ih (after v op) h.2
      have hr : run (storeOf v) (op :: ops) = run (storeOf (after v op)) ops := by
        rw [ha]
        cases e <;> first | exact absurd rfl hne | simp only [run, he]
      rw [hr]
      exact ⟨fun hn => ih.1 fun hs => hn (.inr hs), fun hs => ih.2 (hs.resolve_left ho)⟩

/-- C156 holds with a detour: a copy of the part that is assigned and dropped afterwards puts the part into the variable, wherever in
the value the part is. -/
theorem C156_detour (v : SumState N E) (x c : Nat) (path : List Nat) (t u : SumTree N E) (hx : v x = some t) (hc : v c = none)
    (hu : t.part path = some u) :
    ∃ w, run (storeOf v) [.makeFrom c ⟨x, path⟩, .assign x ⟨c, []⟩, .drop c] = .ok (storeOf w) ∧ w x = some u ∧
      ∀ y, y ≠ x → w y = v y := by
  have hne : x ≠ c := fun e => by rw [e, hc] at hx; cases hx
  have hp : treeAt v ⟨x, path⟩ = some u := by simp only [treeAt, hx, Option.bind_some, hu]
  have h1 : after v (.makeFrom c ⟨x, path⟩) = fun y => if y = c then some u else v y := by simp only [after, sumWrites, hp]; rfl
  have h2 : after (fun y => if y = c then some u else v y) (.assign x ⟨c, []⟩ : Op N E) =
      fun y => if y = x then some u else if y = c then some u else v y := by
    simp only [after, sumWrites, treeAt, if_true, Option.bind_some, SumTree.part]; rfl
  have hs : ScopedAll v [.makeFrom c ⟨x, path⟩, .assign x ⟨c, []⟩, .drop c] := by
    refine ⟨⟨hc, by rw [hx]; simp⟩, ?_, ?_, trivial⟩
    · rw [h1]
      exact ⟨by simp only [if_neg hne, hx]; simp, by simp⟩
    · rw [h1, h2]
      simp [Scoped, Ne.symm hne]
  have hno : ¬ SomeOwnPart v [.makeFrom c ⟨x, path⟩, .assign x ⟨c, []⟩, .drop c] := by
    rintro (h | ⟨_, h, _⟩ | h | h)
    · exact h
    · exact h rfl
    · exact h
    · exact h
  refine ⟨_, (C156_exact_fails _ v hs).1 hno, ?_, ?_⟩
  · simp only [afterAll, List.foldl]
    rw [h1, h2]
    simp [after, sumWrites, hne]
  · intro y hy
    simp only [afterAll, List.foldl]
    rw [h1, h2]
    by_cases hyc : y = c
    · subst hyc; simp [after, sumWrites, hc]
    · simp [after, sumWrites, hy, hyc]

/-- A list of three nodes, each the only part of the one before. -/
example : ∃ v : SumState Nat Unit,
    run (storeOf fun _ => none) [.makeValue 0 3 [], .makeValue 1 2 [⟨0, []⟩], .makeValue 2 1 [⟨1, []⟩]] = .ok (storeOf v) ∧
    treeAt v ⟨2, [0, 0]⟩ = some (.node 3 []) ∧
    run (storeOf v) [.assign 2 ⟨2, [0]⟩] = .error .ub ∧
    (∃ v', run (storeOf v) [.assign 2 ⟨1, [0]⟩] = .ok (storeOf v') ∧ v' 2 = some (.node 3 [])) := by
  refine ⟨afterAll (fun _ => none) [.makeValue 0 3 [], .makeValue 1 2 [⟨0, []⟩], .makeValue 2 1 [⟨1, []⟩]], ?_, rfl, ?_, ?_⟩
  · refine (C156_exact_fails _ _ ?_).1 ?_
    · refine ⟨⟨rfl, by simp⟩, ⟨rfl, ?_⟩, ⟨rfl, ?_⟩, trivial⟩ <;>
        (intro p hp; rw [List.mem_singleton.mp hp]; exact fun h => by cases h)
    · rintro (h | h | h | h) <;> exact h
  · refine (C156_exact_fails _ _ ?_).2 (.inl ⟨rfl, by simp, rfl⟩)
    exact ⟨⟨(fun h => by cases h), (fun h => by cases h)⟩, trivial⟩
  · refine ⟨_, (C156_exact_fails _ _ ?_).1 ?_, rfl⟩
    · exact ⟨⟨(fun h => by cases h), (fun h => by cases h)⟩, trivial⟩
    rintro (⟨h, _⟩ | h)
    · cases h
    · exact h

end Caitlyn
