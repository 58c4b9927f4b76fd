import Verif.Proofs.JsonThreads

/-! # One thread alone on a JSON value -/

namespace Caitlyn.JsonThreads
open Caitlyn Spec
variable {F : Type} {ops : FloatOps F}

/-! ### Nodes -/

theorem node_replace {v n : Json F} {p : List Nat} (h : node v p = some n) (w : Json F) : node (replace w v p) p = some w := by
  induction p generalizing v with
  | nil => simp [replace, node]
  | cons i p ih =>
    cases v with
    | arr js =>
      simp only [node] at h
      cases hi : js[i]? with
      | none => rw [hi] at h; cases h
      | some j =>
        rw [hi] at h
        have hl : i < js.length := by rw [List.getElem?_eq_some_iff] at hi; exact hi.1
        simp only [replace, hi, node, List.getElem?_set_self hl]
        exact ih h
    | obj ms =>
      simp only [node] at h
      cases hi : ms[i]? with
      | none => rw [hi] at h; cases h
      | some m =>
        rw [hi] at h
        have hl : i < ms.length := by rw [List.getElem?_eq_some_iff] at hi; exact hi.1
        simp only [replace, hi, node, List.getElem?_set_self hl]
        exact ih h
    | _ => cases h

theorem replace_self {v n : Json F} {p : List Nat} (h : node v p = some n) : replace n v p = v := by
  induction p generalizing v with
  | nil => simp only [node, Option.some.injEq] at h; simp [replace, h]
  | cons i p ih =>
    cases v with
    | arr js =>
      simp only [node] at h
      cases hi : js[i]? with
      | none => rw [hi] at h; cases h
      | some j =>
        rw [hi] at h
        obtain ⟨hl, e⟩ := List.getElem?_eq_some_iff.mp hi
        simp only [replace, hi]
        rw [ih h, ← e, List.set_getElem_self]
    | obj ms =>
      simp only [node] at h
      cases hi : ms[i]? with
      | none => rw [hi] at h; cases h
      | some m =>
        rw [hi] at h
        obtain ⟨hl, e⟩ := List.getElem?_eq_some_iff.mp hi
        simp only [replace, hi]
        rw [ih h, ← e, List.set_getElem_self]
    | _ => cases h

theorem replace_append {v n : Json F} {p : List Nat} (h : node v p = some n) (w : Json F) (q : List Nat) :
    replace w v (p ++ q) = replace (replace w n q) v p := by
  induction p generalizing v with
  | nil => simp only [node, Option.some.injEq] at h; simp [replace, h]
  | cons i p ih =>
    cases v with
    | arr js =>
      simp only [node] at h
      cases hi : js[i]? with
      | none => rw [hi] at h; cases h
      | some j =>
        rw [hi] at h
        simp only [List.cons_append, replace, hi]
        rw [ih h]
    | obj ms =>
      simp only [node] at h
      cases hi : ms[i]? with
      | none => rw [hi] at h; cases h
      | some m =>
        rw [hi] at h
        simp only [List.cons_append, replace, hi]
        rw [ih h]
    | _ => cases h

theorem replace_replace {v n : Json F} {p : List Nat} (h : node v p = some n) (w x : Json F) :
    replace x (replace w v p) p = replace x v p := by
  induction p generalizing v with
  | nil => simp [replace]
  | cons i p ih =>
    cases v with
    | arr js =>
      simp only [node] at h
      cases hi : js[i]? with
      | none => rw [hi] at h; cases h
      | some j =>
        rw [hi] at h
        have hl : i < js.length := by rw [List.getElem?_eq_some_iff] at hi; exact hi.1
        simp only [replace, hi, List.getElem?_set_self hl, List.set_set]
        rw [ih h]
    | obj ms =>
      simp only [node] at h
      cases hi : ms[i]? with
      | none => rw [hi] at h; cases h
      | some m =>
        rw [hi] at h
        have hl : i < ms.length := by rw [List.getElem?_eq_some_iff] at hi; exact hi.1
        simp only [replace, hi, List.getElem?_set_self hl, List.set_set]
        rw [ih h]
    | _ => cases h

/-! ### Steps of one thread -/

/-- Steps of a thread that is alone. -/
inductive Goes (ops : FloatOps F) : Json F → Thread F → Json F → Thread F → Prop where
  | refl {v th} : Goes ops v th v th
  | step {v th m rest b v' th' v'' th''} : th.todo = m :: rest → advance ops v th m rest = .ok (b, v', th') →
      Goes ops v' th' v'' th'' → Goes ops v th v'' th''

/-- The thread cannot go on. -/
def Stuck (ops : FloatOps F) (v : Json F) (th : Thread F) : Prop :=
  ∃ m rest e, th.todo = m :: rest ∧ advance ops v th m rest = .error e

theorem Goes.trans {v v' v'' : Json F} {th th' th''} (h : Goes ops v th v' th') (h' : Goes ops v' th' v'' th'') :
    Goes ops v th v'' th'' := by
  induction h with
  | refl => exact h'
  | step a b _ ih => exact .step a b (ih h')

theorem Goes.one {v v' : Json F} {th th' m rest b} (h : th.todo = m :: rest) (h' : advance ops v th m rest = .ok (b, v', th')) :
    Goes ops v th v' th' := .step h h' .refl

/-- There is one way to the end. -/
theorem Goes.unique {v v' w : Json F} {th th' te} (h : Goes ops v th v' th') (h' : Goes ops v th w te) (he : te.todo = []) :
    Goes ops v' th' w te := by
  induction h with
  | refl => exact h'
  | step a b _ ih =>
    cases h' with
    | refl => rw [he] at a; cases a
    | step a' b' h'' =>
      rw [a] at a'
      cases a'
      rw [b] at b'
      cases b'
      exact ih h''

theorem Stuck.never {v w : Json F} {th te} (h : Stuck ops v th) (h' : Goes ops v th w te) (he : te.todo = []) : False := by
  obtain ⟨m, rest, e, h1, h2⟩ := h
  cases h' with
  | refl => rw [he] at h1; cases h1
  | step a b _ => rw [h1] at a; cases a; rw [h2] at b; cases b

/-- A query from the node at `p`: it gets its answer and leaves the value as `ask` says, or it comes to an undefined step. -/
theorem ask_goes (l : Last) (rest : List Micro) (outs : List (Out F)) : ∀ (ss : List Seek) (v n : Json F) (p : List Nat),
    node v p = some n →
    match ask ops l ss n with
    | .ok (n', o) => Goes ops v ⟨p, ss.flatMap Seek.steps ++ .answer l :: rest, outs⟩ (replace n' v p) ⟨[], rest, outs ++ [o]⟩
    | .error _ => ∃ v' th, Goes ops v ⟨p, ss.flatMap Seek.steps ++ .answer l :: rest, outs⟩ v' th ∧ Stuck ops v' th
  | [], v, n, p, h => by
    simp only [ask]
    refine .one rfl ?_ (b := false)
    simp only [advance, h, replace_self h]
  | .key k :: ss, v, n, p, h => by
    -- the type is checked first
    have first : ∃ b v1, advance ops v ⟨p, .setObject :: .findKey k :: (ss.flatMap Seek.steps ++ .answer l :: rest), outs⟩ .setObject
        (.findKey k :: (ss.flatMap Seek.steps ++ .answer l :: rest)) = .ok (b, v1, ⟨p, .findKey k :: (ss.flatMap Seek.steps ++ .answer l :: rest), outs⟩) ∧
        node v1 p = some (.obj n.members) ∧ ∀ x, replace x v1 p = replace x v p := by
      cases n with
      | obj ms => exact ⟨false, v, by simp only [advance, h], h, fun _ => rfl⟩
      | _ =>
        exact ⟨true, replace (.obj []) v p, by simp only [advance, h], node_replace h _, fun x => replace_replace h _ x⟩
    obtain ⟨b, v1, h1, h2, h3⟩ := first
    have g1 : Goes ops v ⟨p, (.key k :: ss).flatMap Seek.steps ++ .answer l :: rest, outs⟩ v1
        ⟨p, .findKey k :: (ss.flatMap Seek.steps ++ .answer l :: rest), outs⟩ := .one rfl h1
    cases hf : n.members.findIdx? (fun m => m.1 == k) with
    | some i =>
      simp only [ask, hf]
      have g2 : Goes ops v1 ⟨p, .findKey k :: (ss.flatMap Seek.steps ++ .answer l :: rest), outs⟩ v1
          ⟨p ++ [i], ss.flatMap Seek.steps ++ .answer l :: rest, outs⟩ := .one (b := false) (rest := ss.flatMap Seek.steps ++ .answer l :: rest) rfl (by simp only [advance, h2, hf])
      obtain ⟨hi, _⟩ := List.findIdx?_eq_some_iff_getElem.mp hf
      have hm : n.members[i]? = some n.members[i] := List.getElem?_eq_getElem hi
      have hn : node v1 (p ++ [i]) = some n.members[i].2 := by
        rw [node_append h2]
        simp only [node, hm, Option.bind_some]
      have ih := ask_goes l rest outs ss v1 n.members[i].2 (p ++ [i]) hn
      rw [hm]
      simp only
      cases ha : ask ops l ss n.members[i].2 with
      | error e =>
        rw [ha] at ih
        obtain ⟨v', th, g3, hs⟩ := ih
        exact ⟨v', th, (g1.trans g2).trans g3, hs⟩
      | ok r =>
        rw [ha] at ih
        simp only [Except.map] at ih ⊢
        have e : replace r.1 v1 (p ++ [i]) = replace (.obj (n.members.set i (n.members[i].1, r.1))) v p := by
          rw [replace_append h2, h3]
          simp only [replace, hm]
        rw [e] at ih
        exact (g1.trans g2).trans ih
    | none =>
      simp only [ask, hf]
      have g2 : Goes ops v1 ⟨p, .findKey k :: (ss.flatMap Seek.steps ++ .answer l :: rest), outs⟩
          (replace (.obj (n.members ++ [(k, .null)])) v1 p)
          ⟨p ++ [n.members.length], ss.flatMap Seek.steps ++ .answer l :: rest, outs⟩ := .one (b := true) (rest := ss.flatMap Seek.steps ++ .answer l :: rest) rfl (by simp only [advance, h2, hf])
      have h4 := node_replace h2 (.obj (n.members ++ [(k, .null)]))
      have hm : (n.members ++ [(k, Json.null)])[n.members.length]? = some (k, .null) := by simp
      have hn : node (replace (.obj (n.members ++ [(k, .null)])) v1 p) (p ++ [n.members.length]) = some .null := by
        rw [node_append h4]
        simp only [node, hm, Option.bind_some]
      have ih := ask_goes l rest outs ss _ .null (p ++ [n.members.length]) hn
      cases ha : ask ops l ss .null with
      | error e =>
        rw [ha] at ih
        obtain ⟨v', th, g3, hs⟩ := ih
        exact ⟨v', th, (g1.trans g2).trans g3, hs⟩
      | ok r =>
        rw [ha] at ih
        simp only [Except.map] at ih ⊢
        have e : replace r.1 (replace (.obj (n.members ++ [(k, .null)])) v1 p) (p ++ [n.members.length]) =
            replace (.obj (n.members ++ [(k, r.1)])) v p := by
          rw [replace_append h4, replace_replace h2, h3]
          simp only [replace, hm]
          rw [List.set_append_right _ _ (Nat.le_refl _)]
          simp
        rw [e] at ih
        exact (g1.trans g2).trans ih
  | .index i :: ss, v, n, p, h => by
    have first : ∃ b v1, advance ops v ⟨p, .setArray :: .findIndex i :: (ss.flatMap Seek.steps ++ .answer l :: rest), outs⟩ .setArray
        (.findIndex i :: (ss.flatMap Seek.steps ++ .answer l :: rest)) = .ok (b, v1, ⟨p, .findIndex i :: (ss.flatMap Seek.steps ++ .answer l :: rest), outs⟩) ∧
        node v1 p = some (.arr n.items) ∧ ∀ x, replace x v1 p = replace x v p := by
      cases n with
      | arr ms => exact ⟨false, v, by simp only [advance, h], h, fun _ => rfl⟩
      | _ =>
        exact ⟨true, replace (.arr []) v p, by simp only [advance, h], node_replace h _, fun x => replace_replace h _ x⟩
    obtain ⟨b, v1, h1, h2, h3⟩ := first
    have g1 : Goes ops v ⟨p, (.index i :: ss).flatMap Seek.steps ++ .answer l :: rest, outs⟩ v1
        ⟨p, .findIndex i :: (ss.flatMap Seek.steps ++ .answer l :: rest), outs⟩ := .one rfl h1
    cases hm : n.items[i]? with
    | none =>
      simp only [ask, hm]
      have hl : ¬ i < n.items.length := by
        intro hl; rw [List.getElem?_eq_getElem hl] at hm; cases hm
      exact ⟨v1, _, g1, _, _, .ub, rfl, by simp only [advance, h2, hl, if_false]⟩
    | some w =>
      simp only [ask, hm]
      have hl : i < n.items.length := by rw [List.getElem?_eq_some_iff] at hm; exact hm.1
      have g2 : Goes ops v1 ⟨p, .findIndex i :: (ss.flatMap Seek.steps ++ .answer l :: rest), outs⟩ v1
          ⟨p ++ [i], ss.flatMap Seek.steps ++ .answer l :: rest, outs⟩ := .one (b := false) (rest := ss.flatMap Seek.steps ++ .answer l :: rest) rfl (by simp only [advance, h2, hl, if_true])
      have hn : node v1 (p ++ [i]) = some w := by
        rw [node_append h2]
        simp only [node, hm, Option.bind_some]
      have ih := ask_goes l rest outs ss v1 w (p ++ [i]) hn
      cases ha : ask ops l ss w with
      | error e =>
        rw [ha] at ih
        obtain ⟨v', th, g3, hs⟩ := ih
        exact ⟨v', th, (g1.trans g2).trans g3, hs⟩
      | ok r =>
        rw [ha] at ih
        simp only [Except.map] at ih ⊢
        have e : replace r.1 v1 (p ++ [i]) = replace (.arr (n.items.set i r.1)) v p := by
          rw [replace_append h2, h3]
          simp only [replace, hm]
        rw [e] at ih
        exact (g1.trans g2).trans ih
  | .atKey k :: ss, v, n, p, h => by
    have bad : (∀ ms, n ≠ .obj ms) → ask ops l (.atKey k :: ss) n = .error .ub ∧
        Stuck ops v ⟨p, (.atKey k :: ss).flatMap Seek.steps ++ .answer l :: rest, outs⟩ := by
      intro hno
      cases n with
      | obj ms => exact absurd rfl (hno ms)
      | _ => exact ⟨by simp only [ask], _, _, .ub, rfl, by simp only [advance, h]⟩
    cases n with
    | obj ms =>
      cases hf : ms.findIdx? (fun m => m.1 == k) with
      | some i =>
        simp only [ask, hf]
        have g2 : Goes ops v ⟨p, (.atKey k :: ss).flatMap Seek.steps ++ .answer l :: rest, outs⟩ v
            ⟨p ++ [i], ss.flatMap Seek.steps ++ .answer l :: rest, outs⟩ := .one (b := false) (rest := ss.flatMap Seek.steps ++ .answer l :: rest) rfl (by simp only [advance, h, hf])
        obtain ⟨hi, _⟩ := List.findIdx?_eq_some_iff_getElem.mp hf
        have hm : ms[i]? = some ms[i] := List.getElem?_eq_getElem hi
        have hn : node v (p ++ [i]) = some ms[i].2 := by
          rw [node_append h]
          simp only [node, hm, Option.bind_some]
        have ih := ask_goes l rest outs ss v ms[i].2 (p ++ [i]) hn
        rw [hm]
        simp only
        cases ha : ask ops l ss ms[i].2 with
        | error e =>
          rw [ha] at ih
          obtain ⟨v', th, g3, hs⟩ := ih
          exact ⟨v', th, g2.trans g3, hs⟩
        | ok r =>
          rw [ha] at ih
          simp only [Except.map] at ih ⊢
          have e : replace r.1 v (p ++ [i]) = replace (.obj (ms.set i (ms[i].1, r.1))) v p := by
            rw [replace_append h]
            simp only [replace, hm]
          rw [e] at ih
          exact g2.trans ih
      | none =>
        simp only [ask, hf]
        refine .one (b := false) (rest := ss.flatMap Seek.steps ++ .answer l :: rest) rfl ?_
        simp only [advance, h, hf, replace_self h]
        simp only [afterAnswer_steps]
    | _ =>
      obtain ⟨h1, h2⟩ := bad (by simp)
      rw [h1]
      exact ⟨v, _, .refl, h2⟩
  | .atIndex i :: ss, v, n, p, h => by
    have bad : (∀ ms, n ≠ .arr ms) → ask ops l (.atIndex i :: ss) n = .error .ub ∧
        Stuck ops v ⟨p, (.atIndex i :: ss).flatMap Seek.steps ++ .answer l :: rest, outs⟩ := by
      intro hno
      cases n with
      | arr ms => exact absurd rfl (hno ms)
      | _ => exact ⟨by simp only [ask], _, _, .ub, rfl, by simp only [advance, h]⟩
    cases n with
    | arr js =>
      cases hm : js[i]? with
      | some w =>
        simp only [ask, hm]
        have hl : i < js.length := by rw [List.getElem?_eq_some_iff] at hm; exact hm.1
        have g2 : Goes ops v ⟨p, (.atIndex i :: ss).flatMap Seek.steps ++ .answer l :: rest, outs⟩ v
            ⟨p ++ [i], ss.flatMap Seek.steps ++ .answer l :: rest, outs⟩ := .one (b := false) (rest := ss.flatMap Seek.steps ++ .answer l :: rest) rfl (by simp only [advance, h, hl, if_true])
        have hn : node v (p ++ [i]) = some w := by
          rw [node_append h]
          simp only [node, hm, Option.bind_some]
        have ih := ask_goes l rest outs ss v w (p ++ [i]) hn
        cases ha : ask ops l ss w with
        | error e =>
          rw [ha] at ih
          obtain ⟨v', th, g3, hs⟩ := ih
          exact ⟨v', th, g2.trans g3, hs⟩
        | ok r =>
          rw [ha] at ih
          simp only [Except.map] at ih ⊢
          have e : replace r.1 v (p ++ [i]) = replace (.arr (js.set i r.1)) v p := by
            rw [replace_append h]
            simp only [replace, hm]
          rw [e] at ih
          exact g2.trans ih
      | none =>
        simp only [ask, hm]
        have hl : ¬ i < js.length := by
          intro hl; rw [List.getElem?_eq_getElem hl] at hm; cases hm
        refine .one (b := false) (rest := ss.flatMap Seek.steps ++ .answer l :: rest) rfl ?_
        simp only [advance, h, hl, if_false, replace_self h]
        simp only [afterAnswer_steps]
    | _ =>
      obtain ⟨h1, h2⟩ := bad (by simp)
      rw [h1]
      exact ⟨v, _, .refl, h2⟩

theorem askAll_goes : ∀ (qs : List Query) (v : Json F) (outs : List (Out F)),
    match askAll ops qs v with
    | .ok (v', os) => Goes ops v ⟨[], qs.flatMap Query.steps, outs⟩ v' ⟨[], [], outs ++ os⟩
    | .error _ => ∃ v' th, Goes ops v ⟨[], qs.flatMap Query.steps, outs⟩ v' th ∧ Stuck ops v' th
  | [], v, outs => by simp only [askAll, List.append_nil]; exact .refl
  | q :: qs, v, outs => by
    have hq := ask_goes (ops := ops) q.last (qs.flatMap Query.steps) outs q.path v v [] rfl
    have e : (q :: qs).flatMap Query.steps = q.path.flatMap Seek.steps ++ .answer q.last :: qs.flatMap Query.steps := by
      simp [Query.steps]
    rw [e]
    simp only [askAll]
    cases ha : ask ops q.last q.path v with
    | error x =>
      rw [ha] at hq
      exact hq
    | ok r =>
      rw [ha] at hq
      simp only [bind, Except.bind]
      have ih := askAll_goes qs r.1 (outs ++ [r.2])
      have hr : replace r.1 v [] = r.1 := by simp [replace]
      simp only [hr] at hq
      cases hb : askAll ops qs r.1 with
      | error x =>
        rw [hb] at ih
        obtain ⟨v', th, g, s⟩ := ih
        exact ⟨v', th, hq.trans g, s⟩
      | ok s =>
        rw [hb] at ih
        simp only [pure, Except.pure]
        have := hq.trans ih
        rw [List.append_assoc] at this
        exact this

/-- The runs in which only one thread has something to do are the steps of that thread. -/
theorem Runs.goes {s s' : State F} {tr : List Ev} (r : Runs ops s tr s') (t : Nat) (h : ∀ u, u ≠ t → (s.threads u).todo = []) :
    Goes ops s.value (s.threads t) s'.value (s'.threads t) := by
  induction r with
  | nil => exact .refl
  | step hm ha _ ih =>
    rename_i s u m rest b v th tr s' _
    by_cases hu : u = t
    · subst hu
      refine .step hm ha ?_
      have := ih (fun x hx => by simp only [hx, if_false]; exact h x hx)
      simpa using this
    · rw [h u hu] at hm; cases hm

end Caitlyn.JsonThreads
