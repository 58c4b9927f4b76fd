import Verif.Proofs.UniqueLinks

/-! # C136–C138: `UniquePtr` as a member of the objects it owns -/

namespace Caitlyn

open Links

/-! ## C136: `UniquePtr` members can be assigned like `std::unique_ptr` -/

/-- After `node = std::move(node->next)` the program is undefined, whatever it did before: the assignment deletes the node, and
with it the pointer it is about to move from. `std::unique_ptr` allows it, and it is how the first element of a list is removed. -/
theorem C136_pop_fails (ops : List Op) (w : World) (h : run {} ops = .ok w) (x r i : Nat) (fs : List (Option Nat))
    (hx : w.vars x = some (some r)) (hr : w.cells r = some fs) (hi : i < fs.length) :
    run {} (ops ++ [.moveAssign ⟨x, []⟩ ⟨x, [i]⟩]) = .error .ub := by
  have ho := run_owned Owned.empty ops h
  rw [run_append, h]
  show run w [_] = _
  have hd : Danger w (.moveAssign ⟨x, []⟩ ⟨x, [i]⟩) := by
    refine ⟨_, _, .var x, .field r i, some r, rfl, ?_, ?_, hx, r, r, i, rfl, rfl, .refl⟩
    · simp [World.locate, World.walk, hx]
    · simp [World.locate, World.walk, World.read, World.get, hx, hr, hi, Bind.bind, Except.bind]
  simp only [run, step_danger ho hd]
  rfl

example : ∃ w r fs, run {} [.make 0 1, .resetNew ⟨0, [0]⟩ 1] = .ok w ∧ w.vars 0 = some (some r) ∧ w.cells r = some fs ∧ 0 < fs.length :=
  ⟨_, 0, [some 1], rfl, rfl, rfl, by decide⟩

/-- A program is undefined exactly if it comes to a `p = std::move(q)` where `q` is a member of the object that `p` points to, or of
one owned by that object. -/
theorem C136_exact (ops : List Op) :
    run {} ops = .error .ub ↔ ∃ pre op post w, ops = pre ++ op :: post ∧ run {} pre = .ok w ∧ Danger w op := by
  have key : ∀ (ops : List Op) (w : World), Owned w →
      (run w ops = .error .ub ↔ ∃ pre op post w', ops = pre ++ op :: post ∧ run w pre = .ok w' ∧ Danger w' op) := by
    intro ops
    induction ops with
    | nil =>
      intro w _
      constructor
      · intro h; cases h
      · rintro ⟨pre, op, post, _, h, _⟩
        cases pre <;> cases h
    | cons op ops ih =>
      intro w hw
      by_cases hd : Danger w op
      · refine ⟨fun _ => ⟨[], op, ops, w, rfl, rfl, hd⟩, fun _ => ?_⟩
        simp only [run, step_danger hw hd]
        rfl
      · obtain ⟨w1, h1, h2⟩ := step_ok hw hd
        have e : run w (op :: ops) = run w1 ops := by simp only [run, h1]; rfl
        rw [e, ih w1 h2]
        constructor
        · rintro ⟨pre, o, post, w', rfl, hr, hdd⟩
          exact ⟨op :: pre, o, post, w', rfl, by simp only [run, h1]; exact hr, hdd⟩
        · rintro ⟨pre, o, post, w', he, hr, hdd⟩
          cases pre with
          | nil =>
            simp only [List.nil_append, List.cons.injEq] at he
            cases hr
            rw [← he.1] at hdd
            exact absurd hdd hd
          | cons o' pre =>
            simp only [List.cons_append, List.cons.injEq] at he
            obtain ⟨rfl, rfl⟩ := he
            simp only [run, h1] at hr
            exact ⟨pre, o, post, w', rfl, hr, hdd⟩
  exact key ops {} Owned.empty

example : run {} [.make 0 1, .resetNew ⟨0, [0]⟩ 1, .moveAssign ⟨0, []⟩ ⟨0, [0]⟩] = .error .ub := rfl
example : (run {} [.make 0 1, .resetNew ⟨0, [0]⟩ 1, .moveNew 1 ⟨0, [0]⟩, .moveAssign ⟨0, []⟩ ⟨1, []⟩]).isOk := rfl

/-- Every program ends with undefined behaviour or normally, and in the second case every pointer points to a living object and
every living object has exactly one owner. -/
theorem C136_owners (ops : List Op) : run {} ops = .error .ub ∨ ∃ w, run {} ops = .ok w ∧ Owned w := by
  have key : ∀ (ops : List Op) (w : World), Owned w → run w ops = .error .ub ∨ ∃ w', run w ops = .ok w' ∧ Owned w' := by
    intro ops
    induction ops with
    | nil => intro w hw; exact .inr ⟨w, rfl, hw⟩
    | cons op ops ih =>
      intro w hw
      by_cases hd : Danger w op
      · left; simp only [run, step_danger hw hd]; rfl
      · obtain ⟨w1, h1, h2⟩ := step_ok hw hd
        have e : run w (op :: ops) = run w1 ops := by simp only [run, h1]; rfl
        rw [e]
        exact ih w1 h2
  exact key ops {} Owned.empty

example : ∃ w, run {} [.make 0 2, .resetNew ⟨0, [1]⟩ 1, .makeEmpty 1, .moveAssign ⟨1, []⟩ ⟨0, [1]⟩] = .ok w ∧
    w.vars 1 = some (some 1) ∧ w.cells 0 = some [none, none] := ⟨_, rfl, rfl, rfl⟩

/-- Otherwise `p = std::move(q)` does what `std::unique_ptr` does: `p` points to what `q` pointed to, `q` is null, everything that `p`
owned before is destroyed and nothing else changes. Missing from the property: the assignments of `C136_pop_fails`. -/
theorem C136_assign_partial (ops : List Op) (w : World) (h : run {} ops = .ok w) (p q : Place) (l l' : Loc)
    (old new : Option Nat) (hp : w.locate p = .ok (some l)) (hq : w.locate q = .ok (some l')) (hne : l ≠ l')
    (ho : w.get l = some old) (hn : w.get l' = some new) (hi : ¬ Inside w.cells l' old) :
    run {} (ops ++ [.moveAssign p q]) = .ok (w.handOver l l' old new) := by
  have hw := run_owned Owned.empty ops h
  have hl : Stored w l := by
    rcases locate_ok hw p with e | ⟨m, e, hm⟩
    · rw [hp] at e; cases e
    · rw [hp] at e; cases e; exact hm
  rw [run_append, h]
  show run w [_] = _
  simp only [run, step, hp, hq]
  show (w.moveAssign l l').bind _ = _
  rw [(moveAssign_ok hw hl hne ho hn hi).1]
  rfl

example : ∃ w, run {} [.make 0 1, .make 1 1] = .ok w ∧ w.locate ⟨0, [0]⟩ = .ok (some (.field 0 0)) ∧
    w.locate ⟨1, []⟩ = .ok (some (.var 1)) ∧ w.get (.field 0 0) = some none ∧ w.get (.var 1) = some (some 1) ∧
    ¬ Inside w.cells (.var 1) none :=
  ⟨_, rfl, rfl, rfl, rfl, rfl, fun ⟨_, _, _, h, _⟩ => by cases h⟩

/-- Going through a temporary, `UniquePtr t{std::move(x->m)}; x = std::move(t);`, has the effect that `std::unique_ptr` gives to
`x = std::move(x->m)`. -/
theorem C136_pop_by_temporary (ops : List Op) (w : World) (h : run {} ops = .ok w) (x r i t : Nat) (new : Option Nat)
    (hx : w.vars x = some (some r)) (hr : w.get (.field r i) = some new) (ht : w.vars t = none) :
    run {} (ops ++ [.moveNew t ⟨x, [i]⟩, .moveAssign ⟨x, []⟩ ⟨t, []⟩, .destroy t]) =
      .ok (w.handOver (.var x) (.field r i) (some r) new) := by
  have hw := run_owned Owned.empty ops h
  obtain ⟨fs, hfs⟩ : ∃ fs, w.cells r = some fs := by
    cases hc : w.cells r with
    | none => simp [World.get, hc] at hr
    | some fs => exact ⟨fs, rfl⟩
  have hi : i < fs.length := by
    simp only [World.get, hfs, Option.bind_some] at hr
    exact (List.getElem?_eq_some_iff.1 hr).1
  have hxt : x ≠ t := by rintro rfl; rw [hx] at ht; cases ht
  let w1 := (w.set (.var t) new).set (.field r i) none
  have h1 : step w (.moveNew t ⟨x, [i]⟩) = .ok w1 := by
    have : w.locate ⟨x, [i]⟩ = .ok (some (.field r i)) := by
      simp [World.locate, World.walk, World.read, World.get, hx, hfs, hi, Bind.bind, Except.bind]
    simp only [step, this]
    show (if (w.vars t).isSome then _ else _) = _
    rw [if_neg (by simp [ht])]
    simp [World.read, hr, Bind.bind, Except.bind, World.write, get_set_ne _ (.var t) (.field r i) _ (by simp), w1]
  have hd1 : ¬ Danger w (.moveNew t ⟨x, [i]⟩) := by rintro ⟨_, _, _, _, _, h, _⟩; cases h
  have hw1 : Owned w1 := by
    obtain ⟨w', e, ho⟩ := step_ok hw hd1
    rw [h1] at e
    cases e
    exact ho
  have hx1 : w1.get (.var x) = some (some r) := by
    show (if x = t then _ else w.vars x) = _
    rw [if_neg hxt, hx]
  have ht1 : w1.get (.var t) = some new := by simp [w1, World.set, World.get]
  have hs1 : Stored w1 (.var x) := Stored.var (by rw [show w1.vars x = _ from hx1]; rfl)
  have h2 := (moveAssign_ok hw1 hs1 (q := .var t) (by simpa using hxt) hx1 ht1 (by rintro ⟨_, _, _, _, h, _⟩; cases h))
  have h2' : step w1 (.moveAssign ⟨x, []⟩ ⟨t, []⟩) = .ok (w1.handOver (.var x) (.var t) (some r) new) := by
    have e1 : w1.locate ⟨x, []⟩ = .ok (some (.var x)) := by
      simp [World.locate, World.walk, show w1.vars x = _ from hx1]
    have e2 : w1.locate ⟨t, []⟩ = .ok (some (.var t)) := by
      simp [World.locate, World.walk, show w1.vars t = _ from ht1]
    simp only [step, e1, e2]
    exact h2.1
  have h3 : step (w1.handOver (.var x) (.var t) (some r) new) (.destroy t) =
      .ok ((w1.handOver (.var x) (.var t) (some r) new).leave t) := by
    have : (w1.handOver (.var x) (.var t) (some r) new).vars t = some none := by
      simp [World.handOver, World.without, World.set]
    simp only [step, this, World.delete, Option.toList_none, del]
    rfl
  rw [run_append, h]
  show run w [_, _, _] = _
  simp only [run, h1]
  show (do let a ← step w1 _; _) = _
  simp only [h2']
  show (do let a ← step _ _; _) = _
  simp only [h3]
  show Except.ok _ = Except.ok _
  congr 1
  refine World.ext' ?_ (fun a => ?_) rfl
  · funext y
    by_cases e : y = t
    · subst e
      simp [World.leave, World.handOver, World.without, World.set, ht, Ne.symm hxt]
    · by_cases e' : y = x
      · subst e'; simp [World.leave, World.handOver, World.without, World.set, w1, e]
      · simp [World.leave, World.handOver, World.without, World.set, w1, e, e']
  · rfl

example : ∃ w, run {} [.make 0 1, .resetNew ⟨0, [0]⟩ 1, .resetNew ⟨0, [0, 0]⟩ 1] = .ok w ∧
    w.vars 0 = some (some 0) ∧ w.get (.field 0 0) = some (some 1) ∧ w.vars 7 = none := ⟨_, rfl, rfl, rfl, rfl⟩

/-! ## C137: objects are destroyed when nothing owns them any more -/

/-- The end of the scope of a variable destroys exactly the objects it owns, directly or through others. -/
theorem C137_destroy (ops : List Op) (w : World) (h : run {} ops = .ok w) (x : Nat) (d : Option Nat)
    (hx : w.vars x = some d) :
    ∃ w', run {} (ops ++ [.destroy x]) = .ok w' ∧ w'.vars x = none ∧ (∀ y, y ≠ x → w'.vars y = w.vars y) ∧
      (∀ a, (∃ r, d = some r ∧ Reach w.cells r a) → w'.cells a = none) ∧
      ∀ a, (¬ ∃ r, d = some r ∧ Reach w.cells r a) → w'.cells a = w.cells a := by
  have hw := run_owned Owned.empty ops h
  refine ⟨(w.without d).leave x, ?_, by simp [World.leave], fun y hy => by simp [World.leave, World.without, hy],
    fun a ha => without_pos ha, fun a ha => without_neg ha⟩
  rw [run_append, h]
  show run w [_] = _
  simp only [run, step, hx, delete_ok w hw.sound (.var x) (Stored.var (by rw [hx]; rfl)) d hx]
  rfl

example : ∃ w, run {} [.make 0 2, .resetNew ⟨0, [1]⟩ 1, .make 1 0] = .ok w ∧ w.vars 0 = some (some 0) ∧ Reach w.cells 0 1 :=
  ⟨_, rfl, rfl, .single ⟨[none, some 1], rfl, by simp⟩⟩

/-- `p.Reset()` destroys exactly what `p` owned; `p.Reset(new T)` does the same and `p` owns the new object. -/
theorem C137_reset (ops : List Op) (w : World) (h : run {} ops = .ok w) (p : Place) (l : Loc) (d : Option Nat)
    (hp : w.locate p = .ok (some l)) (hd : w.get l = some d) (k : Nat) :
    run {} (ops ++ [.reset p]) = .ok ((w.without d).set l none) ∧
      run {} (ops ++ [.resetNew p k]) = .ok (((w.without d).new k).set l (some w.next)) := by
  have hw := run_owned Owned.empty ops h
  have hl : Stored w l := by
    rcases locate_ok hw p with e | ⟨m, e, hm⟩
    · rw [hp] at e; cases e
    · rw [hp] at e; cases e; exact hm
  rw [run_append, run_append, h]
  constructor
  · show run w [_] = _
    simp only [run, step, hp]
    show (w.reset l none).bind _ = _
    rw [reset_ok hw hl hd]
    rfl
  · show run w [_] = _
    simp only [run, step, hp]
    show ((w.new k).reset l _).bind _ = _
    rw [resetNew_ok hw hl hd k]
    rfl

example : ∃ w, run {} [.make 0 2, .resetNew ⟨0, [1]⟩ 1] = .ok w ∧ w.locate ⟨0, [1]⟩ = .ok (some (.field 0 1)) ∧
    w.get (.field 0 1) = some (some 1) := ⟨_, rfl, rfl, rfl⟩

/-- The objects alive after a program are those owned by its variables and those owned by an object that owns itself; the two kinds
are disjoint. -/
theorem C137_exact (ops : List Op) (w : World) (h : run {} ops = .ok w) (a : Nat) (ha : (w.cells a).isSome) :
    ¬ Held w a ↔ ∃ c, Owns w.cells c c ∧ Reach w.cells c a := by
  have hw := run_owned Owned.empty ops h
  constructor
  · intro hn
    refine Classical.byContradiction fun hc => hn (hw.held_or_cycle ha hc)
  · exact fun hc hh => hw.held_no_cycle hh hc

example : ∃ w, run {} [.make 0 1, .make 1 0, .moveAssign ⟨0, [0]⟩ ⟨0, []⟩] = .ok w ∧ (w.cells 0).isSome ∧ Owns w.cells 0 0 ∧ Held w 1 :=
  ⟨_, rfl, rfl, .single ⟨[some 0], rfl, by simp⟩, 1, 1, rfl, .refl⟩

/-- `p = std::move(q)` with `p` a member of the object `q` points to, for instance `x->m = std::move(x)`, makes the object own itself: it
is never destroyed, whatever the program does from then on. -/
theorem C137_fails (ops : List Op) (w : World) (h : run {} ops = .ok w) (x r i : Nat)
    (hx : w.vars x = some (some r)) (hr : w.get (.field r i) = some none) (more : List Op) :
    run {} (ops ++ .moveAssign ⟨x, [i]⟩ ⟨x, []⟩ :: more) = .error .ub ∨
      ∃ w', run {} (ops ++ .moveAssign ⟨x, [i]⟩ ⟨x, []⟩ :: more) = .ok w' ∧ (w'.cells r).isSome ∧ ¬ Held w' r := by
  have hw := run_owned Owned.empty ops h
  obtain ⟨fs, hfs⟩ : ∃ fs, w.cells r = some fs := by
    cases hc : w.cells r with
    | none => simp [World.get, hc] at hr
    | some fs => exact ⟨fs, rfl⟩
  have hi : i < fs.length := by
    simp only [World.get, hfs, Option.bind_some] at hr
    exact (List.getElem?_eq_some_iff.1 hr).1
  have e1 : w.locate ⟨x, [i]⟩ = .ok (some (.field r i)) := by
    simp [World.locate, World.walk, World.read, World.get, hx, hfs, hi, Bind.bind, Except.bind]
  have e2 : w.locate ⟨x, []⟩ = .ok (some (.var x)) := by simp [World.locate, World.walk, hx]
  have hs : Stored w (.field r i) := by
    rcases locate_ok hw ⟨x, [i]⟩ with e | ⟨m, e, hm⟩
    · rw [e1] at e; cases e
    · rw [e1] at e; cases e; exact hm
  have hm := moveAssign_ok hw hs (q := .var x) (by simp) hr hx (by rintro ⟨_, _, _, _, h, _⟩; cases h)
  have hstep : step w (.moveAssign ⟨x, [i]⟩ ⟨x, []⟩) = .ok (w.handOver (.field r i) (.var x) none (some r)) := by
    simp only [step, e1, e2]
    exact hm.1
  have hc : Owns (w.handOver (.field r i) (.var x) none (some r)).cells r r := by
    refine .single ((child_get _ r r).2 ⟨i, ?_⟩)
    unfold World.handOver
    rw [without_none, get_set_ne _ _ _ _ (by simp), get_set_self _ _ _ (by rw [hr]; rfl)]
  rw [run_append, h]
  show run w (_ :: more) = _ ∨ ∃ w', run w (_ :: more) = _ ∧ _
  have e : run w (.moveAssign ⟨x, [i]⟩ ⟨x, []⟩ :: more) = run (w.handOver (.field r i) (.var x) none (some r)) more := by
    simp only [run, hstep]; rfl
  rw [e]
  cases hr' : run (w.handOver (.field r i) (.var x) none (some r)) more with
  | ok w' =>
    right
    have hw' := run_owned hm.2 more hr'
    have hcyc := run_cycle hm.2 more hr' hc
    refine ⟨w', rfl, ?_, fun hh => hw'.held_no_cycle hh ⟨r, hcyc, .refl⟩⟩
    obtain ⟨b, _, hb⟩ := Relation.TransGen.tail'_iff.1 hcyc
    exact hw'.sound.field_live hb
  | error err =>
    left
    have : run {} (ops ++ .moveAssign ⟨x, [i]⟩ ⟨x, []⟩ :: more) = .error err := by
      rw [run_append, h]
      exact e.trans hr'
    rcases C136_owners (ops ++ .moveAssign ⟨x, [i]⟩ ⟨x, []⟩ :: more) with h | ⟨_, h, _⟩
    · rw [this] at h; exact h
    · rw [this] at h; cases h

example : ∃ w, run {} ([.make 0 1] ++ .moveAssign ⟨0, [0]⟩ ⟨0, []⟩ :: [.destroy 0]) = .ok w ∧ w.vars 0 = none ∧ w.cells 0 = some [some 0] :=
  ⟨_, rfl, rfl, rfl⟩

/-- If a program never does that, every living object is owned by a variable, and nothing is alive once no variable is left. -/
theorem C137_partial (ops : List Op) (w : World) (h : run {} ops = .ok w)
    (hl : ∀ pre op post w', ops = pre ++ op :: post → run {} pre = .ok w' → ¬ Loop w' op) :
    (∀ a, (w.cells a).isSome → Held w a) ∧ ((∀ x, w.vars x = none) → ∀ a, w.cells a = none) := by
  have key : ∀ (ops : List Op) (v : World), Owned v → Acyclic v.cells → run v ops = .ok w →
      (∀ pre op post w', ops = pre ++ op :: post → run v pre = .ok w' → ¬ Loop w' op) → Acyclic w.cells := by
    intro ops
    induction ops with
    | nil => intro v _ ha hr _; cases hr; exact ha
    | cons op ops ih =>
      intro v hv ha hr hl
      by_cases hd : Danger v op
      · simp only [run, step_danger hv hd] at hr; cases hr
      · obtain ⟨v1, h1, h2⟩ := step_ok hv hd
        simp only [run, h1] at hr
        refine ih v1 h2 (step_acyclic hv h1 (hl [] op ops v rfl rfl) ha) hr fun pre o post w' he hr' => ?_
        exact hl (op :: pre) o post w' (by rw [he]; rfl) (by simp only [run, h1]; exact hr')
  have hw := run_owned Owned.empty ops h
  have hac := key ops {} Owned.empty (fun a ha => by
    obtain ⟨b, _, fs, hb, _⟩ := Relation.TransGen.tail'_iff.1 ha
    cases hb) h hl
  have h1 : ∀ a, (w.cells a).isSome → Held w a := fun a ha =>
    hw.held_or_cycle ha fun ⟨c, hc, _⟩ => hac c hc
  refine ⟨h1, fun hv a => ?_⟩
  cases hc : w.cells a with
  | none => rfl
  | some fs =>
    obtain ⟨x, r, hx, _⟩ := h1 a (by rw [hc]; rfl)
    rw [hv x] at hx
    cases hx

example : ∃ w, run {} [.make 0 1, .make 1 1, .moveAssign ⟨1, [0]⟩ ⟨0, []⟩, .destroy 0, .destroy 1] = .ok w ∧
    w.cells 0 = none ∧ w.cells 1 = none := ⟨_, rfl, rfl, rfl⟩

/-! ## C138: destroying an object needs a bounded part of the stack -/

/-- The number of destructors running inside one another at the end of the scope of `x` is the number of objects on the longest chain
of owners that begins with `x`. -/
theorem C138_exact (ops : List Op) (w : World) (h : run {} ops = .ok w) (x r : Nat) (hx : w.vars x = some (some r)) :
    ∃ d, w.nesting x = .ok d ∧ ∀ k, k < d ↔ ∃ a, ∃ n, k ≤ n ∧ Path w.cells r n a := by
  have hw := run_owned Owned.empty ops h
  obtain ⟨d, h1, h2⟩ := nesting_ok w.next (w.next + 1) w.cells [(r, 1)] (by simpa using hw.ready hx)
    (by have := count_le w.cells w.next; omega)
  refine ⟨d, by simp only [World.nesting, hx]; exact h1, fun k => ?_⟩
  rw [← Nat.succ_le_iff, h2]
  constructor
  · rintro (h | ⟨e, he, n, a, hp, ht⟩)
    · omega
    · obtain rfl : e = (r, 1) := by simpa using he
      exact ⟨a, n, by simp only at ht; omega, hp⟩
  · rintro ⟨a, n, hk, hp⟩
    exact .inr ⟨(r, 1), by simp, n, a, hp, by simp only; omega⟩

example : ∃ w, run {} [.make 0 1, .resetNew ⟨0, [0]⟩ 1, .resetNew ⟨0, [0, 0]⟩ 1] = .ok w ∧ w.nesting 0 = .ok 3 :=
  ⟨_, rfl, rfl⟩

/-- The program that makes a list of `n + 1` nodes by inserting at the front. -/
def C138_list : Nat → List Op
  | 0 => [.make 0 1]
  | n + 1 => C138_list n ++ [.make 1 1, .moveAssign ⟨1, [0]⟩ ⟨0, []⟩, .moveAssign ⟨0, []⟩ ⟨1, []⟩, .destroy 1]

/-- The state after it. -/
def C138_world (n : Nat) : World where
  vars := fun y => if y = 0 then some (some n) else none
  cells := fun a => if a ≤ n then some [if a = 0 then none else some (a - 1)] else none
  next := n + 1

theorem links_list_world (n : Nat) : run {} (C138_list n) = .ok (C138_world n) := by
  induction n with
  | zero =>
    show Except.ok _ = _
    congr 1
    refine World.ext' ?_ (fun a => ?_) rfl
    · funext y
      by_cases e : y = 0 <;> simp [C138_world, World.set, World.new, e]
    · by_cases e : a = 0 <;> simp [C138_world, World.set, World.new, e]
  | succ n ih =>
    rw [C138_list, run_append, ih]
    show run (C138_world n) _ = _
    have h1 : step (C138_world n) (.make 1 1) = .ok (((C138_world n).new 1).set (.var 1) (some (n + 1))) := by
      simp [step, C138_world]
    have hm : ∀ (w : World) (l l' : Loc) (new : Option Nat), l ≠ l' → w.get l = some none → w.get l' = some new →
        w.moveAssign l l' = .ok ((w.set l new).set l' none) := by
      intro w l l' new hne hl hl'
      have hd : w.delete none = .ok w := rfl
      simp [World.moveAssign, hne, World.read, hl, hl', hd, World.write, get_set_ne _ _ _ _ hne.symm, Bind.bind, Except.bind]
    let w1 := ((C138_world n).new 1).set (.var 1) (some (n + 1))
    have c1 : w1.cells (n + 1) = some [none] := by simp [w1, World.set, World.new, C138_world]
    have v0 : w1.vars 0 = some (some n) := by simp [w1, World.set, World.new, C138_world]
    have v1 : w1.vars 1 = some (some (n + 1)) := by simp [w1, World.set]
    have h2 : step w1 (.moveAssign ⟨1, [0]⟩ ⟨0, []⟩) = .ok ((w1.set (.field (n + 1) 0) (some n)).set (.var 0) none) := by
      have e1 : w1.locate ⟨1, [0]⟩ = .ok (some (.field (n + 1) 0)) := by
        simp [World.locate, World.walk, World.read, World.get, v1, c1, Bind.bind, Except.bind]
      have e2 : w1.locate ⟨0, []⟩ = .ok (some (.var 0)) := by simp [World.locate, World.walk, v0]
      simp only [step, e1, e2]
      exact hm w1 (.field (n + 1) 0) (.var 0) (some n) (by simp) (by simp [World.get, c1]) v0
    let w2 := (w1.set (.field (n + 1) 0) (some n)).set (.var 0) none
    have u0 : w2.vars 0 = some none := by simp [w2, World.set]
    have u1 : w2.vars 1 = some (some (n + 1)) := by simp [w2, World.set, v1]
    have h3 : step w2 (.moveAssign ⟨0, []⟩ ⟨1, []⟩) = .ok ((w2.set (.var 0) (some (n + 1))).set (.var 1) none) := by
      have e1 : w2.locate ⟨0, []⟩ = .ok (some (.var 0)) := by simp [World.locate, World.walk, u0]
      have e2 : w2.locate ⟨1, []⟩ = .ok (some (.var 1)) := by simp [World.locate, World.walk, u1]
      simp only [step, e1, e2]
      exact hm w2 (.var 0) (.var 1) (some (n + 1)) (by simp) u0 u1
    let w3 := (w2.set (.var 0) (some (n + 1))).set (.var 1) none
    have h4 : step w3 (.destroy 1) = .ok (w3.leave 1) := by
      have : w3.vars 1 = some none := by simp [w3, World.set]
      simp only [step, this, World.delete, Option.toList_none, del]
      rfl
    have e : run (C138_world n) [.make 1 1, .moveAssign ⟨1, [0]⟩ ⟨0, []⟩, .moveAssign ⟨0, []⟩ ⟨1, []⟩, .destroy 1] =
        .ok (w3.leave 1) := by
      have next : ∀ w op w' ops, step w op = .ok w' → run w (op :: ops) = run w' ops := by
        intro w op w' ops h
        simp only [run, h]
        rfl
      rw [next _ _ w1 _ h1, next _ _ w2 _ h2, next _ _ w3 _ h3, next _ _ _ _ h4]
      rfl
    rw [e]
    congr 1
    refine World.ext' ?_ (fun a => ?_) rfl
    · funext y
      by_cases e0 : y = 0
      · simp [World.leave, C138_world, w3, World.set, e0]
      · by_cases e1 : y = 1
        · simp [World.leave, C138_world, e1]
        · simp [World.leave, C138_world, w3, w2, w1, World.set, World.new, e0, e1]
    · show (w1.cells.set (n + 1) 0 (some n)) a = _
      by_cases ea : a = n + 1
      · subst ea
        simp [Cells.set, c1, C138_world]
      · simp only [Cells.set, if_neg ea]
        have : a ≤ n ↔ a ≤ n + 1 := by omega
        simp [w1, World.set, World.new, C138_world, ea, this]

/-- There is no bound: the end of the scope of a list of `n + 1` nodes runs `n + 1` destructors inside one another. -/
theorem C138_fails (n : Nat) : ∃ w, run {} (C138_list n) = .ok w ∧ w.nesting 0 = .ok (n + 1) := by
  refine ⟨_, links_list_world n, ?_⟩
  obtain ⟨d, h1, h2⟩ := C138_exact _ _ (links_list_world n) 0 n (by simp [C138_world])
  rw [h1]
  have hchild : ∀ a b, Child (C138_world n).cells a b → b + 1 = a := by
    rintro a b ⟨fs, hf, hb⟩
    simp only [C138_world] at hf
    split at hf
    · cases hf
      by_cases e : a = 0
      · simp [e] at hb
      · simp [e] at hb
        omega
    · cases hf
  have hup : ∀ r k a, Path (C138_world n).cells r k a → a + k = r := by
    intro r k a hp
    induction hp with
    | nil => rfl
    | cons hc _ ih => have := hchild _ _ hc; omega
  have hdown : ∀ k, k ≤ n → Path (C138_world n).cells k k 0 := by
    intro k
    induction k with
    | zero => intro _; exact .nil
    | succ k ih =>
      intro hk
      refine .cons ⟨[some k], ?_, by simp⟩ (ih (by omega))
      simp [C138_world, hk]
  have e1 := (h2 n).2 ⟨0, n, Nat.le_refl n, hdown n (Nat.le_refl n)⟩
  have e2 : ¬ n + 1 < d := by
    intro hlt
    obtain ⟨a, m, hm, hp⟩ := (h2 (n + 1)).1 hlt
    have := hup _ _ _ hp
    omega
  congr 1
  omega

example : C138_list 1 = [.make 0 1, .make 1 1, .moveAssign ⟨1, [0]⟩ ⟨0, []⟩, .moveAssign ⟨0, []⟩ ⟨1, []⟩, .destroy 1] := rfl

end Caitlyn
