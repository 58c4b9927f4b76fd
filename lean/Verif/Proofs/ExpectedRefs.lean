import Verif.Spec.ExpectedRefs

/-! # References into an `Expected` -/

namespace Caitlyn.ExpectedRefs
open Caitlyn.Spec.ExpectedRefs
open ExpectedProg (Moved)

variable {T E : Type}

/-- What the variables of a state hold. -/
def State.holds (st : State T E) : Holds T E := fun x => (st.vars x).map (·.content)

/-- No object is newer than now. -/
def State.Past (st : State T E) : Prop := ∀ x c, st.vars x = some c → c.since < st.clock

theorem moved_kind (m : Moved T E) (c : T ⊕ E) : (m.sum c).isLeft = c.isLeft := by cases c <;> rfl

theorem put_vars (st : State T E) (x : Nat) (old : Cell T E) (c : T ⊕ E) (z : Nat) : (st.put x old c).vars z =
    if z = x then some ⟨c, if old.content.isLeft = c.isLeft then old.since else st.clock⟩ else st.vars z := by
  unfold State.put
  split <;> rfl

theorem put_refs (st : State T E) (x : Nat) (old : Cell T E) (c : T ⊕ E) : (st.put x old c).refs = st.refs := by
  unfold State.put
  split <;> rfl

theorem put_clock (st : State T E) (x : Nat) (old : Cell T E) (c : T ⊕ E) : st.clock ≤ (st.put x old c).clock ∧
    (old.content.isLeft ≠ c.isLeft → st.clock < (st.put x old c).clock) := by
  unfold State.put
  split
  · exact ⟨Nat.le_refl _, fun h => absurd ‹_› h⟩
  · exact ⟨Nat.le_succ _, fun _ => Nat.lt_succ_self _⟩

/-- What a statement does to one variable `x`, seen from a reference to its object. -/
structure Moves (st st' : State T E) : Prop where
  clock : st.clock ≤ st'.clock
  past : st'.Past
  /-- an object that is there afterwards was there before, of the same kind, or is new -/
  old : ∀ x c, st'.vars x = some c → st.clock ≤ c.since ∨ ∃ c', st.vars x = some c' ∧ c'.since = c.since ∧ c'.content.isLeft = c.content.isLeft
  /-- an object whose variable holds an object of the same kind afterwards is still there -/
  kept : ∀ x c c', st.vars x = some c → st'.vars x = some c' → c.content.isLeft = c'.content.isLeft → c'.since = c.since

theorem Moves.refl {st : State T E} (h : st.Past) : Moves st st :=
  ⟨Nat.le_refl _, h, fun _ c e => .inr ⟨c, e, rfl, rfl⟩, fun _ c c' e e' _ => by rw [e] at e'; cases e'; rfl⟩

theorem Moves.refs {st : State T E} (h : st.Past) (f : Nat → Option (Option (Nat × Nat))) : Moves st { st with refs := f } :=
  ⟨Nat.le_refl _, h, fun _ c e => .inr ⟨c, e, rfl, rfl⟩, fun x c c' (e : st.vars x = _) (e' : st.vars x = _) _ => by rw [e] at e'; cases e'; rfl⟩

theorem Moves.put {st : State T E} (h : st.Past) {x : Nat} {old : Cell T E} (e : st.vars x = some old) (c : T ⊕ E) :
    Moves st (st.put x old c) := by
  obtain ⟨k1, k2⟩ := put_clock st x old c
  refine ⟨k1, fun z d hd => ?_, fun z d hd => ?_, fun z d d' hd hd' hk => ?_⟩
  · rw [put_vars] at hd
    split at hd
    · cases hd
      show (if _ then _ else _) < _
      split
      · exact Nat.lt_of_lt_of_le (h x old e) k1
      · exact k2 ‹_›
    · exact Nat.lt_of_lt_of_le (h z d hd) k1
  · rw [put_vars] at hd
    split at hd
    · next hz =>
      subst hz
      cases hd
      by_cases hc : old.content.isLeft = c.isLeft
      · exact .inr ⟨old, e, by simp [hc], hc⟩
      · exact .inl (by simp [hc])
    · exact .inr ⟨d, hd, rfl, rfl⟩
  · rw [put_vars] at hd'
    split at hd'
    · next hz =>
      subst hz
      rw [e] at hd
      cases hd
      cases hd'
      simp [show old.content.isLeft = c.isLeft from hk]
    · rw [hd] at hd'; cases hd'; rfl

theorem Moves.content {st st' : State T E} (h : Moves st st') {y : Nat} {c : Cell T E} (e : st'.vars y = some c) (d : T ⊕ E)
    (hd : d.isLeft = c.content.isLeft) : Moves st { st' with vars := fun z => if z = y then some ⟨d, c.since⟩ else st'.vars z } := by
  refine ⟨h.clock, fun z f hf => ?_, fun z f hf => ?_, fun z f f' hf hf' hk => ?_⟩
  · change (if z = y then _ else _) = _ at hf
    split at hf
    · cases hf; exact h.past y c e
    · exact h.past z f hf
  · change (if z = y then _ else _) = _ at hf
    split at hf
    · next hz =>
      subst hz
      cases hf
      rcases h.old z c e with o | ⟨c', o1, o2, o3⟩
      · exact .inl o
      · exact .inr ⟨c', o1, o2, by rw [o3, hd]⟩
    · exact h.old z f hf
  · change (if z = y then _ else _) = _ at hf'
    split at hf'
    · next hz =>
      subst hz
      cases hf'
      exact h.kept z f c hf e (by rw [hk]; exact hd)
    · exact h.kept z f f' hf hf' hk

theorem step_spec (moved : Moved T E) {st st' : State T E} {s : Stmt T E} {o : Out T E} (h : st.Past) (e : step moved st s = .ok (o, st')) :
    st'.holds = after moved st.holds s ∧ Moves st st' ∧ ∀ r, (∀ k e, s ≠ .bind r k e) → st'.refs r = st.refs r := by
  cases s with
  | make x c =>
    rw [step] at e
    cases hx : st.vars x with
    | some d =>
      rw [hx] at e
      cases e
      refine ⟨?_, .refl h, fun _ _ => rfl⟩
      funext z
      simp only [after, State.holds]
      split
      · next hz => subst hz; rw [hx]; rfl
      · rfl
    | none =>
      rw [hx] at e
      cases e
      refine ⟨?_, ⟨Nat.le_succ _, fun z d hd => ?_, fun z d hd => ?_, fun z d d' hd hd' _ => ?_⟩, fun _ _ => rfl⟩
      · funext z
        simp only [after, State.holds]
        split
        · rw [hx]; rfl
        · rfl
      · change (if z = x then _ else _) = _ at hd
        split at hd
        · cases hd; exact Nat.lt_succ_self _
        · exact Nat.lt_succ_of_lt (h z d hd)
      · change (if z = x then _ else _) = _ at hd
        split at hd
        · cases hd; exact .inl (Nat.le_refl _)
        · exact .inr ⟨d, hd, rfl, rfl⟩
      · change (if z = x then _ else _) = _ at hd'
        split at hd'
        · next hz => subst hz; rw [hx] at hd; cases hd
        · rw [hd] at hd'; cases hd'; rfl
  | leave x =>
    rw [step] at e
    cases hx : st.vars x with
    | none =>
      rw [hx] at e
      cases e
      refine ⟨?_, .refl h, fun _ _ => rfl⟩
      funext z
      simp only [after, State.holds]
      split
      · next hz => subst hz; rw [hx]; rfl
      · rfl
    | some d =>
      rw [hx] at e
      cases e
      refine ⟨?_, ⟨Nat.le_refl _, fun z d hd => ?_, fun z d hd => ?_, fun z d d' hd hd' _ => ?_⟩, fun _ _ => rfl⟩
      · funext z
        simp only [after, State.holds]
        split <;> rfl
      · change (if z = x then _ else _) = _ at hd
        split at hd
        · cases hd
        · exact h z d hd
      · change (if z = x then _ else _) = _ at hd
        split at hd
        · cases hd
        · exact .inr ⟨d, hd, rfl, rfl⟩
      · change (if z = x then _ else _) = _ at hd'
        split at hd'
        · cases hd'
        · rw [hd] at hd'; cases hd'; rfl
  | assign x y =>
    rw [step] at e
    cases hx : st.vars x with
    | none =>
      rw [hx] at e
      cases e
      refine ⟨?_, .refl h, fun _ _ => rfl⟩
      funext z
      simp [after, State.holds, hx]
    | some d =>
      cases hy : st.vars y with
      | none =>
        rw [hx, hy] at e
        cases e
        refine ⟨?_, .refl h, fun _ _ => rfl⟩
        funext z
        simp [after, State.holds, hy]
      | some c =>
        rw [hx, hy] at e
        simp only at e
        split at e
        · next hxy =>
          subst hxy
          cases e
          refine ⟨?_, .refl h, fun _ _ => rfl⟩
          funext z
          simp only [after]
          by_cases hz : z = x
          · rw [hz, ite_self]
          · rw [if_neg fun g => hz g.1]
        · cases e
          refine ⟨?_, .put h hx _, fun _ _ => by rw [put_refs]⟩
          funext z
          simp only [after, State.holds, put_vars, hx, hy, Option.map_some, Option.isSome_some, and_true]
          split <;> rfl
  | move x y =>
    rw [step] at e
    cases hx : st.vars x with
    | none =>
      rw [hx] at e
      cases e
      refine ⟨?_, .refl h, fun _ _ => rfl⟩
      funext z
      simp [after, State.holds, hx]
    | some d =>
      cases hy : st.vars y with
      | none =>
        rw [hx, hy] at e
        cases e
        refine ⟨?_, .refl h, fun _ _ => rfl⟩
        funext z
        simp [after, State.holds, hy]
      | some c =>
        rw [hx, hy] at e
        simp only at e
        split at e
        · next hxy =>
          cases e
          refine ⟨?_, .refl h, fun _ _ => rfl⟩
          funext z
          simp [after, hxy]
        · next hxy =>
          cases e
          refine ⟨?_, .content (.put h hx _) (c := c) (by rw [put_vars, if_neg (Ne.symm hxy)]; exact hy) _ (moved_kind _ _),
            fun _ _ => by simp only [put_refs]⟩
          funext z
          simp only [after, State.holds, put_vars, hx, hy, Option.map_some, Option.isSome_some, and_true, if_neg hxy]
          by_cases h1 : z = x
          · subst h1
            simp [hxy]
          · by_cases h2 : z = y
            · simp [h2, Ne.symm hxy]
            · simp [h1, h2]
  | set x c =>
    rw [step] at e
    cases hx : st.vars x with
    | none =>
      rw [hx] at e
      cases e
      refine ⟨?_, .refl h, fun _ _ => rfl⟩
      funext z
      simp only [after, State.holds]
      split
      · next hz => subst hz; rw [hx]; rfl
      · rfl
    | some d =>
      rw [hx] at e
      cases e
      refine ⟨?_, .put h hx _, fun _ _ => by rw [put_refs]⟩
      funext z
      simp only [after, State.holds, put_vars, hx]
      split <;> rfl
  | bind r k src =>
    cases src with
    | var x =>
      rw [step] at e
      cases hx : st.vars x with
      | none => rw [hx] at e; cases e; exact ⟨rfl, .refl h, fun _ _ => rfl⟩
      | some c =>
        rw [hx] at e
        simp only at e
        split at e
        · cases e
          refine ⟨rfl, .refs h _, fun q hq => ?_⟩
          show (if q = r then _ else _) = _
          rw [if_neg fun c => hq _ _ (by rw [c])]
        · cases e; exact ⟨rfl, .refl h, fun _ _ => rfl⟩
    | temp c =>
      rw [step] at e
      split at e
      · cases e
        refine ⟨rfl, .refs h _, fun q hq => ?_⟩
        show (if q = r then _ else _) = _
        rw [if_neg fun c => hq _ _ (by rw [c])]
      · cases e; exact ⟨rfl, .refl h, fun _ _ => rfl⟩
  | get r =>
    rw [step] at e
    split at e
    · cases e; exact ⟨rfl, .refl h, fun _ _ => rfl⟩
    · cases e
    · split at e
      · cases e
      · split at e
        · cases e; exact ⟨rfl, .refl h, fun _ _ => rfl⟩
        · cases e

theorem run_cons (moved : Moved T E) {st st' : State T E} {s : Stmt T E} {p : List (Stmt T E)} {os : List (Out T E)}
    (e : run moved st (s :: p) = .ok (os, st')) :
    ∃ o st1 os', step moved st s = .ok (o, st1) ∧ run moved st1 p = .ok (os', st') ∧ os = o :: os' := by
  rw [run] at e
  cases h1 : step moved st s with
  | error _ => rw [h1] at e; cases e
  | ok a =>
    obtain ⟨o, st1⟩ := a
    rw [h1] at e
    simp only [bind, Except.bind] at e
    cases h2 : run moved st1 p with
    | error _ => rw [h2] at e; cases e
    | ok b =>
      obtain ⟨os', st2⟩ := b
      rw [h2] at e
      cases e
      exact ⟨o, st1, os', rfl, h2, rfl⟩

theorem run_spec (moved : Moved T E) : ∀ (p : List (Stmt T E)) (st st' : State T E) (os : List (Out T E)), st.Past →
    run moved st p = .ok (os, st') → st'.holds = afterAll moved st.holds p ∧ st'.Past
  | [], st, st', os, h, e => by cases e; exact ⟨rfl, h⟩
  | s :: p, st, st', os, h, e => by
    obtain ⟨o, st1, os', e1, e2, rfl⟩ := run_cons moved e
    obtain ⟨a, b, -⟩ := step_spec moved h e1
    obtain ⟨c, d⟩ := run_spec moved p st1 st' os' b.past e2
    exact ⟨by rw [c, a]; rfl, d⟩

/-- The object number `s` of `x`, of kind `k`, is there. -/
def State.Alive (st : State T E) (x s : Nat) : Prop := ∃ c, st.vars x = some c ∧ c.since = s

theorem steady_cons (moved : Moved T E) (h : Holds T E) (x : Nat) (k : Bool) (s : Stmt T E) (p : List (Stmt T E)) :
    Steady moved h x k (s :: p) ↔ (∃ c, h x = some c ∧ c.isLeft = k) ∧ Steady moved (after moved h s) x k p := by
  constructor
  · intro g
    exact ⟨by simpa [afterAll] using g 0 (Nat.zero_le _), fun n hn => by simpa [afterAll] using g (n + 1) (by simpa using hn)⟩
  · intro ⟨g0, g⟩ n hn
    cases n with
    | zero => simpa [afterAll] using g0
    | succ n => simpa [afterAll] using g n (by simpa using hn)

/-- An object is there after a program if and only if its variable has held objects of its kind all the time. -/
theorem run_alive (moved : Moved T E) (x s : Nat) (k : Bool) : ∀ (p : List (Stmt T E)) (st st' : State T E) (os : List (Out T E)), st.Past →
    s < st.clock → (∀ c, st.vars x = some c → c.since = s → c.content.isLeft = k) → run moved st p = .ok (os, st') →
    (st'.Alive x s ↔ st.Alive x s ∧ Steady moved st.holds x k p)
  | [], st, st', os, h, hs, hk, e => by
    cases e
    constructor
    · intro ⟨c, hc, hcs⟩
      refine ⟨⟨c, hc, hcs⟩, fun n hn => ⟨c.content, ?_, hk c hc hcs⟩⟩
      simp [afterAll, State.holds, hc]
    · exact And.left
  | q :: p, st, st', os, h, hs, hk, e => by
    obtain ⟨o, st1, os', e1, e2, rfl⟩ := run_cons moved e
    obtain ⟨a, b, -⟩ := step_spec moved h e1
    have hk1 : ∀ c, st1.vars x = some c → c.since = s → c.content.isLeft = k := by
      intro c hc hcs
      rcases b.old x c hc with o | ⟨c', o1, o2, o3⟩
      · omega
      · rw [← o3]; exact hk c' o1 (by omega)
    rw [run_alive moved x s k p st1 st' os' b.past (Nat.lt_of_lt_of_le hs b.clock) hk1 e2, steady_cons, a]
    constructor
    · intro ⟨⟨c, hc, hcs⟩, g⟩
      rcases b.old x c hc with o | ⟨c', o1, o2, o3⟩
      · omega
      · exact ⟨⟨c', o1, by omega⟩, ⟨c'.content, by simp [State.holds, o1], hk c' o1 (by omega)⟩, g⟩
    · intro ⟨⟨c, hc, hcs⟩, _, g⟩
      refine ⟨?_, g⟩
      obtain ⟨d, hd, hdk⟩ := g 0 (Nat.zero_le _)
      simp only [List.take_zero, afterAll, List.foldl_nil] at hd
      rw [← a] at hd
      simp only [State.holds, Option.map_eq_some_iff] at hd
      obtain ⟨c', hc', rfl⟩ := hd
      exact ⟨c', hc', by rw [b.kept x c c' hc hc' (by rw [hk c hc hcs, hdk]), hcs]⟩

theorem run_refs (moved : Moved T E) (r : Nat) : ∀ (p : List (Stmt T E)) (st st' : State T E) (os : List (Out T E)), st.Past →
    Keeps r p → run moved st p = .ok (os, st') → st'.refs r = st.refs r
  | [], st, st', os, h, _, e => by cases e; rfl
  | q :: p, st, st', os, h, hr, e => by
    obtain ⟨o, st1, os', e1, e2, rfl⟩ := run_cons moved e
    obtain ⟨a, b, c⟩ := step_spec moved h e1
    rw [run_refs moved r p st1 st' os' b.past (fun s hs => hr s (List.mem_cons_of_mem _ hs)) e2, c r (hr q List.mem_cons_self)]

end Caitlyn.ExpectedRefs
