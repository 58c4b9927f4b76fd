import Verif.Proofs.StrMemCount
import Verif.Lit

/-!
# C153, C154: strings when memory runs out, and references to their characters
-/

namespace Caitlyn
open Spec StrMem

theorem Spec.Reached.inv {P fails st} (h : Reached P fails st) : ∃ a, Inv st a := by
  obtain ⟨p, os, h⟩ := h
  obtain ⟨a, _, i⟩ := Inv.start.run h
  exact ⟨a, i⟩

/-- C153: whatever allocations fail, a program with strings does what its statements say on texts, where memory running out in a
statement changes nothing, except that the `Append`s of several characters may have appended the first ones; and all storage
allocated is that of a string, each its own. -/
theorem C153_programs (P : Policy) (fails : Nat → Bool) (p : List Stmt) (os : List Out) (st : State)
    (h : run P fails {} p = .ok (os, st)) : ∃ b, TextRun {} p os b ∧ HoldsTexts st b ∧ Ordered st := by
  obtain ⟨b, hb, i⟩ := Inv.start.run h
  exact ⟨b, hb, i.holds, i.toOrdered⟩

/-- C153: while no allocation fails, every statement is done, and gives what it gives on texts, however strings grow. -/
theorem C153_enough (P : Policy) (p : List Stmt) (os : List Out) (st : State) (h : run P (fun _ => false) {} p = .ok (os, st)) :
    os = (textsOf {} p).1 ∧ HoldsTexts st (textsOf {} p).2 := by
  obtain ⟨h1, h2⟩ := Inv.start.run_enough h
  exact ⟨h1, h2.holds⟩

/-- C153: when memory runs out, exactly: in every state that a program reaches, a statement needs a number of allocations that depends on
the lengths and capacities only; it makes them one after the other until one fails; it reports that memory ran out if and only if
one has failed, which is the last that it has tried. -/
theorem C153_reported (P : Policy) (fails : Nat → Bool) (st : State) (h : Reached P fails st) (s : Stmt) (o : Out) (st' : State)
    (hs : step P fails st s = .ok (o, st')) :
    ∃ j, Needs P st s j ∧ Attempts fails st.tries j (decide (o = .noMemory)) st'.tries := by
  obtain ⟨a, i⟩ := h.inv
  obtain ⟨j, hj⟩ := needs_exists P st s
  exact ⟨j, hj, step_attempts i hs j hj⟩

/-- C153 (fails): in every state that a program reaches, when a string has room for fewer characters than `Append` is to add, and
the allocation fails, `Append` throws `std::bad_alloc`, but the characters for which there was room have been appended. -/
theorem C153_append_fails (P : Policy) (fails : Nat → Bool) (st : State) (h : Reached P fails st) (x : Nat) (cs : Str)
    (hr : roomOf st x < cs.length) (hf : fails st.tries = true) :
    ∃ st', step P fails st (.append x cs) = .ok (.noMemory, st') ∧ st'.elems x = st.elems x ++ cs.take (roomOf st x) ∧
      (0 < roomOf st x → st'.elems x ≠ st.elems x) := by
  obtain ⟨a, i⟩ := h.inv
  obtain ⟨st', h1, h2⟩ := appendLoop_room (P := P) i hf hr
  refine ⟨st', by simp [step, h1, finish], h2, fun h0 h3 => ?_⟩
  rw [h2] at h3
  have := congrArg List.length h3
  simp only [List.length_append, List.length_take] at this
  omega

/-- Vectors whose capacity is doubled. -/
def doubling : Policy where
  one c := 2 * c + 1
  one_lt c := by omega
  many n k := 2 * n + k
  many_le n k := by omega

/-- The fourth allocation fails; a statement in which it does has no effect, others work. -/
example : (run doubling (fun t => t == 3) {} [.literal 0 c!"añb", .copy 1 0, .plus 2 0 1, .read 2, .plus 2 0 1, .read 2, .read 0]).map
    Prod.fst = .ok [.done, .done, .noMemory, .text [], .done, .text c!"añbañb", .text c!"añb"] := by decide +kernel

/-- `x = String{"ab"}; x.Append("cde");` when only two allocations succeed: `x` is `abc` after the exception. -/
example : (run doubling (fun t => 2 ≤ t) {} [.literal 0 c!"ab", .append 0 c!"cde", .read 0]).map Prod.fst =
    .ok [.done, .noMemory, .text c!"abc"] := by decide +kernel

/-- The hypotheses of `C153_append_fails` are met in that program. -/
example : ∃ st, Reached doubling (fun t => decide (2 ≤ t)) st ∧ roomOf st 0 = 1 ∧ decide (2 ≤ st.tries) = true :=
  ⟨_, ⟨[.literal 0 c!"ab"], _, rfl⟩, by decide +kernel, by decide +kernel⟩

/-- C154: which statements are undefined, in every state that a program reaches: using a reference that is not valid, `x[i]` out of
range, inserting a string into itself, and `x.Append(n, r)` with `r` a character of `x` when `x` grows before the last round. Nothing
else is. -/
theorem C154_undefined (P : Policy) (fails : Nat → Bool) (st : State) (h : Reached P fails st) (s : Stmt) (e : Err) :
    step P fails st s = .error e ↔ e = .ub ∧ UndefinedIn fails st s := by
  obtain ⟨a, i⟩ := h.inv
  exact i.step_error

/-- C154: which statements end a reference, exactly: assignments to the string, clearing it, growing beyond its capacity, and inserting
before the character. -/
theorem C154_ends (P : Policy) (fails : Nat → Bool) (st : State) (h : Reached P fails st) (s : Stmt) (o : Out) (st' : State)
    (hs : step P fails st s = .ok (o, st')) (r x j : Nat) (hr : RefersTo st r x j) (hb : ¬ Binds r s) :
    st'.refs r = none ↔ Ends fails st x j o s := by
  obtain ⟨a, i⟩ := h.inv
  obtain ⟨b, h1, h2⟩ := hr
  exact i.step_ref hs h1 h2 hb

/-- The variable where the characters of `x` are after a statement. -/
def movedTo (x : Nat) : Stmt → Nat
  | .move y z => if z = x then y else x
  | _ => x

/-- C154: a reference that a statement does not end refers to the character with the same index of the same string, or of the one that
the string was moved to. -/
theorem C154_kept (P : Policy) (fails : Nat → Bool) (st : State) (h : Reached P fails st) (s : Stmt) (o : Out) (st' : State)
    (hs : step P fails st s = .ok (o, st')) (r x j : Nat) (hr : RefersTo st r x j) (hb : ¬ Binds r s) (he : ¬ Ends fails st x j o s) :
    RefersTo st' r (movedTo x s) j ∧ ∃ c, (st'.elems (movedTo x s))[j]? = some c ∧
      step P fails st' (.get r) = .ok (.char c, st') := by
  obtain ⟨a, i⟩ := h.inv
  obtain ⟨k, h1, h2⟩ := hr
  have hn : st'.refs r ≠ none := fun hn => he ((i.step_ref hs h1 h2 hb).mp hn)
  obtain ⟨b, hb', i'⟩ := i.step hs
  have hp : a.place r = (x, j) := by
    obtain ⟨g1, g2, _⟩ := i.refs r _ h1
    have := i.own _ _ _ g1 h2
    exact Prod.ext this g2.symm
  have hq : b.place r = (movedTo x s, j) := by
    have keep : ∀ {b : Texts}, b.place = a.place → movedTo x s = x → b.place r = (movedTo x s, j) := by
      intro b h1 h2; rw [h1, h2]; exact hp
    rcases hb' with hb' | ⟨_, hb'⟩
    · have e : b = (textMeaning a s).2 := congrArg Prod.snd hb'
      subst e
      cases s with
      | move y z =>
        simp only [textMeaning, movedTo]
        by_cases c : y = z
        · subst c
          simp only [if_true]
          rw [hp]
          split <;> simp_all
        · simp only [c, if_false, carry, hp]
          by_cases c' : x = z
          · simp [c']
          · simp [c', Ne.symm c']
      | substring => simp only [textMeaning]; split <;> exact keep rfl rfl
      | insert => simp only [textMeaning, Texts.inserted]; split <;> exact keep rfl rfl
      | insertLit => simp only [textMeaning, Texts.inserted]; split <;> exact keep rfl rfl
      | insertCount => simp only [textMeaning, Texts.inserted]; split <;> exact keep rfl rfl
      | at' q y k =>
        simp only [Binds] at hb
        simp only [textMeaning]
        split
        · simp only [Ne.symm hb, if_false]; exact keep rfl rfl
        · exact keep rfl rfl
      | index q y k =>
        simp only [Binds] at hb
        simp only [textMeaning, Ne.symm hb, if_false]; exact keep rfl rfl
      | _ => exact keep rfl rfl
    · cases s with
      | append => obtain ⟨_, _, rfl⟩ := hb'; exact keep rfl rfl
      | appendCount => obtain ⟨_, _, rfl⟩ := hb'; exact keep rfl rfl
      | move y z =>
        simp only [step] at hs
        split at hs <;> cases hs
        all_goals simp_all
      | _ => have hb' : b = a := hb'; subst hb'; exact keep rfl rfl
  cases hr' : st'.refs r with
  | none => exact absurd hr' hn
  | some p =>
    obtain ⟨g1, g2, g3⟩ := i'.refs r _ hr'
    rw [hq] at g1 g2 g3
    obtain ⟨b', j'⟩ := p
    simp only at g1 g2 g3
    subst g2
    rw [← i'.texts] at g3
    refine ⟨⟨b', hr', g1⟩, _, List.getElem?_eq_getElem g3, ?_⟩
    simp [step, Arg.read, hr', i'.heap_some g1, vecGet, List.getElem?_eq_getElem g3, bind, Except.bind, pure, Except.pure]

/-- C154 (fails): in every state that a program reaches, after `Append` of more characters than the string has room for, reading a
reference to any of its characters is undefined, however strings grow. -/
theorem C154_grown_fails (P : Policy) (fails : Nat → Bool) (st : State) (h : Reached P fails st) (r x j : Nat) (hr : RefersTo st r x j)
    (cs : Str) (hl : roomOf st x < cs.length) (st' : State) (hs : step P fails st (.append x cs) = .ok (.done, st')) :
    step P fails st' (.get r) = .error .ub := by
  obtain ⟨a, i⟩ := h.inv
  have hf : fails st.tries = false := by
    cases hf : fails st.tries with
    | false => rfl
    | true =>
      obtain ⟨_, h1, _⟩ := appendLoop_room (P := P) i hf hl
      simp [step, h1, finish] at hs
  have := (C154_ends P fails st h _ _ _ hs r x j hr (fun c => c)).mpr ⟨hf, rfl, hl⟩
  simp [step, Arg.read, this, bind, Except.bind]

/-- C154 (fails): in every state that a program reaches, `x.Append(n, r)` with `r` a character of `x` is undefined when `n` is at least
two more than the room of `x`, unless the allocation fails. -/
theorem C154_pattern_fails (P : Policy) (fails : Nat → Bool) (st : State) (h : Reached P fails st) (r x j : Nat)
    (hr : RefersTo st r x j) (n : Nat) (hl : roomOf st x + 2 ≤ n) (hf : fails st.tries = false) :
    step P fails st (.appendCount x n (.ref r)) = .error .ub :=
  (C154_undefined P fails st h _ _).mpr ⟨rfl, by omega, .inr ⟨r, j, rfl, hr, hl, hf⟩⟩

/-- `Char& r = x[0];` works while `x` has room, also after `x` was moved, and can be passed to `PushBack` and `Insert`. -/
example : (run doubling (fun _ => false) {} [.literal 0 c!"añ", .index 0 0 0, .push 0 (.ref 0), .set 0 ⟨b!"€"⟩, .move 1 0, .get 0,
    .push 1 (.ref 0), .read 1]).map Prod.fst =
    .ok [.done, .done, .done, .done, .done, .char ⟨b!"€"⟩, .done, .text c!"€ña€"] := by decide +kernel

/-- After that `x` has grown, and the reference is not valid. -/
example : (run doubling (fun _ => false) {} [.literal 0 c!"añ", .index 0 0 0, .push 0 (.ref 0), .push 0 (.ref 0), .get 0]).map Prod.fst =
    .error .ub := by decide +kernel

/-- `String x = "ab"; String y = x; Char& r = y[0]; y.Append(2, r);` is undefined. -/
example : (run doubling (fun _ => false) {} [.literal 0 c!"ab", .copy 1 0, .index 0 1 0, .appendCount 1 2 (.ref 0)]).map Prod.fst =
    .error .ub := by decide +kernel

/-- The hypotheses of the theorems about references are met in that program. -/
example : ∃ st, Reached doubling (fun _ => false) st ∧ RefersTo st 0 1 0 ∧ roomOf st 1 = 0 :=
  ⟨_, ⟨[.literal 0 c!"ab", .copy 1 0, .index 0 1 0], _, rfl⟩, ⟨1, by decide +kernel, by decide +kernel⟩, by decide +kernel⟩

end Caitlyn
