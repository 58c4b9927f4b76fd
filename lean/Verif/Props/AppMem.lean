import Verif.Model.AppMem

/-! # Property C130: `Application::Initialize` when memory runs out -/

namespace Caitlyn
open AppMem

namespace AppMem

theorem emplace_false {fails : Nat → Bool} {a : List UInt8} {st st' : State} (h : emplace fails a st = (false, st')) :
    st'.args = st.args ∧ st'.blocks = st.blocks ∧ st'.initialized = st.initialized ∧ st'.reserved = st.reserved ∧
      st.tries < st'.tries ∧ st.reserved ≤ st.args.length ∧ fails (st'.tries - 1) = true := by
  unfold emplace at h
  split at h
  · simp at h
  · split at h
    · rename_i hr hf
      simp only [Prod.mk.injEq, true_and] at h
      subst h
      exact ⟨rfl, rfl, rfl, rfl, by simp, by omega, hf⟩
    · simp at h

theorem emplace_true {fails : Nat → Bool} {a : List UInt8} {st st' : State} (h : emplace fails a st = (true, st')) :
    st'.args = st.args ++ [a] ∧ st'.blocks = st.blocks ∧ st'.initialized = st.initialized ∧ st'.reserved = st.reserved ∧
      st.tries ≤ st'.tries := by
  unfold emplace at h
  split at h
  · simp only [Prod.mk.injEq, true_and] at h
    subst h
    exact ⟨rfl, rfl, rfl, rfl, by simp⟩
  · split at h
    · simp at h
    · simp only [Prod.mk.injEq, true_and] at h
      subst h
      exact ⟨rfl, rfl, rfl, rfl, by simp⟩

/-- The loop: the arguments copied are all of them or those before the first that failed; a `char` array is lost exactly if adding it failed. -/
theorem copies_spec (fails : Nat → Bool) : ∀ (as : List (List UInt8)) (st st' : State) (b : Bool), copies fails as st = (b, st') →
    st'.initialized = st.initialized ∧ st'.reserved = st.reserved ∧ st.tries ≤ st'.tries ∧
    (b = true → st'.args = st.args ++ as ∧ st'.blocks = st.blocks + as.length) ∧
    (b = false → ∃ k, k < as.length ∧ st'.args = st.args ++ as.take k ∧ st.tries < st'.tries ∧ fails (st'.tries - 1) = true ∧
      (st'.blocks = st.blocks + k ∨ st'.blocks = st.blocks + k + 1 ∧ st.reserved ≤ st'.args.length)) := by
  intro as
  induction as with
  | nil =>
    intro st st' b h
    simp only [copies, Prod.mk.injEq] at h
    obtain ⟨rfl, rfl⟩ := h
    simp
  | cons a as ih =>
    intro st st' b h
    rw [copies] at h
    split at h
    · rename_i hf
      simp only [Prod.mk.injEq] at h
      obtain ⟨rfl, rfl⟩ := h
      refine ⟨rfl, rfl, by simp, fun h => (by cases h), fun _ => ⟨0, by simp, by simp, by simp, hf, .inl rfl⟩⟩
    · split at h
      · rename_i st1 he
        obtain ⟨e1, e2, e3, e4, e5, e6, e7⟩ := emplace_false he
        simp only [Prod.mk.injEq] at h
        obtain ⟨rfl, rfl⟩ := h
        simp only at e1 e2 e3 e4 e5 e6
        refine ⟨e3, e4, by omega, fun h => (by cases h), fun _ => ⟨0, by simp, by simp [e1], by omega, e7, .inr ⟨e2, by rw [e1]; exact e6⟩⟩⟩
      · rename_i st1 he
        obtain ⟨e1, e2, e3, e4, e5⟩ := emplace_true he
        simp only at e1 e2 e3 e4 e5
        obtain ⟨h1, h2, h3, h4, h5⟩ := ih _ _ _ h
        refine ⟨h1.trans e3, h2.trans e4, by omega, fun hb => ?_, fun hb => ?_⟩
        · obtain ⟨h6, h7⟩ := h4 hb
          refine ⟨by rw [h6, e1]; simp, by rw [h7, e2]; simp; omega⟩
        · obtain ⟨k, k1, k2, k3, k4, k5⟩ := h5 hb
          refine ⟨k + 1, by simp; omega, by rw [k2, e1]; simp, by omega, k4, ?_⟩
          rcases k5 with k5 | ⟨k5, k6⟩
          · exact .inl (by omega)
          · exact .inr ⟨by omega, by omega⟩

end AppMem

/-- C130. If no step fails, a first call of `Initialize` has the arguments copied, one `char` array for each, and marks the object. -/
theorem C130_enough (fails : Nat → Bool) (argv : List (List UInt8)) (st : State) (hi : st.initialized = false)
    (hf : ∀ i, st.tries ≤ i → fails i = false) :
    (start fails argv st).1 = .ok () ∧ (start fails argv st).2.initialized = true ∧
    (start fails argv st).2.args = st.args ++ argv ∧ (start fails argv st).2.blocks = st.blocks + argv.length := by
  unfold start setArgs
  rw [hi]
  simp only [Bool.false_eq_true, if_false]
  by_cases ha : argv = []
  · simp [ha]
  · rw [if_neg ha, hf _ (Nat.le_refl _)]
    simp only [Bool.false_eq_true, if_false]
    generalize hc : copies fails argv _ = x
    obtain ⟨b, st'⟩ := x
    obtain ⟨h1, h2, h3, h4, h5⟩ := copies_spec fails _ _ _ _ hc
    simp only at h1 h2 h3 h4 h5
    cases b with
    | true => exact ⟨rfl, rfl, (h4 rfl).1, (h4 rfl).2⟩
    | false =>
      obtain ⟨k, _, _, k3, k4, _⟩ := h5 rfl
      rw [hf _ (by omega)] at k4
      cases k4

/-- C130, exactly what a call does that runs out of memory: the object is not marked, and it keeps the arguments copied before
the failure, fewer than all. A `char` array is lost only if the vector had no place reserved for it. -/
theorem C130_exact (fails : Nat → Bool) (argv : List (List UInt8)) (st st' : State) (h : start fails argv st = (.error .memory, st')) :
    st.initialized = false ∧ st'.initialized = false ∧ ∃ k, k < argv.length ∧ st'.args = st.args ++ argv.take k ∧
      (st'.blocks = st.blocks + k ∨ st'.blocks = st.blocks + k + 1 ∧ max st.reserved argv.length ≤ st'.args.length) := by
  unfold start at h
  split at h
  · simp at h
  · rename_i hi
    rw [Bool.not_eq_true] at hi
    refine ⟨hi, ?_⟩
    unfold setArgs at h
    by_cases ha : argv = []
    · simp [ha] at h
    · rw [if_neg ha] at h
      have hl : 0 < argv.length := by
        cases argv with
        | nil => exact absurd rfl ha
        | cons => simp
      by_cases hr : fails st.tries = true
      · simp only [hr, if_true, Prod.mk.injEq, true_and] at h
        subst h
        exact ⟨hi, 0, hl, by simp, .inl rfl⟩
      · rw [if_neg hr] at h
        generalize hc : copies fails argv _ = x at h
        obtain ⟨b, st1⟩ := x
        obtain ⟨h1, h2, h3, h4, h5⟩ := copies_spec fails _ _ _ _ hc
        cases b with
        | true => simp at h
        | false =>
          simp only [Prod.mk.injEq, true_and] at h
          subst h
          obtain ⟨k, k1, k2, k3, k4, k5⟩ := h5 rfl
          exact ⟨h1.trans hi, k, k1, k2, k5⟩

/-- C130 for the first call: no `char` array is lost. Partial: C130_leak is about later ones. -/
theorem C130_partial (fails : Nat → Bool) (argv : List (List UInt8)) (st' : State) (h : start fails argv {} = (.error .memory, st')) :
    st'.blocks = destroyed st' := by
  obtain ⟨_, _, k, h1, h2, h3⟩ := C130_exact fails argv {} st' h
  unfold destroyed
  have hl : st'.args.length = k := by rw [h2]; simp; omega
  rcases h3 with h3 | ⟨_, h3⟩
  · rw [h3, hl]; simp
  · rw [hl] at h3
    have : argv.length ≤ k := Nat.le_trans (Nat.le_max_right _ _) h3
    omega

/-- C130 for programs that repeat the call until it succeeds: the arguments are those of the last call preceded by the beginnings that
the failed calls copied. -/
theorem C130_retries (fails : Nat → Bool) : ∀ (calls : List (List (List UInt8))) (last : List (List UInt8)) (st st' : State),
    run fails (calls ++ [last]) st = (calls.map (fun _ => .error .memory) ++ [.ok ()], st') →
    ∃ parts : List (List (List UInt8)), parts.length = calls.length ∧
      (∀ i (h : i < parts.length) (h' : i < calls.length), parts[i] <+: calls[i] ∧ parts[i].length < calls[i].length) ∧
      st'.args = st.args ++ parts.flatten ++ last := by
  intro calls
  induction calls with
  | nil =>
    intro last st st' h
    refine ⟨[], rfl, by simp, ?_⟩
    simp only [List.nil_append, run, List.map_nil, Prod.mk.injEq, List.cons.injEq, and_true] at h
    obtain ⟨h1, rfl⟩ := h
    simp only [List.flatten_nil, List.append_nil]
    unfold start at h1 ⊢
    by_cases hi : st.initialized = true
    · simp [hi] at h1
    · simp only [hi, Bool.false_eq_true, if_false] at h1 ⊢
      generalize hs : setArgs fails last st = x at h1 ⊢
      obtain ⟨b, st1⟩ := x
      cases b with
      | false => simp at h1
      | true =>
        simp only
        unfold setArgs at hs
        by_cases ha : last = []
        · simp only [ha, if_true, Prod.mk.injEq, true_and] at hs
          subst hs
          simp [ha]
        · rw [if_neg ha] at hs
          split at hs
          · simp at hs
          · exact ((copies_spec fails _ _ _ _ hs).2.2.2.1 rfl).1
  | cons c calls ih =>
    intro last st st' h
    simp only [List.cons_append, run, List.map_cons, Prod.mk.injEq, List.cons.injEq] at h
    obtain ⟨⟨h1, h2⟩, h3⟩ := h
    generalize hx : start fails c st = x at h1 h2 h3
    obtain ⟨r, st1⟩ := x
    simp only at h1 h2 h3
    subst h1
    obtain ⟨_, _, k, k1, k2, _⟩ := C130_exact fails c st st1 hx
    obtain ⟨parts, p1, p2, p3⟩ := ih last st1 st' (by rw [← h2, ← h3])
    refine ⟨c.take k :: parts, by simp [p1], ?_, by rw [p3, k2]; simp⟩
    intro i h h'
    cases i with
    | zero => exact ⟨List.take_prefix _ _, by simp; omega⟩
    | succ i =>
      simp only [List.getElem_cons_succ]
      exact p2 i (by simpa using h) (by simpa using h')

theorem AppMem.start_tries {fails : Nat → Bool} {argv : List (List UInt8)} {st st' : State}
    (h : start fails argv st = (.error .memory, st')) : st.tries < st'.tries ∧ fails (st'.tries - 1) = true := by
  unfold start at h
  split at h
  · simp at h
  · unfold setArgs at h
    by_cases ha : argv = []
    · simp [ha] at h
    · rw [if_neg ha] at h
      by_cases hr : fails st.tries = true
      · simp only [hr, if_true, Prod.mk.injEq, true_and] at h
        subst h
        exact ⟨by simp, hr⟩
      · rw [if_neg hr] at h
        generalize hc : copies fails argv _ = x at h
        obtain ⟨b, st1⟩ := x
        obtain ⟨h1, h2, h3, h4, h5⟩ := copies_spec fails _ _ _ _ hc
        cases b with
        | true => simp at h
        | false =>
          simp only [Prod.mk.injEq, true_and] at h
          subst h
          obtain ⟨k, k1, k2, k3, k4, k5⟩ := h5 rfl
          simp only at k3
          exact ⟨by omega, k4⟩

theorem AppMem.countP_mono (p : Nat → Bool) {m n : Nat} (h : m < n) (hp : p (n - 1) = true) :
    (List.range m).countP p + 1 ≤ (List.range n).countP p := by
  obtain ⟨k, rfl⟩ : ∃ k, n = m + k + 1 := ⟨n - m - 1, by omega⟩
  simp only [Nat.add_sub_cancel] at hp
  rw [List.range_succ, List.countP_append, List.range_add, List.countP_append]
  simp [hp]

/-- C130. Every failed call has met a failure of its own: a program that repeats the call, with any arguments, fails at most as often as
memory ran out. So `Initialize` can be repeated until it succeeds. -/
theorem C130_recovers (fails : Nat → Bool) (calls : List (List (List UInt8))) (st st' : State)
    (h : run fails calls st = (calls.map (fun _ => .error .memory), st')) :
    (List.range st.tries).countP fails + calls.length ≤ (List.range st'.tries).countP fails := by
  induction calls generalizing st with
  | nil =>
    simp only [run, List.map_nil, Prod.mk.injEq, true_and] at h
    subst h
    simp
  | cons c calls ih =>
    simp only [run, List.map_cons, Prod.mk.injEq, List.cons.injEq] at h
    obtain ⟨⟨h1, h2⟩, h3⟩ := h
    generalize hx : start fails c st = x at h1 h2 h3
    obtain ⟨r, st1⟩ := x
    simp only at h1 h2 h3
    subst h1
    obtain ⟨t1, t2⟩ := start_tries hx
    have a := countP_mono fails t1 t2
    have b := ih st1 (by rw [← h2, ← h3])
    simp only [List.length_cons]
    omega

example : (run (fun i => i == 0) [[[0x78]], [[0x78]]] {}).1 = [.error .memory, .ok ()] ∧
    (run (fun i => i == 0) [[[0x78]], [[0x78]]] {}).2.args = [[0x78]] := ⟨rfl, rfl⟩

/-- C130 is false: a call that runs out of memory has an effect. For every two arguments `a` and `b`: if copying the second fails,
and the program calls `Initialize` with both again, `GetArgs()` has the first argument twice. -/
theorem C130_fails (a b : List UInt8) :
    (run (fun i => i == 2) [[a, b], [a, b]] {}).1 = [.error .memory, .ok ()] ∧
    (run (fun i => i == 2) [[a, b], [a, b]] {}).2.args = [a, a, b] := ⟨rfl, rfl⟩

/-- C130 is false for memory, too: in the repeated call the vector has no place for the second argument; if making room fails,
the copy is lost: three `char` arrays for two arguments. -/
theorem C130_leak (a b : List UInt8) :
    (run (fun i => i == 2 || i == 6) [[a, b], [a, b]] {}).1 = [.error .memory, .error .memory] ∧
    (run (fun i => i == 2 || i == 6) [[a, b], [a, b]] {}).2.args = [a, a] ∧
    (run (fun i => i == 2 || i == 6) [[a, b], [a, b]] {}).2.blocks = 3 := ⟨rfl, rfl, rfl⟩

end Caitlyn
