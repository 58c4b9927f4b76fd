import Verif.Lit
import Verif.Proofs.RegistryAdd
import Verif.Props.Registry

/-! # Property C139: tests that register tests -/

namespace Caitlyn
open Registry Spec

/-- The registry after the calls `AddTest` made before `RunAll`. -/
def registryOf (rs : List (Str × Str × Nat)) : State := addAll {} rs

/-- Everything registered by the first `k` executions. -/
def addedBy (w : AddWorld) (k : Nat) : List (Str × Str × Nat) := (List.range k).flatMap w.adds

/-- What the executed tests registered for suites after their own. -/
def addedLater (w : AddWorld) (log : List (Str × Str × Nat)) : List (Str × Str × Nat) :=
  log.zipIdx.flatMap fun e => (w.adds e.2).filter fun a => Str.lt e.1.1 a.1

theorem addedBy_eq (w : AddWorld) (k : Nat) : addedBy w k = addsOf w 0 k := by
  unfold addedBy
  have gen : ∀ k n, (List.range' n k).flatMap w.adds = addsOf w n k := by
    intro k
    induction k with
    | zero => intro n; rfl
    | succ k ih => intro n; rw [List.range'_succ, List.flatMap_cons, ih, addsOf]
  rw [List.range_eq_range', gen]

theorem addedLater_eq (w : AddWorld) (log : List (Str × Str × Nat)) : addedLater w log = spawned w 0 log := by
  unfold addedLater
  generalize 0 = n
  induction log generalizing n with
  | nil => rfl
  | cons x log ih => rw [List.zipIdx_cons, List.flatMap_cons, ih, spawned]

theorem registryOf_tidy (rs : List (Str × Str × Nat)) : Tidy (registryOf rs).tests :=
  addAll_tidy {} ⟨List.Pairwise.nil, by simp⟩ rs

/-- `RunAll` after its first lines. -/
theorem runAllA_eq (w : AddWorld) (n : Nat) (st : State) :
    let r := runSuitesA w n { st.print (logStart st) with ticks := st.ticks + 1 } none
    (runAllA w n st).1.log = r.1.log ∧ (runAllA w n st).1.total = r.1.total ∧ (runAllA w n st).1.tests = r.1.tests ∧
    ((runAllA w n st).2 = match r.2 with
      | some e => .error e
      | none => .ok (if r.1.failed ≠ 0 then 1 else 0)) := by
  intro r
  have hr : runSuitesA w n { st.print (logStart st) with ticks := st.ticks + 1 } none = r := rfl
  obtain ⟨st', oe⟩ := r
  simp only [State.print] at hr
  cases oe with
  | some e => simp only [runAllA, State.print, hr, and_self]
  | none => simp only [runAllA, State.print, hr]; exact ⟨trivial, trivial, trivial, rfl⟩

/-- C139. If `RunAll` returns, the executed tests are, each as often as it was registered, those registered before the call
and those that executed tests registered for suites after their own; suites are executed in the order of their names. No
executed test registered a test for its own suite. The total reported is the number of all registrations. -/
theorem C139_exact (w : AddWorld) (n : Nat) (rs : List (Str × Str × Nat)) (v : Nat)
    (h : (runAllA w n (registryOf rs)).2 = .ok v) :
    let st := (runAllA w n (registryOf rs)).1
    st.log.Perm (rs ++ addedLater w st.log) ∧
    st.log.Pairwise (fun x y => Str.lt y.1 x.1 = false) ∧
    (∀ i x, st.log[i]? = some x → ∀ a ∈ w.adds i, a.1 ≠ x.1) ∧
    st.total = rs.length + (addedBy w st.log.length).length := by
  intro st
  obtain ⟨e1, e2, e3, e4⟩ := runAllA_eq w n (registryOf rs)
  rw [h] at e4
  generalize hr : runSuitesA w n { (registryOf rs).print (logStart (registryOf rs)) with ticks := (registryOf rs).ticks + 1 } none = r
    at e1 e2 e3 e4
  obtain ⟨st', oe⟩ := r
  cases oe with
  | some e => cases e4
  | none =>
    obtain ⟨ex, p1, p2, _, p4, p5, _, _, p8⟩ := runSuitesA_ok w n
      { (registryOf rs).print (logStart (registryOf rs)) with ticks := (registryOf rs).ticks + 1 } none st' (registryOf_tidy rs) hr
    have hlog : (registryOf rs).log = [] := addAll_log {} rs
    have htot : (registryOf rs).total = rs.length := (addAll_total {} rs).trans (Nat.zero_add _)
    simp only [State.print, hlog, htot, List.nil_append, List.length_nil, Nat.zero_add] at p1 p2 p5 p8
    have hst : st.log = ex := e1.trans p1
    have hst2 : st.total = st'.total := e2
    rw [hst, hst2, addedLater_eq, addedBy_eq]
    refine ⟨p2.trans (List.Perm.append_right _ ?_), p4, p5, p8⟩
    have : sel (above none) (registryOf rs).tests = sel (fun _ => true) (registryOf rs).tests := rfl
    rw [this]
    have := sel_addAll (fun _ => true) {} rs
    rw [List.filter_eq_self.2 (by simp)] at this
    exact this

/-- C139. If `RunAll` returns, every registered test has been executed exactly once if and only if every test registered
during the run belongs to a suite after that of the test that registered it. -/
theorem C139_once_exact (w : AddWorld) (n : Nat) (rs : List (Str × Str × Nat)) (v : Nat)
    (h : (runAllA w n (registryOf rs)).2 = .ok v) :
    let st := (runAllA w n (registryOf rs)).1
    st.log.Perm (rs ++ addedBy w st.log.length) ↔
      ∀ i x, st.log[i]? = some x → ∀ a ∈ w.adds i, Str.lt x.1 a.1 = true := by
  intro st
  obtain ⟨h1, _, _, _⟩ := C139_exact w n rs v h
  have h1' : st.log.Perm (rs ++ addedLater w st.log) := h1
  have key : ∀ (log : List (Str × Str × Nat)) (m : Nat),
      (spawned w m log).length ≤ (addsOf w m log.length).length ∧
      ((spawned w m log).length = (addsOf w m log.length).length → spawned w m log = addsOf w m log.length ∧
        ∀ i x, log[i]? = some x → ∀ a ∈ w.adds (m + i), Str.lt x.1 a.1 = true) := by
    intro log
    induction log with
    | nil => intro m; simp [spawned, addsOf]
    | cons x log ih =>
      intro m
      obtain ⟨i1, i2⟩ := ih (m + 1)
      have hf := List.length_filter_le (fun a : Str × Str × Nat => Str.lt x.1 a.1) (w.adds m)
      simp only [spawned, addsOf, List.length_cons, List.length_append]
      refine ⟨by omega, fun he => ?_⟩
      obtain ⟨j1, j2⟩ := i2 (by omega)
      have hfull : (w.adds m).filter (fun a => Str.lt x.1 a.1) = w.adds m :=
        List.filter_eq_self.2 (List.length_filter_eq_length_iff.1 (by omega))
      refine ⟨by rw [j1, hfull], ?_⟩
      intro i y hy a ha
      cases i with
      | zero =>
        simp only [List.getElem?_cons_zero, Option.some.injEq] at hy
        subst hy
        exact List.filter_eq_self.1 hfull a ha
      | succ i =>
        rw [List.getElem?_cons_succ] at hy
        exact j2 i y hy a (by rw [show m + 1 + i = m + (i + 1) by omega]; exact ha)
  rw [addedLater_eq] at h1'
  rw [addedBy_eq]
  constructor
  · intro hp
    have hlen := (hp.symm.trans h1').length_eq
    simp only [List.length_append] at hlen
    have := ((key st.log 0).2 (by omega)).2
    intro i x hx a ha
    exact this i x hx a (by rw [Nat.zero_add]; exact ha)
  · intro hall
    have : spawned w 0 st.log = addsOf w 0 st.log.length := by
      have gen : ∀ (log : List (Str × Str × Nat)) (m : Nat),
          (∀ i x, log[i]? = some x → ∀ a ∈ w.adds (m + i), Str.lt x.1 a.1 = true) → spawned w m log = addsOf w m log.length := by
        intro log
        induction log with
        | nil => intro m _; rfl
        | cons x log ih =>
          intro m hm
          rw [spawned, List.length_cons, addsOf, ih (m + 1) fun i y hy a ha => hm (i + 1) y (by simpa using hy) a
            (by rw [show m + (i + 1) = m + 1 + i by omega]; exact ha)]
          rw [List.filter_eq_self.2 fun a (ha : a ∈ w.adds m) => hm 0 x (by simp) a ha]
      exact gen _ 0 fun i x hx a ha => hall i x hx a (by rw [Nat.zero_add] at ha; exact ha)
    rw [← this]
    exact h1'

/-- C139. If only finitely many tests register tests and the messages of exceptions are readable, `RunAll` comes to an end;
it has undefined behaviour exactly if some executed test registered a test for its own suite. -/
theorem C139_own_exact (w : AddWorld) (rs : List (Str × Str × Nat)) (hr : ∀ i, Readable w.toWorld i) (N : Nat)
    (hN : ∀ i, N ≤ i → w.adds i = []) :
    ∃ n0, ∀ n, n0 ≤ n →
      let r := runAllA w n (registryOf rs)
      ((∃ v, r.2 = .ok v) ∨ r.2 = .error .ub) ∧
      (r.2 = .error .ub ↔ ∃ i x, r.1.log[i]? = some x ∧ ∃ a ∈ w.adds i, a.1 = x.1) := by
  have hc : ∀ i, crashAt w.toWorld i = none := fun i => (readable_iff _ i).1 (hr i)
  have hlog : (registryOf rs).log = [] := addAll_log {} rs
  refine ⟨(registryOf rs).tests.length + (addsOf w 0 N).length + 1, fun n hn => ?_⟩
  intro r
  obtain ⟨e1, _, _, e4⟩ := runAllA_eq w n (registryOf rs)
  have hend := runSuitesA_ends w hc N hN n
    { (registryOf rs).print (logStart (registryOf rs)) with ticks := (registryOf rs).ticks + 1 } none (registryOf_tidy rs) (by
      have h1 := List.length_filter_le (fun e : Str × List TestCase => above none e.1) (registryOf rs).tests
      simp only [State.print, hlog, List.length_nil, Nat.sub_zero]
      omega)
  have hstop := runSuitesA_stop w hc n
    { (registryOf rs).print (logStart (registryOf rs)) with ticks := (registryOf rs).ticks + 1 } none (registryOf_tidy rs)
  generalize runSuitesA w n { (registryOf rs).print (logStart (registryOf rs)) with ticks := (registryOf rs).ticks + 1 } none = q
    at e1 e4 hend hstop
  obtain ⟨st', oe⟩ := q
  simp only at hend hstop e1 e4
  rcases hstop with h | h | ⟨h, i, x, _, hx, ha⟩
  · subst h
    have hok : r.2 = .ok (if st'.failed ≠ 0 then 1 else 0) := e4
    refine ⟨.inl ⟨_, hok⟩, ?_⟩
    constructor
    · intro h; rw [hok] at h; cases h
    · rintro ⟨i, x, hx, a, ha, e⟩
      exact absurd e ((C139_exact w n rs _ hok).2.2.1 i x hx a ha)
  · exact absurd h hend
  · subst h
    have hub : r.2 = .error .ub := e4
    refine ⟨.inr hub, fun _ => ⟨i, x, ?_, ha⟩, fun _ => hub⟩
    rw [show r.1.log = st'.log from e1]
    exact hx

/-- Tests that return at once, on a clock that stands still. -/
def quiet (adds : Nat → List (Str × Str × Nat)) : AddWorld :=
  { exec := fun _ => { ends := .returns }, now := fun _ => 0, adds := adds }

/-- C139 fails: `RunAll` returns 0 and reports 2 tests, but the test that was registered for an earlier suite during the run
has not been executed. -/
theorem C139_earlier_fails :
    let r := runAllA (quiet fun i => if i = 0 then [(c!"A", c!"new", 7)] else []) 5 (registryOf [(c!"B", c!"t", 1)])
    r.2 = .ok 0 ∧ r.1.log = [(c!"B", c!"t", 1)] ∧ r.1.total = 2 := by
  refine ⟨by decide +kernel, by decide +kernel, by decide +kernel⟩

/-- C139 fails: the summary counts one failed test, and lists two: with the failed one, the test that was registered for an
earlier suite and never executed. -/
theorem C139_listed_fails :
    let w : AddWorld :=
      { exec := fun _ => { ends := .throwsOther }
        now := fun _ => 0
        adds := fun i => if i = 0 then [(c!"A", c!"new", 7)] else [] }
    let r := runAllA w 5 (registryOf [(c!"B", c!"t", 1)])
    r.2 = .ok 1 ∧ r.1.log = [(c!"B", c!"t", 1)] ∧ r.1.failed = 1 ∧ listedFailed r.1 = [(c!"A", c!"new", 7), (c!"B", c!"t", 1)] := by
  refine ⟨by decide +kernel, by decide +kernel, by decide +kernel, by decide +kernel⟩

/-- C139 fails: a test that registers a test for its own suite makes `RunAll` use invalid iterators. -/
theorem C139_own_fails :
    (runAllA (quiet fun i => if i = 0 then [(c!"B", c!"new", 7)] else []) 5 (registryOf [(c!"B", c!"t", 1)])).2 =
      .error .ub := by
  decide +kernel

example : let r := runAllA (quiet fun i => if i = 0 then [(c!"C", c!"new", 7)] else []) 5 (registryOf [(c!"B", c!"t", 1)])
    r.2 = .ok 0 ∧ r.1.log = [(c!"B", c!"t", 1), (c!"C", c!"new", 7)] ∧ r.1.total = 2 := by
  refine ⟨by decide +kernel, by decide +kernel, by decide +kernel⟩

/-- C139. With tests that register nothing, `RunAll` is the `RunAll` of the properties C78, C79 and C89. -/
theorem C139_agrees (w : AddWorld) (h : ∀ i, w.adds i = []) (rs : List (Str × Str × Nat)) (n : Nat)
    (hn : (registryOf rs).tests.length < n) : runAllA w n (registryOf rs) = runAll w.toWorld (registryOf rs) := by
  have hs := (registryOf_tidy rs).sorted
  generalize registryOf rs = st at hs hn
  have hst : ({ st.print (logStart st) with ticks := st.ticks + 1 } : State) =
    { ({ st.print (logStart st) with ticks := st.ticks + 1 } : State) with tests := [] ++ st.tests } := rfl
  have := runSuitesA_none w h n st.tests [] { st.print (logStart st) with ticks := st.ticks + 1 } none hs (by simp [above]) (by simp) hn
  rw [← hst] at this
  simp only [State.print, List.nil_append] at this
  simp only [runAllA, runAll, State.print]
  rw [this]
  generalize runSuites w.toWorld _ st.tests = r
  obtain ⟨st', ts, oe⟩ := r
  cases oe <;> rfl

example : (registryOf [(c!"B", c!"t", 1)]).tests.length < 2 := by decide +kernel

/-- A name of `k + 1` letters. -/
def letters (k : Nat) : Str := List.replicate (k + 1) (Chr.ofByte 0x61)

theorem letters_lt (k : Nat) : Str.lt (letters k) (letters (k + 1)) = true := by
  unfold letters
  induction k with
  | zero => rfl
  | succ k ih =>
    rw [List.replicate_succ, List.replicate_succ (n := k + 1 + 1), Str.lt]
    rw [chr_strictTotal.irrefl]
    simpa using ih

theorem upsert_last (k s : Str) (f : Option (List TestCase) → List TestCase) (m : List (Str × List TestCase))
    (h : ∀ e ∈ m, above (some k) e.1 = false) (hs : Str.lt k s = true) : StdMap.upsert Str.lt s f m = m ++ [(s, f none)] := by
  induction m with
  | nil => rfl
  | cons e m ih =>
    obtain ⟨k', v⟩ := e
    have h1 : Str.lt k k' = false := h (k', v) (by simp)
    have h2 : Str.lt k' s = true := by
      by_cases h3 : Str.lt k' k = true
      · exact str_strictTotal.trans _ _ _ h3 hs
      · rw [str_strictTotal.eq k' k (by simpa using h3) h1]; exact hs
    unfold StdMap.upsert
    rw [if_neg (by rw [str_strictTotal.asymm _ _ h2]; simp), if_pos h2, ih fun e he => h e (by simp [he])]
    rfl

theorem endless_loop (n : Nat) : ∀ (k : Nat) (st : State) (last : Option Str) (t : TestCase), st.log.length = k →
    nextSuite last st.tests = some (letters k, [t]) → (∀ e ∈ st.tests, above (some (letters k)) e.1 = false) →
    (runSuitesA (quiet fun i => [(letters (i + 1), [], 0)]) n st last).2 = some .fuel := by
  induction n with
  | zero => intros; rfl
  | succ n ih =>
    intro k st last t hk hn ha
    have hne : letters (k + 1) ≠ letters k := by
      intro h
      have := congrArg List.length h
      simp [letters] at this
    rw [runSuitesA, hn]
    simp only
    have hsuite : ∃ st1 time1 t1, runSuiteA (quiet fun i => [(letters (i + 1), [], 0)]) (letters k)
        (st.print (logSuiteStart (letters k) [t].length)) 0 [t] = (st1, time1, [t1], none) ∧
        st1.log.length = k + 1 ∧ st1.tests = st.tests ++ [(letters (k + 1), [{ suite := letters (k + 1), name := [], func := 0 }])] := by
      have hf := runTest_facts (quiet fun i => [(letters (i + 1), [], 0)]).toWorld
        (addAll (st.print (logSuiteStart (letters k) [t].length)) [(letters (k + 1), [], 0)]) t
      have hl : (st.print (logSuiteStart (letters k) [t].length)).log.length = k := hk
      simp only [runSuiteA, hl]
      have hadds : (quiet fun i => [(letters (i + 1), [], 0)]).adds k = [(letters (k + 1), [], 0)] := rfl
      rw [hadds]
      generalize runTest (quiet fun i => [(letters (i + 1), [], 0)]).toWorld
        (addAll (st.print (logSuiteStart (letters k) [t].length)) [(letters (k + 1), [], 0)]) t = r at hf ⊢
      obtain ⟨st1, t1, e1⟩ := r
      obtain ⟨f1, _, f3, _, f5, _⟩ := hf
      simp only at f1 f3 f5
      have he1 : e1 = none := f5.trans rfl
      subst he1
      simp only [List.any_cons, List.any_nil, Bool.or_false, decide_eq_true_eq, if_neg hne]
      refine ⟨st1, _, t1, rfl, ?_, ?_⟩
      · rw [f3, addAll_log, List.length_append, hl]; rfl
      · rw [f1]
        exact upsert_last (letters k) (letters (k + 1)) _ st.tests ha (letters_lt k)
    obtain ⟨st1, time1, t1, hr, hlen, htests⟩ := hsuite
    rw [hr]
    simp only
    have hput : (putSuite (letters k) [t1] st1).tests =
        (st.tests.map fun e => if e.1 = letters k then (letters k, [t1]) else e) ++
          [(letters (k + 1), [{ suite := letters (k + 1), name := [], func := 0 }])] := by
      unfold putSuite
      rw [htests]
      simp [hne]
    have hkey : ∀ e ∈ st.tests.map (fun e => if e.1 = letters k then (letters k, [t1]) else e),
        above (some (letters k)) e.1 = false := by
      intro e he
      obtain ⟨c, hc, rfl⟩ := List.mem_map.1 he
      by_cases h : c.1 = letters k
      · rw [if_pos h]; exact str_strictTotal.irrefl _
      · rw [if_neg h]; exact ha c hc
    refine ih (k + 1) _ _ { suite := letters (k + 1), name := [], func := 0 } hlen ?_ ?_
    · show nextSuite _ (putSuite (letters k) [t1] st1).tests = _
      rw [hput, nextSuite_eq, List.find?_append, List.find?_eq_none.2 (by intro e he; simp [hkey e he])]
      simp [above, letters_lt]
    · intro e he
      have he' : e ∈ (putSuite (letters k) [t1] st1).tests := he
      rw [hput] at he'
      rcases List.mem_append.1 he' with he' | he'
      · refine Classical.byContradiction fun hc => ?_
        have hc' : Str.lt (letters (k + 1)) e.1 = true := by
          cases h : above (some (letters (k + 1))) e.1 with
          | true => exact h
          | false => exact absurd h hc
        have := str_strictTotal.trans _ _ _ (letters_lt k) hc'
        have h0 : Str.lt (letters k) e.1 = false := hkey e he'
        rw [h0] at this
        cases this
      · simp only [List.mem_singleton] at he'
        subst he'
        exact str_strictTotal.irrefl _

/-- C139 fails: if every test registers one for a new suite after its own, `RunAll` never returns: no number of rounds is
enough. -/
theorem C139_endless_fails : ∃ (w : AddWorld) (rs : List (Str × Str × Nat)), rs.length = 1 ∧
    ∀ n, (runAllA w n (registryOf rs)).2 = .error .fuel := by
  refine ⟨quiet fun i => [(letters (i + 1), [], 0)], [(letters 0, [], 0)], rfl, fun n => ?_⟩
  obtain ⟨_, _, _, e4⟩ := runAllA_eq (quiet fun i => [(letters (i + 1), [], 0)]) n (registryOf [(letters 0, [], 0)])
  rw [e4, endless_loop n 0 _ none { suite := letters 0, name := [], func := 0 } rfl rfl]
  intro e he
  have he' : e ∈ [(letters 0, [({ suite := letters 0, name := [], func := 0 } : TestCase)])] := he
  simp only [List.mem_singleton] at he'
  subst he'
  exact str_strictTotal.irrefl _

end Caitlyn
