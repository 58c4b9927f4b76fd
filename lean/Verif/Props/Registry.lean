import Verif.Lit
import Verif.Proofs.Registry

/-! # Properties C78, C79, C82 and C89: test registry, map keys and values, test report -/

namespace Caitlyn
open Registry Spec

/-- One call on the registry. -/
inductive RegistryOp where
  | add (suite name : Str) (func : Nat)
  | run

/-- A history of calls, from the empty registry, in the surroundings `w`; an exception that leaves `RunAll` is
caught by the caller. -/
def registryAfter (w : World) (h : List RegistryOp) : State :=
  h.foldl (fun st op => match op with
    | .add s n f => addTest s n f st
    | .run => (runAll w st).1) {}

/-- The tests registered in a history, in order. -/
def registered (h : List RegistryOp) : List (Str × Str × Nat) :=
  h.filterMap fun op => match op with
    | .add s n f => some (s, n, f)
    | .run => none

/-- If the `i`-th execution throws an exception with a message, the message is a sequence of characters of UTF-8
shape. -/
def Readable (w : World) (i : Nat) : Prop :=
  ∀ what, (w.exec i).ends = .throwsStd what →
    ∃ ps : List (List UInt8), (∀ p ∈ ps, Shape p) ∧ what.takeWhile (· != 0) = ps.flatten

theorem readable_iff (w : World) (i : Nat) : Readable w i ↔ crashAt w i = none := by
  unfold Readable crashAt
  cases hx : (w.exec i).ends with
  | returns => simp
  | throwsOther => simp
  | throwsStd what =>
    simp only [Outcome.throwsStd.injEq]
    constructor
    · intro h
      obtain ⟨ps, hp, e⟩ := h what rfl
      have hs : what ++ [0] = ps.flatten ++ 0 :: ((what.dropWhile (· != 0)) ++ [0]).drop 1 := by
        rw [← e]
        conv => lhs; rw [← List.takeWhile_append_dropWhile (p := fun x : UInt8 => x != 0) (l := what)]
        rw [List.append_assoc]
        congr 1
        cases hd : what.dropWhile (· != 0) with
        | nil => rfl
        | cons a l =>
          have := List.head_dropWhile_not (fun x : UInt8 => x != 0) (l := what) (by rw [hd]; simp)
          simp only [hd, List.head_cons, bne_eq_false_iff_eq] at this
          subst this
          simp
      rw [hs, Str.ofCStr_shapes ps hp]
    · intro h what' e
      subst e
      cases hm : Str.ofCStr (what ++ [0]) with
      | error e => rw [hm] at h; cases h
      | ok m =>
        obtain ⟨h1, _⟩ := Str.decodeLoop_ok _ _ _ hm
        refine ⟨m.map Chr.data, fun p hp => ?_, ?_⟩
        · obtain ⟨c, hc, rfl⟩ := List.mem_map.mp hp; exact h1 c hc
        · rw [← message_bytes what m hm, Str.str_shapes m h1]

/-- Facts that hold after every history. -/
structure RegistryInv (w : World) (regs : List (Str × Str × Nat)) (st : State) : Prop where
  groups : Groups regs st.tests
  total : st.total = regs.length
  counts : Counts w st

/-- `RunAll` after its first lines. -/
theorem runAll_eq (w : World) (st : State) :
    let st0 := { st.print (logStart st) with ticks := st.ticks + 1 }
    let r := runSuites w st0 st.tests
    ((runAll w st).1.log = r.1.log ∧ (runAll w st).1.total = r.1.total ∧ (runAll w st).1.passed = r.1.passed ∧
      (runAll w st).1.failed = r.1.failed ∧ (runAll w st).1.tests = r.2.1) ∧
    ((runAll w st).2 = match r.2.2 with
      | some e => .error e
      | none => .ok (if r.1.failed ≠ 0 then 1 else 0)) := by
  intro st0 r
  cases hr : r with
  | mk st' q =>
  obtain ⟨ts, oe⟩ := q
  have hr' : runSuites w { st.print (logStart st) with ticks := st.ticks + 1 } st.tests = (st', ts, oe) := hr
  cases oe with
  | some e =>
    simp only [runAll]; rw [show (st.print (logStart st)).tests = st.tests from rfl]
    simp only [State.print] at hr' ⊢
    simp only [hr', and_self]
  | none =>
    simp only [runAll]; rw [show (st.print (logStart st)).tests = st.tests from rfl]
    simp only [State.print] at hr' ⊢
    simp only [hr', and_self]
    exact ⟨trivial, rfl⟩

theorem runAll_inv (w : World) (regs) (st : State) (h : RegistryInv w regs st) :
    RegistryInv w regs (runAll w st).1 ∧
    (runAll w st).1.log = st.log ++ (keys st.tests).take (ran w st.log.length (keys st.tests).length) ∧
    ((runAll w st).2 = match crash w st.log.length (keys st.tests).length with
      | some e => .error e
      | none => .ok (if (runAll w st).1.failed ≠ 0 then 1 else 0)) := by
  obtain ⟨⟨e1, e2, e3, e4, e5⟩, e6⟩ := runAll_eq w st
  obtain ⟨h1, h2, h3, h4, h5, h6, h7, h8⟩ := runSuites_facts w st.tests
    { st.print (logStart st) with ticks := st.ticks + 1 }
  have hc := h7 ⟨h.counts.1, h.counts.2⟩
  refine ⟨⟨?_, ?_, ⟨?_, ?_⟩⟩, ?_, ?_⟩
  · rw [e5]; exact h.groups.congr h4
  · rw [e2, h2]; exact h.total
  · rw [e3, e1]; exact hc.passed
  · rw [e4, e1]; exact hc.failed
  · rw [e1, h3]; rfl
  · rw [e6, h5, e4]; rfl

theorem registry_inv (w : World) (h : List RegistryOp) : RegistryInv w (registered h) (registryAfter w h) := by
  have gen : ∀ (h : List RegistryOp) (regs : List (Str × Str × Nat)) (st : State), RegistryInv w regs st →
      RegistryInv w (regs ++ registered h) (h.foldl (fun st op => match op with
        | .add s n f => addTest s n f st
        | .run => (runAll w st).1) st) := by
    intro h
    induction h with
    | nil => intro regs st hi; simpa [registered] using hi
    | cons op h ih =>
      intro regs st hi
      cases op with
      | add s n f =>
        have := ih (regs ++ [(s, n, f)]) (addTest s n f st)
          ⟨hi.groups.add s n f, by simp [addTest, hi.total], ⟨hi.counts.1, hi.counts.2⟩⟩
        simpa [registered] using this
      | run =>
        have := ih regs (runAll w st).1 (runAll_inv w regs st hi).1
        simpa [registered] using this
  have := gen h [] {} ⟨Groups.nil, rfl, ⟨rfl, rfl⟩⟩
  simpa [registered, registryAfter] using this

theorem registryAfter_run (w : World) (h : List RegistryOp) :
    registryAfter w (h ++ [.run]) = (runAll w (registryAfter w h)).1 := by
  simp [registryAfter, List.foldl_append]

/-- C78, exactly what `RunAll` does after any history. Take the suites in strictly ascending name order, and inside a
suite the tests of that suite in registration order. `RunAll` executes the tests in this order, up to and including
the first one that throws an exception whose message is not readable; that exception is replaced by an exception that
leaves `RunAll`. -/
theorem C78_exact (w : World) (h : List RegistryOp) :
    ∃ suites : List Str, suites.Pairwise (fun a b => Str.lt a b = true) ∧
      (∀ s, s ∈ suites ↔ ∃ r ∈ registered h, r.1 = s) ∧
      let order := suites.flatMap fun s => (registered h).filter fun r => r.1 = s
      let before := (registryAfter w h).log
      ((∀ i, i < order.length → Readable w (before.length + i)) →
        (registryAfter w (h ++ [.run])).log = before ++ order ∧ ∃ v, (runAll w (registryAfter w h)).2 = .ok v) ∧
      ∀ k, k < order.length → (∀ i, i < k → Readable w (before.length + i)) → ¬ Readable w (before.length + k) →
        (registryAfter w (h ++ [.run])).log = before ++ order.take (k + 1) ∧
        ∃ e, (runAll w (registryAfter w h)).2 = .error e := by
  have hi := registry_inv w h
  obtain ⟨_, hl, hres⟩ := runAll_inv w _ _ hi
  refine ⟨(registryAfter w h).tests.map Prod.fst, ?_, hi.groups.suites, ?_⟩
  · rw [List.pairwise_map]; exact hi.groups.sorted
  intro order before
  have hk : keys (registryAfter w h).tests = order := hi.groups.keys_eq
  rw [hk] at hl hres
  rw [registryAfter_run]
  constructor
  · intro hr
    have hc : crash w before.length order.length = none :=
      (crash_none_iff w _ _).mpr fun i hi => (readable_iff w _).mp (hr i hi)
    rw [hl, hres]
    show before ++ order.take (ran w before.length order.length) = _ ∧ _
    have hc' : crash w (registryAfter w h).log.length order.length = none := hc
    rw [ran_eq w _ _ hc, List.take_length, hc']
    exact ⟨rfl, _, rfl⟩
  · intro k hk h1 h2
    rw [readable_iff] at h2
    cases he : crashAt w (before.length + k) with
    | none => exact absurd he h2
    | some e =>
      obtain ⟨g1, g2⟩ := crash_first w k order.length before.length e hk
        (fun i hi => (readable_iff w _).mp (h1 i hi)) he
      rw [hl, hres]
      show before ++ order.take (ran w before.length order.length) = _ ∧ _
      have g1' : crash w (registryAfter w h).log.length order.length = some e := g1
      rw [g2, g1']
      exact ⟨rfl, _, rfl⟩

/-- C78. After any history, if the messages of all exceptions thrown by tests are readable, `RunAll` executes each
registered test exactly once: the executions it adds are a permutation of the registrations. Missing: unreadable
messages, see `C78_fails`. -/
theorem C78_once_partial (w : World) (h : List RegistryOp) (hr : ∀ i, Readable w i) :
    ∃ executed, (registryAfter w (h ++ [.run])).log = (registryAfter w h).log ++ executed ∧
      executed.Perm (registered h) := by
  obtain ⟨suites, h1, h2, h3, _⟩ := C78_exact w h
  refine ⟨_, (h3 fun i _ => hr _).1, flatMap_filter_perm _ _ ?_ (fun r hr => (h2 r.1).mpr ⟨r, hr, rfl⟩)⟩
  refine h1.imp ?_
  intro a b hab e
  subst e
  rw [str_strictTotal.irrefl] at hab; cases hab

/-- C78 fails: a test that throws an exception with the byte `0xFF` in its message ends the whole run; the tests
after it are never executed, and `RunAll` throws. -/
theorem C78_fails : ∃ (w : World) (h : List RegistryOp), registered h = [(c!"S", c!"a", 0), (c!"S", c!"b", 1)] ∧
    (registryAfter w (h ++ [.run])).log = [(c!"S", c!"a", 0)] ∧
    (runAll w (registryAfter w h)).2 = .error .runtimeError :=
  ⟨⟨fun _ => { ends := .throwsStd [0xFF] }, fun _ => 0⟩, [.add c!"S" c!"a" 0, .add c!"S" c!"b" 1],
    by decide, by decide +kernel, by decide +kernel⟩

theorem countP_range_zero (p : Nat → Bool) (n : Nat) : (List.range n).countP p = 0 ↔ ∀ i, i < n → p i = false := by
  rw [List.countP_eq_zero]
  simp

/-- C79. After any history, if `RunAll` returns, the value is 0 exactly when every execution so far, in this or an
earlier run, has returned or has ended its run with an unreadable message, and 1 otherwise. If all messages are
readable, the counters are the numbers of executions so far that have returned and that have thrown. -/
theorem C79_result (w : World) (h : List RegistryOp) :
    let r := runAll w (registryAfter w h)
    (∀ v, r.2 = .ok v → (v = 0 ∨ v = 1) ∧
      (v = 0 ↔ ∀ i, i < r.1.log.length → (w.exec i).ends = .returns ∨ ¬ Readable w i)) ∧
    r.1.total = (registered h).length ∧
    r.1.passed = (List.range r.1.log.length).countP (fun i => (w.exec i).ends = .returns) ∧
    ((∀ i, Readable w i) →
      r.1.failed = (List.range r.1.log.length).countP (fun i => (w.exec i).ends ≠ .returns)) := by
  intro r
  obtain ⟨hi, hl, hres⟩ := runAll_inv w _ _ (registry_inv w h)
  refine ⟨fun v hv => ?_, hi.total, hi.counts.passed, fun hr => ?_⟩
  · have hz : r.1.failed = 0 ↔ ∀ i, i < r.1.log.length → (w.exec i).ends = .returns ∨ ¬ Readable w i := by
      rw [hi.counts.failed, countP_range_zero]
      refine forall_congr' fun i => forall_congr' fun _ => ?_
      rw [readable_iff, fails, rets]
      cases crashAt w i <;> simp
    rw [← hz]
    have hv' : (runAll w (registryAfter w h)).2 = .ok v := hv
    rw [hres] at hv'
    split at hv'
    · cases hv'
    · cases hv'
      show (_ ∨ _) ∧ (_ ↔ (runAll w (registryAfter w h)).1.failed = 0)
      split <;> simp_all
  · rw [hi.counts.failed]
    apply List.countP_congr
    intro i _
    have := (readable_iff w i).mp (hr i)
    simp [fails, rets, this]

/-- C79, the summary: after a run with at least one failure so far, the tests listed as failed are exactly the
tests whose execution in this run threw an exception, in order. -/
theorem C79_listed (w : World) (h : List RegistryOp) (v : Nat) (hv : (runAll w (registryAfter w h)).2 = .ok v)
    (hf : (runAll w (registryAfter w h)).1.failed > 0) :
    listedFailed (runAll w (registryAfter w h)).1 =
      ((keys (registryAfter w h).tests).zipIdx.filter fun e =>
        (w.exec ((registryAfter w h).log.length + e.2)).ends ≠ .returns).map (·.1) := by
  generalize hst : registryAfter w h = st at hv hf ⊢
  obtain ⟨⟨e1, e2, e3, e4, e5⟩, e6⟩ := runAll_eq w st
  obtain ⟨h1, h2, h3, h4, h5, h6, h7, h8⟩ := runSuites_facts w st.tests
    { st.print (logStart st) with ticks := st.ticks + 1 }
  have hl : ({ st.print (logStart st) with ticks := st.ticks + 1 } : State).log = st.log := rfl
  rw [hl] at h5 h6
  rw [hv, h5] at e6
  have hc : crash w st.log.length (keys st.tests).length = none := by
    cases hc : crash w st.log.length (keys st.tests).length with
    | none => rfl
    | some e => rw [hc] at e6; cases e6
  rw [ran_eq w _ _ hc] at h6
  unfold listedFailed
  rw [if_pos hf, e5]
  generalize (runSuites w { st.print (logStart st) with ticks := st.ticks + 1 } st.tests).2.1 = m at h4 h6
  have hk : keys m = keys st.tests := by
    have := congrArg (fun m => m.flatMap Prod.snd) h4
    simpa [List.flatMap_map, keys] using this
  show (m.flatMap fun suite => (suite.2.filter fun t => !t.passed).map TestCase.key) = _
  rw [← hk] at h6 ⊢
  clear h1 h2 h3 h4 h5 h7 h8 hf hk hst e1 e2 e3 e4 e5 e6 hl hc hv
  have e1 : (m.flatMap fun suite => (suite.2.filter fun t => !t.passed).map TestCase.key) =
      ((m.flatMap (·.2)).filter fun t => !t.passed).map TestCase.key := by
    clear h6
    induction m with
    | nil => rfl
    | cons a m ih => simp [List.flatMap_cons, ih]
  have e2 : keys m = (m.flatMap (·.2)).map TestCase.key := by
    clear h6 e1
    induction m with
    | nil => rfl
    | cons a m ih =>
      have : keys (a :: m) = a.2.map TestCase.key ++ keys m := rfl
      rw [this, ih]; simp
  rw [e2] at h6
  rw [e1, e2]
  generalize m.flatMap (·.2) = ts at h6
  generalize st.log.length = n at h6
  clear e1 e2
  have gen : ∀ (ts : List TestCase) (k : Nat),
      (∀ i t, ts[i]? = some t → (t.passed = true ↔ (w.exec (n + (k + i))).ends = .returns)) →
      (ts.filter fun t => !t.passed).map TestCase.key =
        (((ts.map TestCase.key).zipIdx k).filter fun e => (w.exec (n + e.2)).ends ≠ .returns).map (·.1) := by
    intro ts
    induction ts with
    | nil => intro k _; rfl
    | cons t ts ih =>
      intro k hk
      have h0 := hk 0 t rfl
      have hs := ih (k + 1) (fun i u hu => by
        have := hk (i + 1) u (by rw [List.getElem?_cons_succ]; exact hu)
        rwa [show k + 1 + i = k + (i + 1) by omega])
      rw [List.map_cons, List.zipIdx_cons, List.filter_cons, List.filter_cons]
      rw [Nat.add_zero] at h0
      by_cases hp : t.passed = true
      · rw [if_neg (by simp [hp]), if_neg (by simp [h0.mp hp])]
        exact hs
      · have hr : (w.exec (n + k)).ends ≠ .returns := fun e => hp (h0.mpr e)
        rw [if_pos (by simp [hp]), if_pos (by simp [hr]), List.map_cons, List.map_cons, hs]
  refine gen ts 0 (fun i t ht => ?_)
  rw [Nat.zero_add]
  refine h6 i t ?_ ht
  have := (List.getElem?_eq_some_iff.mp ht).1
  simpa using this

/-- C79, repeated runs: the second `RunAll` of a registry with one test computes a `skipped` count that has wrapped
around below zero. -/
theorem C79_skipped_wraps (w : World) (hr : ∀ i, Readable w i) :
    (registryAfter w [.add c!"S" c!"t" 0, .run, .run]).skipped = 2 ^ 64 - 1 := by
  have h0 := (readable_iff w 0).mp (hr 0)
  have h1 := (readable_iff w 1).mp (hr 1)
  have hst : (addTest c!"S" c!"t" 0 {}).tests = [(c!"S", [⟨c!"S", c!"t", 0, false⟩])] := by decide
  have key : ∀ st : State, ∀ b, st.tests = [(c!"S", [⟨c!"S", c!"t", 0, b⟩])] → crashAt w st.log.length = none →
      (∃ b', (runAll w st).1.tests = [(c!"S", [⟨c!"S", c!"t", 0, b'⟩])]) ∧
      (runAll w st).1.log.length = st.log.length + 1 ∧ (runAll w st).1.total = st.total ∧
      (runAll w st).1.passed + (runAll w st).1.failed = st.passed + st.failed + 1 ∧
      (runAll w st).1.skipped = wsub (wsub st.total (runAll w st).1.passed) (runAll w st).1.failed := by
    intro st b ht hc
    unfold crashAt at hc
    cases hx : (w.exec st.log.length).ends with
    | returns =>
      refine ⟨⟨true, ?_⟩, ?_, ?_, ?_, ?_⟩ <;>
        simp [runAll, runSuites, runSuite, runTest, endTest, State.print, ht, hx, Nat.add_right_comm]
    | throwsOther =>
      refine ⟨⟨false, ?_⟩, ?_, ?_, ?_, ?_⟩ <;>
        simp [runAll, runSuites, runSuite, runTest, endTest, State.print, ht, hx, Nat.add_assoc]
    | throwsStd what =>
      rw [hx] at hc
      cases hm : Str.ofCStr (what ++ [0]) with
      | error e => simp [hm] at hc
      | ok m =>
        refine ⟨⟨false, ?_⟩, ?_, ?_, ?_, ?_⟩ <;>
          simp [runAll, runSuites, runSuite, runTest, endTest, State.print, ht, hx, hm, Nat.add_assoc]
  obtain ⟨⟨b, a1⟩, a2, a3, a4, _⟩ := key _ _ hst h0
  have a2' : (runAll w (addTest c!"S" c!"t" 0 {})).1.log.length = 1 := a2
  obtain ⟨_, _, c3, c4, c5⟩ := key _ _ a1 (by rw [a2']; exact h1)
  show (runAll w (runAll w (addTest c!"S" c!"t" 0 {})).1).1.skipped = _
  rw [c5, a3]
  have e0 : (addTest c!"S" c!"t" 0 {}).total = 1 := rfl
  have e1 : (addTest c!"S" c!"t" 0 {}).passed + (addTest c!"S" c!"t" 0 {}).failed = 0 := rfl
  rw [e0]
  rw [a4, e1] at c4
  generalize (runAll w (runAll w (addTest c!"S" c!"t" 0 {})).1).1.passed = p at c4 ⊢
  generalize (runAll w (runAll w (addTest c!"S" c!"t" 0 {})).1).1.failed = f at c4 ⊢
  simp only [wsub, twoPow64]
  omega

/-- Surroundings in which the third execution throws. -/
example : let w : World := ⟨fun i => { ends := if i = 2 then .throwsStd b!"bad" else .returns }, fun _ => 0⟩
    let h : List RegistryOp := [.add c!"B" c!"b1" 0, .add c!"A" c!"a" 1, .add c!"B" c!"b2" 2]
    (registryAfter w (h ++ [.run])).log = [(c!"A", c!"a", 1), (c!"B", c!"b1", 0), (c!"B", c!"b2", 2)] ∧
    (runAll w (registryAfter w h)).2 = .ok 1 ∧
    listedFailed (runAll w (registryAfter w h)).1 = [(c!"B", c!"b2", 2)] := by decide +kernel

/-- Non-vacuity: a message is readable. -/
example : Readable ⟨fun _ => { ends := .throwsStd b!"é" }, fun _ => 0⟩ 0 := by
  rw [readable_iff]; decide +kernel

/-! ## C89 -/

theorem shown_get (w : World) : ∀ (ts : List TestCase) (n k last i : Nat) (s : Shown),
    (shown w n k last ts)[i]? = some s →
    (∃ t, ts[i]? = some t ∧ s.name = (Str.str t.suite, Str.str t.name)) ∧
    s.printed = (w.exec (n + i)).printed ∧
    (s.message = match (w.exec (n + i)).ends with
      | .returns => none
      | .throwsStd what => some (what.takeWhile (· != 0))
      | .throwsOther => some b!"Unknown error") ∧
    (s.ms = if (w.exec (n + i)).ends = .returns then millis (w.now (k + 2 * i)) (w.now (k + 2 * i + 1))
      else if i = 0 then last else millis (w.now (k + 2 * i - 2)) (w.now (k + 2 * i - 1)))
  | [], _, _, _, _, _, h => by simp [shown] at h
  | t :: ts, n, k, last, 0, s, h => by
    simp only [shown, List.getElem?_cons_zero, Option.some.injEq] at h
    subst h
    refine ⟨⟨t, rfl, rfl⟩, rfl, rfl, ?_⟩
    simp [rets]
  | t :: ts, n, k, last, i + 1, s, h => by
    simp only [shown, List.getElem?_cons_succ] at h
    have := shown_get w ts _ _ _ _ _ h
    rw [show n + 1 + i = n + (i + 1) by omega] at this
    obtain ⟨h1, h2, h3, h4⟩ := this
    refine ⟨by simpa using h1, h2, h3, ?_⟩
    rw [h4, show k + 2 + 2 * i = k + 2 * (i + 1) by omega, if_neg (Nat.succ_ne_zero i)]
    by_cases hi : i = 0
    · subst hi; simp
    · simp [hi]

theorem shown_append (w : World) : ∀ (a b : List TestCase) (n k last : Nat),
    shown w n k last (a ++ b) = shown w n k last a ++
      shown w (n + a.length) (k + 2 * a.length) (lastMs w k last a.length) b
  | [], b, n, k, last => by simp [shown, lastMs]
  | t :: a, b, n, k, last => by
    simp only [List.cons_append, shown, shown_append w a, List.length_cons, lastMs]
    rw [show n + 1 + a.length = n + (a.length + 1) by omega, show k + 2 + 2 * a.length = k + 2 * (a.length + 1) by omega]

theorem shownSuites_tests (w : World) : ∀ (m : List (Str × List TestCase)) (n k last : Nat),
    (shownSuites w n k last m).flatMap (·.tests) = shown w n k last (m.flatMap (·.2))
  | [], _, _, _ => rfl
  | (s, ts) :: m, n, k, last => by
    simp only [shownSuites, List.flatMap_cons, shown_append, shownSuites_tests w m]

theorem sumMs_eq (w : World) : ∀ (len k : Nat), sumMs w k len =
    ((List.range len).map fun i => millis (w.now (k + 2 * i)) (w.now (k + 2 * i + 1))).sum
  | 0, _ => rfl
  | len + 1, k => by
    rw [sumMs, sumMs_eq w len, List.range_succ_eq_map, List.map_cons, List.sum_cons, List.map_map]
    congr 2
    apply List.map_congr_left
    intro i _
    simp [Nat.mul_add, Nat.add_assoc, Nat.add_comm 2]

theorem shownSuites_names (w : World) : ∀ (m : List (Str × List TestCase)) (n k last : Nat),
    (shownSuites w n k last m).map (fun s => (s.name, s.tests.map (·.name))) =
      m.map (fun e => (Str.str e.1, e.2.map fun t => (Str.str t.suite, Str.str t.name)))
  | [], _, _, _ => rfl
  | (s, ts) :: m, n, k, last => by
    have : ∀ (ts : List TestCase) (n k last : Nat), (shown w n k last ts).map (·.name) =
        ts.map fun t => (Str.str t.suite, Str.str t.name) := by
      intro ts
      induction ts with
      | nil => intros; rfl
      | cons t ts ih => intro n k last; simp [shown, ih]
    simp [shownSuites, shownSuites_names w m, this]

theorem shownSuites_length (w : World) (m : List (Str × List TestCase)) (n k last : Nat) :
    (shownSuites w n k last m).length = m.length := by
  have := congrArg List.length (shownSuites_names w m n k last)
  simpa using this

theorem logStart_text (st : State) : logStart st =
    b!"[==========] Running " ++ (decBytes st.total ++ b!" tests from " ++ decBytes st.tests.length ++ b!" test cases") ++
      b!".\n[----------] Global test environment set-up.\n\n" := by
  simp only [logStart, num_eq, List.append_assoc]
  rfl

theorem logEnd_text (st : State) : logEnd st =
    b!"[----------] Global test environment tear-down\n[==========] " ++
    (decBytes st.total ++ b!" tests from " ++ decBytes st.tests.length ++ b!" test cases") ++ b!" ran. (" ++
    decBytes st.globalDiff ++ b!" ms total)\n" := by
  simp only [logEnd, num_eq, List.append_assoc]
  rfl

theorem logSummary_text (st : State) : logSummary st =
    (if st.passed = 0 then [] else
      b!"[  PASSED  ] " ++ decBytes st.passed ++ b!" test" ++ plural st.passed b!"s" ++ b!".\n") ++
    (if st.failed = 0 then [] else
      b!"[  FAILED  ] " ++ decBytes st.failed ++ b!" test" ++ plural st.failed b!"s" ++ b!", listed below:\n" ++
      ((listedFailed st).map fun t => (Str.str t.1, Str.str t.2.1)).flatMap fun n =>
        b!"[  FAILED  ] " ++ n.1 ++ b!"." ++ n.2 ++ b!"\n") ++
    b!"\n" ++ decBytes st.failed ++ b!" FAILED TEST" ++ plural st.failed b!"S" ++ b!"\n" := by
  simp only [logSummary, num_eq, plural, List.flatMap_map, gt_iff_lt, Nat.pos_iff_ne_zero, ne_eq, ite_not]

/-- C89, what the report says, exactly. After any history, if `RunAll` returns, what it has written to standard output
is the text of a report with: the number of registered tests; the suites in ascending order and their tests in
registration order; for each test its own output, `OK` or `FAIL` according to its outcome with the message
of its exception, and a duration; the counters of passed and failed executions so far; and the tests that failed in
this run. The duration shown for a passed test is its own; that of a failed test is that of the test
before it, or for the first test of the run the last one of the run before. -/
theorem C89_report (w : World) (h : List RegistryOp) (v : Nat) (hv : (runAll w (registryAfter w h)).2 = .ok v) :
    let st := registryAfter w h
    let st' := registryAfter w (h ++ [.run])
    ∃ r : Report, st'.out = st.out ++ r.text ∧ r.total = (registered h).length ∧
      r.passed = st'.passed ∧ r.failed = st'.failed ∧
      (∃ suites : List Str, suites.Pairwise (fun a b => Str.lt a b = true) ∧
        r.suites.map (fun s => (s.name, s.tests.map (·.name))) = suites.map (fun s => (Str.str s,
          ((registered h).filter fun r => r.1 = s).map fun r => (Str.str r.1, Str.str r.2.1))) ∧
        (∀ s, s ∈ suites ↔ ∃ r ∈ registered h, r.1 = s)) ∧
      (∀ i s, (r.suites.flatMap (·.tests))[i]? = some s →
        s.printed = (w.exec (st.log.length + i)).printed ∧
        (s.message = match (w.exec (st.log.length + i)).ends with
          | .returns => none
          | .throwsStd what => some (what.takeWhile (· != 0))
          | .throwsOther => some b!"Unknown error") ∧
        let own := fun i => (w.now (st.ticks + 2 + 2 * i) - w.now (st.ticks + 1 + 2 * i)) / 1000000
        (s.ms = if s.message = none then own i else if i = 0 then st.localDiff else own (i - 1))) ∧
      r.listed = (listedFailed st').map (fun t => (Str.str t.1, Str.str t.2.1)) := by
  intro st st'
  have hi := registry_inv w h
  have e' : st' = (runAll w st).1 := registryAfter_run w h
  obtain ⟨h1, h2, h3, h4, h5, h6, h7, h8⟩ := runSuites_facts w st.tests
    { st.print (logStart st) with ticks := st.ticks + 1 }
  have hl : ({ st.print (logStart st) with ticks := st.ticks + 1 } : State).log = st.log := rfl
  obtain ⟨_, e6⟩ := runAll_eq w st
  have hv' : (runAll w st).2 = .ok v := hv
  rw [hv', h5] at e6
  have hc : crash w ({ st.print (logStart st) with ticks := st.ticks + 1 } : State).log.length (keys st.tests).length =
      none := by
    cases hc : crash w ({ st.print (logStart st) with ticks := st.ticks + 1 } : State).log.length (keys st.tests).length with
    | none => rfl
    | some e => rw [hc] at e6; cases e6
  obtain ⟨k1, k2⟩ := h8 hc
  rw [hc] at h5
  generalize hr : runSuites w { st.print (logStart st) with ticks := st.ticks + 1 } st.tests = r at h1 h2 h3 h4 h5 h6 k1 k2
  obtain ⟨st1, ts, oe⟩ := r
  dsimp only at h1 h2 h3 h4 h5 h6 k1 k2
  subst h5
  let st2 : State := { st1 with tests := ts, globalDiff := millis (w.now st.ticks) (w.now st1.ticks), ticks := st1.ticks + 1 }
  let st3 : State := { st2.print (logEnd st2) with skipped := wsub (wsub st2.total st2.passed) st2.failed }
  have er : (runAll w st).1 = st3.print (logSummary st3) := by
    simp only [runAll]; rw [show (st.print (logStart st)).tests = st.tests from rfl]
    simp only [State.print] at hr
    simp only [State.print, hr, st3, st2]
  have hlen : ts.length = st.tests.length := by
    have := congrArg List.length h4; simpa using this
  refine ⟨⟨st.total, shownSuites w st.log.length (st.ticks + 1) st.localDiff st.tests, st2.globalDiff, st3.passed, st3.failed,
    (listedFailed st').map (fun t => (Str.str t.1, Str.str t.2.1))⟩, ?_, hi.total, ?_, ?_, ?_, ?_, rfl⟩
  · have a : st'.out = st.out ++ (logStart st ++
        (shownSuites w st.log.length (st.ticks + 1) st.localDiff st.tests).flatMap ShownSuite.text ++ logEnd st2 ++
        logSummary st3) := by
      rw [e', er]
      have b : st1.out = st.out ++ logStart st ++
          (shownSuites w st.log.length (st.ticks + 1) st.localDiff st.tests).flatMap ShownSuite.text := k2
      show st1.out ++ logEnd st2 ++ logSummary st3 = _
      rw [b]
      simp only [List.append_assoc]
    rw [a]
    refine congrArg (fun x => st.out ++ x) ?_
    have hls : listedFailed st' = listedFailed st3 := by rw [e', er]; rfl
    rw [hls, logStart_text, logEnd_text, logSummary_text]
    simp only [Report.text, shownSuites_length, List.append_assoc]
    have t1 : st2.total = st.total := h2
    have t2 : st2.tests.length = st.tests.length := hlen
    rw [t1, t2]
  · rw [e', er]; rfl
  · rw [e', er]; rfl
  · refine ⟨st.tests.map Prod.fst, ?_, ?_, hi.groups.suites⟩
    · rw [List.pairwise_map]; exact hi.groups.sorted
    · rw [shownSuites_names, List.map_map]
      have hg := hi.groups
      have hsl := sorted_lookup hg.sorted
      apply List.map_congr_left
      intro e he
      have := hg.groups e.1
      rw [hsl e he] at this
      simp only [Function.comp_apply, Prod.mk.injEq, true_and]
      have hk : e.2.map TestCase.key = (registered h).filter fun r => r.1 = e.1 := by
        by_cases hn : (registered h).filter (fun r => r.1 = e.1) = []
        · rw [if_pos hn] at this; cases this
        · rw [if_neg hn] at this
          simpa using this
      rw [← hk, List.map_map]
      rfl
  · intro i s hs
    have hs' : (shown w st.log.length (st.ticks + 1) st.localDiff (st.tests.flatMap (·.2)))[i]? = some s := by
      rw [← shownSuites_tests]; exact hs
    obtain ⟨_, g2, g3, g4⟩ := shown_get w _ _ _ _ _ _ hs'
    refine ⟨g2, g3, ?_⟩
    intro own
    rw [g4]
    have hm : s.message = none ↔ (w.exec (st.log.length + i)).ends = .returns := by
      rw [g3]
      cases (w.exec (st.log.length + i)).ends <;> simp
    simp only [hm, own, millis]
    split
    · rw [show st.ticks + 1 + 2 * i + 1 = st.ticks + 2 + 2 * i by omega]
    · split
      · rfl
      · rw [show st.ticks + 1 + 2 * i - 2 = st.ticks + 1 + 2 * (i - 1) by omega,
          show st.ticks + 1 + 2 * i - 1 = st.ticks + 2 + 2 * (i - 1) by omega]

/-- C89 fails for the durations of failed tests: here a test fails after 7 milliseconds, and the report says 0. -/
theorem C89_fails_duration : ∃ w : World, w.now 2 - w.now 1 = 7000000 ∧
    (registryAfter w [.add c!"S" c!"t" 0, .run]).out =
      b!"[==========] Running 1 tests from 1 test cases.\n[----------] Global test environment set-up.\n\n[----------] 1 tests from S\n[ RUN      ] S.t\n[     FAIL ] S.t (0 ms)\n[     INFO ] bad\n[----------] 1 tests from S (7 ms total)\n\n[----------] Global test environment tear-down\n[==========] 1 tests from 1 test cases ran. (7 ms total)\n[  FAILED  ] 1 test, listed below:\n[  FAILED  ] S.t\n\n1 FAILED TEST\n" :=
  ⟨⟨fun _ => { ends := .throwsStd b!"bad" }, fun i => if i ≤ 1 then 0 else 7000000⟩, by decide, by decide +kernel⟩

/-- C89 fails for repeated runs: the counters are not reset, so after two runs of one passing test the report says
that two tests passed. -/
theorem C89_fails_second_run : ∃ (w : World) (first : List UInt8),
    (registryAfter w [.add c!"S" c!"t" 0, .run, .run]).out = first ++
      b!"[==========] Running 1 tests from 1 test cases.\n[----------] Global test environment set-up.\n\n[----------] 1 tests from S\n[ RUN      ] S.t\n[       OK ] S.t (0 ms)\n[----------] 1 tests from S (0 ms total)\n\n[----------] Global test environment tear-down\n[==========] 1 tests from 1 test cases ran. (0 ms total)\n[  PASSED  ] 2 tests.\n\n0 FAILED TESTS\n" :=
  ⟨⟨fun _ => { ends := .returns }, fun _ => 0⟩,
    (registryAfter ⟨fun _ => { ends := .returns }, fun _ => 0⟩ [.add c!"S" c!"t" 0, .run]).out, by decide +kernel⟩

/-! ## C82 -/

/-- A map built by a history of insertions or assignments `map[k] = v`. -/
def mapAfter (lt : K → K → Bool) (h : List (K × V)) : List (K × V) :=
  h.foldl (fun m e => StdMap.upsert lt e.1 (fun _ => e.2) m) []

/-- C82. The keys and values of any map are those of its elements in iteration order: pairing them up gives the
elements back. -/
theorem C82_aligned (m : List (K × V)) :
    (StdMap.getMapKeys m).zip (StdMap.getMapValues m) = m ∧
    (StdMap.getMapKeys m).length = m.length ∧ (StdMap.getMapValues m).length = m.length := by
  rw [StdMap.getMapKeys_eq, StdMap.getMapValues_eq]
  refine ⟨?_, by simp, by simp⟩
  induction m with
  | nil => rfl
  | cons a m ih => simp [ih]

/-- C82. For a map built by any history of assignments, with any strict total order of keys, the keys are
strictly ascending, and a key and a value are at the same position exactly if the last
assignment to that key was that value. -/
theorem C82_ordered [DecidableEq K] (lt : K → K → Bool) (hlt : StrictTotal lt) (h : List (K × V)) :
    (StdMap.getMapKeys (mapAfter lt h)).Pairwise (fun a b => lt a b = true) ∧
    ∀ k, StdMap.lookup (mapAfter lt h) k = (h.reverse.find? fun e => e.1 = k).map (·.2) := by
  have gen : ∀ h : List (K × V), StdMap.Sorted lt (mapAfter lt h.reverse) ∧
      ∀ k, StdMap.lookup (mapAfter lt h.reverse) k = (h.find? fun e => e.1 = k).map (·.2) := by
    intro h
    induction h with
    | nil => exact ⟨List.Pairwise.nil, fun k => rfl⟩
    | cons e h ih =>
      have step : mapAfter lt (e :: h).reverse = StdMap.upsert lt e.1 (fun _ => e.2) (mapAfter lt h.reverse) := by
        simp [mapAfter, List.foldl_append]
      rw [step]
      refine ⟨StdMap.upsert_sorted hlt _ _ _ ih.1, fun k => ?_⟩
      rw [StdMap.lookup_upsert hlt _ _ _ ih.1, ih.2, List.find?_cons]
      by_cases hk : k = e.1
      · subst hk; simp
      · rw [if_neg hk, decide_eq_false (Ne.symm hk)]
  have := gen h.reverse
  rw [List.reverse_reverse] at this
  refine ⟨?_, this.2⟩
  rw [StdMap.getMapKeys_eq, List.pairwise_map]
  exact this.1

example : let lt : Nat → Nat → Bool := fun a b => decide (a < b)
    let m := mapAfter lt [(3, "c"), (1, "a"), (3, "d"), (2, "b")]
    StdMap.getMapKeys m = [1, 2, 3] ∧ StdMap.getMapValues m = ["a", "b", "d"] := by decide

end Caitlyn
