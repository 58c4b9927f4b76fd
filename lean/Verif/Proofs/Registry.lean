import Verif.Model.Registry
import Verif.Proofs.StdMap
import Verif.Proofs.Str
import Verif.Spec.Report

/-! # Helper lemmas on the test registry -/

namespace Caitlyn.Registry

/-- What identifies a registered test. -/
def TestCase.key (t : TestCase) : Str × Str × Nat := (t.suite, t.name, t.func)

/-- All registered tests in iteration order. -/
def keys (m : List (Str × List TestCase)) : List (Str × Str × Nat) := m.flatMap fun e => e.2.map TestCase.key

/-- The error with which the `i`-th execution ends the run: its message cannot be converted. -/
def crashAt (w : World) (i : Nat) : Option Err :=
  match (w.exec i).ends with
  | .throwsStd what => match Str.ofCStr (what ++ [0]) with
    | .error e => some e
    | .ok _ => none
  | _ => none

/-- The `i`-th execution is counted as passed. -/
def rets (w : World) (i : Nat) : Bool := decide ((w.exec i).ends = .returns)

/-- The `i`-th execution is counted as failed. -/
def fails (w : World) (i : Nat) : Bool := !rets w i && (crashAt w i).isNone

/-- The error that ends a run of `len` tests from execution `n` on. -/
def crash (w : World) : Nat → Nat → Option Err
  | _, 0 => none
  | n, len + 1 => (crashAt w n).or (crash w (n + 1) len)

/-- The number of tests executed in such a run. -/
def ran (w : World) : Nat → Nat → Nat
  | _, 0 => 0
  | n, len + 1 => if (crashAt w n).isSome then 1 else ran w (n + 1) len + 1

theorem crash_add (w : World) : ∀ (a n b : Nat), crash w n (a + b) = (crash w n a).or (crash w (n + a) b)
  | 0, n, b => by simp [crash]
  | a + 1, n, b => by
    rw [show a + 1 + b = (a + b) + 1 by omega, crash, crash, crash_add w a, show n + 1 + a = n + (a + 1) by omega,
      Option.or_assoc]

theorem ran_add (w : World) : ∀ (a n b : Nat),
    ran w n (a + b) = if (crash w n a).isSome then ran w n a else a + ran w (n + a) b
  | 0, n, b => by simp [crash]
  | a + 1, n, b => by
    rw [show a + 1 + b = (a + b) + 1 by omega, ran, ran, crash, ran_add w a, show n + 1 + a = n + (a + 1) by omega]
    cases crashAt w n with
    | some e => simp
    | none =>
      simp only [Option.isSome_none, Option.none_or, Bool.false_eq_true, if_false]
      split
      · rfl
      · omega

theorem ran_eq (w : World) : ∀ (a n : Nat), crash w n a = none → ran w n a = a
  | 0, n, _ => rfl
  | a + 1, n, h => by
    rw [crash] at h
    cases e : crashAt w n with
    | some e' => rw [e] at h; cases h
    | none =>
      rw [e, Option.none_or] at h
      rw [ran, e]; simp [ran_eq w a _ h]

theorem ran_le (w : World) : ∀ (a n : Nat), ran w n a ≤ a
  | 0, n => Nat.le_refl 0
  | a + 1, n => by
    rw [ran]
    split
    · omega
    · have := ran_le w a (n + 1); omega

theorem crash_none_iff (w : World) : ∀ (a n : Nat), crash w n a = none ↔ ∀ i, i < a → crashAt w (n + i) = none
  | 0, n => by simp [crash]
  | a + 1, n => by
    rw [crash, Option.or_eq_none_iff, crash_none_iff w a]
    constructor
    · intro h i hi
      cases i with
      | zero => exact h.1
      | succ i => rw [show n + (i + 1) = n + 1 + i by omega]; exact h.2 i (by omega)
    · intro h
      refine ⟨h 0 (by omega), fun i hi => ?_⟩
      rw [show n + 1 + i = n + (i + 1) by omega]; exact h _ (by omega)

/-- The run stops at the first execution whose message cannot be converted. -/
theorem crash_first (w : World) : ∀ (k a n : Nat) (e : Err), k < a → (∀ i, i < k → crashAt w (n + i) = none) →
    crashAt w (n + k) = some e → crash w n a = some e ∧ ran w n a = k + 1
  | _, 0, _, _, h, _, _ => by omega
  | 0, a + 1, n, e, _, _, h => by
    rw [Nat.add_zero] at h
    rw [crash, ran, h]; simp
  | k + 1, a + 1, n, e, hk, h1, h2 => by
    have h0 : crashAt w n = none := h1 0 (by omega)
    have := crash_first w k a (n + 1) e (by omega) (fun i hi => by
      rw [show n + 1 + i = n + (i + 1) by omega]; exact h1 _ (by omega))
      (by rw [show n + 1 + k = n + (k + 1) by omega]; exact h2)
    rw [crash, ran, h0]
    simp [this]

/-- The counters agree with the executions so far. -/
structure Counts (w : World) (st : State) : Prop where
  passed : st.passed = (List.range st.log.length).countP (rets w)
  failed : st.failed = (List.range st.log.length).countP (fails w)

theorem Counts.step {w : World} {st : State} (h : Counts w st) {st' : State} {x : Str × Str × Nat}
    (h1 : st'.log = st.log ++ [x]) (h2 : st'.passed = st.passed + if rets w st.log.length then 1 else 0)
    (h3 : st'.failed = st.failed + if fails w st.log.length then 1 else 0) : Counts w st' := by
  constructor
  · rw [h2, h1, List.length_append, List.length_singleton, List.range_succ, List.countP_append, h.passed]
    simp [List.countP_cons]
  · rw [h3, h1, List.length_append, List.length_singleton, List.range_succ, List.countP_append, h.failed]
    simp [List.countP_cons]

/-- The tests that are shown, given the number of executions and clock readings before and the duration measured
last. -/
def shown (w : World) : Nat → Nat → Nat → List TestCase → List Spec.Shown
  | _, _, _, [] => []
  | n, k, last, t :: ts =>
    let own := millis (w.now k) (w.now (k + 1))
    { name := (Str.str t.suite, Str.str t.name), printed := (w.exec n).printed
      message := match (w.exec n).ends with
        | .returns => none
        | .throwsStd what => some (what.takeWhile (· != 0))
        | .throwsOther => some b!"Unknown error"
      ms := if rets w n then own else last } :: shown w (n + 1) (k + 2) own ts

/-- The duration measured last, after some tests. -/
def lastMs (w : World) : Nat → Nat → Nat → Nat
  | _, last, 0 => last
  | k, _, len + 1 => lastMs w (k + 2) (millis (w.now k) (w.now (k + 1))) len

/-- The sum of the durations of some tests. -/
def sumMs (w : World) : Nat → Nat → Nat
  | _, 0 => 0
  | k, len + 1 => millis (w.now k) (w.now (k + 1)) + sumMs w (k + 2) len

theorem num_eq (n : Nat) : num n = Spec.decBytes n := by
  show (Nat.repr n).toList.map _ = _
  simp [Spec.decBytes, Nat.repr]

theorem message_bytes (what : List UInt8) (m : Str) (h : Str.ofCStr (what ++ [0]) = .ok m) :
    Str.str m = what.takeWhile (· != 0) := by
  obtain ⟨h1, rest, h2⟩ := Str.decodeLoop_ok _ _ _ h
  rw [Str.str_shapes m h1]
  have hz : ∀ x ∈ (m.map Chr.data).flatten, (x != 0) = true := by
    intro x hx
    obtain ⟨p, hp, hx⟩ := List.mem_flatten.mp hx
    obtain ⟨c, hc, rfl⟩ := List.mem_map.mp hp
    have := Shape.no_zero (h1 c hc)
    simp only [bne_iff_ne, ne_eq]
    rintro rfl
    exact this hx
  have e := congrArg (List.takeWhile (· != 0)) h2
  rw [List.takeWhile_append_of_pos hz] at e
  have e0 : List.takeWhile (fun x : UInt8 => x != 0) (what ++ [0]) = what.takeWhile (· != 0) := by
    clear h2 e h hz h1
    induction what with
    | nil => rfl
    | cons a l ih =>
      simp only [List.cons_append, List.takeWhile_cons, ih]
  rw [e0] at e
  rw [e]
  simp

theorem runTest_facts (w : World) (st : State) (t : TestCase) :
    let r := runTest w st t
    r.1.tests = st.tests ∧ r.1.total = st.total ∧ r.1.log = st.log ++ [t.key] ∧ r.2.1.key = t.key ∧
    r.2.2 = crashAt w st.log.length ∧
    (r.2.1.passed = true ↔ (w.exec st.log.length).ends = .returns) ∧
    (Counts w st → Counts w r.1) ∧
    (crashAt w st.log.length = none →
      r.1.ticks = st.ticks + 2 ∧ r.1.localDiff = lastMs w st.ticks st.localDiff 1 ∧
      r.1.out = st.out ++ (shown w st.log.length st.ticks st.localDiff [t]).flatMap Spec.Shown.text) := by
  intro r
  cases hx : (w.exec st.log.length).ends with
  | returns =>
    have hc : crashAt w st.log.length = none := by simp [crashAt, hx]
    have hr : rets w st.log.length = true := by simp [rets, hx]
    have e : r = endTest w (w.now st.ticks)
        { { st.print (logTestStart t) with ticks := st.ticks + 1, log := st.log ++ [t.key] }.print
            (w.exec st.log.length).printed with passed := st.passed + 1 } { t with passed := true } := by
      simp only [r, runTest, State.print, hx, TestCase.key]
    rw [e, hc]
    refine ⟨rfl, rfl, rfl, rfl, rfl, by simp [endTest], fun h => h.step (x := t.key) rfl ?_ ?_, fun _ => ⟨rfl, rfl, ?_⟩⟩
    · simp [endTest, State.print, hr]
    · simp [endTest, State.print, fails, hr]
    · simp [endTest, State.print, shown, hr, hx, Spec.Shown.text, logTestEnd, logTestStart, fullName, num_eq]
  | throwsOther =>
    have hc : crashAt w st.log.length = none := by simp [crashAt, hx]
    have hr : rets w st.log.length = false := by simp [rets, hx]
    have hf : fails w st.log.length = true := by simp [fails, hr, hc]
    have e : r = endTest w (w.now st.ticks)
        { ({ st.print (logTestStart t) with ticks := st.ticks + 1, log := st.log ++ [t.key] }.print
            (w.exec st.log.length).printed).print (logTestFailure { t with passed := false } c!"Unknown error" st) with
          failed := st.failed + 1 } { t with passed := false } := by
      simp only [r, runTest, State.print, hx, TestCase.key, logTestFailure]
    rw [e, hc]
    refine ⟨rfl, rfl, rfl, rfl, rfl, by simp [endTest], fun h => h.step (x := t.key) rfl ?_ ?_, fun _ => ⟨rfl, rfl, ?_⟩⟩
    · simp [endTest, State.print, hr]
    · simp [endTest, State.print, hf]
    · simp [endTest, State.print, shown, hr, hx, Spec.Shown.text, logTestEnd, logTestStart, fullName, num_eq,
        logTestFailure]
      rfl
  | throwsStd what =>
    have hr : rets w st.log.length = false := by simp [rets, hx]
    cases hm : Str.ofCStr (what ++ [0]) with
    | error er =>
      have hc : crashAt w st.log.length = some er := by simp [crashAt, hx, hm]
      have hf : fails w st.log.length = false := by simp [fails, hc]
      have e : r = ({ st.print (logTestStart t) with ticks := st.ticks + 1, log := st.log ++ [t.key] }.print
            (w.exec st.log.length).printed, { t with passed := false }, some er) := by
        simp only [r, runTest, State.print, hx, hm, TestCase.key]
      rw [e, hc]
      refine ⟨rfl, rfl, rfl, rfl, rfl, by simp, fun h => h.step (x := t.key) rfl ?_ ?_, fun h => by cases h⟩
      · simp [State.print, hr]
      · simp [State.print, hf]
    | ok m =>
      have hc : crashAt w st.log.length = none := by simp [crashAt, hx, hm]
      have hf : fails w st.log.length = true := by simp [fails, hr, hc]
      have e : r = endTest w (w.now st.ticks)
          { ({ st.print (logTestStart t) with ticks := st.ticks + 1, log := st.log ++ [t.key] }.print
              (w.exec st.log.length).printed).print (logTestFailure { t with passed := false } m st) with
            failed := st.failed + 1 } { t with passed := false } := by
        simp only [r, runTest, State.print, hx, hm, TestCase.key, logTestFailure]
      rw [e, hc]
      refine ⟨rfl, rfl, rfl, rfl, rfl, by simp [endTest], fun h => h.step (x := t.key) rfl ?_ ?_, fun _ => ⟨rfl, rfl, ?_⟩⟩
      · simp [endTest, State.print, hr]
      · simp [endTest, State.print, hf]
      · simp [endTest, State.print, shown, hr, hx, Spec.Shown.text, logTestEnd, logTestStart, fullName, num_eq,
          logTestFailure, message_bytes what m hm]

theorem runSuite_facts (w : World) : ∀ (ts : List TestCase) (st : State) (time : Nat),
    let r := runSuite w st time ts
    r.1.tests = st.tests ∧ r.1.total = st.total ∧
    r.1.log = st.log ++ (ts.map TestCase.key).take (ran w st.log.length ts.length) ∧
    r.2.2.1.map TestCase.key = ts.map TestCase.key ∧
    r.2.2.2 = crash w st.log.length ts.length ∧
    (∀ i t, i < ran w st.log.length ts.length → r.2.2.1[i]? = some t →
      (t.passed = true ↔ (w.exec (st.log.length + i)).ends = .returns)) ∧
    (Counts w st → Counts w r.1) ∧
    (crash w st.log.length ts.length = none →
      r.1.ticks = st.ticks + 2 * ts.length ∧ r.1.localDiff = lastMs w st.ticks st.localDiff ts.length ∧
      r.2.1 = time + sumMs w st.ticks ts.length ∧
      r.1.out = st.out ++ (shown w st.log.length st.ticks st.localDiff ts).flatMap Spec.Shown.text)
  | [], st, time => by simp [runSuite, ran, crash, lastMs, sumMs, shown]
  | t :: ts, st, time => by
    obtain ⟨h1, h2, h3, h4, h5, h6, h7, h8⟩ := runTest_facts w st t
    have hlen : (runTest w st t).1.log.length = st.log.length + 1 := by rw [h3]; simp
    cases hr : runTest w st t with
    | mk st' r =>
    obtain ⟨t', oe⟩ := r
    rw [hr] at h1 h2 h3 h4 h5 h6 h7 h8 hlen
    dsimp only at h1 h2 h3 h4 h5 h6 h7 h8 hlen
    cases hc : crashAt w st.log.length with
    | some e =>
      rw [hc] at h5
      subst h5
      have er : runSuite w st time (t :: ts) = (st', time, t' :: ts, some e) := by rw [runSuite, hr]
      have hran : ran w st.log.length (t :: ts).length = 1 := by rw [List.length_cons, ran, hc]; rfl
      have hcr : crash w st.log.length (t :: ts).length = some e := by rw [List.length_cons, crash, hc]; rfl
      rw [er, hran, hcr]
      refine ⟨h1, h2, ?_, by simp [h4], rfl, ?_, h7, fun h => by cases h⟩
      · rw [h3]; simp
      · intro i u hi hu
        have : i = 0 := by omega
        subst this
        simp only [List.getElem?_cons_zero, Option.some.injEq] at hu
        subst hu; exact h6
    | none =>
      rw [hc] at h5
      subst h5
      obtain ⟨g1, g2, g3, g4, g5, g6, g7, g8⟩ := runSuite_facts w ts st' (time + st'.localDiff)
      have er : runSuite w st time (t :: ts) =
          ((runSuite w st' (time + st'.localDiff) ts).1, (runSuite w st' (time + st'.localDiff) ts).2.1,
            t' :: (runSuite w st' (time + st'.localDiff) ts).2.2.1, (runSuite w st' (time + st'.localDiff) ts).2.2.2) := by
        rw [runSuite, hr]
      have hran : ran w st.log.length (t :: ts).length = ran w st'.log.length ts.length + 1 := by
        rw [List.length_cons, ran, hc, hlen]; rfl
      have hcr : crash w st.log.length (t :: ts).length = crash w st'.log.length ts.length := by
        rw [List.length_cons, crash, hc, hlen]; rfl
      obtain ⟨k1, k2, k3⟩ := h8 hc
      rw [er, hran, hcr]
      refine ⟨g1.trans h1, g2.trans h2, ?_, ?_, g5, ?_, fun h => g7 (h7 h), fun h => ?_⟩
      · rw [g3, h3]; simp
      · simp [g4, h4]
      · intro i u hi hu
        cases i with
        | zero => simp only [List.getElem?_cons_zero, Option.some.injEq] at hu; subst hu; exact h6
        | succ i =>
          rw [List.getElem?_cons_succ] at hu
          rw [g6 i u (by omega) hu, hlen, show st.log.length + 1 + i = st.log.length + (i + 1) by omega]
      · obtain ⟨m1, m2, m3, m4⟩ := g8 h
        refine ⟨?_, ?_, ?_, ?_⟩
        · rw [m1, k1, List.length_cons]; omega
        · rw [m2, k1, k2]; rfl
        · rw [m3, k1, k2, List.length_cons, sumMs, lastMs, lastMs]; omega
        · rw [m4, k3, k1, k2, hlen, List.append_assoc, ← List.flatMap_append]; rfl

/-- The suites that are shown. -/
def shownSuites (w : World) : Nat → Nat → Nat → List (Str × List TestCase) → List Spec.ShownSuite
  | _, _, _, [] => []
  | n, k, last, (s, ts) :: m =>
    ⟨Str.str s, shown w n k last ts, sumMs w k ts.length⟩ ::
      shownSuites w (n + ts.length) (k + 2 * ts.length) (lastMs w k last ts.length) m

theorem shown_length (w : World) : ∀ (ts : List TestCase) (n k last : Nat), (shown w n k last ts).length = ts.length
  | [], _, _, _ => rfl
  | t :: ts, n, k, last => by simp [shown, shown_length w ts]

theorem suite_text (s : Str) (l : List Spec.Shown) (ms : Nat) :
    Spec.ShownSuite.text ⟨Str.str s, l, ms⟩ =
      logSuiteStart s l.length ++ l.flatMap Spec.Shown.text ++ logSuiteEnd s l.length ms := by
  simp only [Spec.ShownSuite.text, logSuiteStart, logSuiteEnd, num_eq, List.append_assoc]

theorem runSuites_facts (w : World) : ∀ (m : List (Str × List TestCase)) (st : State),
    let r := runSuites w st m
    r.1.tests = st.tests ∧ r.1.total = st.total ∧
    r.1.log = st.log ++ (keys m).take (ran w st.log.length (keys m).length) ∧
    r.2.1.map (fun e => (e.1, e.2.map TestCase.key)) = m.map (fun e => (e.1, e.2.map TestCase.key)) ∧
    r.2.2 = crash w st.log.length (keys m).length ∧
    (∀ i t, i < ran w st.log.length (keys m).length → (r.2.1.flatMap (·.2))[i]? = some t →
      (t.passed = true ↔ (w.exec (st.log.length + i)).ends = .returns)) ∧
    (Counts w st → Counts w r.1) ∧
    (crash w st.log.length (keys m).length = none →
      r.1.ticks = st.ticks + 2 * (keys m).length ∧
      r.1.out = st.out ++ (shownSuites w st.log.length st.ticks st.localDiff m).flatMap Spec.ShownSuite.text)
  | [], st => by simp [runSuites, keys, ran, crash, shownSuites]
  | (s, ts) :: m, st => by
    have hk : keys ((s, ts) :: m) = ts.map TestCase.key ++ keys m := rfl
    have hkl : (keys ((s, ts) :: m)).length = ts.length + (keys m).length := by rw [hk]; simp
    obtain ⟨h1, h2, h3, h4, h5, h6, h7, h8⟩ := runSuite_facts w ts (st.print (logSuiteStart s ts.length)) 0
    have hc0 : Counts w st → Counts w (st.print (logSuiteStart s ts.length)) := fun h => ⟨h.1, h.2⟩
    have hl0 : (st.print (logSuiteStart s ts.length)).log = st.log := rfl
    have ht0 : (st.print (logSuiteStart s ts.length)).ticks = st.ticks := rfl
    have hd0 : (st.print (logSuiteStart s ts.length)).localDiff = st.localDiff := rfl
    rw [hl0] at h3 h5 h6 h8
    rw [ht0, hd0] at h8
    cases hr : runSuite w (st.print (logSuiteStart s ts.length)) 0 ts with
    | mk st' r =>
    obtain ⟨time, ts', oe⟩ := r
    rw [hr] at h1 h2 h3 h4 h5 h6 h7 h8
    dsimp only at h1 h2 h3 h4 h5 h6 h7 h8
    have hl2 : ts'.length = ts.length := by
      have := congrArg List.length h4; simpa using this
    cases hc : crash w st.log.length ts.length with
    | some e =>
      rw [hc] at h5
      subst h5
      have er : runSuites w st ((s, ts) :: m) = (st', (s, ts') :: m, some e) := by rw [runSuites, hr]
      have hran : ran w st.log.length (keys ((s, ts) :: m)).length = ran w st.log.length ts.length := by
        rw [hkl, ran_add, hc]; rfl
      have hcr : crash w st.log.length (keys ((s, ts) :: m)).length = some e := by rw [hkl, crash_add, hc]; rfl
      rw [er, hran, hcr]
      have hle := ran_le w ts.length st.log.length
      refine ⟨h1, h2, ?_, by simp [h4], rfl, ?_, fun h => h7 (hc0 h), fun h => by cases h⟩
      · rw [h3, hk, List.take_append_of_le_length (by simpa using hle)]
      · intro i u hi hu
        dsimp only at hu
        rw [List.flatMap_cons, List.getElem?_append_left (by simp only [hl2]; omega)] at hu
        exact h6 i u hi hu
    | none =>
      rw [hc] at h5
      subst h5
      have hrn := ran_eq w _ _ hc
      rw [hrn, List.take_of_length_le (by simp)] at h3
      rw [hrn] at h6
      have hlen : st'.log.length = st.log.length + ts.length := by rw [h3]; simp
      have er : runSuites w st ((s, ts) :: m) =
          ((runSuites w (st'.print (logSuiteEnd s ts'.length time)) m).1,
            (s, ts') :: (runSuites w (st'.print (logSuiteEnd s ts'.length time)) m).2.1,
            (runSuites w (st'.print (logSuiteEnd s ts'.length time)) m).2.2) := by
        rw [runSuites, hr]
      obtain ⟨g1, g2, g3, g4, g5, g6, g7, g8⟩ := runSuites_facts w m (st'.print (logSuiteEnd s ts'.length time))
      have hl1 : (st'.print (logSuiteEnd s ts'.length time)).log = st'.log := rfl
      have ht1 : (st'.print (logSuiteEnd s ts'.length time)).ticks = st'.ticks := rfl
      have hd1 : (st'.print (logSuiteEnd s ts'.length time)).localDiff = st'.localDiff := rfl
      have hto1 : (st'.print (logSuiteEnd s ts'.length time)).total = st'.total := rfl
      have hte1 : (st'.print (logSuiteEnd s ts'.length time)).tests = st'.tests := rfl
      have hc1 : Counts w st' → Counts w (st'.print (logSuiteEnd s ts'.length time)) := fun h => ⟨h.1, h.2⟩
      have ho1 : (st'.print (logSuiteEnd s ts'.length time)).out = st'.out ++ logSuiteEnd s ts'.length time := rfl
      generalize st'.print (logSuiteEnd s ts'.length time) = st2 at *
      rw [hl1] at g3 g5 g6 g8
      rw [ht1, hd1] at g8
      have hran : ran w st.log.length (keys ((s, ts) :: m)).length = ts.length + ran w st'.log.length (keys m).length := by
        rw [hkl, ran_add, hc, hlen]; rfl
      have hcr : crash w st.log.length (keys ((s, ts) :: m)).length = crash w st'.log.length (keys m).length := by
        rw [hkl, crash_add, hc, hlen]; rfl
      rw [er, hran, hcr]
      refine ⟨(g1.trans hte1).trans h1, (g2.trans hto1).trans h2, ?_, by simp [g4, h4], g5, ?_,
        fun h => g7 (hc1 (h7 (hc0 h))), fun h => ?_⟩
      · rw [g3, h3, hk, List.append_assoc]
        have : ts.length = (ts.map TestCase.key).length := by simp
        rw [this, List.take_length_add_append]
      · intro i u hi hu
        dsimp only at hu
        rw [List.flatMap_cons] at hu
        by_cases hi' : i < ts.length
        · rw [List.getElem?_append_left (by simp only [hl2]; exact hi')] at hu
          exact h6 i u hi' hu
        · have hge := Nat.le_of_not_lt hi'
          rw [List.getElem?_append_right (by simp only [hl2]; exact hge)] at hu
          simp only [hl2] at hu
          rw [g6 _ u (Nat.sub_lt_left_of_lt_add hge hi) hu, hlen, Nat.add_assoc, Nat.add_sub_cancel' hge]
      · obtain ⟨k1, k2, k3, k4⟩ := h8 hc
        obtain ⟨m1, m2⟩ := g8 h
        refine ⟨?_, ?_⟩
        · rw [m1, k1, hkl, Nat.mul_add, Nat.add_assoc]
        · have e : Spec.ShownSuite.text ⟨Str.str s, shown w st.log.length st.ticks st.localDiff ts,
              sumMs w st.ticks ts.length⟩ = logSuiteStart s ts.length ++
                (shown w st.log.length st.ticks st.localDiff ts).flatMap Spec.Shown.text ++
                logSuiteEnd s ts'.length time := by
            rw [suite_text, shown_length, hl2, k3, Nat.zero_add]
          have e2 : st2.out = st.out ++
              Spec.ShownSuite.text ⟨Str.str s, shown w st.log.length st.ticks st.localDiff ts,
                sumMs w st.ticks ts.length⟩ := by
            rw [e, ho1, k4, State.print]
            simp only [List.append_assoc]
          rw [m2, hlen, k1, k2, shownSuites, List.flatMap_cons, e2, List.append_assoc]

/-! ### Grouping -/

/-- The map holds the registered tests, grouped. -/
structure Groups (regs : List (Str × Str × Nat)) (m : List (Str × List TestCase)) : Prop where
  sorted : StdMap.Sorted Str.lt m
  groups : ∀ s, (StdMap.lookup m s).map (·.map TestCase.key) =
    if regs.filter (fun r => r.1 = s) = [] then none else some (regs.filter fun r => r.1 = s)

theorem lookup_mapVals (f : List TestCase → β) (m : List (Str × List TestCase)) (s : Str) :
    StdMap.lookup (m.map fun e => (e.1, f e.2)) s = (StdMap.lookup m s).map f := by
  unfold StdMap.lookup
  induction m with
  | nil => rfl
  | cons e m ih =>
    simp only [List.map_cons, List.find?_cons]
    cases decide (e.1 = s)
    · exact ih
    · rfl

theorem sorted_mapVals (f : List TestCase → β) (m : List (Str × List TestCase)) :
    StdMap.Sorted Str.lt (m.map fun e => (e.1, f e.2)) ↔ StdMap.Sorted Str.lt m := by
  unfold StdMap.Sorted
  rw [List.pairwise_map]

theorem Groups.congr {regs : List (Str × Str × Nat)} {m m' : List (Str × List TestCase)}
    (h : Groups regs m) (e : m'.map (fun e => (e.1, e.2.map TestCase.key)) = m.map (fun e => (e.1, e.2.map TestCase.key))) :
    Groups regs m' := by
  constructor
  · rw [← sorted_mapVals (List.map TestCase.key), e, sorted_mapVals]; exact h.sorted
  · intro s
    rw [← lookup_mapVals (List.map TestCase.key), e, lookup_mapVals]; exact h.groups s

theorem Groups.nil : Groups [] [] := ⟨List.Pairwise.nil, fun s => by simp [StdMap.lookup]⟩

theorem Groups.add {regs : List (Str × Str × Nat)} {m : List (Str × List TestCase)} (h : Groups regs m)
    (s n : Str) (f : Nat) :
    Groups (regs ++ [(s, n, f)])
      (StdMap.upsert Str.lt s (fun v => v.getD [] ++ [{ suite := s, name := n, func := f }]) m) := by
  refine ⟨StdMap.upsert_sorted str_strictTotal _ _ _ h.sorted, fun j => ?_⟩
  rw [StdMap.lookup_upsert str_strictTotal _ _ _ h.sorted]
  have hg := h.groups
  by_cases hj : j = s
  · subst hj
    have := hg j
    rw [if_pos rfl, List.filter_append]
    cases e : StdMap.lookup m j with
    | none =>
      rw [e] at this
      have hn : regs.filter (fun r => r.1 = j) = [] := by
        apply Classical.byContradiction
        intro hn
        rw [if_neg hn] at this; cases this
      simp [hn, TestCase.key]
    | some v =>
      rw [e] at this
      by_cases hn : regs.filter (fun r => r.1 = j) = []
      · rw [if_pos hn] at this; cases this
      · rw [if_neg hn] at this
        simp only [Option.map_some, Option.some.injEq] at this
        simp [← this, TestCase.key]
  · have hnil : [(s, n, f)].filter (fun r => decide (r.1 = j)) = [] := by simp [Ne.symm hj]
    rw [if_neg hj, hg j, List.filter_append, hnil, List.append_nil]

theorem sorted_lookup {m : List (Str × List TestCase)} (h : StdMap.Sorted Str.lt m) :
    ∀ e ∈ m, StdMap.lookup m e.1 = some e.2 := by
  induction m with
  | nil => intro e he; cases he
  | cons a m ih =>
    obtain ⟨h1, h2⟩ := List.pairwise_cons.mp h
    intro e he
    rcases List.mem_cons.mp he with rfl | he
    · simp [StdMap.lookup]
    · have hne : a.1 ≠ e.1 := by
        intro hh
        have := h1 e he
        rw [hh, str_strictTotal.irrefl] at this; cases this
      have := ih h2 e he
      unfold StdMap.lookup at this ⊢
      rw [List.find?_cons, decide_eq_false hne]
      exact this

/-- The tests in iteration order: suites in ascending order, registration order inside. -/
theorem Groups.keys_eq {regs : List (Str × Str × Nat)} {m : List (Str × List TestCase)} (h : Groups regs m) :
    keys m = (m.map Prod.fst).flatMap fun s => regs.filter fun r => r.1 = s := by
  have hl := sorted_lookup h.sorted
  have hg := h.groups
  unfold keys
  rw [List.flatMap_map]
  have key : ∀ e ∈ m, e.2.map TestCase.key = regs.filter fun r => r.1 = e.1 := by
    intro e he
    have := hg e.1
    rw [hl e he] at this
    by_cases hn : regs.filter (fun r => r.1 = e.1) = []
    · rw [if_pos hn] at this; cases this
    · rw [if_neg hn] at this
      simpa using this
  clear hl hg h
  induction m with
  | nil => rfl
  | cons a m ih =>
    rw [List.flatMap_cons, List.flatMap_cons, key a (by simp), ih (fun e he => key e (by simp [he]))]

theorem Groups.suites {regs : List (Str × Str × Nat)} {m : List (Str × List TestCase)} (h : Groups regs m) (s : Str) :
    s ∈ m.map Prod.fst ↔ ∃ r ∈ regs, r.1 = s := by
  have hg := h.groups s
  have hfil : (∃ r ∈ regs, r.1 = s) ↔ regs.filter (fun r => r.1 = s) ≠ [] := by
    simp [List.filter_eq_nil_iff]
  rw [hfil]
  constructor
  · intro hm
    obtain ⟨e, he, rfl⟩ := List.mem_map.mp hm
    rw [sorted_lookup h.sorted e he] at hg
    intro hn
    rw [if_pos hn] at hg; cases hg
  · intro hn
    rw [if_neg hn] at hg
    cases e : StdMap.lookup m s with
    | none => rw [e] at hg; cases hg
    | some v =>
      unfold StdMap.lookup at e
      cases e' : m.find? (fun e => e.1 = s) with
      | none => rw [e'] at e; cases e
      | some p =>
        have hp := List.find?_some e'
        exact List.mem_map.mpr ⟨p, List.mem_of_find?_eq_some e', of_decide_eq_true hp⟩

theorem flatMap_filter_perm (regs : List (Str × Str × Nat)) (suites : List Str) (hn : suites.Nodup)
    (hc : ∀ r ∈ regs, r.1 ∈ suites) :
    (suites.flatMap fun s => regs.filter fun r => r.1 = s).Perm regs := by
  rw [List.perm_iff_count]
  intro x
  have key : ∀ ss : List Str, ss.Nodup →
      (ss.flatMap fun s => regs.filter fun r => r.1 = s).count x = if x.1 ∈ ss then regs.count x else 0 := by
    intro ss
    induction ss with
    | nil => intro _; simp
    | cons s ss ih =>
      intro hnd
      obtain ⟨h1, h2⟩ := List.nodup_cons.mp hnd
      rw [List.flatMap_cons, List.count_append, ih h2]
      by_cases hs : x.1 = s
      · subst hs
        rw [if_neg h1, if_pos (by simp), List.count_filter (by simp), Nat.add_zero]
      · have : (regs.filter fun r => r.1 = s).count x = 0 := by
          rw [List.count_eq_zero]
          intro hm
          exact hs (of_decide_eq_true (List.mem_filter.mp hm).2)
        rw [this, Nat.zero_add]
        by_cases hm : x.1 ∈ ss <;> simp [hm, hs]
  rw [key suites hn]
  by_cases hx : x ∈ regs
  · rw [if_pos (hc x hx)]
  · rw [List.count_eq_zero.mpr hx]; simp

end Caitlyn.Registry
