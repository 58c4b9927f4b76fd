import Verif.Model.Registry

/-!
# Model of tests that register tests (__Testing/Types/TestRegistry.h)

`Model/Registry` has tests that leave the registry alone. Here a test may call `AddTest` while `RunAll` runs it.
The outer loop of `RunAll` walks through a `std::map`, whose iterators stay valid when elements are inserted, so that it
visits every suite whose name is above that of the current one when it goes on. The inner loop walks through a
`std::vector` with iterators taken before its first round; inserting into that vector makes its end iterator, and in
general all its iterators, invalid, and the loop goes on with them. Not modelled: tests that call `RunAll`.
-/

namespace Caitlyn.Registry

/-- The surroundings, and the calls of `AddTest` (suite, name, function) made by the `n`-th execution of a test. -/
structure AddWorld extends World where
  adds : Nat → List (Str × Str × Nat)

/-- Several calls of `AddTest` (TestRegistry.h:47-51). -/
def addAll (st : State) (rs : List (Str × Str × Nat)) : State := rs.foldl (fun st r => addTest r.1 r.2.1 r.2.2 st) st

/-- The inner loop of `RunAll` (TestRegistry.h:65-94) over the tests of suite `s`. A test that adds to `s` itself makes the
next use of the loop's reference or iterators undefined (the reference only if the vector has no room left, which is not
specified). Simplification: the added tests are entered before the test is logged as
started; nothing looks at them in between. -/
def runSuiteA (w : AddWorld) (s : Str) : State → Nat → List TestCase → State × Nat × List TestCase × Option Err
  | st, time, [] => (st, time, [], none)
  | st, time, t :: ts =>
    let adds := w.adds st.log.length
    match runTest w.toWorld (addAll st adds) t with
    | (st, t, e) =>
      if adds.any (fun r => r.1 = s) then (st, time, t :: ts, some .ub)
      else
        match e with
        | some e => (st, time, t :: ts, some e)
        | none =>
          let (st, time, ts, e) := runSuiteA w s st (time + st.localDiff) ts
          (st, time, t :: ts, e)

/-- The tests of suite `s` have been changed through the references of the inner loop. -/
def putSuite (s : Str) (ts : List TestCase) (st : State) : State :=
  { st with tests := st.tests.map fun e => if e.1 = s then (s, ts) else e }

/-- The first suite of the map above the one visited last. -/
def nextSuite (last : Option Str) (m : List (Str × List TestCase)) : Option (Str × List TestCase) :=
  m.find? fun e => match last with
    | none => true
    | some k => Str.lt k e.1

/-- The outer loop (TestRegistry.h:59-97), going on after the suite `last`; the number bounds its rounds, which tests can
keep going for ever. -/
def runSuitesA (w : AddWorld) : Nat → State → Option Str → State × Option Err
  | 0, st, _ => (st, some .fuel)
  | n + 1, st, last =>
    match nextSuite last st.tests with
    | none => (st, none)
    | some (s, ts) =>
      match runSuiteA w s (st.print (logSuiteStart s ts.length)) 0 ts with
      | (st, _, ts, some e) => (putSuite s ts st, some e)
      | (st, time, ts, none) => runSuitesA w n ((putSuite s ts st).print (logSuiteEnd s ts.length time)) (some s)

/-- `RunAll` (TestRegistry.h:53-109). -/
def runAllA (w : AddWorld) (n : Nat) (st : State) : State × Res Nat :=
  let st := st.print (logStart st)
  let start := w.now st.ticks
  let st := { st with ticks := st.ticks + 1 }
  match runSuitesA w n st none with
  | (st, some e) => (st, .error e)
  | (st, none) =>
    let st := { st with globalDiff := millis start (w.now st.ticks), ticks := st.ticks + 1 }
    let st := st.print (logEnd st)
    let st := { st with skipped := wsub (wsub st.total st.passed) st.failed }
    (st.print (logSummary st), .ok (if st.failed ≠ 0 then 1 else 0))

end Caitlyn.Registry
