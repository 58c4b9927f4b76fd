import Verif.Lit
import Verif.Model.BigInt
import Verif.Model.StdMap

/-!
# Model of the test registry (__Testing/Types/TestRegistry.h)

Test functions are identified by a number. What happens outside the registry is given by a `World`: how the
`n`-th execution of a test function goes, and the `n`-th reading of the clock. Not modelled: tests that call
`RunAll` (those that call `AddTest` are in `Model/RegistryAdd`), and counters reaching `2^64`.
-/

namespace Caitlyn.Registry

/-- `TestCase` (TestCase.h:30-46). -/
structure TestCase where
  suite : Str
  name : Str
  func : Nat
  passed : Bool := false
  deriving DecidableEq

/-- How the execution of a test function ends. -/
inductive Outcome where
  | returns
  /-- throws an exception derived from `std::exception`; `what` are the bytes before the terminator of the array
  that `what()` points to -/
  | throwsStd (what : List UInt8)
  /-- throws anything else -/
  | throwsOther
  deriving DecidableEq

/-- One execution of a test function: what it writes to standard output, and how it ends. -/
structure Exec where
  printed : List UInt8 := []
  ends : Outcome

/-- The surroundings: executions, and readings of the monotonic clock in nanoseconds. -/
structure World where
  exec : Nat → Exec
  now : Nat → Nat

/-- The data members of `TestRegistry` (TestRegistry.h:185-195); `Instance()` (TestRegistry.h:41-45, 112-113) makes the only object.
The bytes written to standard output, the number of clock readings, and the list of the functions executed so far (suite, name,
number) are not part of the code. The time points are only used to compute the durations. -/
structure State where
  tests : List (Str × List TestCase) := []
  total : Nat := 0
  passed : Nat := 0
  failed : Nat := 0
  skipped : Nat := 0
  localDiff : Nat := 0
  globalDiff : Nat := 0
  out : List UInt8 := []
  ticks : Nat := 0
  log : List (Str × Str × Nat) := []

/-- `AddTest` (TestRegistry.h:47-51). -/
def addTest (suite name : Str) (func : Nat) (st : State) : State :=
  { st with
    tests := StdMap.upsert Str.lt suite (fun v => v.getD [] ++ [{ suite, name, func }]) st.tests
    total := st.total + 1 }

/-- Output of a number with `operator<<`. -/
def num (n : Nat) : List UInt8 := stdToString n

/-- The name of a test in the log: `test.suite_name << '.' << test.test_name`. -/
def fullName (t : TestCase) : List UInt8 := Str.str t.suite ++ b!"." ++ Str.str t.name

/-- `LogStart` (TestRegistry.h:116-120). -/
def logStart (st : State) : List UInt8 :=
  b!"[==========] Running " ++ num st.total ++ b!" tests from " ++ num st.tests.length ++ b!" test cases.\n" ++
  b!"[----------] Global test environment set-up.\n\n"

/-- `LogSuiteStart` (TestRegistry.h:122-125). -/
def logSuiteStart (suite : Str) (count : Nat) : List UInt8 :=
  b!"[----------] " ++ num count ++ b!" tests from " ++ Str.str suite ++ b!"\n"

/-- `LogTestStart` (TestRegistry.h:127-130). -/
def logTestStart (t : TestCase) : List UInt8 := b!"[ RUN      ] " ++ fullName t ++ b!"\n"

/-- `LogTestEnd` (TestRegistry.h:132-139). -/
def logTestEnd (t : TestCase) (duration : Nat) : List UInt8 :=
  if t.passed then b!"[       OK ] " ++ fullName t ++ b!" (" ++ num duration ++ b!" ms)\n" else []

/-- `LogTestFailure` (TestRegistry.h:141-146): the duration printed is the member `localDiff_`. -/
def logTestFailure (t : TestCase) (message : Str) (st : State) : List UInt8 :=
  b!"[     FAIL ] " ++ fullName t ++ b!" (" ++ num st.localDiff ++ b!" ms)\n" ++
  b!"[     INFO ] " ++ Str.str message ++ b!"\n"

/-- `LogSuiteEnd` (TestRegistry.h:148-152). -/
def logSuiteEnd (suite : Str) (count time : Nat) : List UInt8 :=
  b!"[----------] " ++ num count ++ b!" tests from " ++ Str.str suite ++ b!" (" ++ num time ++ b!" ms total)\n\n"

/-- `LogEnd` (TestRegistry.h:154-159). -/
def logEnd (st : State) : List UInt8 :=
  b!"[----------] Global test environment tear-down\n" ++
  b!"[==========] " ++ num st.total ++ b!" tests from " ++ num st.tests.length ++ b!" test cases ran. (" ++
  num st.globalDiff ++ b!" ms total)\n"

/-- The tests that `LogSummary` (TestRegistry.h:170-179) lists as failed, if `failed_` is positive. -/
def listedFailed (st : State) : List (Str × Str × Nat) :=
  if st.failed > 0 then
    st.tests.flatMap fun suite => (suite.2.filter fun t => !t.passed).map fun t => (t.suite, t.name, t.func)
  else []

/-- `LogSummary` (TestRegistry.h:161-182). -/
def logSummary (st : State) : List UInt8 :=
  (if st.passed > 0 then
    b!"[  PASSED  ] " ++ num st.passed ++ b!" test" ++ (if st.passed = 1 then [] else b!"s") ++ b!".\n" else []) ++
  (if st.failed > 0 then
    b!"[  FAILED  ] " ++ num st.failed ++ b!" test" ++ (if st.failed = 1 then [] else b!"s") ++ b!", listed below:\n" ++
    (listedFailed st).flatMap fun t => b!"[  FAILED  ] " ++ Str.str t.1 ++ b!"." ++ Str.str t.2.1 ++ b!"\n" else []) ++
  b!"\n" ++ num st.failed ++ b!" FAILED TEST" ++ (if st.failed = 1 then [] else b!"S") ++ b!"\n"

/-- Write to standard output. -/
def State.print (st : State) (bs : List UInt8) : State := { st with out := st.out ++ bs }

/-- A duration between two readings, in milliseconds (`duration_cast` truncates). -/
def millis (start stop : Nat) : Nat := (stop - start) / 1000000

/-- What follows the `try` statement in the inner loop (TestRegistry.h:88-93). -/
def endTest (w : World) (start : Nat) (st : State) (t : TestCase) : State × TestCase × Option Err :=
  let diff := millis start (w.now st.ticks)
  ({ st with ticks := st.ticks + 1, localDiff := diff }.print (logTestEnd t diff), t, none)

/-- One iteration of the inner loop of `RunAll` (TestRegistry.h:66-94). An exception thrown by a handler, in the
conversion of `what()` to `String`, leaves `RunAll`. -/
def runTest (w : World) (st : State) (t : TestCase) : State × TestCase × Option Err :=
  let st := st.print (logTestStart t)
  let start := w.now st.ticks
  let x := w.exec st.log.length
  let st := { st with ticks := st.ticks + 1, log := st.log ++ [(t.suite, t.name, t.func)] }.print x.printed
  match x.ends with
  | .returns => endTest w start { st with passed := st.passed + 1 } { t with passed := true }
  | .throwsStd what =>
    let t := { t with passed := false }
    match Str.ofCStr (what ++ [0]) with
    | .error e => (st, t, some e)
    | .ok m => endTest w start { st.print (logTestFailure t m st) with failed := st.failed + 1 } t
  | .throwsOther =>
    let t := { t with passed := false }
    endTest w start { st.print (logTestFailure t c!"Unknown error" st) with failed := st.failed + 1 } t

/-- The inner loop (TestRegistry.h:65-94); `time` is `suite_total_time`. -/
def runSuite (w : World) : State → Nat → List TestCase → State × Nat × List TestCase × Option Err
  | st, time, [] => (st, time, [], none)
  | st, time, t :: ts =>
    match runTest w st t with
    | (st, t, some e) => (st, time, t :: ts, some e)
    | (st, t, none) =>
      let (st, time, ts, e) := runSuite w st (time + st.localDiff) ts
      (st, time, t :: ts, e)

/-- The outer loop (TestRegistry.h:59-97). -/
def runSuites (w : World) : State → List (Str × List TestCase) → State × List (Str × List TestCase) × Option Err
  | st, [] => (st, [], none)
  | st, (s, ts) :: rest =>
    match runSuite w (st.print (logSuiteStart s ts.length)) 0 ts with
    | (st, _, ts, some e) => (st, (s, ts) :: rest, some e)
    | (st, time, ts, none) =>
      let (st, rest, e) := runSuites w (st.print (logSuiteEnd s ts.length time)) rest
      (st, (s, ts) :: rest, e)

/-- `RunAll` (TestRegistry.h:53-109): the new state, and the returned value or the exception that leaves it. -/
def runAll (w : World) (st : State) : State × Res Nat :=
  let st := st.print (logStart st)
  let start := w.now st.ticks
  let st := { st with ticks := st.ticks + 1 }
  match runSuites w st st.tests with
  | (st, tests, some e) => ({ st with tests }, .error e)
  | (st, tests, none) =>
    let st := { st with tests, globalDiff := millis start (w.now st.ticks), ticks := st.ticks + 1 }
    let st := st.print (logEnd st)
    let st := { st with skipped := wsub (wsub st.total st.passed) st.failed }
    (st.print (logSummary st), .ok (if st.failed ≠ 0 then 1 else 0))

end Caitlyn.Registry
