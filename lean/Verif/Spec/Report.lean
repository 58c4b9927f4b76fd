import Verif.Lit

/-!
# Reference: the report of a test run

The text of a report, given what it is about. Independent of the model of the registry.
-/

namespace Caitlyn.Spec

/-- The usual decimal notation of a number. -/
def decBytes (n : Nat) : List UInt8 := (Nat.toDigits 10 n).map fun c => UInt8.ofNat c.toNat

/-- What the report says about one test. -/
structure Shown where
  /-- suite and name -/
  name : List UInt8 × List UInt8
  /-- the test's own output -/
  printed : List UInt8
  /-- `none` if passed -/
  message : Option (List UInt8)
  ms : Nat

/-- Part of the report about one test. -/
def Shown.text (s : Shown) : List UInt8 :=
  let name := s.name.1 ++ b!"." ++ s.name.2
  b!"[ RUN      ] " ++ name ++ b!"\n" ++ s.printed ++
  match s.message with
  | none => b!"[       OK ] " ++ name ++ b!" (" ++ decBytes s.ms ++ b!" ms)\n"
  | some m => b!"[     FAIL ] " ++ name ++ b!" (" ++ decBytes s.ms ++ b!" ms)\n[     INFO ] " ++ m ++ b!"\n"

/-- What the report says about a suite. -/
structure ShownSuite where
  name : List UInt8
  tests : List Shown
  ms : Nat

/-- Part of the report about one suite. -/
def ShownSuite.text (s : ShownSuite) : List UInt8 :=
  let title := b!"[----------] " ++ decBytes s.tests.length ++ b!" tests from " ++ s.name
  title ++ b!"\n" ++ s.tests.flatMap Shown.text ++ title ++ b!" (" ++ decBytes s.ms ++ b!" ms total)\n\n"

/-- What a report says. -/
structure Report where
  total : Nat
  suites : List ShownSuite
  ms : Nat
  passed : Nat
  failed : Nat
  /-- the tests listed as failed -/
  listed : List (List UInt8 × List UInt8)

/-- Plural of a word that is singular for one. -/
def plural (n : Nat) (s : List UInt8) : List UInt8 := if n = 1 then [] else s

/-- The text of a report. -/
def Report.text (r : Report) : List UInt8 :=
  let count := decBytes r.total ++ b!" tests from " ++ decBytes r.suites.length ++ b!" test cases"
  b!"[==========] Running " ++ count ++ b!".\n[----------] Global test environment set-up.\n\n" ++
  r.suites.flatMap ShownSuite.text ++
  b!"[----------] Global test environment tear-down\n[==========] " ++ count ++ b!" ran. (" ++ decBytes r.ms ++
  b!" ms total)\n" ++
  (if r.passed = 0 then [] else b!"[  PASSED  ] " ++ decBytes r.passed ++ b!" test" ++ plural r.passed b!"s" ++ b!".\n") ++
  (if r.failed = 0 then [] else
    b!"[  FAILED  ] " ++ decBytes r.failed ++ b!" test" ++ plural r.failed b!"s" ++ b!", listed below:\n" ++
    r.listed.flatMap fun n => b!"[  FAILED  ] " ++ n.1 ++ b!"." ++ n.2 ++ b!"\n") ++
  b!"\n" ++ decBytes r.failed ++ b!" FAILED TEST" ++ plural r.failed b!"S" ++ b!"\n"

end Caitlyn.Spec
