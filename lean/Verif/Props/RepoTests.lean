import Verif.Props.StrOps
import Verif.Props.Expected
import Verif.Props.JsonRead
import Verif.Props.JsonDoc
import Verif.Model.BigFloat
import Verif.Model.Assert
import Verif.Model.WriteArgs

/-!
# The project's own tests and the documented outputs, run on the model

Every assertion of the tests in /repo/test that is not empty is stated here about the model. This tests the model, not the code:
the tests pass on both. `JSON_STRING(...)` is the text of its arguments, in which white space between tokens is one space
(Serializing/Json/Defs.h:21). The tests of the other files are empty.

The second part are the programs of /repo/docs/usage with the output they are said to have; these outputs look copied from runs of
the code, down to the wrong product of two `BigFloat`s and the truncated decimal. One documented output is not what the
code prints: that of `WriteLine("escaped: {{text}}\n")`, see `C124_escaped_fails`.
-/

namespace Caitlyn.RepoTests
open Caitlyn

/-! ## test/Core/String/StringTest.cpp -/

def data : Str := c!"Hello, 世界! 🙂"

example : Str.substring data 7 2 = .ok c!"世界" := by decide +kernel
example : Str.startsWith data c!"Hello" = true := by decide +kernel
example : Str.endsWith data c!"🙂" = true := by decide +kernel
example : Str.contains data c!"世界" = true := by decide +kernel
example : Str.find data c!"世" 0 = .ok 7 := by decide +kernel
example : Str.find data c!"🙂" 0 = .ok 11 := by decide +kernel
example : Str.reverseFind data c!" " npos = .ok 10 := by decide +kernel
example : Str.size data = 12 := by decide +kernel
example : Str.byteCount data = 19 := by decide +kernel
example : Str.at' data 1 = .ok ⟨b!"e"⟩ := by decide +kernel
example : Str.at' data 9 = .ok ⟨b!"!"⟩ := by decide +kernel
example : Str.endsWith (data.map fun c => if c = ⟨b!"🙂"⟩ then ⟨b!"🍉"⟩ else c) c!"🍉" = true := by decide +kernel

/-! ## test/Core/Error -/

section
open Expected
abbrev R := Expected Int Str
def good (n : Int) : R := ofValue n
def bad : R := ofError c!"Error message"

/-- the result of a call without effects -/
def result (x : Eff Unit α) : Res α := (x.run ()).map Prod.fst

example : (result (andThen (fun v => pure (good (v * 2))) (good 42))).bind Expected.get = .ok 84 := by decide +kernel
example : (result (orElse (fun e => pure (good e.length)) bad)).bind Expected.get = .ok 13 := by decide +kernel
example : bad.hasError = true ∧ bad.getError = .ok c!"Error message" := by decide +kernel
example : (good 64).hasValue' = true ∧ (good 64).get = .ok 64 := by decide +kernel
example : result (fold 10 (fun acc v => pure (acc + v)) (good 42)) = .ok 52 := by decide +kernel
example : result (fold 10 (fun acc v => pure (acc + v)) bad) = .ok 10 := by decide +kernel
example : result (inspect (fun v => pure (v == 42)) (fun _ => pure false) (good 42)) = .ok true := by decide +kernel
example : result (inspect (fun _ => pure false) (fun e => pure (e == c!"Error message")) bad) = .ok true := by decide +kernel
example : (result (mapError (fun e => pure (Str.plus e c!" fixed")) bad)).bind Expected.getError = .ok c!"Error message fixed" := by
  decide +kernel
example : (result (map (fun v => pure (v + 1)) (good 42))).bind Expected.get = .ok 43 := by decide +kernel
example : ((onError (fun e => set (e == c!"Error message")) bad).run false).map Prod.snd = .ok true := by decide +kernel
example : (result (orElse (fun _ => pure (good 42)) bad)).bind Expected.get = .ok 42 := by decide +kernel
example : result (unwrapOrElse (fun _ => pure 42) bad) = .ok 42 := by decide +kernel
example : bad.unwrapOr 42 = .ok 42 := by decide +kernel
end

/-! ## test/Serializing/Json -/

section
open JsonDoc Json

def ops : FloatOps Unit := Spec.oneFloat

/-- `JSON_STRING(...)` -/
def jsonString (text : Str) : Res (JsonDoc Unit) := JsonDoc.parse ops text ⟨.null, .noError⟩

def text1 : Str := c!"{ \"name\": {\"first\": \"John\", \"last\": \"Doe\"}, \"age\": 30, \"address\": {\"street\": \"123 Main St\", \"city\": \"Anytown\", \"zip\": \"12345\"}, \"phone_numbers\": [\"555-1234\", \"555-5678\"] }"
def text2 : Str := c!"{ \"name\": \"John Doe\", \"age\": 30, \"array\": [], \"object\": {}, \"is_student\": false, \"address\": {\"street\": \"123 Main St\", \"city\": \"Anytown\", \"zip\": \"12345\"}, \"phone_numbers\": [\"555-1234\", \"555-5678\"], \"skills\": [\"C++\", \"Python\", \"JSON\"], \"education\": {\"highschool\": \"Anytown High School\", \"university\": {\"name\": \"State University\", \"graduation_year\": 2020}}, \"projects\": [ {\"title\": \"Project One\", \"description\": \"Description of Project One\"}, {\"title\": \"Project Two\", \"description\": \"Description of Project Two\"} ] }"

/-- InitTest.cpp, InitBracketOperator -/
def config : JsonDoc Unit :=
  (⟨.null, .noError⟩ : JsonDoc Unit)
  |>.modify ops c!"name" (fun _ => make ops .object)
  |>.modify ops c!"name" (modifyKey ops c!"first" (assignString c!"John"))
  |>.modify ops c!"name" (modifyKey ops c!"last" (assignString c!"Doe"))
  |>.modify ops c!"age" (assignInt 30)
  |>.modify ops c!"address" (fun _ => make ops .object)
  |>.modify ops c!"address" (modifyKey ops c!"street" (assignString c!"123 Main St"))
  |>.modify ops c!"address" (modifyKey ops c!"city" (assignString c!"Anytown"))
  |>.modify ops c!"address" (modifyKey ops c!"zip" (assignString c!"12345"))
  |>.modify ops c!"phone_numbers" (fun _ => makeArray ops [.str c!"555-1234", .str c!"555-5678"])

example : config.hasError = false := by decide +kernel
/-- The document built by hand prints like the one that is parsed from the text of InitNative, where no error is reported. -/
example : (jsonString text1).map hasError = .ok false := by decide +kernel
example : ((jsonString text1).bind fun d => d.toString ops false 2) = config.toString ops false 2 := by decide +kernel
/-- CorrectJsonTest.cpp -/
example : (jsonString text2).map hasError = .ok false := by decide +kernel
/-- IOOperatorTest.cpp: writing and reading gives the same text again. -/
example : ((jsonString text1).bind fun d => d.toString ops true 2) =
    ((jsonString text1).bind fun d => do (← jsonString (← d.toString ops true 2)).toString ops true 2) := by decide +kernel
/-- TrailingCommaTest.cpp, UnexpectedCharsTest.cpp -/
example : (jsonString c!"{\"key\" : \"value\",}").map hasError = .ok true := by decide +kernel
example : (jsonString c!"{\"key\": [1, 2, 3, 4, 5,]}").map hasError = .ok true := by decide +kernel
example : (jsonString c!"unexpected {\"name\": \"John Doe\", \"age\": 30}").map hasError = .ok true := by decide +kernel
example : (jsonString c!"{\"name\": \"John Doe\", \"age\": 30} unexpected").map hasError = .ok true := by decide +kernel
end

/-! ## docs/usage/unicode.md, formatting.md -/

section
open FormatArgs

def size (v : Nat) : Arg := .integral .ulong false v
def bool (b : Bool) : Arg := .integral .bool false (if b then 1 else 0)

example : format c!"{} {}" [.string c!"Hello, 世界!", .string c!"🙂"] = some (.ok data) := by decide +kernel
example : format c!"substring from index 7, length 2: {}" [.string c!"世界"] = some (.ok c!"substring from index 7, length 2: 世界") := by
  decide +kernel
example : format c!"starts with 'Hello'? {}" [bool (Str.startsWith data c!"Hello")] = some (.ok c!"starts with 'Hello'? true") := by
  decide +kernel
example : format c!"byte count: {}" [size (Str.byteCount data)] = some (.ok c!"byte count: 19") := by decide +kernel
example : data.map (fun c => if c = ⟨b!"🙂"⟩ then ⟨b!"🍉"⟩ else c) = c!"Hello, 世界! 🍉" := by decide +kernel

def hello : Arg := .string c!"Hello, world!"
example : format c!"l: '{:<25}'" [hello] = some (.ok c!"l: 'Hello, world!            '") := by decide +kernel
example : format c!"c: '{:^25}'" [hello] = some (.ok c!"c: '      Hello, world!      '") := by decide +kernel
example : format c!"r: '{:>25}'\n" [hello] = some (.ok c!"r: '            Hello, world!'\n") := by decide +kernel
/-- 64.932698 as a `double` -/
example : format c!"floating: {:.4f}" [.floating .double false (.finite false 4569232414327515 (-46))] =
    some (.ok c!"floating: 64.9326") := by decide +kernel
example : format c!"decimal:  {:d}\n" [.integral .long false 6427123266375693] = some (.ok c!"decimal:  6427123266375693\n") := by
  decide +kernel
example : format c!"line: {:-<24}" [.chars [0]] = some (.ok c!"line: ------------------------") := by decide +kernel
example : format c!"fill: {:*^24}\n" [.chars (b!"TEXT" ++ [0])] = some (.ok c!"fill: **********TEXT**********\n") := by decide +kernel
end

/-! ## docs/usage/numeric.md -/

example : (do
    let lhs ← BigInt.ofCStr (b!"47011878636176761032731633812398273982371829" ++ [0])
    let rhs ← BigInt.ofCStr (b!"10218827321893782973821793709217371273" ++ [0])
    return (← lhs.multiply rhs).toString : Res Str) =
    .ok c!"480406269860917721318957511814148894618259818296995209585410018969574705029068317" := by decide +kernel
/-- The documented output lacks the first decimal, which is a zero: the product is 1441.0642... -/
example : (do
    let lhs ← BigFloat.ofCStr (b!"182.81278920101871298728193797392737812737" ++ [0])
    let rhs ← BigFloat.ofCStr (b!"7.8827318902910380293782646543821795732418" ++ [0])
    return (← lhs.multiply rhs).toString : Res Str) =
    .ok c!"1441.64203387923303265813084431780163079588042340079866748019604087803446244208066" := by decide +kernel

/-! ## docs/usage/serializing.md -/

def compact : Str := c!"{\"name\":{\"first\":\"John\",\"last\":\"Doe\"},\"age\":30,\"address\":{\"street\":\"123 Main St\",\"city\":\"Anytown\",\"zip\":\"12345\"},\"phone_numbers\":[\"555-1234\",\"555-5678\"]}"
def pretty : Str := c!"{\n    \"name\": {\n        \"first\": \"John\",\n        \"last\": \"Doe\"\n    },\n    \"age\": 30,\n    \"address\": {\n        \"street\": \"123 Main St\",\n        \"city\": \"Anytown\",\n        \"zip\": \"12345\"\n    },\n    \"phone_numbers\": [\n        \"555-1234\",\n        \"555-5678\"\n    ]\n}"

example : config.toString ops false 2 = .ok compact := by decide +kernel
example : config.toString ops true 4 = .ok pretty := by decide +kernel
example : ((jsonString text1).bind fun d => d.toString ops true 4) = .ok pretty := by decide +kernel

/-! ## docs/usage/file.md -/

/-- `while (file) { WriteLine("{}", file.ReadLine()); }`: the lines written, and the file at the end -/
def lines : Nat → FileSys → Res (List Str)
  | 0, _ => .error .fuel
  | n + 1, f =>
    if File.isEof f then .ok []
    else
      match File.readLine f with
      | (.ok l, f) => (lines n f).map (l :: ·)
      | (.error e, _) => .error e

def somefile : List UInt8 := b!"Lorem ipsum dolor sit amet, consectetur adipiscing elit...\nHello, 世界!"

example : (WriteArgs.fileFormat false c!"{} {}\n{}"
      [.string c!"Lorem ipsum dolor sit amet,", .string c!"consectetur adipiscing elit...", .string c!"Hello, 世界!"]
      (File.makeFile true (some [])).2).map (fun r => (File.close r.2).disk) = some (some somefile) := by decide +kernel
example : lines 10 (File.makeFile true (some somefile)).2 =
    .ok [c!"Lorem ipsum dolor sit amet, consectetur adipiscing elit...", c!"Hello, 世界!"] := by decide +kernel

/-! ## docs/usage/testing.md: the times are those of the documented run -/

section
open Registry Testing

def show' (n : Int) : List UInt8 := stdToString n

/-- `ASSERT_EQ_PRINTABLE(2 + 2, 5)` -/
def failure : Flow Unit :=
  assertRel (fun (a b : Int) => a == b) b!"==" b!"!=" b!"2 + 2" b!"5" show' show' (fun s => (4, s)) (fun s => (5, s)) ()

def world : World := ⟨fun n => ⟨[], if n = 2 then (outcome failure).getD .returns else .returns⟩, fun n => n * 571429⟩

def registered : State :=
  addTest c!"MathFixture<int>" c!"TestFixtureAddition" 3
    (addTest c!"MathTests" c!"TestFailure" 2 (addTest c!"MathTests" c!"TestAddition" 1 {}))

example : (runAll world registered).1.out = b!"[==========] Running 3 tests from 2 test cases.\n[----------] Global test environment set-up.\n\n[----------] 1 tests from MathFixture<int>\n[ RUN      ] MathFixture<int>.TestFixtureAddition\n[       OK ] MathFixture<int>.TestFixtureAddition (0 ms)\n[----------] 1 tests from MathFixture<int> (0 ms total)\n\n[----------] 2 tests from MathTests\n[ RUN      ] MathTests.TestAddition\n[       OK ] MathTests.TestAddition (0 ms)\n[ RUN      ] MathTests.TestFailure\n[     FAIL ] MathTests.TestFailure (0 ms)\n[     INFO ] Assertion failed: 2 + 2 == 5 (4 != 5)\n[----------] 2 tests from MathTests (0 ms total)\n\n[----------] Global test environment tear-down\n[==========] 3 tests from 2 test cases ran. (4 ms total)\n[  PASSED  ] 2 tests.\n[  FAILED  ] 1 test, listed below:\n[  FAILED  ] MathTests.TestFailure\n\n1 FAILED TEST\n" := by
  decide +kernel
end

/-! ## docs/usage/io-operations.md -/

section
open Console

example : ((Console.run ⟨b!"example\n🙂\n", []⟩
    [.write .out (.plain c!"Some"), .writeLine .out (.plain c!"Other"), .writeLine .out (.plain c!"On new line"),
     .readLine (.plain c!"Input string: "), .writeLine .out (.formatted c!"stdin: {}" [c!"example"]),
     .readChar (.plain c!"Input char: ")]).1) =
    [.ok .none, .ok .none, .ok .none, .ok (.line c!"example"), .ok .none, .ok (.char ⟨b!"🙂"⟩)] := by decide +kernel
end

/-! ## docs/usage/utilities.md -/

def numbers : List (Nat × Str) := [(1, c!"One"), (2, c!"Two"), (3, c!"Three"), (4, c!"Four"), (5, c!"Five")]
example : StdMap.getMapKeys numbers = [1, 2, 3, 4, 5] := by decide +kernel
example : StdMap.getMapValues numbers = [c!"One", c!"Two", c!"Three", c!"Four", c!"Five"] := by decide +kernel

end Caitlyn.RepoTests
