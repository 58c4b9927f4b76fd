import Verif.Model.Console
import Verif.Model.Format

/-!
# Programs that use the console (__Core/IO/Stream.h:28-261)

The state is the input not yet read and the sequence of what happened on the four streams. Arguments of formatted
output are given by their texts (as in `Model/Format.lean`). `std::cout << a << b` evaluates from left to right
(C++17), so a throwing `Format` writes nothing. Not modelled: stream errors other than the end of the input, the
interleaving with other threads, and values whose own conversion to text throws.
-/

namespace Caitlyn.Console

/-- `std::cout`, `std::cerr`, `std::clog`. -/
inductive Sink where
  | out | err | log
  deriving DecidableEq, Repr

/-- What happens on a stream. -/
inductive Event where
  | wrote (k : Sink) (bytes : List UInt8)
  | flushed (k : Sink)
  /-- `std::getline` took these bytes from the input -/
  | took (bytes : List UInt8)
  deriving DecidableEq, Repr

/-- The text of a message: given, or made by `String::Format` from a template and the texts of the arguments. -/
inductive Message where
  | plain (s : Str)
  | formatted (template : Str) (args : List Str)

/-- The `String` a message stands for (Stream.h:44-48, 88-92 and the like). -/
def Message.get : Message → Res Str
  | .plain s => .ok s
  | .formatted t args => Format.format t args

/-- A call. -/
inductive Call where
  /-- `Write(str)`, `Write(str, args...)` (Stream.h:65-68, 88-92; 132-135, 155-159; 199-202, 222-226) -/
  | write (k : Sink) (m : Message)
  /-- `Write(value)`, given what `to_string`, `str` or `ToString` of the value returns (Stream.h:70-86; 137-153; 204-220) -/
  | writeValue (k : Sink) (text : List UInt8)
  /-- `WriteLine()` (Stream.h:94-97, 161-164, 228-231) -/
  | newline (k : Sink)
  /-- `WriteLine(str)`, `WriteLine(str, args...)` (Stream.h:99-102, 122-126; 166-169, 189-193; 233-236, 256-260) -/
  | writeLine (k : Sink) (m : Message)
  /-- `WriteLine(value)` (Stream.h:104-120; 171-187; 238-254) -/
  | writeLineValue (k : Sink) (text : List UInt8)
  /-- `ReadLine(message)`, `ReadLine(str, args...)` (Stream.h:31-48) -/
  | readLine (m : Message)
  /-- `ReadChar(message)`, `ReadChar(str, args...)` (Stream.h:50-59) -/
  | readChar (m : Message)

/-- What a call returns. -/
inductive Reply where
  | none
  | line (s : Str)
  | char (c : Chr)
  deriving DecidableEq, Repr

/-- The console. -/
structure State where
  inp : List UInt8
  events : List Event := []
  deriving DecidableEq, Repr

/-- One insertion into a stream. -/
def State.put (st : State) (k : Sink) (bytes : List UInt8) : State :=
  { st with events := st.events ++ [.wrote k bytes] }

/-- `<< std::flush`. -/
def State.flush (st : State) (k : Sink) : State := { st with events := st.events ++ [.flushed k] }

/-- `ReadLine(message)` (Stream.h:31-42). -/
def readPrompt (st : State) (message : Str) : Res Str × State :=
  let st := if message.isEmpty then st else (st.put .out (Str.str message)).flush .out
  let (line, rest) := getline st.inp
  (Str.ofStdString line,
    { inp := rest, events := st.events ++ [.took (st.inp.take (st.inp.length - rest.length))] })

/-- A call. -/
def call (st : State) : Call → Res Reply × State
  | .write k m =>
    match m.get with
    | .ok s => (.ok .none, (st.put k (Str.str s)).flush k)
    | .error e => (.error e, st)
  | .writeValue k text => (.ok .none, (st.put k text).flush k)
  | .newline k => (.ok .none, (st.put k [0x0A]).flush k)
  | .writeLine k m =>
    match m.get with
    | .ok s => (.ok .none, ((st.put k (Str.str s)).put k [0x0A]).flush k)
    | .error e => (.error e, st)
  | .writeLineValue k text => (.ok .none, ((st.put k text).put k [0x0A]).flush k)
  | .readLine m =>
    match m.get with
    | .ok s =>
      let (r, st) := readPrompt st s
      (r.map .line, st)
    | .error e => (.error e, st)
  | .readChar m =>
    match m.get with
    | .ok s =>
      let (r, st) := readPrompt st s
      (r >>= fun line => (Str.index line 0).map .char, st)
    | .error e => (.error e, st)

/-- A program that catches every exception and goes on. After undefined behaviour nothing is said: the program ends. -/
def run : State → List Call → List (Res Reply) × State
  | st, [] => ([], st)
  | st, c :: cs =>
    let (r, st) := call st c
    if r = .error .ub then ([r], st)
    else
      let (rs, st) := run st cs
      (r :: rs, st)

end Caitlyn.Console
