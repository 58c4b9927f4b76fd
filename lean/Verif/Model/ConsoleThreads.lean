import Verif.Model.Console

/-!
# The console streams in several threads (__Core/IO/Stream.h, __Caitlyn/Application.h:110-117)

A call of `OutputStream`, `ErrorStream`, `LogStream` or `InputStream` is a sequence of operations on the standard streams
`std::cout`, `std::cerr`, `std::clog` and `std::cin`. `std::cerr` and `std::cin` are tied to `std::cout`
([narrow.stream.objects]): an operation on them flushes `std::cout` first. Threads run their calls, and lock and unlock mutexes,
in any order that the mutexes allow. An operation is taken to be one step, which is the best case: the standard allows the
characters of two operations to be mixed, too. Not modelled: starting and joining threads, stream errors, input.
-/

namespace Caitlyn.ConsoleThreads

/-- `OutputStream`, `ErrorStream`, `LogStream`. -/
inductive Sink where
  | out
  | err
  | log
  deriving DecidableEq

/-- The stream objects. -/
inductive Object where
  | sink (s : Sink)
  | cin
  deriving DecidableEq

/-- An operation on a stream. -/
inductive Op where
  /-- `<<` of a text -/
  | insert (s : Sink) (text : List UInt8)
  /-- `<< std::flush` -/
  | flush (s : Sink)
  /-- `std::getline(std::cin, ...)` -/
  | getline
  deriving DecidableEq

def Sink.objects : Sink → List Object
  | .out => [.sink .out]
  | .err => [.sink .err, .sink .out]
  | .log => [.sink .log]

/-- The stream objects that an operation uses. -/
def Op.objects : Op → List Object
  | .insert s _ | .flush s => s.objects
  | .getline => [.cin, .sink .out]

/-- A call of the library. -/
inductive Call where
  /-- `Write(str)` (Stream.h:65-68, 132-135, 199-202), and the other overloads, whose text is made before -/
  | write (s : Sink) (text : Str)
  /-- `WriteLine(str)` (Stream.h:99-102, 166-169, 233-236), and the other overloads -/
  | writeLine (s : Sink) (text : Str)
  /-- `WriteLine()` (Stream.h:94-97, 161-164, 228-231) -/
  | newLine (s : Sink)
  /-- `ReadLine(message)` (Stream.h:31-42), `ReadChar(message)` (50-53) -/
  | readLine (message : Str)

/-- The operations of a call. -/
def Call.ops : Call → List Op
  | .write s t => [.insert s (Str.str t), .flush s]
  | .writeLine s t => [.insert s (Str.str t), .insert s [0x0A], .flush s]
  | .newLine s => [.insert s [0x0A], .flush s]
  | .readLine m => if m = [] then [.getline] else [.insert .out (Str.str m), .flush .out, .getline]

/-- What a thread does. -/
inductive Act where
  | call (c : Call)
  | lock (m : Nat)
  | unlock (m : Nat)

/-- A step of a thread. -/
inductive Ev where
  | op (o : Op)
  | lock (m : Nat)
  | unlock (m : Nat)

/-- The steps of a thread. -/
def steps : List Act → List Ev
  | [] => []
  | .call c :: as => c.ops.map .op ++ steps as
  | .lock m :: as => .lock m :: steps as
  | .unlock m :: as => .unlock m :: steps as

/-- Who holds each mutex. -/
abbrev Holders := Nat → Option Nat

/-- Whether thread `t` can make the step: a mutex that is held by any thread cannot be locked, and only its holder unlocks it. -/
def Ev.Can (h : Holders) (t : Nat) : Ev → Prop
  | .op _ => True
  | .lock m => h m = none
  | .unlock m => h m = some t

def Ev.after (h : Holders) (t : Nat) : Ev → Holders
  | .op _ => h
  | .lock m => fun n => if n = m then some t else h n
  | .unlock m => fun n => if n = m then none else h n

/-- The threads, with the steps `rem t` left to thread `t`, run to their ends; the trace says which thread made which step. -/
inductive Runs : (Nat → List Ev) → Holders → List (Nat × Ev) → Prop where
  | done {rem h} : (∀ t, rem t = []) → Runs rem h []
  | step {rem h t e es tr} : rem t = e :: es → e.Can h t → Runs (fun u => if u = t then es else rem u) (e.after h t) tr →
      Runs rem h ((t, e) :: tr)

/-- A run of a program: thread `t` does `ps t`. -/
def Run (ps : Nat → List Act) (tr : List (Nat × Ev)) : Prop := Runs (fun t => steps (ps t)) (fun _ => none) tr

/-- What is written to a stream. -/
def written (s : Sink) : List (Nat × Ev) → List UInt8
  | [] => []
  | (_, .op (.insert s' b)) :: tr => if s' = s then b ++ written s tr else written s tr
  | _ :: tr => written s tr

end Caitlyn.ConsoleThreads
