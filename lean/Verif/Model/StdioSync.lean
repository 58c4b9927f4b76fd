import Verif.Model.Console

/-!
# The streams of C and C++ after `std::ios::sync_with_stdio(false)` (__Caitlyn/Application.h:84, 110-117, 129)

The constructor of `Application` turns the synchronisation off, and `application_` is made in every program that includes a header of
the library. With synchronisation a character written to `std::cout` goes where `putchar` would put it, and one read from `std::cin`
comes from where `getchar` would take it ([ios.members.static]); without, `std::cout` and `std::cin` have buffers of their own. A
buffer for output may be emptied, in part, at any time: `full i` says how much of the two is written after the `i`-th action.
A buffer for input is filled with as much as the system gives: `amount i + 1` bytes at the `i`-th time, or all that is left.
Not modelled: wide streams, and I/O before the synchronisation is turned off, for which the standard leaves the effect to the
implementation.
-/

namespace Caitlyn.StdioSync

/-- What a program does with the standard output. -/
inductive Act where
  /-- `std::printf`, `std::puts`, ... -/
  | stdio (b : List UInt8)
  /-- `std::fflush(stdout)` -/
  | fflush
  /-- `std::cout << ...` -/
  | stream (b : List UInt8)
  /-- `std::cout << std::flush` -/
  | flush
  /-- `OutputStream::Write` and `WriteLine` (Stream.h:65-126), which flush -/
  | lib (b : List UInt8)
  deriving DecidableEq

/-- What has been written and what is in the buffers of `stdout` and `std::cout`. -/
structure State where
  out : List UInt8 := []
  cbuf : List UInt8 := []
  xbuf : List UInt8 := []
  deriving DecidableEq

/-- One action. -/
def write (sync : Bool) (s : State) : Act → State
  | .stdio b => { s with cbuf := s.cbuf ++ b }
  | .fflush => { s with out := s.out ++ s.cbuf, cbuf := [] }
  | .stream b => if sync then { s with cbuf := s.cbuf ++ b } else { s with xbuf := s.xbuf ++ b }
  | .flush => if sync then { s with out := s.out ++ s.cbuf, cbuf := [] } else { s with out := s.out ++ s.xbuf, xbuf := [] }
  | .lib b =>
    if sync then { s with out := s.out ++ s.cbuf ++ b, cbuf := [] } else { s with out := s.out ++ s.xbuf ++ b, xbuf := [] }

/-- Parts of the buffers are written. -/
def spill (k : Nat × Nat) (s : State) : State :=
  ⟨s.out ++ s.cbuf.take k.1 ++ s.xbuf.take k.2, s.cbuf.drop k.1, s.xbuf.drop k.2⟩

/-- The actions from the `i`-th on. -/
def run (sync : Bool) (full : Nat → Nat × Nat) : Nat → List Act → State → State
  | _, [], s => s
  | i, a :: as, s => run sync full (i + 1) as (spill (full i) (write sync s a))

/-- At the end of the program `std::cout` is flushed, then the streams of C are closed. -/
def output (sync : Bool) (full : Nat → Nat × Nat) (as : List Act) : List UInt8 :=
  (run sync full 0 as {}).out ++ (run sync full 0 as {}).xbuf ++ (run sync full 0 as {}).cbuf

/-- Who reads a line. -/
inductive Reader where
  /-- `std::fgets`, `std::getchar`, ... -/
  | stdio
  /-- `InputStream::ReadLine` (Stream.h:29-42) or `std::getline(std::cin, ...)` -/
  | lib
  deriving DecidableEq

/-- The input not yet read and the buffers of `stdin` and `std::cin`. -/
structure In where
  file : List UInt8
  cbuf : List UInt8 := []
  xbuf : List UInt8 := []
  fills : Nat := 0
  deriving DecidableEq

/-- A buffer is filled until it has a line or the input is at its end. -/
def fetch (amount : Nat → Nat) : Nat → List UInt8 → List UInt8 → Nat → List UInt8 × List UInt8 × Nat
  | 0, buf, file, i => (buf, file, i)
  | n + 1, buf, file, i =>
    if 0x0A ∈ buf ∨ file = [] then (buf, file, i)
    else fetch amount n (buf ++ file.take (amount i + 1)) (file.drop (amount i + 1)) (i + 1)

/-- A line is read. -/
def readLine (sync : Bool) (amount : Nat → Nat) (s : In) (r : Reader) : List UInt8 × In :=
  if sync ∨ r = .stdio then
    let (buf, file, i) := fetch amount s.file.length s.cbuf s.file s.fills
    let (line, rest) := Console.getline buf
    (line, { s with file := file, cbuf := rest, fills := i })
  else
    let (buf, file, i) := fetch amount s.file.length s.xbuf s.file s.fills
    let (line, rest) := Console.getline buf
    (line, { s with file := file, xbuf := rest, fills := i })

/-- The lines read by a program. -/
def readLines (sync : Bool) (amount : Nat → Nat) : List Reader → In → List (List UInt8)
  | [], _ => []
  | r :: rs, s => (readLine sync amount s r).1 :: readLines sync amount rs (readLine sync amount s r).2

end Caitlyn.StdioSync
