import Verif.Model.Str

/-!
# Model of the console streams (__Core/IO/Stream.h)

Standard input is the list of the bytes not yet read, standard output (error, log) the list of the bytes
written. Not modelled: prompts, flushing, stream errors other than the end of the input.
-/

namespace Caitlyn.Console

/-- `std::getline(std::cin, input)`: the bytes up to the next newline, which is consumed; at the end of the input
the line is empty. -/
def getline (inp : List UInt8) : List UInt8 × List UInt8 :=
  (inp.takeWhile (· != 0x0A), (inp.dropWhile (· != 0x0A)).drop 1)

/-- `InputStream::ReadLine()` (Stream.h:31-42): the line is consumed even if the conversion to `String` fails. -/
def readLine (inp : List UInt8) : Res Str × List UInt8 :=
  let (line, rest) := getline inp
  (Str.ofStdString line, rest)

/-- `InputStream::ReadChar()` (Stream.h:50-53): `ReadLine(message)[0]`. -/
def readChar (inp : List UInt8) : Res Chr × List UInt8 :=
  let (r, rest) := readLine inp
  (r >>= fun line => Str.index line 0, rest)

/-- `n` calls of `ReadLine`. -/
def readLines : Nat → List UInt8 → List (Res Str) × List UInt8
  | 0, inp => ([], inp)
  | n + 1, inp =>
    let (r, inp) := readLine inp
    let (rs, inp) := readLines n inp
    (r :: rs, inp)

/-- `OutputStream::Write(str)` (Stream.h:65-68), and the same of `ErrorStream` and `LogStream`. -/
def write (out : List UInt8) (s : Str) : List UInt8 := out ++ Str.str s

/-- `OutputStream::WriteLine(str)` (Stream.h:99-102), and the same of `ErrorStream` and `LogStream`. -/
def writeLine (out : List UInt8) (s : Str) : List UInt8 := out ++ Str.str s ++ [0x0A]

end Caitlyn.Console
