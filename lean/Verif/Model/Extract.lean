import Verif.Model.Str

/-!
# Model of `operator>>(std::istream&, String&)` and `operator<<(std::ostream&, const String&)` (String.h:1011-1026)

An input stream is what is left of its text and two of its state bits. Not modelled: `badbit`, and streams that throw.
-/

namespace Caitlyn.Extract

/-- An input stream. -/
structure IStream where
  inp : List UInt8
  eof : Bool := false
  fail : Bool := false
  deriving DecidableEq

/-- `is.good()`. -/
def IStream.good (is : IStream) : Bool := !is.eof && !is.fail

/-- The test of a stream as a condition: `!is.fail()`. -/
def IStream.test (is : IStream) : Bool := !is.fail

/-- `std::getline(is, input)` on a good stream: takes the bytes up to a newline and the newline; at the end of the text it sets
`eofbit`, and `failbit` too if it has taken nothing. -/
def getline (is : IStream) : List UInt8 × IStream :=
  let line := is.inp.takeWhile (· != 0x0A)
  match is.inp.dropWhile (· != 0x0A) with
  | _ :: rest => (line, { is with inp := rest })
  | [] => (line, { inp := [], eof := true, fail := is.fail || line.isEmpty })

/-- `is >> str` (String.h:1011-1020): the stream, and the new value of `str` or an exception. -/
def extract (is : IStream) (str : Str) : IStream × Res Str :=
  if is.good then
    let (input, is) := getline is
    (is, Str.ofStdString input)
  else (is, .ok str)

/-- How far the loop `while (is >> str) visit(str);` gets in at most `n` evaluations of its condition: the strings visited and how
it ended, if it did. -/
def loop : Nat → IStream → Str → List Str × Option (Res Unit)
  | 0, _, _ => ([], none)
  | n + 1, is, str =>
    match extract is str with
    | (_, .error e) => ([], some (.error e))
    | (is, .ok str) =>
      if is.test then
        let (vs, e) := loop n is str
        (str :: vs, e)
      else ([], some (.ok ()))

/-- `os << str` (String.h:1022-1026); a stream is the bytes written. -/
def insert (os : List UInt8) (str : Str) : List UInt8 := os ++ Str.str str

end Caitlyn.Extract
