import Verif.Model.Format

/-!
# Model of `include/Caitlyn/__Core/File/File.h`

A `File` owns a `std::fstream` opened with `in | out | app | binary` (File.h:63). The stream is modelled by its
position and state bits, with the rules of the C++ standard for sentries, seeking and the state
bits. In mode `app` every write goes to the end of the file, whatever the position. Every write of `File` is followed by
`flush`, and every read is preceded by a seek, so no buffered data is visible between calls.

Not modelled: failing disks (a write to a good stream succeeds), files changed by something that is not a `File` object of the
program, file names (all objects in a history name the same file), a null `const char*`.
-/

namespace Caitlyn

/-- The file on disk: its bytes, or `none` if opening it fails (no permission, no such directory, empty name). A missing
file that can be created is an empty one. -/
abbrev Disk := Option (List UInt8)

/-- A `File` object (File.h:451-453): state of `file_`, and `currentPosition_`. -/
structure FileObj where
  /-- `file_.is_open()` -/
  isOpen : Bool
  /-- the read position of `file_` -/
  pos : Nat
  /-- `eofbit` -/
  eof : Bool
  /-- `failbit` -/
  fail : Bool
  /-- `badbit` -/
  bad : Bool
  /-- `currentPosition_`; -1 is what a failing `tellg` returns -/
  cur : Int
  deriving DecidableEq, Repr

/-- The object a call works on, with the file. -/
structure FileSys extends FileObj where
  disk : Disk
  deriving DecidableEq, Repr

namespace File

/-- A default constructed stream: closed, all bits clear (File.h:452-453). -/
def fresh : FileObj := ⟨false, 0, false, false, false, 0⟩

/-! ### `std::fstream` -/

/-- The content of the file. -/
def bytes (s : FileSys) : List UInt8 := s.disk.getD []

/-- `good()`. -/
def good (s : FileSys) : Bool := !s.eof && !s.fail && !s.bad

/-- `fail()`: `failbit` or `badbit`. -/
def failed (s : FileSys) : Bool := s.fail || s.bad

/-- The constructor of an input sentry: `failbit` if the stream is not good. -/
def sentry (s : FileSys) : FileSys := if good s then s else { s with fail := true }

/-- `clear()`. -/
def clear (s : FileSys) : FileSys := { s with eof := false, fail := false, bad := false }

/-- `fstream::open`: `failbit` if the stream is open already or the file cannot be opened, else the bits are cleared. -/
def streamOpen (s : FileSys) : FileSys :=
  if s.isOpen then { s with fail := true }
  else match s.disk with
    | none => { s with fail := true }
    | some _ => { clear s with isOpen := true, pos := 0 }

/-- `fstream::close`: the bits stay. -/
def streamClose (s : FileSys) : FileSys := { s with isOpen := false }

/-- `seekg(off, ios::beg)`: clears `eofbit`; fails for a negative offset, and if no file is open. (The other stream functions
are only called while a file is open.) -/
def seekgBeg (s : FileSys) (off : Int) : FileSys :=
  let s := sentry { s with eof := false }
  if failed s then s
  else if off < 0 || !s.isOpen then { s with fail := true }
  else { s with pos := off.toNat }

/-- `seekg(0, ios::end)`. -/
def seekgEnd (s : FileSys) : FileSys :=
  let s := sentry { s with eof := false }
  if failed s then s else { s with pos := (bytes s).length }

/-- `seekp(0, ios::end)`. -/
def seekpEnd (s : FileSys) : FileSys := if failed s then s else { s with pos := (bytes s).length }

/-- `tellg()`. -/
def tellg (s : FileSys) : Int × FileSys :=
  let s := sentry s
  if failed s then (-1, s) else (s.pos, s)

/-- `get(ch)`: the byte read, if any. -/
def get (s : FileSys) : Option UInt8 × FileSys :=
  if good s then
    match (bytes s)[s.pos]? with
    | some b => (some b, { s with pos := s.pos + 1 })
    | none => (none, { s with eof := true, fail := true })
  else (none, { s with fail := true })

/-- `read(buffer, n)`: the bytes stored. -/
def read (s : FileSys) (n : Nat) : List UInt8 × FileSys :=
  if good s then
    let bs := ((bytes s).drop s.pos).take n
    if bs.length = n then (bs, { s with pos := s.pos + n })
    else (bs, { s with pos := s.pos + bs.length, eof := true, fail := true })
  else ([], { s with fail := true })

/-- `operator<<` of bytes, followed by `flush`: nothing is written if the stream is not good. -/
def put (s : FileSys) (bs : List UInt8) : FileSys :=
  if good s then { s with disk := s.disk.map (· ++ bs), pos := (bytes s).length + bs.length }
  else { s with fail := true }

/-! ### `class File` -/

/-- `Open` (File.h:57-68); the name is the text of `filename_` (File.h:445-448). -/
def openFile (s : FileSys) : Res Unit × FileSys :=
  let s := streamOpen s
  if s.isOpen then (.ok (), s) else (.error .runtimeError, s)

/-- `if (!file_.is_open()) { Open(); }` at the beginning of all reading and writing methods. -/
def ensureOpen (s : FileSys) : Res Unit × FileSys := if s.isOpen then (.ok (), s) else openFile s

/-- `Close` (File.h:70-76). -/
def close (s : FileSys) : FileSys := if s.isOpen then streamClose s else s

/-- `Erase` (File.h:78-88). `currentPosition_` stays. -/
def erase (s : FileSys) : Res Unit × FileSys :=
  let s := close s
  match s.disk with
  | none => (.error .runtimeError, s)
  | some _ => openFile { s with disk := some [] }

/-- `IsEof` (File.h:90-93); `operator bool` (95-98) is its negation. -/
def isEof (s : FileSys) : Bool := s.eof

/-- `SetPosition` (File.h:100-109). -/
def setPosition (s : FileSys) (p : Int) : Res Unit × FileSys :=
  let s := seekgBeg (clear { s with cur := p }) p
  if failed s then (.error .runtimeError, s) else (.ok (), s)

/-- `GetPosition` (File.h:111-114). -/
def getPosition (s : FileSys) : Int := s.cur

/-- `Read` (File.h:118-134). A negative size becomes a huge `size_t`, and the vector constructor throws. The buffer
has no terminator: `String(const char*)` is given exactly the bytes read. -/
def readAll (s : FileSys) : Res Str × FileSys :=
  match ensureOpen s with
  | (.error e, s) => (.error e, s)
  | (.ok _, s) =>
    let s := seekgEnd s
    let (size, s) := tellg s
    let s := seekgBeg s 0
    if size < 0 then (.error .memory, s)
    else
      let (buffer, s) := read s size.toNat
      if failed s then (.ok [], s) else (Str.ofCStr buffer, s)

/-- The loop of `ReadLine` (File.h:155-163): whether the delimiter was found, the bytes before it, and the stream. A round
consumes a byte or ends the loop. -/
def getLoop (delim : UInt8) : Nat → FileSys → Bool × List UInt8 × FileSys
  | 0, s => (false, [], s)
  | n + 1, s =>
    match get s with
    | (none, s) => (false, [], s)
    | (some b, s) =>
      if b = delim then (true, [], s)
      else
        let (found, bs, s) := getLoop delim n s
        (found, b :: bs, s)

/-- `ReadLine` (File.h:136-174). -/
def readLine (s : FileSys) (delim : UInt8 := 0x0A) : Res Str × FileSys :=
  match ensureOpen s with
  | (.error e, s) => (.error e, s)
  | (.ok _, s) =>
    if s.eof then (.ok [], s)
    else if failed s then (.error .runtimeError, s)
    else
      let s := seekgBeg (clear s) s.cur
      let (found, bs, s) := getLoop delim ((bytes s).length + 1) s
      if found || s.eof then
        let (p, s) := tellg s
        (Str.ofStdString bs, { s with cur := p })
      else if failed s then (.error .runtimeError, s)
      else (Str.ofStdString bs, s)

/-- The overloads of `Write` and `WriteLine` (File.h:176-302) after conversion of their argument to bytes; `WriteLine` adds a line
feed. -/
def write (s : FileSys) (data : List UInt8) : Res Unit × FileSys :=
  match ensureOpen s with
  | (.error e, s) => (.error e, s)
  | (.ok _, s) => (.ok (), put s data)

/-- The overloads of `Append` and `AppendLine` (File.h:304-442). -/
def append (s : FileSys) (data : List UInt8) : Res Unit × FileSys :=
  match ensureOpen s with
  | (.error e, s) => (.error e, s)
  | (.ok _, s) => (.ok (), put (seekpEnd s) data)

/-- What `Write(const String&)` and `Append(const String&)` write (String.h:1022-1026). -/
def text (s : Str) : List UInt8 := Str.str s

/-- What `WriteLine(const String&)` and `AppendLine(const String&)` write. -/
def line (s : Str) : List UInt8 := Str.str s ++ b!"\n"

/-- The constructors (File.h:34-49). -/
def create (d : Disk) : Res Unit × FileSys := openFile { fresh with disk := d }

/-- `File()` (File.h:32): no name, so that opening always throws. -/
def unnamed : FileSys := { fresh with disk := none }

/-- `MakeFile` and `_file` (File.h:456-466): the temporary is the result itself, or, where the compiler of C++11 does not elide
the copy, the result is a copy of it, which opens the file again, and the temporary is destroyed. -/
def makeFile (elided : Bool) (d : Disk) : Res Unit × FileSys :=
  match create d with
  | (.error e, s) => (.error e, s)
  | (.ok _, s) => if elided then (.ok (), s) else create (close s).disk

/-! ### Histories -/

/-- A call of a method of `File`. -/
inductive Op where
  | open | close | erase | isEof
  | setPosition (p : Int) | getPosition
  | read | readLine (delim : UInt8)
  | write (s : Str) | writeLine (s : Str) | append (s : Str) | appendLine (s : Str)
  deriving DecidableEq, Repr

/-- What a call returns. -/
inductive Out where
  | unit | bool (b : Bool) | pos (p : Int) | str (s : Str)
  deriving DecidableEq, Repr

/-- One call. -/
def step (s : FileSys) : Op → Res Out × FileSys
  | .open => let (r, s) := openFile s; (r.map fun _ => .unit, s)
  | .close => (.ok .unit, close s)
  | .erase => let (r, s) := erase s; (r.map fun _ => .unit, s)
  | .isEof => (.ok (.bool (isEof s)), s)
  | .setPosition p => let (r, s) := setPosition s p; (r.map fun _ => .unit, s)
  | .getPosition => (.ok (.pos (getPosition s)), s)
  | .read => let (r, s) := readAll s; (r.map .str, s)
  | .readLine d => let (r, s) := readLine s d; (r.map .str, s)
  | .write t => let (r, s) := write s (text t); (r.map fun _ => .unit, s)
  | .writeLine t => let (r, s) := write s (line t); (r.map fun _ => .unit, s)
  | .append t => let (r, s) := append s (text t); (r.map fun _ => .unit, s)
  | .appendLine t => let (r, s) := append s (line t); (r.map fun _ => .unit, s)

/-- A history of calls on one object; a program may catch the exceptions and go on. -/
def run (s : FileSys) : List Op → List (Res Out) × FileSys
  | [] => ([], s)
  | op :: ops =>
    let (r, s) := step s op
    let (rs, s) := run s ops
    (r :: rs, s)

/-- Several `File` objects for the same file. -/
structure World where
  disk : Disk
  objs : List FileObj

/-- A step of a program with several objects: a call on object `k`, a new object (the constructors, the copy constructor
File.h:46-49), or the end of object `k` (File.h:51-54). -/
inductive Act where
  | call (k : Nat) (op : Op)
  | new
  | delete (k : Nat)

/-- A step; calls on objects that do not exist do nothing. If a constructor throws there is no new object. -/
def act (w : World) : Act → World
  | .call k op =>
    match w.objs[k]? with
    | none => w
    | some o =>
      let (_, s) := step { o with disk := w.disk } op
      ⟨s.disk, w.objs.set k s.toFileObj⟩
  | .new =>
    match create w.disk with
    | (.ok _, s) => ⟨s.disk, w.objs ++ [s.toFileObj]⟩
    | (.error _, s) => ⟨s.disk, w.objs⟩
  | .delete k => ⟨w.disk, w.objs.eraseIdx k⟩

/-- A program. -/
def acts (w : World) (as : List Act) : World := as.foldl act w

example : (run { fresh with disk := some [] } [.writeLine c!"ab", .append c!"cd", .readLine 0x0A, .readLine 0x0A, .writeLine c!"x",
    .readLine 0x0A, .isEof]).1 = [.ok .unit, .ok .unit, .ok (.str c!"ab"), .ok (.str c!"cd"), .ok .unit, .ok (.str []),
      .ok (.bool true)] := by decide +kernel

end File
end Caitlyn
