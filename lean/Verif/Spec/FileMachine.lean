import Verif.Model.File

/-!
# Specification of `File` as a machine

What a program sees of a `File` depends on four things: the content of the file, whether the object has it open, the position
where `ReadLine` goes on, and whether reading has met the end or has failed. There is no stream, no buffer and no position for
writing here.
-/

namespace Caitlyn.Spec.FileMachine
open File (Op Out)

/-- How the object is: nothing has gone wrong; the end has been met; something has failed. -/
inductive Mode where
  | good | ended | failed
  deriving DecidableEq, Repr

/-- The state. The content is `none` for a file that cannot be opened. -/
structure State where
  content : Option (List UInt8)
  isOpen : Bool
  mode : Mode
  /-- where `ReadLine` goes on -/
  next : Int
  deriving DecidableEq, Repr

/-- A call on an object that is not open opens the file, which forgets what went wrong; only the position stays. -/
def opened (s : State) (f : State → Res Out × State) : Res Out × State :=
  if s.isOpen then f s
  else
    match s.content with
    | none => (.error .runtimeError, { s with mode := if s.mode = .ended then .ended else .failed })
    | some _ => f { s with isOpen := true, mode := .good }

/-- What `Write` and `Append` do with the bytes: they are added to the file, and dropped silently if anything went wrong before. -/
def add (s : State) (bs : List UInt8) : Res Out × State :=
  opened s fun s => (.ok .unit, if s.mode = .good then { s with content := s.content.map (· ++ bs) } else s)

/-- The bytes from position `p` up to the delimiter, or to the end if there is none. -/
def upTo (d : UInt8) (p : Nat) (c : List UInt8) : List UInt8 := (c.drop p).takeWhile (· ≠ d)

/-- A call. -/
def step (s : State) : Op → Res Out × State
  | .open =>
    if s.isOpen then (.ok .unit, { s with mode := if s.mode = .ended then .ended else .failed })
    else opened s fun s => (.ok .unit, s)
  | .close => (.ok .unit, { s with isOpen := false })
  | .erase =>
    match s.content with
    | none => (.error .runtimeError, { s with isOpen := false })
    | some _ => (.ok .unit, { s with content := some [], isOpen := true, mode := .good })
  | .isEof => (.ok (.bool (s.mode = .ended)), s)
  | .setPosition p =>
    if s.isOpen ∧ 0 ≤ p then (.ok .unit, { s with mode := .good, next := p })
    else (.error .runtimeError, { s with mode := .failed, next := p })
  | .getPosition => (.ok (.pos s.next), s)
  | .read => opened s fun s =>
    if s.mode = .good then ((Str.ofCStr (s.content.getD [])).map .str, s) else (.error .memory, { s with mode := .failed })
  | .readLine d => opened s fun s =>
    match s.mode with
    | .ended => (.ok (.str []), s)
    | .failed => (.error .runtimeError, s)
    | .good =>
      if s.next < 0 then (.error .runtimeError, { s with mode := .failed })
      else
        let c := s.content.getD []
        let bs := upTo d s.next.toNat c
        ((Str.ofStdString bs).map .str,
          if d ∈ c.drop s.next.toNat then { s with next := s.next + bs.length + 1 }
          else { s with mode := .ended, next := -1 })
  | .write t => add s (File.text t)
  | .append t => add s (File.text t)
  | .writeLine t => add s (File.line t)
  | .appendLine t => add s (File.line t)

/-- A history of calls. -/
def run (s : State) : List Op → List (Res Out) × State
  | [] => ([], s)
  | op :: ops =>
    let (r, s) := step s op
    let (rs, s) := run s ops
    (r :: rs, s)

/-- Several objects of one file: the content, and of each object what is not the content. -/
structure Objects where
  content : Option (List UInt8)
  objs : List (Bool × Mode × Int)

/-- A step of a program: a call on object `k`, a new object, or the end of object `k`; nothing happens to the others. -/
def act (w : Objects) : File.Act → Objects
  | .call k op =>
    match w.objs[k]? with
    | none => w
    | some (isOpen, mode, next) =>
      let (_, s) := step ⟨w.content, isOpen, mode, next⟩ op
      ⟨s.content, w.objs.set k (s.isOpen, s.mode, s.next)⟩
  | .new =>
    match w.content with
    | none => w
    | some _ => ⟨w.content, w.objs ++ [(true, .good, 0)]⟩
  | .delete k => ⟨w.content, w.objs.eraseIdx k⟩

/-- A program. -/
def acts (w : Objects) (as : List File.Act) : Objects := as.foldl act w

end Caitlyn.Spec.FileMachine
