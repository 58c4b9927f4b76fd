import Verif.Model.Builder
import Verif.Model.Format

/-!
# Programs with `StringBuilder` objects (StringBuilder.h:25-114)

Variables are numbers. A step that throws leaves every builder as it was (`String::Format` returns before anything is
written, StringBuilder.h:51, 71, 82) and the program goes on; undefined behaviour ends it. A builder that was moved from
is in an unspecified state: its name is free again.
-/

namespace Caitlyn.BuilderProg
open Caitlyn

/-- A builder: its stream and the stream's `badbit`. -/
structure Obj where
  stream : OStr
  bad : Bool := false
  deriving DecidableEq

/-- `data_ << ...` (StringBuilder.h:35, 40, 45, 51, 65, 71, 76, 82): nothing is written to a stream that is not good. -/
def Obj.write (o : Obj) (s : List UInt8) : Obj := if o.bad then o else { o with stream := o.stream.write s }

/-- What a builder is made from. -/
inductive Source where
  /-- nothing (StringBuilder.h:31), `MakeText()` (95-98) -/
  | empty
  /-- a `char` (StringBuilder.h:33-36), `MakeText(c)` (100-103) -/
  | char (c : UInt8)
  /-- a `const char*` (StringBuilder.h:38-41): null or the memory readable from it -/
  | cstr (p : Option (List UInt8))
  /-- a `String` (StringBuilder.h:43-46), `MakeText(str)` (105-108) -/
  | str (s : Str)
  /-- a format and its arguments as text (StringBuilder.h:48-52), `MakeText(str, args...)` (110-114) -/
  | format (s : Str) (args : List Str)

/-- The constructors (StringBuilder.h:31-52). `os << (const char*)nullptr` sets `badbit`; a pointer is read up to NUL. -/
def make : Source → Res Obj
  | .empty => .ok ⟨OStr.empty, false⟩
  | .char c => .ok (Obj.write ⟨OStr.empty, false⟩ [c])
  | .cstr none => .ok ⟨OStr.empty, true⟩
  | .cstr (some mem) =>
    if (0 : UInt8) ∈ mem then .ok (Obj.write ⟨OStr.empty, false⟩ (mem.takeWhile (· != 0))) else .error .ub
  | .str s => .ok (Obj.write ⟨OStr.empty, false⟩ (Str.str s))
  | .format s args => do return Obj.write ⟨OStr.empty, false⟩ (Str.str (← Format.format s args))

/-- A step of a program. -/
inductive Step where
  /-- construction -/
  | make (d : Nat) (s : Source)
  /-- copy construction (StringBuilder.h:54-56) -/
  | copy (d e : Nat)
  /-- move construction (StringBuilder.h:58-60) -/
  | move (d e : Nat)
  /-- `Append(str)` (StringBuilder.h:63-66) -/
  | append (d : Nat) (s : Str)
  /-- `Append(str, args...)` (StringBuilder.h:68-72) -/
  | appendFormat (d : Nat) (s : Str) (args : List Str)
  /-- `AppendLine(str)` (StringBuilder.h:74-77) -/
  | appendLine (d : Nat) (s : Str)
  /-- `AppendLine(str, args...)` (StringBuilder.h:79-83) -/
  | appendLineFormat (d : Nat) (s : Str) (args : List Str)

/-- The builders of a program. -/
abbrev State := Nat → Option Obj

/-- `d` now is `x`. -/
def State.set (st : State) (d : Nat) (x : Option Obj) : State := fun i => if i = d then x else st i

/-- Use of a variable that does not exist is no program. -/
def State.get (st : State) (d : Nat) : Res Obj :=
  match st d with
  | some x => .ok x
  | none => .error .ub

/-- A step on the variables. The copy constructor copies `str()`, with a fresh stream that is good and whose put
position is 0; the move constructor takes the stream with its position and state. -/
def step (st : State) : Step → Res State
  | .make d s => do return st.set d (some (← make s))
  | .copy d e => do return st.set d (some ⟨OStr.ofString (← st.get e).stream.buf, false⟩)
  | .move d e => do
    let x ← st.get e
    return (st.set e none).set d (some x)
  | .append d s => do return st.set d (some ((← st.get d).write (Str.str s)))
  | .appendFormat d s args => do
    let x ← st.get d
    return st.set d (some (x.write (Str.str (← Format.format s args))))
  | .appendLine d s => do return st.set d (some (((← st.get d).write (Str.str s)).write b!"\n"))
  | .appendLineFormat d s args => do
    let x ← st.get d
    return st.set d (some ((x.write (Str.str (← Format.format s args))).write b!"\n"))

/-- A step of a program that catches exceptions. -/
def caught (st : State) (s : Step) : Res State :=
  match step st s with
  | .ok st' => .ok st'
  | .error .ub => .error .ub
  | .error .fuel => .error .fuel
  | .error _ => .ok st

/-- A program. -/
def run : State → List Step → Res State
  | st, [] => .ok st
  | st, s :: ss => do run (← caught st s) ss

/-- `str()` (StringBuilder.h:86-89). -/
def str (st : State) (d : Nat) : Res Str := do Str.ofStdString (← st.get d).stream.buf

end Caitlyn.BuilderProg
