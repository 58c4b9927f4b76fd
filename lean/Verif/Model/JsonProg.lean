import Verif.Model.JsonDoc

/-!
# Programs with `JsonDocument` objects (Json.h:28-186, 191-225)

Variables are numbers. A step that throws leaves every document as it was (constructors: the variable does not come into
being; `Parse`: `error_` and `root_` are assigned after the parser has returned, Json.h:107-120) and the program goes
on; undefined behaviour ends it.
-/

namespace Caitlyn.JsonProg
open Caitlyn

/-- Where the text of a document comes from. -/
inductive Source where
  /-- a `String` -/
  | text (s : Str)
  /-- the bytes left in a stream (Json.h:122-127, 219-225): read into a `std::string`, converted to `String` -/
  | stream (bytes : List UInt8)

/-- The `String` given to the parser. -/
def Source.get : Source → Res Str
  | .text s => .ok s
  | .stream bytes => Str.ofStdString bytes

/-- A step of a program. -/
inductive Step (F : Type) where
  /-- `JsonDocument d;` (Json.h:36), `MakeDocument()` (191-194) -/
  | new (d : Nat)
  /-- construction from text (Json.h:38-46), `MakeDocument` (196-199, 211-214) -/
  | construct (d : Nat) (s : Source)
  /-- copy construction (Json.h:48-50) -/
  | copy (d e : Nat)
  /-- move construction (Json.h:52-56) -/
  | move (d e : Nat)
  /-- `Parse`, assignment from text, `>>` (Json.h:60-70, 107-127, 219-225) -/
  | parse (d : Nat) (s : Source)
  /-- copy assignment (Json.h:72-80) -/
  | assign (d e : Nat)
  /-- move assignment (Json.h:82-92) -/
  | assignMove (d e : Nat)
  /-- `AddMember` (Json.h:129-132) -/
  | add (d : Nat) (key : Str) (value : Json F)
  /-- `RemoveMember` (Json.h:134-147) -/
  | remove (d : Nat) (key : Str)

/-- The documents of a program. -/
abbrev State (F : Type) := Nat → Option (JsonDoc F)

/-- `d` now is `x`. -/
def State.set (st : State F) (d : Nat) (x : JsonDoc F) : State F := fun i => if i = d then some x else st i

/-- Use of a variable that does not exist is no program. -/
def State.get (st : State F) (d : Nat) : Res (JsonDoc F) :=
  match st d with
  | some x => .ok x
  | none => .error .ub

/-- A step on the variables. -/
def step (ops : FloatOps F) (st : State F) : Step F → Res (State F)
  | .new d => .ok (st.set d {})
  | .construct d s => do
    return st.set d (← JsonDoc.parse ops (← s.get) {})
  | .copy d e => do
    let x ← st.get e
    return st.set d ⟨x.root, x.err⟩
  | .move d e => do
    let x ← st.get e
    return (st.set d x.move.1).set e x.move.2
  | .parse d s => do
    let x ← st.get d
    return st.set d (← JsonDoc.parse ops (← s.get) x)
  | .assign d e => do
    let _ ← st.get d
    let y ← st.get e
    if d = e then return st
    return st.set d ⟨y.root, y.err⟩
  | .assignMove d e => do
    let _ ← st.get d
    let y ← st.get e
    if d = e then return st
    return (st.set d y.move.1).set e y.move.2
  | .add d key value => do return st.set d ((← st.get d).addMember ops key value)
  | .remove d key => do return st.set d ((← st.get d).removeMember key)

/-- A step of a program that catches exceptions. -/
def caught (ops : FloatOps F) (st : State F) (s : Step F) : Res (State F) :=
  match step ops st s with
  | .ok st' => .ok st'
  | .error .ub => .error .ub
  | .error .fuel => .error .fuel
  | .error _ => .ok st

/-- A program. -/
def run (ops : FloatOps F) : State F → List (Step F) → Res (State F)
  | st, [] => .ok st
  | st, s :: ss => do run ops (← caught ops st s) ss

end Caitlyn.JsonProg
