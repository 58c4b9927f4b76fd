import Verif.Model.JsonData

/-!
# One JSON value read in several threads (__Serializing/Json/Types/JsonData.h:156-347, Json.h:96-104, 149-182)

A query is a chain of lookups and a question at its end, as in `doc["a"][2].GetString()` or `doc.At("a").At(2).GetString()`. It
consists of steps, each of which uses the value in one or two places; the steps of several threads come in any order. What a step
reads and writes is that of the code: the members `type_` and `data_` of a node. There is no synchronization between the threads.
A node is given by the numbers of the items or members on the way to it. An exception ends a query; the thread catches it.
-/

namespace Caitlyn.JsonThreads
open Caitlyn

variable {F : Type}

/-- A lookup. -/
inductive Seek where
  /-- `operator[](key)`, and `At(key)` of a value that is not `const` (JsonData.h:156-171, 189-192) -/
  | key (k : Str)
  /-- `operator[](index)`, and `At(index)` of a value that is not `const` (JsonData.h:173-186, 209-212) -/
  | index (i : Nat)
  /-- `At(key) const` (JsonData.h:194-207) -/
  | atKey (k : Str)
  /-- `At(index) const` (JsonData.h:214-217) -/
  | atIndex (i : Nat)

/-- A question (JsonData.h:238-347). -/
inductive Last where
  | type
  | size
  | hasMember (k : Str)
  | getString
  | getIntegral
  | getFloating
  | getBoolean
  | print (pretty : Bool) (indent : Nat)

structure Query where
  path : List Seek
  last : Last

inductive Out (F : Type) where
  | type (c : JsonClass)
  | number (n : Nat)
  | flag (b : Bool)
  | text (s : Str)
  | int (i : Int)
  | float (f : F)
  | printed (r : Res Str)
  /-- `std::out_of_range` -/
  | outOfRange

/-- The answer to a question. -/
def Last.of (ops : FloatOps F) (j : Json F) : Last → Out F
  | .type => .type j.type
  | .size => .number j.size
  | .hasMember k => .flag (j.hasMember k)
  | .getString => .text j.getString
  | .getIntegral => .int j.getIntegral
  | .getFloating => .float (j.getFloating ops)
  | .getBoolean => .flag j.getBoolean
  | .print p n => .printed (j.toString ops p n)

/-- A step. -/
inductive Micro where
  /-- `SetType(JsonClass::Object)` (JsonData.h:562-595) -/
  | setObject
  /-- `SetType(JsonClass::Array)` -/
  | setArray
  /-- the search in `object_value`, and the new member if there is none -/
  | findKey (k : Str)
  /-- the element of `array_value` -/
  | findIndex (i : Nat)
  /-- the search of `At(key) const` -/
  | atKey (k : Str)
  | atIndex (i : Nat)
  | answer (l : Last)

def Seek.steps : Seek → List Micro
  | .key k => [.setObject, .findKey k]
  | .index i => [.setArray, .findIndex i]
  | .atKey k => [.atKey k]
  | .atIndex i => [.atIndex i]

def Query.steps (q : Query) : List Micro := q.path.flatMap Seek.steps ++ [.answer q.last]

/-- The node with the given way to it. -/
def node : Json F → List Nat → Option (Json F)
  | j, [] => some j
  | .arr js, i :: p => (js[i]?).bind fun j => node j p
  | .obj ms, i :: p => (ms[i]?).bind fun m => node m.2 p
  | _, _ :: _ => none

/-- The value with another node. -/
def replace (w : Json F) : Json F → List Nat → Json F
  | _, [] => w
  | .arr js, i :: p => match js[i]? with
    | some j => .arr (js.set i (replace w j p))
    | none => .arr js
  | .obj ms, i :: p => match ms[i]? with
    | some m => .obj (ms.set i (m.1, replace w m.2 p))
    | none => .obj ms
  | j, _ :: _ => j

/-- A thread: the node where it is, the steps it has still to do, the answers it got. -/
structure Thread (F : Type) where
  pos : List Nat := []
  todo : List Micro
  outs : List (Out F) := []

/-- The steps after the next question. -/
def afterAnswer : List Micro → List Micro
  | [] => []
  | .answer _ :: ms => ms
  | _ :: ms => afterAnswer ms

/-- The thread makes its next step: whether it writes, the value, and the thread after it. -/
def advance (ops : FloatOps F) (v : Json F) (th : Thread F) : Micro → List Micro → Res (Bool × Json F × Thread F)
  | m, rest =>
    match node v th.pos with
    | none => .error .ub
    | some n =>
      match m with
      | .setObject =>
        match n with
        | .obj _ => .ok (false, v, { th with todo := rest })
        | _ => .ok (true, replace (.obj []) v th.pos, { th with todo := rest })
      | .setArray =>
        match n with
        | .arr _ => .ok (false, v, { th with todo := rest })
        | _ => .ok (true, replace (.arr []) v th.pos, { th with todo := rest })
      | .findKey k =>
        match n with
        | .obj ms =>
          match ms.findIdx? (fun m => m.1 == k) with
          | some i => .ok (false, v, { th with todo := rest, pos := th.pos ++ [i] })
          | none => .ok (true, replace (.obj (ms ++ [(k, .null)])) v th.pos, { th with todo := rest, pos := th.pos ++ [ms.length] })
        | _ => .error .ub
      | .findIndex i =>
        match n with
        | .arr js => if i < js.length then .ok (false, v, { th with todo := rest, pos := th.pos ++ [i] }) else .error .ub
        | _ => .error .ub
      | .atKey k =>
        match n with
        | .obj ms =>
          match ms.findIdx? (fun m => m.1 == k) with
          | some i => .ok (false, v, { th with todo := rest, pos := th.pos ++ [i] })
          | none => .ok (false, v, { pos := [], todo := afterAnswer rest, outs := th.outs ++ [.outOfRange] })
        | _ => .error .ub
      | .atIndex i =>
        match n with
        | .arr js =>
          if i < js.length then .ok (false, v, { th with todo := rest, pos := th.pos ++ [i] })
          else .ok (false, v, { pos := [], todo := afterAnswer rest, outs := th.outs ++ [.outOfRange] })
        | _ => .error .ub
      | .answer l => .ok (false, v, { pos := [], todo := rest, outs := th.outs ++ [l.of ops n] })

/-- What happened: which thread made which step at which node, and whether it wrote. -/
structure Ev where
  thread : Nat
  step : Micro
  pos : List Nat
  wrote : Bool

/-- The value and the threads. -/
structure State (F : Type) where
  value : Json F
  threads : Nat → Thread F

/-- The threads run in some order, not necessarily to their ends. -/
inductive Runs (ops : FloatOps F) : State F → List Ev → State F → Prop where
  | nil {s} : Runs ops s [] s
  | step {s t m rest b v th tr s'} : (s.threads t).todo = m :: rest →
      advance ops s.value (s.threads t) m rest = .ok (b, v, th) →
      Runs ops ⟨v, fun u => if u = t then th else s.threads u⟩ tr s' →
      Runs ops s (⟨t, m, (s.threads t).pos, b⟩ :: tr) s'

/-- The beginning: every thread has its queries before it. -/
def start (v : Json F) (qs : Nat → List Query) : State F := ⟨v, fun t => { todo := (qs t).flatMap Query.steps }⟩

end Caitlyn.JsonThreads
