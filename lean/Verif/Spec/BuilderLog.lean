import Verif.Model.BuilderProg

/-! # What programs with string builders should do

A builder is described by the pieces of text that were written through it and the text it was copied from. The
specification knows nothing of streams and positions. `formatted` says what `String::Format` returns (see C28-C35). -/

namespace Caitlyn.Spec
open BuilderProg

/-- The life of one builder. -/
structure Life where
  /-- the text of the builder it was copied from -/
  base : List UInt8 := []
  /-- the pieces written since, in order -/
  pieces : List (List UInt8) := []
  /-- it was made from a null pointer: it takes nothing -/
  deaf : Bool := false

/-- The text: what was written lies over the beginning of what was copied. -/
def Life.text (l : Life) : List UInt8 := l.pieces.flatten ++ l.base.drop l.pieces.flatten.length

/-- One more piece. -/
def Life.add (l : Life) (s : List UInt8) : Life := if l.deaf then l else { l with pieces := l.pieces ++ [s] }

/-- The lives of the builders of a program, by name. -/
abbrev Lives := Nat → Option Life

/-- Replace one life. -/
def Lives.put (m : Lives) (d : Nat) (l : Option Life) : Lives := fun i => if i = d then l else m i

/-- The bytes of a formatted text, if there is no exception. -/
def formatted (s : Str) (args : List Str) : Option (List UInt8) :=
  match Format.format s args with
  | .ok t => some (Str.str t)
  | .error _ => none

/-- One step: a builder is changed only by statements that name it as their target, or move from it. -/
def lifeStep (m : Lives) : Step → Lives
  | .make d .empty => m.put d (some {})
  | .make d (.char c) => m.put d (some { pieces := [[c]] })
  | .make d (.cstr none) => m.put d (some { deaf := true })
  | .make d (.cstr (some mem)) => m.put d (some { pieces := [mem.takeWhile (· != 0)] })
  | .make d (.str s) => m.put d (some { pieces := [Str.str s] })
  | .make d (.format s args) => match formatted s args with
    | some t => m.put d (some { pieces := [t] })
    | none => m
  | .copy d e => match m e with
    | some l => m.put d (some { base := l.text })
    | none => m
  | .move d e => (m.put e none).put d (m e)
  | .append d s => m.put d ((m d).map (·.add (Str.str s)))
  | .appendLine d s => m.put d ((m d).map fun l => (l.add (Str.str s)).add [10])
  | .appendFormat d s args => match formatted s args with
    | some t => m.put d ((m d).map (·.add t))
    | none => m
  | .appendLineFormat d s args => match formatted s args with
    | some t => m.put d ((m d).map fun l => (l.add t).add [10])
    | none => m

/-- A program. -/
def livesRun (p : List Step) : Lives := p.foldl lifeStep fun _ => none

/-- The variables a step needs to exist. -/
def needs : Step → List Nat
  | .make _ _ => []
  | .copy _ e | .move _ e => [e]
  | .append d _ | .appendLine d _ | .appendFormat d _ _ | .appendLineFormat d _ _ => [d]

/-- A step that C++ gives a meaning to: the variables exist, pointers are NUL-terminated, the format is one that
`String::Format` can handle without undefined behaviour. -/
def Meaningful (m : Lives) (s : Step) : Prop :=
  (∀ d ∈ needs s, (m d).isSome) ∧
    match s with
    | .make _ (.cstr (some mem)) => 0 ∈ mem
    | .make _ (.format f args) | .appendFormat _ f args | .appendLineFormat _ f args =>
      Format.format f args ≠ .error .ub ∧ Format.format f args ≠ .error .fuel
    | _ => True

/-- A program, from the state `m` on, all of whose steps are meaningful. -/
def MeaningfulFrom (m : Lives) : List Step → Prop
  | [] => True
  | s :: p => Meaningful m s ∧ MeaningfulFrom (lifeStep m s) p

/-- A meaningful program. -/
def MeaningfulProg (p : List Step) : Prop := MeaningfulFrom (fun _ => none) p

end Caitlyn.Spec
