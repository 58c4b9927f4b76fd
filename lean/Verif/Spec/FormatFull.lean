import Verif.Spec.FormatSpec

/-!
# Specification: every template

How an arbitrary template is cut into items, what an arbitrary placeholder stands for, and the outcome of the
whole. Digits are those of all scripts the library knows (C107); numbers are read by the standard library, which
knows the ASCII digits only.
-/

namespace Caitlyn.Spec
open Caitlyn.Format (Alignment ValueType)

/-- A digit of some script. -/
def anyDigit (c : Chr) : Bool :=
  match c.getCodePoint with
  | .ok cp => CharUtil.isDigit cp
  | .error _ => false

/-- The number written by ASCII digits. -/
def numeral (ds : Str) : Nat := ds.foldl (fun n c => n * 10 + digitChrs.idxOf c) 0

/-- The number at the start of a text that starts with a digit: the ASCII digits count, one of them is required, and the number must
be below the limit. -/
def number (limit : Nat) (t : Str) : Res Nat :=
  let ds := t.takeWhile (· ∈ digitChrs)
  if ds = [] then .error .invalidArgument
  else if limit ≤ numeral ds then .error .outOfRange
  else .ok (numeral ds)

/-- An optional number, and the text after all the digits. -/
def numberPart (limit : Nat) (t : Str) : Res (Option Nat × Str) :=
  if t.takeWhile anyDigit = [] then .ok (none, t)
  else (number limit t).map fun n => (some n, t.dropWhile anyDigit)

/-- The side an alignment character selects. -/
def sideOf (c : Chr) : Option Alignment := [.left, .right, .center].find? fun a => sideChar a = c

/-- An optional alignment with an optional fill character before it, and the rest. -/
def alignmentPart (t : Str) : Option (Option Chr × Alignment) × Str :=
  match t[1]?.bind sideOf with
  | some a => (some (t[0]?, a), t.drop 2)
  | none =>
    match t[0]?.bind sideOf with
    | some a => (some (none, a), t.drop 1)
    | none => (none, t)

/-- The value type a letter stands for. -/
def typeOf (c : Chr) : Option ValueType :=
  [.string, .integral, .floating].find? fun t => FormatSpec.letter t = c

/-- An optional precision, and the rest. -/
def pointPart (t : Str) : Res (Option Nat × Str) :=
  if t.head? = some ⟨b!"."⟩ then numberPart (2 ^ 31) t.tail else .ok (none, t)

/-- The specification a text after the colon stands for; what follows the type is ignored. The empty text is read
beyond its end. -/
def specification (t : Str) : Res FormatSpec :=
  if t = [] then .error .ub
  else do
    let (width, r) ← numberPart (2 ^ 64) (alignmentPart t).2
    let (precision, r) ← pointPart r
    return ⟨(alignmentPart t).1, width, precision, r.head?.bind typeOf⟩

/-- A number with its fraction cut or filled up to `p` places; what follows the digits of the fraction is dropped, and a point
stays. -/
def withPlaces (p : Nat) (v : Str) : Str :=
  match v.dropWhile (· ≠ ⟨b!"."⟩) with
  | [] => if p = 0 then v else v ++ ⟨b!"."⟩ :: places p []
  | _ :: rest => v.takeWhile (· ≠ ⟨b!"."⟩) ++ ⟨b!"."⟩ :: places p (rest.takeWhile anyDigit)

/-- The text of a value before it is padded. -/
def valueText (s : FormatSpec) (v : Str) : Str :=
  if s.type = some .floating then withPlaces (s.precision.getD 0) v else v

/-- Argument `i`; the vector is not checked. -/
def argument (args : List Str) (i : Nat) : Res Str :=
  match args[i]? with
  | some a => .ok a
  | none => .error .ub

/-- Argument `i` formattedArg as the text after the colon says. -/
def formattedArg (args : List Str) (i : Nat) (t : Str) : Res Str := do
  let s ← specification t
  let a ← argument args i
  return s.padded (valueText s a)

/-- What the placeholder `{h}` stands for after `k` plain placeholders, and the new `k`. -/
def hole (args : List Str) (k : Nat) (h : Str) : Res (Str × Nat) :=
  let digits := h.takeWhile anyDigit
  let rest := h.dropWhile anyDigit
  if digits ≠ [] then
    match number (2 ^ 64) digits with
    | .error .outOfRange => .error .formatError
    | .error e => .error e
    | .ok i =>
      if args ≠ [] ∧ args.length ≤ i then .error .formatError
      else if rest = [] then (argument args i).map (·, k)
      else if rest.head? = some ⟨b!":"⟩ then (formattedArg args k rest.tail).map (·, k)
      else .ok ([], k)
  else if h.head? = some ⟨b!":"⟩ then (formattedArg args 0 h.tail).map (·, k)
  else if args.length = 0 then .error .formatError
  else if args.length = 1 then (argument args 0).map (·, k)
  else (argument args k).map (·, k + 1)

/-- An item of a template. -/
inductive Item where
  /-- a character other than a curly bracket -/
  | char (c : Chr)
  /-- `{{` or `}}` -/
  | bracket (c : Chr)
  /-- `{h}` -/
  | hole (h : Str)
  deriving DecidableEq

namespace Item

/-- How an item is typed. -/
def written : Item → Str
  | char c => [c]
  | bracket c => [c, c]
  | hole h => ⟨b!"{"⟩ :: (h ++ [⟨b!"}"⟩])

/-- The items there are. -/
def Proper : Item → Prop
  | char c => c ≠ ⟨b!"{"⟩ ∧ c ≠ ⟨b!"}"⟩
  | bracket c => c = ⟨b!"{"⟩ ∨ c = ⟨b!"}"⟩
  | hole h => h.head? ≠ some ⟨b!"{"⟩ ∧ ⟨b!"}"⟩ ∉ h

end Item

/-- What is left of a template after the items: nothing, or text from a bracket on that is neither doubled nor part of a pair. -/
def Leftover (t : Str) : Prop :=
  t = [] ∨ (∃ r, t = ⟨b!"{"⟩ :: r ∧ r.head? ≠ some ⟨b!"{"⟩ ∧ ⟨b!"}"⟩ ∉ r) ∨
    ∃ r, t = ⟨b!"}"⟩ :: r ∧ r.head? ≠ some ⟨b!"}"⟩

/-- What a template with these items and leftover text gives. -/
def outcome (args : List Str) (leftover : Str) : Nat → List Item → Res Str
  | _, [] => if leftover = [] then .ok [] else .error .formatError
  | k, .char c :: is => (outcome args leftover k is).map (c :: ·)
  | k, .bracket c :: is => (outcome args leftover k is).map (c :: ·)
  | k, .hole h :: is => do
    let (t, k) ← hole args k h
    let u ← outcome args leftover k is
    return t ++ u

end Caitlyn.Spec
