import Verif.Model.JsonData

/-! # What printing a JSON value needs, for C167 -/

namespace Caitlyn.Spec.Print
open Caitlyn
variable {F : Type}

mutual
/-- How deep the values lie in each other: 1 for a value that is in no array or object and has no items and members. -/
def height : Json F → Nat
  | .arr js => 1 + heights js
  | .obj ms => 1 + heightsOf ms
  | _ => 1
def heights : List (Json F) → Nat
  | [] => 0
  | j :: js => max (height j) (heights js)
def heightsOf : List (Str × Json F) → Nat
  | [] => 0
  | (_, j) :: ms => max (height j) (heightsOf ms)
end

mutual
/-- The number of values in a value, with itself. -/
def count : Json F → Nat
  | .arr js => 1 + counts js
  | .obj ms => 1 + countsOf ms
  | _ => 1
def counts : List (Json F) → Nat
  | [] => 0
  | j :: js => count j + counts js
def countsOf : List (Str × Json F) → Nat
  | [] => 0
  | (_, j) :: ms => count j + countsOf ms
end

/-- The spaces in front of a closing bracket. -/
def closing (pretty : Bool) (base indent : Nat) : Nat := if pretty then indent - base else 0

mutual
/-- The greatest number of characters in strings of spaces that exist at a time: those of the value, and those of one of its parts or those in
front of the bracket. -/
def peak (pretty : Bool) (base indent : Nat) : Json F → Nat
  | .arr js => indent + max (peaks pretty base (indent + base) js) (closing pretty base indent)
  | .obj ms => indent + max (peaksOf pretty base (indent + base) ms) (closing pretty base indent)
  | _ => indent
def peaks (pretty : Bool) (base indent : Nat) : List (Json F) → Nat
  | [] => 0
  | j :: js => max (peak pretty base indent j) (peaks pretty base indent js)
def peaksOf (pretty : Bool) (base indent : Nat) : List (Str × Json F) → Nat
  | [] => 0
  | (_, j) :: ms => max (peak pretty base indent j) (peaksOf pretty base indent ms)
end

mutual
/-- The number of characters in all strings of spaces. -/
def made (pretty : Bool) (base indent : Nat) : Json F → Nat
  | .arr js => indent + mades pretty base (indent + base) js + closing pretty base indent
  | .obj ms => indent + madesOf pretty base (indent + base) ms + closing pretty base indent
  | _ => indent
def mades (pretty : Bool) (base indent : Nat) : List (Json F) → Nat
  | [] => 0
  | j :: js => made pretty base indent j + mades pretty base indent js
def madesOf (pretty : Bool) (base indent : Nat) : List (Str × Json F) → Nat
  | [] => 0
  | (_, j) :: ms => made pretty base indent j + madesOf pretty base indent ms
end

end Caitlyn.Spec.Print
