import Verif.Model.StrProg
import Verif.Model.CharUtil

/-!
# Specification of programs with `String`

A variable holds a text: a sequence of code points, with no bytes in sight. There are two meanings of a statement. The
*intended* one is what the names say. The *exact* one is what the library does; it differs in a few places, all in the
definition of `TextVars.step` below.
-/

namespace Caitlyn.Spec
open StrProg

/-- A text: its code points. -/
abbrev Points := List Nat

/-- The code points of a literal. -/
def points (cs : List Char) : Points := cs.map fun c => c.val.toNat

/-- The code units of a code point: UTF-8, also for the surrogates, which have no UTF-8 encoding. -/
def unitsOf (cp : Nat) : List UInt8 :=
  (if cp < 0x80 then [cp]
  else if cp < 0x800 then [0xC0 + cp / 64, 0x80 + cp % 64]
  else if cp < 0x10000 then [0xE0 + cp / 4096, 0x80 + cp / 64 % 64, 0x80 + cp % 64]
  else [0xF0 + cp / 262144, 0x80 + cp / 4096 % 64, 0x80 + cp / 64 % 64, 0x80 + cp % 64]).map UInt8.ofNat

/-- A code point that is not U+0000. -/
def IsPoint (cp : Nat) : Prop := 0 < cp ∧ cp < 0x110000

/-- `b` is at index `i` of `a`. -/
def isAt (a b : Points) (i : Nat) : Bool := decide (i ≤ a.length) && b.isPrefixOf (a.drop i)

/-- The first of the indices of `a`, the end included, for which `p`. -/
def firstIndex (a : Points) (p : Nat → Bool) : Option Nat := (List.range (a.length + 1)).find? p

/-- The last of them. -/
def lastIndex (a : Points) (p : Nat → Bool) : Option Nat := (List.range (a.length + 1)).reverse.find? p

/-- An index, or the largest number of the type for none. -/
def orNone : Option Nat → Nat
  | some i => i
  | none => 2 ^ 64 - 1

def Points.cmp : Cmp → Points → Points → Bool
  | .lt, a, b => decide (a < b)
  | .gt, a, b => decide (b < a)
  | .le, a, b => !decide (b < a)
  | .ge, a, b => !decide (a < b)
  | .eq, a, b => decide (a = b)
  | .ne, a, b => !decide (a = b)

/-- The variables. -/
abbrev TextVars := Nat → Points

def TextVars.set (w : TextVars) (x : Nat) (a : Points) : TextVars := fun y => if y = x then a else w y

/-- A change at an index, which must not be beyond the size. -/
def TextVars.change (w : TextVars) (ok : Prop) [Decidable ok] (x : Nat) (a : Points) : Option (Out × TextVars) :=
  some (if ok then (.done, w.set x a) else (.outOfRange, w))

/-- The intended meaning of a statement; `none` if its precondition is violated: `operator[]` beyond the last character
and `Find` from an index beyond the end. -/
def TextVars.intended (w : TextVars) : Stmt → Option (Out × TextVars)
  | .literal x cs => some (.done, w.set x (points cs))
  | .fill x n c => some (.done, w.set x (List.replicate n c.val.toNat))
  | .plus x y z => some (.done, w.set x (w y ++ w z))
  | .plusAssign x y => some (.done, w.set x (w x ++ w y))
  | .append x cs => some (.done, w.set x (w x ++ points cs))
  | .appendCount x n c => some (.done, w.set x (w x ++ List.replicate n c.val.toNat))
  | .push x c => some (.done, w.set x (w x ++ [c.val.toNat]))
  | .pushOf x y i => w.change (i < (w y).length) x (w x ++ ((w y).drop i).take 1)
  | .insert x pos y => w.change (pos ≤ (w x).length) x ((w x).take pos ++ w y ++ (w x).drop pos)
  | .insertLit x pos cs => w.change (pos ≤ (w x).length) x ((w x).take pos ++ points cs ++ (w x).drop pos)
  | .insertCount x pos n c =>
    w.change (pos ≤ (w x).length) x ((w x).take pos ++ List.replicate n c.val.toNat ++ (w x).drop pos)
  | .substring x y pos count => w.change (pos ≤ (w y).length) x (((w y).drop pos).take count)
  | .clear x => some (.done, w.set x [])
  | .copy x y => some (.done, w.set x (w y))
  | .move x y => some (.done, if x = y then w else (w.set x (w y)).set y [])
  | .setAt x i c => w.change (i < (w x).length) x ((w x).set i c.val.toNat)
  | .setIndex x i c => if i < (w x).length then some (.done, w.set x ((w x).set i c.val.toNat)) else none
  | .upper x y => some (.done, w.set x ((w y).map CharUtil.toUppercase))
  | .lower x y => some (.done, w.set x ((w y).map CharUtil.toLowercase))
  | .print x => some (.text ((w x).flatMap unitsOf), w)
  | .size x => some (.number (w x).length, w)
  | .byteCount x => some (.number ((w x).flatMap unitsOf).length, w)
  | .isEmpty x => some (.flag (decide (w x = [])), w)
  | .at' x i => some (if h : i < (w x).length then .number (w x)[i] else .outOfRange, w)
  | .index x i => if h : i < (w x).length then some (.number (w x)[i], w) else none
  | .compare op x y => some (.flag (Points.cmp op (w x) (w y)), w)
  | .compareLit op x cs => some (.flag (Points.cmp op (w x) (points cs)), w)
  | .startsWith x y => some (.flag (isAt (w x) (w y) 0), w)
  | .endsWith x y => some (.flag (decide ((w y).length ≤ (w x).length) && isAt (w x) (w y) ((w x).length - (w y).length)), w)
  | .contains x y => some (.flag (firstIndex (w x) (isAt (w x) (w y))).isSome, w)
  | .find x y pos =>
    if pos ≤ (w x).length then
      some (.number (orNone (firstIndex (w x) fun i => decide (pos ≤ i) && isAt (w x) (w y) i)), w)
    else none
  | .rfind x y pos =>
    some (.number (orNone (lastIndex (w x) fun i =>
      decide (i + (w y).length ≤ pos + 1) && isAt (w x) (w y) i)), w)

/-- The exact meaning: the intended one, except that

* a string cannot be appended to or inserted into itself,
* the empty string is not found at the end, hence not contained in the empty string,
* `ReverseFind` gives the index of the last character of the occurrence instead of the first, and for an empty needle
  the index `pos` or that of the last character. -/
def TextVars.step (w : TextVars) : Stmt → Option (Out × TextVars)
  | .plusAssign x y => if x = y then none else w.intended (.plusAssign x y)
  | .insert x pos y => if x = y ∧ pos ≤ (w x).length then none else w.intended (.insert x pos y)
  | .contains x y => if w x = [] ∧ w y = [] then some (.flag false, w) else w.intended (.contains x y)
  | .find x y pos =>
    if w y = [] ∧ pos = (w x).length then some (.number (2 ^ 64 - 1), w) else w.intended (.find x y pos)
  | .rfind x y pos =>
    if w y = [] then some (.number (if w x = [] then 2 ^ 64 - 1 else min pos ((w x).length - 1)), w)
    else some (.number (orNone ((lastIndex (w x) fun i =>
      decide (i + (w y).length ≤ pos + 1) && isAt (w x) (w y) i).map (· + (w y).length - 1))), w)
  | s => w.intended s

/-- A program with the exact meaning. -/
def TextVars.run : TextVars → List Stmt → Option (List Out × TextVars)
  | w, [] => some ([], w)
  | w, s :: p => do
    let (o, w) ← w.step s
    let (os, w) ← TextVars.run w p
    return (o :: os, w)

/-- A program with the intended meaning. -/
def TextVars.means : TextVars → List Stmt → Option (List Out × TextVars)
  | w, [] => some ([], w)
  | w, s :: p => do
    let (o, w) ← w.intended s
    let (os, w) ← TextVars.means w p
    return (o :: os, w)

/-- There is no U+0000 in a statement: in a literal it would be the terminator. -/
def StrNoNul : Stmt → Prop
  | .literal _ cs | .append _ cs | .insertLit _ _ cs | .compareLit _ _ cs => Spec.NoNul cs
  | .fill _ _ c | .appendCount _ _ c | .push _ c | .insertCount _ _ _ c | .setAt _ _ c | .setIndex _ _ c =>
    c ≠ Char.ofNat 0
  | _ => True

/-- `ReverseFind` is used on texts of less than 2^63 characters only. No machine has memory for more. -/
def TextVars.Room (w : TextVars) : Stmt → Prop
  | .rfind x _ _ => (w x).length < 2 ^ 63
  | _ => True

def TextVars.AllRoom : TextVars → List Stmt → Prop
  | _, [] => True
  | w, s :: p => w.Room s ∧ ∀ r, w.step s = some r → TextVars.AllRoom r.2 p

/-- The statement is none of those in which the library differs. -/
def TextVars.Plain (w : TextVars) : Stmt → Prop
  | .plusAssign x y => x ≠ y
  | .insert x pos y => x ≠ y ∨ (w x).length < pos
  | .contains x y => w x ≠ [] ∨ w y ≠ []
  | .find x y pos => w y ≠ [] ∨ pos ≠ (w x).length
  | .rfind _ y _ => (w y).length = 1
  | _ => True

def TextVars.AllPlain : TextVars → List Stmt → Prop
  | _, [] => True
  | w, s :: p => w.Plain s ∧ ∀ r, w.intended s = some r → TextVars.AllPlain r.2 p

end Caitlyn.Spec
