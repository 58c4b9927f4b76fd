import Verif.Model.Convert
import Verif.Model.Str

/-!
# Model of calls with counts, positions and indexes

Calls with several arguments, of which the first is a count, a position or an index: `String(n, c)`, `Append(n, c)`, `Insert(p, x)`,
`Insert(p, n, c)`, `json[i]`, `document[k]`. Overload resolution is that of Model/Convert, for several arguments ([over.match.best]): a
function is better if no argument takes a worse conversion and one a better, or if all are equal and the other is a template.
A `const char*` here is no `char*`.
-/

namespace Caitlyn.Counts
open Caitlyn Convert Traits

/-- A function: its parameters, and whether it is a template. -/
structure Candidate where
  params : List Param
  isTemplate : Bool := false
  deriving DecidableEq, Repr

/-- The conversions of the arguments; `none`: the function cannot be called with them. -/
def ranks : List Given → List Param → Option (List Rank)
  | [], [] => some []
  | g :: gs, p :: ps => do
    let r ← rank g p
    let rs ← ranks gs ps
    return r :: rs
  | _, _ => none

/-- Whether the first function is better. -/
def better (c d : Candidate × List Rank) : Bool :=
  ((c.2.zip d.2).all fun p => decide (p.1.order ≤ p.2.order)) &&
  (((c.2.zip d.2).any fun p => decide (p.1.order < p.2.order)) || (!c.1.isTemplate && d.1.isTemplate))

/-- The function that is better than all others. -/
def choose (cs : List (Candidate × List Rank)) : Option Candidate :=
  (cs.find? fun c => cs.all fun d => d == c || better c d).map (·.1)

/-- Whether a constructor converts each argument without doubt. -/
def clear : List Given → List Param → Bool
  | [], _ => true
  | _, [] => true
  | g :: gs, p :: ps =>
    (match standard g p, p with
      | none, .cls c => (pick (plain g (constructors c))).isSome
      | _, _ => true) && clear gs ps

/-- A call; `none`: it does not compile. -/
def resolve (gs : List Given) (cs : List Candidate) : Option Candidate := do
  let c ← choose (cs.filterMap fun c => (ranks gs c.params).map (c, ·))
  if clear gs c.params then return c else none

/-- The type to which a template parameter by value is deduced: the literal `0` is an `int`. -/
def deduced : Given → Given
  | .zero => .value .int
  | g => g

/-- `SizeType` (Types.h), `unsigned long`. -/
def sizeType : Param := .arith .ulong

/-- `String(n, c)` (String.h:83-108). The template for iterators fits two arguments of the same type, exactly, and its body does not
compile: `decode_utf8_char` is not declared, and the arguments here are nothing that `*` could be applied to, or point to `char`. -/
def construct (g h : Given) : Option Param :=
  let plain : List Candidate := [⟨[sizeType, .arith .char], false⟩, ⟨[sizeType, .cls .char], false⟩]
  let fits := plain.filterMap fun c => (ranks [g, h] c.params).map (c, ·)
  let all := if deduced g = deduced h then fits ++ [(⟨[], true⟩, [.exact, .exact])] else fits
  match choose all with
  | some c => if c.isTemplate || !clear [g, h] c.params then none else c.params[1]?
  | none => none

/-- `Append(n, c)` (String.h:280-298). -/
def append (g h : Given) : Option Param := (resolve [g, h] [⟨[sizeType, .cstr], false⟩, ⟨[sizeType, .cls .char], false⟩]).bind (·.params[1]?)

/-- `Insert(p, x)` (String.h:485-507). -/
def insert (g h : Given) : Option Param := (resolve [g, h] [⟨[sizeType, .cstr], false⟩, ⟨[sizeType, .cls .string], false⟩]).bind (·.params[1]?)

/-- `Insert(p, n, c)` (String.h:509-516). -/
def insertMany (g h k : Given) : Option Param := (resolve [g, h, k] [⟨[sizeType, sizeType, .cls .char], false⟩]).bind (·.params[2]?)

/-- `json[x]` and `json.At(x)` (JsonData.h:155-221): an index or a key. -/
def index (g : Given) : Option Param := (resolve [g] [⟨[.cls .string], false⟩, ⟨[sizeType], false⟩]).bind (·.params[0]?)

/-- `document[x]`, `HasMember(x)` and so on (Json.h:97-105, 128-158): a key. -/
def key (g : Given) : Option Param := (resolve [g] [⟨[.cls .string], false⟩]).bind (·.params[0]?)

/-- Whether an argument given for a parameter is read through a null pointer (String.h:57, 272, 285, 492). -/
def readsNull (g : Given) (p : Option Param) : Bool :=
  (g = .zero || g = .null) &&
  match p with
  | some .cstr => true
  | some (.cls c) => implicit c g == some .cstr
  | _ => false

/-! ## The values -/

/-- The number that a parameter of type `SizeType` has for an argument. -/
def toSize (v : Int) : Nat := (toInteger .ulong v).toNat

/-- The byte that a parameter of type `char` has. -/
def toByte (v : Int) : UInt8 := UInt8.ofNat (toInteger .uchar (toInteger .char v)).toNat

/-- No vector holds as many characters: a `Char` has 32 bytes. -/
def held (n : Nat) (s : Str) : Res Str := if 2 ^ 58 ≤ n then .error .memory else .ok s

/-- `String(n, c)` for a number `n` of type `b` and a number or character `v` of type `e` (String.h:83-97). A byte that is no
character is refused before the first one is stored. -/
def makeRepeated (b : Base) (n : Int) (e : Base) (v : Int) : Option (Res Str) :=
  match construct (.value b) (.value e) with
  | some (.arith .char) => some do
    let s ← Str.ofCountByte (min (toSize n) 1) (toByte v)
    let _ ← held (toSize n) s
    Str.ofCountByte (toSize n) (toByte v)
  | some (.cls .char) => (makeChar e v).map fun c => held (toSize n) (Str.ofCountChr (toSize n) c)
  | _ => none

/-- `s.Append(n, c)` (String.h:290-298). -/
def appendRepeated (s : Str) (b : Base) (n : Int) (e : Base) (v : Int) : Option (Res Str) :=
  match append (.value b) (.value e) with
  | some (.cls .char) => (makeChar e v).map fun c => held (toSize n) (Str.appendCount s (toSize n) c)
  | _ => none

/-- `s.Insert(p, n, c)` (String.h:509-516). -/
def insertRepeated (s : Str) (a : Base) (p : Int) (b : Base) (n : Int) (e : Base) (v : Int) : Option (Res Str) :=
  match insertMany (.value a) (.value b) (.value e) with
  | some (.cls .char) => (makeChar e v).map fun c => do
    let r ← Str.insertCount s (toSize p) (min (toSize n) 1) c
    let _ ← held (toSize n) r
    Str.insertCount s (toSize p) (toSize n) c
  | _ => none

end Caitlyn.Counts
