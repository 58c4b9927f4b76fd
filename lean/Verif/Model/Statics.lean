import Verif.Model.JsonParser

/-!
# Model of the objects that functions of the library keep for the whole program

Some functions have a table as a local variable that is `static` (Char/Utility.h:30-56, 139-143, 254-259, 384-389, 459-463), and so has
`TestRegistry::Instance` (TestRegistry.h:41-45). Such an object is made when the function is called for the first time, and it is
destroyed at the end of the program: after `main` all objects of static storage are destroyed in the reverse order in which their
construction was completed ([basic.start.term]). A call that reaches the declaration of a destroyed object is undefined.

The other objects of static storage are those of users: variables outside of functions, in the order in which the program happens to make
them, and `static` ones in functions. Left out: several threads; destructors of users that make further `static` objects of users; the
pointers of Application.h:129-130, which have no destructor.
-/

namespace Caitlyn.Statics
open Caitlyn
variable {F : Type}

/-- The `static` objects: `SpaceCodepoints` (Char/Utility.h:30), `SpecialCaseUpper` (139), `SpecialCaseLower` (254), `SpecialUppercase` (384),
`SpecialLowercase` (459), `instance` (TestRegistry.h:43). -/
inductive Table where
  | space | toUpper | toLower | isUpper | isLower | registry
  deriving DecidableEq, Repr

inductive Status where
  | fresh | alive | dead
  deriving DecidableEq, Repr

/-- Calls of the library's functions that use one of the objects, inside `try { … } catch (...) {}`. -/
inductive Call where
  /-- `IsSpace(cp)` (Char/Utility.h:28-58) -/
  | isSpace (cp : Nat)
  /-- `ToUppercase(cp)` (Char/Utility.h:137-250) -/
  | toUpper (cp : Nat)
  /-- `ToLowercase(cp)` (Char/Utility.h:252-370) -/
  | toLower (cp : Nat)
  /-- `IsUppercase(cp)` (Char/Utility.h:382-455) -/
  | isUpper (cp : Nat)
  /-- `IsLowercase(cp)` (Char/Utility.h:457-517) -/
  | isLower (cp : Nat)
  /-- `IsLetter(cp)` (Char/Utility.h:519-522) -/
  | isLetter (cp : Nat)
  /-- `text.ToUppercase()` (String.h:519-527) -/
  | upperText (text : Str)
  /-- `text.ToLowercase()` (String.h:529-537) -/
  | lowerText (text : Str)
  /-- `FindFirstNonSpace(text)` (String/Utility.h:155-165) -/
  | first (text : Str)
  /-- `FindLastNonSpace(text)` (String/Utility.h:167-177) of the text with this first character -/
  | last (c : Chr) (text : Str)
  /-- `JsonDocument document(text)` (Json.h:38-41) -/
  | parse (text : Str)
  /-- `TestRegistry::Instance()` (TestRegistry.h:41-45), as in every `TEST` (Test.h:31) -/
  | registry

/-- What a call returns. -/
inductive Val (F : Type) where
  | bool (b : Bool)
  | num (n : Nat)
  | text (s : Str)
  | json (d : Json F × JsonError)
  | unit

/-- An object that has been made and is to be destroyed: one of the library, or one of a user with the calls in its destructor. -/
inductive Entry where
  | table (t : Table)
  | object (ends : List Call)

/-- The objects to be destroyed, the one made last first, and what has become of the library's ones. -/
structure St where
  stack : List Entry
  status : Table → Status

def St.set (σ : Table → Status) (t : Table) (x : Status) : Table → Status := fun u => if u = t then x else σ u

/-- The declaration of a `static` object is reached ([stmt.dcl]). -/
def touch (t : Table) (s : St) : Res St :=
  match s.status t with
  | .fresh => .ok ⟨.table t :: s.stack, St.set s.status t .alive⟩
  | .alive => .ok s
  | .dead => .error .ub

/-- The loops of `ToUppercase` and `ToLowercase` (String.h:521-526, 531-536). -/
def mapText (t : Table) (f : Nat → Nat) : Str → St → Res (Res Str × St)
  | [], s => .ok (.ok [], s)
  | c :: cs, s =>
    match c.getCodePoint with
    | .error e => .ok (.error e, s)
    | .ok cp => do
      let s ← touch t s
      let (r, s) ← mapText t f cs s
      .ok (r.map (Chr.ofCodePoint (f cp) :: ·), s)

/-- The loop of `FindFirstNonSpace` (String/Utility.h:157-163). -/
def first : Str → Nat → St → Res (Res Nat × St)
  | [], i, s => .ok (.ok i, s)
  | c :: cs, i, s =>
    match c.getCodePoint with
    | .error e => .ok (.error e, s)
    | .ok cp => do
      let s ← touch .space s
      if CharUtil.isSpace cp then first cs (i + 1) s else .ok (.ok i, s)

/-- The loop of `FindLastNonSpace` (String/Utility.h:169-175). -/
def last (text : Str) : Nat → St → Res (Res Nat × St)
  | 0, s => .ok (.ok text.length, s)
  | i + 1, s =>
    match (do let c ← Str.index text (i + 1); c.getCodePoint : Res Nat) with
    | .error e => .ok (.error e, s)
    | .ok cp => do
      let s ← touch .space s
      if CharUtil.isSpace cp then last text i s else .ok (.ok (i + 1), s)

/-- A call: what it returns or throws, or undefined behaviour because a destroyed object is used. -/
def exec (ops : FloatOps F) : Call → St → Res (Res (Val F) × St)
  | .isSpace cp, s => do
    let s ← touch .space s
    .ok (.ok (.bool (CharUtil.isSpace cp)), s)
  | .toUpper cp, s => do
    let s ← touch .toUpper s
    .ok (.ok (.num (CharUtil.toUppercase cp)), s)
  | .toLower cp, s => do
    let s ← touch .toLower s
    .ok (.ok (.num (CharUtil.toLowercase cp)), s)
  | .isUpper cp, s => do
    let s ← touch .isUpper s
    .ok (.ok (.bool (CharUtil.isUppercase cp)), s)
  | .isLower cp, s => do
    let s ← touch .isLower s
    .ok (.ok (.bool (CharUtil.isLowercase cp)), s)
  | .isLetter cp, s => do
    let s ← touch .isUpper s
    if CharUtil.isUppercase cp then .ok (.ok (.bool true), s)
    else do
      let s ← touch .isLower s
      .ok (.ok (.bool (CharUtil.isLowercase cp)), s)
  | .upperText text, s => do
    let (r, s) ← mapText .toUpper CharUtil.toUppercase text s
    .ok (r.map .text, s)
  | .lowerText text, s => do
    let (r, s) ← mapText .toLower CharUtil.toLowercase text s
    .ok (r.map .text, s)
  | .first text, s => do
    let (r, s) ← first text 0 s
    .ok (r.map .num, s)
  | .last c text, s => do
    let (r, s) ← last (c :: text) text.length s
    .ok (r.map .num, s)
  -- JsonParser.h:42: the first statement that looks at the characters is FindFirstNonSpace; when it has used the table, the later uses find it
  | .parse text, s => do
    let (_, s) ← first text 0 s
    .ok ((JsonParser.document ops text).map .json, s)
  | .registry, s => do
    let s ← touch .registry s
    .ok (.ok .unit, s)

/-- Calls one after the other. -/
def execAll (ops : FloatOps F) : List Call → St → Res (List (Res (Val F)) × St)
  | [], s => .ok ([], s)
  | c :: cs, s => do
    let (a, s) ← exec ops c s
    let (as, s) ← execAll ops cs s
    .ok (a :: as, s)

/-- What a program does until `main` returns: calls, in constructors of objects of static storage and in `main`; and objects of static
storage whose construction is complete. -/
inductive Step where
  | call (c : Call)
  /-- the object's destructor makes these calls -/
  | made (ends : List Call)

/-- The program until `main` returns. -/
def run (ops : FloatOps F) : List Step → St → Res (List (Res (Val F)) × St)
  | [], s => .ok ([], s)
  | .call c :: ps, s => do
    let (a, s) ← exec ops c s
    let (as, s) ← run ops ps s
    .ok (a :: as, s)
  | .made ends :: ps, s => run ops ps ⟨.object ends :: s.stack, s.status⟩

/-- These of the library's objects are destroyed. -/
def kill (made : List Entry) (σ : Table → Status) : Table → Status :=
  fun t => if made.any (fun e => match e with | .table u => u = t | _ => false) then .dead else σ t

/-- The end of the program ([basic.start.term]): the objects are destroyed, the one made last first. Objects that a destructor has the
library make are on top then, and are destroyed before the others. -/
def exit (ops : FloatOps F) : List Entry → (Table → Status) → Res (List (Res (Val F)))
  | [], _ => .ok []
  | .table t :: es, σ => exit ops es (St.set σ t .dead)
  | .object ends :: es, σ => do
    let (as, s) ← execAll ops ends ⟨[], σ⟩
    let bs ← exit ops es (kill s.stack s.status)
    .ok (as ++ bs)

/-- A whole program: what its calls return, in the order in which they are made. -/
def program (ops : FloatOps F) (ps : List Step) : Res (List (Res (Val F))) := do
  let (as, s) ← run ops ps ⟨[], fun _ => .fresh⟩
  let bs ← exit ops s.stack s.status
  .ok (as ++ bs)

end Caitlyn.Statics
