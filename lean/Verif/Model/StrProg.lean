import Verif.Model.Str
import Verif.Spec.Utf8

/-!
# Programs with variables of type `String` (__Core/String/String.h)

All variables exist and are default-constructed (`String x;`, String.h:53) at the beginning. Every statement stands in a
`try` block of its own that catches `std::out_of_range`. Literals are UTF-8 encoded, as the compilers do by default.
Not modelled: memory (a string longer than the memory), iterators and references that outlive a statement.
-/

namespace Caitlyn.StrProg

/-- The comparison operators (String.h:305-363). -/
inductive Cmp where
  | lt | gt | le | ge | eq | ne
  deriving DecidableEq

/-- Statements. -/
inductive Stmt where
  /-- `x = String{"cs"};` (String.h:55-63, 128-135) -/
  | literal (x : Nat) (cs : List Char)
  /-- `x = String(n, Char{c});` (String.h:91-97) -/
  | fill (x n : Nat) (c : Char)
  /-- `x = y + z;` (String.h:248-262) -/
  | plus (x y z : Nat)
  /-- `x += y;` (String.h:242-246) -/
  | plusAssign (x y : Nat)
  /-- `x.Append("cs");` (String.h:270-278) -/
  | append (x : Nat) (cs : List Char)
  /-- `x.Append(n, Char{c});` (String.h:290-298) -/
  | appendCount (x n : Nat) (c : Char)
  /-- `x.PushBack(Char{c});` (String.h:265-268) -/
  | push (x : Nat) (c : Char)
  /-- `x.PushBack(y.At(i));`; `std::vector::push_back` may be given an element of the vector itself. -/
  | pushOf (x y i : Nat)
  /-- `x.Insert(pos, y);` (String.h:500-507) -/
  | insert (x pos y : Nat)
  /-- `x.Insert(pos, "cs");` (String.h:485-498) -/
  | insertLit (x pos : Nat) (cs : List Char)
  /-- `x.Insert(pos, n, Char{c});` (String.h:509-516) -/
  | insertCount (x pos n : Nat) (c : Char)
  /-- `x = y.Substring(pos, count);` (String.h:419-428) -/
  | substring (x y pos count : Nat)
  /-- `x.Clear();` (String.h:300-303) -/
  | clear (x : Nat)
  /-- `x = y;` (String.h:118-125) -/
  | copy (x y : Nat)
  /-- `x = std::move(y);` (String.h:128-135) -/
  | move (x y : Nat)
  /-- `x.At(i) = Char{c};` (String.h:171-178) -/
  | setAt (x i : Nat) (c : Char)
  /-- `x[i] = Char{c};` (String.h:157-160) -/
  | setIndex (x i : Nat) (c : Char)
  /-- `x = y.ToUppercase();` (String.h:519-527) -/
  | upper (x y : Nat)
  /-- `x = y.ToLowercase();` (String.h:529-537) -/
  | lower (x y : Nat)
  /-- `x.str()` (String.h:473-482) -/
  | print (x : Nat)
  /-- `x.size()` (String.h:142-145) -/
  | size (x : Nat)
  /-- `x.ByteCount()` (String.h:431-439) -/
  | byteCount (x : Nat)
  /-- `x.IsEmpty()` (String.h:458-461) -/
  | isEmpty (x : Nat)
  /-- `x.At(i).GetCodePoint()` -/
  | at' (x i : Nat)
  /-- `x[i].GetCodePoint()` -/
  | index (x i : Nat)
  /-- `x op y` -/
  | compare (op : Cmp) (x y : Nat)
  /-- `x op "cs"` (String.h:305-333) -/
  | compareLit (op : Cmp) (x : Nat) (cs : List Char)
  /-- `x.StartsWith(y)` (String.h:366-373) -/
  | startsWith (x y : Nat)
  /-- `x.EndsWith(y)` (String.h:376-383) -/
  | endsWith (x y : Nat)
  /-- `x.Contains(y)` (String.h:386-389) -/
  | contains (x y : Nat)
  /-- `x.Find(y, pos)` (String.h:392-397) -/
  | find (x y pos : Nat)
  /-- `x.ReverseFind(y, pos)` (String.h:400-416) -/
  | rfind (x y pos : Nat)

/-- What a statement gives. -/
inductive Out where
  | done
  /-- `std::out_of_range` was caught. -/
  | outOfRange
  | text (bytes : List UInt8)
  | number (n : Nat)
  | flag (b : Bool)
  deriving DecidableEq

/-- The variables. -/
abbrev Vars := Nat → Str

def Vars.set (v : Vars) (x : Nat) (s : Str) : Vars := fun y => if y = x then s else v y

/-- A string literal in memory: its bytes and the terminator. -/
def literalMem (cs : List Char) : List UInt8 := Spec.utf8 cs ++ [0]

/-- `Char{c}` with a code point (Char.h:40-43). -/
def chr (c : Char) : Chr := Chr.ofCodePoint c.val.toNat

/-- Evaluate `x op y`. -/
def Cmp.eval : Cmp → Str → Str → Bool
  | .lt => Str.lt
  | .gt => Str.gt
  | .le => Str.le
  | .ge => Str.ge
  | .eq => Str.eq
  | .ne => fun a b => !Str.eq a b

/-- Evaluate `x op "cs"`. -/
def Cmp.evalLit : Cmp → Str → List UInt8 → Bool
  | .lt => Str.ltCStr
  | .gt => Str.gtCStr
  | .le => Str.leCStr
  | .ge => Str.geCStr
  | .eq => Str.eqCStr
  | .ne => fun a b => !Str.eqCStr a b

/-- The argument `y` of a member function of `x`: the same object or another. -/
def argOf (v : Vars) (x y : Nat) : StrArg := if x = y then .self else .other (v y)

/-- The change of `x`, with the exception caught; a statement that throws has changed nothing. -/
def store (v : Vars) (x : Nat) : Res Str → Res (Out × Vars)
  | .ok s => .ok (.done, v.set x s)
  | .error .outOfRange => .ok (.outOfRange, v)
  | .error e => .error e

/-- A value that is shown, with the exception caught. -/
def give (v : Vars) : Res Nat → Res (Out × Vars)
  | .ok n => .ok (.number n, v)
  | .error .outOfRange => .ok (.outOfRange, v)
  | .error e => .error e

/-- Execute a statement. -/
def step (v : Vars) : Stmt → Res (Out × Vars)
  | .literal x cs => store v x (Str.ofCStr (literalMem cs))
  | .fill x n c => store v x (.ok (Str.ofCountChr n (chr c)))
  | .plus x y z => store v x (.ok (Str.plus (v y) (v z)))
  | .plusAssign x y => store v x (Str.plusAssign (v x) (argOf v x y))
  | .append x cs => store v x (Str.appendCStr (v x) (literalMem cs))
  | .appendCount x n c => store v x (.ok (Str.appendCount (v x) n (chr c)))
  | .push x c => store v x (.ok (Str.pushBack (v x) (chr c)))
  | .pushOf x y i => store v x ((Str.at' (v y) i).map (Str.pushBack (v x)))
  | .insert x pos y => store v x (Str.insert (v x) pos (argOf v x y))
  | .insertLit x pos cs => store v x (Str.insertCStr (v x) pos (literalMem cs))
  | .insertCount x pos n c => store v x (Str.insertCount (v x) pos n (chr c))
  | .substring x y pos count => store v x (Str.substring (v y) pos count)
  | .clear x => store v x (.ok [])
  | .copy x y => .ok (.done, if x = y then v else v.set x (v y))
  | .move x y => .ok (.done, if x = y then v else (v.set x (v y)).set y [])
  | .setAt x i c => store v x ((Str.at' (v x) i).map fun _ => (v x).set i (chr c))
  | .setIndex x i c => store v x ((Str.index (v x) i).map fun _ => (v x).set i (chr c))
  | .upper x y => store v x (Str.toUppercase (v y))
  | .lower x y => store v x (Str.toLowercase (v y))
  | .print x => .ok (.text (Str.str (v x)), v)
  | .size x => give v (.ok (Str.size (v x)))
  | .byteCount x => give v (.ok (Str.byteCount (v x)))
  | .isEmpty x => .ok (.flag (v x).isEmpty, v)
  | .at' x i => give v (Str.at' (v x) i >>= Chr.getCodePoint)
  | .index x i => give v (Str.index (v x) i >>= Chr.getCodePoint)
  | .compare op x y => .ok (.flag (op.eval (v x) (v y)), v)
  | .compareLit op x cs => .ok (.flag (op.evalLit (v x) (Spec.utf8 cs)), v)
  | .startsWith x y => .ok (.flag (Str.startsWith (v x) (v y)), v)
  | .endsWith x y => .ok (.flag (Str.endsWith (v x) (v y)), v)
  | .contains x y => .ok (.flag (Str.contains (v x) (v y)), v)
  | .find x y pos => give v (Str.find (v x) (v y) pos)
  | .rfind x y pos => give v (Str.reverseFind (v x) (v y) pos)

/-- A program: what its statements give, and the variables after it. -/
def run : Vars → List Stmt → Res (List Out × Vars)
  | v, [] => .ok ([], v)
  | v, s :: p => do
    let (o, v) ← step v s
    let (os, v) ← run v p
    return (o :: os, v)

end Caitlyn.StrProg
