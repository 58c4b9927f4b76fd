import Verif.Model.StrProg

/-!
# Programs with variables of type `String` in memory that can run out, and references to characters (__Core/String/String.h)

A `String` is a `std::vector<Char>`. A `Char` has at most four bytes, which `std::string` keeps in itself, so that only the storage
of vectors is allocated. Each attempt to allocate may fail (`fails`, by its number). How much storage a vector takes when it grows
is left to the implementation (`Policy`). References to characters are kept in variables of their own (`Char& r = x[i];`);
they become invalid as the standard says for `std::vector`: by the end of the storage, for the elements from the place of an
insertion on, and by assignment to the vector. Using one afterwards is undefined. Every statement stands in a `try` block of its
own that catches `std::out_of_range` and `std::bad_alloc`. All variables exist, as `String x;`, at the beginning.
Characters in statements are objects made before. Not modelled: strings longer than `max_size()`; `ToUppercase` and the other functions that use streams (see C150).
-/

namespace Caitlyn.StrMem

/-- How a vector grows. -/
structure Policy where
  /-- the capacity after `emplace_back` on a full vector with capacity `c` -/
  one : Nat → Nat
  one_lt : ∀ c, c < one c
  /-- the capacity after `insert` of `k` elements for which a vector with `n` elements has no room -/
  many : Nat → Nat → Nat
  many_le : ∀ n k, n + k ≤ many n k

/-- A vector: its storage, if it has one, and `capacity()`. -/
structure Vec where
  blk : Option Nat := none
  cap : Nat := 0

structure State where
  /-- the variables of type `String` -/
  vars : Nat → Vec := fun _ => {}
  /-- the elements in each storage; `none` if it is not allocated -/
  heap : Nat → Option Str := fun _ => none
  /-- the references: storage and index, `none` if not bound or invalid -/
  refs : Nat → Option (Nat × Nat) := fun _ => none
  /-- the number of the next storage -/
  next : Nat := 0
  /-- attempts to allocate so far -/
  tries : Nat := 0

/-- A `const Char&` argument: another character, or what a reference refers to. -/
inductive Arg where
  | value (c : Chr)
  | ref (r : Nat)

inductive Stmt where
  /-- `x = String{"cs"};` (String.h:55-63, 128-135) -/
  | literal (x : Nat) (cs : Str)
  /-- `x = y + z;` (String.h:248-262) -/
  | plus (x y z : Nat)
  /-- `x = y.Substring(pos, count);` (String.h:419-428) -/
  | substring (x y pos count : Nat)
  /-- `x = y;` (String.h:118-125) -/
  | copy (x y : Nat)
  /-- `x = std::move(y);` (String.h:128-135) -/
  | move (x y : Nat)
  /-- `x.Clear();` (String.h:300-303) -/
  | clear (x : Nat)
  /-- `x.PushBack(c);` (String.h:265-268) -/
  | push (x : Nat) (c : Arg)
  /-- `x.Append("cs");` (String.h:270-278) -/
  | append (x : Nat) (cs : Str)
  /-- `x.Append(n, c);` (String.h:290-298) -/
  | appendCount (x n : Nat) (c : Arg)
  /-- `x += y;` (String.h:242-246) -/
  | plusAssign (x y : Nat)
  /-- `x.Insert(pos, y);` (String.h:500-507) -/
  | insert (x pos y : Nat)
  /-- `x.Insert(pos, "cs");` (String.h:485-498) -/
  | insertLit (x pos : Nat) (cs : Str)
  /-- `x.Insert(pos, n, c);` (String.h:509-516) -/
  | insertCount (x pos n : Nat) (c : Arg)
  /-- `Char& r = x.At(i);` (String.h:171-178) -/
  | at' (r x i : Nat)
  /-- `Char& r = x[i];` (String.h:157-160) -/
  | index (r x i : Nat)
  /-- `r = c;`, the character referred to (Char.h:30-287) -/
  | set (r : Nat) (c : Chr)
  /-- reading `r` -/
  | get (r : Nat)
  /-- reading all of `x` -/
  | read (x : Nat)

inductive Out where
  | done
  /-- `std::out_of_range` was caught -/
  | outOfRange
  /-- `std::bad_alloc` was caught -/
  | noMemory
  | char (c : Chr)
  | text (s : Str)
  deriving DecidableEq

/-- The elements of a variable. -/
def State.elems (st : State) (x : Nat) : Str :=
  match (st.vars x).blk with
  | none => []
  | some b => (st.heap b).getD []

/-- The end of the storage of `x`. -/
def State.release (st : State) (x : Nat) : State :=
  match (st.vars x).blk with
  | none => st
  | some b => { st with
      heap := fun b' => if b' = b then none else st.heap b'
      refs := fun r => match st.refs r with
        | some (b', i) => if b' = b then none else some (b', i)
        | none => none
      vars := fun y => if y = x then {} else st.vars y }

/-- `x` has the elements `s` in new storage for `cap`; its old one is released. -/
def State.replace (st : State) (x : Nat) (s : Str) (cap : Nat) : State :=
  let st := st.release x
  { st with
    heap := fun b => if b = st.next then some s else st.heap b
    vars := fun y => if y = x then ⟨some st.next, cap⟩ else st.vars y
    next := st.next + 1 }

/-- `x` has the elements `s` in its storage; references to the elements from `keep` on are invalid. -/
def State.inPlace (st : State) (x : Nat) (s : Str) (keep : Nat) : State :=
  match (st.vars x).blk with
  | none => st
  | some b => { st with
      heap := fun b' => if b' = b then some s else st.heap b'
      refs := fun r => match st.refs r with
        | some (b', i) => if b' = b ∧ keep ≤ i then none else some (b', i)
        | none => none }

/-- A temporary vector that becomes `x` by a move; an empty one without storage. -/
def State.become (st : State) (x : Nat) (s : Str) (cap : Nat) : State :=
  if cap = 0 then st.release x else st.replace x s cap

/-- What a reference argument refers to. -/
def Arg.read (st : State) : Arg → Res Chr
  | .value c => .ok c
  | .ref r =>
    match st.refs r with
    | none => .error .ub
    | some (b, i) =>
      match st.heap b with
      | none => .error .ub
      | some s => vecGet s i

section
variable (P : Policy) (fails : Nat → Bool)

/-- `emplace_back` of characters to a temporary vector with capacity `cap` and `len` elements: its capacity then (`none` if memory
ran out), and the attempts to allocate. -/
def build : Str → (cap len tries : Nat) → Option Nat × Nat
  | [], cap, _, t => (some cap, t)
  | _ :: cs, cap, len, t =>
    if len < cap then build cs cap (len + 1) t
    else if fails t then (none, t + 1)
    else build cs (P.one cap) (len + 1) (t + 1)

/-- `emplace_back` or `push_back` of `c` to `x`; `false` if memory ran out. -/
def push (st : State) (x : Nat) (c : Chr) : Bool × State :=
  let s := st.elems x
  if s.length < (st.vars x).cap then (true, st.inPlace x (s ++ [c]) s.length)
  else if fails st.tries then (false, { st with tries := st.tries + 1 })
  else (true, { st with tries := st.tries + 1 }.replace x (s ++ [c]) (P.one (st.vars x).cap))

/-- The loop of `Append(const char*)` (String.h:272-277). -/
def appendLoop (x : Nat) : Str → State → Bool × State
  | [], st => (true, st)
  | c :: cs, st =>
    match push P fails st x c with
    | (true, st) => appendLoop x cs st
    | (false, st) => (false, st)

/-- The loop of `Append(count, pattern)` (String.h:292-297): the reference is used in each round. -/
def countLoop (x : Nat) (c : Arg) : Nat → State → Res (Bool × State)
  | 0, st => .ok (true, st)
  | n + 1, st => do
    let ch ← c.read st
    match push P fails st x ch with
    | (true, st) => countLoop x c n st
    | (false, st) => .ok (false, st)

/-- `data_.insert(data_.begin() + pos, ...)` of the characters `cs`. -/
def insertAt (st : State) (x pos : Nat) (cs : Str) : Bool × State :=
  let s := st.elems x
  let s' := s.take pos ++ cs ++ s.drop pos
  if cs = [] then (true, st)
  else if s.length + cs.length ≤ (st.vars x).cap then (true, st.inPlace x s' pos)
  else if fails st.tries then (false, { st with tries := st.tries + 1 })
  else (true, { st with tries := st.tries + 1 }.replace x s' (P.many s.length cs.length))

/-- A vector of `n` elements is made, and then copied by `String{vector}` (String.h:80-82): two attempts, if there are elements. -/
def twice (n : Nat) (st : State) : Bool × State :=
  if n = 0 then (true, st)
  else if fails st.tries then (false, { st with tries := st.tries + 1 })
  else if fails (st.tries + 1) then (false, { st with tries := st.tries + 2 })
  else (true, { st with tries := st.tries + 2 })

def finish : Bool × State → Res (Out × State)
  | (true, st) => .ok (.done, st)
  | (false, st) => .ok (.noMemory, st)

/-- Execute a statement. -/
def step (st : State) : Stmt → Res (Out × State)
  | .literal x cs =>
    match build P fails cs 0 0 st.tries with
    | (some cap, t) => .ok (.done, { st with tries := t }.become x cs cap)
    | (none, t) => .ok (.noMemory, { st with tries := t })
  | .plus x y z =>
    let s := st.elems y ++ st.elems z
    match twice fails s.length st with
    | (true, st) => .ok (.done, st.become x s s.length)
    | (false, st) => .ok (.noMemory, st)
  | .substring x y pos count =>
    if (st.elems y).length < pos then .ok (.outOfRange, st)
    else
      let s := ((st.elems y).drop pos).take count
      match twice fails s.length st with
      | (true, st) => .ok (.done, st.become x s s.length)
      | (false, st) => .ok (.noMemory, st)
  | .copy x y =>
    let s := st.elems y
    if x = y then .ok (.done, st)
    else if s.length ≤ (st.vars x).cap then .ok (.done, st.inPlace x s 0)
    else if fails st.tries then .ok (.noMemory, { st with tries := st.tries + 1 })
    else .ok (.done, { st with tries := st.tries + 1 }.replace x s s.length)
  | .move x y =>
    if x = y then .ok (.done, st)
    else
      let v := st.vars y
      let st := st.release x
      .ok (.done, { st with vars := fun z => if z = x then v else if z = y then {} else st.vars z })
  | .clear x => .ok (.done, st.inPlace x [] 0)
  | .push x c => do
    let ch ← c.read st
    finish (push P fails st x ch)
  | .append x cs => finish (appendLoop P fails x cs st)
  | .appendCount x n c => do finish (← countLoop P fails x c n st)
  | .plusAssign x y =>
    if x = y then .error .ub else finish (insertAt P fails st x (st.elems x).length (st.elems y))
  | .insert x pos y =>
    if (st.elems x).length < pos then .ok (.outOfRange, st)
    else if x = y then .error .ub
    else finish (insertAt P fails st x pos (st.elems y))
  | .insertLit x pos cs =>
    if (st.elems x).length < pos then .ok (.outOfRange, st)
    else
      match build P fails cs 0 0 st.tries with
      | (some _, t) => finish (insertAt P fails { st with tries := t } x pos cs)
      | (none, t) => .ok (.noMemory, { st with tries := t })
  | .insertCount x pos n c =>
    if (st.elems x).length < pos then .ok (.outOfRange, st)
    else do
      let ch ← c.read st
      finish (insertAt P fails st x pos (List.replicate n ch))
  | .at' r x i =>
    match (st.vars x).blk with
    | some b => if i < (st.elems x).length then .ok (.done, { st with refs := fun q => if q = r then some (b, i) else st.refs q })
        else .ok (.outOfRange, st)
    | none => .ok (.outOfRange, st)
  | .index r x i =>
    match (st.vars x).blk with
    | some b => if i < (st.elems x).length then .ok (.done, { st with refs := fun q => if q = r then some (b, i) else st.refs q })
        else .error .ub
    | none => .error .ub
  | .set r c =>
    match st.refs r with
    | none => .error .ub
    | some (b, i) =>
      match st.heap b with
      | none => .error .ub
      | some s => .ok (.done, { st with heap := fun b' => if b' = b then some (s.set i c) else st.heap b' })
  | .get r => do return (.char (← Arg.read st (.ref r)), st)
  | .read x => .ok (.text (st.elems x), st)

/-- A program: what its statements give, and the memory after it. -/
def run : State → List Stmt → Res (List Out × State)
  | st, [] => .ok ([], st)
  | st, s :: p => do
    let (o, st) ← step P fails st s
    let (os, st) ← run st p
    return (o :: os, st)

end
end Caitlyn.StrMem
