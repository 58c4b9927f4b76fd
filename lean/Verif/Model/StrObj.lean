import Verif.Model.Str

/-!
# `String` as an object

The functions of `Verif.Model.Str` give the new content of a `String`. This file models, for the members where it
matters, the steps on the object: the copy loops of `operator+`, what is in `data_` when `Append` throws, and
references to elements of a vector that is reallocated.
-/

namespace Caitlyn
namespace Str

/-- Assignment to a `std::vector` element (`operator[]`): out of bounds is undefined behaviour. -/
def vecSet (v : List α) (i : Nat) (a : α) : Res (List α) :=
  if i < v.length then .ok (v.set i a) else .error .ub

/-- `k` steps of the loops `for (; i < src.size(); ++i) ret[off + i] = src[i];` (String.h:253-256, 257-260). -/
def copyLoop (src : Str) (off : Nat) : Nat → Nat → Str → Res Str
  | 0, _, ret => .ok ret
  | k + 1, i, ret => do
    let c ← vecGet src i
    copyLoop src off k (i + 1) (← vecSet ret (off + i) c)

/-- `operator+` (String.h:248-262): `ret` starts as a vector of default constructed characters. -/
def plusLoop (self str : Str) : Res Str := do
  let ret := List.replicate (self.length + str.length) Chr.empty
  let ret ← copyLoop self 0 self.length 0 ret
  copyLoop str self.length str.length 0 ret

/-- The loop of `Append(const char*)` (String.h:270-278) on the object: its content at the end, and how the call
ended. `Nat` bounds the iterations. -/
def appendLoop : Nat → Str → List UInt8 → Str × Res Unit
  | 0, self, _ => (self, .error .fuel)
  | n + 1, self, mem =>
    match vecGet mem 0 with
    | .error e => (self, .error e)
    | .ok b =>
      if b == 0 then (self, .ok ())
      else match decodeUtf8Char mem with
        | .error e => (self, .error e)
        | .ok c => appendLoop n (self ++ [c]) (mem.drop c.data.length)

/-- `Append(const char*)` (String.h:270-278). -/
def appendObj (self : Str) (mem : List UInt8) : Str × Res Unit := appendLoop (mem.length + 1) self mem

/-- `Append(count, const char*)` (String.h:280-288) on the object. -/
def appendCountObj : Nat → Str → List UInt8 → Str × Res Unit
  | 0, self, _ => (self, .ok ())
  | n + 1, self, pattern =>
    match Chr.ofBytes pattern with
    | .error e => (self, .error e)
    | .ok c => appendCountObj n (self ++ [c]) pattern

/-- A `std::vector<Char>`: elements, capacity, and how often its storage was replaced. -/
structure Vec where
  /-- the elements -/
  elems : Str
  /-- `capacity()` -/
  cap : Nat
  /-- number of reallocations -/
  gen : Nat

/-- A `const Char&`: a character outside the vector or element `i` of the storage `gen`. -/
inductive Ref where
  | value (c : Chr)
  | elem (gen i : Nat)

/-- Reading through a reference; storage that was replaced has been freed. -/
def Ref.get (v : Vec) : Ref → Res Chr
  | .value c => .ok c
  | .elem g i => if g = v.gen then vecGet v.elems i else .error .ub

/-- `vector::emplace_back(const Char&)`: the new element is made before old storage is freed. `grow` is the capacity
the implementation chooses when it is full. -/
def Vec.emplaceBack (grow : Nat → Nat) (v : Vec) (c : Chr) : Vec :=
  if v.elems.length < v.cap then { v with elems := v.elems ++ [c] }
  else ⟨v.elems ++ [c], grow v.cap, v.gen + 1⟩

/-- `Append(count, const Char& pattern)` (String.h:290-298), reading `pattern` in every iteration. -/
def Vec.append (grow : Nat → Nat) : Nat → Vec → Ref → Vec × Res Unit
  | 0, v, _ => (v, .ok ())
  | n + 1, v, r =>
    match r.get v with
    | .error e => (v, .error e)
    | .ok c => Vec.append grow n (v.emplaceBack grow c) r

end Str
end Caitlyn
