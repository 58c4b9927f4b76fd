import Verif.Model.Str

/-!
# How many characters `Find`, `ReverseFind` and `Contains` compare (__Core/String/String.h:386-416)

All three call `std::search`. The standard bounds the comparisons by the product of the lengths; `searchC` counts those of the
algorithm of libstdc++ (`std::__search`): the first character of the pattern is looked for, the others are compared one after the
other, and after a difference the search goes on behind the place where the first character was. It gives up when the text
ends while the characters agree. A comparison of two `Char`s takes at most four bytes.
-/

namespace Caitlyn.FindCost

/-- How comparing the rest of the pattern with the text ends. -/
inductive Reach where
  | found
  | ended
  | differs
deriving DecidableEq

/-- The inner loop of `std::__search`: the comparisons, and how it ends. -/
def along : Str → Str → Nat × Reach
  | [], _ => (0, .found)
  | _ :: _, [] => (0, .ended)
  | p :: ps, c :: s => if c = p then ((along ps s).1 + 1, (along ps s).2) else (1, .differs)

/-- The outer loop of `std::__search` for a pattern `p :: ps`: the comparisons, and the offset of the first match or the
length of the text. -/
def scan (p : Chr) (ps : Str) : Str → Nat × Nat
  | [] => (0, 0)
  | c :: s =>
    if c = p then
      match along ps s with
      | (n, .found) => (n + 1, 0)
      | (n, .ended) => (n + 1, s.length + 1)
      | (n, .differs) => (n + 1 + (scan p ps s).1, (scan p ps s).2 + 1)
    else ((scan p ps s).1 + 1, (scan p ps s).2 + 1)

/-- `std::search`. -/
def searchC (hay : Str) : Str → Nat × Nat
  | [] => (0, 0)
  | p :: ps => scan p ps hay

/-- `Contains` (String.h:386-389). -/
def containsC (s sub : Str) : Nat × Bool := ((searchC s sub).1, (searchC s sub).2 != s.length)

/-- `Find` (String.h:392-397). -/
def findC (s sub : Str) (pos : Nat) : Res (Nat × Nat) :=
  if pos > s.length then .error .ub
  else
    let it := pos + (searchC (s.drop pos) sub).2
    .ok ((searchC (s.drop pos) sub).1, if it ≠ s.length then it else npos)

/-- `ReverseFind` (String.h:400-416). -/
def reverseFindC (s sub : Str) (pos : Nat) : Res (Nat × Nat) :=
  if sub.length > s.length then .ok (0, npos)
  else
    let pos := if pos ≥ s.length then wsub s.length 1 else pos
    let off := wsub (wsub s.length pos) 1
    if off > s.length then .error .ub
    else
      let it := off + (searchC (s.reverse.drop off) sub.reverse).2
      .ok ((searchC (s.reverse.drop off) sub.reverse).1,
        if it ≠ s.length then wsub (wsub s.length 1) it else npos)

end Caitlyn.FindCost
