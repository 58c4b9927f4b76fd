import Verif.Basic

/-!
# Model of `include/Caitlyn/__Core/String/Algorithms/Kmp.h`
-/

namespace Caitlyn.Kmp

/-- `std::string::operator[]`: index `size()` is the terminator, beyond is undefined. -/
def strAt (s : List UInt8) (i : Nat) : Res UInt8 :=
  if i = s.length then .ok 0 else vecGet s i

/-- `vector::operator[]` as assignment target: out of bounds is undefined. -/
def vecSet (v : List Nat) (i x : Nat) : Res (List Nat) :=
  if i < v.length then .ok (v.set i x) else .error .ub

/-- The inner loops (Kmp.h:37-40 and 56-59): `c` is `pattern[i]` or `text[i]`, with an iteration
bound. -/
def back (pattern : List UInt8) (failure : List Nat) (c : UInt8) : Nat → Nat → Res Nat
  | 0, _ => .error .fuel
  | n + 1, j =>
    if j = npos then .ok j
    else do
      let p ← strAt pattern j
      if p = c then return j
      let j' ← vecGet failure j
      back pattern failure c n j'

/-- The outer loop of `get_kmp_failure_vec` (Kmp.h:35-42), `k` rounds left. `pattern.length + 2`
rounds are granted to the inner loop (they suffice: `C22_decides_substring`). -/
def failureLoop (pattern : List UInt8) : Nat → Nat → Nat → List Nat → Res (List Nat)
  | 0, _, _, failure => .ok failure
  | k + 1, i, j, failure => do
    let c ← strAt pattern i
    let j ← back pattern failure c (pattern.length + 2) j
    let j := wadd j 1
    let failure ← vecSet failure (i + 1) j
    failureLoop pattern k (i + 1) j failure

/-- `get_kmp_failure_vec` (Kmp.h:29-44). -/
def failureVec (pattern : List UInt8) : Res (List Nat) := do
  let failure := List.replicate (pattern.length + 1) 0
  let failure ← vecSet failure 0 npos
  let j ← vecGet failure 0
  failureLoop pattern pattern.length 0 j failure

/-- The loop of `kmp` (Kmp.h:54-65); the remaining text stands for the index `i`. -/
def searchLoop (pattern : List UInt8) (failure : List Nat) : List UInt8 → Nat → Res Bool
  | [], _ => .ok false
  | c :: text, j => do
    let j ← back pattern failure c (pattern.length + 2) j
    let j := wadd j 1
    if j = pattern.length then return true
    searchLoop pattern failure text j

/-- `kmp(pattern, text)` (Kmp.h:48-66). -/
def kmp (pattern text : List UInt8) : Res Bool := do
  let failure ← failureVec pattern
  searchLoop pattern failure text 0

end Caitlyn.Kmp
