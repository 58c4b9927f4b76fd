import Verif.Spec.StrMem

/-!
# Specification: which allocations a statement on strings needs
-/

namespace Caitlyn.Spec
open StrMem

/-- Growing one element at a time, a vector with capacity `cap` grows `j` times until it has room for `n` elements. -/
def GrowsBy (P : Policy) (cap n j : Nat) : Prop := n ≤ Nat.repeat P.one j cap ∧ ∀ i < j, Nat.repeat P.one i cap < n

/-- How often an insertion of `n` elements at once grows the string. -/
def insertGrows (st : State) (x n : Nat) : Nat := if n ≤ roomOf st x then 0 else 1

/-- A statement allocates `j` times, if memory suffices. -/
def Needs (P : Policy) (st : State) : StrMem.Stmt → Nat → Prop
  | .literal _ cs, j => GrowsBy P 0 cs.length j
  | .plus _ y z, j => j = if st.elems y = [] ∧ st.elems z = [] then 0 else 2
  | .substring _ y pos count, j => j = if (st.elems y).length ≤ pos ∨ count = 0 then 0 else 2
  | .copy x y, j => j = if x = y ∨ (st.elems y).length ≤ (st.vars x).cap then 0 else 1
  | .push x _, j => j = insertGrows st x 1
  | .append x cs, j => GrowsBy P (st.vars x).cap ((st.elems x).length + cs.length) j
  | .appendCount x n _, j => GrowsBy P (st.vars x).cap ((st.elems x).length + n) j
  | .plusAssign x y, j => j = insertGrows st x (st.elems y).length
  | .insert x pos y, j => j = if (st.elems x).length < pos then 0 else insertGrows st x (st.elems y).length
  | .insertLit x pos cs, j =>
    if (st.elems x).length < pos then j = 0 else ∃ k, GrowsBy P 0 cs.length k ∧ j = k + insertGrows st x cs.length
  | .insertCount x pos n _, j => j = if (st.elems x).length < pos then 0 else insertGrows st x n
  | _, j => j = 0

/-- `j` allocations are to be made, from attempt `t` on: either all succeed, or the first that fails is the last one tried. The next
attempt is `t'`. -/
def Attempts (fails : Nat → Bool) (t j : Nat) (failed : Bool) (t' : Nat) : Prop :=
  (failed = false ∧ t' = t + j ∧ ∀ k < j, fails (t + k) = false) ∨
  (failed = true ∧ ∃ k < j, t' = t + k + 1 ∧ fails (t + k) = true ∧ ∀ i < k, fails (t + i) = false)

end Caitlyn.Spec
