import Verif.Model.JsonCost
import Verif.Spec.Json

/-!
# Specification of what a parsed value has cost at least

Of a value, not of a text: whatever text is parsed into the value.
-/

namespace Caitlyn.Spec
open JsonParser
variable {F : Type}

/-- The pairs of different positions among `k`. -/
def pairs : Nat → Nat
  | 0 => 0
  | k + 1 => pairs k + k

mutual
/-- A copy of the text for `true` and two for `false`; two copies of every item of an array; a comparison for every pair of keys of
an object. -/
def least : Json F → Cost
  | .bool b => { texts := if b then 1 else 2 }
  | .arr js => leastItems js
  | .obj ms => leastMembers ms + { keys := pairs ms.length }
  | _ => {}
def leastItems : List (Json F) → Cost
  | [] => {}
  | j :: js => least j + { nodes := 2 * copied j } + leastItems js
def leastMembers : List (Str × Json F) → Cost
  | [] => {}
  | (_, j) :: ms => least j + leastMembers ms
end

/-- No count is greater. -/
def CostLe (c d : Cost) : Prop := c.texts ≤ d.texts ∧ c.nodes ≤ d.nodes ∧ c.keys ≤ d.keys

/-- `[true,true,...]`, `k + 1` times. -/
def truths (k : Nat) : Json F := .arr (List.replicate (k + 1) (.bool true))

/-- `{"a":[true,true,...]}`, `k + 1` times. -/
def truthsText (k : Nat) : Str := c!"{\"a\":[true" ++ (List.replicate k c!",true").flatten ++ c!"]}"

/-- The words of `w` letters `0` and `1`. -/
def words : Nat → List Str
  | 0 => [[]]
  | w + 1 => (words w).map (chr 0x30 :: ·) ++ (words w).map (chr 0x31 :: ·)

/-- `"k":0` for every key, separated by commas. -/
def zerosText : List Str → Str
  | [] => []
  | [k] => c!"\"" ++ k ++ c!"\":0"
  | k :: ks => c!"\"" ++ k ++ c!"\":0," ++ zerosText ks

/-- `{"k":0,...}`. -/
def zeros (ks : List Str) : Json F := .obj (ks.map fun k => (k, .int 0))

end Caitlyn.Spec
