/-!
# Specification: insertion-ordered finite maps

The keys in the order of their first insertion, and the value of each key. An insertion of a key that is there keeps
its position; an erased and reinserted key goes to the end.
-/

namespace Caitlyn.Spec

structure OMap (K V : Type) where
  keys : List K
  val : K → Option V

namespace OMap
variable {K V : Type} [DecidableEq K]

def empty : OMap K V := ⟨[], fun _ => none⟩

def insert (k : K) (v : V) (m : OMap K V) : OMap K V :=
  ⟨if k ∈ m.keys then m.keys else m.keys ++ [k], fun x => if x = k then some v else m.val x⟩

def erase (k : K) (m : OMap K V) : OMap K V :=
  ⟨m.keys.filter (· ≠ k), fun x => if x = k then none else m.val x⟩

/-- Replace the value of `k` by `f` of it, where a missing value is `d`. -/
def update (k : K) (d : V) (f : V → V) (m : OMap K V) : OMap K V := m.insert k (f ((m.val k).getD d))

end OMap
end Caitlyn.Spec
