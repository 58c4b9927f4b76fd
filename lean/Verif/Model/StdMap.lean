import Verif.Basic

/-!
# Model of `std::map` and of the map utilities

A `std::map` is modelled by the list of its elements in iteration order. Simplification: the red-black
tree itself is not modelled.
-/

namespace Caitlyn.StdMap

/-- `map[k]` used as the target of an update: inserts a new element at its place in key order, or updates
the one that is there; `lt` is the comparison of keys. -/
def upsert (lt : K → K → Bool) (k : K) (f : Option V → V) : List (K × V) → List (K × V)
  | [] => [(k, f none)]
  | (k', v) :: m =>
    if lt k k' then (k, f none) :: (k', v) :: m
    else if lt k' k then (k', v) :: upsert lt k f m
    else (k', f (some v)) :: m

/-- `GetMapKeys` (__Core/Collections/Utility/MapUtility.h:28-38): the loop over the elements. -/
def getMapKeys (m : List (K × V)) : List K := m.foldl (fun keys e => keys ++ [e.1]) []

/-- `GetMapValues` (MapUtility.h:40-50). -/
def getMapValues (m : List (K × V)) : List V := m.foldl (fun values e => values ++ [e.2]) []

end Caitlyn.StdMap
