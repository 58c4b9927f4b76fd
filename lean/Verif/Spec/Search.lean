/-!
# Specification: occurrences of a sequence in another
-/

namespace Caitlyn.Spec

/-- `needle` occurs in `hay` at index `i`. -/
def OccursAt {α : Type} (needle hay : List α) (i : Nat) : Prop :=
  ∃ pre post, hay = pre ++ needle ++ post ∧ pre.length = i

/-- `needle` occurs somewhere in `hay` (contiguously). -/
def Occurs {α : Type} (needle hay : List α) : Prop := ∃ i, OccursAt needle hay i

end Caitlyn.Spec
