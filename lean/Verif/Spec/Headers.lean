import Verif.Model.Headers

/-! # Specification of what a header brings in -/

namespace Caitlyn
open Headers

/-- A header includes another one, directly or through others. -/
inductive Spec.Reaches : File → File → Prop where
  | direct {f g : File} {p : Name} (h : p ∈ includes f) (hl : lookup true p = some g) : Spec.Reaches f g
  | through {f g h : File} (h1 : Spec.Reaches f g) (h2 : Spec.Reaches g h) : Spec.Reaches f h

end Caitlyn
