import Verif.Spec.JsonPrint

/-!
# Specification: values without line feeds
-/

namespace Caitlyn.Spec

/-- No string and no key of the value has a line feed. -/
inductive OneLine {F : Type} : Json F → Prop where
  | null : OneLine .null
  | bool (b) : OneLine (.bool b)
  | int (i) : OneLine (.int i)
  | float (f) : OneLine (.float f)
  | str (s) : chr 0x0A ∉ s → OneLine (.str s)
  | arr (js : List (Json F)) : (∀ j ∈ js, OneLine j) → OneLine (.arr js)
  | obj (ms : List (Str × Json F)) : (∀ m ∈ ms, chr 0x0A ∉ m.1) → (∀ m ∈ ms, OneLine m.2) → OneLine (.obj ms)

end Caitlyn.Spec
