import Verif.Spec.Utf8
import Verif.Model.Char

/-!
# Reference: a text file as a queue of lines

Independent of the model of `File`.
-/

namespace Caitlyn.Spec

/-- A call that adds a line, or asks for the next one. -/
inductive LineCall where
  | add (s : List Chr)
  | next

/-- What the calls return, for a queue of lines not yet read: `next` returns the lines in order. Once it was called
with no line left, the end is reached for good: it returns the empty string and added lines are dropped. -/
def queue : Option (List (List Chr)) → List LineCall → List (Option (List Chr))
  | _, [] => []
  | some q, .add s :: cs => none :: queue (some (q ++ [s])) cs
  | some (l :: q), .next :: cs => some l :: queue (some q) cs
  | some [], .next :: cs => some [] :: queue none cs
  | none, .add _ :: cs => none :: queue none cs
  | none, .next :: cs => some [] :: queue none cs

/-- A line: characters, none of them a line feed or malformed. -/
def IsLine (s : List Chr) : Prop := ∀ c ∈ s, Shape c.data ∧ c.data ≠ [0x0A]

end Caitlyn.Spec
