import Verif.Model.Format
import Verif.Spec.Decimal

/-!
# Specification: format templates

A template is a list of pieces; `written` is how a piece is typed, `render` the text the formatted
template should be.
-/

namespace Caitlyn.Spec
open Caitlyn.Format (Alignment)

/-- One piece of a template. -/
inductive Piece where
  /-- a literal character; brackets are typed doubled -/
  | text (c : Chr)
  /-- `{}` -/
  | auto
  /-- `{i}` -/
  | index (i : Nat)
  /-- `{:<w}`, `{:f<w}` and so on, always the first argument -/
  | aligned (fill : Option Chr) (a : Alignment) (w : Nat)
  deriving DecidableEq

/-- The alignment characters. -/
def sideChar : Alignment → Chr
  | .left => ⟨b!"<"⟩
  | .right => ⟨b!">"⟩
  | .center => ⟨b!"^"⟩

/-- The text of an alignment specification, after the colon. -/
def alignText (fill : Option Chr) (a : Alignment) (w : Nat) : Str :=
  fill.toList ++ [sideChar a] ++ decimal w

/-- Padding of a text to a width. -/
def pad (fill : Chr) (a : Alignment) (w : Nat) (s : Str) : Str :=
  let n := w - s.length
  match a with
  | .left => s ++ List.replicate n fill
  | .right => List.replicate n fill ++ s
  | .center => List.replicate (n / 2) fill ++ s ++ List.replicate (n - n / 2) fill

namespace Piece

/-- How a piece is typed. -/
def written : Piece → Str
  | text c => if c = ⟨b!"{"⟩ ∨ c = ⟨b!"}"⟩ then [c, c] else [c]
  | auto => c!"{}"
  | index i => c!"{" ++ decimal i ++ c!"}"
  | aligned fill a w => c!"{:" ++ alignText fill a w ++ c!"}"

end Piece

/-- The number of `{}` among the pieces. -/
def autos : List Piece → Nat
  | [] => 0
  | .auto :: ps => autos ps + 1
  | _ :: ps => autos ps

/-- The formatted text; `k` is the number of `{}` before (with one argument all of them are that
argument). -/
def render (args : List Str) : Nat → List Piece → Str
  | _, [] => []
  | k, .text c :: ps => c :: render args k ps
  | k, .auto :: ps => args.getD (if args.length = 1 then 0 else k) [] ++ render args (k + 1) ps
  | k, .index i :: ps => args.getD i [] ++ render args k ps
  | k, .aligned fill a w :: ps =>
    pad (fill.getD ⟨b!" "⟩) a w (args.getD 0 []) ++ render args k ps

end Caitlyn.Spec
