import Verif.Model.Statics

/-! # What C166 wants of programs whose static objects use the library -/

namespace Caitlyn.Spec.Exit
open Caitlyn Statics
variable {F : Type}

/-- The code point of the first character can be computed. -/
def readable : Str → Bool
  | [] => false
  | c :: _ => match c.getCodePoint with | .ok _ => true | .error _ => false

/-- The `static` objects whose declaration a call reaches. -/
def uses : Call → List Table
  | .isSpace _ => [.space]
  | .toUpper _ => [.toUpper]
  | .toLower _ => [.toLower]
  | .isUpper _ => [.isUpper]
  | .isLower _ => [.isLower]
  | .isLetter cp => if CharUtil.isUppercase cp = true then [.isUpper] else [.isUpper, .isLower]
  | .upperText text => if readable text = true then [.toUpper] else []
  | .lowerText text => if readable text = true then [.toLower] else []
  | .first text => if readable text = true then [.space] else []
  | .last _ text => if readable text.reverse = true then [.space] else []
  | .parse text => if readable text = true then [.space] else []
  | .registry => [.registry]

/-- What a call returns or throws, whenever it is made. -/
def answer (ops : FloatOps F) : Call → Res (Val F)
  | .isSpace cp => .ok (.bool (CharUtil.isSpace cp))
  | .toUpper cp => .ok (.num (CharUtil.toUppercase cp))
  | .toLower cp => .ok (.num (CharUtil.toLowercase cp))
  | .isUpper cp => .ok (.bool (CharUtil.isUppercase cp))
  | .isLower cp => .ok (.bool (CharUtil.isLowercase cp))
  | .isLetter cp => .ok (.bool (CharUtil.isLetter cp))
  | .upperText text => (Str.toUppercase text).map .text
  | .lowerText text => (Str.toLowercase text).map .text
  | .first text => (StrUtil.findFirstNonSpace text).map .num
  | .last c text => (StrUtil.findLastNonSpace (c :: text)).map .num
  | .parse text => (JsonParser.document ops text).map .json
  | .registry => .ok .unit

/-- What the calls of a program return: those before `main` returns, then those in the destructors, of which that of the object made last
is the first. -/
def answers (ops : FloatOps F) (ps : List Step) : List (Res (Val F)) :=
  ps.filterMap (fun p => match p with | .call c => some (answer ops c) | .made _ => none) ++
    (ps.reverse.flatMap fun p => match p with | .call _ => [] | .made ends => ends.map (answer ops))

/-- One of these steps is a call that uses the object. -/
def Called (ps : List Step) (t : Table) : Prop := ∃ c, .call c ∈ ps ∧ t ∈ uses c

/-- One of these steps makes an object whose destructor uses the object. -/
def Ended (ps : List Step) (t : Table) : Prop := ∃ d, .made d ∈ ps ∧ ∃ c ∈ d, t ∈ uses c

/-- What the destructor of an object uses was used before the object was made, or is used nowhere after it was made and before it is
destroyed. -/
def Safe (ps : List Step) : Prop :=
  ∀ pre d post, ps = pre ++ .made d :: post → ∀ c ∈ d, ∀ t ∈ uses c, Called pre t ∨ ¬ Called post t ∧ ¬ Ended post t

end Caitlyn.Spec.Exit
