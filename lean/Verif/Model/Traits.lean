import Verif.Basic

/-!
# Model of the type traits (__Core/Traits)

A C++ type is a term of the grammar `Ty`. Partial specialisations are modelled by what they match: of the
specialisations that match, the most specialised is taken. Qualifiers of an array are those of its elements.
Class, union and enumeration types are names; a function type is a name, and `restricted` says that it carries a
qualifier (`void() const`, `void() &`), so that neither pointers nor references to it exist. Not modelled: the traits
that only forward to `<type_traits>`, and qualified class templates.
-/

namespace Caitlyn.Traits
open Caitlyn

/-- `const`, `volatile`. -/
structure CV where
  c : Bool := false
  v : Bool := false
  deriving DecidableEq, Repr

def CV.or (a b : CV) : CV := ⟨a.c || b.c, a.v || b.v⟩
/-- the qualifiers of `a` that `b` does not have -/
def CV.minus (a b : CV) : CV := ⟨a.c && !b.c, a.v && !b.v⟩

/-- Types that are not built from others. -/
inductive Base where
  | void | nullptr | bool
  | char | schar | uchar | wchar | char16 | char32
  | short | ushort | int | uint | long | ulong | llong | ullong
  | float | double | ldouble
  | class (name : Nat) | union (name : Nat) | enum (name : Nat)
  deriving DecidableEq, Repr

/-- Types. -/
inductive Ty where
  | base (q : CV) (b : Base)
  | ptr (q : CV) (t : Ty)
  /-- pointer to member -/
  | member (q : CV) (cls : Nat) (t : Ty)
  /-- `t[n]`, `t[]` -/
  | arr (n : Option Nat) (t : Ty)
  | lref (t : Ty)
  | rref (t : Ty)
  | fn (name : Nat) (restricted : Bool)
  deriving DecidableEq, Repr

namespace Ty

/-- `q T`: qualifiers have no effect on references and functions and go to the elements of an array. -/
def qualify (q : CV) : Ty → Ty
  | base q' b => base (q'.or q) b
  | ptr q' t => ptr (q'.or q) t
  | member q' k t => member (q'.or q) k t
  | arr n t => arr n (t.qualify q)
  | lref t => lref t
  | rref t => rref t
  | fn f r => fn f r

/-- The qualifiers of a type. -/
def quals : Ty → CV
  | base q _ => q
  | ptr q _ => q
  | member q _ _ => q
  | arr _ t => t.quals
  | lref _ => {}
  | rref _ => {}
  | fn _ _ => {}

/-- Matching `q T` against a type gives the type without `q`. -/
def without (q : CV) : Ty → Ty
  | base q' b => base (q'.minus q) b
  | ptr q' t => ptr (q'.minus q) t
  | member q' k t => member (q'.minus q) k t
  | arr n t => arr n (t.without q)
  | lref t => lref t
  | rref t => rref t
  | fn f r => fn f r

/-- Does `T*` exist? -/
def canPoint : Ty → Bool
  | lref _ => false
  | rref _ => false
  | fn _ r => !r
  | _ => true

/-- Does `T&` exist? -/
def canRefer : Ty → Bool
  | base _ .void => false
  | fn _ r => !r
  | _ => true

/-- `T&`, with the collapsing of references. -/
def mkLref : Ty → Ty
  | lref t => lref t
  | rref t => lref t
  | t => lref t

/-- `T&&`, with the collapsing of references. -/
def mkRref : Ty → Ty
  | lref t => lref t
  | rref t => rref t
  | t => rref t

end Ty
open Ty

/-- `AddConstType` (Specifiers.h:26-30, 70-71). -/
def addConst (t : Ty) : Ty := t.qualify { c := true }
/-- `AddVolatileType` (Specifiers.h:32-36, 73-74). -/
def addVolatile (t : Ty) : Ty := t.qualify { v := true }
/-- `AddCVType` (Specifiers.h:38-42, 76-77). -/
def addCV (t : Ty) : Ty := t.qualify { c := true, v := true }

/-- `__RemoveCV<T>::Type` (Specifiers.h:44-66): four templates, the most specialised that matches. -/
def removeCVStruct (t : Ty) : Ty :=
  if t.quals.c && t.quals.v then t.without { c := true, v := true }
  else if t.quals.c then t.without { c := true }
  else if t.quals.v then t.without { v := true }
  else t

/-- `RemoveConstType` (Specifiers.h:79-80): `__RemoveCV<const T>`. -/
def removeConst (t : Ty) : Ty := removeCVStruct (t.qualify { c := true })
/-- `RemoveVolatileType` (Specifiers.h:82-83): `__RemoveCV<volatile T>`. -/
def removeVolatile (t : Ty) : Ty := removeCVStruct (t.qualify { v := true })
/-- `RemoveCVType` (Specifiers.h:85-86). -/
def removeCV (t : Ty) : Ty := removeCVStruct t

/-- `RemoveReferenceType` (References.h:38-54, 64-65). -/
def removeReference : Ty → Ty
  | lref t => t
  | rref t => t
  | t => t

/-- `AddLValueReferenceType` (References.h:26-30, 58-59): the first overload takes part if `T*` and `T&` exist. -/
def addLref (t : Ty) : Ty := if t.canPoint && t.canRefer then t.mkLref else t
/-- `AddRValueReferenceType` (References.h:32-36, 61-62). -/
def addRref (t : Ty) : Ty := if t.canPoint && t.canRefer then t.mkRref else t

/-- `AddPointerType` (Pointers.h:26-30, 64-65): the first overload takes part if `T*` exists. -/
def addPointer (t : Ty) : Ty := if t.canPoint then ptr {} (removeReference t) else t
/-- `RemovePointerType` (Pointers.h:32-60, 67-68): one specialisation for each set of qualifiers. -/
def removePointer : Ty → Ty
  | ptr ⟨false, false⟩ t => t
  | ptr ⟨true, false⟩ t => t
  | ptr ⟨false, true⟩ t => t
  | ptr ⟨true, true⟩ t => t
  | t => t

/-- `Same<T, U>()` (Types/Relationships.h:26-39, Constraints/Relationships.h:25-29). -/
def same (t u : Ty) : Bool := t = u
/-- `Different<T, U>()` (Constraints/Relationships.h:31-35). -/
def different (t u : Ty) : Bool := !same t u

/-- `IsVoid<T>()` (Types/Primary.h:26-29, Constraints/Primary.h:25-29). -/
def isVoid (t : Ty) : Bool := same (base {} .void) (removeCV t)
/-- `IsNullPointer<T>()` (Types/Primary.h:31-34, Constraints/Primary.h:31-35). -/
def isNullPointer (t : Ty) : Bool := same (base {} .nullptr) (removeCV t)
/-- `IsBoolean<T>()` (Types/Primary.h:36-39, Constraints/Primary.h:37-41). -/
def isBoolean (t : Ty) : Bool := same (base {} .bool) (removeCV t)

/-- `IsCharacter<T>()` (Types/Primary.h:44-84, Constraints/Primary.h:43-47): full specialisations for unqualified types. -/
def isCharacter : Ty → Bool
  | base ⟨false, false⟩ .char => true
  | base ⟨false, false⟩ .schar => true
  | base ⟨false, false⟩ .uchar => true
  | base ⟨false, false⟩ .wchar => true
  | base ⟨false, false⟩ .char16 => true
  | base ⟨false, false⟩ .char32 => true
  | _ => false

/-- `IsInteger<T>()` (Types/Primary.h:87-140, Constraints/Primary.h:49-53). -/
def isInteger : Ty → Bool
  | base ⟨false, false⟩ .schar => true
  | base ⟨false, false⟩ .uchar => true
  | base ⟨false, false⟩ .short => true
  | base ⟨false, false⟩ .ushort => true
  | base ⟨false, false⟩ .int => true
  | base ⟨false, false⟩ .uint => true
  | base ⟨false, false⟩ .long => true
  | base ⟨false, false⟩ .ulong => true
  | base ⟨false, false⟩ .llong => true
  | base ⟨false, false⟩ .ullong => true
  | _ => false

/-- `IsIntegral<T>()` (Constraints/Primary.h:55-59). -/
def isIntegral (t : Ty) : Bool := isCharacter t || isInteger t || isBoolean t

/-- `IsFloating<T>()` (Types/Primary.h:143-161, Constraints/Primary.h:61-65). -/
def isFloating : Ty → Bool
  | base ⟨false, false⟩ .float => true
  | base ⟨false, false⟩ .double => true
  | base ⟨false, false⟩ .ldouble => true
  | _ => false

/-- `IsArray<T>()` (Types/Primary.h:163-176, Constraints/Primary.h:67-71). -/
def isArray : Ty → Bool
  | arr none _ => true
  | arr (some _) _ => true
  | _ => false

/-- `IsPointer<T>()` (Types/Primary.h:178-201, Constraints/Primary.h:97-101). -/
def isPointer : Ty → Bool
  | ptr ⟨false, false⟩ _ => true
  | ptr ⟨true, false⟩ _ => true
  | ptr ⟨false, true⟩ _ => true
  | ptr ⟨true, true⟩ _ => true
  | _ => false

/-- `__IsLValueReference<T>` (Types/Primary.h:203-211). -/
def isLrefStruct : Ty → Bool
  | lref _ => true
  | _ => false

/-- `IsLValueReference<T>()` (Constraints/Primary.h:103-107). -/
def isLref (t : Ty) : Bool := isLrefStruct t
/-- `IsRValueReference<T>()` (Constraints/Primary.h:109-113): asks `__IsLValueReference`. -/
def isRref (t : Ty) : Bool := isLrefStruct t

/-- `MakeSignedType` (SignModifiers.h:26-95, 170-171); `none`: no such type, the program does not compile. -/
def makeSigned : Ty → Option Ty
  | base ⟨false, false⟩ b =>
    match b with
    | .char => some (base {} .schar)
    | .uchar => some (base {} .schar)
    | .ushort => some (base {} .short)
    | .uint => some (base {} .int)
    | .ulong => some (base {} .long)
    | .ullong => some (base {} .llong)
    | .schar => some (base {} .schar)
    | .short => some (base {} .short)
    | .int => some (base {} .int)
    | .long => some (base {} .long)
    | .llong => some (base {} .llong)
    | _ => none
  | _ => none

/-- `MakeUnsignedType` (SignModifiers.h:97-166, 173-174). -/
def makeUnsigned : Ty → Option Ty
  | base ⟨false, false⟩ b =>
    match b with
    | .char => some (base {} .uchar)
    | .schar => some (base {} .uchar)
    | .short => some (base {} .ushort)
    | .int => some (base {} .uint)
    | .long => some (base {} .ulong)
    | .llong => some (base {} .ullong)
    | .uchar => some (base {} .uchar)
    | .ushort => some (base {} .ushort)
    | .uint => some (base {} .uint)
    | .ulong => some (base {} .ulong)
    | .ullong => some (base {} .ullong)
    | _ => none
  | _ => none

/-- `std::rank`. -/
def stdRank : Ty → Nat
  | arr _ t => stdRank t + 1
  | _ => 0

/-- `std::extent`: the first bound, 0 if unknown or not an array. -/
def stdExtent : Ty → Nat
  | arr (some n) _ => n
  | _ => 0

/-- conversion of a number to `Bool` in a `return` -/
def asBool (n : Nat) : Bool := n != 0

/-- `AlignmentOf<T>()` (PropertyQueries.h:27-31), given the alignment of the type. -/
def alignmentOf (alignment : Nat) : Bool := asBool alignment
/-- `Rank<T>()` (PropertyQueries.h:33-37). -/
def rank (t : Ty) : Bool := asBool (stdRank t)
/-- `Extent<T>()` (PropertyQueries.h:39-43). -/
def extent (t : Ty) : Bool := asBool (stdExtent t)

/-- `Required<Condition, Ret>` (Base.h:34-43, 74-75); `none`: no such type. -/
def required (condition : Bool) (ret : Ty) : Option Ty := if condition then some ret else none

/-- The operators that are asked for. -/
inductive Operator where
  | less | greater | add | subtract | multiply | divide | modulus | equal | notEqual | subscript | increment | decrement
  | bitAnd | bitOr | bitXor | shiftLeft | shiftRight | istream | ostream
  deriving DecidableEq, Repr

/-- An operand: a value (`std::declval<T>()`) or a variable (`std::declval<T&>()`). -/
inductive Operand where
  | value | variable
  deriving DecidableEq, Repr

/-- The expression a detector tests. -/
structure Expression where
  op : Operator
  operand : Operand
  deriving DecidableEq, Repr

/-- What `HasXxxOperatorType<T>` tests (Operators.h:27-215). -/
def tested : Operator → Expression
  | .less => ⟨.less, .value⟩
  | .greater => ⟨.greater, .value⟩
  | .add => ⟨.add, .value⟩
  | .subtract => ⟨.subtract, .value⟩
  | .multiply => ⟨.multiply, .value⟩
  | .divide => ⟨.divide, .value⟩
  | .modulus => ⟨.modulus, .value⟩
  | .equal => ⟨.equal, .value⟩
  | .notEqual => ⟨.notEqual, .value⟩
  | .subscript => ⟨.subscript, .value⟩
  | .increment => ⟨.increment, .variable⟩
  | .decrement => ⟨.decrement, .variable⟩
  | .bitAnd => ⟨.bitAnd, .value⟩
  | .bitOr => ⟨.bitAnd, .value⟩
  | .bitXor => ⟨.bitXor, .value⟩
  | .shiftLeft => ⟨.shiftLeft, .value⟩
  | .shiftRight => ⟨.shiftRight, .value⟩
  | .istream => ⟨.istream, .value⟩
  | .ostream => ⟨.ostream, .value⟩

/-- `HasXxxOperatorType<T>::Value`, given which expressions with operands of type `T` are valid. -/
def hasOperator (valid : Expression → Bool) (op : Operator) : Bool := valid (tested op)

end Caitlyn.Traits
