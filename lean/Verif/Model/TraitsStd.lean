import Verif.Model.Traits

/-!
# Model of the traits that forward to `<type_traits>`: categories and qualifiers

The categories of `<type_traits>` are those of the C++ standard ([meta.unary.cat], [meta.unary.comp]), for the types of `Ty`.
-/

namespace Caitlyn.Traits
open Caitlyn Ty

/-- `IsEnum<T>()` (Constraints/Primary.h:73-77): `std::is_enum`. -/
def isEnum : Ty → Bool
  | base _ (.enum _) => true
  | _ => false
/-- `IsUnion<T>()` (Constraints/Primary.h:79-83): `std::is_union`. -/
def isUnion : Ty → Bool
  | base _ (.union _) => true
  | _ => false
/-- `IsClass<T>()` (Constraints/Primary.h:85-89): `std::is_class`. -/
def isClass : Ty → Bool
  | base _ (.class _) => true
  | _ => false
/-- `IsFunction<T>()` (Constraints/Primary.h:91-95): `std::is_function`. -/
def isFunction : Ty → Bool
  | fn _ _ => true
  | _ => false
/-- `IsMemberObjectPointer<T>()` (Constraints/Primary.h:115-119): `std::is_member_object_pointer`. -/
def isMemberObjectPointer : Ty → Bool
  | member _ _ (fn _ _) => false
  | member _ _ _ => true
  | _ => false
/-- `IsMemberFunctionPointer<T>()` (Constraints/Primary.h:121-125): `std::is_member_function_pointer`. -/
def isMemberFunctionPointer : Ty → Bool
  | member _ _ (fn _ _) => true
  | _ => false

/-- The arithmetic types of the language, [basic.fundamental]. -/
def arithmeticBase : Base → Bool
  | .void | .nullptr | .class _ | .union _ | .enum _ => false
  | _ => true

/-- `IsFundamental<T>()` (Constraints/Composite.h:25-29): `std::is_fundamental`. -/
def isFundamental : Ty → Bool
  | base _ (.class _) => false
  | base _ (.union _) => false
  | base _ (.enum _) => false
  | base _ _ => true
  | _ => false
/-- `IsArithmetic<T>()` (Constraints/Composite.h:31-35): `std::is_arithmetic`. -/
def isArithmetic : Ty → Bool
  | base _ b => arithmeticBase b
  | _ => false
/-- `IsScalar<T>()` (Constraints/Composite.h:37-41): `std::is_scalar`. -/
def isScalar : Ty → Bool
  | base _ .nullptr => true
  | base _ (.enum _) => true
  | base _ b => arithmeticBase b
  | ptr _ _ => true
  | member _ _ _ => true
  | _ => false
/-- `IsObject<T>()` (Constraints/Composite.h:43-47): `std::is_object`. -/
def isObject : Ty → Bool
  | base _ .void => false
  | lref _ => false
  | rref _ => false
  | fn _ _ => false
  | _ => true
/-- `IsCompound<T>()` (Constraints/Composite.h:49-53): `std::is_compound`. -/
def isCompound (t : Ty) : Bool := !isFundamental t
/-- `IsReference<T>()` (Constraints/Composite.h:55-59): `std::is_reference`. -/
def isReference : Ty → Bool
  | lref _ => true
  | rref _ => true
  | _ => false
/-- `IsMemberPointer<T>()` (Constraints/Composite.h:61-65): `std::is_member_pointer`. -/
def isMemberPointer : Ty → Bool
  | member _ _ _ => true
  | _ => false

/-- `IsConst<T>()` (Constraints/Properties.h:25-29): `std::is_const`. -/
def isConst (t : Ty) : Bool := t.quals.c
/-- `IsVolatile<T>()` (Constraints/Properties.h:31-35): `std::is_volatile`. -/
def isVolatile (t : Ty) : Bool := t.quals.v

/-- `BooleanConstant<B>::operator()`, `explicit operator ValueType` and `Value` (Types/Base.h:44-66). -/
structure BooleanConstant where
  /-- the template argument -/
  b : Bool
  deriving DecidableEq, Repr

/-- `BooleanConstant<B>::Value` (Types/Base.h:65). -/
def BooleanConstant.value (x : BooleanConstant) : Bool := x.b
/-- `operator ValueType` (Types/Base.h:54-57). -/
def BooleanConstant.convert (x : BooleanConstant) : Bool := x.value
/-- `operator()` (Types/Base.h:59-62). -/
def BooleanConstant.call (x : BooleanConstant) : Bool := x.value

end Caitlyn.Traits
