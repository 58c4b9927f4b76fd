import Verif.Model.Headers
import Verif.Model.Traits

/-! # Where the operators of the library are found

`a + b` for objects of a class is looked up in three ways: among the members of the class, by ordinary lookup (the innermost scope
around the expression that declares an `operator+` at all) and in the namespaces that belong to the operands. All classes of the
library are in the namespace `Caitlyn`, but their operators that are not members are declared in the global namespace, behind the end
of the namespace `Caitlyn` of their header. `Caitlyn` itself declares no operator, so the third way finds only the operators of
`Unexpected<E>`, and those only if `E` belongs to the global namespace.

Inside of a template, ordinary lookup sees only what has been declared before the template; this is what decides about
`HasLessOperatorType` and the like (Operators.h).

Simplifications: a conversion counts only where the library has a constructor for it (BigInteger.h:51, BigFloat.h:41, Json.h:38, none
of them explicit); a scope of the user that declares an operator of the same name declares none that takes the operands. -/

namespace Caitlyn.Lookup
open Headers Traits

/-- The classes of the library that have operators. `unexpected g` is `Unexpected<E>`; `g` tells whether `E` is a class of the global
namespace. -/
inductive Cls where
  | string | char | bigInteger | bigFloat | json | unexpected (global : Bool) | rawPtr | uniquePtr | sharedPtr | weakPtr
  deriving DecidableEq, Repr

/-- The header of a class. -/
def Cls.header : Cls → File
  | .string => .Core_String_String
  | .char => .Core_Char_Char
  | .bigInteger => .Numeric_Types_BigInteger
  | .bigFloat => .Numeric_Types_BigFloat
  | .json => .Serializing_Json_Types_Json
  | .unexpected _ => .Core_Error_Unexpected
  | .rawPtr => .Core_Memory_Types_RawPointer
  | .uniquePtr => .Core_Memory_Types_UniquePointer
  | .sharedPtr => .Core_Memory_Types_SharedPointer
  | .weakPtr => .Core_Memory_Types_WeakPointer

/-- The operators that are members and take a second object of the same class: String.h:248-253, 335-363, Char.h:134-162,
RawPointer.h:85-93, UniquePointer.h:97-105, SharedPointer.h:121-129, WeakPointer.h:90-98. -/
def member : Cls → Operator → Bool
  | .string, .less | .string, .greater | .string, .equal | .string, .notEqual | .string, .add => true
  | .char, .less | .char, .greater | .char, .equal | .char, .notEqual => true
  | .rawPtr, .equal | .rawPtr, .notEqual => true
  | .uniquePtr, .equal | .uniquePtr, .notEqual => true
  | .sharedPtr, .equal | .sharedPtr, .notEqual => true
  | .weakPtr, .equal | .weakPtr, .notEqual => true
  | _, _ => false

/-- The operators of the global namespace: String.h:1011-1026, Char.h:291-295, BigInteger.h:411-470, BigFloat.h:363-417,
Json.h:219-231, Unexpected.h:60-71. All of them stand in the header of their class. -/
def free : Cls → Operator → Bool
  | .string, .istream | .string, .ostream => true
  | .char, .ostream => true
  | .bigInteger, .less | .bigInteger, .greater | .bigInteger, .equal | .bigInteger, .notEqual => true
  | .bigInteger, .add | .bigInteger, .subtract | .bigInteger, .multiply | .bigInteger, .divide | .bigInteger, .modulus => true
  | .bigInteger, .ostream => true
  | .bigFloat, .less | .bigFloat, .greater | .bigFloat, .equal | .bigFloat, .notEqual => true
  | .bigFloat, .add | .bigFloat, .subtract | .bigFloat, .multiply | .bigFloat, .divide => true
  | .bigFloat, .ostream => true
  | .json, .istream | .json, .ostream => true
  | .unexpected _, .equal | .unexpected _, .notEqual => true
  | _, _ => false

/-- The classes that an object of a class is converted to without being asked (BigInteger.h:51, BigFloat.h:41, Json.h:38). -/
def converts : Cls → List Cls
  | .string => [.bigInteger, .bigFloat, .json]
  | _ => []

/-- Whether the operator of the class itself is found in the global namespace, which has been read up to `seen` where the expression
stands and up to `all` where the source file ends. -/
def own (seen all : List File) (c : Cls) (op : Operator) : Bool :=
  free c op && decide (c.header ∈ (if c = .unexpected true then all else seen))

/-- The operators of other classes that take the operands after a conversion. -/
def others (seen : List File) (c : Cls) (op : Operator) : List Cls :=
  (converts c).filter fun d => free d op && decide (d.header ∈ seen)

/-- Whether an expression with two objects of a class (or with a stream and one) compiles. `is >> x` needs a variable that is an
object of the class itself; two operators that both need a conversion of the operands are ambiguous. -/
def valid (seen all : List File) (c : Cls) (e : Expression) : Bool :=
  if e.op = .istream then e.operand = .variable && own seen all c .istream
  else member c e.op || own seen all c e.op || (others seen c e.op).length == 1

/-- The expression in a function of the global namespace or of a namespace that declares no such operator. -/
def inSource (tu : Tu) : Cls → Expression → Bool := valid tu.out tu.out

/-- The expression in a namespace that declares an operator of that name for something else: the global ones are hidden. -/
def inNamespace (tu : Tu) : Cls → Expression → Bool := valid [] tu.out

/-- Templates of the standard library that use an operator of the objects they are given; `std` declares operators of all these
names. -/
inductive Algorithm where
  | sort | find | sortGreater | accumulate | minus | multiplies | ostreamIterator | istreamIterator
  deriving DecidableEq, Repr

/-- What `std::sort`, `std::set` and `std::less<T>`; `std::find`; `std::greater<T>`; `std::accumulate`; `std::minus<T>`;
`std::multiplies<T>`; `std::ostream_iterator<T>`; `std::istream_iterator<T>` write down for their objects. -/
def Algorithm.uses : Algorithm → Expression
  | .sort => ⟨.less, .variable⟩
  | .find => ⟨.equal, .variable⟩
  | .sortGreater => ⟨.greater, .variable⟩
  | .accumulate => ⟨.add, .variable⟩
  | .minus => ⟨.subtract, .variable⟩
  | .multiplies => ⟨.multiply, .variable⟩
  | .ostreamIterator => ⟨.ostream, .variable⟩
  | .istreamIterator => ⟨.istream, .variable⟩

/-- Whether a template of the standard library can be used for a class. -/
def works (tu : Tu) (a : Algorithm) (c : Cls) : Bool := inNamespace tu c a.uses

/-- `HasXxxOperatorType<T>::Value` in a source file (Operators.h:27-215): the templates see the operators of the headers that have
been read before. -/
def detects (tu : Tu) (c : Cls) (op : Operator) : Bool :=
  hasOperator (valid (tu.out.takeWhile (· ≠ .Core_Traits_Types_Operators)) tu.out c) op

end Caitlyn.Lookup
