import Verif.Model.Headers

/-!
# Model of what the bodies of the headers need to be compiled

On top of `Headers`: the body of a header uses names and macros of other headers, which must have been read before. Names that are
found only when a template is instantiated or a macro is expanded are left out of `uses`; those of macros are in `expands`. Whether
a body is correct otherwise (types, overloads, the standard library) is not part of this model.
-/

namespace Caitlyn.Headers

/-- The headers that declare the names and macros that the body of a header uses when it is read, other than those of its own. -/
def uses : File → List File
  | .Caitlyn_Types => [.Caitlyn_Namespace, .Caitlyn_Config]
  | .Core_Algorithms => [.Caitlyn_Config]
  | .Core_Char_Defs => [.Caitlyn_Namespace]
  | .Core_Char_Char => [.Caitlyn_Namespace, .Caitlyn_Types]
  | .Core_Char_Utility => [.Caitlyn_Namespace, .Caitlyn_Types, .Core_Char_Char]
  | .Core_Char => [.Caitlyn_Config]
  | .Core_Collections_Utility_MapUtility => [.Caitlyn_Namespace]
  | .Core_DateTime => [.Caitlyn_Config]
  | .Core_String_Algorithms_Kmp => [.Caitlyn_Namespace]
  | .Core_Traits_Types_Base => [.Caitlyn_Namespace, .Caitlyn_Types]
  | .Core_Traits_Constraints_String => [.Caitlyn_Namespace, .Caitlyn_Types, .Core_Traits_Types_Base]
  | .Core_Traits_Types_Relationships => [.Caitlyn_Namespace, .Core_Traits_Types_Base]
  | .Core_Traits_Types_Specifiers => [.Caitlyn_Namespace]
  | .Core_Traits_Types_Primary => [.Caitlyn_Namespace, .Caitlyn_Config, .Caitlyn_Types, .Core_Traits_Types_Base,
      .Core_Traits_Types_Relationships, .Core_Traits_Types_Specifiers]
  | .Core_Traits_Constraints_Primary => [.Caitlyn_Namespace, .Caitlyn_Types, .Core_Traits_Types_Primary]
  | .Core_String_String => [.Caitlyn_Namespace, .Caitlyn_Types, .Core_Char_Defs, .Core_Char_Char, .Core_Char_Utility,
      .Core_Traits_Types_Base, .Core_Traits_Constraints_String, .Core_Traits_Constraints_Primary]
  | .Core_String_StringBuilder => [.Caitlyn_Namespace, .Core_Char_Defs, .Core_String_String]
  | .Core_String_Defs => [.Caitlyn_Namespace]
  | .Core_String_Utility => [.Caitlyn_Namespace, .Core_Char_Defs, .Core_Char_Char, .Core_Char_Utility, .Core_String_String]
  | .Core_String => [.Caitlyn_Config]
  | .Core_Error_Unexpected => [.Caitlyn_Namespace, .Core_String_String]
  | .Core_Traits_Constraints_Composite => [.Caitlyn_Namespace, .Caitlyn_Types]
  | .Core_Traits_Constraints_Operations => [.Caitlyn_Namespace, .Caitlyn_Types]
  | .Core_Traits_Types_Properties => [.Caitlyn_Namespace, .Core_Traits_Types_Base]
  | .Core_Traits_Constraints_Properties => [.Caitlyn_Namespace, .Caitlyn_Types, .Core_Traits_Types_Properties]
  | .Core_Traits_Constraints_PropertyQueries => [.Caitlyn_Namespace, .Caitlyn_Types]
  | .Core_Traits_Constraints_Relationships => [.Caitlyn_Namespace, .Caitlyn_Types, .Core_Traits_Types_Relationships]
  | .Core_Traits_Types_Collections => [.Caitlyn_Namespace, .Core_Traits_Types_Base]
  | .Core_Traits_Types_Operators => [.Caitlyn_Namespace, .Core_Traits_Types_Base]
  | .Core_Traits_Types_References => [.Caitlyn_Namespace, .Core_Traits_Types_Base]
  | .Core_Traits_Types_Pointers => [.Caitlyn_Namespace, .Core_Traits_Types_Base, .Core_Traits_Types_References]
  | .Core_Traits_Types_SignModifiers => [.Caitlyn_Namespace]
  | .Core_Traits => [.Caitlyn_Namespace, .Core_Traits_Constraints_Primary, .Core_Traits_Types_References]
  | .Core_Utility_Comparators => [.Caitlyn_Namespace]
  | .Core_Utility_Random => [.Caitlyn_Namespace, .Caitlyn_Types]
  | .Core_Error_Expected => [.Caitlyn_Namespace, .Core_Traits_Types_Base, .Core_String_String, .Core_Error_Unexpected,
      .Core_Traits_Constraints_Operations]
  | .Core_Error => [.Caitlyn_Config]
  | .Core_File_File => [.Caitlyn_Namespace, .Caitlyn_Types, .Core_Char_Defs, .Core_Traits_Types_Base,
      .Core_Traits_Constraints_String, .Core_String_String]
  | .Core_IO_Stream => [.Caitlyn_Namespace, .Core_Char_Defs, .Core_Char_Char, .Core_Traits_Types_Base,
      .Core_Traits_Constraints_String, .Core_String_String, .Core_String_Defs]
  | .Core_IO => [.Caitlyn_Config]
  | .Core_Memory_Types_DataSize => [.Caitlyn_Namespace, .Caitlyn_Types]
  | .Core_Memory_Types_MemoryFormat => [.Caitlyn_Namespace, .Caitlyn_Types]
  | .Core_Memory_Types_RawPointer => [.Caitlyn_Namespace, .Caitlyn_Types]
  | .Core_Memory_Types_SharedPointer => [.Caitlyn_Namespace, .Caitlyn_Types]
  | .Core_Memory_Types_UniquePointer => [.Caitlyn_Namespace, .Caitlyn_Types]
  | .Core_Memory_Types_WeakPointer => [.Caitlyn_Namespace, .Caitlyn_Types, .Core_Memory_Types_SharedPointer]
  | .Core_Memory_Utility_SizeCalculation => [.Caitlyn_Namespace, .Caitlyn_Types, .Core_Memory_Types_MemoryFormat]
  | .Core_Memory => [.Caitlyn_Config]
  | .Core_Numeric_Types_Radix => [.Caitlyn_Namespace, .Caitlyn_Types]
  | .Core_Numeric_Types_Sign => [.Caitlyn_Namespace, .Caitlyn_Types]
  | .Core_Numeric_Utility_Limits => [.Caitlyn_Namespace]
  | .Core_Numeric => [.Caitlyn_Config]
  | .Core_System => [.Caitlyn_Config]
  | .Core_Threads => [.Caitlyn_Config]
  | .Numeric_Types_BigInteger => [.Caitlyn_Namespace, .Caitlyn_Types, .Core_Char_Defs, .Core_Char_Utility, .Core_String_String]
  | .Numeric_Types_BigFloat => [.Caitlyn_Namespace, .Caitlyn_Types, .Core_Char_Defs, .Core_String_String,
      .Numeric_Types_BigInteger]
  | .Serializing_Json_Types_JsonClass => [.Caitlyn_Namespace]
  | .Serializing_Json_Types_JsonData => [.Caitlyn_Namespace, .Caitlyn_Types, .Core_Char_Defs, .Core_String_String,
      .Serializing_Json_Types_JsonClass]
  | .Serializing_Json_Types_JsonError => [.Caitlyn_Namespace]
  | .Serializing_Json_Types_JsonParser => [.Caitlyn_Namespace, .Caitlyn_Types, .Core_Char_Defs, .Core_Char_Utility,
      .Core_String_String, .Core_String_Utility, .Serializing_Json_Types_JsonData, .Serializing_Json_Types_JsonError]
  | .Serializing_Json_Utility => [.Caitlyn_Namespace, .Serializing_Json_Types_JsonError]
  | .Serializing_Json_Types_Json => [.Caitlyn_Namespace, .Caitlyn_Types, .Core_String_String,
      .Serializing_Json_Types_JsonClass, .Serializing_Json_Types_JsonData, .Serializing_Json_Types_JsonError, .Serializing_Json_Types_JsonParser, .Serializing_Json_Utility]
  | .Testing_Types_TestFunction => [.Caitlyn_Namespace]
  | .Testing_Types_TestCase => [.Caitlyn_Namespace, .Caitlyn_Types, .Core_String_String, .Testing_Types_TestFunction]
  | .Testing_Types_TestFailMessage => [.Caitlyn_Namespace, .Core_String_String]
  | .Testing_Types_TestRegistry => [.Caitlyn_Namespace, .Caitlyn_Types, .Core_String_String, .Testing_Types_TestFunction,
      .Testing_Types_TestCase]
  | .Caitlyn_Application => [.Caitlyn_Namespace, .Caitlyn_Config]
  | _ => []

/-- The headers that declare what the macros of a header expand to: `JSON_STRING` (Json/Defs.h:21), the assertions (Assert.h:24-123),
`TEST_F` (TestFixture.h:23-40) and `TEST` (Test.h:23-37). -/
def expands : File → List File
  | .Serializing_Json_Defs => [.Serializing_Json_Types_Json]
  | .Testing_Macro_Assert => [.Core_Traits_Types_Operators, .Testing_Types_TestFailMessage]
  | .Testing_Macro_TestFixture => [.Testing_Types_TestRegistry]
  | .Testing_Macro_Test => [.Testing_Types_TestRegistry]
  | _ => []

/-- Why the compiler rejects a header: it uses a name of another header that has not been declared, or it specialises a template that
is declared nowhere. -/
inductive Reject where
  | undeclared (file declaredIn : File)
  | noTemplate (file : File)
  deriving DecidableEq, Repr

/-- From C++20 on, Primary.h specialises `__IsCharacterType`, a template that does not exist; the template is called `__IsCharacter`
(Types/Primary.h:69-74). -/
def specialises (cxx20 : Bool) (f : File) : Bool := cxx20 && f == .Core_Traits_Types_Primary

/-- Compiles the bodies in the order in which they were read; `seen` have been compiled. -/
def compileFrom (cxx20 : Bool) (seen : List File) : List File → Except Reject Unit
  | [] => .ok ()
  | f :: rest =>
    match (uses f).find? (· ∉ seen) with
    | some g => .error (.undeclared f g)
    | none => if specialises cxx20 f then .error (.noTemplate f) else compileFrom cxx20 (f :: seen) rest

/-- Compiles a translation unit. `cxx20` is the value of `__CAITLYN_HAS_CXX20` (`Config.has`). -/
def Tu.compile (cxx20 : Bool) (tu : Tu) : Except Reject Unit := compileFrom cxx20 [] tu.out

end Caitlyn.Headers
