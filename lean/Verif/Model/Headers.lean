import Verif.Basic

/-!
# Model of the headers: what `#include` does

A header is a file below include/Caitlyn. The model has the headers of the library that it includes (in order), whether it has an
include guard, and the names with external linkage that it defines without `inline`, so that only one translation unit may define
them. Every guard is a macro that no other header uses, so that the guards are named by their headers. The headers of the standard
library, the conditions on the language standard around them and the bodies themselves are left out. In every header the includes
stand before the body (Config.h, whose body consists of macros, excepted); the headers without a guard have no body.
-/

namespace Caitlyn.Headers

/-- The headers: every file below include/Caitlyn, each one after those it includes. The headers for users, which have no extension,
are called `Public...`. -/
inductive File where
  | Caitlyn_Namespace | Caitlyn_Config | Caitlyn_Types | Base | Core_Algorithms | Core_Char_Defs | Core_Char_Char
  | Core_Char_Utility | Core_Char | Core_Collections_Utility_MapUtility | Core_Collections_Utility | Core_Collections
  | Core_Date | Core_Time | Core_DateTime | Core_String_Algorithms_Kmp | Core_String_Algorithms | Core_Traits_Types_Base
  | Core_Traits_Constraints_String | Core_Traits_Types_Relationships | Core_Traits_Types_Specifiers
  | Core_Traits_Types_Primary | Core_Traits_Constraints_Primary | Core_String_String | Core_String_StringBuilder
  | Core_String_Defs | Core_String_Utility | Core_String | Core_Error_Unexpected | Core_Traits_Constraints_Composite
  | Core_Traits_Constraints_Operations | Core_Traits_Types_Properties | Core_Traits_Constraints_Properties
  | Core_Traits_Constraints_PropertyQueries | Core_Traits_Constraints_Relationships | Core_Traits_Constraints
  | Core_Traits_Types_Collections | Core_Traits_Types_Operators | Core_Traits_Types_References | Core_Traits_Types_Pointers
  | Core_Traits_Types_SignModifiers | Core_Traits_Types | Core_Traits | Core_Utility_Comparators | Core_Utility_Random
  | Core_Utility | Core_Error_Expected | Core_Error | Core_File_File | Core_File | Core_IO_Stream | Core_IO
  | Core_Memory_Types_DataSize | Core_Memory_Types_MemoryFormat | Core_Memory_Types_RawPointer
  | Core_Memory_Types_SharedPointer | Core_Memory_Types_UniquePointer | Core_Memory_Types_WeakPointer | Core_Memory_Types
  | Core_Memory_Utility_SizeCalculation | Core_Memory_Utility | Core_Memory | Core_Numeric_Types_Radix
  | Core_Numeric_Types_Sign | Core_Numeric_Types | Core_Numeric_Utility_Limits | Core_Numeric_Utility | Core_Numeric
  | Core_System | Core_Threads | Numeric_Types_BigInteger | Numeric_Types_BigFloat | Numeric_Types | Serializing_Json_Defs
  | Serializing_Json_Types_JsonClass | Serializing_Json_Types_JsonData | Serializing_Json_Types_JsonError
  | Serializing_Json_Types_JsonParser | Serializing_Json_Utility | Serializing_Json_Types_Json | Serializing_Json_Types
  | Serializing_Json | Testing_Types_TestFunction | Testing_Types_TestCase | Testing_Types_TestFailMessage
  | Testing_Types_TestRegistry | Testing_Types | Testing_Macro_Assert | Testing_Macro_TestFixture | Testing_Macro_Test
  | Testing_Macro | Caitlyn_Application | Caitlyn | PublicAlgorithms | PublicCaitlyn | PublicChar | PublicCollections
  | PublicDateTime | PublicError | PublicFile | PublicIO | PublicMemory | PublicNumeric | PublicSerializing | PublicString
  | PublicSystem | PublicTesting | PublicThreading | PublicTraits | PublicUtility
  deriving DecidableEq, Repr

/-- The path below include. -/
def path : File → String
  | .Caitlyn_Namespace => "Caitlyn/__Caitlyn/Namespace.h"
  | .Caitlyn_Config => "Caitlyn/__Caitlyn/Config.h"
  | .Caitlyn_Types => "Caitlyn/__Caitlyn/Types.h"
  | .Base => "Caitlyn/__Base.h"
  | .Core_Algorithms => "Caitlyn/__Core/Algorithms.h"
  | .Core_Char_Defs => "Caitlyn/__Core/Char/Defs.h"
  | .Core_Char_Char => "Caitlyn/__Core/Char/Char.h"
  | .Core_Char_Utility => "Caitlyn/__Core/Char/Utility.h"
  | .Core_Char => "Caitlyn/__Core/Char.h"
  | .Core_Collections_Utility_MapUtility => "Caitlyn/__Core/Collections/Utility/MapUtility.h"
  | .Core_Collections_Utility => "Caitlyn/__Core/Collections/Utility.h"
  | .Core_Collections => "Caitlyn/__Core/Collections.h"
  | .Core_Date => "Caitlyn/__Core/Date.h"
  | .Core_Time => "Caitlyn/__Core/Time.h"
  | .Core_DateTime => "Caitlyn/__Core/DateTime.h"
  | .Core_String_Algorithms_Kmp => "Caitlyn/__Core/String/Algorithms/Kmp.h"
  | .Core_String_Algorithms => "Caitlyn/__Core/String/Algorithms.h"
  | .Core_Traits_Types_Base => "Caitlyn/__Core/Traits/Types/Base.h"
  | .Core_Traits_Constraints_String => "Caitlyn/__Core/Traits/Constraints/String.h"
  | .Core_Traits_Types_Relationships => "Caitlyn/__Core/Traits/Types/Relationships.h"
  | .Core_Traits_Types_Specifiers => "Caitlyn/__Core/Traits/Types/Specifiers.h"
  | .Core_Traits_Types_Primary => "Caitlyn/__Core/Traits/Types/Primary.h"
  | .Core_Traits_Constraints_Primary => "Caitlyn/__Core/Traits/Constraints/Primary.h"
  | .Core_String_String => "Caitlyn/__Core/String/String.h"
  | .Core_String_StringBuilder => "Caitlyn/__Core/String/StringBuilder.h"
  | .Core_String_Defs => "Caitlyn/__Core/String/Defs.h"
  | .Core_String_Utility => "Caitlyn/__Core/String/Utility.h"
  | .Core_String => "Caitlyn/__Core/String.h"
  | .Core_Error_Unexpected => "Caitlyn/__Core/Error/Unexpected.h"
  | .Core_Traits_Constraints_Composite => "Caitlyn/__Core/Traits/Constraints/Composite.h"
  | .Core_Traits_Constraints_Operations => "Caitlyn/__Core/Traits/Constraints/Operations.h"
  | .Core_Traits_Types_Properties => "Caitlyn/__Core/Traits/Types/Properties.h"
  | .Core_Traits_Constraints_Properties => "Caitlyn/__Core/Traits/Constraints/Properties.h"
  | .Core_Traits_Constraints_PropertyQueries => "Caitlyn/__Core/Traits/Constraints/PropertyQueries.h"
  | .Core_Traits_Constraints_Relationships => "Caitlyn/__Core/Traits/Constraints/Relationships.h"
  | .Core_Traits_Constraints => "Caitlyn/__Core/Traits/Constraints.h"
  | .Core_Traits_Types_Collections => "Caitlyn/__Core/Traits/Types/Collections.h"
  | .Core_Traits_Types_Operators => "Caitlyn/__Core/Traits/Types/Operators.h"
  | .Core_Traits_Types_References => "Caitlyn/__Core/Traits/Types/References.h"
  | .Core_Traits_Types_Pointers => "Caitlyn/__Core/Traits/Types/Pointers.h"
  | .Core_Traits_Types_SignModifiers => "Caitlyn/__Core/Traits/Types/SignModifiers.h"
  | .Core_Traits_Types => "Caitlyn/__Core/Traits/Types.h"
  | .Core_Traits => "Caitlyn/__Core/Traits.h"
  | .Core_Utility_Comparators => "Caitlyn/__Core/Utility/Comparators.h"
  | .Core_Utility_Random => "Caitlyn/__Core/Utility/Random.h"
  | .Core_Utility => "Caitlyn/__Core/Utility.h"
  | .Core_Error_Expected => "Caitlyn/__Core/Error/Expected.h"
  | .Core_Error => "Caitlyn/__Core/Error.h"
  | .Core_File_File => "Caitlyn/__Core/File/File.h"
  | .Core_File => "Caitlyn/__Core/File.h"
  | .Core_IO_Stream => "Caitlyn/__Core/IO/Stream.h"
  | .Core_IO => "Caitlyn/__Core/IO.h"
  | .Core_Memory_Types_DataSize => "Caitlyn/__Core/Memory/Types/DataSize.h"
  | .Core_Memory_Types_MemoryFormat => "Caitlyn/__Core/Memory/Types/MemoryFormat.h"
  | .Core_Memory_Types_RawPointer => "Caitlyn/__Core/Memory/Types/RawPointer.h"
  | .Core_Memory_Types_SharedPointer => "Caitlyn/__Core/Memory/Types/SharedPointer.h"
  | .Core_Memory_Types_UniquePointer => "Caitlyn/__Core/Memory/Types/UniquePointer.h"
  | .Core_Memory_Types_WeakPointer => "Caitlyn/__Core/Memory/Types/WeakPointer.h"
  | .Core_Memory_Types => "Caitlyn/__Core/Memory/Types.h"
  | .Core_Memory_Utility_SizeCalculation => "Caitlyn/__Core/Memory/Utility/SizeCalculation.h"
  | .Core_Memory_Utility => "Caitlyn/__Core/Memory/Utility.h"
  | .Core_Memory => "Caitlyn/__Core/Memory.h"
  | .Core_Numeric_Types_Radix => "Caitlyn/__Core/Numeric/Types/Radix.h"
  | .Core_Numeric_Types_Sign => "Caitlyn/__Core/Numeric/Types/Sign.h"
  | .Core_Numeric_Types => "Caitlyn/__Core/Numeric/Types.h"
  | .Core_Numeric_Utility_Limits => "Caitlyn/__Core/Numeric/Utility/Limits.h"
  | .Core_Numeric_Utility => "Caitlyn/__Core/Numeric/Utility.h"
  | .Core_Numeric => "Caitlyn/__Core/Numeric.h"
  | .Core_System => "Caitlyn/__Core/System.h"
  | .Core_Threads => "Caitlyn/__Core/Threads.h"
  | .Numeric_Types_BigInteger => "Caitlyn/__Numeric/Types/BigInteger.h"
  | .Numeric_Types_BigFloat => "Caitlyn/__Numeric/Types/BigFloat.h"
  | .Numeric_Types => "Caitlyn/__Numeric/Types.h"
  | .Serializing_Json_Defs => "Caitlyn/__Serializing/Json/Defs.h"
  | .Serializing_Json_Types_JsonClass => "Caitlyn/__Serializing/Json/Types/JsonClass.h"
  | .Serializing_Json_Types_JsonData => "Caitlyn/__Serializing/Json/Types/JsonData.h"
  | .Serializing_Json_Types_JsonError => "Caitlyn/__Serializing/Json/Types/JsonError.h"
  | .Serializing_Json_Types_JsonParser => "Caitlyn/__Serializing/Json/Types/JsonParser.h"
  | .Serializing_Json_Utility => "Caitlyn/__Serializing/Json/Utility.h"
  | .Serializing_Json_Types_Json => "Caitlyn/__Serializing/Json/Types/Json.h"
  | .Serializing_Json_Types => "Caitlyn/__Serializing/Json/Types.h"
  | .Serializing_Json => "Caitlyn/__Serializing/Json.h"
  | .Testing_Types_TestFunction => "Caitlyn/__Testing/Types/TestFunction.h"
  | .Testing_Types_TestCase => "Caitlyn/__Testing/Types/TestCase.h"
  | .Testing_Types_TestFailMessage => "Caitlyn/__Testing/Types/TestFailMessage.h"
  | .Testing_Types_TestRegistry => "Caitlyn/__Testing/Types/TestRegistry.h"
  | .Testing_Types => "Caitlyn/__Testing/Types.h"
  | .Testing_Macro_Assert => "Caitlyn/__Testing/Macro/Assert.h"
  | .Testing_Macro_TestFixture => "Caitlyn/__Testing/Macro/TestFixture.h"
  | .Testing_Macro_Test => "Caitlyn/__Testing/Macro/Test.h"
  | .Testing_Macro => "Caitlyn/__Testing/Macro.h"
  | .Caitlyn_Application => "Caitlyn/__Caitlyn/Application.h"
  | .Caitlyn => "Caitlyn/__Caitlyn.h"
  | .PublicAlgorithms => "Caitlyn/Algorithms"
  | .PublicCaitlyn => "Caitlyn/Caitlyn"
  | .PublicChar => "Caitlyn/Char"
  | .PublicCollections => "Caitlyn/Collections"
  | .PublicDateTime => "Caitlyn/DateTime"
  | .PublicError => "Caitlyn/Error"
  | .PublicFile => "Caitlyn/File"
  | .PublicIO => "Caitlyn/IO"
  | .PublicMemory => "Caitlyn/Memory"
  | .PublicNumeric => "Caitlyn/Numeric"
  | .PublicSerializing => "Caitlyn/Serializing"
  | .PublicString => "Caitlyn/String"
  | .PublicSystem => "Caitlyn/System"
  | .PublicTesting => "Caitlyn/Testing"
  | .PublicThreading => "Caitlyn/Threading"
  | .PublicTraits => "Caitlyn/Traits"
  | .PublicUtility => "Caitlyn/Utility"

/-- The name in an `#include`: the path of a file, or that path in lower case. -/
inductive Name where
  | exact (f : File)
  | lowered (f : File)
  deriving DecidableEq, Repr

/-- The `#include "..."` lines of each header. `__Caitlyn.h` includes Application.h by a name in lower case (__Caitlyn.h:21). -/
def includes : File → List Name
  | .Caitlyn_Namespace => []
  | .Caitlyn_Config => [.exact .Caitlyn_Namespace]
  | .Caitlyn_Types => [.exact .Caitlyn_Config]
  | .Base => [.exact .Caitlyn_Config, .exact .Caitlyn_Types]
  | .Core_Algorithms => [.exact .Base]
  | .Core_Char_Defs => [.exact .Base]
  | .Core_Char_Char => [.exact .Base]
  | .Core_Char_Utility => [.exact .Core_Char_Char]
  | .Core_Char => [.exact .Core_Char_Defs, .exact .Core_Char_Char, .exact .Core_Char_Utility]
  | .Core_Collections_Utility_MapUtility => [.exact .Base]
  | .Core_Collections_Utility => [.exact .Core_Collections_Utility_MapUtility]
  | .Core_Collections => [.exact .Core_Collections_Utility]
  | .Core_Date => []
  | .Core_Time => []
  | .Core_DateTime => [.exact .Base, .exact .Core_Date, .exact .Core_Time]
  | .Core_String_Algorithms_Kmp => [.exact .Base]
  | .Core_String_Algorithms => [.exact .Core_String_Algorithms_Kmp]
  | .Core_Traits_Types_Base => [.exact .Base]
  | .Core_Traits_Constraints_String => [.exact .Core_Traits_Types_Base]
  | .Core_Traits_Types_Relationships => [.exact .Core_Traits_Types_Base]
  | .Core_Traits_Types_Specifiers => [.exact .Core_Traits_Types_Base]
  | .Core_Traits_Types_Primary => [.exact .Core_Traits_Types_Relationships, .exact .Core_Traits_Types_Specifiers]
  | .Core_Traits_Constraints_Primary => [.exact .Core_Traits_Types_Primary]
  | .Core_String_String =>
    [.exact .Base, .exact .Core_Char, .exact .Core_Traits_Constraints_String, .exact .Core_Traits_Types_Base,
     .exact .Core_Traits_Types_Primary, .exact .Core_Traits_Constraints_Primary]
  | .Core_String_StringBuilder => [.exact .Core_String_String]
  | .Core_String_Defs => [.exact .Base]
  | .Core_String_Utility => [.exact .Core_String_String, .exact .Core_Traits_Types_Base, .exact .Core_Traits_Types_Primary]
  | .Core_String =>
    [.exact .Core_Char, .exact .Core_String_Algorithms, .exact .Core_String_StringBuilder, .exact .Core_String_Defs,
     .exact .Core_String_String, .exact .Core_String_Utility]
  | .Core_Error_Unexpected => [.exact .Core_String]
  | .Core_Traits_Constraints_Composite => [.exact .Core_Traits_Types_Base]
  | .Core_Traits_Constraints_Operations => [.exact .Core_Traits_Types_Base]
  | .Core_Traits_Types_Properties => [.exact .Core_Traits_Types_Base]
  | .Core_Traits_Constraints_Properties => [.exact .Core_Traits_Types_Properties]
  | .Core_Traits_Constraints_PropertyQueries => [.exact .Core_Traits_Types_Base]
  | .Core_Traits_Constraints_Relationships => [.exact .Core_Traits_Types_Relationships]
  | .Core_Traits_Constraints =>
    [.exact .Core_Traits_Constraints_Composite, .exact .Core_Traits_Constraints_Operations,
     .exact .Core_Traits_Constraints_Primary, .exact .Core_Traits_Constraints_Properties,
     .exact .Core_Traits_Constraints_PropertyQueries, .exact .Core_Traits_Constraints_Relationships,
     .exact .Core_Traits_Constraints_String]
  | .Core_Traits_Types_Collections => [.exact .Core_Traits_Types_Base]
  | .Core_Traits_Types_Operators => [.exact .Core_Traits_Types_Base]
  | .Core_Traits_Types_References => [.exact .Core_Traits_Types_Base]
  | .Core_Traits_Types_Pointers => [.exact .Core_Traits_Types_References]
  | .Core_Traits_Types_SignModifiers => [.exact .Core_Traits_Types_Base]
  | .Core_Traits_Types =>
    [.exact .Core_Traits_Types_Base, .exact .Core_Traits_Types_Collections, .exact .Core_Traits_Types_Operators,
     .exact .Core_Traits_Types_Pointers, .exact .Core_Traits_Types_Primary, .exact .Core_Traits_Types_Properties,
     .exact .Core_Traits_Types_References, .exact .Core_Traits_Types_Relationships,
     .exact .Core_Traits_Types_SignModifiers, .exact .Core_Traits_Types_Specifiers]
  | .Core_Traits => [.exact .Core_Traits_Constraints, .exact .Core_Traits_Types]
  | .Core_Utility_Comparators => [.exact .Base]
  | .Core_Utility_Random => [.exact .Base]
  | .Core_Utility => [.exact .Core_Utility_Comparators, .exact .Core_Utility_Random]
  | .Core_Error_Expected => [.exact .Core_Error_Unexpected, .exact .Core_Traits, .exact .Core_Utility]
  | .Core_Error => [.exact .Core_Error_Expected, .exact .Core_Error_Unexpected]
  | .Core_File_File => [.exact .Core_String]
  | .Core_File => [.exact .Core_File_File]
  | .Core_IO_Stream => [.exact .Core_String, .exact .Core_Traits]
  | .Core_IO => [.exact .Core_IO_Stream]
  | .Core_Memory_Types_DataSize => [.exact .Base]
  | .Core_Memory_Types_MemoryFormat => [.exact .Base]
  | .Core_Memory_Types_RawPointer => [.exact .Base]
  | .Core_Memory_Types_SharedPointer => [.exact .Base]
  | .Core_Memory_Types_UniquePointer => [.exact .Base]
  | .Core_Memory_Types_WeakPointer => [.exact .Core_Memory_Types_SharedPointer]
  | .Core_Memory_Types =>
    [.exact .Core_Memory_Types_DataSize, .exact .Core_Memory_Types_MemoryFormat, .exact .Core_Memory_Types_RawPointer,
     .exact .Core_Memory_Types_SharedPointer, .exact .Core_Memory_Types_UniquePointer,
     .exact .Core_Memory_Types_WeakPointer]
  | .Core_Memory_Utility_SizeCalculation => [.exact .Core_Memory_Types_MemoryFormat]
  | .Core_Memory_Utility => [.exact .Core_Memory_Utility_SizeCalculation]
  | .Core_Memory => [.exact .Core_Memory_Types, .exact .Core_Memory_Utility]
  | .Core_Numeric_Types_Radix => [.exact .Base]
  | .Core_Numeric_Types_Sign => [.exact .Base]
  | .Core_Numeric_Types => [.exact .Core_Numeric_Types_Radix, .exact .Core_Numeric_Types_Sign]
  | .Core_Numeric_Utility_Limits => [.exact .Base]
  | .Core_Numeric_Utility => [.exact .Core_Numeric_Utility_Limits]
  | .Core_Numeric => [.exact .Core_Numeric_Types, .exact .Core_Numeric_Utility]
  | .Core_System => [.exact .Base]
  | .Core_Threads => [.exact .Base]
  | .Numeric_Types_BigInteger => [.exact .Core_String]
  | .Numeric_Types_BigFloat => [.exact .Numeric_Types_BigInteger]
  | .Numeric_Types => [.exact .Numeric_Types_BigInteger, .exact .Numeric_Types_BigFloat]
  | .Serializing_Json_Defs => []
  | .Serializing_Json_Types_JsonClass => [.exact .Base]
  | .Serializing_Json_Types_JsonData => [.exact .Core_String, .exact .Serializing_Json_Types_JsonClass]
  | .Serializing_Json_Types_JsonError => [.exact .Base]
  | .Serializing_Json_Types_JsonParser =>
    [.exact .Core_String, .exact .Serializing_Json_Types_JsonData, .exact .Serializing_Json_Types_JsonError]
  | .Serializing_Json_Utility => [.exact .Serializing_Json_Types_JsonError]
  | .Serializing_Json_Types_Json => [.exact .Serializing_Json_Types_JsonParser, .exact .Serializing_Json_Utility]
  | .Serializing_Json_Types => [.exact .Serializing_Json_Types_Json]
  | .Serializing_Json => [.exact .Serializing_Json_Defs, .exact .Serializing_Json_Types]
  | .Testing_Types_TestFunction => [.exact .Base]
  | .Testing_Types_TestCase => [.exact .Core_String, .exact .Testing_Types_TestFunction]
  | .Testing_Types_TestFailMessage => [.exact .Base]
  | .Testing_Types_TestRegistry => [.exact .Base, .exact .Testing_Types_TestCase]
  | .Testing_Types =>
    [.exact .Testing_Types_TestCase, .exact .Testing_Types_TestFailMessage, .exact .Testing_Types_TestFunction,
     .exact .Testing_Types_TestRegistry]
  | .Testing_Macro_Assert => [.exact .Core_Traits, .exact .Testing_Types]
  | .Testing_Macro_TestFixture => [.exact .Testing_Types]
  | .Testing_Macro_Test => [.exact .Testing_Types]
  | .Testing_Macro => [.exact .Testing_Macro_Assert, .exact .Testing_Macro_TestFixture, .exact .Testing_Macro_Test]
  | .Caitlyn_Application => [.exact .Caitlyn_Config, .exact .Caitlyn_Types]
  | .Caitlyn => [.lowered .Caitlyn_Application]
  | .PublicAlgorithms => [.exact .Caitlyn, .exact .Core_Algorithms]
  | .PublicCaitlyn =>
    [.exact .Caitlyn, .exact .Core_Algorithms, .exact .Core_Collections, .exact .Core_DateTime, .exact .Core_Error,
     .exact .Core_File, .exact .Core_IO, .exact .Core_Memory, .exact .Core_Numeric, .exact .Core_String,
     .exact .Core_System, .exact .Core_Threads, .exact .Core_Traits, .exact .Core_Utility, .exact .Numeric_Types,
     .exact .Serializing_Json]
  | .PublicChar => [.exact .Caitlyn, .exact .Core_Char]
  | .PublicCollections => [.exact .Caitlyn, .exact .Core_Collections]
  | .PublicDateTime => [.exact .Caitlyn, .exact .Core_DateTime]
  | .PublicError => [.exact .Caitlyn, .exact .Core_Error]
  | .PublicFile => [.exact .Caitlyn, .exact .Core_File]
  | .PublicIO => [.exact .Caitlyn, .exact .Core_File, .exact .Core_IO]
  | .PublicMemory => [.exact .Caitlyn, .exact .Core_Memory]
  | .PublicNumeric => [.exact .Caitlyn, .exact .Core_Numeric, .exact .Numeric_Types]
  | .PublicSerializing => [.exact .Caitlyn, .exact .Serializing_Json]
  | .PublicString => [.exact .Caitlyn, .exact .Core_String]
  | .PublicSystem => [.exact .Caitlyn, .exact .Core_System]
  | .PublicTesting => [.exact .Caitlyn, .exact .Testing_Macro, .exact .Testing_Types]
  | .PublicThreading => [.exact .Caitlyn, .exact .Core_Threads]
  | .PublicTraits => [.exact .Caitlyn, .exact .Core_Traits]
  | .PublicUtility => [.exact .Caitlyn, .exact .Core_Utility]

/-- The headers for users have no include guard; that of another header is named by the header. -/
def guard : File → Option File
  | .PublicAlgorithms
  | .PublicCaitlyn
  | .PublicChar
  | .PublicCollections
  | .PublicDateTime
  | .PublicError
  | .PublicFile
  | .PublicIO
  | .PublicMemory
  | .PublicNumeric
  | .PublicSerializing
  | .PublicString
  | .PublicSystem
  | .PublicTesting
  | .PublicThreading
  | .PublicTraits
  | .PublicUtility => none
  | f => some f

/-- The definitions with external linkage that are not inline: the static members in Application.h (Application.h:129-130). -/
def defines : File → List String
  | .Caitlyn_Application => ["Application::application_", "Application::initialized_"]
  | _ => []

/-- The file found for the name in an `#include`. The file systems of Windows and macOS ignore the case of letters. -/
def lookup (ignoreCase : Bool) : Name → Option File
  | .exact f => some f
  | .lowered f => if ignoreCase then some f else none

/-- Why a translation unit is rejected: a file does not exist, or the includes are nested too deeply. -/
inductive Wrong where
  | missing (name : Name)
  | depth
  deriving DecidableEq, Repr

/-- A translation unit while it is preprocessed: the guards that are defined and the headers whose bodies have been read. -/
structure Tu where
  defined : List File := []
  out : List File := []
  deriving DecidableEq, Repr

/-- `#include "name"`. The first argument is the nesting that the compiler still allows. -/
def read (ignoreCase : Bool) : Nat → Tu → Name → Except Wrong Tu
  | 0, _, _ => .error .depth
  | n + 1, tu, name =>
    match lookup ignoreCase name with
    | none => .error (.missing name)
    | some f =>
      match guard f with
      | none => (includes f).foldlM (read ignoreCase n) tu
      | some g =>
        if g ∈ tu.defined then .ok tu
        else do
          let tu ← (includes f).foldlM (read ignoreCase n) { tu with defined := g :: tu.defined }
          return { tu with out := tu.out ++ [f] }

/-- A source file that includes these headers; compilers allow includes to be nested 200 deep. -/
def translate (ignoreCase : Bool) (names : List Name) : Except Wrong Tu := names.foldlM (read ignoreCase 200) {}

/-- The translation units of a program. -/
def translateAll (ignoreCase : Bool) : List (List Name) → Except Wrong (List Tu)
  | [] => .ok []
  | names :: rest => do
    let tu ← translate ignoreCase names
    return tu :: (← translateAll ignoreCase rest)

/-- The names that a translation unit defines. -/
def Tu.defines (tu : Tu) : List String := tu.out.flatMap Headers.defines

/-- What the linker says. -/
inductive Link where
  | linked
  | rejected (w : Wrong)
  | twice
  deriving DecidableEq, Repr

/-- A program of several translation units, each given by the headers it includes: no name may be defined twice. -/
def build (ignoreCase : Bool) (program : List (List Name)) : Link :=
  match translateAll ignoreCase program with
  | .error w => .rejected w
  | .ok tus => if (tus.flatMap Tu.defines).Nodup then .linked else .twice

end Caitlyn.Headers
