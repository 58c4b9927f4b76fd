import Verif.Basic
import Verif.Lit

/-!
# Model of `__Caitlyn/Config.h` and `__Caitlyn/Types.h`

The configuration is computed by the preprocessor from the macros that the compiler predefines. A set of macros is a function that
says which are defined; the conditional directives become `if`s in the order in which they are written.
-/

namespace Caitlyn.Config

/-- The predefined macros that Config.h asks for (Config.h:35-91). The name is that of the macro without its underscores. -/
inductive Macro where
  | i386 | mIX86 | bit32 | lp64 | underLP64 | x8664 | mX64 | arm | armArch7 | thumb | mARM | aarch64 | mARM64
  | linux | underLinux | gnuLinux | apple | mach | underWin32 | win32Under | win32 | win64 | android | ilp32
  | clang | gnuc | gnug | mingw32 | mingw64 | mscVer | intelCompiler | icc
  deriving DecidableEq, Repr

/-- `__CAITLYN_ARCH_...` -/
inductive Arch where
  | x86 | x64 | arm | arm64
  deriving DecidableEq, Repr

/-- `__CAITLYN_OS_...` -/
inductive Os where
  | linux | apple | windows | android
  deriving DecidableEq, Repr

/-- `__CAITLYN_COMPILER_...`; MinGW defines the macro of GCC too. -/
inductive Compiler where
  | clang | gcc | mingw | msvc | intel
  deriving DecidableEq, Repr

/-- What Config.h defines. -/
structure Config where
  arch : Arch
  /-- `__CAITLYN_ARCH` -/
  bits : Nat
  os : Os
  /-- `__CAITLYN_OS_UNIX` -/
  unix : Bool
  /-- `__CAITLYN_WORDSIZE` -/
  wordsize : Option Nat
  compiler : Compiler
  deriving DecidableEq, Repr

/-- The architecture and its bits (Config.h:35-49); none is `#error`. -/
def arch (d : Macro → Bool) : Option (Arch × Nat) :=
  if d .i386 || d .mIX86 || d .bit32 then some (.x86, 32)
  else if d .lp64 || d .underLP64 || d .x8664 || d .mX64 then some (.x64, 64)
  else if d .arm || d .armArch7 || d .thumb || d .mARM then some (.arm, 32)
  else if d .aarch64 || d .mARM64 then some (.arm64, 64)
  else none

/-- The operating system (Config.h:52-66). -/
def os (d : Macro → Bool) : Option Os :=
  if d .linux || d .underLinux || d .gnuLinux then some .linux
  else if d .apple && d .mach then some .apple
  else if d .underWin32 || d .win32Under || d .win32 || d .win64 then some .windows
  else if d .android then some .android
  else none

/-- `__CAITLYN_OS_UNIX` (Config.h:68-70). -/
def isUnix : Os → Bool
  | .linux => true
  | .apple => true
  | _ => false

/-- `__CAITLYN_WORDSIZE` (Config.h:73-79). -/
def wordsize (d : Macro → Bool) (bits : Nat) (o : Os) : Option Nat :=
  if isUnix o then some (if bits = 64 && !d .ilp32 then 64 else 32) else none

/-- The compiler (Config.h:82-95). -/
def compiler (d : Macro → Bool) : Option Compiler :=
  if d .clang then some .clang
  else if d .gnuc || d .gnug then some (if d .mingw32 || d .mingw64 then .mingw else .gcc)
  else if d .mscVer then some .msvc
  else if d .intelCompiler || d .icc then some .intel
  else none

/-- Config.h as a whole; none is one of its `#error`s. -/
def configure (d : Macro → Bool) : Option Config := do
  let (a, bits) ← arch d
  let o ← os d
  let c ← compiler d
  return ⟨a, bits, o, isUnix o, wordsize d bits o, c⟩

/-- `__CAITLYN_OS_NAME` (Config.h:54, 57, 60, 63), what `GetSystemName` returns (Application.h:63-66, 81). -/
def systemName : Os → List UInt8
  | .linux => b!"Linux"
  | .apple => b!"Apple"
  | .windows => b!"Windows"
  | .android => b!"Android"

/-- The texts of `__clang_major__`, `__clang_minor__`, `__GNUC__`, `__GNUC_MINOR__`, `_MSC_VER`. -/
structure Versions where
  clangMajor : List UInt8
  clangMinor : List UInt8
  gnuMajor : List UInt8
  gnuMinor : List UInt8
  msc : List UInt8

/-- `__CAITLYN_COMPILER_VERSION` (Config.h:97-110), what `GetCompilerInfo` returns (Application.h:68-71, 82). For Intel's compiler a
macro of another name is defined, and Application.h does not compile: none. -/
def compilerVersion (v : Versions) : Compiler → Option (List UInt8)
  | .clang => some (b!"Clang " ++ v.clangMajor ++ b!"." ++ v.clangMinor)
  | .mingw => some (b!"MinGW " ++ v.gnuMajor ++ b!"." ++ v.gnuMinor)
  | .gcc => some (b!"GCC " ++ v.gnuMajor ++ b!"." ++ v.gnuMinor)
  | .msvc => some (b!"MSVC " ++ v.msc)
  | .intel => none

/-- `__CAITLYN_VERSION` (Config.h:30-32) as a function of the texts of the three version macros. -/
def versionText (major minor _patch : List UInt8) : List UInt8 := b!"Caitlyn " ++ major ++ b!"." ++ minor ++ b!"." ++ minor

/-- The three version macros (Config.h:23-25). -/
def version : List UInt8 × List UInt8 × List UInt8 := (b!"1", b!"0", b!"0")

/-- What `GetCaitlynInfo` returns (Application.h:73-76, 80). -/
def caitlynInfo : List UInt8 := versionText version.1 version.2.1 version.2.2

/-- `__CAITLYN_CXX_STANDARD` (Config.h:113-121): `_MSVC_LANG` or `__cplusplus`. -/
def standard (c : Compiler) (cplusplus msvcLang : Nat) : Nat := if c = .msvc then msvcLang else cplusplus

/-- The macros `__CAITLYN_HAS_CXX11` to `__CAITLYN_HAS_CXX23` (Config.h:123-181). -/
structure Has where
  cxx11 : Bool
  cxx14 : Bool
  cxx17 : Bool
  cxx20 : Bool
  cxx23 : Bool
  deriving DecidableEq, Repr

/-- Config.h:123-181. -/
def has (std : Nat) : Has :=
  ⟨decide (std ≥ 201103), decide (std ≥ 201402), decide (std ≥ 201703), decide (std ≥ 202002), decide (std ≥ 202300)⟩

/-! ## Types.h -/

/-- The fundamental types that Types.h uses. -/
inductive CType where
  | char | wchar | char8 | char16 | char32 | schar | uchar | short | ushort | int | uint | long | ulong | llong | ullong
  | float | double | ldouble | bool | nullptr | ptrdiff | size
  deriving DecidableEq, Repr

/-- The names of Types.h (Types.h:86-124). -/
inductive Name where
  | StdChar | WChar | Char8 | Char16 | Char32 | SByte | Byte | Int8 | UInt8 | Int16 | UInt16 | Int32 | UInt32 | Int64 | UInt64
  | Int | UInt | IntMax | UIntMax | IntPtr | UIntPtr | SSizeType | SizeType | PtrDiff | Float | Double | Decimal | Bool | NullPtr | CodePoint
  deriving DecidableEq, Repr

/-- The condition of Types.h:53: a Unix with words of 64 bits. -/
def longIs64 (c : Config) : Bool := c.unix && c.wordsize == some 64

/-- The type a name stands for (Types.h:26-82 and 86-124). -/
def typeOf (c : Config) (h : Has) : Name → CType
  | .StdChar => .char
  | .WChar => .wchar
  | .Char8 => if h.cxx20 then .char8 else .char
  | .Char16 => .char16
  | .Char32 => .char32
  | .SByte => .schar
  | .Byte => .uchar
  | .Int8 => .schar
  | .UInt8 => .uchar
  | .Int16 => .short
  | .UInt16 => .ushort
  | .Int32 => .int
  | .UInt32 => .uint
  | .Int64 => if longIs64 c then .long else .llong
  | .UInt64 => if longIs64 c then .ulong else .ullong
  | .Int => .int
  | .UInt => .uint
  | .IntMax => if longIs64 c then .long else .llong
  | .UIntMax => if longIs64 c then .ulong else .ullong
  | .IntPtr => if longIs64 c then .long else .llong
  | .UIntPtr => if longIs64 c then .ulong else .ullong
  | .SSizeType => .ptrdiff
  | .SizeType => .size
  | .PtrDiff => .ptrdiff
  | .Float => .float
  | .Double => .double
  | .Decimal => .ldouble
  | .Bool => .bool
  | .NullPtr => .nullptr
  | .CodePoint => .uint

end Caitlyn.Config
