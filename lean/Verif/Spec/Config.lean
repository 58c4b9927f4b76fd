import Verif.Model.Config

/-!
# Specification of platforms

What the compilers document: the macros they predefine for a target, and the sizes of the fundamental types there.
-/

namespace Caitlyn.Spec.Platform
open Caitlyn.Config

/-- The compiler a program is translated with. `clang` stands for the one with GCC's interface, `clangCl` for the one with
Microsoft's, `icc` for Intel's classic compiler. -/
inductive Tool where
  | gcc | clang | mingw | msvc | clangCl | icc
  deriving DecidableEq, Repr

/-- What a program is translated for: processor, system, compiler, whether pointers have 32 bits on a processor of 64 bits (the `x32`
and `ilp32` interfaces), and whether an ARM processor is asked to run Thumb code. -/
structure Target where
  arch : Arch
  os : Os
  tool : Tool
  short : Bool
  thumb : Bool
  deriving DecidableEq, Repr

/-- A processor of 64 bits. -/
def wide : Arch → Bool
  | .x64 => true
  | .arm64 => true
  | _ => false

/-- The targets that exist. -/
def exists? (t : Target) : Bool :=
  (match t.os with
   | .linux => t.tool == .gcc || t.tool == .clang || (t.tool == .icc && (t.arch == .x86 || t.arch == .x64))
   | .apple => t.tool == .clang && t.arch != .arm
   | .windows => t.tool == .msvc || t.tool == .clangCl || t.tool == .mingw || (t.tool == .icc && (t.arch == .x86 || t.arch == .x64))
   | .android => t.tool == .clang) &&
  (!t.short || wide t.arch && t.os == .linux && t.tool != .icc) && (!t.thumb || t.arch == .arm)

/-- The compiler has GCC's interface. -/
def gnu (t : Target) : Bool :=
  t.tool == .gcc || t.tool == .clang || t.tool == .mingw || (t.tool == .icc && t.os != .windows)

/-- The compiler has Microsoft's interface. -/
def microsoft (t : Target) : Bool := t.tool == .msvc || t.tool == .clangCl || (t.tool == .icc && t.os == .windows)

/-- The names of processors in GCC's style are also defined by clang with Microsoft's interface. -/
def gnuNames (t : Target) : Bool := gnu t || t.tool == .clangCl

/-- `long` and pointers have 64 bits. -/
def lp64 (t : Target) : Bool := wide t.arch && t.os != .windows && !t.short

/-- The macros that are predefined. -/
def predefined (t : Target) : Macro → Bool
  | .i386 => gnuNames t && t.arch == .x86
  | .mIX86 => microsoft t && t.arch == .x86
  | .bit32 => false
  | .lp64 | .underLP64 => lp64 t
  | .x8664 => gnuNames t && t.arch == .x64
  | .mX64 => microsoft t && t.arch == .x64
  | .arm => gnuNames t && t.arch == .arm
  | .armArch7 => false
  | .thumb => gnuNames t && t.thumb
  | .mARM => microsoft t && t.arch == .arm
  | .aarch64 => gnuNames t && t.arch == .arm64
  | .mARM64 => microsoft t && t.arch == .arm64
  | .linux | .underLinux => t.os == .linux || t.os == .android
  | .gnuLinux => t.os == .linux
  | .apple | .mach => t.os == .apple
  | .underWin32 => t.os == .windows
  | .win32Under | .win32 => t.tool == .mingw
  | .win64 => t.os == .windows && wide t.arch
  | .android => t.os == .android
  | .ilp32 => t.short
  | .clang => t.tool == .clang || t.tool == .clangCl
  | .gnuc | .gnug => gnu t
  | .mingw32 => t.tool == .mingw
  | .mingw64 => t.tool == .mingw && wide t.arch
  | .mscVer => microsoft t
  | .intelCompiler | .icc => t.tool == .icc

/-- The bits of a pointer. -/
def pointerBits (t : Target) : Nat := if wide t.arch && !t.short then 64 else 32

/-- The bits of an integer type; none for other types. -/
def bitsOf (t : Target) : CType → Option Nat
  | .char | .schar | .uchar | .char8 => some 8
  | .short | .ushort | .char16 => some 16
  | .int | .uint | .char32 => some 32
  | .wchar => some (if t.os == .windows then 16 else 32)
  | .long | .ulong => some (if lp64 t then 64 else 32)
  | .llong | .ullong => some 64
  | .ptrdiff | .size => some (pointerBits t)
  | _ => none

/-- The type has a sign; none for types whose sign the standard leaves open, and for types that are no integers. -/
def hasSign : CType → Option Bool
  | .schar | .short | .int | .long | .llong | .ptrdiff => some true
  | .uchar | .ushort | .uint | .ulong | .ullong | .size | .char8 | .char16 | .char32 => some false
  | _ => none

/-- Bits and sign that the name of an integer type promises. -/
def promised : Name → Option (Nat × Bool)
  | .SByte | .Int8 => some (8, true)
  | .Byte | .UInt8 => some (8, false)
  | .Int16 => some (16, true)
  | .UInt16 | .Char16 => some (16, false)
  | .Int32 => some (32, true)
  | .UInt32 | .Char32 | .CodePoint => some (32, false)
  | .Int64 => some (64, true)
  | .UInt64 => some (64, false)
  | _ => none

/-- `std::int64_t` is `long` where that has 64 bits, but `long long` on Apple's systems. -/
def stdInt64 (t : Target) : CType := if lp64 t && t.os != .apple then .long else .llong

/-- The compiler as a user would name it. -/
def named : Tool → Compiler
  | .gcc => .gcc
  | .clang => .clang
  | .mingw => .mingw
  | .msvc => .msvc
  | .clangCl => .clang
  | .icc => .intel

/-- A system's name. -/
def shown : Os → List UInt8
  | .linux => b!"Linux"
  | .apple => b!"Apple"
  | .windows => b!"Windows"
  | .android => b!"Android"

/-- A compiler's name and version as a user would give it. -/
def introduced (v : Versions) : Tool → List UInt8
  | .gcc => b!"GCC " ++ v.gnuMajor ++ b!"." ++ v.gnuMinor
  | .mingw => b!"MinGW " ++ v.gnuMajor ++ b!"." ++ v.gnuMinor
  | .clang | .clangCl => b!"Clang " ++ v.clangMajor ++ b!"." ++ v.clangMinor
  | .msvc => b!"MSVC " ++ v.msc
  | .icc => b!"Intel"

/-- What the definition of a macro says about the processor. -/
def archOf : Macro → Option (Arch × Nat)
  | .i386 | .mIX86 | .bit32 => some (.x86, 32)
  | .lp64 | .underLP64 | .x8664 | .mX64 => some (.x64, 64)
  | .arm | .armArch7 | .thumb | .mARM => some (.arm, 32)
  | .aarch64 | .mARM64 => some (.arm64, 64)
  | _ => none

/-- What the definition of a macro says about the system. Apple's systems are those that define both of their macros. -/
def osOf : Macro → Option Os
  | .linux | .underLinux | .gnuLinux => some .linux
  | .underWin32 | .win32Under | .win32 | .win64 => some .windows
  | .android => some .android
  | _ => none

/-- What the definition of a macro says about the compiler. -/
def compilerOf : Macro → Option Compiler
  | .clang => some .clang
  | .gnuc | .gnug => some .gcc
  | .mscVer => some .msvc
  | .intelCompiler | .icc => some .intel
  | _ => none

/-- The type that a name of Types.h stands for, given whether `long` has 64 bits there and whether there is `char8_t`. -/
def meant (long64 char8 : Bool) : Name → CType
  | .StdChar => .char
  | .WChar => .wchar
  | .Char8 => if char8 then .char8 else .char
  | .Char16 => .char16
  | .Char32 => .char32
  | .SByte | .Int8 => .schar
  | .Byte | .UInt8 => .uchar
  | .Int16 => .short
  | .UInt16 => .ushort
  | .Int | .Int32 => .int
  | .UInt | .UInt32 | .CodePoint => .uint
  | .Int64 | .IntMax | .IntPtr => if long64 then .long else .llong
  | .UInt64 | .UIntMax | .UIntPtr => if long64 then .ulong else .ullong
  | .SSizeType | .PtrDiff => .ptrdiff
  | .SizeType => .size
  | .Float => .float
  | .Double => .double
  | .Decimal => .ldouble
  | .Bool => .bool
  | .NullPtr => .nullptr

/-- The value of `__cplusplus` for the published standards. -/
inductive Standard where
  | cxx98 | cxx11 | cxx14 | cxx17 | cxx20 | cxx23
  deriving DecidableEq, Repr

/-- The value of `__cplusplus`. -/
def Standard.value : Standard → Nat
  | .cxx98 => 199711
  | .cxx11 => 201103
  | .cxx14 => 201402
  | .cxx17 => 201703
  | .cxx20 => 202002
  | .cxx23 => 202302

/-- The standards in the order in which they were published. -/
def Standard.index : Standard → Nat
  | .cxx98 => 0
  | .cxx11 => 1
  | .cxx14 => 2
  | .cxx17 => 3
  | .cxx20 => 4
  | .cxx23 => 5

end Caitlyn.Spec.Platform
