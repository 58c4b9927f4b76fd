import Verif.Basic

/-! # Model of the enumerations `DataSize`, `Radix` and `Sign` -/

namespace Caitlyn.Enums

/-- `enum class DataSize : Byte` (__Core/Memory/Types/DataSize.h:25-61), the enumerators in order. -/
inductive DataSize where
  | bit | byte
  | kiloBit | kibiBit | kiloByte | kibiByte
  | megaBit | mebiBit | megaByte | mebiByte
  | gigaBit | gibiBit | gigaByte | gibibyt
  | teraBit | tebiBit | teraByte | tebibyt
  | petaBit | pebiBit | petaByte | pebiByte
  | exaBit | exbiBit | exaByte | exbiByte
  | zetaBit | zebiBit | zetaByte | zebiByte
  | yottaBit | yobiBit | yottaByte | yobiByte
  deriving DecidableEq

/-- `static_cast<Byte>` of an enumerator: they are numbered from 0. -/
def DataSize.value (u : DataSize) : UInt8 := UInt8.ofNat u.ctorIdx

/-- `enum class Radix : Byte` (__Core/Numeric/Types/Radix.h:25-31). -/
inductive Radix where
  | binary | octal | decimal | hex
  deriving DecidableEq

/-- `static_cast<Byte>` of an enumerator (Radix.h:27-30). -/
def Radix.value : Radix → UInt8
  | .binary => 0x1
  | .octal => 0x7
  | .decimal => 0x9
  | .hex => 0xF

/-- `enum class Sign : Byte` (__Core/Numeric/Types/Sign.h:25-29). -/
inductive Sign where
  | positive | negative
  deriving DecidableEq

/-- `static_cast<Byte>` of an enumerator (Sign.h:27-28). -/
def Sign.value : Sign → UInt8
  | .positive => 0
  | .negative => 1

end Caitlyn.Enums
