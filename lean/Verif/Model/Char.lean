import Verif.Basic

/-!
# Model of `include/Caitlyn/__Core/Char/Char.h`
-/

namespace Caitlyn

/-- `class Char` (Char.h:30-287): its only member is `std::string data_` (Char.h:286). -/
structure Chr where
  /-- the bytes of `data_` -/
  data : List UInt8
  deriving DecidableEq, Repr

namespace Chr

/-- `Char() = default` (Char.h:37). -/
def empty : Chr := ⟨[]⟩

/-- `Char(const StdChar byte)` (Char.h:39-42) and `operator=(char)` (Char.h:67-71):
any byte is stored, without validation. -/
def ofByte (b : UInt8) : Chr := ⟨[b]⟩

/-- `CalculateLength` (Char.h:234-249). Code points (`uint32_t`) are natural numbers here. -/
def calculateLength (cp : Nat) : Nat :=
  if cp < 0x80 then 1
  else if cp < 0x800 then 2
  else if cp < 0x10000 then 3
  else 4

/-- `FromCodePoint` (Char.h:200-232). `UInt8.ofNat` is `static_cast<unsigned char>`
(reduction modulo 256). -/
def fromCodePoint (cp : Nat) : List UInt8 :=
  if cp = 0 then []
  else
    let length := calculateLength cp
    if length = 1 then [UInt8.ofNat cp]
    else if length = 2 then
      [UInt8.ofNat (0xC0 ||| (cp >>> 6)), UInt8.ofNat (0x80 ||| (cp &&& 0x3F))]
    else if length = 3 then
      [UInt8.ofNat (0xE0 ||| (cp >>> 12)), UInt8.ofNat (0x80 ||| ((cp >>> 6) &&& 0x3F)),
       UInt8.ofNat (0x80 ||| (cp &&& 0x3F))]
    else
      [UInt8.ofNat (0xF0 ||| (cp >>> 18)), UInt8.ofNat (0x80 ||| ((cp >>> 12) &&& 0x3F)),
       UInt8.ofNat (0x80 ||| ((cp >>> 6) &&& 0x3F)), UInt8.ofNat (0x80 ||| (cp &&& 0x3F))]

/-- `Char(const CodePoint)` (Char.h:44-46), `operator=(CodePoint)` (Char.h:73-77). -/
def ofCodePoint (cp : Nat) : Chr := ⟨fromCodePoint cp⟩

/-- `IsContinuationByte` (Char.h:280-283). -/
def isContinuationByte (b : UInt8) : Bool := (b &&& 0xC0) == 0x80

/-- `IsValidUtf8Char` (Char.h:252-278). The list patterns are the size tests of the
code: each `str.size() == n &&` guards the accesses `str[1..n-1]`. -/
def isValidUtf8Char (s : List UInt8) : Bool :=
  match s with
  | [] => false
  | first :: rest =>
    if (first &&& 0x80) == 0 then
      match rest with
      | [] => true
      | _ => false
    else if (first &&& 0xE0) == 0xC0 then
      match rest with
      | [b1] => isContinuationByte b1
      | _ => false
    else if (first &&& 0xF0) == 0xE0 then
      match rest with
      | [b1, b2] => isContinuationByte b1 && isContinuationByte b2
      | _ => false
    else if (first &&& 0xF8) == 0xF0 then
      match rest with
      | [b1, b2, b3] => isContinuationByte b1 && isContinuationByte b2 && isContinuationByte b3
      | _ => false
    else false

/-- `Char(const DataType&)` (Char.h:57-64), `operator=(const DataType&)` (Char.h:89-97). -/
def ofBytes (s : List UInt8) : Res Chr :=
  if isValidUtf8Char s then .ok ⟨s⟩ else .error .invalidArgument

/-- `std::string::operator[]`: index = size reads the terminator, beyond it is undefined. -/
def byteAt (s : List UInt8) (i : Nat) : Res UInt8 :=
  if i < s.length then vecGet s i
  else if i = s.length then .ok 0
  else .error .ub

/-- `GetCodePoint` (Char.h:165-197). -/
def getCodePoint (c : Chr) : Res Nat := do
  let lead ← byteAt c.data 0
  if (lead &&& 0x80) == 0 then
    return lead.toNat
  else if (lead &&& 0xE0) == 0xC0 then
    let b1 ← byteAt c.data 1
    return ((lead &&& 0x1F).toNat <<< 6) ||| (b1 &&& 0x3F).toNat
  else if (lead &&& 0xF0) == 0xE0 then
    let b1 ← byteAt c.data 1
    let b2 ← byteAt c.data 2
    return (((lead &&& 0x0F).toNat <<< 12) ||| ((b1 &&& 0x3F).toNat <<< 6)) ||| (b2 &&& 0x3F).toNat
  else if (lead &&& 0xF8) == 0xF0 then
    let b1 ← byteAt c.data 1
    let b2 ← byteAt c.data 2
    let b3 ← byteAt c.data 3
    return ((((lead &&& 0x07).toNat <<< 18) ||| ((b1 &&& 0x3F).toNat <<< 12)) |||
      ((b2 &&& 0x3F).toNat <<< 6)) ||| (b3 &&& 0x3F).toNat
  else
    return 0

/-- `std::string::operator<` on the bytes (used by `Char::operator<`, Char.h:139-142):
lexicographic, bytes compared as unsigned. -/
def bytesLt : List UInt8 → List UInt8 → Bool
  | _, [] => false
  | [], _ :: _ => true
  | a :: as, b :: bs => if a < b then true else if b < a then false else bytesLt as bs

/-- `operator<` (Char.h:139-142). -/
def lt (a b : Chr) : Bool := bytesLt a.data b.data
/-- `operator>` (Char.h:134-137): `std::string` `>` is `<` with the operands exchanged. -/
def gt (a b : Chr) : Bool := bytesLt b.data a.data
/-- `operator<=` (Char.h:149-152). -/
def le (a b : Chr) : Bool := !bytesLt b.data a.data
/-- `operator>=` (Char.h:144-147). -/
def ge (a b : Chr) : Bool := !bytesLt a.data b.data

/-- What `operator<<(ostream, Char)` (Char.h:291-295) and `String::str` print: `c.data()` as a
C string, that is the bytes before the first NUL. -/
def printed (c : Chr) : List UInt8 := c.data.takeWhile (· != 0)

end Chr
end Caitlyn
