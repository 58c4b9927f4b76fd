import Verif.Model.CharUtil

/-!
# Model of `include/Caitlyn/__Core/String/String.h` (without `Format`)

`class String` (String.h:39-1007) has one member, `std::vector<Char> data_` (String.h:1006).
The template constructor String.h:100-108 does not compile when instantiated
(`decode_utf8_char` is undeclared) and is not modelled.
-/

namespace Caitlyn

/-- `class String`: its `data_` (String.h:1006). -/
abbrev Str := List Chr

/-- Argument of a member function that takes `const String&`: the object itself or another
object with the given content. (Matters for `vector::insert`, whose iterators must not point
into the vector itself.) -/
inductive StrArg where
  | self
  | other (s : Str)

namespace Str

/-- The lead byte analysis of `DecodeUtf8Char` (String.h:982-1001). -/
def decodeLen (c : UInt8) : Option Nat :=
  if (c &&& 0x80) == 0 then some 1
  else if (c &&& 0xE0) == 0xC0 then some 2
  else if (c &&& 0xF0) == 0xE0 then some 3
  else if (c &&& 0xF8) == 0xF0 then some 4
  else none

/-- `DecodeUtf8Char` (String.h:977-1003). `mem` is the memory readable from `cstr` on.
`BasicString(cstr, len)` reads `len` bytes, NULs included; if fewer are readable the read is
out of bounds. -/
def decodeUtf8Char (mem : List UInt8) : Res Chr := do
  let c ← vecGet mem 0
  match decodeLen c with
  | none => .error .runtimeError
  | some len => if mem.length < len then .error .ub else Chr.ofBytes (mem.take len)

/-- The loop of the constructors (String.h:57-62, 69-74), of `Append` (272-277) and of `Insert`
(492-496), with an iteration bound. -/
def decodeLoop : Nat → List UInt8 → Res Str
  | 0, _ => .error .fuel
  | n + 1, mem => do
    let b ← vecGet mem 0
    if b == 0 then return []
    let c ← decodeUtf8Char mem
    let rest ← decodeLoop n (mem.drop c.data.length)
    return c :: rest

/-- `String(const char*)` (String.h:55-63). `mem` is the memory readable from the pointer; for a
string literal it ends with the terminator. Every iteration consumes at least one byte, so
`mem.length + 1` iterations suffice (theorem `decodeLoop_fuel`). -/
def ofCStr (mem : List UInt8) : Res Str := decodeLoop (mem.length + 1) mem

/-- `String(const std::string&)` (String.h:66-75): reads `str.c_str()`. -/
def ofStdString (s : List UInt8) : Res Str := ofCStr (s ++ [0])

/-- `String(const std::vector<Char>&)` (String.h:78-80). -/
def ofChars (cs : List Chr) : Str := cs

/-- `String(SizeType count, char ch)` (String.h:83-89). -/
def ofCountByte (count : Nat) (ch : UInt8) : Res Str :=
  if count = 0 then .ok [] else do
    let c ← Chr.ofBytes [ch]
    return List.replicate count c

/-- `String(SizeType count, const Char&)` (String.h:91-97). -/
def ofCountChr (count : Nat) (ch : Chr) : Str := List.replicate count ch

/-- `size()` (String.h:142-150). -/
def size (s : Str) : Nat := s.length

/-- `operator[]` (String.h:152-160): unchecked. -/
def index (s : Str) (i : Nat) : Res Chr := vecGet s i

/-- `At` (String.h:162-178). -/
def at' (s : Str) (i : Nat) : Res Chr :=
  if i ≥ size s then .error .outOfRange else vecGet s i

/-- Content of a `const String&` argument. -/
def argVal (self : Str) : StrArg → Str
  | .self => self
  | .other s => s

/-- `operator+=` (String.h:242-246). `vector::insert` of a range of the vector itself is undefined. -/
def plusAssign (self : Str) : StrArg → Res Str
  | .self => .error .ub
  | .other s => .ok (self ++ s)

/-- `operator+` (String.h:248-262): element-wise copies into a vector of the summed size. -/
def plus (self str : Str) : Str := self ++ str

/-- `PushBack` (String.h:265-268). -/
def pushBack (self : Str) (c : Chr) : Str := self ++ [c]

/-- `Append(const char*)` (String.h:270-278). Decoded characters are appended one by one; on an
exception the object keeps those already appended, which the model does not record. -/
def appendCStr (self : Str) (mem : List UInt8) : Res Str := do
  let t ← ofCStr mem
  return self ++ t

/-- `Append(count, const char*)` (String.h:280-288): `pattern` (NUL-terminated, content without
NUL) must be one character. -/
def appendCountCStr (self : Str) (count : Nat) (pattern : List UInt8) : Res Str :=
  if count = 0 then .ok self else do
    let c ← Chr.ofBytes pattern
    return self ++ List.replicate count c

/-- `Append(count, const Char&)` (String.h:290-298). -/
def appendCount (self : Str) (count : Nat) (c : Chr) : Str := self ++ List.replicate count c

/-- `str()` (String.h:473-482). -/
def str (s : Str) : List UInt8 := s.flatMap Chr.printed

/-- `operator==(const char*)` (String.h:325-328); `other` is the content of the C string. -/
def eqCStr (s : Str) (other : List UInt8) : Bool := str s == other
/-- `operator<(const char*)` (String.h:310-313). -/
def ltCStr (s : Str) (other : List UInt8) : Bool := Chr.bytesLt (str s) other
/-- `operator>(const char*)` (String.h:305-308). -/
def gtCStr (s : Str) (other : List UInt8) : Bool := Chr.bytesLt other (str s)
/-- `operator<=(const char*)` (String.h:320-323). -/
def leCStr (s : Str) (other : List UInt8) : Bool := !Chr.bytesLt other (str s)
/-- `operator>=(const char*)` (String.h:315-318). -/
def geCStr (s : Str) (other : List UInt8) : Bool := !Chr.bytesLt (str s) other

/-- `operator==(const String&)` (String.h:355-358): `std::vector` equality. -/
def eq (a b : Str) : Bool := a == b

/-- `operator<(const String&)` (String.h:340-343): `std::vector` `<`, that is
`std::lexicographical_compare` with `Char::operator<`. -/
def lt : Str → Str → Bool
  | _, [] => false
  | [], _ :: _ => true
  | a :: as, b :: bs => if a.lt b then true else if b.lt a then false else lt as bs

/-- `operator>` (String.h:335-338). -/
def gt (a b : Str) : Bool := lt b a
/-- `operator<=` (String.h:350-353). -/
def le (a b : Str) : Bool := !lt b a
/-- `operator>=` (String.h:345-348). -/
def ge (a b : Str) : Bool := !lt a b

/-- `std::search(first, last, ...)`: offset of the first match, or the length of the haystack
(that is `last`) if there is none. -/
def search (hay needle : Str) : Nat :=
  if needle.isPrefixOf hay then 0
  else match hay with
    | [] => 0
    | _ :: t => search t needle + 1

/-- `StartsWith` (String.h:366-373). -/
def startsWith (s pre : Str) : Bool :=
  if pre.length > s.length then false else pre.isPrefixOf s

/-- `EndsWith` (String.h:376-383): compares the reversed sequences. -/
def endsWith (s suf : Str) : Bool :=
  if suf.length > s.length then false else suf.reverse.isPrefixOf s.reverse

/-- `Contains` (String.h:386-389). -/
def contains (s sub : Str) : Bool := search s sub != s.length

/-- `Find` (String.h:392-397). `data_.begin() + pos` past the end is undefined. -/
def find (s sub : Str) (pos : Nat) : Res Nat :=
  if pos > s.length then .error .ub
  else
    let it := pos + search (s.drop pos) sub
    .ok (if it ≠ s.length then it else npos)

/-- `ReverseFind` (String.h:400-416); `size_t` arithmetic wraps. -/
def reverseFind (s sub : Str) (pos : Nat) : Res Nat :=
  if sub.length > s.length then .ok npos
  else
    let pos := if pos ≥ s.length then wsub s.length 1 else pos
    let off := wsub (wsub s.length pos) 1
    if off > s.length then .error .ub
    else
      let it := off + search (s.reverse.drop off) sub.reverse
      .ok (if it ≠ s.length then wsub (wsub s.length 1) it else npos)

/-- `Substring` (String.h:419-428). -/
def substring (s : Str) (pos count : Nat) : Res Str :=
  if pos > s.length then .error .outOfRange
  else .ok ((s.drop pos).take (min count (s.length - pos)))

/-- `ByteCount` (String.h:431-439). -/
def byteCount (s : Str) : Nat := (s.map fun c => c.data.length).sum

/-- `FindIf` (String.h:442-447). -/
def findIf (s : Str) (p : Chr → Bool) (pos : Nat) : Res Nat :=
  if pos > s.length then .error .ub
  else
    let it := pos + ((s.drop pos).takeWhile fun c => !p c).length
    .ok (if it ≠ s.length then it else npos)

/-- `FindIfNot` (String.h:450-455). -/
def findIfNot (s : Str) (p : Chr → Bool) (pos : Nat) : Res Nat := findIf s (fun c => !p c) pos

/-- `Insert(pos, const char*)` (String.h:485-498). -/
def insertCStr (s : Str) (pos : Nat) (mem : List UInt8) : Res Str :=
  if pos > s.length then .error .outOfRange
  else do
    let t ← ofCStr mem
    return s.take pos ++ t ++ s.drop pos

/-- `Insert(pos, const String&)` (String.h:500-507). -/
def insert (s : Str) (pos : Nat) (arg : StrArg) : Res Str :=
  if pos > s.length then .error .outOfRange
  else match arg with
    | .self => .error .ub
    | .other t => .ok (s.take pos ++ t ++ s.drop pos)

/-- `Insert(pos, count, ch)` (String.h:509-516). -/
def insertCount (s : Str) (pos count : Nat) (ch : Chr) : Res Str :=
  if pos > s.length then .error .outOfRange
  else .ok (s.take pos ++ List.replicate count ch ++ s.drop pos)

/-- `ToUppercase()` (String.h:519-527). -/
def toUppercase (s : Str) : Res Str := s.mapM CharUtil.toUppercaseChr

/-- `ToLowercase()` (String.h:529-537). -/
def toLowercase (s : Str) : Res Str := s.mapM CharUtil.toLowercaseChr

/-- `ValueOf(bool)` (String.h:546-550). -/
def valueOfBool (b : Bool) : List UInt8 :=
  if b then [0x74, 0x72, 0x75, 0x65] else [0x66, 0x61, 0x6C, 0x73, 0x65]

/-- `ValueOf(nullptr)` (String.h:552-556). -/
def valueOfNull : List UInt8 := [0x6E, 0x75, 0x6C, 0x6C]

end Str
end Caitlyn
