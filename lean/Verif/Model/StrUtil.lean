import Verif.Model.Str
import Verif.Model.StdNum
import Verif.Lit

/-!
# Model of `include/Caitlyn/__Core/String/Utility.h`
-/

namespace Caitlyn.StrUtil

/-- `std::getline(ss, item, delim)` repeated until it fails (Utility.h:36-39): each call takes the bytes up to
the delimiter (which is dropped) or the end; it fails when nothing is left. Recursion on a
bound; `text.length` calls suffice, as every call consumes at least one byte. -/
def getlines (delim : UInt8) : Nat → List UInt8 → List (List UInt8)
  | 0, _ => []
  | _ + 1, [] => []
  | n + 1, text =>
    text.takeWhile (· != delim) :: getlines delim n ((text.dropWhile (· != delim)).drop 1)

/-- `Split` (Utility.h:30-41). -/
def split (text : List UInt8) (delim : UInt8) : List (List UInt8) :=
  getlines delim text.length text

/-- `Repeat` (Utility.h:43-55). -/
def repeatStr (str : List UInt8) (count : Nat) : List UInt8 :=
  if count < 2 then str else (List.replicate count str).flatten

/-- The one-character escapes of `EscapeString` (Utility.h:65-117). -/
def simpleEscape (c : Chr) : Option (List UInt8) :=
  if c = ⟨b!"\""⟩ then some b!"\""
  else if c = ⟨b!"?"⟩ then some b!"?"
  else if c = ⟨b!"\\"⟩ then some b!"\\"
  else if c = ⟨b!"/"⟩ then some b!"/"
  else if c = ⟨b!"a"⟩ then some [0x07]
  else if c = ⟨b!"b"⟩ then some [0x08]
  else if c = ⟨b!"f"⟩ then some [0x0C]
  else if c = ⟨b!"n"⟩ then some [0x0A]
  else if c = ⟨b!"r"⟩ then some [0x0D]
  else if c = ⟨b!"t"⟩ then some [0x09]
  else if c = ⟨b!"v"⟩ then some [0x0B]
  else none

/-- The loop of `EscapeString` (Utility.h:61-145) from a position on: the argument is the rest of the
string, the result the bytes written from there. In the two error branches only one
character is consumed, as in the code (`i` is not advanced over `str[i + 1]`). -/
def escapeLoop : Nat → Str → Res (List UInt8)
  | 0, _ => .error .fuel
  | _ + 1, [] => .ok []
  | n + 1, c :: rest =>
    if c = ⟨b!"\\"⟩ then
      match rest with
      | [] => do
        let out ← escapeLoop n []
        return c.printed ++ out
      | d :: rest' =>
        match simpleEscape d with
        | some bytes => do
          let out ← escapeLoop n rest'
          return bytes ++ out
        | none =>
          if d = ⟨b!"u"⟩ ∧ 4 ≤ rest'.length then do
            let hex := Str.str (rest'.take 4)
            let v ← StdNum.stoi 16 hex
            let out ← escapeLoop n (rest'.drop 4)
            return [UInt8.ofNat (v % 256).toNat] ++ out
          else do
            let out ← escapeLoop n (d :: rest')
            return b!"\\" ++ d.printed ++ out
    else do
      let out ← escapeLoop n rest
      return c.printed ++ out

/-- `EscapeString` (Utility.h:57-147). `static_cast<char>` reduces modulo 256. -/
def escapeString (s : Str) : Res Str := do
  let out ← escapeLoop (s.length + 1) s
  Str.ofStdString out

/-- `IsNumber` (Utility.h:149-153). `std::all_of` stops at the first failure. -/
def isNumber (s : Str) : Res Bool :=
  if s = [] then .ok false else go s
where
  /-- `std::all_of` -/
  go : Str → Res Bool
    | [] => .ok true
    | c :: cs => do
      let cp ← c.getCodePoint
      if CharUtil.isDigit cp then go cs else return false

/-- The loop of `FindFirstNonSpace` (Utility.h:157-163) from index `i`. -/
def firstNonSpace : Str → Nat → Res Nat
  | [], i => .ok i
  | c :: cs, i => do
    let cp ← c.getCodePoint
    if CharUtil.isSpace cp then firstNonSpace cs (i + 1) else return i

/-- `FindFirstNonSpace` (Utility.h:155-165). -/
def findFirstNonSpace (s : Str) : Res Nat := firstNonSpace s 0

/-- The loop of `FindLastNonSpace` (Utility.h:169-175), counting `i` down; it ends at 0 without
looking at index 0. -/
def lastNonSpace (s : Str) : Nat → Res Nat
  | 0 => .ok s.length
  | i + 1 => do
    let c ← Str.index s (i + 1)
    let cp ← c.getCodePoint
    if CharUtil.isSpace cp then lastNonSpace s i else return i + 1

/-- `FindLastNonSpace` (Utility.h:167-177). For the empty string `size() - 1` wraps to the
largest `size_t` and the first access is out of bounds. -/
def findLastNonSpace (s : Str) : Res Nat :=
  if s.length = 0 then .error .ub else lastNonSpace s (s.length - 1)

end Caitlyn.StrUtil
