import Verif.Model.JsonData
import Verif.Spec.CNumber

/-!
# Specification of the JSON texts

`Document ops lits text j` says that `text` is a JSON text denoting `j`, in the dialect the library accepts. It is
given by a grammar and does not mention the parser. `lits` says whether the literals `true`, `false` and `null` may
occur. The dialect differs from RFC 8259 as follows; each deviation is a witness of a `_fails` theorem or an example:

* white space includes VT and FF;
* the text after the object may be anything that ends in `}` and white space;
* a number is a maximal run of the characters `0`-`9` `.` `e` `E` `+` `-` starting with a digit or sign; without `e`,
  `E`, `+` it denotes the integer written at its start, and what follows the integer is ignored;
* keys have no escapes;
* in strings the character following an escape is ignored, and `\u` writes a single byte.
-/

namespace Caitlyn.Spec

/-- One byte as a character. -/
def chr (b : UInt8) : Chr := ⟨[b]⟩

/-- White space: tab, LF, VT, FF, CR, space. -/
def Space (c : Chr) : Prop := c ∈ [chr 0x09, chr 0x0A, chr 0x0B, chr 0x0C, chr 0x0D, chr 0x20]

def Spaces (s : Str) : Prop := ∀ c ∈ s, Space c

/-- Every character is a single non-NUL ASCII byte. -/
def Ascii (s : Str) : Prop := ∀ c ∈ s, ∃ b : UInt8, 0x01 ≤ b ∧ b ≤ 0x7F ∧ c = chr b

/-- An ASCII decimal digit. -/
def Digit (c : Chr) : Prop := ∃ b : UInt8, 0x30 ≤ b ∧ b ≤ 0x39 ∧ c = chr b

/-- The characters of numbers. -/
def NumChar (c : Chr) : Prop := Digit c ∨ c ∈ c!".eE+-"

/-- The first character of `s`, if any, is an ASCII character satisfying `p`. -/
def HeadIs (p : Chr → Prop) (s : Str) : Prop := ∀ c, s.head? = some c → (∃ b : UInt8, b ≤ 0x7F ∧ c = chr b) ∧ p c

/-- The integer denoted by a non-empty run of digits. -/
def natValue (ds : Str) : Nat := ds.foldl (fun n c => 10 * n + ((c.data.headD 0).toNat - 0x30)) 0

/-- An integer literal: an optional minus sign and at least one digit. -/
inductive IntLit : Str → Int → Prop where
  | nonneg (ds : Str) : ds ≠ [] → (∀ c ∈ ds, Digit c) → IntLit ds (natValue ds)
  | neg (ds : Str) : ds ≠ [] → (∀ c ∈ ds, Digit c) → IntLit (chr 0x2D :: ds) (-(natValue ds : Int))

/-- The first character of a number. -/
def NumStart (c : Chr) : Prop := Digit c ∨ c = chr 0x2D ∨ c = chr 0x2B

/-- `t` has one of the characters that make the library read a floating point number. -/
def Floating (t : Str) : Prop := ∃ c ∈ t, c ∈ c!"+eE"

/-- What a number token denotes. -/
inductive Number {F : Type} (ops : FloatOps F) : Str → Json F → Prop where
  | int (lit junk : Str) (i : Int) : IntLit lit i → -(2 ^ 63) ≤ i → i < 2 ^ 63 →
      (∀ c, junk.head? = some c → ¬ Digit c) → ¬ Floating (lit ++ junk) → Number ops (lit ++ junk) (.int i)
  | float (t : Str) (f : F) : Floating t → ops.stod (Str.str t) = .ok f → Number ops t (.float f)

/-- The escapes of one character and the byte each writes. -/
def escapes : List (Chr × UInt8) :=
  [(chr 0x22, 0x22), (chr 0x5C, 0x5C), (chr 0x62, 0x08), (chr 0x66, 0x0C), (chr 0x6E, 0x0A), (chr 0x72, 0x0D),
   (chr 0x74, 0x09)]

/-- The text between the quotation marks of a string, and the bytes it denotes. -/
inductive StrBody : Str → List UInt8 → Prop where
  | nil : StrBody [] []
  | plain (c : Chr) (s : Str) (bs : List UInt8) : c ≠ chr 0x22 → c ≠ chr 0x5C → StrBody s bs →
      StrBody (c :: s) (c.printed ++ bs)
  | escape (c ignored : Chr) (b : UInt8) (s : Str) (bs : List UInt8) : (c, b) ∈ escapes → StrBody s bs →
      StrBody (chr 0x5C :: c :: ignored :: s) (b :: bs)
  | unicode (h₁ h₂ h₃ h₄ ignored : Chr) (neg : Bool) (n : Nat) (s : Str) (bs : List UInt8) :
      HexNumber (Str.str [h₁, h₂, h₃, h₄]) neg n → n < 2 ^ 64 → StrBody s bs →
      StrBody (chr 0x5C :: chr 0x75 :: h₁ :: h₂ :: h₃ :: h₄ :: ignored :: s) (byteOf neg n :: bs)

/-- The text between the quotation marks of a string and the string it denotes, for texts with the escapes of one
character of RFC 8259. -/
inductive RfcBody : Str → Str → Prop where
  | nil : RfcBody [] []
  | plain (c : Chr) (s out : Str) : c ≠ chr 0x22 → c ≠ chr 0x5C → RfcBody s out → RfcBody (c :: s) (c :: out)
  | escape (c : Chr) (b : UInt8) (s out : Str) : (c, b) ∈ escapes → RfcBody s out →
      RfcBody (chr 0x5C :: c :: s) (chr b :: out)

/-- The text of an object with a single member: `{"key":text}`. -/
def single (key text : Str) : Str := c!"{\"" ++ key ++ c!"\":" ++ text ++ c!"}"

/-- The keys, each at its first position. -/
def firsts : List Str → List Str
  | [] => []
  | k :: ks => k :: (firsts ks).filter fun k' => k' ≠ k

/-- The value of the last member with key `k`, or `v`. -/
def lastValue {F : Type} (k : Str) (v : Json F) : List (Str × Json F) → Json F
  | [] => v
  | (k', v') :: ms => if k' = k then lastValue k v' ms else lastValue k v ms

/-- The members of an object from the members as written: a repeated key keeps its first position and its last
value. -/
def collapse {F : Type} : List (Str × Json F) → List (Str × Json F)
  | [] => []
  | (k, v) :: ms => (k, lastValue k v ms) :: (collapse ms).filter fun m => m.1 ≠ k

mutual

/-- `Val text j rest`: `text` is a value denoting `j` followed by `rest`. -/
inductive Val {F : Type} (ops : FloatOps F) (lits : Bool) : Str → Json F → Str → Prop where
  | null (rest) : lits = true → Val ops lits (c!"null" ++ rest) .null rest
  | true (rest) : lits = true → Val ops lits (c!"true" ++ rest) (.bool true) rest
  | false (rest) : lits = true → Val ops lits (c!"false" ++ rest) (.bool false) rest
  | number (c t j rest) : NumStart c → (∀ d ∈ t, NumChar d) → HeadIs (fun d => ¬ NumChar d) rest →
      Number ops (c :: t) j → Val ops lits (c :: t ++ rest) j rest
  | string (body bs s rest) : StrBody body bs → Str.ofStdString bs = .ok s →
      Val ops lits (chr 0x22 :: body ++ chr 0x22 :: rest) (.str s) rest
  | emptyObject (w rest) : Spaces w → Val ops lits (chr 0x7B :: w ++ chr 0x7D :: rest) (.obj []) rest
  | object (w text ms rest) : Spaces w → Members ops lits text ms rest →
      Val ops lits (chr 0x7B :: w ++ text) (.obj (collapse ms)) rest
  | emptyArray (w rest) : Spaces w → Val ops lits (chr 0x5B :: w ++ chr 0x5D :: rest) (.arr []) rest
  | array (w text js rest) : Spaces w → Elements ops lits text js rest →
      Val ops lits (chr 0x5B :: w ++ text) (.arr js) rest

/-- One or more members separated by commas, and the closing bracket. -/
inductive Members {F : Type} (ops : FloatOps F) (lits : Bool) : Str → List (Str × Json F) → Str → Prop where
  | last (key w₁ w₂ w₃ text j rest) : chr 0x22 ∉ key → Spaces w₁ → Spaces w₂ → Spaces w₃ →
      Val ops lits text j (w₃ ++ chr 0x7D :: rest) →
      Members ops lits (chr 0x22 :: key ++ chr 0x22 :: w₁ ++ chr 0x3A :: w₂ ++ text) [(key, j)] rest
  | more (key w₁ w₂ w₃ w₄ text j text' ms rest) : chr 0x22 ∉ key → Spaces w₁ → Spaces w₂ → Spaces w₃ → Spaces w₄ →
      Val ops lits text j (w₃ ++ chr 0x2C :: w₄ ++ text') → Members ops lits text' ms rest →
      Members ops lits (chr 0x22 :: key ++ chr 0x22 :: w₁ ++ chr 0x3A :: w₂ ++ text) ((key, j) :: ms) rest

/-- One or more values separated by commas, and the closing bracket. -/
inductive Elements {F : Type} (ops : FloatOps F) (lits : Bool) : Str → List (Json F) → Str → Prop where
  | last (w text j rest) : Spaces w → Val ops lits text j (w ++ chr 0x5D :: rest) →
      Elements ops lits text [j] rest
  | more (w₁ w₂ text j text' js rest) : Spaces w₁ → Spaces w₂ →
      Val ops lits text j (w₁ ++ chr 0x2C :: w₂ ++ text') → Elements ops lits text' js rest →
      Elements ops lits text (j :: js) rest

end

/-- A JSON text: white space, an object, and anything up to a last `}` followed by white space. -/
def Document {F : Type} (ops : FloatOps F) (lits : Bool) (text : Str) (j : Json F) : Prop :=
  ∃ w body rest ms, Spaces w ∧ text = w ++ body ∧ Val ops lits body j rest ∧ j = .obj ms ∧
    ∃ pre w', Spaces w' ∧ text = pre ++ chr 0x7D :: w'

/-- No object of the tree has two members with the same key. -/
inductive UniqueKeys {F : Type} : Json F → Prop where
  | null : UniqueKeys .null
  | bool (b) : UniqueKeys (.bool b)
  | int (i) : UniqueKeys (.int i)
  | float (f) : UniqueKeys (.float f)
  | str (s) : UniqueKeys (.str s)
  | arr (js : List (Json F)) : (∀ j ∈ js, UniqueKeys j) → UniqueKeys (.arr js)
  | obj (ms : List (Str × Json F)) : (ms.map Prod.fst).Nodup → (∀ m ∈ ms, UniqueKeys m.2) → UniqueKeys (.obj ms)

end Caitlyn.Spec
