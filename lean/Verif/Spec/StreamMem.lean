import Verif.Model.StreamMem

/-! # What is left of texts when streams cannot grow -/

namespace Caitlyn.Spec
open StreamMem
variable {F : Type}

/-- What is left of some bytes. -/
def cut : Room → List UInt8 → List UInt8
  | none, bs => bs
  | some n, bs => bs.take n

/-- Every room is at least `n`. -/
def atLeast (n : Nat) (room : Room) : Prop := ∀ m, room = some m → n ≤ m

/-- The second text is the beginning of the first, perhaps with a part of a character. -/
def CutTo (s p : Str) : Prop := Str.str p <+: Str.str s

mutual
/-- The second value has the structure of the first; its keys, texts and numbers are related by `K`, `S`, `I` and `R`. -/
def Alike (K S : Str → Str → Prop) (I : Int → Int → Prop) (R : F → F → Prop) : Json F → Json F → Prop
  | .obj ms, j => ∃ ms', j = .obj ms' ∧ AlikeMembers K S I R ms ms'
  | .arr js, j => ∃ js', j = .arr js' ∧ AlikeItems K S I R js js'
  | .str s, j => ∃ p, j = .str p ∧ S s p
  | .int i, j => ∃ i', j = .int i' ∧ I i i'
  | .float f, j => ∃ f', j = .float f' ∧ R f f'
  | .bool b, j => j = .bool b
  | .null, j => j = .null

def AlikeMembers (K S : Str → Str → Prop) (I : Int → Int → Prop) (R : F → F → Prop) :
    List (Str × Json F) → List (Str × Json F) → Prop
  | [], ms => ms = []
  | (k, v) :: ms, l => ∃ k' v' ms', l = (k', v') :: ms' ∧ K k k' ∧ Alike K S I R v v' ∧ AlikeMembers K S I R ms ms'

def AlikeItems (K S : Str → Str → Prop) (I : Int → Int → Prop) (R : F → F → Prop) : List (Json F) → List (Json F) → Prop
  | [], js => js = []
  | v :: js, l => ∃ v' js', l = v' :: js' ∧ Alike K S I R v v' ∧ AlikeItems K S I R js js'
end

/-- The second number is the first without some of its last digits. -/
def Fewer (i i' : Int) : Prop := ∃ k : Nat, i' = i.tdiv (10 ^ k)

/-- The second number is read from the beginning of a text from which the first is read. -/
def CutNumber (ops : FloatOps F) (f f' : F) : Prop := ∃ t t', t' <+: t ∧ ops.stod t = .ok f ∧ ops.stod t' = .ok f'

mutual
/-- The value with the function applied to its texts, but not to its keys. -/
def mapTexts (g : Str → Str) : Json F → Json F
  | .obj ms => .obj (mapMembers g ms)
  | .arr js => .arr (mapItems g js)
  | .str s => .str (g s)
  | .int i => .int i
  | .float f => .float f
  | .bool b => .bool b
  | .null => .null

def mapMembers (g : Str → Str) : List (Str × Json F) → List (Str × Json F)
  | [] => []
  | (k, v) :: ms => (k, mapTexts g v) :: mapMembers g ms

def mapItems (g : Str → Str) : List (Json F) → List (Json F)
  | [] => []
  | v :: js => mapTexts g v :: mapItems g js
end

/-- A text of ASCII characters without a backslash. -/
def PlainAscii (s : Str) : Prop := ∀ c ∈ s, ∃ b : UInt8, c = ⟨[b]⟩ ∧ b ≠ 0 ∧ b ≤ 0x7F ∧ b ≠ 0x5C

end Caitlyn.Spec
