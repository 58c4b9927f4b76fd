import Verif.Model.StrMem

/-!
# Specification: texts, and positions instead of references

No memory: a variable is a text, a reference is a variable and a position in it. A statement is done, or memory runs out, which
changes nothing, except that the two `Append`s of several characters may have appended the first ones.
-/

namespace Caitlyn.Spec
open StrMem

structure Texts where
  text : Nat → Str := fun _ => []
  /-- the variable and the position that a reference stands for -/
  place : Nat → Nat × Nat := fun _ => (0, 0)

def Texts.put (a : Texts) (x : Nat) (s : Str) : Texts := { a with text := fun y => if y = x then s else a.text y }

/-- The character at a position. -/
def Texts.charAt (a : Texts) (p : Nat × Nat) : Chr := ((a.text p.1)[p.2]?).getD ⟨[]⟩

def Texts.arg (a : Texts) : Arg → Chr
  | .value c => c
  | .ref r => a.charAt (a.place r)

/-- `x` with characters inserted, if the position exists. -/
def Texts.inserted (a : Texts) (x pos : Nat) (cs : Str) : Out × Texts :=
  if pos ≤ (a.text x).length then (.done, a.put x ((a.text x).take pos ++ cs ++ (a.text x).drop pos)) else (.outOfRange, a)

/-- References to the characters of `y` are references to those of `x`. -/
def carry (x y : Nat) (p : Nat × Nat) : Nat × Nat := if p.1 = y then (x, p.2) else p

/-- What a statement does when there is memory. -/
def textMeaning (a : Texts) : StrMem.Stmt → Out × Texts
  | .literal x cs => (.done, a.put x cs)
  | .plus x y z => (.done, a.put x (a.text y ++ a.text z))
  | .substring x y pos count =>
    if pos ≤ (a.text y).length then (.done, a.put x (((a.text y).drop pos).take count)) else (.outOfRange, a)
  | .copy x y => (.done, a.put x (a.text y))
  | .move x y =>
    (.done, if x = y then a else { (a.put x (a.text y)).put y [] with place := fun r => carry x y (a.place r) })
  | .clear x => (.done, a.put x [])
  | .push x c => (.done, a.put x (a.text x ++ [a.arg c]))
  | .append x cs => (.done, a.put x (a.text x ++ cs))
  | .appendCount x n c => (.done, a.put x (a.text x ++ List.replicate n (a.arg c)))
  | .plusAssign x y => (.done, a.put x (a.text x ++ a.text y))
  | .insert x pos y => a.inserted x pos (a.text y)
  | .insertLit x pos cs => a.inserted x pos cs
  | .insertCount x pos n c => a.inserted x pos (List.replicate n (a.arg c))
  | .at' r x i =>
    if i < (a.text x).length then (.done, { a with place := fun q => if q = r then (x, i) else a.place q }) else (.outOfRange, a)
  | .index r x i => (.done, { a with place := fun q => if q = r then (x, i) else a.place q })
  | .set r c => (.done, a.put (a.place r).1 ((a.text (a.place r).1).set (a.place r).2 c))
  | .get r => (.char (a.charAt (a.place r)), a)
  | .read x => (.text (a.text x), a)

/-- What a statement leaves when memory runs out in it. -/
def Left (a : Texts) : StrMem.Stmt → Texts → Prop
  | .append x cs, b => ∃ k < cs.length, b = a.put x (a.text x ++ cs.take k)
  | .appendCount x n c, b => ∃ k < n, b = a.put x (a.text x ++ List.replicate k (a.arg c))
  | _, b => b = a

/-- A statement gives `o` and leaves `b`. -/
def TextStep (a : Texts) (s : StrMem.Stmt) (o : Out) (b : Texts) : Prop := (o, b) = textMeaning a s ∨ o = .noMemory ∧ Left a s b

/-- A program. -/
inductive TextRun : Texts → List StrMem.Stmt → List Out → Texts → Prop where
  | nil {a} : TextRun a [] [] a
  | cons {a b c s p o os} : TextStep a s o b → TextRun b p os c → TextRun a (s :: p) (o :: os) c

/-- The memory holds the texts: every variable its text, and every valid reference the character at its position. -/
def HoldsTexts (st : State) (a : Texts) : Prop :=
  (∀ x, st.elems x = a.text x) ∧
  ∀ r p, st.refs r = some p → (st.vars (a.place r).1).blk = some p.1 ∧ p.2 = (a.place r).2 ∧ p.2 < (a.text (a.place r).1).length

/-- The memory is in order: the storage that is allocated is that of the variables, each has its own, and their elements are in
their capacity. -/
structure Ordered (st : State) : Prop where
  owned : ∀ b, (st.heap b).isSome ↔ ∃ x, (st.vars x).blk = some b
  own : ∀ x y b, (st.vars x).blk = some b → (st.vars y).blk = some b → x = y
  room : ∀ x, (st.elems x).length ≤ (st.vars x).cap
  none : ∀ x, (st.vars x).blk = none ↔ (st.vars x).cap = 0

/-- The texts and what is given when memory suffices. -/
def textsOf : Texts → List StrMem.Stmt → List Out × Texts
  | a, [] => ([], a)
  | a, s :: p => ((textMeaning a s).1 :: (textsOf (textMeaning a s).2 p).1, (textsOf (textMeaning a s).2 p).2)

/-- A state that a program reaches. -/
def Reached (P : Policy) (fails : Nat → Bool) (st : State) : Prop := ∃ p os, run P fails {} p = .ok (os, st)

/-- How many characters `x` can take without growing. -/
def roomOf (st : State) (x : Nat) : Nat := (st.vars x).cap - (st.elems x).length

/-- `r` refers to the character with index `j` of the variable `x`. -/
def RefersTo (st : State) (r x j : Nat) : Prop := ∃ b, st.refs r = some (b, j) ∧ (st.vars x).blk = some b

def Dangling (st : State) (c : Arg) : Prop :=
  match c with
  | .value _ => False
  | .ref r => st.refs r = none

/-- The statements whose execution is undefined. -/
def UndefinedIn (fails : Nat → Bool) (st : State) : StrMem.Stmt → Prop
  | .push _ c => Dangling st c
  | .appendCount x n c => 0 < n ∧ (Dangling st c ∨
      ∃ r j, c = .ref r ∧ RefersTo st r x j ∧ roomOf st x + 2 ≤ n ∧ fails st.tries = false)
  | .plusAssign x y => x = y
  | .insert x pos y => x = y ∧ pos ≤ (st.elems x).length
  | .insertCount x pos _ c => pos ≤ (st.elems x).length ∧ Dangling st c
  | .index _ x i => (st.elems x).length ≤ i
  | .set r _ => st.refs r = none
  | .get r => st.refs r = none
  | _ => False

/-- The statements that bind the reference `r`. -/
def Binds (r : Nat) : StrMem.Stmt → Prop
  | .at' q _ _ => q = r
  | .index q _ _ => q = r
  | _ => False

/-- Inserting `n` characters at `pos` ends references to index `j`. -/
def EndsAt (st : State) (x pos n j : Nat) : Prop := 0 < n ∧ (roomOf st x < n ∨ pos ≤ j)

/-- A statement that gives `o` ends the references to index `j` of `x`. The two `Append`s do so when they have grown once, also when
memory runs out later. -/
def Ends (fails : Nat → Bool) (st : State) (x j : Nat) (o : Out) : StrMem.Stmt → Prop
  | .literal y _ => o = .done ∧ y = x
  | .plus y _ _ => o = .done ∧ y = x
  | .substring y _ _ _ => o = .done ∧ y = x
  | .copy y z => o = .done ∧ y = x ∧ z ≠ x
  | .move y z => o = .done ∧ y = x ∧ z ≠ x
  | .clear y => o = .done ∧ y = x
  | .push y _ => o = .done ∧ y = x ∧ roomOf st x = 0
  | .append y cs => fails st.tries = false ∧ y = x ∧ roomOf st x < cs.length
  | .appendCount y n _ => fails st.tries = false ∧ y = x ∧ roomOf st x < n
  | .plusAssign y z => o = .done ∧ y = x ∧ roomOf st x < (st.elems z).length
  | .insert y pos z => o = .done ∧ y = x ∧ EndsAt st x pos (st.elems z).length j
  | .insertLit y pos cs => o = .done ∧ y = x ∧ EndsAt st x pos cs.length j
  | .insertCount y pos n _ => o = .done ∧ y = x ∧ EndsAt st x pos n j
  | _ => False

end Caitlyn.Spec
