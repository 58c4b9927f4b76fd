import Verif.Model.Registry

/-!
# The text of the operands in the comparing macros (__Testing/Macro/Assert.h:32-91)

`ASSERT_EQ(val1, val2)` and the other five put the tokens of their operands, without parentheses, into
`oss << "..." << " (" << val1 << " != " << val2 << ")"` (Assert.h:36, 44, 52, 60, 68, 76). What the compiler makes of this depends on
the operators in the operands. An operand is a sequence of primary expressions of type `int` (numbers, names, calls, anything in
parentheses) with binary operators between them. Not modelled: `?:`, assignment, the comma (which a macro does not get), operators
of other types, and C++20's `<=>`.
-/

namespace Caitlyn.MacroExpr

/-- The binary operators. -/
inductive Op where
  | mul | div | mod | add | sub | shl | shr | lt | gt | le | ge | eq | ne | band | bxor | bor | land | lor
  deriving DecidableEq

/-- How loosely an operator binds ([expr.mul] to [expr.log.or]). -/
def Op.level : Op → Nat
  | .mul | .div | .mod => 1
  | .add | .sub => 2
  | .shl | .shr => 3
  | .lt | .gt | .le | .ge => 4
  | .eq | .ne => 5
  | .band => 6
  | .bxor => 7
  | .bor => 8
  | .land => 9
  | .lor => 10

/-- What stands between the operators: the stream `oss`, a string literal, or a primary expression with its value. -/
inductive Atom where
  | oss
  | text (t : List UInt8)
  | int (i : Int)
  deriving DecidableEq

/-- An expression as the compiler understands it. -/
inductive Tree where
  | leaf (a : Atom)
  | node (l : Tree) (op : Op) (r : Tree)
  deriving DecidableEq

/-- The grammar of the binary operators, all of which associate to the left: `E_k → E_k op_k E_(k-1)`. `Parse a rest t`: the tokens `a`
and `rest` are the expression `t`. -/
inductive Parse : Atom → List (Op × Atom) → Tree → Prop
  | leaf (a) : Parse a [] (.leaf a)
  | node {a pre l op b post r} : Parse a pre l → Parse b post r → (∀ x ∈ pre, x.1.level ≤ op.level) →
      (∀ x ∈ post, x.1.level < op.level) → Parse a (pre ++ (op, b) :: post) (.node l op r)

/-- Types. -/
inductive Ty where
  | ostream | text | int
  deriving DecidableEq

/-- The type of an expression, `none` if it is ill-formed: `std::ostream` has `<<` for numbers and literals only, and there is no
operator for a number and a literal (comparisons and sums of pointers are left out, as no operand is a literal). -/
def Tree.type : Tree → Option Ty
  | .leaf .oss => some .ostream
  | .leaf (.text _) => some .text
  | .leaf (.int _) => some .int
  | .node l op r =>
    match l.type, r.type with
    | some .int, some .int => some .int
    | some .ostream, some .int | some .ostream, some .text => if op = .shl then some .ostream else none
    | _, _ => none

/-- The value of an expression of type `int`; `ev` computes the operators. -/
def Tree.value (ev : Op → Int → Int → Int) : Tree → Int
  | .leaf (.int i) => i
  | .leaf _ => 0
  | .node l op r => ev op (l.value ev) (r.value ev)

/-- What an expression of type `std::ostream` writes. -/
def Tree.written (ev : Op → Int → Int → Int) : Tree → List UInt8
  | .leaf _ => []
  | .node l _ (.leaf (.text t)) => l.written ev ++ t
  | .node l _ r => l.written ev ++ stdToString (r.value ev)

/-- An operand of the macro. -/
structure Operand where
  first : Int
  rest : List (Op × Int)
  deriving DecidableEq

/-- The tokens of an operand after its first. -/
def Operand.tokens (v : Operand) : List (Op × Atom) := v.rest.map fun x => (x.1, .int x.2)

/-- The tokens of the statement after `oss` (Assert.h:36): `text` is the literal with the texts of the operands, `neg` the one between
the values. -/
def expansion (text neg : List UInt8) (v1 v2 : Operand) : List (Op × Atom) :=
  (.shl, .text text) :: (.shl, .text [0x20, 0x28]) :: (.shl, .int v1.first) :: v1.tokens ++
    (.shl, .text neg) :: (.shl, .int v2.first) :: v2.tokens ++ [(.shl, .text [0x29])]

/-! ## When the operands of the message are evaluated, and what `oss` names there

The statement is inside the block that declares `std::ostringstream oss` (Assert.h:35), so an operand that mentions a variable `oss` of the
caller finds the stream of the macro. Under C++11, which CMakeLists.txt:25 asks for, the evaluation of an operand is not ordered with the
calls of `operator<<` before it in the chain, nor with that of the other operand. -/

/-- An operand: what is shown of it and the new state, from the contents of the stream that `oss` names where it is evaluated. -/
abbrev Shows (σ : Type) := List UInt8 → σ → List UInt8 × σ

/-- The execution of the statement so far: the contents of the macro's stream, the number of calls of `<<`, the operands evaluated. -/
structure Progress (σ : Type) where
  oss : List UInt8
  calls : Nat
  val1 : Option (List UInt8)
  val2 : Option (List UInt8)
  state : σ

/-- What the next call of `<<` writes, `none` if it has to wait for an operand or there is none (Assert.h:36). -/
def Progress.next (text neg : List UInt8) (p : Progress σ) : Option (List UInt8) :=
  match p.calls with
  | 0 => some text
  | 1 => some [0x20, 0x28]
  | 2 => p.val1
  | 3 => some neg
  | 4 => p.val2
  | 5 => some [0x29]
  | _ => none

/-- A step. -/
inductive Step (text neg : List UInt8) (f g : Shows σ) : Progress σ → Progress σ → Prop
  | call {p w} : p.next text neg = some w → Step text neg f g p { p with oss := p.oss ++ w, calls := p.calls + 1 }
  | eval1 {p} : p.val1 = none → Step text neg f g p { p with val1 := some (f p.oss p.state).1, state := (f p.oss p.state).2 }
  | eval2 {p} : p.val2 = none → Step text neg f g p { p with val2 := some (g p.oss p.state).1, state := (g p.oss p.state).2 }

/-- Executions of the statement. -/
inductive Steps (text neg : List UInt8) (f g : Shows σ) : Progress σ → Progress σ → Prop
  | refl (p) : Steps text neg f g p p
  | tail {p q r} : Steps text neg f g p q → Step text neg f g q r → Steps text neg f g p r

/-- The statement can end with the message `m` and the state `s'` (Assert.h:37: `oss.str()`). -/
def Message (text neg : List UInt8) (f g : Shows σ) (s : σ) (m : List UInt8) (s' : σ) : Prop :=
  ∃ p, Steps text neg f g ⟨[], 0, none, none, s⟩ p ∧ p.calls = 6 ∧ p.oss = m ∧ p.state = s'

end Caitlyn.MacroExpr
