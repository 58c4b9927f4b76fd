import Verif.Model.OdrUse

/-! # Specification for C175: what an expression stands for -/

namespace Caitlyn.Spec.OdrUse
open Caitlyn.OdrUse

/-- The expression stands for an object, not for a value. -/
inductive Object : Expr → Prop
  | const : Object .const
  | var : Object .var
  | paren {e : Expr} : Object e → Object (.paren e)
  | cond {a b : Expr} : Object a → Object b → Object (.cond a b)
  | comma {l r : Expr} : Object r → Object (.comma l r)

/-- The expression can stand for the constant itself, not for a copy of its value. -/
inductive Names : Expr → Prop
  | const : Names .const
  | paren {e : Expr} : Names e → Names (.paren e)
  /-- a conditional expression stands for an operand only if both are objects -/
  | left {a b : Expr} : Names a → Object b → Names (.cond a b)
  | right {a b : Expr} : Object a → Names b → Names (.cond a b)
  | comma {l r : Expr} : Names r → Names (.comma l r)

/-- All the parts of an expression, and itself. -/
def parts : Expr → List Expr
  | .const => [.const]
  | .var => [.var]
  | .value => [.value]
  | .paren e => .paren e :: parts e
  | .cond a b => .cond a b :: (parts a ++ parts b)
  | .comma l r => .comma l r :: (parts l ++ parts r)
  | .arith a b => .arith a b :: (parts a ++ parts b)
  | .unary e => .unary e :: parts e

/-- The constant chosen by an operator, or thrown away. -/
def Chosen : Expr → Prop
  | .cond a b => Names (.cond a b)
  | .comma l r => Names l ∨ Names (.comma l r)
  | _ => False

/-- The same expression with a `+` before each constant: `+String::NPosition`. -/
def plus : Expr → Expr
  | .const => .unary .const
  | .var => .var
  | .value => .value
  | .paren e => .paren (plus e)
  | .cond a b => .cond (plus a) (plus b)
  | .comma l r => .comma (plus l) (plus r)
  | .arith a b => .arith (plus a) (plus b)
  | .unary e => .unary (plus e)

end Caitlyn.Spec.OdrUse
