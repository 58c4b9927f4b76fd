import Verif.Model.Registry

/-!
# Model of the assertion macros (__Testing/Macro/Assert.h) and of `TestFailMessage`

An operand of a macro is an expression that is evaluated each time its text occurs in the expansion; it reads and
changes the state `σ` of the program. Simplifications: operands return normally; they are evaluated from left to right
(before C++17 the order is unspecified); an operand is a primary expression, so the missing parentheses in
`<< val1 <<` do not change its meaning (Model/MacroExpr.lean is about other operands, and other orders). `oss.str()` is a `std::string` without NUL bytes.
-/

namespace Caitlyn.Testing

/-- How a statement ends. -/
inductive Flow (σ : Type) where
  /-- control reaches the next statement -/
  | next (s : σ)
  /-- throws `std::runtime_error` with this message -/
  | throws (what : List UInt8) (s : σ)
  /-- `std::abort()` after writing this to standard error -/
  | aborts (err : List UInt8) (s : σ)
  deriving DecidableEq

/-- An operand: value and new state. -/
abbrev Operand (σ α : Type) := σ → α × σ

/-- `ASSERT_TRUE(condition)` (Assert.h:24-26); `text` is `#condition`. -/
def assertTrue (text : List UInt8) (cond : Operand σ Bool) (s : σ) : Flow σ :=
  let (c, s) := cond s
  if !c then .throws (b!"Assertion failed: " ++ text) s else .next s

/-- `ASSERT_FALSE(condition)` (Assert.h:28-30). -/
def assertFalse (text : List UInt8) (cond : Operand σ Bool) (s : σ) : Flow σ :=
  let (c, s) := cond s
  if c then .throws (b!"Assertion failed: " ++ text) s else .next s

/-- The common form of the macros that compare (Assert.h:32-91): `rel` is the operator of the types, `op` and `neg` the
texts in the message, `t1` and `t2` the texts of the operands, `show1` and `show2` the operators `<<`. -/
def assertRel (rel : α → β → Bool) (op neg t1 t2 : List UInt8) (show1 : α → List UInt8) (show2 : β → List UInt8)
    (val1 : Operand σ α) (val2 : Operand σ β) (s : σ) : Flow σ :=
  let (a, s) := val1 s
  let (b, s) := val2 s
  if !rel a b then
    let (a, s) := val1 s
    let (b, s) := val2 s
    .throws (b!"Assertion failed: " ++ t1 ++ b!" " ++ op ++ b!" " ++ t2 ++
      b!" (" ++ show1 a ++ b!" " ++ neg ++ b!" " ++ show2 b ++ b!")") s
  else .next s

/-- The comparing macros. -/
inductive Rel where
  | eq | ne | lt | le | gt | ge
  deriving DecidableEq

/-- The operator of a macro: `ASSERT_EQ` and `ASSERT_EQ_PRINTABLE` (Assert.h:32, 80), `ASSERT_NE` (40), `ASSERT_LT`
(48), `ASSERT_LE` (56), `ASSERT_GT` (64), `ASSERT_GE` (72). -/
def Rel.op : Rel → List UInt8
  | .eq => b!"==" | .ne => b!"!=" | .lt => b!"<" | .le => b!"<=" | .gt => b!">" | .ge => b!">="

/-- The operator in parentheses in the message (Assert.h:36, 44, 52, 60, 68, 76). -/
def Rel.neg : Rel → List UInt8
  | .eq => b!"!=" | .ne => b!"==" | .lt => b!">=" | .le => b!">" | .gt => b!"<=" | .ge => b!"<"

/-- The operators of the types of the operands. -/
structure Compare (α β : Type) where
  eq : α → β → Bool
  ne : α → β → Bool
  lt : α → β → Bool
  le : α → β → Bool
  gt : α → β → Bool
  ge : α → β → Bool

/-- The operator of a macro on values. -/
def Compare.rel (c : Compare α β) : Rel → α → β → Bool
  | .eq => c.eq | .ne => c.ne | .lt => c.lt | .le => c.le | .gt => c.gt | .ge => c.ge

/-- `ASSERT_EQ`, `ASSERT_NE`, `ASSERT_LT`, `ASSERT_LE`, `ASSERT_GT`, `ASSERT_GE` (Assert.h:32-78). -/
def assertCmp (c : Compare α β) (r : Rel) (t1 t2 : List UInt8) (show1 : α → List UInt8) (show2 : β → List UInt8)
    (val1 : Operand σ α) (val2 : Operand σ β) : σ → Flow σ :=
  assertRel (c.rel r) r.op r.neg t1 t2 show1 show2 val1 val2

/-- `ASSERT_STREQ(expected, actual)` (Assert.h:93-117); `none` is the null pointer, `some s` a C string with content
`s`. The operands are evaluated anew at each occurrence; `&&` does not evaluate the second one if the first is not
null. -/
def assertStrEq (expected actual : Operand σ (Option (List UInt8))) (s : σ) : Flow σ :=
  let (e, s) := expected s
  let (bothNull, s) := if e = none then (let (a, s) := actual s; (decide (a = none), s)) else (false, s)
  if bothNull then .next s
  else
    let (e, s) := expected s
    if e = none then
      let (a, s) := actual s
      .aborts (b!"Assertion failed: Expected nullptr, but got \"" ++ a.getD [] ++ b!"\"\n") s
    else
      let (a, s) := actual s
      if a = none then
        let (e, s) := expected s
        .aborts (b!"Assertion failed: Expected \"" ++ e.getD [] ++ b!"\", but got nullptr\n") s
      else
        let (e, s) := expected s
        let (a, s) := actual s
        if e ≠ a then
          let (e, s) := expected s
          let (a, s) := actual s
          .aborts (b!"Assertion failed: Expected \"" ++ e.getD [] ++ b!"\", but got \"" ++ a.getD [] ++ b!"\"\n") s
        else .next s

/-- `PASS()` (Assert.h:119). -/
def pass (s : σ) : Flow σ := assertTrue b!"true" (fun s => (true, s)) s

/-- `FAIL()` (Assert.h:121). -/
def fail (s : σ) : Flow σ := assertTrue b!"false" (fun s => (false, s)) s

/-- `FAIL_MESSAGE() << v1 << v2 << ...` (Assert.h:123, TestFailMessage.h:31-53): each `<<` appends its operand to
the message and throws. `line` is the text of the line number. The operands are evaluated from left to right, each
right before its `<<` (C++17; before, later operands may be evaluated first). -/
def failMessage (file line : List UInt8) (message : List UInt8) : List (Operand σ (List UInt8)) → σ → Flow σ
  | [], s => .next s
  | v :: _, s =>
    let (t, s) := v s
    .throws (b!"FAILURE: Test failed at " ++ file ++ b!":" ++ line ++ b!" - " ++ (message ++ t)) s

/-- A test body: statements one after the other. -/
def body : List (σ → Flow σ) → σ → Flow σ
  | [], s => .next s
  | f :: fs, s =>
    match f s with
    | .next s => body fs s
    | r => r

/-- How the execution of a test function with this body ends, seen by the registry; `none` if the process is aborted. -/
def outcome : Flow σ → Option Registry.Outcome
  | .next _ => some .returns
  | .throws what _ => some (.throwsStd what)
  | .aborts _ _ => none

/-! ## Expansion of the macros inside `if` statements

`ASSERT_TRUE` and `ASSERT_FALSE` expand to `if (...) throw ...` without braces. -/

/-- Tokens, as far as they matter: conditions and other statements are numbered; `blockTok` is the block of the comparing macros,
`{ std::ostringstream oss; ... throw ...; }`. -/
inductive Tok where
  | ifTok (cond : Nat) | elseTok | throwTok | blockTok | stmtTok (n : Nat) | semi
  deriving DecidableEq

/-- Statements. -/
inductive Stmt where
  | ifS (cond : Nat) (thn : Stmt) (els : Option Stmt)
  | throwS
  | block
  | empty
  | other (n : Nat)

/-- The C++ grammar of these statements ([stmt.if]/2: an `else` belongs to the nearest `if` before it that can take
it): the statement at the start of the tokens, and the tokens after it. -/
def parseStmt : Nat → List Tok → Option (Stmt × List Tok)
  | 0, _ => none
  | n + 1, .ifTok c :: ts =>
    match parseStmt n ts with
    | none => none
    | some (thn, .elseTok :: ts) =>
      match parseStmt n ts with
      | none => none
      | some (els, ts) => some (.ifS c thn (some els), ts)
    | some (thn, ts) => some (.ifS c thn none, ts)
  | _ + 1, .throwTok :: .semi :: ts => some (.throwS, ts)
  | _ + 1, .blockTok :: ts => some (.block, ts)
  | _ + 1, .semi :: ts => some (.empty, ts)
  | _ + 1, .stmtTok k :: .semi :: ts => some (.other k, ts)
  | _ + 1, _ => none

/-- `ASSERT_TRUE(x);`: condition `x` of the tokens is `!(condition)`. The same of `ASSERT_FALSE`. -/
def assertTokens (x : Nat) : List Tok := [.ifTok x, .throwTok, .semi]

/-- `ASSERT_EQ(val1, val2)` and the other comparing macros (Assert.h:32-91): condition `x` is `!((val1) == (val2))`. The semicolon that
a caller writes after it is not included. -/
def compareTokens (x : Nat) : List Tok := [.ifTok x, .blockTok]

/-- The statements of a function body; `none` if the tokens are not a sequence of statements. -/
def parseBody : Nat → List Tok → Option (List Stmt)
  | _, [] => some []
  | 0, _ => none
  | n + 1, ts =>
    match parseStmt n ts with
    | none => none
    | some (s, ts) => (parseBody n ts).map (s :: ·)

end Caitlyn.Testing
