import Verif.Model.Assert
import Verif.Props.Registry

/-! # Properties C90 to C92: assertion macros, failure messages, assertions in tests -/

namespace Caitlyn
open Testing

/-- What the operators of comparison mean on integers. -/
def Means (op : List UInt8) (a b : Int) : Prop :=
  (op = b!"==" ∧ a = b) ∨ (op = b!"!=" ∧ a ≠ b) ∨ (op = b!"<" ∧ a < b) ∨ (op = b!"<=" ∧ a ≤ b) ∨
  (op = b!">" ∧ b < a) ∨ (op = b!">=" ∧ b ≤ a)

/-- The operators of the integers. -/
def intCompare : Compare Int Int where
  eq a b := decide (a = b)
  ne a b := decide (a ≠ b)
  lt a b := decide (a < b)
  le a b := decide (a ≤ b)
  gt a b := decide (b < a)
  ge a b := decide (b ≤ a)

/-- C90, operands without side effects: each comparing macro on integers passes exactly if the relation that its
operator denotes holds. Otherwise it throws; the message contains the texts of the operands with that operator, and the
values of the operands with an operator that does hold between them. -/
theorem C90_compare (r : Rel) (t1 t2 : List UInt8) (text : Int → List UInt8) (a b : Int) (s : σ) :
    let f := assertCmp intCompare r t1 t2 text text (fun s => (a, s)) (fun s => (b, s)) s
    (Means r.op a b → f = .next s) ∧
    (¬ Means r.op a b → ∃ neg, Means neg a b ∧
      f = .throws (b!"Assertion failed: " ++ t1 ++ b!" " ++ r.op ++ b!" " ++ t2 ++
        b!" (" ++ text a ++ b!" " ++ neg ++ b!" " ++ text b ++ b!")") s) := by
  intro f
  have key : (intCompare.rel r a b = true ↔ Means r.op a b) ∧ (¬ Means r.op a b → Means r.neg a b) := by
    cases r <;> simp [Compare.rel, intCompare, Means, Rel.op, Rel.neg] <;> omega
  constructor
  · intro h
    have := key.1.mpr h
    simp [f, assertCmp, assertRel, this]
  · intro h
    have hb : intCompare.rel r a b = false := by
      cases e : intCompare.rel r a b with
      | false => rfl
      | true => exact absurd (key.1.mp e) h
    exact ⟨r.neg, key.2 h, by simp [f, assertCmp, assertRel, hb]⟩

/-- C90, any operands and types: a macro that passes has evaluated each operand exactly once, and the operator gave
true for the values; a macro that does not pass has evaluated each operand exactly twice and throws, with the values of the
second evaluation in the message. -/
theorem C90_once (c : Compare α β) (r : Rel) (t1 t2 : List UInt8) (show1 : α → List UInt8) (show2 : β → List UInt8)
    (val1 : Operand σ α) (val2 : Operand σ β) (s : σ) :
    let s1 := (val1 s).2
    (c.rel r (val1 s).1 (val2 s1).1 = true ∧
      assertCmp c r t1 t2 show1 show2 val1 val2 s = .next (val2 s1).2) ∨
    (c.rel r (val1 s).1 (val2 s1).1 = false ∧
      let s2 := (val2 s1).2
      let s3 := (val1 s2).2
      assertCmp c r t1 t2 show1 show2 val1 val2 s =
        .throws (b!"Assertion failed: " ++ t1 ++ b!" " ++ r.op ++ b!" " ++ t2 ++
          b!" (" ++ show1 (val1 s2).1 ++ b!" " ++ r.neg ++ b!" " ++ show2 (val2 s3).1 ++ b!")") (val2 s3).2) := by
  intro s1
  cases h : c.rel r (val1 s).1 (val2 s1).1 with
  | true => left; exact ⟨rfl, by simp only [assertCmp, assertRel]; simp [s1] at h; simp [h, s1]⟩
  | false => right; exact ⟨rfl, by simp only [assertCmp, assertRel]; simp [s1] at h; simp [h, s1]⟩

/-- C90 fails for operands with side effects: to print the message the operands are evaluated again. Here the operand is
a counter that is incremented by its evaluation; `ASSERT_EQ(next(), 1)` fails, the counter is then 2, and
the message claims `1 != 1`. -/
theorem C90_twice_fails (text : Int → List UInt8) :
    assertCmp intCompare .eq b!"next()" b!"1" text text (fun n : Int => (n, n + 1)) (fun n => (1, n)) 0 =
      .throws (b!"Assertion failed: next() == 1 (" ++ text 1 ++ b!" != " ++ text 1 ++ b!")") 2 := by
  simp [assertCmp, assertRel, Compare.rel, intCompare, Rel.op, Rel.neg]

/-- C90, `ASSERT_TRUE` and `ASSERT_FALSE`: the condition is evaluated exactly once; the macros pass exactly if it is
true, respectively false, and throw otherwise. -/
theorem C90_true_false (text : List UInt8) (cond : Operand σ Bool) (s : σ) :
    (assertTrue text cond s = if (cond s).1 = true then .next (cond s).2
      else .throws (b!"Assertion failed: " ++ text) (cond s).2) ∧
    (assertFalse text cond s = if (cond s).1 = true then .throws (b!"Assertion failed: " ++ text) (cond s).2
      else .next (cond s).2) ∧
    pass s = .next s ∧ fail s = .throws b!"Assertion failed: false" s := by
  refine ⟨?_, ?_, ?_, ?_⟩
  · cases h : cond s with
    | mk c s' => cases c <;> simp [assertTrue, h]
  · cases h : cond s with
    | mk c s' => cases c <;> simp [assertFalse, h]
  · simp [pass, assertTrue]
  · simp only [fail, assertTrue]
    rfl

/-- C90 fails inside an `if` statement with `else`: the `else` belongs to the `if` of the macro. So
`if (c) ASSERT_TRUE(x); else S` does nothing if `c` is false, and executes `S` if `c` and `x` are true. Here `x` stands
for the negated condition of the macro, and `n` for the statement `S`. -/
theorem C90_else_fails (c x n : Nat) (rest : List Tok) (h : rest.head? ≠ some .elseTok) :
    parseStmt 3 (.ifTok c :: assertTokens x ++ .elseTok :: .stmtTok n :: .semi :: rest) =
      some (.ifS c (.ifS x .throwS (some (.other n))) none, rest) := by
  cases rest with
  | nil => rfl
  | cons t ts => cases t <;> first | rfl | exact absurd rfl h

/-- C90 fails for the comparing macros with `else`, too: written with a semicolon as `if (c) ASSERT_EQ(a, b); else S`, a function body does
not compile, whatever follows, since the semicolon after the block ends the `if` statements. -/
theorem C90_semicolon_fails (c x n fuel : Nat) (rest : List Tok) :
    parseBody fuel (.ifTok c :: compareTokens x ++ .semi :: .elseTok :: .stmtTok n :: .semi :: rest) = none := by
  rcases fuel with _ | _ | _ | _ | _ | fuel <;> simp [parseBody, parseStmt, compareTokens]

/-- Without the `else` it compiles. -/
example (c x n : Nat) : parseBody 9 (.ifTok c :: compareTokens x ++ [.semi, .stmtTok n, .semi]) =
    some [.ifS c (.ifS x .block none) none, .empty, .other n] := rfl

/-- C90: without the semicolon, `if (c) ASSERT_EQ(a, b) else S`, it compiles, and as with `ASSERT_TRUE` the `else` belongs to the `if` of the
macro. -/
theorem C90_compare_else_fails (c x n : Nat) (rest : List Tok) (h : rest.head? ≠ some .elseTok) :
    parseStmt 3 (.ifTok c :: compareTokens x ++ .elseTok :: .stmtTok n :: .semi :: rest) =
      some (.ifS c (.ifS x .block (some (.other n))) none, rest) := by
  cases rest with
  | nil => rfl
  | cons t ts => cases t <;> first | rfl | exact absurd rfl h

/-! ## C91: `ASSERT_STREQ` and `FAIL_MESSAGE` -/

/-- C91. For operands without side effects, `ASSERT_STREQ` passes exactly if both pointers are null or both point to the
same text. -/
theorem C91_streq_passes (e a : Option (List UInt8)) (s : σ) :
    assertStrEq (fun s => (e, s)) (fun s => (a, s)) s = .next s ↔ e = a := by
  cases e with
  | none => cases a <;> simp [assertStrEq]
  | some e =>
    cases a with
    | none => simp [assertStrEq]
    | some a => by_cases h : e = a <;> simp [assertStrEq, h]

/-- A text in quotes, or `nullptr`. -/
def Spec.quotedOrNull : Option (List UInt8) → List UInt8
  | none => b!"nullptr"
  | some t => b!"\"" ++ t ++ b!"\""

/-- C91 fails: an `ASSERT_STREQ` that does not hold names the two texts, and then ends the process instead of the test. -/
theorem C91_streq_fails (e a : Option (List UInt8)) (h : e ≠ a) (s : σ) :
    assertStrEq (fun s => (e, s)) (fun s => (a, s)) s =
      .aborts (b!"Assertion failed: Expected " ++ Spec.quotedOrNull e ++ b!", but got " ++ Spec.quotedOrNull a ++ b!"\n") s := by
  cases e with
  | none =>
    cases a with
    | none => exact absurd rfl h
    | some a => simp [assertStrEq, Spec.quotedOrNull]
  | some e =>
    cases a with
    | none => simp [assertStrEq, Spec.quotedOrNull]
    | some a =>
      have : e ≠ a := fun he => h (by rw [he])
      simp [assertStrEq, Spec.quotedOrNull, this]

/-- The state when control leaves the statement. -/
def Spec.after : Flow σ → σ
  | .next s | .throws _ s | .aborts _ s => s

/-- The operands of `ASSERT_STREQ` as the test sees them: each evaluation is counted. -/
def Spec.counted (e a : Option (List UInt8)) :
    Operand (Nat × Nat) (Option (List UInt8)) × Operand (Nat × Nat) (Option (List UInt8)) :=
  (fun s => (e, (s.1 + 1, s.2)), fun s => (a, (s.1, s.2 + 1)))

/-- How often the operands of `ASSERT_STREQ` are evaluated. -/
def Spec.evaluations : Option (List UInt8) → Option (List UInt8) → Nat × Nat
  | none, none => (1, 1)
  | none, some _ => (2, 2)
  | some _, none => (3, 1)
  | some e, some a => if e = a then (3, 2) else (4, 3)

/-- C91 fails: `ASSERT_STREQ` evaluates its operands up to four times, exactly as often as given here, and never both only once
unless both are null. So an operand with a side effect is not compared as it was written. -/
theorem C91_evaluations_fails (e a : Option (List UInt8)) (m n : Nat) :
    Spec.after (assertStrEq (Spec.counted e a).1 (Spec.counted e a).2 (m, n)) =
      (m + (Spec.evaluations e a).1, n + (Spec.evaluations e a).2) ∧
    (Spec.evaluations e a = (1, 1) ↔ e = none ∧ a = none) := by
  cases e with
  | none => cases a <;> simp [assertStrEq, Spec.counted, Spec.evaluations, Spec.after]
  | some e =>
    cases a with
    | none => simp [assertStrEq, Spec.counted, Spec.evaluations, Spec.after]
    | some a => by_cases h : e = a <;> simp [assertStrEq, Spec.counted, Spec.evaluations, Spec.after, h]

/-- C91. `FAIL_MESSAGE() << v` throws, with the place and the value in the message. -/
theorem C91_message (file line : List UInt8) (v : Operand σ (List UInt8)) (s : σ) :
    failMessage file line [] [v] s =
      .throws (b!"FAILURE: Test failed at " ++ file ++ b!":" ++ line ++ b!" - " ++ (v s).1) (v s).2 := rfl

/-- C91 fails: of `FAIL_MESSAGE() << v << ...` only the first value is reported and evaluated. -/
theorem C91_rest_fails (file line : List UInt8) (v : Operand σ (List UInt8)) (vs) (s : σ) :
    failMessage file line [] (v :: vs) s = failMessage file line [] [v] s := rfl

/-- C91 fails: `FAIL_MESSAGE();` without a message does not fail the test. -/
theorem C91_bare_fails (file line : List UInt8) (s : σ) : failMessage file line [] [] s = .next s := rfl

example : assertStrEq (fun n : Nat => (some b!"a", n)) (fun n => (some b!"b", n)) 0 =
    .aborts b!"Assertion failed: Expected \"a\", but got \"b\"\n" 0 := by decide

/-! ## C92: assertions decide the outcome of the test -/

/-- C92. A test body of statements runs until the first one that does not reach its end; the test passes exactly if
all of them reach their end. -/
theorem C92_first_failure (fs gs : List (σ → Flow σ)) (s : σ) :
    (∀ s', body fs s = .next s' → body (fs ++ gs) s = body gs s') ∧
    ((∀ s', body fs s ≠ .next s') → body (fs ++ gs) s = body fs s) ∧
    (outcome (body fs s) = some .returns ↔ ∃ s', body fs s = .next s') := by
  refine ⟨?_, ?_, ?_⟩
  · induction fs generalizing s with
    | nil => intro s' h; simp [body] at h; subst h; rfl
    | cons f fs ih =>
      intro s' h
      simp only [body, List.cons_append] at h ⊢
      cases hf : f s with
      | next t => rw [hf] at h; exact ih t s' h
      | throws w t => rw [hf] at h; cases h
      | aborts w t => rw [hf] at h; cases h
  · induction fs generalizing s with
    | nil => intro h; exact absurd rfl (h s)
    | cons f fs ih =>
      intro h
      simp only [body, List.cons_append] at h ⊢
      cases hf : f s with
      | next t => rw [hf] at h; exact ih t h
      | throws w t => rfl
      | aborts w t => rfl
  · cases body fs s <;> simp [outcome]

/-- C92, the texts of the operands and of the values being well-formed UTF-8: the message of a failed comparison can be
shown, so it ends the test but not the run. -/
theorem C92_readable_partial (c : Compare α β) (r : Rel) (t1 t2 : List UInt8) (show1 : α → List UInt8)
    (show2 : β → List UInt8) (val1 : Operand σ α) (val2 : Operand σ β) (s : σ)
    (h1 : Spec.WellFormed t1) (h2 : Spec.WellFormed t2) (h3 : ∀ a, Spec.WellFormed (show1 a))
    (h4 : ∀ b, Spec.WellFormed (show2 b)) (w : Registry.World) (i : Nat)
    (hw : some (w.exec i).ends = outcome (assertCmp c r t1 t2 show1 show2 val1 val2 s)) : Readable w i := by
  have app : ∀ {a b}, Spec.WellFormed a → Spec.WellFormed b → Spec.WellFormed (a ++ b) := by
    rintro _ _ ⟨x, hx, rfl⟩ ⟨y, hy, rfl⟩
    refine ⟨x ++ y, ?_, by simp [Spec.utf8]⟩
    intro ch hc
    rcases List.mem_append.mp hc with h | h
    · exact hx ch h
    · exact hy ch h
  have shaped : ∀ {a}, Spec.WellFormed a →
      ∃ ps : List (List UInt8), (∀ p ∈ ps, Spec.Shape p) ∧ a.takeWhile (· != 0) = ps.flatten := by
    rintro _ ⟨x, hx, rfl⟩
    refine ⟨x.map String.utf8EncodeChar, ?_, ?_⟩
    · intro p hp
      obtain ⟨ch, hc, rfl⟩ := List.mem_map.mp hp
      exact shape_utf8 ch (hx ch hc)
    · rw [takeWhile_all]
      · simp [Spec.utf8, List.flatMap]
      · intro b hb
        obtain ⟨ch, hc, hb⟩ := List.mem_flatMap.mp hb
        have := Shape.no_zero (shape_utf8 ch (hx ch hc))
        simp only [bne_iff_ne, ne_eq]
        rintro rfl
        exact this hb
  intro what hwhat
  rw [hwhat] at hw
  simp only [assertCmp, assertRel] at hw
  have lit : Spec.WellFormed b!"Assertion failed: " ∧ Spec.WellFormed b!" " ∧ Spec.WellFormed r.op ∧
      Spec.WellFormed r.neg ∧ Spec.WellFormed b!" (" ∧ Spec.WellFormed b!")" := by
    unfold Spec.WellFormed Spec.NoNul
    refine ⟨⟨"Assertion failed: ".toList, ?_, ?_⟩, ⟨" ".toList, ?_, ?_⟩, ?_, ?_, ⟨" (".toList, ?_, ?_⟩, ⟨")".toList, ?_, ?_⟩⟩
    iterate 4 decide
    · cases r
      · exact ⟨"==".toList, by decide, by decide⟩
      · exact ⟨"!=".toList, by decide, by decide⟩
      · exact ⟨"<".toList, by decide, by decide⟩
      · exact ⟨"<=".toList, by decide, by decide⟩
      · exact ⟨">".toList, by decide, by decide⟩
      · exact ⟨">=".toList, by decide, by decide⟩
    · cases r
      · exact ⟨"!=".toList, by decide, by decide⟩
      · exact ⟨"==".toList, by decide, by decide⟩
      · exact ⟨">=".toList, by decide, by decide⟩
      · exact ⟨">".toList, by decide, by decide⟩
      · exact ⟨"<=".toList, by decide, by decide⟩
      · exact ⟨"<".toList, by decide, by decide⟩
    iterate 4 decide
  obtain ⟨l1, l2, l3, l4, l5, l6⟩ := lit
  split at hw
  · simp only [outcome, Option.some.injEq, Registry.Outcome.throwsStd.injEq] at hw
    subst hw
    exact shaped (app (app (app (app (app (app (app (app (app (app (app (app l1 h1) l2) l3) l2) h2) l5) (h3 _)) l2) l4)
      l2) (h4 _)) l6)
  · simp [outcome] at hw

/-- C92 fails: a failed comparison of two `Char`s, one of which holds the single byte `0xE4`, has a message that cannot
be shown; the run ends with it. -/
theorem C92_fails :
    let f := assertCmp ⟨fun a b : Chr => decide (a = b), fun a b => decide (a ≠ b), Chr.lt, fun a b => !Chr.lt b a,
      fun a b => Chr.lt b a, fun a b => !Chr.lt a b⟩ .eq b!"a" b!"b" Chr.printed Chr.printed
      (fun s : Unit => (Chr.ofByte 0xE4, s)) (fun s => (Chr.ofByte 0x61, s)) ()
    ∃ w : Registry.World, (∀ i, some (w.exec i).ends = outcome f) ∧
      (registryAfter w [.add c!"S" c!"a" 0, .add c!"S" c!"b" 1, .run]).log = [(c!"S", c!"a", 0)] := by
  intro f
  refine ⟨⟨fun _ => { ends := .throwsStd (b!"Assertion failed: a == b (" ++ [0xE4] ++ b!" != a)") }, fun _ => 0⟩,
    fun _ => ?_, by decide +kernel⟩
  have hf : f = .throws (b!"Assertion failed: a == b (" ++ [0xE4] ++ b!" != a)") () := by decide +kernel
  rw [hf]; rfl

end Caitlyn
