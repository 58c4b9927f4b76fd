import Verif.Proofs.Statics
import Verif.Lit

/-!
# Property C166: the library in destructors of static objects

Reference: a call returns what it returns whenever it is made (`answer`), in the destructor of a static object as in `main`.
-/

namespace Caitlyn
open Caitlyn.Spec Caitlyn.Spec.Exit Caitlyn.Statics
variable {F : Type}

/-- C166, exactly. A program whose static objects use the library has the expected results if, and only if, each of the tables (and the
registry) that the destructor of an object uses was used before the object was made, or is used by nothing else from then until that
destructor. In every other program a destructor reads a table that is destroyed already. -/
theorem C166_exact_fails (ops : FloatOps F) (ps : List Step) :
    (Safe ps → program ops ps = .ok (answers ops ps)) ∧ (¬ Safe ps → program ops ps = .error .ub) :=
  program_eq ops ps

/-- C166. When each destructor uses only what was used before its object was made — by the constructor of the object, for example — or uses
no table at all, the calls in destructors return what the same calls return in `main`. Missing: the other programs
(`C166_fails`, `C166_two_fails`). -/
theorem C166_partial (ops : FloatOps F) (ps : List Step)
    (h : ∀ pre d post, ps = pre ++ .made d :: post → ∀ c ∈ d, ∀ t ∈ uses c, ∃ c', .call c' ∈ pre ∧ t ∈ uses c') :
    program ops ps = .ok (answers ops ps) :=
  (program_eq ops ps).1 fun pre d post e c hc t ht => .inl (h pre d post e c hc t ht)

example (ops : FloatOps F) : program ops [.call (.upperText c!"a"), .made [.upperText c!"b"], .call (.upperText c!"c")] =
    .ok [.ok (.text c!"A"), .ok (.text c!"C"), .ok (.text c!"B")] := by
  refine (C166_partial ops _ ?_).trans ?_
  · intro pre d post e c hc t ht
    rcases pre with _ | ⟨p, _ | ⟨p', _ | ⟨p'', pre⟩⟩⟩
    · cases e
    · simp only [List.cons_append, List.nil_append, List.cons.injEq] at e
      obtain ⟨rfl, e, _⟩ := e
      injection e with e
      subst e
      rw [List.mem_singleton] at hc
      subst hc
      exact ⟨.upperText c!"a", by simp, ht⟩
    · simp only [List.cons_append, List.nil_append, List.cons.injEq] at e
      cases e.2.2.1
    · simp only [List.cons_append, List.cons.injEq] at e
      have := e.2.2.2
      cases pre <;> cases this
  · simp only [answers, answer, List.filterMap_cons, List.filterMap_nil, List.reverse_cons, List.reverse_nil, List.nil_append,
      List.cons_append, List.flatMap_cons, List.flatMap_nil, List.map_cons, List.map_nil, List.append_nil]
    rw [show Str.toUppercase c!"a" = .ok c!"A" by decide +kernel, show Str.toUppercase c!"b" = .ok c!"B" by decide +kernel,
      show Str.toUppercase c!"c" = .ok c!"C" by decide +kernel]
    rfl

/-- C166. Whatever a program does until `main` returns, no call there uses a table that is destroyed: every call returns what it should, also
in constructors of static objects of every translation unit. -/
theorem C166_before_main (ops : FloatOps F) (ps : List Step) :
    ∃ s, run ops ps ⟨[], fun _ => .fresh⟩ =
      .ok (ps.filterMap (fun p => match p with | .call c => some (answer ops c) | .made _ => none), s) := by
  obtain ⟨s, _, h, _⟩ := run_eq ops ps ⟨[], fun _ => .fresh⟩ (fun _ h => by cases h)
  exact ⟨s, h⟩

/-- C166 fails: a program that makes a static object and then makes a call, which the destructor of the object makes too. The table is made
after the object and destroyed before it. With a call before the object is made, everything is as it should be. -/
theorem C166_fails (ops : FloatOps F) (c : Call) (t : Table) (h : t ∈ uses c) :
    program ops [.made [c], .call c] = .error .ub ∧
    program ops [.call c, .made [c], .call c] = .ok [answer ops c, answer ops c, answer ops c] := by
  constructor
  · refine (program_eq ops _).2 fun hs => ?_
    rcases hs [] [c] [.call c] rfl c (by simp) t h with ⟨_, hc, _⟩ | ⟨hc, _⟩
    · cases hc
    · exact hc ⟨c, by simp, h⟩
  · refine C166_partial ops _ fun pre d post e c' hc t ht => ?_
    rcases pre with _ | ⟨p, _ | ⟨p', _ | ⟨p'', pre⟩⟩⟩
    · cases e
    · simp only [List.cons_append, List.nil_append, List.cons.injEq] at e
      obtain ⟨rfl, e, _⟩ := e
      injection e with e
      subst e
      rw [List.mem_singleton] at hc
      subst hc
      exact ⟨_, by simp, ht⟩
    · simp only [List.cons_append, List.nil_append, List.cons.injEq] at e
      cases e.2.2.1
    · simp only [List.cons_append, List.cons.injEq] at e
      have := e.2.2.2
      cases pre <;> cases this

/-- C166 fails: two static objects whose destructors use a table that nothing else uses. The destructor that runs first has the table made,
which is destroyed before the second destructor runs. One such object is all right, whatever number of calls its destructor makes. -/
theorem C166_two_fails (ops : FloatOps F) (c : Call) (t : Table) (h : t ∈ uses c) (cs : List Call) :
    program ops [.made [c], .made [c]] = .error .ub ∧ program ops [.made cs] = .ok (cs.map (answer ops)) := by
  constructor
  · refine (program_eq ops _).2 fun hs => ?_
    rcases hs [] [c] [.made [c]] rfl c (by simp) t h with ⟨_, hc, _⟩ | ⟨_, hc⟩
    · cases hc
    · exact hc ⟨[c], by simp, c, by simp, h⟩
  · refine ((program_eq ops _).1 fun pre d post e c' hc t ht => ?_).trans (by simp [answers])
    rcases pre with _ | ⟨p, pre⟩
    · injection e with _ e
      subst e
      exact .inr ⟨(by rintro ⟨_, hc, _⟩; cases hc), (by rintro ⟨_, hc, _⟩; cases hc)⟩
    · injection e with _ e
      cases pre <;> cases e

/-- C166. Which calls use tables: those that ask for the class or the case of a code point, those that change the case of a text or look for
its spaces, and parsing JSON; of a text, the first character (the last, for the end of the text) decides: when it has no code point, or
there is none, no table is used. -/
theorem C166_uses (c : Call) : uses c = [] ↔
    match c with
    | .upperText text | .lowerText text | .first text | .parse text => ∀ x xs cp, text = x :: xs → x.getCodePoint ≠ .ok cp
    | .last _ text => ∀ x xs cp, text = xs ++ [x] → x.getCodePoint ≠ .ok cp
    | _ => False := by
  have hr (text : Str) : readable text = true ↔ ∃ x xs cp, text = x :: xs ∧ x.getCodePoint = .ok cp := by
    cases text with
    | nil => simp [readable]
    | cons x xs =>
      simp only [readable]
      cases hx : x.getCodePoint <;> simp [hx]
  have hr' (text : Str) : ¬ readable text = true ↔ ∀ x xs cp, text = x :: xs → x.getCodePoint ≠ .ok cp := by
    rw [hr]
    exact ⟨fun h x xs cp e e' => h ⟨x, xs, cp, e, e'⟩, fun h ⟨x, xs, cp, e, e'⟩ => h x xs cp e e'⟩
  cases c with
  | upperText text | lowerText text | first text | parse text =>
    simp only [uses]
    rw [← hr']
    split <;> simp_all
  | last c text =>
    simp only [uses]
    have : (∀ x xs cp, text = xs ++ [x] → x.getCodePoint ≠ .ok cp) ↔
        ∀ x xs cp, text.reverse = x :: xs → x.getCodePoint ≠ .ok cp := by
      constructor
      · intro h x xs cp e
        exact h x xs.reverse cp (by rw [← List.reverse_inj, e]; simp)
      · intro h x xs cp e
        exact h x xs.reverse cp (by rw [e]; simp)
    rw [this, ← hr']
    split <;> simp_all
  | isLetter cp => simp only [uses]; split <;> simp
  | _ => simp [uses]

example : uses (.parse c!"{}") = [.space] := by decide +kernel

end Caitlyn
