import Verif.Lit
import Verif.Proofs.JsonAlone
import Verif.Props.JsonParse

/-! # C155: a JSON value read by several threads -/

namespace Caitlyn
open Spec JsonThreads
variable {F : Type}

/-- C155 (in part): when every query of every thread finds what it looks for, or looks with the `const` `At`, then in every
execution nothing is written and there is no data race, the value stays as it is, no step is undefined, and a thread at its end
has the answers that it would have alone. Missing: queries whose `operator[]` does not find its key (`C155_lookup_fails`). -/
theorem C155_reads_partial (ops : FloatOps F) (v : Json F) (qs : Nat → List Query) (h : ∀ t, ∀ q ∈ qs t, OnlyReads v q)
    (tr : List Ev) (s : State F) (r : Runs ops (start v qs) tr s) :
    s.value = v ∧ ¬ DataRace tr ∧
    (∀ t m rest, (s.threads t).todo = m :: rest → ∃ x, advance ops s.value (s.threads t) m rest = .ok x) ∧
    ∀ t, (s.threads t).todo = [] → (s.threads t).outs = (qs t).map (answerOf ops v) := by
  obtain ⟨h1, h2, h3⟩ := Will.runs r (fun t => (qs t).map (answerOf ops v)) (fun t => by
    have := Will.queries (ops := ops) (qs t) [] (h t)
    rw [List.nil_append] at this
    exact this)
  refine ⟨h1, ?_, ?_, ?_⟩
  · rintro ⟨e, he, _, _, _, l, hw, _⟩
    cases l <;> (obtain ⟨hw, _⟩ := hw; rw [h2 e he] at hw; cases hw)
  · intro t m rest hm
    obtain ⟨th', hs, _⟩ := (h3 t).step hm
    exact ⟨_, hs⟩
  · intro t ht
    rcases h3 t with ⟨_, h⟩ | ⟨cur, ss, l, q, n, x, h, _⟩
    · exact h
    · rw [ht] at h; simp at h

/-- `{"a":{"b":[1]}}`, in which one thread looks for `["a"]["b"][0]` and one for `At("c")` and for `At("a")`. -/
example : let v : Json Unit := .obj [(c!"a", .obj [(c!"b", .arr [.int 1])])]
    let q₀ : Query := ⟨[.key c!"a", .key c!"b", .index 0], .getIntegral⟩
    let q₁ : Query := ⟨[.atKey c!"c"], .getIntegral⟩
    let q₂ : Query := ⟨[.atKey c!"a"], .size⟩
    OnlyReads v q₀ ∧ OnlyReads v q₁ ∧ OnlyReads v q₂ ∧ answerOf oneFloat v q₀ = .int 1 ∧ answerOf oneFloat v q₁ = .outOfRange ∧
    answerOf oneFloat v q₂ = .number 1 ∧ ¬ OnlyReads v ⟨[.key c!"c"], .type⟩ := by
  refine ⟨rfl, rfl, rfl, rfl, rfl, rfl, ?_⟩
  intro h
  cases h

/-- C155 (fails): a thread that only looks for a key that is not there, with `operator[]` or with `At` of a value that is not
`const`, writes. When another thread looks for anything in the same value, every execution in which both come to their ends has a
data race. -/
theorem C155_lookup_fails (ops : FloatOps F) (v : Json F) (qs : Nat → List Query) (s t : Nat) (ne : s ≠ t) (k : Str)
    (ss : List Seek) (l : Last) (hq : ⟨.key k :: ss, l⟩ ∈ qs s) (ha : Absent v k) (q : Query) (hq' : q ∈ qs t) (hp : q.path ≠ [])
    (tr : List Ev) (s' : State F) (r : Runs ops (start v qs) tr s') (es : (s'.threads s).todo = []) (et : (s'.threads t).todo = []) :
    DataRace tr :=
  race r ne es et hq rfl ha hq' hp

/-- `["c"].GetType()` in two threads on an object without members: an execution to the end, in an order in which the race does no harm. -/
example : let q : Query := ⟨[.key c!"c"], .type⟩
    Absent (.obj [] : Json Unit) c!"c" ∧
    ∃ tr s, Runs oneFloat (start (.obj []) fun t => if t < 2 then [q] else []) tr s ∧ (s.threads 0).todo = [] ∧
      (s.threads 1).todo = [] ∧ tr.length = 6 ∧ s.value = .obj [(c!"c", .null)] := by
  refine ⟨fun ms h => by cases h; rfl, _, _, .step (t := 0) rfl rfl (.step (t := 1) rfl rfl (.step (t := 0) rfl rfl
    (.step (t := 0) rfl rfl (.step (t := 1) rfl rfl (.step (t := 1) rfl rfl .nil))))), rfl, rfl, rfl, rfl⟩

/-- C155, what a thread does that is alone, exactly: it comes to its end if and only if the queries one after the other are defined, and
then it has their answers and leaves the value that they leave, with the members that `operator[]` adds and without what it
empties. -/
theorem C155_alone (ops : FloatOps F) (v : Json F) (qs : Nat → List Query) (t : Nat) (h : ∀ u, u ≠ t → qs u = []) :
    (∀ tr s, Runs ops (start v qs) tr s → (s.threads t).todo = [] →
      askAll ops (qs t) v = .ok (s.value, (s.threads t).outs)) ∧
    ((∃ tr s, Runs ops (start v qs) tr s ∧ (s.threads t).todo = []) ↔ ∃ r, askAll ops (qs t) v = .ok r) := by
  have hidle : ∀ u, u ≠ t → ((start v qs).threads u).todo = [] := by
    intro u hu
    simp only [start, h u hu, List.flatMap_nil]
  have hst : (start v qs).threads t = ⟨[], (qs t).flatMap Query.steps, []⟩ := rfl
  have hgo := askAll_goes (ops := ops) (qs t) v []
  have main : ∀ tr s, Runs ops (start v qs) tr s → (s.threads t).todo = [] →
      askAll ops (qs t) v = .ok (s.value, (s.threads t).outs) := by
    intro tr s r he
    have g := r.goes t hidle
    rw [hst] at g
    cases ha : askAll ops (qs t) v with
    | error e =>
      rw [ha] at hgo
      obtain ⟨v', th, g', hs⟩ := hgo
      exact (hs.never (g'.unique g he) he).elim
    | ok x =>
      rw [ha] at hgo
      have g' := hgo.unique g he
      generalize s.value = sv at g'
      generalize s.threads t = st at g'
      cases g' with
      | refl => simp
      | step hx _ _ => cases hx
  refine ⟨main, fun ⟨tr, s, r, he⟩ => ⟨_, main tr s r he⟩, fun ⟨x, hx⟩ => ?_⟩
  rw [hx] at hgo
  have lift : ∀ {v th v' th'}, Goes ops v th v' th' → ∀ f : Nat → Thread F, f t = th →
      ∃ tr s, Runs ops ⟨v, f⟩ tr s ∧ s.threads t = th' := by
    intro v th v' th' g
    induction g with
    | refl => intro f hf; exact ⟨[], _, .nil, hf⟩
    | step hm ha _ ih =>
      rename_i v th m rest b v1 th1 v2 th2 _
      intro f hf
      obtain ⟨tr, s, r, hs⟩ := ih (fun u => if u = t then th1 else f u) (by simp)
      refine ⟨_, s, .step (t := t) (m := m) (rest := rest) (b := b) (v := v1) (th := th1) ?_ ?_ r, hs⟩
      · show (f t).todo = _
        rw [hf]; exact hm
      · show advance ops v (f t) m rest = _
        rw [hf]; exact ha
  obtain ⟨tr, s, r, hs⟩ := lift hgo ((start v qs).threads) rfl
  exact ⟨tr, s, r, by rw [hs]⟩

/-- `["a"]["b"].GetType()`, then `["a"]["c"][0]`: the first adds two members, the second makes the number an array, whose item 0 is
not there. -/
example : askAll (F := Unit) oneFloat [⟨[.key c!"a", .key c!"b"], .type⟩] (.obj [(c!"x", .int 1)]) =
      .ok (.obj [(c!"x", .int 1), (c!"a", .obj [(c!"b", .null)])], [.type .null]) ∧
    askAll (F := Unit) oneFloat [⟨[.key c!"x", .index 0], .type⟩] (.obj [(c!"x", .int 1)]) = .error .ub ∧
    askAll (F := Unit) oneFloat [⟨[.key c!"x", .atKey c!"y", .key c!"z"], .type⟩, ⟨[.atKey c!"x"], .size⟩]
      (.obj [(c!"x", .obj [])]) = .ok (.obj [(c!"x", .obj [])], [.outOfRange, .number 0]) := by
  refine ⟨rfl, rfl, rfl⟩

end Caitlyn
