import Verif.Model.JsonProg
import Verif.Props.JsonParse
import Verif.Props.JsonDoc

/-!
# Property C99: documents are independent values

Reference: the life of a document is a term that says which operations made it; variables hold such terms, and every
operation works on the terms alone.
-/

namespace Caitlyn
open JsonProg Spec

/-- How a document came to be. -/
inductive Life (F : Type) where
  /-- default constructed -/
  | fresh
  /-- made by parsing this text -/
  | parsed (text : Str)
  /-- moved from -/
  | movedFrom
  | added (l : Life F) (key : Str) (value : Json F)
  | removed (l : Life F) (key : Str)

/-- The document with a given life. -/
def Life.doc (ops : FloatOps F) : Life F → JsonDoc F
  | .fresh => ⟨.obj [], .noError⟩
  | .parsed t =>
    match JsonParser.document ops t with
    | .ok (root, err) => ⟨root, err⟩
    | .error _ => ⟨.null, .noError⟩
  | .movedFrom => ⟨.null, .noError⟩
  | .added l k v => (l.doc ops).addMember ops k v
  | .removed l k => (l.doc ops).removeMember k

/-- The lives after a step. `ok` says which texts are read and parsed without exception. -/
def Spec.lives (ok : Source → Option Str) (ls : Nat → Option (Life F)) : Step F → Nat → Option (Life F)
  | .new d, i => if i = d then some .fresh else ls i
  | .construct d s, i => if i = d then (match ok s with | some t => some (.parsed t) | none => ls i) else ls i
  | .parse d s, i => if i = d then (match ok s with | some t => some (.parsed t) | none => ls i) else ls i
  | .copy d e, i => if i = d then ls e else ls i
  | .assign d e, i => if i = d then ls e else ls i
  | .move d e, i => if i = e then some .movedFrom else if i = d then ls e else ls i
  | .assignMove d e, i => if d = e then ls i else if i = e then some .movedFrom else if i = d then ls e else ls i
  | .add d k v, i => if i = d then (ls i).map (.added · k v) else ls i
  | .remove d k, i => if i = d then (ls i).map (.removed · k) else ls i

/-- The texts that are read and parsed without exception. -/
def parses (ops : FloatOps F) (s : Source) : Option Str :=
  match s.get with
  | .ok t =>
    match JsonParser.document ops t with
    | .ok _ => some t
    | .error _ => none
  | .error _ => none

/-- The text whose parsing determines the error of a document. -/
def Life.lastText : Life F → Option Str
  | .fresh => none
  | .parsed t => some t
  | .movedFrom => none
  | .added l _ _ => l.lastText
  | .removed l _ => l.lastText

theorem parse_err_kind (ops : FloatOps F) (s : Source) (x : JsonDoc F) :
    (∃ t, parses ops s = some t ∧ (do JsonDoc.parse ops (← s.get) x) = .ok (Life.doc ops (.parsed t))) ∨
    (parses ops s = none ∧ ∃ e, (do JsonDoc.parse ops (← s.get) x) = .error e) := by
  unfold parses
  cases hs : s.get with
  | error e => exact .inr ⟨rfl, e, rfl⟩
  | ok t =>
    simp only [bind, Except.bind, JsonDoc.parse]
    cases hd : JsonParser.document ops t with
    | error e => exact .inr ⟨rfl, e, rfl⟩
    | ok r => exact .inl ⟨t, rfl, by simp [Life.doc, hd, pure, Except.pure]⟩

/-- One step: documents stay the ones described by their lives. -/
theorem step_lives (ops : FloatOps F) (ls : Nat → Option (Life F)) (st st' : State F) (s : Step F)
    (inv : ∀ i, st i = (ls i).map (Life.doc ops)) (h : caught ops st s = .ok st') :
    ∀ i, st' i = (lives (parses ops) ls s i).map (Life.doc ops) := by
  have getE : ∀ d, st.get d = match ls d with | some l => .ok (l.doc ops) | none => .error .ub := by
    intro d
    unfold State.get
    rw [inv d]
    cases ls d <;> rfl
  cases s with
  | new d =>
    simp only [caught, step, Except.ok.injEq] at h
    subst h
    intro i
    simp only [State.set, lives]
    split
    · rfl
    · exact inv i
  | construct d s =>
    simp only [caught, step] at h
    rcases parse_err_kind ops s {} with ⟨t, h1, h2⟩ | ⟨h1, e, h2⟩
    · simp only [bind, Except.bind] at h h2
      cases hs : s.get with
      | error e => rw [hs] at h2; cases h2
      | ok tt =>
        rw [hs] at h h2
        simp only at h h2
        rw [h2] at h
        simp only [pure, Except.pure, Except.ok.injEq] at h
        subst h
        intro i
        simp only [State.set, lives, h1]
        split
        · rfl
        · exact inv i
    · simp only [bind, Except.bind] at h h2
      have hst : st' = st := by
        cases hs : s.get with
        | error e' =>
          rw [hs] at h
          simp only at h
          cases e' <;> simp at h <;> exact h.symm
        | ok tt =>
          rw [hs] at h h2
          simp only at h h2
          rw [h2] at h
          cases e <;> simp at h <;> exact h.symm
      subst hst
      intro i
      simp only [lives, h1]
      split
      · exact inv i
      · exact inv i
  | parse d s =>
    simp only [caught, step, getE] at h
    cases hd : ls d with
    | none => rw [hd] at h; simp [bind, Except.bind] at h
    | some l =>
    rw [hd] at h
    rcases parse_err_kind ops s (l.doc ops) with ⟨t, h1, h2⟩ | ⟨h1, e, h2⟩
    · simp only [bind, Except.bind] at h h2
      cases hs : s.get with
      | error e => rw [hs] at h2; cases h2
      | ok tt =>
        rw [hs] at h h2
        simp only at h h2
        rw [h2] at h
        simp only [pure, Except.pure, Except.ok.injEq] at h
        subst h
        intro i
        simp only [State.set, lives, h1]
        split
        · rfl
        · exact inv i
    · simp only [bind, Except.bind] at h h2
      have hst : st' = st := by
        cases hs : s.get with
        | error e' =>
          rw [hs] at h
          simp only at h
          cases e' <;> simp at h <;> exact h.symm
        | ok tt =>
          rw [hs] at h h2
          simp only at h h2
          rw [h2] at h
          cases e <;> simp at h <;> exact h.symm
      subst hst
      intro i
      simp only [lives, h1]
      split
      · exact inv i
      · exact inv i
  | copy d e =>
    simp only [caught, step, getE] at h
    cases he : ls e with
    | none => rw [he] at h; simp [bind, Except.bind] at h
    | some l =>
      rw [he] at h
      simp only [bind, Except.bind, pure, Except.pure, Except.ok.injEq] at h
      subst h
      intro i
      simp only [State.set, lives]
      split
      · rw [he]; rfl
      · exact inv i
  | move d e =>
    simp only [caught, step, getE] at h
    cases he : ls e with
    | none => rw [he] at h; simp [bind, Except.bind] at h
    | some l =>
      rw [he] at h
      simp only [bind, Except.bind, pure, Except.pure, Except.ok.injEq] at h
      subst h
      intro i
      simp only [State.set, lives, JsonDoc.move]
      split
      · rfl
      · split
        · rw [he]; rfl
        · exact inv i
  | assign d e =>
    simp only [caught, step, getE] at h
    cases hd : ls d with
    | none => rw [hd] at h; simp [bind, Except.bind] at h
    | some ld =>
    cases he : ls e with
    | none => rw [hd, he] at h; simp [bind, Except.bind] at h
    | some l =>
      rw [hd, he] at h
      simp only [bind, Except.bind, pure, Except.pure] at h
      by_cases hde : d = e
      · rw [if_pos hde] at h
        simp only [Except.ok.injEq] at h
        subst h hde
        intro i
        simp only [lives]
        split
        · rename_i hi; subst hi; exact inv i
        · exact inv i
      · rw [if_neg hde] at h
        simp only [Except.ok.injEq] at h
        subst h
        intro i
        simp only [State.set, lives]
        split
        · rw [he]; rfl
        · exact inv i
  | assignMove d e =>
    simp only [caught, step, getE] at h
    cases hd : ls d with
    | none => rw [hd] at h; simp [bind, Except.bind] at h
    | some ld =>
    cases he : ls e with
    | none => rw [hd, he] at h; simp [bind, Except.bind] at h
    | some l =>
      rw [hd, he] at h
      simp only [bind, Except.bind, pure, Except.pure] at h
      by_cases hde : d = e
      · rw [if_pos hde] at h
        simp only [Except.ok.injEq] at h
        subst h
        intro i
        simp only [lives, hde, if_true]
        exact inv i
      · rw [if_neg hde] at h
        simp only [Except.ok.injEq] at h
        subst h
        intro i
        simp only [State.set, lives, JsonDoc.move, hde, if_false]
        split
        · rfl
        · split
          · rw [he]; rfl
          · exact inv i
  | add d k v =>
    simp only [caught, step, getE] at h
    cases hd : ls d with
    | none => rw [hd] at h; simp [bind, Except.bind] at h
    | some l =>
      rw [hd] at h
      simp only [bind, Except.bind, pure, Except.pure, Except.ok.injEq] at h
      subst h
      intro i
      simp only [State.set, lives]
      split
      · rename_i hi; subst hi; rw [hd]; rfl
      · exact inv i
  | remove d k =>
    simp only [caught, step, getE] at h
    cases hd : ls d with
    | none => rw [hd] at h; simp [bind, Except.bind] at h
    | some l =>
      rw [hd] at h
      simp only [bind, Except.bind, pure, Except.pure, Except.ok.injEq] at h
      subst h
      intro i
      simp only [State.set, lives]
      split
      · rename_i hi; subst hi; rw [hd]; rfl
      · exact inv i

/-- C99. After any program that runs without undefined behaviour, whatever it caught, every document is the one its own
life describes: it depends on no operation on other documents, except through copies and moves. -/
theorem C99_values (ops : FloatOps F) (ss : List (Step F)) (st : State F) (h : run ops (fun _ => none) ss = .ok st) :
    ∀ i, st i = (ss.foldl (lives (parses ops)) (fun _ => none) i).map (Life.doc ops) := by
  have gen : ∀ (ss : List (Step F)) (st st' : State F) (ls : Nat → Option (Life F)),
      (∀ i, st i = (ls i).map (Life.doc ops)) → run ops st ss = .ok st' →
      ∀ i, st' i = (ss.foldl (lives (parses ops)) ls i).map (Life.doc ops) := by
    intro ss
    induction ss with
    | nil =>
      intro st st' ls inv h
      simp only [run, Except.ok.injEq] at h
      subst h
      exact inv
    | cons s ss ih =>
      intro st st' ls inv h
      simp only [run, bind, Except.bind] at h
      cases hc : caught ops st s with
      | error e => rw [hc] at h; cases h
      | ok st1 =>
        rw [hc] at h
        exact ih st1 st' _ (step_lives ops ls st st1 s inv hc) h
  exact gen ss _ st _ (fun _ => rfl) h

theorem lastText_parses (ops : FloatOps F) (ss : List (Step F)) (ls : Nat → Option (Life F))
    (h : ∀ i l t, ls i = some l → l.lastText = some t → ∃ r, JsonParser.document ops t = .ok r) :
    ∀ i l t, ss.foldl (lives (parses ops)) ls i = some l → l.lastText = some t →
      ∃ r, JsonParser.document ops t = .ok r := by
  induction ss generalizing ls with
  | nil => exact h
  | cons s ss ih =>
    refine ih _ ?_
    have hp : ∀ s t, parses ops s = some t → ∃ r, JsonParser.document ops t = .ok r := by
      intro s t ht
      unfold parses at ht
      cases hs : s.get with
      | error e => rw [hs] at ht; cases ht
      | ok tt =>
        rw [hs] at ht
        simp only at ht
        cases hd : JsonParser.document ops tt with
        | error e => rw [hd] at ht; cases ht
        | ok r => rw [hd] at ht; simp only [Option.some.injEq] at ht; subst ht; exact ⟨r, hd⟩
    have hsrc : ∀ (src : Source) (i : Nat) (l : Life F) (t : Str), (match parses ops src with | some t => some (.parsed t) | none => ls i) = some l →
        l.lastText = some t → ∃ r, JsonParser.document ops t = .ok r := by
      intro src i l t h1 h2
      cases hps : parses ops src with
      | none => rw [hps] at h1; exact h i l t h1 h2
      | some t' =>
        rw [hps] at h1
        simp only [Option.some.injEq] at h1
        subst h1
        simp only [Life.lastText, Option.some.injEq] at h2
        subst h2
        exact hp src _ hps
    intro i l t h1 h2
    cases s <;> simp only [lives] at h1
    case new d =>
      split at h1
      · cases h1; cases h2
      · exact h i l t h1 h2
    case construct d s =>
      split at h1
      · exact hsrc s i l t h1 h2
      · exact h i l t h1 h2
    case parse d s =>
      split at h1
      · exact hsrc s i l t h1 h2
      · exact h i l t h1 h2
    case copy d e =>
      split at h1
      · exact h e l t h1 h2
      · exact h i l t h1 h2
    case assign d e =>
      split at h1
      · exact h e l t h1 h2
      · exact h i l t h1 h2
    case move d e =>
      split at h1
      · cases h1; cases h2
      split at h1
      · exact h e l t h1 h2
      · exact h i l t h1 h2
    case assignMove d e =>
      split at h1
      · exact h i l t h1 h2
      split at h1
      · cases h1; cases h2
      split at h1
      · exact h e l t h1 h2
      · exact h i l t h1 h2
    case add d k v =>
      split at h1
      · cases hl : ls i with
        | none => rw [hl] at h1; cases h1
        | some l' =>
          rw [hl] at h1
          simp only [Option.map_some, Option.some.injEq] at h1
          subst h1
          exact h i l' t hl h2
      · exact h i l t h1 h2
    case remove d k =>
      split at h1
      · cases hl : ls i with
        | none => rw [hl] at h1; cases h1
        | some l' =>
          rw [hl] at h1
          simp only [Option.map_some, Option.some.injEq] at h1
          subst h1
          exact h i l' t hl h2
      · exact h i l t h1 h2

/-- C99. After any program, `HasError()` of a document is true exactly if the text that was last parsed into it (or into
the document it was copied or moved from) was malformed; a document without such a text has no error. The message is
that of the error the parser reported. -/
theorem C99_error (ops : FloatOps F) (ss : List (Step F)) (st : State F) (h : run ops (fun _ => none) ss = .ok st)
    (i : Nat) (x : JsonDoc F) (hx : st i = some x) :
    ∃ l, ss.foldl (lives (parses ops)) (fun _ => none) i = some l ∧
      match l.lastText with
      | none => x.hasError = false ∧ x.errorString = "No error."
      | some t => ∃ root e, JsonParser.document ops t = .ok (root, e) ∧ (x.hasError = true ↔ e ≠ .noError) ∧
          x.errorString = e.message := by
  have hv := C99_values ops ss st h i
  rw [hx] at hv
  cases hl : ss.foldl (lives (parses ops)) (fun _ => none) i with
  | none => rw [hl] at hv; cases hv
  | some l =>
    rw [hl] at hv
    simp only [Option.map_some, Option.some.injEq] at hv
    refine ⟨l, rfl, ?_⟩
    have hp := lastText_parses ops ss (fun _ => none) (by intro i l t h; cases h) i l
    have key : ∀ l : Life F, (∀ t, l.lastText = some t → ∃ r, JsonParser.document ops t = .ok r) →
        (l.doc ops).err = match l.lastText with
          | none => .noError
          | some t => match JsonParser.document ops t with
            | .ok r => r.2
            | .error _ => .noError := by
      intro l
      induction l with
      | fresh => intro _; rfl
      | movedFrom => intro _; rfl
      | parsed t =>
        intro _
        simp only [Life.doc, Life.lastText]
        cases JsonParser.document ops t with
        | error e => rfl
        | ok r => rfl
      | added l k v ih => intro hh; exact ih hh
      | removed l k ih =>
        intro hh
        have := ih hh
        simp only [Life.doc, Life.lastText, JsonDoc.removeMember]
        split <;> exact this
    have hk := key l (fun t ht => hp t hl ht)
    subst hv
    cases ht : l.lastText with
    | none =>
      rw [ht] at hk
      simp only at hk
      exact ⟨by simp [JsonDoc.hasError, hk], by simp [JsonDoc.errorString, hk, JsonError.message]⟩
    | some t =>
      obtain ⟨⟨root, e⟩, hr⟩ := hp t hl ht
      rw [ht] at hk
      simp only [hr] at hk
      exact ⟨root, e, hr, by simp [JsonDoc.hasError, hk], by simp [JsonDoc.errorString, hk]⟩

/-- C99. Reading from a stream (constructor, `Parse`, assignment or `>>`) is parsing the text it holds, for streams that
hold well-formed UTF-8 without NUL. -/
theorem C99_stream_partial (cs : List Char) (h : NoNul cs) :
    ∃ s, Str.ofStdString (utf8 cs) = .ok s ∧ Str.str s = utf8 cs ∧ Source.get (.stream (utf8 cs)) = Source.get (.text s) := by
  have := Str.ofCStr_shapes (cs.map String.utf8EncodeChar) (fun p hp => by
    obtain ⟨c, hc, rfl⟩ := List.mem_map.mp hp
    exact shape_utf8 c (h c hc)) []
  refine ⟨_, this, ?_, this⟩
  rw [Str.str_shapes _ (by
    intro c hc
    obtain ⟨p, hp, rfl⟩ := List.mem_map.mp hc
    obtain ⟨x, hx, rfl⟩ := List.mem_map.mp hp
    exact shape_utf8 x (h x hx))]
  simp [utf8, List.map_map, Function.comp_def, List.flatMap]

/-- C99 fails for streams with NUL bytes: what follows is dropped, and malformed text is accepted. -/
theorem C99_fails :
    Source.get (.stream (b!"{}" ++ [0] ++ b!"garbage")) = .ok c!"{}" := by decide

/-- C99 fails for the error flag after changes: a document whose parsing failed and which then was filled reports an
error although it holds an object. -/
theorem C99_fails_error_kept :
    ∃ st, run oneFloat (fun _ => none) [.construct 0 (.text c!"["), .add 0 c!"a" (.int 1)] = .ok st ∧
      (st 0).map (fun d => (d.hasError, d.root)) = some (true, .obj [(c!"a", .int 1)]) := ⟨_, rfl, rfl⟩

example : ∃ st, run oneFloat (fun _ => none) [.construct 0 (.stream b!"{\"a\":1}"), .copy 1 0, .add 0 c!"b" .null,
      .construct 2 (.stream (b!"{}" ++ [0xFF])), .move 3 0, .assign 1 1] = .ok st ∧
    (st 1).map JsonDoc.root = some (.obj [(c!"a", .int 1)]) ∧
    (st 3).map JsonDoc.root = some (.obj [(c!"a", .int 1), (c!"b", .null)]) ∧
    (st 0).map JsonDoc.root = some .null ∧ (st 2).isNone := ⟨_, rfl, rfl, rfl, rfl, rfl⟩

end Caitlyn
