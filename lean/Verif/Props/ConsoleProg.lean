import Verif.Model.ConsoleProg
import Verif.Props.Console

/-!
# Property C100: what programs write and read

Reference: each call by itself says what it shows on which stream and whether it takes a line; the lines of the input
are its parts between newlines.
-/

namespace Caitlyn
open Console

/-- The bytes written to a stream. -/
def Spec.onStream (k : Sink) (es : List Event) : List UInt8 :=
  es.flatMap fun
    | .wrote k' bytes => if k' = k then bytes else []
    | _ => []

/-- The bytes taken from the input. -/
def Spec.taken (es : List Event) : List UInt8 :=
  es.flatMap fun
    | .took bytes => bytes
    | _ => []

/-- Nothing is waiting in the buffer of the stream. -/
def Spec.Flushed (k : Sink) : List Event → Prop
  | [] => True
  | .wrote k' bytes :: es =>
    if k' = k ∧ bytes ≠ [] then .flushed k ∈ es ∧ Spec.Flushed k es else Spec.Flushed k es
  | _ :: es => Spec.Flushed k es

/-- The text of a message, if it has one. -/
def Spec.textOf (m : Message) : Option Str :=
  match m with
  | .plain s => some s
  | .formatted t args => (Format.format t args).toOption

/-- What a call shows on a stream. -/
def Spec.shows (k : Sink) : Call → List UInt8
  | .write k' m => if k' = k then ((textOf m).map Str.str).getD [] else []
  | .writeValue k' t => if k' = k then t else []
  | .newline k' => if k' = k then b!"\n" else []
  | .writeLine k' m => if k' = k then ((textOf m).map fun s => Str.str s ++ b!"\n").getD [] else []
  | .writeLineValue k' t => if k' = k then t ++ b!"\n" else []
  | .readLine m => if k = .out then ((textOf m).map Str.str).getD [] else []
  | .readChar m => if k = .out then ((textOf m).map Str.str).getD [] else []

/-- Does the call take a line from the input? -/
def Spec.takesLine : Call → Bool
  | .readLine m => (textOf m).isSome
  | .readChar m => (textOf m).isSome
  | _ => false

/-- The input between newlines. -/
def Spec.parts : List UInt8 → List (List UInt8)
  | [] => [[]]
  | b :: bs =>
    if b = 0x0A then [] :: parts bs
    else
      match parts bs with
      | p :: ps => (b :: p) :: ps
      | [] => [[b]]

/-- What a call returns when `n` lines have been taken before. -/
def Spec.answer (inp : List UInt8) (n : Nat) : Call → Res Reply
  | .readLine m =>
    match m.get with
    | .ok _ => (Str.ofStdString ((parts inp).getD n [])).map .line
    | .error e => .error e
  | .readChar m =>
    match m.get with
    | .ok _ =>
      match Str.ofStdString ((parts inp).getD n []) with
      | .ok [] => .error .ub
      | .ok (c :: _) => .ok (.char c)
      | .error e => .error e
    | .error e => .error e
  | .write _ m | .writeLine _ m =>
    match m.get with
    | .ok _ => .ok .none
    | .error e => .error e
  | _ => .ok .none

/-- The answers of a program, in order. -/
def Spec.answers (inp : List UInt8) : Nat → List Call → List (Res Reply)
  | _, [] => []
  | n, c :: cs => answer inp n c :: answers inp (if takesLine c then n + 1 else n) cs

open Spec

theorem onStream_append (k : Sink) (a b : List Event) : onStream k (a ++ b) = onStream k a ++ onStream k b := by
  simp [onStream]

theorem taken_append (a b : List Event) : taken (a ++ b) = taken a ++ taken b := by simp [taken]

theorem flushed_append (k : Sink) : ∀ (a b : List Event), Flushed k a → Flushed k b → Flushed k (a ++ b)
  | [], _, _, hb => hb
  | .wrote k' bytes :: a, b, ha, hb => by
    simp only [Flushed, List.cons_append] at ha ⊢
    split
    · rename_i h
      rw [if_pos h] at ha
      exact ⟨List.mem_append_left _ ha.1, flushed_append k a b ha.2 hb⟩
    · rename_i h
      rw [if_neg h] at ha
      exact flushed_append k a b ha hb
  | .flushed _ :: a, b, ha, hb => flushed_append k a b ha hb
  | .took _ :: a, b, ha, hb => flushed_append k a b ha hb

theorem textOf_get (m : Message) : textOf m = m.get.toOption := by cases m <;> rfl

theorem getline_parts : ∀ inp, (getline inp).1 = (parts inp).getD 0 [] ∧
    ∀ n, (parts (getline inp).2).getD n [] = (parts inp).getD (n + 1) [] := by
  intro inp
  induction inp with
  | nil => exact ⟨rfl, fun n => by cases n <;> rfl⟩
  | cons b bs ih =>
    by_cases hb : b = 0x0A
    · subst hb
      refine ⟨by simp [getline, parts], fun n => ?_⟩
      simp [getline, parts]
    · have hne : (b != 0x0A) = true := by simpa using hb
      have e1 : (getline (b :: bs)).1 = b :: (getline bs).1 := by simp [getline, List.takeWhile_cons, hne]
      have e2 : (getline (b :: bs)).2 = (getline bs).2 := by simp [getline, List.dropWhile_cons, hne]
      rw [e1, e2, ih.1]
      simp only [parts, if_neg hb]
      cases hp : parts bs with
      | nil =>
        exact absurd hp (by cases bs with | nil => simp [parts] | cons c cs => simp only [parts]; split <;> (try split) <;> simp)
      | cons p ps =>
        refine ⟨rfl, fun n => ?_⟩
        rw [ih.2 n, hp]
        rfl

theorem getline_split (inp : List UInt8) :
    inp.take (inp.length - (getline inp).2.length) ++ (getline inp).2 = inp := by
  have : ∃ pre, inp = pre ++ (getline inp).2 := by
    refine ⟨inp.takeWhile (· != 0x0A) ++ (inp.dropWhile (· != 0x0A)).take 1, ?_⟩
    simp only [getline]
    rw [List.append_assoc, List.take_append_drop, List.takeWhile_append_dropWhile]
  obtain ⟨pre, h⟩ := this
  generalize (getline inp).2 = r at h
  subst h
  simp

/-- What one call does. -/
theorem call_spec (st : State) (c : Call) :
    ∃ es, (call st c).2.events = st.events ++ es ∧ (∀ k, onStream k es = shows k c) ∧ (∀ k, Flushed k es) ∧
      (∀ pre bytes, (pre ++ [.took bytes]) <+: es → Flushed .out pre) ∧
      taken es ++ (call st c).2.inp = st.inp ∧
      (call st c).1 = answer st.inp 0 c ∧
      ∀ n, (parts (call st c).2.inp).getD n [] = (parts st.inp).getD (if takesLine c then n + 1 else n) [] := by
  have notook : ∀ (es : List Event), (∀ b, Event.took b ∉ es) →
      ∀ pre bytes, (pre ++ [.took bytes]) <+: es → Flushed .out pre := by
    intro es h pre bytes hp
    exact absurd (hp.subset (by simp)) (h bytes)
  have rd : ∀ (s : Str), ∃ es, (readPrompt st s).2.events = st.events ++ es ∧
      (∀ k, onStream k es = if k = .out then Str.str s else []) ∧ (∀ k, Flushed k es) ∧
      (∀ pre bytes, (pre ++ [.took bytes]) <+: es → Flushed .out pre) ∧
      taken es ++ (readPrompt st s).2.inp = st.inp ∧
      (readPrompt st s).1 = Str.ofStdString ((parts st.inp).getD 0 []) ∧
      ∀ n, (parts (readPrompt st s).2.inp).getD n [] = (parts st.inp).getD (n + 1) [] := by
    intro s
    have hg := getline_parts st.inp
    have hsp := getline_split st.inp
    cases s with
    | nil =>
      refine ⟨[.took (st.inp.take (st.inp.length - (getline st.inp).2.length))], by simp [readPrompt], ?_, ?_, ?_, ?_, ?_, ?_⟩
      · intro k; simp [onStream, Str.str]
      · intro k; simp [Flushed]
      · intro pre bytes hp
        have : pre = [] := by
          have := hp.length_le
          simp at this
          exact this
        subst this
        trivial
      · simpa [readPrompt, taken] using hsp
      · simp only [readPrompt, List.isEmpty_nil, if_true]
        rw [hg.1]
      · simpa [readPrompt] using hg.2
    | cons c s =>
      refine ⟨[.wrote .out (Str.str (c :: s)), .flushed .out,
        .took (st.inp.take (st.inp.length - (getline st.inp).2.length))], by
          simp [readPrompt, State.put, State.flush], ?_, ?_, ?_, ?_, ?_, ?_⟩
      · intro k
        by_cases hk : k = .out
        · subst hk; simp [onStream]
        · simp [onStream, hk, Ne.symm hk]
      · intro k
        simp only [Flushed]
        split
        · rename_i h; rw [← h.1]; simp
        · trivial
      · intro pre bytes hp
        match pre, hp with
        | [], _ => trivial
        | [a], hp => simp [List.cons_prefix_cons] at hp
        | [a, b], hp =>
          simp only [List.cons_append, List.nil_append, List.cons_prefix_cons] at hp
          obtain ⟨rfl, rfl, _⟩ := hp
          simp [Flushed]
        | a :: b :: x :: pre, hp => have := hp.length_le; simp at this
      · simpa [readPrompt, taken, State.put, State.flush] using hsp
      · simp only [readPrompt, List.isEmpty_cons, Bool.false_eq_true, if_false, State.put, State.flush]
        rw [hg.1]
      · simpa [readPrompt, State.put, State.flush] using hg.2
  have wr : ∀ (k : Sink) (a b : List UInt8) (k' : Sink),
      onStream k' [.wrote k a, .flushed k] = (if k = k' then a else []) ∧ Flushed k' [.wrote k a, .flushed k] ∧
      onStream k' [.wrote k a, .wrote k b, .flushed k] = (if k = k' then a ++ b else []) ∧
      Flushed k' [.wrote k a, .wrote k b, .flushed k] := by
    intro k a b k'
    refine ⟨by simp [onStream], ?_, ?_, ?_⟩
    · simp only [Flushed]; split
      · rename_i h; simp [h.1]
      · trivial
    · by_cases h : k = k' <;> simp [onStream, h]
    · simp only [Flushed]
      split
      · rename_i h; rw [← h.1]; split <;> simp
      · split
        · rename_i h; rw [← h.1]; simp
        · trivial
  cases c with
  | write k m =>
    simp only [call, shows, takesLine, answer, textOf_get]
    cases hm : m.get with
    | ok s =>
      refine ⟨[.wrote k (Str.str s), .flushed k], by simp [State.put, State.flush], fun k' => ?_, fun k' => (wr k _ [] k').2.1,
        notook _ (by simp), by simp [taken, State.put, State.flush], rfl, fun n => rfl⟩
      simpa [Except.toOption] using (wr k (Str.str s) [] k').1
    | error e =>
      exact ⟨[], by simp, fun k' => by simp [onStream, Except.toOption], fun k' => trivial, notook _ (by simp), by simp [taken], rfl, fun n => rfl⟩
  | writeValue k t =>
    exact ⟨[.wrote k t, .flushed k], by simp [call, State.put, State.flush], fun k' => (wr k t [] k').1,
      fun k' => (wr k t [] k').2.1, notook _ (by simp), by simp [call, taken, State.put, State.flush], rfl, fun n => rfl⟩
  | newline k =>
    exact ⟨[.wrote k [0x0A], .flushed k], by simp [call, State.put, State.flush], fun k' => (wr k [0x0A] [] k').1,
      fun k' => (wr k [0x0A] [] k').2.1, notook _ (by simp), by simp [call, taken, State.put, State.flush], rfl, fun n => rfl⟩
  | writeLine k m =>
    simp only [call, shows, takesLine, answer, textOf_get]
    cases hm : m.get with
    | ok s =>
      refine ⟨[.wrote k (Str.str s), .wrote k [0x0A], .flushed k], by simp [State.put, State.flush], fun k' => ?_,
        fun k' => (wr k _ _ k').2.2.2, notook _ (by simp), by simp [taken, State.put, State.flush], rfl, fun n => rfl⟩
      simpa [Except.toOption] using (wr k (Str.str s) [0x0A] k').2.2.1
    | error e =>
      exact ⟨[], by simp, fun k' => by simp [onStream, Except.toOption], fun k' => trivial, notook _ (by simp), by simp [taken], rfl, fun n => rfl⟩
  | writeLineValue k t =>
    exact ⟨[.wrote k t, .wrote k [0x0A], .flushed k], by simp [call, State.put, State.flush], fun k' => (wr k t [0x0A] k').2.2.1,
      fun k' => (wr k t [0x0A] k').2.2.2, notook _ (by simp), by simp [call, taken, State.put, State.flush], rfl, fun n => rfl⟩
  | readLine m =>
    simp only [call, shows, takesLine, answer, textOf_get]
    cases hm : m.get with
    | ok s =>
      obtain ⟨es, h1, h2, h3, h4, h5, h6, h7⟩ := rd s
      exact ⟨es, h1, fun k => by rw [h2]; simp [Except.toOption], h3, h4, h5, by simp only [h6], fun n => by simpa [Except.toOption] using h7 n⟩
    | error e =>
      exact ⟨[], by simp, fun k' => by simp [onStream, Except.toOption], fun k' => trivial, notook _ (by simp), by simp [taken], rfl,
        fun n => by simp [Except.toOption]⟩
  | readChar m =>
    simp only [call, shows, takesLine, answer, textOf_get]
    cases hm : m.get with
    | ok s =>
      obtain ⟨es, h1, h2, h3, h4, h5, h6, h7⟩ := rd s
      refine ⟨es, h1, fun k => by rw [h2]; simp [Except.toOption], h3, h4, h5, ?_, fun n => by simpa [Except.toOption] using h7 n⟩
      simp only [h6]
      cases Str.ofStdString ((parts st.inp).getD 0 []) with
      | error e => rfl
      | ok l => cases l <;> rfl
    | error e =>
      exact ⟨[], by simp, fun k' => by simp [onStream, Except.toOption], fun k' => trivial, notook _ (by simp), by simp [taken], rfl,
        fun n => by simp [Except.toOption]⟩

/-- The calls of a program that are reached: up to the first that is undefined. -/
def Spec.reached (inp : List UInt8) : Nat → List Call → List Call
  | _, [] => []
  | n, c :: cs =>
    if answer inp n c = .error .ub then [c] else c :: reached inp (if takesLine c then n + 1 else n) cs

theorem answer_shift (inp inp' : List UInt8) (n : Nat)
    (h : (parts inp').getD 0 [] = (parts inp).getD n []) (c : Call) : answer inp' 0 c = answer inp n c := by
  cases c <;> simp only [answer, h]

theorem run_spec (inp0 : List UInt8) : ∀ (cs : List Call) (st : State) (n : Nat),
    (∀ m, (parts st.inp).getD m [] = (parts inp0).getD (n + m) []) →
    ∃ es, (run st cs).2.events = st.events ++ es ∧
      (∀ k, onStream k es = (reached inp0 n cs).flatMap (shows k)) ∧ (∀ k, Flushed k es) ∧
      (∀ pre bytes, (pre ++ [.took bytes]) <+: es → Flushed .out pre) ∧
      taken es ++ (run st cs).2.inp = st.inp ∧
      (run st cs).1 = answers inp0 n (reached inp0 n cs)
  | [], st, n, _ => ⟨[], by simp [run], fun k => rfl, fun k => trivial, fun pre bytes hp => by
      have := hp.length_le; simp at this, rfl, rfl⟩
  | c :: cs, st, n, h => by
    obtain ⟨es, h1, h2, h3, h4, h5, h6, h7⟩ := call_spec st c
    have ha : (call st c).1 = answer inp0 n c := by rw [h6]; exact answer_shift inp0 st.inp n (by simpa using h 0) c
    by_cases hub : answer inp0 n c = .error .ub
    · have hub' : (call st c).1 = .error .ub := ha.trans hub
      have hr : run st (c :: cs) = ([(call st c).1], (call st c).2) := by
        simp only [run]
        rw [if_pos hub']
      rw [hr]
      refine ⟨es, h1, fun k => ?_, h3, h4, h5, ?_⟩
      · simp [reached, hub, h2]
      · simp [reached, hub, answers, ha]
    · have hub' : ¬ (call st c).1 = .error .ub := fun x => hub (ha.symm.trans x)
      have hr : run st (c :: cs) = ((call st c).1 :: (run (call st c).2 cs).1, (run (call st c).2 cs).2) := by
        simp only [run]
        rw [if_neg hub']
      obtain ⟨es', g1, g2, g3, g4, g5, g6⟩ := run_spec inp0 cs (call st c).2 (if takesLine c then n + 1 else n) (by
        intro m
        rw [h7 m, h]
        congr 1
        split <;> omega)
      rw [hr]
      refine ⟨es ++ es', by simp [g1, h1], fun k => ?_, fun k => flushed_append k _ _ (h3 k) (g3 k), ?_, ?_, ?_⟩
      · rw [onStream_append, h2, g2]
        simp [reached, hub]
      · intro pre bytes hp
        by_cases hlen : (pre ++ [Event.took bytes]).length ≤ es.length
        · exact h4 pre bytes (List.prefix_of_prefix_length_le hp (List.prefix_append _ _) hlen)
        · have hle : es.length ≤ pre.length := by simp at hlen; omega
          have hpre : pre <+: es ++ es' := (List.prefix_append _ _).trans hp
          have hes : es <+: pre := List.prefix_of_prefix_length_le (List.prefix_append _ _) hpre hle
          obtain ⟨q, rfl⟩ := hes
          rw [List.append_assoc, List.prefix_append_right_inj] at hp
          exact flushed_append _ _ _ (h3 _) (g4 q bytes hp)
      · rw [taken_append, List.append_assoc, g5, h5]
      · simp [reached, hub, answers, ha, g6]

/-- C100. In every program, whatever it catches, each output stream holds exactly what the calls show on it, in order:
messages, values, line ends and prompts; a call whose `Format` throws shows nothing anywhere. -/
theorem C100_written (inp : List UInt8) (cs : List Call) (k : Sink) :
    onStream k (run { inp := inp } cs).2.events = (reached inp 0 cs).flatMap (shows k) := by
  obtain ⟨es, h1, h2, _⟩ := run_spec inp cs { inp := inp } 0 (by simp)
  rw [h1]
  simpa using h2 k

/-- C100. The n-th line that is asked for is the n-th line of the input (empty lines after its end), converted to a
`String`; every other call answers independently of the input. A call whose `Format` throws takes no line. -/
theorem C100_answers (inp : List UInt8) (cs : List Call) :
    (run { inp := inp } cs).1 = answers inp 0 (reached inp 0 cs) := by
  obtain ⟨es, _, _, _, _, _, h⟩ := run_spec inp cs { inp := inp } 0 (by simp)
  exact h

/-- C100. No input is lost or read twice: what was taken, followed by what is left, is the input. -/
theorem C100_input_kept (inp : List UInt8) (cs : List Call) :
    taken (run { inp := inp } cs).2.events ++ (run { inp := inp } cs).2.inp = inp := by
  obtain ⟨es, h1, _, _, _, h, _⟩ := run_spec inp cs { inp := inp } 0 (by simp)
  rw [h1]
  simpa using h

/-- C100. Output is flushed: after every program nothing is left in a buffer, and whenever a line is taken from the
input everything written to standard output before (the prompt in particular) has been flushed. -/
theorem C100_flushed (inp : List UInt8) (cs : List Call) :
    (∀ k, Flushed k (run { inp := inp } cs).2.events) ∧
    ∀ pre bytes, (pre ++ [.took bytes]) <+: (run { inp := inp } cs).2.events → Flushed .out pre := by
  obtain ⟨es, h1, _, h3, h4, _⟩ := run_spec inp cs { inp := inp } 0 (by simp)
  rw [h1]
  simpa using ⟨h3, h4⟩

/-- C100 fails for `ReadLine`: the end of the input cannot be told from an empty line. -/
theorem C100_fails : (run { inp := [] } [.readLine (.plain [])]).1 = (run { inp := b!"\n" } [.readLine (.plain [])]).1 := by
  decide

/-- The prompt of a question is shown and flushed before its answer is taken; a wrong template stops the second question; the
third fails on an empty line. -/
example : run { inp := b!"Zoë\n\nx" } [.readLine (.formatted c!"{}? " [c!"name"]), .readLine (.formatted c!"{" [c!"a"]),
      .writeLine .err (.plain c!"no"), .readChar (.plain []), .newline .log] =
    ([.ok (.line c!"Zoë"), .error .formatError, .ok .none, .error .ub],
      { inp := b!"x", events := [.wrote .out b!"name? ", .flushed .out, .took b!"Zoë\n", .wrote .err b!"no", .wrote .err b!"\n",
        .flushed .err, .took b!"\n"] }) := by decide +kernel

end Caitlyn
