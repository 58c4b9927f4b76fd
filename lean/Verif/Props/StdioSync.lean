import Verif.Model.StdioSync

/-! # Property C143: the order of the input and output of programs that use the streams of C, too -/

namespace Caitlyn
open StdioSync

/-- What the actions write, in their order. -/
def Spec.texts : List Act → List UInt8
  | [] => []
  | .stdio b :: as | .stream b :: as | .lib b :: as => b ++ Spec.texts as
  | .fflush :: as | .flush :: as => Spec.texts as

/-- Everything written with the functions of C is flushed at once, everything written to `std::cout` too. -/
def Spec.Tidy : List Act → Prop
  | [] => True
  | .stdio _ :: .fflush :: as | .stream _ :: .flush :: as => Spec.Tidy as
  | .fflush :: as | .flush :: as | .lib _ :: as => Spec.Tidy as
  | .stdio _ :: _ | .stream _ :: _ => False

/-- What a program that writes with functions of C and of the library can have as its output, where `pending` has been written with
the functions of C and is not out yet: the text of the library is out at once, that of C at any later time. -/
inductive Spec.Possible : List UInt8 → List Act → List UInt8 → Prop
  | exit (pending) : Spec.Possible pending [] pending
  | out {b pending as o} : Spec.Possible pending as o → Spec.Possible (b :: pending) as (b :: o)
  | stdio {b pending as o} : Spec.Possible (pending ++ b) as o → Spec.Possible pending (.stdio b :: as) o
  | lib {b pending as o} : Spec.Possible pending as o → Spec.Possible pending (.lib b :: as) (b ++ o)

/-- The program writes with functions of C and of the library, and does not flush. -/
def Spec.Plain (as : List Act) : Prop := ∀ a ∈ as, ∃ b, a = .stdio b ∨ a = .lib b

namespace StdioSync

theorem run_sync (full : Nat → Nat × Nat) (as : List Act) (i : Nat) (s : State) (hx : s.xbuf = []) :
    (run true full i as s).xbuf = [] ∧
      (run true full i as s).out ++ (run true full i as s).cbuf = s.out ++ s.cbuf ++ Spec.texts as := by
  induction as generalizing i s with
  | nil => simp [run, hx, Spec.texts]
  | cons a as ih =>
    simp only [run]
    obtain ⟨h1, h2⟩ := ih (i + 1) (spill (full i) (write true s a)) (by cases a <;> simp [spill, write, hx])
    refine ⟨h1, h2.trans ?_⟩
    cases a <;> simp [spill, write, hx, Spec.texts]

theorem run_one (full : Nat → Nat × Nat) (as : List Act) (i : Nat) (s : State) (hc : s.cbuf = []) (h : ∀ b, .stdio b ∉ as) :
    (run false full i as s).cbuf = [] ∧
      (run false full i as s).out ++ (run false full i as s).xbuf = s.out ++ s.xbuf ++ Spec.texts as := by
  induction as generalizing i s with
  | nil => simp [run, hc, Spec.texts]
  | cons a as ih =>
    simp only [run]
    have ha : ∀ b, a ≠ .stdio b := fun b e => h b (by simp [e])
    obtain ⟨h1, h2⟩ := ih (i + 1) (spill (full i) (write false s a))
      (by cases a <;> first | exact absurd rfl (ha _) | simp [spill, write, hc]) (fun b hb => h b (by simp [hb]))
    refine ⟨h1, h2.trans ?_⟩
    cases a <;> first | exact absurd rfl (ha _) | simp [spill, write, hc, Spec.texts]

theorem run_tidy (full : Nat → Nat × Nat) (as : List Act) (i : Nat) (s : State) (hc : s.cbuf = []) (hx : s.xbuf = [])
    (h : Spec.Tidy as) : run false full i as s = ⟨s.out ++ Spec.texts as, [], []⟩ := by
  induction as using Spec.Tidy.induct generalizing i s with
  | case1 => obtain ⟨o, c, x⟩ := s; simp_all [run, Spec.texts]
  | case2 b as ih =>
    simp only [run]
    rw [ih (i + 1 + 1) _ (by simp [spill, write, hx]) (by simp [spill, write, hx]) h]
    simp [spill, write, hc, hx, Spec.texts]
  | case3 b as ih =>
    simp only [run]
    rw [ih (i + 1 + 1) _ (by simp [spill, write, hc]) (by simp [spill, write, hc]) h]
    simp [spill, write, hc, hx, Spec.texts]
  | case4 as ih =>
    simp only [run]
    rw [ih (i + 1) _ (by simp [spill, write]) (by simp [spill, write, hx]) h]
    simp [spill, write, hc, hx, Spec.texts]
  | case5 as ih =>
    simp only [run]
    rw [ih (i + 1) _ (by simp [spill, write, hc]) (by simp [spill, write]) h]
    simp [spill, write, hc, hx, Spec.texts]
  | case6 b as ih =>
    simp only [run]
    rw [ih (i + 1) _ (by simp [spill, write, hc]) (by simp [spill, write]) h]
    simp [spill, write, hc, hx, Spec.texts]
  | case7 => exact absurd h (by simp [Spec.Tidy])
  | case8 => exact absurd h (by simp [Spec.Tidy])

/-- What is out at the end. -/
def final (s : State) : List UInt8 := s.out ++ s.xbuf ++ s.cbuf

theorem run_out (full : Nat → Nat × Nat) (as : List Act) (i : Nat) (o c x : List UInt8) :
    final (run false full i as ⟨o, c, x⟩) = o ++ final (run false full i as ⟨[], c, x⟩) := by
  induction as generalizing i o c x with
  | nil => simp [run, final]
  | cons a as ih =>
    simp only [run]
    obtain ⟨o', c', x', e1, e2⟩ : ∃ o' c' x', spill (full i) (write false ⟨[], c, x⟩ a) = ⟨o', c', x'⟩ ∧
        spill (full i) (write false ⟨o, c, x⟩ a) = ⟨o ++ o', c', x'⟩ :=
      ⟨_, _, _, rfl, by cases a <;> simp [spill, write]⟩
    rw [e1, e2, ih, ih (o := o')]
    simp

theorem possible_take {p as o} (k : Nat) (h : Spec.Possible (p.drop k) as o) : Spec.Possible p as (p.take k ++ o) := by
  induction k generalizing p with
  | zero => simpa using h
  | succ k ih =>
    cases p with
    | nil => simpa using h
    | cons b p => exact .out (ih (by simpa using h))

theorem run_possible (full : Nat → Nat × Nat) (as : List Act) (i : Nat) (p : List UInt8) (h : Spec.Plain as) :
    Spec.Possible p as (final (run false full i as ⟨[], p, []⟩)) := by
  induction as generalizing i p with
  | nil => simpa [run, final] using Spec.Possible.exit p
  | cons a as ih =>
    have ht : Spec.Plain as := fun x hx => h x (by simp [hx])
    obtain ⟨b, rfl | rfl⟩ := h a (by simp)
    · simp only [run]
      have e : spill (full i) (write false ⟨[], p, []⟩ (.stdio b)) = ⟨(p ++ b).take (full i).1, (p ++ b).drop (full i).1, []⟩ := by
        simp [spill, write]
      rw [e, run_out]
      exact .stdio (possible_take _ (ih _ _ ht))
    · simp only [run]
      have e : spill (full i) (write false ⟨[], p, []⟩ (.lib b)) = ⟨b ++ p.take (full i).1, p.drop (full i).1, []⟩ := by
        simp [spill, write]
      rw [e, run_out, List.append_assoc]
      exact .lib (possible_take _ (ih _ _ ht))

theorem run_shift (full : Nat → Nat × Nat) (d : Nat) (as : List Act) (i : Nat) (s : State) :
    run false (fun j => full (j - d)) (i + d) as s = run false full i as s := by
  induction as generalizing i s with
  | nil => rfl
  | cons a as ih =>
    simp only [run, Nat.add_sub_cancel]
    rw [show i + d + 1 = i + 1 + d from by omega, ih]

theorem run_agree (f g : Nat → Nat × Nat) (as : List Act) (i : Nat) (s : State) (h : ∀ j, i ≤ j → f j = g j) :
    run false f i as s = run false g i as s := by
  induction as generalizing i s with
  | nil => rfl
  | cons a as ih =>
    simp only [run]
    rw [h i (Nat.le_refl _), ih (i + 1) _ (fun j hj => h j (by omega))]

theorem possible_run {p as o} (h : Spec.Possible p as o) :
    ∃ k full, final (run false full 0 as (spill (k, 0) ⟨[], p, []⟩)) = o := by
  induction h with
  | exit p => exact ⟨0, fun _ => (0, 0), by simp [run, final, spill]⟩
  | @out b p as o _ ih =>
    obtain ⟨k, full, e⟩ := ih
    refine ⟨k + 1, full, ?_⟩
    have s1 : spill (k + 1, 0) ⟨[], b :: p, []⟩ = ⟨[b] ++ p.take k, p.drop k, []⟩ := by simp [spill]
    have s2 : spill (k, 0) ⟨[], p, []⟩ = ⟨p.take k, p.drop k, []⟩ := by simp [spill]
    rw [s1, run_out, ← e, s2, run_out full as 0 (p.take k)]
    simp
  | @stdio b p as o _ ih =>
    obtain ⟨k, full, e⟩ := ih
    refine ⟨0, fun j => if j = 0 then (k, 0) else full (j - 1), ?_⟩
    have s1 : spill (0, 0) ⟨[], p, []⟩ = ⟨[], p, []⟩ := by simp [spill]
    rw [s1]
    simp only [run, if_true]
    have s2 : write false ⟨[], p, []⟩ (.stdio b) = ⟨[], p ++ b, []⟩ := by simp [write]
    rw [s2, run_agree _ (fun j => full (j - 1)) _ _ _ (fun j hj => by simp [show j ≠ 0 by omega]), run_shift full 1 as 0, e]
  | @lib b p as o _ ih =>
    obtain ⟨k, full, e⟩ := ih
    refine ⟨0, fun j => if j = 0 then (k, 0) else full (j - 1), ?_⟩
    have s1 : spill (0, 0) ⟨[], p, []⟩ = ⟨[], p, []⟩ := by simp [spill]
    rw [s1]
    simp only [run, if_true]
    have s2 : spill (k, 0) (write false ⟨[], p, []⟩ (.lib b)) = ⟨b ++ p.take k, p.drop k, []⟩ := by simp [write, spill]
    have s3 : spill (k, 0) ⟨[], p, []⟩ = ⟨p.take k, p.drop k, []⟩ := by simp [spill]
    rw [s2, run_agree _ (fun j => full (j - 1)) _ _ _ (fun j hj => by simp [show j ≠ 0 by omega]), run_shift full 1 as 0, run_out,
      ← e, s3, run_out full as 0 (p.take k)]
    simp

end StdioSync

/-- C143. In a program that does not include the library the output is what the actions write, in their order, whichever streams
they use and whenever the buffers are emptied. -/
theorem C143_synchronised (full : Nat → Nat × Nat) (as : List Act) : output true full as = Spec.texts as := by
  obtain ⟨h1, h2⟩ := run_sync full as 0 {} rfl
  unfold output
  rw [h1, List.append_nil, h2]
  rfl

/-- C143. In a program that includes it, the order is still that of the actions if only `std::cout` and the library are used, or if
everything written is flushed at once. Partial: `C143_order_fails`. -/
theorem C143_order_partial (full : Nat → Nat × Nat) (as : List Act) (h : (∀ b, .stdio b ∉ as) ∨ Spec.Tidy as) :
    output false full as = Spec.texts as := by
  unfold output
  rcases h with h | h
  · obtain ⟨h1, h2⟩ := run_one full as 0 {} rfl h
    rw [h1, List.append_nil, h2]
    rfl
  · rw [run_tidy full as 0 {} rfl rfl h]
    simp

example : Spec.Tidy [.stdio [1], .fflush, .lib [2], .stream [3], .flush, .stdio [4], .fflush] := by simp [Spec.Tidy]

/-- C143, exactly: the outputs that a program has that uses functions of C and of the library are those in which the text of C is delayed
by any amount; the text of the library never is. -/
theorem C143_possible (as : List Act) (o : List UInt8) (h : Spec.Plain as) :
    (∃ full, output false full as = o) ↔ Spec.Possible [] as o := by
  constructor
  · rintro ⟨full, rfl⟩
    exact run_possible full as 0 [] h
  · intro hp
    obtain ⟨k, full, e⟩ := possible_run hp
    refine ⟨full, ?_⟩
    have : spill (k, 0) ⟨[], [], []⟩ = ({} : StdioSync.State) := by simp [spill]
    rw [this] at e
    exact e

/-- C143 fails: for every text `p` printed with a function of C and every text `q` written with the library thereafter, the output can
be `q` before `p`; and if the buffer is not full before the end of the program, every text of the library comes before every
text of C. -/
theorem C143_order_fails (p q : List UInt8) (as : List Act) (h : Spec.Plain as) :
    output false (fun _ => (0, 0)) [.stdio p, .lib q] = q ++ p ∧
    output false (fun _ => (0, 0)) as = Spec.texts (as.filter fun a => match a with | .lib _ => true | _ => false) ++
      Spec.texts (as.filter fun a => match a with | .stdio _ => true | _ => false) := by
  refine ⟨by simp [output, run, spill, write], ?_⟩
  suffices ∀ i s, s.xbuf = [] → final (run false (fun _ => (0, 0)) i as s) =
      s.out ++ Spec.texts (as.filter fun a => match a with | .lib _ => true | _ => false) ++ s.cbuf ++
      Spec.texts (as.filter fun a => match a with | .stdio _ => true | _ => false) from by
    have := this 0 {} rfl
    simpa [final, output] using this
  induction as with
  | nil => intro i s hs; simp [run, final, hs, Spec.texts]
  | cons a as ih =>
    intro i s hs
    simp only [run]
    have ht : Spec.Plain as := fun x hx => h x (by simp [hx])
    obtain ⟨b, rfl | rfl⟩ := h a (by simp)
    · rw [ih ht _ _ (by simp [spill, write, hs])]
      simp [spill, write, Spec.texts, List.filter_cons]
    · rw [ih ht _ _ (by simp [spill, write])]
      simp [spill, write, hs, Spec.texts, List.filter_cons]

/-- The lines of an input, one after the other. -/
def Spec.lines : Nat → List UInt8 → List (List UInt8)
  | 0, _ => []
  | n + 1, inp => (Console.getline inp).1 :: Spec.lines n (Console.getline inp).2

namespace StdioSync

theorem fetch_spec (amount : Nat → Nat) (n : Nat) (buf file : List UInt8) (i : Nat) (h : file.length ≤ n) :
    (fetch amount n buf file i).1 ++ (fetch amount n buf file i).2.1 = buf ++ file ∧
      (0x0A ∈ (fetch amount n buf file i).1 ∨ (fetch amount n buf file i).2.1 = []) := by
  induction n generalizing buf file i with
  | zero =>
    have : file = [] := List.length_eq_zero_iff.mp (by omega)
    simp [fetch, this]
  | succ n ih =>
    simp only [fetch]
    split
    · rename_i hs
      exact ⟨rfl, hs⟩
    · have hl : (file.drop (amount i + 1)).length ≤ n := by rw [List.length_drop]; omega
      obtain ⟨h1, h2⟩ := ih (buf ++ file.take (amount i + 1)) _ (i + 1) hl
      exact ⟨by rw [h1, List.append_assoc, List.take_append_drop], h2⟩

theorem getline_append (a b : List UInt8) (h : 0x0A ∈ a ∨ b = []) :
    Console.getline (a ++ b) = ((Console.getline a).1, (Console.getline a).2 ++ b) := by
  rcases h with h | rfl
  · induction a with
    | nil => simp at h
    | cons c a ih =>
      by_cases hc : c = 0x0A
      · subst hc; simp [Console.getline]
      · have := ih (by simpa [Ne.symm hc] using h)
        simp only [Console.getline, Prod.mk.injEq] at this ⊢
        have hb : (c != 0x0A) = true := by simpa using hc
        simp only [List.cons_append, List.takeWhile_cons, List.dropWhile_cons, hb, if_true]
        exact ⟨by rw [this.1], this.2⟩
  · simp

/-- A reader with a buffer of its own sees the whole input. -/
theorem readLine_one (sync : Bool) (amount : Nat → Nat) (s : In) (r : Reader) :
    let b := if sync ∨ r = .stdio then s.cbuf else s.xbuf
    (readLine sync amount s r).1 = (Console.getline (b ++ s.file)).1 ∧
    (if sync ∨ r = .stdio then (readLine sync amount s r).2.cbuf else (readLine sync amount s r).2.xbuf) ++
      (readLine sync amount s r).2.file = (Console.getline (b ++ s.file)).2 := by
  unfold readLine
  by_cases h : sync = true ∨ r = .stdio
  · simp only [h, if_true]
    obtain ⟨h1, h2⟩ := fetch_spec amount s.file.length s.cbuf s.file s.fills (Nat.le_refl _)
    have := getline_append _ _ h2
    rw [h1] at this
    rw [this]
    exact ⟨rfl, rfl⟩
  · simp only [h, if_false]
    obtain ⟨h1, h2⟩ := fetch_spec amount s.file.length s.xbuf s.file s.fills (Nat.le_refl _)
    have := getline_append _ _ h2
    rw [h1] at this
    rw [this]
    exact ⟨rfl, rfl⟩

theorem fetch_all (amount : Nat → Nat) (buf file : List UInt8) (i : Nat) (hb : 0x0A ∉ buf) (h : file.length ≤ amount i + 1) :
    (fetch amount file.length buf file i).2.1 = [] := by
  cases file with
  | nil => simp [fetch]
  | cons c file =>
    simp only [List.length_cons, fetch, hb, List.cons_ne_nil, or_self, if_false]
    have e : (c :: file).drop (amount i + 1) = [] := List.drop_eq_nil_of_le h
    rw [e]
    cases file.length with
    | zero => rfl
    | succ n => simp [fetch]

end StdioSync

/-- C143. With synchronisation the lines read are those of the input one after the other, whoever reads them and however the
system gives the input. -/
theorem C143_read_synchronised (amount : Nat → Nat) (rs : List Reader) (inp : List UInt8) :
    readLines true amount rs { file := inp } = Spec.lines rs.length inp := by
  suffices ∀ (rs : List Reader) (s : In), readLines true amount rs s = Spec.lines rs.length (s.cbuf ++ s.file) from this rs _
  intro rs
  induction rs with
  | nil => intro s; rfl
  | cons r rs ih =>
    intro s
    obtain ⟨h1, h2⟩ := readLine_one true amount s r
    simp only [true_or, if_true] at h1 h2
    simp only [readLines, List.length_cons, Spec.lines, h1, ih, h2]

/-- C143. Without, it is so if all lines are read in the same way, by the library or by functions of C. Partial: `C143_read_fails`. -/
theorem C143_read_partial (amount : Nat → Nat) (r : Reader) (n : Nat) (inp : List UInt8) :
    readLines false amount (List.replicate n r) { file := inp } = Spec.lines n inp := by
  suffices ∀ (n : Nat) (s : In), readLines false amount (List.replicate n r) s =
      Spec.lines n ((if r = .stdio then s.cbuf else s.xbuf) ++ s.file) from by
    have := this n { file := inp }
    simpa using this
  intro n
  induction n with
  | zero => intro s; rfl
  | succ n ih =>
    intro s
    obtain ⟨h1, h2⟩ := readLine_one false amount s r
    simp only [Bool.false_eq_true, false_or] at h1 h2
    simp only [List.replicate_succ, readLines, Spec.lines, h1, ih, h2]

/-- C143 fails: if the system gives the input in one piece, then after the first line read by the library the functions of C find the end
of the input, whatever it still has. -/
theorem C143_read_fails (inp : List UInt8) (n : Nat) :
    readLines false (fun _ => inp.length) (.lib :: List.replicate n .stdio) { file := inp } =
      (Console.getline inp).1 :: List.replicate n [] := by
  have e := fetch_all (fun _ => inp.length) [] inp 0 (by simp) (by simp)
  obtain ⟨h1, _⟩ := readLine_one false (fun _ => inp.length) { file := inp } .lib
  simp only [Bool.false_eq_true, reduceCtorEq, or_self, if_false, List.nil_append] at h1
  simp only [readLines, h1, List.cons.injEq, true_and]
  have e1 : (readLine false (fun _ => inp.length) { file := inp } .lib).2.file = [] := by
    simpa [readLine] using e
  have e2 : (readLine false (fun _ => inp.length) { file := inp } .lib).2.cbuf = [] := by simp [readLine]
  generalize (readLine false (fun _ => inp.length) { file := inp } .lib).2 = s at e1 e2
  induction n generalizing s with
  | zero => rfl
  | succ n ih =>
    simp only [List.replicate_succ, readLines]
    obtain ⟨f, c, x, k⟩ := s
    simp only at e1 e2
    subst e1 e2
    have : readLine false (fun _ => inp.length) ⟨[], [], x, k⟩ .stdio = ([], ⟨[], [], x, k⟩) := by
      simp [readLine, fetch, Console.getline]
    rw [this]
    simp only [List.cons.injEq, true_and]
    exact ih _ rfl rfl

example : readLines false (fun _ => 100) [.lib, .stdio] { file := [0x61, 0x0A, 0x62, 0x0A] } = [[0x61], []] ∧
    readLines true (fun _ => 100) [.lib, .stdio] { file := [0x61, 0x0A, 0x62, 0x0A] } = [[0x61], [0x62]] := by decide

end Caitlyn
