import Verif.Spec.BuilderLog
import Verif.Proofs.Str
import Verif.Lit

/-! # C102: string builders are independent values -/

namespace Caitlyn
open Spec BuilderProg

/-- An object and the life it has had. -/
def BuilderProg.Fits (o : Obj) (l : Life) : Prop :=
  o.stream.buf = l.text ∧ o.stream.pos = l.pieces.flatten.length ∧ o.bad = l.deaf

/-- The same for all variables. -/
def BuilderProg.FitsAll (st : State) (m : Lives) : Prop :=
  ∀ d, match st d, m d with
    | some o, some l => Fits o l
    | none, none => True
    | _, _ => False

theorem BuilderProg.FitsAll.set {st : State} {m : Lives} (h : FitsAll st m) {d : Nat} {o : Obj} {l : Life}
    (hf : Fits o l) : FitsAll (st.set d (some o)) (m.put d (some l)) := by
  intro i
  by_cases hi : i = d
  · simp [State.set, Lives.put, hi, hf]
  · simpa [State.set, Lives.put, hi] using h i

theorem BuilderProg.FitsAll.clear {st : State} {m : Lives} (h : FitsAll st m) {d : Nat} :
    FitsAll (st.set d none) (m.put d none) := by
  intro i
  by_cases hi : i = d
  · simp [State.set, Lives.put, hi]
  · simpa [State.set, Lives.put, hi] using h i

theorem BuilderProg.FitsAll.get {st : State} {m : Lives} (h : FitsAll st m) {d : Nat} (hd : (m d).isSome) :
    ∃ o l, st d = some o ∧ m d = some l ∧ st.get d = .ok o ∧ Fits o l := by
  have := h d
  cases hs : st d <;> cases hm : m d <;> simp only [hs, hm] at this
  · rw [hm] at hd; cases hd
  · exact ⟨_, _, rfl, rfl, by simp [State.get, hs], this⟩

theorem BuilderProg.Fits.write {o : Obj} {l : Life} (h : Fits o l) (s : List UInt8) : Fits (o.write s) (l.add s) := by
  obtain ⟨h1, h2, h3⟩ := h
  unfold Obj.write Life.add
  rw [h3]
  cases hd : l.deaf with
  | true => simp only [if_pos]; exact ⟨h1, h2, h3⟩
  | false =>
    simp only [Bool.false_eq_true, if_false]
    refine ⟨?_, ?_, rfl⟩
    · simp only [OStr.write, h1, h2, Life.text, List.flatten_append, List.flatten_cons, List.flatten_nil, List.append_nil,
        List.length_append, List.take_left, List.append_assoc, List.drop_append, List.drop_drop]
      simp
    · simp [OStr.write, h2]

theorem BuilderProg.fits_new : Fits ⟨OStr.empty, false⟩ {} := ⟨rfl, rfl, rfl⟩

theorem BuilderProg.FitsAll.step {st : State} {m : Lives} (h : FitsAll st m) (s : Step) (hs : Meaningful m s) :
    ∃ st', caught st s = .ok st' ∧ FitsAll st' (lifeStep m s) := by
  obtain ⟨hn, hm⟩ := hs
  have fw : ∀ t, Fits (Obj.write ⟨OStr.empty, false⟩ t) { pieces := [t] } := fun t => by
    have := fits_new.write t
    simpa [Life.add] using this
  have fmt : ∀ f args, Format.format f args ≠ .error .ub ∧ Format.format f args ≠ .error .fuel →
      (∃ t, Format.format f args = .ok t ∧ formatted f args = some (Str.str t)) ∨
      (∃ e, Format.format f args = .error e ∧ e ≠ .ub ∧ e ≠ .fuel ∧ formatted f args = none) := by
    intro f args hf
    cases hr : Format.format f args with
    | ok t => exact .inl ⟨t, rfl, by simp [formatted, hr]⟩
    | error e =>
      rw [hr] at hf
      exact .inr ⟨e, rfl, fun h => hf.1 (by rw [h]), fun h => hf.2 (by rw [h]), by simp [formatted, hr]⟩
  have thrown : ∀ e, e ≠ Err.ub → e ≠ Err.fuel → BuilderProg.step st s = .error e → caught st s = .ok st := by
    intro e h1 h2 h3
    unfold caught
    rw [h3]
    cases e <;> first | rfl | exact absurd rfl h1 | exact absurd rfl h2
  have done : ∀ st', BuilderProg.step st s = .ok st' → caught st s = .ok st' := by
    intro st' h3
    unfold caught
    rw [h3]
  cases s with
  | make d src =>
    cases src with
    | empty => exact ⟨_, done _ rfl, h.set fits_new⟩
    | char c => exact ⟨_, done _ rfl, h.set (fw _)⟩
    | cstr p =>
      cases p with
      | none => exact ⟨_, done _ rfl, h.set ⟨rfl, rfl, rfl⟩⟩
      | some mem =>
        refine ⟨st.set d (some (Obj.write ⟨OStr.empty, false⟩ (mem.takeWhile (· != 0)))), done _ ?_, h.set (fw _)⟩
        have hm : (0 : UInt8) ∈ mem := hm
        simp [BuilderProg.step, BuilderProg.make, hm, bind, Except.bind, pure, Except.pure]
    | str s => exact ⟨_, done _ rfl, h.set (fw _)⟩
    | format f args =>
      rcases fmt f args hm with ⟨t, h1, h2⟩ | ⟨e, h1, h2, h3, h4⟩
      · refine ⟨st.set d (some (Obj.write ⟨OStr.empty, false⟩ (Str.str t))), done _ ?_, ?_⟩
        · simp [BuilderProg.step, BuilderProg.make, h1, bind, Except.bind, pure, Except.pure]
        · simp only [lifeStep, h2]; exact h.set (fw _)
      · refine ⟨st, thrown e h2 h3 ?_, ?_⟩
        · simp [BuilderProg.step, BuilderProg.make, h1, bind, Except.bind]
        · simpa only [lifeStep, h4] using h
  | copy d e =>
    obtain ⟨o, l, h1, h2, h3, h4⟩ := h.get (hn e (by simp [needs]))
    refine ⟨_, done _ (by simp only [BuilderProg.step, h3, bind, Except.bind]; rfl), ?_⟩
    simp only [lifeStep, h2]
    exact h.set ⟨by rw [h4.1]; simp [OStr.ofString, Life.text], rfl, rfl⟩
  | move d e =>
    obtain ⟨o, l, h1, h2, h3, h4⟩ := h.get (hn e (by simp [needs]))
    refine ⟨_, done _ (by simp only [BuilderProg.step, h3, bind, Except.bind]; rfl), ?_⟩
    simp only [lifeStep, h2]
    exact h.clear.set h4
  | append d s =>
    obtain ⟨o, l, h1, h2, h3, h4⟩ := h.get (hn d (by simp [needs]))
    refine ⟨_, done _ (by simp only [BuilderProg.step, h3, bind, Except.bind]; rfl), ?_⟩
    simp only [lifeStep, h2, Option.map_some]
    exact h.set (h4.write _)
  | appendLine d s =>
    obtain ⟨o, l, h1, h2, h3, h4⟩ := h.get (hn d (by simp [needs]))
    refine ⟨_, done _ (by simp only [BuilderProg.step, h3, bind, Except.bind]; rfl), ?_⟩
    simp only [lifeStep, h2, Option.map_some]
    exact h.set ((h4.write _).write _)
  | appendFormat d f args =>
    obtain ⟨o, l, h1, h2, h3, h4⟩ := h.get (hn d (by simp [needs]))
    rcases fmt f args hm with ⟨t, g1, g2⟩ | ⟨e, g1, g2, g3, g4⟩
    · refine ⟨_, done _ (by simp only [BuilderProg.step, h3, g1, bind, Except.bind]; rfl), ?_⟩
      simp only [lifeStep, h2, g2, Option.map_some]
      exact h.set (h4.write _)
    · exact ⟨st, thrown e g2 g3 (by simp only [BuilderProg.step, h3, g1, bind, Except.bind]),
        by simpa only [lifeStep, g4] using h⟩
  | appendLineFormat d f args =>
    obtain ⟨o, l, h1, h2, h3, h4⟩ := h.get (hn d (by simp [needs]))
    rcases fmt f args hm with ⟨t, g1, g2⟩ | ⟨e, g1, g2, g3, g4⟩
    · refine ⟨_, done _ (by simp only [BuilderProg.step, h3, g1, bind, Except.bind]; rfl), ?_⟩
      simp only [lifeStep, h2, g2, Option.map_some]
      exact h.set ((h4.write _).write _)
    · exact ⟨st, thrown e g2 g3 (by simp only [BuilderProg.step, h3, g1, bind, Except.bind]),
        by simpa only [lifeStep, g4] using h⟩

theorem BuilderProg.run_fits (p : List Step) (h : MeaningfulProg p) :
    ∃ st, run (fun _ => none) p = .ok st ∧ FitsAll st (livesRun p) := by
  suffices ∀ (p : List Step) (st : State) (m : Lives), FitsAll st m → MeaningfulFrom m p →
      ∃ st', run st p = .ok st' ∧ FitsAll st' (p.foldl lifeStep m) from
    this p _ _ (fun _ => trivial) h
  intro p
  induction p with
  | nil => intro st m hst _; exact ⟨st, rfl, hst⟩
  | cons s p ih =>
    intro st m hst hm
    obtain ⟨st', h1, h2⟩ := hst.step s hm.1
    rw [run, h1]
    exact ih st' _ h2 hm.2

/-- C102: after every meaningful program over any number of builders, the builders that exist are those of the
specification, and each holds its own text: what was written through it over the beginning of what it was copied from. No
step on one builder changes another. -/
theorem C102_exact (p : List Step) (h : MeaningfulProg p) :
    ∃ st, run (fun _ => none) p = .ok st ∧
      ∀ d, (st d).map (·.stream.buf) = (livesRun p d).map Life.text := by
  obtain ⟨st, h1, h2⟩ := run_fits p h
  refine ⟨st, h1, fun d => ?_⟩
  have := h2 d
  cases hs : st d <;> cases hm : livesRun p d <;> simp only [hs, hm] at this
  · rfl
  · exact congrArg some this.1

/-- C102: `str()` of a builder whose text is well-formed in shape is the `String` with that text. -/
theorem C102_str (p : List Step) (h : MeaningfulProg p) (d : Nat) (l : Life) (hl : livesRun p d = some l) :
    ∃ st, run (fun _ => none) p = .ok st ∧ str st d = Str.ofStdString l.text := by
  obtain ⟨st, h1, h2⟩ := run_fits p h
  refine ⟨st, h1, ?_⟩
  obtain ⟨o, l', _, g2, g3, g4⟩ := h2.get (d := d) (by rw [hl]; rfl)
  rw [hl] at g2
  injection g2 with g2
  subst g2
  simp only [str, g3, bind, Except.bind, g4.1]

/-- C102: what makes a builder the concatenation of the pieces appended to it: it was not copied from another (moving is
fine). -/
theorem C102_accumulates_partial (p : List Step) (h : MeaningfulProg p) (d : Nat) (l : Life)
    (hl : livesRun p d = some l) (hb : l.base = []) :
    ∃ st o, run (fun _ => none) p = .ok st ∧ st d = some o ∧ o.stream.buf = l.pieces.flatten := by
  obtain ⟨st, h1, h2⟩ := run_fits p h
  obtain ⟨o, l', g1, g2, _, g4⟩ := h2.get (d := d) (by rw [hl]; rfl)
  rw [hl] at g2
  injection g2 with g2
  subst g2
  exact ⟨st, o, h1, g1, by rw [g4.1, Life.text, hb]; simp⟩

/-- C102: in programs without copies every builder is the concatenation of its pieces, in order. -/
theorem C102_no_copies (p : List Step) (hc : ∀ d e, Step.copy d e ∉ p) (d : Nat) (l : Life)
    (hl : livesRun p d = some l) : l.text = l.pieces.flatten := by
  suffices ∀ (p : List Step) (m : Lives), (∀ d e, Step.copy d e ∉ p) → (∀ d l, m d = some l → l.base = []) →
      ∀ d l, p.foldl lifeStep m d = some l → l.base = [] by
    have hb := this p (fun _ => none) hc (by simp) d l hl
    rw [Life.text, hb]; simp
  clear hl hc p d l
  intro p
  induction p with
  | nil => intro m _ hm; exact hm
  | cons s p ih =>
    intro m hc hm
    refine ih _ (fun d e hh => hc d e (by simp [hh])) ?_
    have put : ∀ (m : Lives) (k : Nat) (v : Option Life), (∀ d l, m d = some l → l.base = []) →
        (∀ l, v = some l → l.base = []) → ∀ d l, m.put k v d = some l → l.base = [] := by
      intro m k v h1 h2 d l h3
      by_cases hd : d = k
      · exact h2 l (by simpa [Lives.put, hd] using h3)
      · exact h1 d l (by simpa [Lives.put, hd] using h3)
    have add : ∀ (l : Life) s, l.base = [] → (l.add s).base = [] := by
      intro l s h; unfold Life.add; split <;> exact h
    cases s with
    | make d src =>
      cases src with
      | empty => exact put _ _ _ hm (by rintro _ ⟨⟩; rfl)
      | char c => exact put _ _ _ hm (by rintro _ ⟨⟩; rfl)
      | cstr q => cases q <;> exact put _ _ _ hm (by rintro _ ⟨⟩; rfl)
      | str s => exact put _ _ _ hm (by rintro _ ⟨⟩; rfl)
      | format f a =>
        cases hf : formatted f a <;> simp only [lifeStep, hf]
        · exact hm
        · exact put _ _ _ hm (by rintro _ ⟨⟩; rfl)
    | copy d e => exact absurd (by simp) (hc d e)
    | move d e => exact put _ _ _ (put _ _ _ hm (by rintro _ ⟨⟩)) (hm e)
    | append d s =>
      refine put _ _ _ hm ?_
      intro l h
      obtain ⟨l', h1, rfl⟩ := Option.map_eq_some_iff.1 h
      exact add _ _ (hm d l' h1)
    | appendLine d s =>
      refine put _ _ _ hm ?_
      intro l h
      obtain ⟨l', h1, rfl⟩ := Option.map_eq_some_iff.1 h
      exact add _ _ (add _ _ (hm d l' h1))
    | appendFormat d f a =>
      cases hf : formatted f a <;> simp only [lifeStep, hf]
      · exact hm
      · refine put _ _ _ hm ?_
        intro l h
        obtain ⟨l', h1, rfl⟩ := Option.map_eq_some_iff.1 h
        exact add _ _ (hm d l' h1)
    | appendLineFormat d f a =>
      cases hf : formatted f a <;> simp only [lifeStep, hf]
      · exact hm
      · refine put _ _ _ hm ?_
        intro l h
        obtain ⟨l', h1, rfl⟩ := Option.map_eq_some_iff.1 h
        exact add _ _ (add _ _ (hm d l' h1))

/-- C102 does not hold for copies: a copy of "abc" to which "X" is appended is "Xbc" (the original stays "abc"). -/
theorem C102_fails_copy :
    ∃ st, run (fun _ => none) [.make 0 (.str c!"abc"), .copy 1 0, .append 1 c!"X"] = .ok st ∧
      str st 0 = .ok c!"abc" ∧ str st 1 = .ok c!"Xbc" := by
  obtain ⟨st, h⟩ : ∃ st, run (fun _ => none) [.make 0 (.str c!"abc"), .copy 1 0, .append 1 c!"X"] = .ok st := ⟨_, rfl⟩
  refine ⟨st, h, ?_⟩
  injection h with h
  subst h
  decide +kernel

/-- C102 does not hold for a builder made from a null pointer: everything appended to it is lost. -/
theorem C102_fails_null :
    ∃ st, run (fun _ => none) [.make 0 (.cstr none), .append 0 c!"abc"] = .ok st ∧ str st 0 = .ok [] := by
  obtain ⟨st, h⟩ : ∃ st, run (fun _ => none) [.make 0 (.cstr none), .append 0 c!"abc"] = .ok st := ⟨_, rfl⟩
  refine ⟨st, h, ?_⟩
  injection h with h
  subst h
  decide +kernel

/-- A program with formats, an exception in one of them, a move and a copy. -/
def Spec.exampleProg : List Step :=
  [.make 0 (.format c!"{}-{}" [c!"1", c!"2"]), .make 1 (.char 65), .appendLine 1 c!"b", .appendFormat 0 c!"{5}" [c!"x"],
   .move 2 0, .append 2 c!"!", .copy 3 2]

example : MeaningfulProg exampleProg ∧ ∃ st, run (fun _ => none) exampleProg = .ok st ∧ str st 1 = .ok c!"Ab\n" ∧
    str st 2 = .ok c!"1-2!" ∧ str st 3 = .ok c!"1-2!" ∧ (st 0).isNone := by
  have h1 : Format.format c!"{}-{}" [c!"1", c!"2"] = .ok c!"1-2" := by decide +kernel
  have h2 : Format.format c!"{5}" [c!"x"] = .error .formatError := by decide +kernel
  have f1 : formatted c!"{}-{}" [c!"1", c!"2"] = some b!"1-2" := by decide +kernel
  have f2 : formatted c!"{5}" [c!"x"] = none := by decide +kernel
  refine ⟨?_, _, by simp only [exampleProg, run, caught, step, make, h1, h2, bind, Except.bind, pure, Except.pure,
    State.get, State.set, if_true]; rfl, ?_⟩
  · simp [MeaningfulProg, exampleProg, MeaningfulFrom, Meaningful, needs, lifeStep, h1, h2, f1, f2, Lives.put]
  · decide +kernel

end Caitlyn
