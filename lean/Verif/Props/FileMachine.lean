import Verif.Props.File
import Verif.Spec.FileMachine

/-! # Property C141: `File` in every history -/

namespace Caitlyn
open Caitlyn.Spec File

/-- What of an object the calls can see. -/
def File.view (s : FileSys) : FileMachine.State :=
  ⟨s.disk, s.isOpen, if s.eof then .ended else if s.fail then .failed else .good, s.cur⟩

/-- The states that histories reach: the bad bit is never set, the end bit only with the fail bit, and an open file has content. -/
def File.Sound (s : FileSys) : Prop := s.bad = false ∧ (s.eof = true → s.fail = true) ∧ (s.isOpen = true → s.disk ≠ none)

theorem sound_cases {s : FileSys} (h : File.Sound s) :
    (s.eof = false ∧ s.fail = false) ∨ (s.eof = false ∧ s.fail = true) ∨ (s.eof = true ∧ s.fail = true) := by
  obtain ⟨_, h2, _⟩ := h
  cases he : s.eof with
  | true => right; right; exact ⟨rfl, h2 he⟩
  | false => cases hf : s.fail <;> simp

theorem machine_read (q : Nat) (cu : Int) (c : List UInt8) :
    FileMachine.step (view (ready q cu c)) .read =
      ((step (ready q cu c) .read).1, view (step (ready q cu c) .read).2) ∧ File.Sound (step (ready q cu c) .read).2 := by
  have hr : readAll (ready q cu c) = (Str.ofCStr c, ready c.length cu c) := by
    have hn : ¬ (c.length : Int) < 0 := by omega
    simp [readAll, ensureOpen, ready, seekgEnd, sentry, good, failed, bytes, tellg, seekgBeg, File.read, hn]
  have hstep : step (ready q cu c) .read = ((Str.ofCStr c).map .str, ready c.length cu c) := by
    show ((readAll (ready q cu c)).1.map Out.str, (readAll (ready q cu c)).2) = _
    rw [hr]
  rw [hstep]
  exact ⟨rfl, rfl, (by intro h; cases h), (by intro _ h; cases h)⟩

theorem machine_readLine (q : Nat) (cu : Int) (c : List UInt8) (d : UInt8) :
    FileMachine.step (view (ready q cu c)) (.readLine d) =
      ((step (ready q cu c) (.readLine d)).1, view (step (ready q cu c) (.readLine d)).2) ∧
      File.Sound (step (ready q cu c) (.readLine d)).2 := by
  by_cases hneg : cu < 0
  · have hr : readLine (ready q cu c) d = (.error .runtimeError, ⟨⟨true, q, false, true, false, cu⟩, some c⟩) := by
      simp [readLine, ensureOpen, ready, clear, seekgBeg, sentry, good, failed, hneg, getLoop, File.get]
    have hstep : step (ready q cu c) (.readLine d) = (.error .runtimeError, ⟨⟨true, q, false, true, false, cu⟩, some c⟩) := by
      show ((readLine (ready q cu c) d).1.map Out.str, (readLine (ready q cu c) d).2) = _
      rw [hr]; rfl
    rw [hstep]
    refine ⟨?_, rfl, (by intro h; cases h), (by intro _ h; cases h)⟩
    show (if cu < 0 then _ else _) = _
    rw [if_pos hneg]
    rfl
  · obtain ⟨p, rfl⟩ : ∃ p : Nat, cu = p := ⟨cu.toNat, by omega⟩
    have hm : FileMachine.step (view (ready q p c)) (.readLine d) =
        ((Str.ofStdString (FileMachine.upTo d p c)).map .str,
          if d ∈ c.drop p then { view (ready q p c) with next := p + (FileMachine.upTo d p c).length + 1 }
          else { view (ready q p c) with mode := .ended, next := -1 }) := by
      show (if (p : Int) < 0 then (.error .runtimeError, { view (ready q p c) with mode := .failed }) else _) = _
      rw [if_neg hneg]
      rfl
    rw [hm]
    have hstep : step (ready q p c) (.readLine d) =
        ((readLine (ready q p c) d).1.map Out.str, (readLine (ready q p c) d).2) := rfl
    rw [hstep]
    by_cases hd : d ∈ c.drop p
    · obtain ⟨a, r, h1, h2⟩ := List.eq_append_cons_of_mem hd
      have hu : FileMachine.upTo d p c = a := by
        unfold FileMachine.upTo
        rw [h1]
        rw [List.takeWhile_append_of_pos (by
          intro x hx
          simp only [decide_not, Bool.not_eq_true', decide_eq_false_iff_not]
          rintro rfl
          exact h2 hx), List.takeWhile_cons_of_neg (by simp), List.append_nil]
      rw [readLine_found d q p c a r h1 h2, if_pos hd, hu]
      refine ⟨?_, rfl, (by intro h; cases h), (by intro _ h; cases h)⟩
      show (_, _) = (_, FileMachine.State.mk _ _ _ ((p + a.length + 1 : Nat) : Int))
      rfl
    · have hu : FileMachine.upTo d p c = c.drop p := by
        unfold FileMachine.upTo
        have := List.takeWhile_append_of_pos (p := fun x => decide (x ≠ d)) (l₁ := c.drop p) (l₂ := []) (by
          intro x hx
          simp only [decide_not, Bool.not_eq_true', decide_eq_false_iff_not]
          rintro rfl
          exact hd hx)
        simpa using this
      rw [readLine_end d q p c _ rfl hd, if_neg hd, hu]
      exact ⟨rfl, rfl, (by intro _; rfl), (by intro _ h; cases h)⟩

theorem machine_step (s : FileSys) (h : File.Sound s) (op : Op) :
    FileMachine.step (view s) op = ((step s op).1, view (step s op).2) ∧ File.Sound (step s op).2 := by
  obtain ⟨⟨o, q, e, f, b, cu⟩, d⟩ := s
  obtain ⟨h1, h2, h3⟩ := h
  simp only at h1 h2 h3
  subst h1
  have hs : (e = false ∧ f = false) ∨ (e = false ∧ f = true) ∨ (e = true ∧ f = true) := by
    cases e <;> cases f <;> simp_all
  cases op with
  | «open» =>
    cases o <;> cases d <;> rcases hs with ⟨rfl, rfl⟩ | ⟨rfl, rfl⟩ | ⟨rfl, rfl⟩ <;> (try exact absurd rfl (h3 rfl)) <;>
      exact ⟨rfl, by simp [File.Sound, step, openFile, streamOpen, clear]⟩
  | close =>
    cases o <;> cases d <;> rcases hs with ⟨rfl, rfl⟩ | ⟨rfl, rfl⟩ | ⟨rfl, rfl⟩ <;> (try exact absurd rfl (h3 rfl)) <;>
      exact ⟨rfl, by simp [File.Sound, step, close, streamClose]⟩
  | erase =>
    cases o <;> cases d <;> rcases hs with ⟨rfl, rfl⟩ | ⟨rfl, rfl⟩ | ⟨rfl, rfl⟩ <;> (try exact absurd rfl (h3 rfl)) <;>
      exact ⟨rfl, by simp [File.Sound, step, erase, close, streamClose, openFile, streamOpen, clear]⟩
  | isEof =>
    rcases hs with ⟨rfl, rfl⟩ | ⟨rfl, rfl⟩ | ⟨rfl, rfl⟩ <;> exact ⟨rfl, rfl, by simp [step], h3⟩
  | setPosition p =>
    have key : ∀ e f, (FileMachine.step (view ⟨⟨o, q, e, f, false, cu⟩, d⟩) (.setPosition p) =
        ((step ⟨⟨o, q, e, f, false, cu⟩, d⟩ (.setPosition p)).1, view (step ⟨⟨o, q, e, f, false, cu⟩, d⟩ (.setPosition p)).2)) ∧
        File.Sound (step ⟨⟨o, q, e, f, false, cu⟩, d⟩ (.setPosition p)).2 := by
      intro e f
      by_cases hp : p < 0
      · have hp' : ¬ 0 ≤ p := by omega
        simp [FileMachine.step, step, setPosition, seekgBeg, clear, sentry, good, failed, view, File.Sound, hp, hp']
        exact ⟨rfl, h3⟩
      · have hp' : 0 ≤ p := by omega
        cases o <;> simp [FileMachine.step, step, setPosition, seekgBeg, clear, sentry, good, failed, view, File.Sound, hp, hp']
        · rfl
        · exact ⟨rfl, h3 rfl⟩
    exact key e f
  | getPosition =>
    rcases hs with ⟨rfl, rfl⟩ | ⟨rfl, rfl⟩ | ⟨rfl, rfl⟩ <;> exact ⟨rfl, rfl, by simp [step], h3⟩
  | read =>
    cases d with
    | none =>
      cases o <;> rcases hs with ⟨rfl, rfl⟩ | ⟨rfl, rfl⟩ | ⟨rfl, rfl⟩ <;> (try exact absurd rfl (h3 rfl)) <;>
        exact ⟨rfl, by simp [File.Sound, step, readAll, ensureOpen, openFile, streamOpen]⟩
    | some c =>
      cases o with
      | false => exact machine_read 0 cu c
      | true =>
        rcases hs with ⟨rfl, rfl⟩ | ⟨rfl, rfl⟩ | ⟨rfl, rfl⟩
        · exact machine_read q cu c
        · exact ⟨rfl, rfl, (by intro h; cases h), (by intro _ h; cases h)⟩
        · exact ⟨rfl, rfl, (by intro h; cases h), (by intro _ h; cases h)⟩
  | readLine x =>
    cases d with
    | none =>
      cases o <;> rcases hs with ⟨rfl, rfl⟩ | ⟨rfl, rfl⟩ | ⟨rfl, rfl⟩ <;> (try exact absurd rfl (h3 rfl)) <;>
        exact ⟨rfl, by simp [File.Sound, step, readLine, ensureOpen, openFile, streamOpen]⟩
    | some c =>
      cases o with
      | false => exact machine_readLine 0 cu c x
      | true =>
        rcases hs with ⟨rfl, rfl⟩ | ⟨rfl, rfl⟩ | ⟨rfl, rfl⟩
        · exact machine_readLine q cu c x
        · exact ⟨rfl, rfl, (by intro h; cases h), (by intro _ h; cases h)⟩
        · exact ⟨rfl, rfl, (by intro _; rfl), (by intro _ h; cases h)⟩
  | write t => 
    cases o <;> cases d <;> rcases hs with ⟨rfl, rfl⟩ | ⟨rfl, rfl⟩ | ⟨rfl, rfl⟩ <;> (try exact absurd rfl (h3 rfl)) <;>
      exact ⟨rfl, by simp [File.Sound, step, write, ensureOpen, openFile, streamOpen, clear, put, good]⟩
  | writeLine t =>
    cases o <;> cases d <;> rcases hs with ⟨rfl, rfl⟩ | ⟨rfl, rfl⟩ | ⟨rfl, rfl⟩ <;> (try exact absurd rfl (h3 rfl)) <;>
      exact ⟨rfl, by simp [File.Sound, step, write, ensureOpen, openFile, streamOpen, clear, put, good]⟩
  | append t =>
    cases o <;> cases d <;> rcases hs with ⟨rfl, rfl⟩ | ⟨rfl, rfl⟩ | ⟨rfl, rfl⟩ <;> (try exact absurd rfl (h3 rfl)) <;>
      exact ⟨rfl, by simp [File.Sound, step, append, seekpEnd, failed, ensureOpen, openFile, streamOpen, clear, put, good]⟩
  | appendLine t =>
    cases o <;> cases d <;> rcases hs with ⟨rfl, rfl⟩ | ⟨rfl, rfl⟩ | ⟨rfl, rfl⟩ <;> (try exact absurd rfl (h3 rfl)) <;>
      exact ⟨rfl, by simp [File.Sound, step, append, seekpEnd, failed, ensureOpen, openFile, streamOpen, clear, put, good]⟩

theorem machine_run (s : FileSys) (h : File.Sound s) (ops : List Op) :
    FileMachine.run (view s) ops = ((run s ops).1, view (run s ops).2) := by
  induction ops generalizing s with
  | nil => rfl
  | cons op ops ih =>
    obtain ⟨h1, h2⟩ := machine_step s h op
    rw [FileMachine.run, h1, run]
    simp only [ih _ h2]

/-- C141: whatever is called on a `File`, in whatever order and with whatever exceptions caught in between, every call gives what
the machine gives, and the file holds what the machine says. -/
theorem C141_machine (c : List UInt8) (ops : List Op) :
    ∃ s, create (some c) = (.ok (), s) ∧
      (File.run s ops).1 = (FileMachine.run ⟨some c, true, .good, 0⟩ ops).1 ∧
      (File.run s ops).2.disk = (FileMachine.run ⟨some c, true, .good, 0⟩ ops).2.content := by
  refine ⟨_, create_ready c, ?_⟩
  have := machine_run (ready 0 0 c) ⟨rfl, (by intro h; cases h), (by intro _ h; cases h)⟩ ops
  rw [show FileMachine.State.mk (some c) true .good 0 = view (ready 0 0 c) from rfl, this]
  exact ⟨rfl, rfl⟩

/-- C141: an object of a file that cannot be opened, or without a name, does what the machine does, too. -/
theorem C141_closed (d : Disk) (ops : List Op) :
    (File.run { fresh with disk := d } ops).1 = (FileMachine.run ⟨d, false, .good, 0⟩ ops).1 ∧
    (File.run { fresh with disk := d } ops).2.disk = (FileMachine.run ⟨d, false, .good, 0⟩ ops).2.content := by
  have := machine_run { fresh with disk := d } ⟨rfl, (by intro h; cases h), (by intro h; cases h)⟩ ops
  rw [show FileMachine.State.mk d false .good 0 = view { fresh with disk := d } from rfl, this]
  exact ⟨rfl, rfl⟩

/-- What of the objects of a program their calls can see. -/
def File.World.view (w : File.World) : FileMachine.Objects :=
  ⟨w.disk, w.objs.map fun o => (o.isOpen, if o.eof then .ended else if o.fail then .failed else .good, o.cur)⟩

theorem map_eraseIdx {α β : Type} (f : α → β) : ∀ (l : List α) (k : Nat), (l.eraseIdx k).map f = (l.map f).eraseIdx k
  | [], _ => rfl
  | _ :: _, 0 => rfl
  | _ :: l, k + 1 => by simp [map_eraseIdx f l k]

/-- C141: programs with several objects of one file, made and destroyed at any time. What a call on an object gives depends on the
content and on the earlier calls on that object only, and the content is what the machine says. -/
theorem C141_objects (d : Disk) (as : List Act) :
    (File.acts ⟨d, []⟩ as).view = FileMachine.acts ⟨d, []⟩ as ∧
    ∀ (k : Nat) (o : FileObj) (op : Op), (File.acts ⟨d, []⟩ as).objs[k]? = some o →
      ∃ b m p, (FileMachine.acts ⟨d, []⟩ as).objs[k]? = some (b, m, p) ∧
        (File.step { o with disk := (File.acts ⟨d, []⟩ as).disk } op).1 =
          (FileMachine.step ⟨(FileMachine.acts ⟨d, []⟩ as).content, b, m, p⟩ op).1 := by
  have keep : ∀ (s : FileSys) (op : Op), s.disk ≠ none → (File.step s op).2.disk ≠ none := by
    intro s op h
    by_cases he : op = .erase
    · subst he
      obtain ⟨⟨o, q, e, f, b, cu⟩, d⟩ := s
      cases d with
      | none => exact absurd rfl h
      | some c =>
        show (File.erase _).2.disk ≠ none
        cases o <;> simp [File.erase, close, streamClose, openFile, streamOpen, clear]
    · obtain ⟨t, -, ht⟩ := C74_step s op he
      rw [ht]
      cases hd : s.disk with
      | none => exact absurd hd h
      | some c => simp
  have kept : ∀ (o : FileObj) (d d' : Disk), File.Sound { o with disk := d } → (d ≠ none → d' ≠ none) →
      File.Sound { o with disk := d' } := fun o d d' ⟨h1, h2, h3⟩ h => ⟨h1, h2, fun ho => h (h3 ho)⟩
  have one : ∀ (w : File.World) (a : Act), (∀ o ∈ w.objs, File.Sound { o with disk := w.disk }) →
      (File.act w a).view = FileMachine.act w.view a ∧
      ∀ o ∈ (File.act w a).objs, File.Sound { o with disk := (File.act w a).disk } := by
    intro w a hw
    cases a with
    | call k op =>
      cases hk : w.objs[k]? with
      | none =>
        have e : File.act w (.call k op) = w := by simp [File.act, hk]
        rw [e]
        refine ⟨?_, hw⟩
        simp [FileMachine.act, File.World.view, hk]
      | some o =>
        have ho := hw o (List.mem_of_getElem? hk)
        obtain ⟨h1, h2⟩ := machine_step { o with disk := w.disk } ho op
        have e : File.act w (.call k op) = ⟨(File.step { o with disk := w.disk } op).2.disk,
            w.objs.set k (File.step { o with disk := w.disk } op).2.toFileObj⟩ := by simp [File.act, hk]
        rw [e]
        constructor
        · simp only [FileMachine.act, File.World.view, List.getElem?_map, hk, Option.map_some]
          rw [show FileMachine.State.mk w.disk o.isOpen
            (if o.eof = true then .ended else if o.fail = true then .failed else .good) o.cur =
              File.view { o with disk := w.disk } from rfl, h1]
          simp only [List.map_set, File.view]
        · intro o' ho'
          rcases List.mem_or_eq_of_mem_set ho' with h | rfl
          · exact kept o' _ _ (hw o' h) (keep { o with disk := w.disk } op)
          · exact h2
    | new =>
      obtain ⟨d, objs⟩ := w
      cases d with
      | none => exact ⟨rfl, hw⟩
      | some c =>
        refine ⟨?_, ?_⟩
        · show FileMachine.Objects.mk _ (List.map _ (objs ++ [_])) = FileMachine.Objects.mk _ (List.map _ objs ++ [_])
          rw [List.map_append]
          rfl
        · intro o ho
          rcases List.mem_append.mp ho with h | h
          · exact hw o h
          · rw [List.mem_singleton.mp h]
            exact ⟨rfl, (by intro h; cases h), (by intro _ h; cases h)⟩
    | delete k =>
      refine ⟨?_, fun o ho => hw o ((List.eraseIdx_sublist _ _).mem ho)⟩
      show FileMachine.Objects.mk _ (List.map _ (w.objs.eraseIdx k)) = FileMachine.Objects.mk _ ((List.map _ w.objs).eraseIdx k)
      rw [map_eraseIdx]
      rfl
  have key : ∀ (as : List Act) (w : File.World),
      (∀ o ∈ w.objs, File.Sound { o with disk := w.disk }) →
      (File.acts w as).view = FileMachine.acts w.view as ∧
      ∀ o ∈ (File.acts w as).objs, File.Sound { o with disk := (File.acts w as).disk } := by
    intro as
    induction as with
    | nil => exact fun w hw => ⟨rfl, hw⟩
    | cons a as ih =>
      intro w hw
      obtain ⟨h1, h2⟩ := one w a hw
      have := ih (File.act w a) h2
      rw [h1] at this
      exact this
  obtain ⟨h1, h2⟩ := key as ⟨d, []⟩ (by intro o ho; cases ho)
  refine ⟨h1, fun k o op hk => ?_⟩
  have h1' : (File.acts ⟨d, []⟩ as).view = FileMachine.acts ⟨d, []⟩ as := h1
  rw [← h1']
  refine ⟨o.isOpen, if o.eof then .ended else if o.fail then .failed else .good, o.cur, ?_, ?_⟩
  · simp [File.World.view, hk]
  · obtain ⟨h3, -⟩ := machine_step { o with disk := (File.acts ⟨d, []⟩ as).disk } (h2 o (List.mem_of_getElem? hk)) op
    exact (congrArg Prod.fst h3).symm

/-- The machine on a history: after the end has been met nothing is written, `Open` makes it worse, and closing helps. -/
example : (FileMachine.run ⟨some b!"ab", true, .good, 0⟩
    [.readLine 0x0A, .getPosition, .write c!"x", .close, .write c!"y", .readLine 0x0A, .setPosition 1, .readLine 0x0A]).1 =
    [.ok (.str c!"ab"), .ok (.pos (-1)), .ok .unit, .ok .unit, .ok .unit, .error .runtimeError, .ok .unit, .ok (.str c!"by")] := by
  decide +kernel

end Caitlyn
