import Verif.Props.File

/-!
# Property C113: when the calls on a `File` throw, and what

`std::ios_base::failure` and `std::runtime_error` are both `Err.runtimeError` (the first is derived from the second);
`std::length_error` is `Err.memory`.
-/

namespace Caitlyn
open Caitlyn.Spec File

/-- The calls that need the file to be open. -/
def Spec.needsFile : Op → Bool
  | .open | .erase | .read | .readLine _ | .write _ | .writeLine _ | .append _ | .appendLine _ => true
  | _ => false

/-- C113. If the file cannot be opened, the constructor throws `runtime_error`, and so does every call on a closed object that
needs the file; the object stays closed. -/
theorem C113_unavailable (s : FileSys) (hd : s.disk = none) (hc : s.isOpen = false) (op : Op) (hn : needsFile op = true) :
    (create none).1 = .error .runtimeError ∧ (step s op).1 = .error .runtimeError ∧ (step s op).2.isOpen = false ∧
    (step s op).2.disk = none := by
  obtain ⟨⟨o, p, e, f, b, cu⟩, d⟩ := s
  simp only at hd hc
  subst hd; subst hc
  refine ⟨rfl, ?_⟩
  cases op <;> first | exact ⟨rfl, rfl, rfl⟩ | cases hn

/-- C113. If the file can be opened, the constructor gives an open object with a good stream at position 0, and none of the
calls that write throws, in any state. -/
theorem C113_available (c : List UInt8) (s : FileSys) (hd : s.disk = some c) (t : Str) :
    create (some c) = (.ok (), ready 0 0 c) ∧ getPosition (create (some c)).2 = 0 ∧
    ∀ op ∈ [Op.open, .close, .erase, .isEof, .getPosition, .write t, .writeLine t, .append t, .appendLine t],
      ∃ v, (step s op).1 = .ok v := by
  refine ⟨rfl, rfl, ?_⟩
  obtain ⟨⟨o, p, e, f, b, cu⟩, d⟩ := s
  simp only at hd
  subst hd
  intro op hop
  simp only [List.mem_cons, List.not_mem_nil, or_false] at hop
  rcases hop with rfl | rfl | rfl | rfl | rfl | rfl | rfl | rfl | rfl <;> cases o <;> exact ⟨_, rfl⟩

/-- C113. An object without a name stays closed and throws `runtime_error` from every call that needs a file, after any calls. -/
theorem C113_unnamed (ops : List Op) (op : Op) (hn : needsFile op = true) :
    (step (run unnamed ops).2 op).1 = .error .runtimeError := by
  have key : ∀ (ops : List Op) (s : FileSys), s.disk = none → s.isOpen = false →
      (run s ops).2.disk = none ∧ (run s ops).2.isOpen = false := by
    intro ops
    induction ops with
    | nil => exact fun s h1 h2 => ⟨h1, h2⟩
    | cons op ops ih =>
      intro s h1 h2
      refine ih (step s op).2 ?_ ?_
      · obtain ⟨⟨o, p, e, f, b, cu⟩, d⟩ := s
        simp only at h1 h2
        subst h1; subst h2
        cases op <;> first | rfl | (simp only [step, setPosition_disk])
      · obtain ⟨⟨o, p, e, f, b, cu⟩, d⟩ := s
        simp only at h1 h2
        subst h1; subst h2
        cases op with
        | setPosition p =>
          simp [step, setPosition, seekgBeg, clear, sentry, good, failed]
        | _ => rfl
  obtain ⟨h1, h2⟩ := key ops unnamed rfl rfl
  exact (C113_unavailable _ h1 h2 op hn).2.1

/-- C113. `MakeFile` and `_file` give the same object and leave the same file whether or not the copy is elided. -/
theorem C113_make (elided : Bool) (d : Disk) : makeFile elided d = create d ∧ (makeFile elided d).2.disk = d := by
  cases d <;> cases elided <;> exact ⟨rfl, rfl⟩

/-- C113, exactly: `SetPosition` throws if the position is negative or the object is closed, and then it is a `runtime_error`. -/
theorem C113_setPosition (s : FileSys) (p : Int) :
    (setPosition s p).1 = if p < 0 ∨ s.isOpen = false then .error .runtimeError else .ok () := by
  obtain ⟨⟨o, q, e, f, b, cu⟩, d⟩ := s
  by_cases hp : p < 0 <;> cases o <;>
    simp [setPosition, seekgBeg, clear, sentry, good, failed, hp]

/-- C113, exactly: what `ReadLine` throws itself, apart from the file being unavailable: `runtime_error` if the stream has failed before
its end, or if the read position was made negative. Every other exception comes from making the `String` of the bytes read. -/
theorem C113_readLine (s : FileSys) (d : UInt8) (ho : s.isOpen = true) (e : Err) (h : (readLine s d).1 = .error e) :
    e = .runtimeError ∧ s.eof = false ∧ (failed s = true ∨ s.cur < 0) ∨ ∃ bs, Str.ofStdString bs = .error e := by
  unfold readLine ensureOpen at h
  simp only [ho, if_true] at h
  split at h
  · cases h
  · rename_i he
    have he' : s.eof = false := by simpa using he
    split at h
    · rename_i hf
      exact .inl ⟨(Except.error.inj h).symm, he', .inl hf⟩
    · rename_i hf
      by_cases hc : s.cur < 0
      · generalize getLoop d _ _ = x at h
        obtain ⟨found, bs, s'⟩ := x
        simp only at h
        split at h
        · exact .inr ⟨bs, h⟩
        · split at h
          · exact .inl ⟨(Except.error.inj h).symm, he', .inr hc⟩
          · exact .inr ⟨bs, h⟩
      · generalize hx : getLoop d _ _ = x at h
        obtain ⟨found, bs, s'⟩ := x
        simp only at h
        split at h
        · exact .inr ⟨bs, h⟩
        · rename_i hfe
          split at h
          · rename_i hf'
            exfalso
            have key : ∀ (n : Nat) (s0 : FileSys), good s0 = true → ∀ found bs s1, getLoop d n s0 = (found, bs, s1) →
                found = false → s1.eof = false → failed s1 = false := by
              intro n
              induction n with
              | zero =>
                intro s0 hg found bs s1 h1 _ _
                simp only [getLoop, Prod.mk.injEq] at h1
                obtain ⟨_, _, rfl⟩ := h1
                simp only [good, Bool.and_eq_true, Bool.not_eq_true'] at hg
                simp [failed, hg.1.2, hg.2]
              | succ n ih =>
                intro s0 hg found bs s1 h1 h2 h3
                simp only [getLoop, File.get, hg, if_true] at h1
                cases hb : (bytes s0)[s0.pos]? with
                | none =>
                  rw [hb] at h1
                  simp only [Prod.mk.injEq] at h1
                  obtain ⟨_, _, rfl⟩ := h1
                  cases h3
                | some b =>
                  rw [hb] at h1
                  simp only at h1
                  split at h1
                  · simp only [Prod.mk.injEq] at h1
                    rw [← h1.1] at h2
                    cases h2
                  · generalize hy : getLoop d n _ = y at h1
                    obtain ⟨f', b', s''⟩ := y
                    simp only [Prod.mk.injEq] at h1
                    obtain ⟨rfl, _, rfl⟩ := h1
                    exact ih _ (by exact hg) f' b' s'' hy h2 h3
            have hg : good (seekgBeg (clear s) s.cur) = true := by
              simp [seekgBeg, clear, sentry, good, failed, ho, hc]
            have hfe' : found = false ∧ s'.eof = false := by
              cases found <;> simp_all
            have := key _ _ hg found bs s' hx hfe'.1 hfe'.2
            rw [this] at hf'
            cases hf'
          · exact .inr ⟨bs, h⟩

/-- C113. On an object as the constructor leaves it, reading lines and setting the position never makes the stream fail before
its end: `ReadLine` throws only if the bytes are not a text. -/
theorem C113_readLine_ready (q p : Nat) (c : List UInt8) (d : UInt8) (e : Err)
    (h : (readLine (ready q p c) d).1 = .error e) : ∃ bs, Str.ofStdString bs = .error e := by
  rcases C113_readLine _ d rfl e h with ⟨_, _, h1⟩ | h
  · rcases h1 with h1 | h1
    · cases h1
    · have h1 : (p : Int) < 0 := h1
      omega
  · exact h

/-- C113. Partial: every exception thrown by a call other than `Read` and `ReadLine` is a `runtime_error`. Missing: `Read` throws
`length_error` once the end has been reached (`C76_after_end_fails`). -/
theorem C113_kind_partial (s : FileSys) (op : Op) (h1 : op ≠ .read) (h2 : ∀ d, op ≠ .readLine d) (e : Err)
    (h : (step s op).1 = .error e) : e = .runtimeError := by
  obtain ⟨⟨o, p, ef, f, b, cu⟩, d⟩ := s
  cases op with
  | read => exact absurd rfl h1
  | readLine d => exact absurd rfl (h2 d)
  | setPosition p =>
    simp only [step] at h
    generalize hy : (⟨⟨o, _, ef, f, b, cu⟩, d⟩ : FileSys) = s at h
    generalize hx : setPosition _ p = x at h
    obtain ⟨r, s'⟩ := x
    have hs := C113_setPosition s p
    rw [hx] at hs
    simp only at hs h
    subst hs
    split at h <;> cases h
    rfl
  | «open» => cases o <;> cases d <;> first | (cases h; rfl) | cases h
  | close => cases h
  | isEof => cases h
  | getPosition => cases h
  | erase => cases o <;> cases d <;> first | (cases h; rfl) | cases h
  | write t => cases o <;> cases d <;> first | (cases h; rfl) | cases h
  | writeLine t => cases o <;> cases d <;> first | (cases h; rfl) | cases h
  | append t => cases o <;> cases d <;> first | (cases h; rfl) | cases h
  | appendLine t => cases o <;> cases d <;> first | (cases h; rfl) | cases h

example : (step { fresh with disk := none } (.write c!"x")).1 = .error .runtimeError ∧
    (setPosition (ready 0 0 b!"ab") (-3)).1 = .error .runtimeError := by decide

end Caitlyn
