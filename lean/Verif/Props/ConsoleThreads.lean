import Verif.Lit
import Verif.Proofs.ConsoleThreads

/-! # C152: the console in several threads -/

namespace Caitlyn
open Spec ConsoleThreads

/-- C152 (fails): when two threads make calls that use a common stream, and one of them uses no mutex, every execution of the
program has a data race on that stream, whatever the other threads do. As `cerr` and `cin` are tied to `cout`, this concerns
`ErrorStream` or `InputStream` in one thread and `OutputStream` in the other, too. -/
theorem C152_race_fails (ps : Nat → List Act) (s t : Nat) (c c' : Call) (x : Object) (ne : s ≠ t)
    (free : ∀ m, .lock m ∉ ps s ∧ .unlock m ∉ ps s) (hc : c ∈ callsOf (ps s)) (hc' : c' ∈ callsOf (ps t)) (hx : x ∈ streams c)
    (hx' : x ∈ streams c') (tr : List (Nat × Ev)) (r : Run ps tr) : Race tr := by
  obtain ⟨a, ha, xa⟩ := (mem_streams c x).mp hx
  obtain ⟨b, hb, xb⟩ := (mem_streams c' x).mp hx'
  refine race ne (fun m => ⟨fun h => (free m).1 (mem_steps_lock.mp (r.mem.mp h)), fun h => (free m).2 (mem_steps_unlock.mp (r.mem.mp h))⟩)
    (r.mem.mpr (mem_steps_op.mpr ⟨c, hc, ha⟩)) (r.mem.mpr (mem_steps_op.mpr ⟨c', hc', hb⟩)) xa xb

/-- C152: a program without mutexes has a data race exactly when two of its threads use a common stream; this does not depend on
the execution. -/
theorem C152_unlocked (ps : Nat → List Act) (free : ∀ t m, .lock m ∉ ps t ∧ .unlock m ∉ ps t) (tr : List (Nat × Ev)) (r : Run ps tr) :
    Race tr ↔ ∃ (s t : Nat) (c c' : Call) (x : Object), s ≠ t ∧ c ∈ callsOf (ps s) ∧ c' ∈ callsOf (ps t) ∧ x ∈ streams c ∧
      x ∈ streams c' := by
  constructor
  · rintro ⟨i, j, s, t, a, b, x, _, ne, hi, hj, xa, xb, _⟩
    obtain ⟨c, hc, ha⟩ := mem_steps_op.mp (r.mem.mp (mem_of_get hi))
    obtain ⟨c', hc', hb⟩ := mem_steps_op.mp (r.mem.mp (mem_of_get hj))
    exact ⟨s, t, c, c', x, ne, hc, hc', (mem_streams c x).mpr ⟨a, ha, xa⟩, (mem_streams c' x).mpr ⟨b, hb, xb⟩⟩
  · rintro ⟨s, t, c, c', x, ne, hc, hc', hx, hx'⟩
    exact C152_race_fails ps s t c c' x ne (free s) hc hc' hx hx' tr r

/-- C152: a program whose threads make all their calls while they hold one mutex has no data race in any execution, and each
stream gets the texts of the calls whole, one after the other, those of a thread in its order. -/
theorem C152_locked (ps : Nat → List Act) (m : Nat) (g : ∀ t, Guarded m false (ps t)) (tr : List (Nat × Ev)) (r : Run ps tr) :
    ¬ Race tr ∧ ∃ order, CallOrder ps order ∧ ∀ s, written s tr = order.flatMap fun c => callText s c.2 := by
  refine ⟨no_race r (fun t => Held.steps (by simpa using g t)), ?_⟩
  obtain ⟨order, sh, e⟩ := calls_in_order (m := m) r ps (fun _ => []) (fun t => by simp) (fun t => by simpa using g t) (fun t h => absurd rfl h)
  refine ⟨order, sh, fun s => ?_⟩
  rw [written_ops, e, ← textOps_flatMap]
  simp

/-- C152: without mutexes the executions are all the interleavings of the operations of the threads. -/
theorem C152_interleavings (ps : Nat → List Act) (free : ∀ t m, .lock m ∉ ps t ∧ .unlock m ∉ ps t) (tr : List (Nat × Ev)) :
    Run ps tr ↔ ∀ t, (tr.filter fun x => x.1 = t).map Prod.snd = steps (ps t) := by
  refine ⟨fun r t => r.proj t, fun h => ?_⟩
  have fr : ∀ t m, .lock m ∉ steps (ps t) ∧ .unlock m ∉ steps (ps t) :=
    fun t m => ⟨fun h => (free t m).1 (mem_steps_lock.mp h), fun h => (free t m).2 (mem_steps_unlock.mp h)⟩
  show Runs (fun t => steps (ps t)) (fun _ => none) tr
  generalize (fun _ => none : Holders) = hd
  replace h : ∀ t, (tr.filter fun x => x.1 = t).map Prod.snd = (fun t => steps (ps t)) t := h
  replace fr : ∀ t m, .lock m ∉ (fun t => steps (ps t)) t ∧ .unlock m ∉ (fun t => steps (ps t)) t := fr
  generalize (fun t => steps (ps t)) = rem at h fr
  clear free
  induction tr generalizing rem hd with
  | nil => exact .done fun t => by simpa using (h t).symm
  | cons x tr ih =>
    obtain ⟨t, e⟩ := x
    have ht : rem t = e :: (tr.filter fun x => x.1 = t).map Prod.snd := by simpa using (h t).symm
    refine .step ht ?_ (ih _ _ ?_ ?_)
    · cases e with
      | op => trivial
      | lock m => exact absurd (by simp [ht]) (fr t m).1
      | unlock m => exact absurd (by simp [ht]) (fr t m).2
    · intro u
      by_cases ut : u = t
      · subst ut; simp
      · have := h u
        simp only [ut, if_false]
        simpa [Ne.symm ut] using this
    · intro u m
      by_cases ut : u = t
      · subst ut
        have := fr u m
        rw [ht] at this
        simp only [if_true]
        exact ⟨fun c => this.1 (.tail _ c), fun c => this.2 (.tail _ c)⟩
      · simp only [ut, if_false]
        exact fr u m

/-- C152 (fails): also where the streams are synchronized, so that there is no data race, `WriteLine` is not one step: of two
threads that write a line each, the two texts can come in one line, with an empty line after it. -/
theorem C152_torn_fails (k : Sink) (a b : Str) : ∃ tr,
    Run (fun t => if t = 0 then [.call (.writeLine k a)] else if t = 1 then [.call (.writeLine k b)] else []) tr ∧
    written k tr = Str.str a ++ Str.str b ++ [0x0A, 0x0A] := by
  refine ⟨[(0, .op (.insert k (Str.str a))), (1, .op (.insert k (Str.str b))), (0, .op (.insert k [0x0A])), (0, .op (.flush k)),
    (1, .op (.insert k [0x0A])), (1, .op (.flush k))], ?_, by simp [written]⟩
  rw [C152_interleavings]
  · intro t
    by_cases h0 : t = 0
    · subst h0; simp [steps, Call.ops]
    · by_cases h1 : t = 1
      · subst h1; simp [steps, Call.ops]
      · simp [h0, h1, Ne.symm h0, Ne.symm h1, steps]
  · intro t m
    by_cases h0 : t = 0
    · simp [h0]
    · by_cases h1 : t = 1
      · simp [h1]
      · simp [h0, h1]

/-! A thread that reports an error while another writes: every execution has a race. -/
example (tr : List (Nat × Ev))
    (r : Run (fun t => if t = 0 then [.call (.writeLine .out c!"working")] else if t = 1 then [.call (.writeLine .err c!"failed")] else []) tr) :
    Race tr :=
  C152_race_fails _ 0 1 (.writeLine .out c!"working") (.writeLine .err c!"failed") (.sink .out) (by decide) (by simp) (by simp [callsOf])
    (by simp [callsOf]) (by simp [streams, Sink.objects]) (by simp [streams, Sink.objects]) tr r

/-! Logging while another thread writes is fine, as `clog` is not tied. -/
example (tr : List (Nat × Ev))
    (r : Run (fun t => if t = 0 then [.call (.writeLine .out c!"working")] else if t = 1 then [.call (.writeLine .log c!"note")] else []) tr) :
    ¬ Race tr := by
  rw [C152_unlocked _ _ tr r]
  · rintro ⟨s, t, c, c', x, ne, hc, hc', hx, hx'⟩
    by_cases s0 : s = 0 <;> by_cases s1 : s = 1 <;> by_cases t0 : t = 0 <;> by_cases t1 : t = 1 <;>
      simp_all [callsOf]
    · subst hc hc'; simp [streams, Sink.objects] at hx hx'; simp [hx] at hx'
    · subst hc hc'; simp [streams, Sink.objects] at hx hx'; simp [hx] at hx'
  · intro t m
    by_cases h0 : t = 0
    · simp [h0]
    · by_cases h1 : t = 1
      · simp [h1]
      · simp [h0, h1]

/-! The hypotheses of `C152_locked` hold for a program with an execution. -/
example : (∀ t : Nat, Guarded 5 false (if t < 2 then [.lock 5, .call (.newLine .out), .unlock 5] else [])) ∧
    Run (fun t => if t < 2 then [.lock 5, .call (.newLine .out), .unlock 5] else [])
      [(1, .lock 5), (1, .op (.insert .out [0x0A])), (1, .op (.flush .out)), (1, .unlock 5),
       (0, .lock 5), (0, .op (.insert .out [0x0A])), (0, .op (.flush .out)), (0, .unlock 5)] := by
  constructor
  · intro t
    split <;> simp [Guarded]
  · refine .step (es := [.op (.insert .out [0x0A]), .op (.flush .out), .unlock 5]) rfl rfl ?_
    refine .step (es := [.op (.flush .out), .unlock 5]) rfl trivial ?_
    refine .step (es := [.unlock 5]) rfl trivial ?_
    refine .step (es := []) rfl rfl ?_
    refine .step (es := [.op (.insert .out [0x0A]), .op (.flush .out), .unlock 5]) rfl rfl ?_
    refine .step (es := [.op (.flush .out), .unlock 5]) rfl trivial ?_
    refine .step (es := [.unlock 5]) rfl trivial ?_
    refine .step (es := []) rfl rfl (.done fun t => ?_)
    by_cases h0 : t = 0
    · simp [h0]
    · by_cases h1 : t = 1
      · simp [h1]
      · simp [h0, h1, steps, show ¬ t < 2 by omega]

end Caitlyn
