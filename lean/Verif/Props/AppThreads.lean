import Verif.Model.AppThreads

/-! # Property C142: `Application` in several threads and before `main` -/

namespace Caitlyn
open AppThreads

namespace AppThreads

theorem move_same (pc : Nat → Pc) (t : Nat) (p : Pc) : move pc t p t = p := by simp [move]
theorem move_other (pc : Nat → Pc) {t u : Nat} (p : Pc) (h : u ≠ t) : move pc t p u = pc u := by simp [move, h]

/-- The arguments thread `t` has added. -/
def added (s : State) (t : Nat) : List (List UInt8) := (s.args.filter fun x => decide (x.1 = t)).map Prod.snd

/-- `t` has checked after the assignment of a thread. -/
def Late (tr : List Event) (t : Nat) : Prop := ∃ a b u, tr = a ++ .check t :: b ∧ .mark u ∈ a

structure Inv (argv : Nat → List (List UInt8)) (s : State) : Prop where
  flag : s.initialized = true ↔ ∃ u, Event.mark u ∈ s.trace
  start : ∀ t l, s.pc t = .start l → l = argv t ∧ added s t = [] ∧ Event.check t ∉ s.trace ∧ Event.mark t ∉ s.trace
  copying : ∀ t l, s.pc t = .copying l → added s t ++ l = argv t ∧ Event.check t ∈ s.trace ∧ Event.mark t ∉ s.trace ∧ ¬ Late s.trace t
  returned : ∀ t, s.pc t = .returned → added s t = argv t ∧ Event.check t ∈ s.trace ∧ Event.mark t ∈ s.trace ∧ ¬ Late s.trace t
  threw : ∀ t, s.pc t = .threw → added s t = [] ∧ Event.mark t ∉ s.trace ∧ Late s.trace t

theorem Late.append {tr : List Event} {t : Nat} (e : Event) (h : Late tr t) : Late (tr ++ [e]) t := by
  obtain ⟨a, b, u, rfl, h⟩ := h
  exact ⟨a, b ++ [e], u, by simp, h⟩

theorem Late.of_append {tr : List Event} {t : Nat} {e : Event} (h : Late (tr ++ [e]) t) (ne : e ≠ .check t) : Late tr t := by
  obtain ⟨a, b, u, h, m⟩ := h
  rcases List.eq_nil_or_concat b with rfl | ⟨b', x, rfl⟩
  · have : tr ++ [e] = a ++ [.check t] := h
    exact absurd (List.append_inj' this rfl).2 (by simpa using ne)
  · have : tr ++ [e] = (a ++ .check t :: b') ++ [x] := by simpa using h
    exact ⟨a, b', u, (List.append_inj' this rfl).1, m⟩

theorem Late.of_check {tr : List Event} {t : Nat} (h : Late (tr ++ [.check t]) t) (nc : Event.check t ∉ tr) : ∃ u, Event.mark u ∈ tr := by
  obtain ⟨a, b, u, h, m⟩ := h
  rcases List.eq_nil_or_concat b with rfl | ⟨b', x, rfl⟩
  · have : tr ++ [.check t] = a ++ [.check t] := h
    rw [(List.append_inj' this rfl).1]
    exact ⟨u, m⟩
  · have : tr ++ [.check t] = (a ++ .check t :: b') ++ [x] := by simpa using h
    rw [(List.append_inj' this rfl).1] at nc
    simp at nc

theorem Inv.begin (argv : Nat → List (List UInt8)) : Inv argv (begin argv) where
  flag := by simp [AppThreads.begin]
  start := by
    intro t l h
    simp only [AppThreads.begin, Pc.start.injEq] at h
    simp [AppThreads.begin, added, h]
  copying := by simp [AppThreads.begin]
  returned := by simp [AppThreads.begin]
  threw := by simp [AppThreads.begin]

theorem Inv.tick {argv : Nat → List (List UInt8)} {s : State} (i : Inv argv s) (t : Nat) : Inv argv (tick s t) := by
  unfold AppThreads.tick
  split
  · rename_i l hl
    obtain ⟨h1, h2, h3, h4⟩ := i.start t l hl
    have late : Late (s.trace ++ [.check t]) t ↔ s.initialized = true := by
      rw [i.flag]
      constructor
      · intro h; exact h.of_check h3
      · rintro ⟨u, hu⟩; exact ⟨s.trace, [], u, rfl, hu⟩
    constructor
    · simp [i.flag]
    · intro u l' h
      by_cases hu : u = t
      · subst hu
        simp only [move_same] at h
        split at h <;> simp at h
      · simp only [move_other _ _ hu] at h
        have := i.start u l' h
        refine ⟨this.1, this.2.1, by simp [this.2.2.1, hu], by simp [this.2.2.2]⟩
    · intro u l' h
      by_cases hu : u = t
      · subst hu
        simp only [move_same] at h
        split at h
        · simp at h
        · rename_i hf
          simp only [Pc.copying.injEq] at h
          subst h
          refine ⟨?_, by simp, by simp [h4], by simpa [late] using hf⟩
          change added s u ++ l = argv u
          rw [h2, h1]; rfl
      · simp only [move_other _ _ hu] at h
        have := i.copying u l' h
        refine ⟨this.1, by simp [this.2.1], by simp [this.2.2.1], fun h => this.2.2.2 (h.of_append (by simp; omega))⟩
    · intro u h
      by_cases hu : u = t
      · subst hu
        simp only [move_same] at h
        split at h <;> simp at h
      · simp only [move_other _ _ hu] at h
        have := i.returned u h
        refine ⟨this.1, by simp [this.2.1], by simp [this.2.2.1], fun h => this.2.2.2 (h.of_append (by simp; omega))⟩
    · intro u h
      by_cases hu : u = t
      · subst hu
        simp only [move_same] at h
        split at h
        · rename_i hf
          exact ⟨h2, by simp [h4], late.mpr hf⟩
        · simp at h
      · simp only [move_other _ _ hu] at h
        have := i.threw u h
        exact ⟨this.1, by simp [this.2.1], this.2.2.append _⟩
  · rename_i a l hl
    obtain ⟨h1, h2, h3, h4⟩ := i.copying t _ hl
    have other : ∀ u, u ≠ t → added { s with args := s.args ++ [(t, a)] } u = added s u := by
      intro u hu
      simp [added, List.filter_append, Ne.symm hu]
    have same : added { s with args := s.args ++ [(t, a)] } t = added s t ++ [a] := by
      simp [added, List.filter_append]
    constructor
    · simp [i.flag]
    · intro u l' h
      by_cases hu : u = t
      · subst hu; simp [move_same] at h
      · simp only [move_other _ _ hu] at h
        have := i.start u l' h
        exact ⟨this.1, (other u hu).trans this.2.1, by simp [this.2.2.1], by simp [this.2.2.2]⟩
    · intro u l' h
      by_cases hu : u = t
      · subst hu
        simp only [move_same, Pc.copying.injEq] at h
        subst h
        refine ⟨?_, by simp [h2], by simp [h3], fun h => h4 (h.of_append (by simp))⟩
        change added { s with args := s.args ++ [(u, a)] } u ++ l = argv u
        rw [same, ← h1]; simp
      · simp only [move_other _ _ hu] at h
        have := i.copying u l' h
        refine ⟨?_, by simp [this.2.1], by simp [this.2.2.1], fun h => this.2.2.2 (h.of_append (by simp))⟩
        change added { s with args := s.args ++ [(t, a)] } u ++ l' = argv u
        rw [other u hu]; exact this.1
    · intro u h
      by_cases hu : u = t
      · subst hu; simp [move_same] at h
      · simp only [move_other _ _ hu] at h
        have := i.returned u h
        refine ⟨(other u hu).trans this.1, by simp [this.2.1], by simp [this.2.2.1], fun h => this.2.2.2 (h.of_append (by simp))⟩
    · intro u h
      by_cases hu : u = t
      · subst hu; simp [move_same] at h
      · simp only [move_other _ _ hu] at h
        have := i.threw u h
        exact ⟨(other u hu).trans this.1, by simp [this.2.1], this.2.2.append _⟩
  · rename_i hl
    obtain ⟨h1, h2, h3, h4⟩ := i.copying t _ hl
    constructor
    · simp only [List.mem_append, List.mem_singleton, true_iff]
      exact ⟨t, .inr rfl⟩
    · intro u l' h
      by_cases hu : u = t
      · subst hu; simp [move_same] at h
      · simp only [move_other _ _ hu] at h
        have := i.start u l' h
        exact ⟨this.1, this.2.1, by simp [this.2.2.1], by simp [this.2.2.2, hu]⟩
    · intro u l' h
      by_cases hu : u = t
      · subst hu; simp [move_same] at h
      · simp only [move_other _ _ hu] at h
        have := i.copying u l' h
        refine ⟨this.1, by simp [this.2.1], by simp [this.2.2.1, hu], fun h => this.2.2.2 (h.of_append (by simp))⟩
    · intro u h
      by_cases hu : u = t
      · subst hu
        refine ⟨?_, by simp [h2], by simp, fun h => h4 (h.of_append (by simp))⟩
        change added s u = argv u
        simpa using h1
      · simp only [move_other _ _ hu] at h
        have := i.returned u h
        refine ⟨this.1, by simp [this.2.1], by simp [this.2.2.1], fun h => this.2.2.2 (h.of_append (by simp))⟩
    · intro u h
      by_cases hu : u = t
      · subst hu; simp [move_same] at h
      · simp only [move_other _ _ hu] at h
        have := i.threw u h
        exact ⟨this.1, by simp [this.2.1, hu], this.2.2.append _⟩
  · exact i

theorem Inv.run {argv : Nat → List (List UInt8)} (ts : List Nat) {s : State} (i : Inv argv s) : Inv argv (run s ts) := by
  induction ts generalizing s with
  | nil => exact i
  | cons t ts ih => exact ih (i.tick t)

theorem run_append (s : State) (a b : List Nat) : run s (a ++ b) = run (run s a) b := by
  induction a generalizing s with
  | nil => rfl
  | cons t a ih => exact ih _

end AppThreads

/-- The call of thread `t` is over. -/
def Spec.Over (s : AppThreads.State) (t : Nat) : Prop := s.pc t = .returned ∨ s.pc t = .threw

/-- C142, exactly: whatever the calls and however the threads are interleaved, a call throws if and only if it made its check after
some call had assigned to `initialized_`; the assigning calls are those that return. -/
theorem C142_exact (argv : Nat → List (List UInt8)) (ts : List Nat) (t : Nat) (h : Spec.Over (run (begin argv) ts) t) :
    ((run (begin argv) ts).pc t = .threw ↔
      ∃ a b u, (run (begin argv) ts).trace = a ++ .check t :: b ∧ .mark u ∈ a) ∧
    ((run (begin argv) ts).pc t = .returned ↔ .mark t ∈ (run (begin argv) ts).trace) := by
  have i := (Inv.begin argv).run ts
  rcases h with h | h
  · obtain ⟨h1, h2, h3, h4⟩ := i.returned t h
    rw [h]
    refine ⟨⟨fun h => (by cases h), fun h => absurd h h4⟩, ?_⟩
    simp [h3]
  · obtain ⟨h1, h2, h3⟩ := i.threw t h
    rw [h]
    refine ⟨⟨fun _ => h3, fun _ => rfl⟩, ?_⟩
    simp [h2]

/-- C142. If a call is over, then some call has returned; so of the calls in all threads at least one succeeds. -/
theorem C142_some (argv : Nat → List (List UInt8)) (ts : List Nat) (t : Nat) (h : Spec.Over (run (begin argv) ts) t) :
    ∃ u, (run (begin argv) ts).pc u = .returned := by
  have i := (Inv.begin argv).run ts
  rcases h with h | h
  · exact ⟨t, h⟩
  · obtain ⟨_, _, a, b, u, e, m⟩ := i.threw t h
    refine ⟨u, ?_⟩
    have hm : Event.mark u ∈ (run (begin argv) ts).trace := by rw [e]; simp [m]
    cases hp : (run (begin argv) ts).pc u with
    | start l => exact absurd hm (i.start u l hp).2.2.2
    | copying l => exact absurd hm (i.copying u l hp).2.2.1
    | returned => rfl
    | threw => exact absurd hm (i.threw u hp).2.1

/-- C142. When every call is over, `GetArgs()` has, for each call that has returned, its arguments in their order, and nothing of the calls
that have thrown. -/
theorem C142_arguments (argv : Nat → List (List UInt8)) (ts : List Nat) (t : Nat) (h : Spec.Over (run (begin argv) ts) t) :
    ((run (begin argv) ts).args.filter fun x => decide (x.1 = t)).map Prod.snd =
      if (run (begin argv) ts).pc t = .returned then argv t else [] := by
  have i := (Inv.begin argv).run ts
  rcases h with h | h
  · rw [if_pos h]; exact (i.returned t h).1
  · rw [if_neg (by rw [h]; simp)]; exact (i.threw t h).1

namespace AppThreads

theorem run_checks (argv : Nat → List (List UInt8)) (k : Nat) :
    (run (begin argv) (List.range k)).initialized = false ∧ (run (begin argv) (List.range k)).args = [] ∧
    ∀ t, (run (begin argv) (List.range k)).pc t = if t < k then .copying (argv t) else .start (argv t) := by
  induction k with
  | zero => exact ⟨rfl, rfl, fun t => by simp [run, AppThreads.begin]⟩
  | succ k ih =>
    obtain ⟨h1, h2, h3⟩ := ih
    rw [List.range_succ, run_append]
    generalize run (begin argv) (List.range k) = s at h1 h2 h3 ⊢
    have hk : s.pc k = .start (argv k) := by rw [h3]; simp
    simp only [run, tick, hk]
    refine ⟨h1, h2, fun t => ?_⟩
    by_cases ht : t = k
    · subst ht; simp [move, h1]
    · simp only [move, ht, if_false, h3]
      by_cases hlt : t < k
      · rw [if_pos hlt, if_pos (by omega)]
      · rw [if_neg hlt, if_neg (by omega)]

theorem run_pushes (l : List (Nat × List UInt8)) (s : State)
    (h : ∀ t, (∃ x ∈ l, x.1 = t) → s.pc t = .copying ((l.filter fun x => decide (x.1 = t)).map Prod.snd)) :
    (run s (l.map Prod.fst)).args = s.args ++ l ∧
    ∀ t, (run s (l.map Prod.fst)).pc t = if ∃ x ∈ l, x.1 = t then .copying [] else s.pc t := by
  induction l generalizing s with
  | nil => simp [run]
  | cons x l ih =>
    obtain ⟨t, a⟩ := x
    have ht := h t ⟨(t, a), by simp, rfl⟩
    simp only [List.filter_cons, decide_true, if_true, List.map_cons] at ht
    simp only [List.map_cons, run]
    have e1 : (tick s t).args = s.args ++ [(t, a)] := by simp only [tick, ht]
    have e2 : (tick s t).pc = move s.pc t (.copying ((l.filter fun x => decide (x.1 = t)).map Prod.snd)) := by simp only [tick, ht]
    obtain ⟨i1, i2⟩ := ih (tick s t) (by
      rintro u ⟨x, hx, rfl⟩
      rw [e2]
      by_cases hu : x.1 = t
      · simp only [move, hu, if_true]
      · simp only [move, hu, if_false]
        rw [h x.1 ⟨x, by simp [hx], rfl⟩]
        simp only [List.filter_cons, Ne.symm hu, decide_false, Bool.false_eq_true, if_false])
    rw [e1] at i1
    rw [e2] at i2
    refine ⟨by rw [i1]; simp, fun u => ?_⟩
    rw [i2]
    by_cases hu : ∃ x ∈ l, x.1 = u
    · rw [if_pos hu, if_pos]
      obtain ⟨x, hx, rfl⟩ := hu
      exact ⟨x, by simp [hx], rfl⟩
    · rw [if_neg hu]
      by_cases hut : u = t
      · subst hut
        rw [if_pos ⟨(u, a), by simp, rfl⟩]
        simp only [move, if_true]
        have : l.filter (fun x => decide (x.1 = u)) = [] := by
          rw [List.filter_eq_nil_iff]
          intro x hx
          simpa using fun hh => hu ⟨x, hx, hh⟩
        rw [this]; rfl
      · rw [if_neg]
        · simp [move, hut]
        · rintro ⟨x, hx, rfl⟩
          rcases List.mem_cons.mp hx with rfl | hx
          · exact hut rfl
          · exact hu ⟨x, hx, rfl⟩

theorem run_marks (ts : List Nat) (s : State) (h : ∀ t ∈ ts, s.pc t = .copying [] ∨ s.pc t = .returned) :
    (run s ts).args = s.args ∧ (∀ t, t ∈ ts ∨ s.pc t = .returned → (run s ts).pc t = .returned) := by
  induction ts generalizing s with
  | nil => simp [run]
  | cons t ts ih =>
    simp only [run]
    have key : (tick s t).args = s.args ∧ (tick s t).pc t = .returned ∧ ∀ u, u ≠ t → (tick s t).pc u = s.pc u := by
      rcases h t (by simp) with ht | ht
      · simp only [tick, ht]
        exact ⟨trivial, move_same _ _ _, fun u hu => move_other _ _ hu⟩
      · have e : tick s t = s := by simp only [tick, ht]
        rw [e]
        exact ⟨rfl, ht, fun _ _ => rfl⟩
    obtain ⟨k1, k2, k3⟩ := key
    obtain ⟨i1, i2⟩ := ih (tick s t) (by
      intro u hu
      by_cases e : u = t
      · subst e; exact .inr k2
      · rw [k3 u e]; exact h u (by simp [hu]))
    refine ⟨i1.trans k1, ?_⟩
    intro u hu
    apply i2
    by_cases e : u = t
    · subst e; exact .inr k2
    · rcases hu with hu | hu
      · exact .inl (by simpa [e] using hu)
      · exact .inr (by rw [k3 u e]; exact hu)

end AppThreads

/-- C142 fails: "can only be called once" does not hold for threads. For any number of calls there is an interleaving in which all
of them return, and then `GetArgs()` can be every list that has the arguments of each call in their order, mixed in any way. -/
theorem C142_once_fails (n : Nat) (argv : Nat → List (List UInt8)) (l : List (Nat × List UInt8)) (hl : ∀ x ∈ l, x.1 < n)
    (hp : ∀ t < n, (l.filter fun x => decide (x.1 = t)).map Prod.snd = argv t) :
    ∃ ts, (∀ t < n, (run (begin argv) ts).pc t = .returned) ∧ (run (begin argv) ts).args = l := by
  refine ⟨List.range n ++ l.map Prod.fst ++ List.range n, ?_⟩
  rw [run_append, run_append]
  obtain ⟨a1, a2, a3⟩ := run_checks argv n
  generalize run (begin argv) (List.range n) = s at a1 a2 a3 ⊢
  obtain ⟨b1, b2⟩ := run_pushes l s (by
    rintro t ⟨x, hx, rfl⟩
    rw [a3, if_pos (hl x hx), hp _ (hl x hx)])
  generalize run s (l.map Prod.fst) = s' at b1 b2 ⊢
  obtain ⟨c1, c2⟩ := run_marks (List.range n) s' (by
    intro t ht
    rw [List.mem_range] at ht
    rw [b2]
    by_cases e : ∃ x ∈ l, x.1 = t
    · rw [if_pos e]; exact .inl rfl
    · rw [if_neg e, a3, if_pos ht, ← hp t ht]
      have : l.filter (fun x => decide (x.1 = t)) = [] := by
        rw [List.filter_eq_nil_iff]
        intro x hx
        simpa using fun hh => e ⟨x, hx, hh⟩
      rw [this]
      exact .inl rfl)
  exact ⟨fun t ht => c2 t (.inl (by simpa using ht)), by rw [c1, b1, a2]; rfl⟩

/-- Two threads, two arguments each, mixed. -/
example : ∃ ts, (∀ t < 2, (run (begin fun t => if t = 0 then [[1], [2]] else [[3], [4]]) ts).pc t = .returned) ∧
    (run (begin fun t => if t = 0 then [[1], [2]] else [[3], [4]]) ts).args = [(0, [1]), (1, [3]), (1, [4]), (0, [2])] :=
  C142_once_fails 2 _ _ (by decide) (by
    intro t ht
    obtain rfl | rfl : t = 0 ∨ t = 1 := by omega
    all_goals rfl)

/-- C142 fails: as soon as the calls of two threads are over, one has written `initialized_` and another has read it, without any
synchronisation between the two: every such program has a data race. -/
theorem C142_race_fails (argv : Nat → List (List UInt8)) (ts : List Nat) (t u : Nat) (ne : t ≠ u)
    (ht : Spec.Over (run (begin argv) ts) t) (hu : Spec.Over (run (begin argv) ts) u) :
    ∃ x y, x ≠ y ∧ .mark x ∈ (run (begin argv) ts).trace ∧ .check y ∈ (run (begin argv) ts).trace := by
  obtain ⟨x, hx⟩ := C142_some argv ts t ht
  have i := (Inv.begin argv).run ts
  have mx := (i.returned x hx).2.2.1
  have checked : ∀ y, Spec.Over (run (begin argv) ts) y → .check y ∈ (run (begin argv) ts).trace := by
    rintro y (h | h)
    · exact (i.returned y h).2.1
    · obtain ⟨_, _, a, b, _, e, _⟩ := i.threw y h
      rw [e]; simp
  by_cases e : x = t
  · exact ⟨x, u, by omega, mx, checked u hu⟩
  · exact ⟨x, t, e, mx, checked t ht⟩

/-- C142, a thread alone: one call after the other is as `C80_once` says. The second begins when the first has returned, and throws. -/
example : (run (begin fun _ => [[1]]) [0, 0, 0, 1, 1, 1]).pc 0 = .returned ∧ (run (begin fun _ => [[1]]) [0, 0, 0, 1, 1, 1]).pc 1 = .threw ∧
    (run (begin fun _ => [[1]]) [0, 0, 0, 1, 1, 1]).args = [(0, [1])] := ⟨rfl, rfl, rfl⟩

namespace AppThreads

theorem acts_late (s : Static) (as : List Action) (h : s.app.initialized = true) :
    ∀ r ∈ (acts s as).1, r = .error .runtimeError := by
  induction as generalizing s with
  | nil => simp [acts]
  | cons a as ih =>
    intro r hr
    simp only [acts, List.mem_append] at hr
    cases a with
    | construct =>
      simp only [act, Option.toList_none, List.not_mem_nil, false_or] at hr
      exact ih { s with constructed := true } h r hr
    | call c =>
      have e : act s (.call c) = (some (.error .runtimeError), s) := by
        obtain ⟨k, app⟩ := s
        simp only at h
        cases k <;> cases c <;> simp [act, App.call, h]
      rw [e] at hr
      simp only [Option.toList_some, List.mem_singleton] at hr
      rcases hr with hr | hr
      · exact hr
      · exact ih s h r hr

end AppThreads

/-- C142, before `main`: if the object exists when the first call is made, the pointer returned is not null, and every later call throws.
Partial: missing are calls made from the initialisation of other variables (`C142_null_fails`, `C142_early_fails`). -/
theorem C142_static_partial (c : App.Call) (as : List Action) (h : (App.call {} c).1 = .ok ()) :
    ∃ rs, (acts {} (.construct :: .call c :: as)).1 = .ok true :: rs ∧ ∀ r ∈ rs, r = .error .runtimeError := by
  have hm : (App.call {} c).2.initialized = true := by
    rcases c with _ | ⟨argc, argv⟩
    · rfl
    · simp only [App.call, Bool.false_eq_true, if_false] at h ⊢
      split at h <;> simp_all
  generalize hx : App.call {} c = x at h hm
  obtain ⟨r, app⟩ := x
  simp only at h hm
  subst h
  refine ⟨(acts ⟨true, app⟩ as).1, ?_, fun r hr => acts_late _ _ hm r hr⟩
  simp [acts, act, hx]

/-- C142 fails: a program that calls `Initialise()` before the object has been made gets a null pointer, and never gets another: whatever it
does then, also after the object has been made, every call throws. -/
theorem C142_null_fails (as : List Action) :
    ∃ rs, (acts {} (.call .initialise :: as)).1 = .ok false :: rs ∧ ∀ r ∈ rs, r = .error .runtimeError := by
  refine ⟨(acts { app := { initialized := true } } as).1, rfl, fun r hr => acts_late _ _ rfl r hr⟩

/-- C142 fails: `Initialize`, also without arguments, calls a member function on a null pointer there. -/
theorem C142_early_fails (argc : Int) (argv : List (List UInt8)) (as : List Action) :
    (acts {} (.call (.initialize argc argv) :: as)).1.head? = some (.error .ub) := rfl

end Caitlyn
