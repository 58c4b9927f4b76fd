import Verif.Spec.ConsoleThreads

/-! # Runs of threads that use the console -/

namespace Caitlyn.ConsoleThreads
open Spec

theorem ops_ne (c : Call) : ∃ o os, c.ops = o :: os := by
  cases c with
  | readLine m =>
    simp only [Call.ops]
    split
    · exact ⟨_, _, rfl⟩
    · exact ⟨_, _, rfl⟩
  | _ => exact ⟨_, _, rfl⟩

/-- A stream used by a call is used by one of its operations, and the other way round. -/
theorem mem_streams (c : Call) (x : Object) : x ∈ streams c ↔ ∃ o ∈ c.ops, x ∈ o.objects := by
  cases c with
  | write s t => simp [streams, Call.ops, Op.objects]
  | writeLine s t => simp [streams, Call.ops, Op.objects]
  | newLine s => simp [streams, Call.ops, Op.objects]
  | readLine m =>
    by_cases h : m = []
    · simp [streams, Call.ops, Op.objects, h]
    · simp [streams, Call.ops, Op.objects, h, Sink.objects]
      exact .inr

/-- A run makes the steps of each thread, in their order. -/
theorem Runs.proj {rem h tr} (r : Runs rem h tr) (t : Nat) : (tr.filter fun x => x.1 = t).map Prod.snd = rem t := by
  induction r with
  | done e => simp [e]
  | @step rem h u e es tr hr _ _ ih =>
    by_cases c : u = t
    · subst c; simp [ih, hr]
    · simp [c, ih, Ne.symm c]

theorem Runs.mem {rem h tr t e} (r : Runs rem h tr) : (t, e) ∈ tr ↔ e ∈ rem t := by
  rw [← r.proj t]
  simp

theorem mem_steps_op {as : List Act} {o : Op} : .op o ∈ steps as ↔ ∃ c ∈ callsOf as, o ∈ c.ops := by
  induction as with
  | nil => simp [steps, callsOf]
  | cons a as ih => cases a <;> simp [steps, callsOf, ih]

theorem mem_steps_lock {as : List Act} {m : Nat} : .lock m ∈ steps as ↔ .lock m ∈ as := by
  induction as with
  | nil => simp [steps]
  | cons a as ih => cases a <;> simp [steps, ih]

theorem mem_steps_unlock {as : List Act} {m : Nat} : .unlock m ∈ steps as ↔ .unlock m ∈ as := by
  induction as with
  | nil => simp [steps]
  | cons a as ih => cases a <;> simp [steps, ih]

/-- The thread does not use a mutex. -/
def Free (tr : List (Nat × Ev)) (t : Nat) : Prop := ∀ m, (t, .lock m) ∉ tr ∧ (t, .unlock m) ∉ tr

theorem mem_of_get {α : Type} {l : List α} {i : Nat} {a : α} (h : l[i]? = some a) : a ∈ l := List.mem_of_getElem? h

/-- Nothing happens before or after the steps of a thread without mutexes but its own steps. -/
theorem Before.same {tr : List (Nat × Ev)} {i j t : Nat} (f : Free tr t) (b : Before tr i j) :
    ((∃ e, tr[i]? = some (t, e)) → ∃ e, tr[j]? = some (t, e)) ∧ ((∃ e, tr[j]? = some (t, e)) → ∃ e, tr[i]? = some (t, e)) := by
  induction b with
  | @order i j u e e' _ hi hj =>
    constructor
    · rintro ⟨x, hx⟩
      rw [hi] at hx
      cases hx
      exact ⟨_, hj⟩
    · rintro ⟨x, hx⟩
      rw [hj] at hx
      cases hx
      exact ⟨_, hi⟩
  | @mutex i j u u' m _ hi hj =>
    constructor
    · rintro ⟨x, hx⟩
      rw [hi] at hx
      cases hx
      exact absurd (mem_of_get hi) (f m).2
    · rintro ⟨x, hx⟩
      rw [hj] at hx
      cases hx
      exact absurd (mem_of_get hj) (f m).1
  | trans _ _ i1 i2 => exact ⟨fun h => i2.1 (i1.1 h), fun h => i1.2 (i2.2 h)⟩

/-- Two threads that use the same stream, one of them without a mutex. -/
theorem race {tr : List (Nat × Ev)} {s t : Nat} {a b : Op} {x : Object} (ne : s ≠ t) (f : Free tr s)
    (ha : (s, .op a) ∈ tr) (hb : (t, .op b) ∈ tr) (xa : x ∈ a.objects) (xb : x ∈ b.objects) : Race tr := by
  obtain ⟨i, hi⟩ := List.mem_iff_getElem?.mp ha
  obtain ⟨j, hj⟩ := List.mem_iff_getElem?.mp hb
  rcases Nat.lt_trichotomy i j with c | c | c
  · refine ⟨i, j, s, t, a, b, x, c, ne, hi, hj, xa, xb, fun d => ?_⟩
    obtain ⟨e, he⟩ := (Before.same f d).1 ⟨_, hi⟩
    rw [hj] at he
    cases he
    exact ne rfl
  · subst c
    rw [hi] at hj
    cases hj
    exact absurd rfl ne
  · refine ⟨j, i, t, s, b, a, x, c, Ne.symm ne, hj, hi, xb, xa, fun d => ?_⟩
    obtain ⟨e, he⟩ := (Before.same f d).2 ⟨_, hi⟩
    rw [hj] at he
    cases he
    exact ne rfl

/-! ## With a mutex -/

/-- As `Guarded`, for steps. -/
def Held (m : Nat) : Bool → List Ev → Prop
  | _, [] => True
  | f, .op _ :: es => f = true ∧ Held m f es
  | f, .lock n :: es => Held m (if n = m then true else f) es
  | f, .unlock n :: es => Held m (if n = m then false else f) es

theorem Held.ops {m : Nat} {f : Bool} {es : List Ev} (os : List Op) (hf : f = true) (h : Held m f es) : Held m f (os.map .op ++ es) := by
  induction os with
  | nil => exact h
  | cons o os ih => exact ⟨hf, ih⟩

theorem Held.steps {m : Nat} {f : Bool} {as : List Act} (g : Guarded m f as) : Held m f (steps as) := by
  induction as generalizing f with
  | nil => trivial
  | cons a as ih =>
    cases a with
    | call c => exact Held.ops c.ops g.1 (ih g.2)
    | lock n => exact ih g
    | unlock n => exact ih g

/-- Each thread has the mutex `m` where it uses a stream. -/
def Good (m : Nat) (rem : Nat → List Ev) (h : Holders) : Prop := ∀ t, Held m (decide (h m = some t)) (rem t)

theorem Good.step {m rem h t e es} (g : Good m rem h) (hr : rem t = e :: es) (c : e.Can h t) :
    Good m (fun u => if u = t then es else rem u) (e.after h t) := by
  intro u
  have gu := g u
  by_cases ut : u = t
  · subst ut
    rw [hr] at gu
    simp only [if_true]
    cases e with
    | op o => exact gu.2
    | lock n =>
      have gu : Held m (if n = m then true else decide (h m = some u)) es := gu
      simp only [Ev.after]
      by_cases nm : n = m
      · subst nm; simpa using gu
      · simpa [nm, Ne.symm nm] using gu
    | unlock n =>
      have gu : Held m (if n = m then false else decide (h m = some u)) es := gu
      simp only [Ev.after]
      by_cases nm : n = m
      · subst nm; simpa using gu
      · simpa [nm, Ne.symm nm] using gu
  · simp only [ut, if_false]
    have : decide (e.after h t m = some u) = decide (h m = some u) := by
      cases e with
      | op o => rfl
      | lock n =>
        simp only [Ev.after]
        by_cases nm : m = n
        · subst nm
          have c : h m = none := c
          simp [c, Ne.symm ut]
        · simp [nm]
      | unlock n =>
        simp only [Ev.after]
        by_cases nm : m = n
        · subst nm
          have c : h m = some t := c
          simp [c, Ne.symm ut]
        · simp [nm]
    rw [this]
    exact gu

theorem Good.holds {m rem h t o es} (g : Good m rem h) (hr : rem t = .op o :: es) : h m = some t := by
  have := g t
  rw [hr] at this
  simpa using this.1

theorem lock_first {m rem h tr} (r : Runs rem h tr) (g : Good m rem h) {j t : Nat} {o : Op} (n : h m ≠ some t)
    (hj : tr[j]? = some (t, .op o)) : ∃ l < j, tr[l]? = some (t, .lock m) := by
  induction r generalizing j with
  | done => simp at hj
  | @step rem h u e es tr hr c r ih =>
    cases j with
    | zero =>
      simp only [List.getElem?_cons_zero, Option.some.injEq, Prod.mk.injEq] at hj
      obtain ⟨rfl, rfl⟩ := hj
      exact absurd (g.holds hr) n
    | succ j =>
      rw [List.getElem?_cons_succ] at hj
      by_cases now : e.after h u m = some t
      · refine ⟨0, by omega, ?_⟩
        cases e with
        | op o => exact absurd now n
        | lock k =>
          simp only [Ev.after] at now
          by_cases km : m = k
          · subst km
            simp only [if_true, Option.some.injEq] at now
            subst now
            rfl
          · rw [if_neg km] at now; exact absurd now n
        | unlock k =>
          simp only [Ev.after] at now
          by_cases km : m = k
          · simp [km] at now
          · rw [if_neg km] at now; exact absurd now n
      · obtain ⟨l, hl, el⟩ := ih (g.step hr c) now hj
        exact ⟨l + 1, by omega, by rw [List.getElem?_cons_succ]; exact el⟩

theorem unlock_first {m rem h tr} (r : Runs rem h tr) (g : Good m rem h) {j s t : Nat} {o : Op} (n : h m = some s) (ne : s ≠ t)
    (hj : tr[j]? = some (t, .op o)) : ∃ u l, u < l ∧ l < j ∧ tr[u]? = some (s, .unlock m) ∧ tr[l]? = some (t, .lock m) := by
  induction r generalizing j with
  | done => simp at hj
  | @step rem h v e es tr hr c r ih =>
    cases j with
    | zero =>
      simp only [List.getElem?_cons_zero, Option.some.injEq, Prod.mk.injEq] at hj
      obtain ⟨rfl, rfl⟩ := hj
      rw [g.holds hr] at n
      cases n
      exact absurd rfl ne
    | succ j =>
      rw [List.getElem?_cons_succ] at hj
      by_cases now : e.after h v m = some s
      · obtain ⟨u, l, ul, lj, eu, el⟩ := ih (g.step hr c) now hj
        exact ⟨u + 1, l + 1, by omega, by omega, by rw [List.getElem?_cons_succ]; exact eu, by rw [List.getElem?_cons_succ]; exact el⟩
      · have : e = .unlock m ∧ v = s := by
          cases e with
          | op o => exact absurd n now
          | lock k =>
            simp only [Ev.after] at now
            by_cases km : m = k
            · subst km
              have c : h m = none := c
              rw [n] at c
              cases c
            · rw [if_neg km] at now; exact absurd n now
          | unlock k =>
            simp only [Ev.after] at now
            by_cases km : m = k
            · subst km
              have c : h m = some v := c
              rw [n] at c
              cases c
              exact ⟨rfl, rfl⟩
            · rw [if_neg km] at now; exact absurd n now
        obtain ⟨rfl, rfl⟩ := this
        have n2 : Ev.after h v (.unlock m) m ≠ some t := by simp [Ev.after]
        obtain ⟨l, lj, el⟩ := lock_first r (g.step hr c) n2 hj
        exact ⟨0, l + 1, by omega, by omega, rfl, by rw [List.getElem?_cons_succ]; exact el⟩

/-- Where the mutex is held for every use of a stream, the uses in different threads are ordered. -/
theorem ordered {m rem h tr} (r : Runs rem h tr) (g : Good m rem h) {i j s t : Nat} {a b : Op} (ij : i < j) (ne : s ≠ t)
    (hi : tr[i]? = some (s, .op a)) (hj : tr[j]? = some (t, .op b)) :
    ∃ u l, i < u ∧ u < l ∧ l < j ∧ tr[u]? = some (s, .unlock m) ∧ tr[l]? = some (t, .lock m) := by
  induction r generalizing i j with
  | done => simp at hi
  | @step rem h v e es tr hr c r ih =>
    obtain ⟨j, rfl⟩ : ∃ k, j = k + 1 := ⟨j - 1, by omega⟩
    rw [List.getElem?_cons_succ] at hj
    cases i with
    | zero =>
      simp only [List.getElem?_cons_zero, Option.some.injEq, Prod.mk.injEq] at hi
      obtain ⟨rfl, rfl⟩ := hi
      obtain ⟨u, l, ul, lj, eu, el⟩ := unlock_first r (g.step hr c) (g.holds hr) ne hj
      exact ⟨u + 1, l + 1, by omega, by omega, by omega, by rw [List.getElem?_cons_succ]; exact eu, by rw [List.getElem?_cons_succ]; exact el⟩
    | succ i =>
      rw [List.getElem?_cons_succ] at hi
      obtain ⟨u, l, iu, ul, lj, eu, el⟩ := ih (g.step hr c) (by omega) hi hj
      exact ⟨u + 1, l + 1, by omega, by omega, by omega, by rw [List.getElem?_cons_succ]; exact eu, by rw [List.getElem?_cons_succ]; exact el⟩

theorem no_race {m rem h tr} (r : Runs rem h tr) (g : Good m rem h) : ¬ Race tr := by
  rintro ⟨i, j, s, t, a, b, x, ij, ne, hi, hj, _, _, nb⟩
  obtain ⟨u, l, iu, ul, lj, eu, el⟩ := ordered r g ij ne hi hj
  exact nb (((Before.order iu hi eu).trans (.mutex ul eu el)).trans (.order lj el hj))

/-! ## The calls are in order -/

/-- The operations of a trace. -/
def opsOf : List (Nat × Ev) → List Op
  | [] => []
  | (_, .op o) :: tr => o :: opsOf tr
  | _ :: tr => opsOf tr

theorem calls_in_order {m rem h tr} (r : Runs rem h tr) (ps : Nat → List Act) (part : Nat → List Op)
    (er : ∀ t, rem t = (part t).map .op ++ steps (ps t)) (g : ∀ t, Guarded m (decide (h m = some t)) (ps t))
    (hp : ∀ t, part t ≠ [] → h m = some t) :
    ∃ order, CallOrder ps order ∧ opsOf tr = ((h m).map part).getD [] ++ order.flatMap fun c => c.2.ops := by
  induction r generalizing ps part with
  | @done rem h e =>
    have none : ∀ t, ps t = [] := by
      intro t
      have := er t
      rw [e t] at this
      have := (List.append_eq_nil_iff.mp this.symm).2
      cases hps : ps t with
      | nil => rfl
      | cons a as =>
        rw [hps] at this
        cases a with
        | call c => obtain ⟨o, os, ho⟩ := ops_ne c; simp [steps, ho] at this
        | lock | unlock => simp [steps] at this
    have np : ∀ t, part t = [] := by
      intro t
      have := er t
      rw [e t] at this
      simpa using (List.append_eq_nil_iff.mp this.symm).1
    refine ⟨[], fun t => by simp [none t, callsOf], ?_⟩
    cases h m <;> simp [opsOf, np]
  | @step rem h t e es tr hr c r ih =>
    have ert := er t
    rw [hr] at ert
    -- the steps of the other threads
    have others : ∀ {part' : Nat → List Op} {ps' : Nat → List Act}, (∀ u, u ≠ t → part' u = part u) → (∀ u, u ≠ t → ps' u = ps u) →
        es = (part' t).map .op ++ steps (ps' t) →
        ∀ u, (if u = t then es else rem u) = (part' u).map .op ++ steps (ps' u) := by
      intro part' ps' h1 h2 h3 u
      by_cases ut : u = t
      · subst ut; simpa using h3
      · simp [ut, h1 u ut, h2 u ut, er u]
    -- what other threads hold does not change
    have same : ∀ u, u ≠ t → decide (e.after h t m = some u) = decide (h m = some u) := by
      intro u ut
      cases e with
      | op o => rfl
      | lock n =>
        simp only [Ev.after]
        by_cases nm : m = n
        · subst nm
          have c : h m = none := c
          simp [c, Ne.symm ut]
        · simp [nm]
      | unlock n =>
        simp only [Ev.after]
        by_cases nm : m = n
        · subst nm
          have c : h m = some t := c
          simp [c, Ne.symm ut]
        · simp [nm]
    have same' : ∀ u, u ≠ t → (e.after h t m = some u ↔ h m = some u) := fun u ut => by simpa using same u ut
    cases hpt : part t with
    | cons o os =>
      rw [hpt, List.map_cons, List.cons_append] at ert
      cases ert
      have ht := hp t (by simp [hpt])
      obtain ⟨order, sh, eo⟩ := ih ps (fun u => if u = t then os else part u) (others (fun u ut => by simp [ut]) (fun _ _ => rfl) (by simp))
        g (fun u hu => by
          by_cases ut : u = t
          · subst ut; exact ht
          · simp only [ut, if_false] at hu; exact hp u hu)
      refine ⟨order, sh, ?_⟩
      have eo : opsOf tr = os ++ order.flatMap fun c => c.2.ops := by
        have : Ev.after h t (.op o) m = some t := ht
        rw [this] at eo
        simpa using eo
      simp only [opsOf, eo, ht, Option.map_some, Option.getD_some, hpt, List.cons_append]
    | nil =>
      rw [hpt, List.map_nil, List.nil_append] at ert
      have gt := g t
      cases hps : ps t with
      | nil => rw [hps] at ert; cases ert
      | cons a as =>
        rw [hps] at ert gt
        cases a with
        | call cl =>
          obtain ⟨o, os, ho⟩ := ops_ne cl
          rw [steps, ho, List.map_cons, List.cons_append] at ert
          cases ert
          have ht : h m = some t := by simpa using gt.1
          obtain ⟨order, sh, eo⟩ := ih (fun u => if u = t then as else ps u) (fun u => if u = t then os else part u)
            (others (fun u ut => by simp [ut]) (fun u ut => by simp [ut]) (by simp))
            (fun u => by
              by_cases ut : u = t
              · subst ut
                show Guarded m (decide (h m = some u)) (if u = u then as else ps u)
                rw [if_pos rfl]
                exact gt.2
              · show Guarded m (decide (h m = some u)) (if u = t then as else ps u)
                rw [if_neg ut]
                exact g u)
            (fun u hu => by
              by_cases ut : u = t
              · subst ut; exact ht
              · simp only [ut, if_false] at hu; exact hp u hu)
          refine ⟨(t, cl) :: order, ?_, ?_⟩
          · intro u
            have := sh u
            by_cases ut : u = t
            · subst ut
              simp only [if_true] at this
              simp [this, hps, callsOf]
            · simp only [ut, if_false] at this
              simp [Ne.symm ut, this]
          · have eo : opsOf tr = os ++ order.flatMap fun c => c.2.ops := by
              have : Ev.after h t (.op o) m = some t := ht
              rw [this] at eo
              simpa using eo
            simp [opsOf, eo, ht, hpt, ho]
        | lock n =>
          rw [steps] at ert
          cases ert
          obtain ⟨order, sh, eo⟩ := ih (fun u => if u = t then as else ps u) part
            (others (fun _ _ => rfl) (fun u ut => by simp [ut]) (by simp [hpt]))
            (fun u => by
              by_cases ut : u = t
              · subst ut
                have gt : Guarded m (if n = m then true else decide (h m = some u)) as := gt
                by_cases nm : n = m
                · subst nm; simpa [Ev.after] using gt
                · simpa [Ev.after, nm, Ne.symm nm] using gt
              · rw [same u ut]; simpa [ut] using g u)
            (fun u hu => by
              by_cases ut : u = t
              · subst ut; exact absurd hpt hu
              · exact (same' u ut).mpr (hp u hu))
          refine ⟨order, ?_, ?_⟩
          · intro u
            have := sh u
            by_cases ut : u = t
            · subst ut
              simp only [if_true] at this
              simp [this, hps, callsOf]
            · simp only [ut, if_false] at this
              exact this
          · simp only [opsOf]
            rw [eo]
            congr 1
            simp only [Ev.after]
            by_cases nm : m = n
            · subst nm
              have c : h m = none := c
              simp [c, hpt]
            · simp [nm]
        | unlock n =>
          rw [steps] at ert
          cases ert
          obtain ⟨order, sh, eo⟩ := ih (fun u => if u = t then as else ps u) part
            (others (fun _ _ => rfl) (fun u ut => by simp [ut]) (by simp [hpt]))
            (fun u => by
              by_cases ut : u = t
              · subst ut
                have gt : Guarded m (if n = m then false else decide (h m = some u)) as := gt
                by_cases nm : n = m
                · subst nm; simpa [Ev.after] using gt
                · simpa [Ev.after, nm, Ne.symm nm] using gt
              · rw [same u ut]; simpa [ut] using g u)
            (fun u hu => by
              by_cases ut : u = t
              · subst ut; exact absurd hpt hu
              · exact (same' u ut).mpr (hp u hu))
          refine ⟨order, ?_, ?_⟩
          · intro u
            have := sh u
            by_cases ut : u = t
            · subst ut
              simp only [if_true] at this
              simp [this, hps, callsOf]
            · simp only [ut, if_false] at this
              exact this
          · simp only [opsOf]
            rw [eo]
            congr 1
            simp only [Ev.after]
            by_cases nm : m = n
            · subst nm
              have c : h m = some t := c
              simp [c, hpt]
            · simp [nm]

/-- What operations write. -/
def textOps (s : Sink) : List Op → List UInt8
  | [] => []
  | .insert s' b :: os => if s' = s then b ++ textOps s os else textOps s os
  | _ :: os => textOps s os

theorem textOps_append (s : Sink) (a b : List Op) : textOps s (a ++ b) = textOps s a ++ textOps s b := by
  induction a with
  | nil => rfl
  | cons o a ih =>
    cases o with
    | insert s' t =>
      simp only [List.cons_append, textOps]
      split <;> simp [ih]
    | _ => exact ih

theorem textOps_call (s : Sink) (c : Call) : textOps s c.ops = callText s c := by
  cases c with
  | readLine m =>
    by_cases h : m = []
    · subst h; simp [Call.ops, textOps, callText, Str.str]
    · cases s <;> simp [Call.ops, textOps, callText, h]
  | _ => simp only [Call.ops, textOps, callText]; split <;> simp

theorem written_ops (s : Sink) (tr : List (Nat × Ev)) : written s tr = textOps s (opsOf tr) := by
  induction tr with
  | nil => rfl
  | cons x tr ih =>
    obtain ⟨t, e⟩ := x
    cases e with
    | op o =>
      cases o with
      | insert s' b => simp only [written, opsOf, textOps, ih]
      | _ => simp only [written, opsOf, textOps, ih]
    | _ => simp only [written, opsOf, ih]

theorem textOps_flatMap (s : Sink) (l : List (Nat × Call)) :
    textOps s (l.flatMap fun c => c.2.ops) = l.flatMap fun c => callText s c.2 := by
  induction l with
  | nil => rfl
  | cons c l ih => rw [List.flatMap_cons, List.flatMap_cons, textOps_append, textOps_call, ih]

end Caitlyn.ConsoleThreads
