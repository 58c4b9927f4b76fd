import Verif.Model.SharedThreads
import Verif.Props.Ptr

/-! # C104: `SharedPtr` in several threads -/

namespace Caitlyn
open Spec Shared

/-! ### Which variables exist and which are empty -/

/-- For each variable: does it exist, and does it own something? -/
abbrev Spec.Filled := Nat → Option Bool

/-- What an ownership map says about this. -/
def Spec.filled (s : Owners) : Filled := fun x => (s.own x).map Option.isSome

/-- What a statement does to it. -/
def Spec.fillStep (e : Filled) : Op → Filled
  | .make x => if e x = none then upd e x (some true) else e
  | .makeEmpty x => if e x = none then upd e x (some false) else e
  | .copy x y => if e x = none then upd e x (e y) else e
  | .move x y => if e x = none ∧ e y ≠ none then upd (upd e x (e y)) y (some false) else e
  | .assign x y => if e x ≠ none ∧ e y ≠ none then upd e x (e y) else e
  | .moveAssign x y => if e x ≠ none ∧ e y ≠ none ∧ x ≠ y then upd (upd e x (e y)) y (some false) else e
  | .reset x => if e x ≠ none then upd e x (some false) else e
  | .resetNew x => if e x ≠ none then upd e x (some true) else e
  | .deref _ => e
  | .destroy x => upd e x none

/-- The variables a statement mentions. -/
def Spec.mentions : Op → List Nat
  | .make x | .makeEmpty x | .reset x | .resetNew x | .deref x | .destroy x => [x]
  | .copy x y | .move x y | .assign x y | .moveAssign x y => [x, y]

theorem filled_none (s : Owners) (x : Nat) : filled s x = none ↔ s.own x = none := by simp [filled]

theorem filled_upd (o : Nat → Option (Option Nat)) (n x : Nat) (a : Option (Option Nat)) :
    filled ⟨n, upd o x a⟩ = upd (filled ⟨n, o⟩) x (a.map Option.isSome) := by
  funext z
  by_cases hz : z = x <;> simp [filled, upd, hz]

theorem filled_step (s : Owners) (op : Op) : filled (sharedStep s op) = fillStep (filled s) op := by
  obtain ⟨n, o⟩ := s
  have hn : ∀ n', filled ⟨n', o⟩ = filled ⟨n, o⟩ := fun _ => rfl
  have e : ∀ x, (filled ⟨n, o⟩ x = none) = (o x = none) := fun x => propext (filled_none ⟨n, o⟩ x)
  have ne : ∀ x, (filled ⟨n, o⟩ x ≠ none) = (o x ≠ none) := fun x => by rw [ne_eq, e]
  cases op <;> simp only [sharedStep, fillStep, Owners.fresh, Owners.put, e, ne] <;>
    (try split) <;> simp only [filled_upd, hn, Option.map_some, Option.isSome_some, Option.isSome_none, Option.map_none] <;>
    rfl

/-- Statements see and change only the variables they mention. -/
theorem fillStep_local (e e' : Filled) (op : Op) (p : Nat → Prop) (hm : ∀ x ∈ mentions op, p x)
    (h : ∀ x, p x → e x = e' x) : ∀ x, p x → fillStep e op x = fillStep e' op x := by
  have hu : ∀ (f f' : Filled) (k : Nat) (a : Option Bool), (∀ x, p x → f x = f' x) →
      ∀ x, p x → upd f k a x = upd f' k a x := by
    intro f f' k a hf x hx
    unfold upd
    split
    · rfl
    · exact hf x hx
  cases op <;> simp only [mentions, List.mem_cons, List.not_mem_nil, or_false, forall_eq_or_imp, forall_eq] at hm <;>
    simp only [fillStep]
  case make x => rw [← h x hm]; split <;> first | exact h | exact hu _ _ _ _ h
  case makeEmpty x => rw [← h x hm]; split <;> first | exact h | exact hu _ _ _ _ h
  case copy x y => rw [← h x hm.1, ← h y hm.2]; split <;> first | exact h | exact hu _ _ _ _ h
  case move x y => rw [← h x hm.1, ← h y hm.2]; split <;> first | exact h | exact hu _ _ _ _ (hu _ _ _ _ h)
  case assign x y => rw [← h x hm.1, ← h y hm.2]; split <;> first | exact h | exact hu _ _ _ _ h
  case moveAssign x y => rw [← h x hm.1, ← h y hm.2]; split <;> first | exact h | exact hu _ _ _ _ (hu _ _ _ _ h)
  case reset x => rw [← h x hm]; split <;> first | exact h | exact hu _ _ _ _ h
  case resetNew x => rw [← h x hm]; split <;> first | exact h | exact hu _ _ _ _ h
  case deref x => exact h
  case destroy x => exact hu _ _ _ _ h

theorem fillStep_other (e : Filled) (op : Op) (x : Nat) (hx : x ∉ mentions op) : fillStep e op x = e x := by
  have hu : ∀ (f : Filled) (k : Nat) (a : Option Bool), x ≠ k → upd f k a x = f x := by
    intro f k a hk
    simp [upd, hk]
  cases op <;> simp only [mentions, List.mem_cons, List.not_mem_nil, or_false, not_or] at hx <;>
    simp only [fillStep] <;> (try split) <;>
    first
    | rfl
    | exact hu _ _ _ hx
    | exact hu _ _ _ hx.1
    | (rw [hu _ _ _ hx.2, hu _ _ _ hx.1])

/-- The rest of a thread's program copies no empty pointer. -/
def Spec.NoEmptyFrom (e : Filled) : List Op → Prop
  | [] => True
  | op :: ops => (∀ x y, op = .copy x y → ¬ (e x = none ∧ e y = some false)) ∧ NoEmptyFrom (fillStep e op) ops

theorem noEmptyFrom_local (ops : List Op) (e e' : Filled) (p : Nat → Prop) (hm : ∀ op ∈ ops, ∀ x ∈ mentions op, p x)
    (h : ∀ x, p x → e x = e' x) (hn : NoEmptyFrom e ops) : NoEmptyFrom e' ops := by
  induction ops generalizing e e' with
  | nil => trivial
  | cons op ops ih =>
    refine ⟨fun x y ho => ?_, ih _ _ (fun op' ho => hm op' (by simp [ho]))
      (fillStep_local e e' op p (hm op (by simp)) h) hn.2⟩
    rw [← h y (hm op (by simp) y (by rw [ho]; simp [mentions])),
      ← h x (hm op (by simp) x (by rw [ho]; simp [mentions]))]
    exact hn.1 x y ho

theorem noEmptyFrom_of (pre ops : List Op) (h : NoEmptyCopies (pre ++ ops)) :
    NoEmptyFrom (filled (sharedRun pre)) ops := by
  induction ops generalizing pre with
  | nil => trivial
  | cons op ops ih =>
    have e : filled (sharedRun (pre ++ [op])) = fillStep (filled (sharedRun pre)) op := by
      rw [← filled_step]; simp [sharedRun]
    refine ⟨?_, ?_⟩
    · rintro x y rfl ⟨hx, hc⟩
      refine h pre x y (by simp) ⟨by simpa [filled] using hx, ?_⟩
      unfold filled at hc
      cases ho : (sharedRun pre).own y with
      | none => rw [ho] at hc; cases hc
      | some a =>
        rw [ho] at hc
        cases a with
        | none => rfl
        | some a => cases hc
    · rw [← e]
      exact ih (pre ++ [op]) (by simpa using h)

/-! ### The invariant of the threads -/

/-- The variables of thread `i` are those `x` with `owner x = i`. -/
def Spec.Disjoint (owner : Nat → Nat) (threads : List (List Op)) : Prop :=
  ∀ (i : Nat) (t : List Op), threads[i]? = some t → ∀ op ∈ t, ∀ x ∈ mentions op, owner x = i

namespace Threads

structure TInv (owner : Nat → Nat) (ends : Nat → Filled) (s : State) (o : Owners) : Prop where
  inv : Shared.Inv s.w o
  disj : Disjoint owner s.todo
  ok : ∀ (i : Nat) (t : List Op), s.todo[i]? = some t → NoEmptyFrom (filled o) t
  ends : ∀ (i : Nat) (t : List Op), s.todo[i]? = some t → ∀ x, owner x = i → t.foldl fillStep (filled o) x = ends i x

theorem fold_local (ops : List Op) (e e' : Filled) (p : Nat → Prop) (hm : ∀ op ∈ ops, ∀ x ∈ mentions op, p x)
    (h : ∀ x, p x → e x = e' x) : ∀ x, p x → ops.foldl fillStep e x = ops.foldl fillStep e' x := by
  induction ops generalizing e e' with
  | nil => exact h
  | cons op ops ih =>
    exact ih _ _ (fun op' ho => hm op' (by simp [ho])) (fillStep_local e e' op p (hm op (by simp)) h)

/-- A step is a statement of the sequential model, either the thread's next one or a `Reset` of its target. -/
theorem atom_cases {w : World} {o : Owners} (h : Shared.Inv w o) (op : Op) :
    (atom w op = (do return (← step w op, true))) ∨
      ∃ x y, op = .assign x y ∧ x ≠ y ∧ o.own x ≠ none ∧ o.own y ≠ none ∧
        atom w op = (do return (← step w (.reset x), false)) := by
  cases op with
  | assign x y =>
    cases hx : w.vars.lookup x with
    | none => left; simp only [atom, hx]
    | some px =>
      cases hy : w.vars.lookup y with
      | none => left; simp only [atom, hx, hy]
      | some py =>
        by_cases hc : x ≠ y ∧ px.data ≠ none
        · right
          refine ⟨x, y, rfl, hc.1, by rw [lookup_data h hx]; simp, by rw [lookup_data h hy]; simp, ?_⟩
          simp only [atom, hx, hy, if_pos hc, step, Shared.reset, if_pos hc.2]
          cases hr : release w.heap w.counters px with
          | error e => rfl
          | ok r => rfl
        · left
          simp only [atom, hx, hy, if_neg hc]
  | _ => left; rfl

theorem TInv.tick {owner : Nat → Nat} {ends : Nat → Filled} {s : State} {o : Owners} (h : TInv owner ends s o) (i : Nat)
    (hlen : s.w.vars.length + 1 < twoPow64) :
    ∃ s' o', Threads.tick s i = .ok s' ∧ TInv owner ends s' o' ∧ s'.w.vars.length ≤ s.w.vars.length + 1 := by
  unfold Threads.tick
  cases ht : s.todo[i]? with
  | none => exact ⟨s, o, rfl, h, by omega⟩
  | some t =>
    cases t with
    | nil => exact ⟨s, o, rfl, h, by omega⟩
    | cons op rest =>
      have hok := h.ok i _ ht
      have hown := h.disj i _ ht
      rcases atom_cases h.inv op with ha | ⟨x, y, rfl, hxy, hx, hy, ha⟩
      · have hop : Shared.NoEmptyCopy o op := by
          cases op with
          | copy x y =>
            rintro ⟨hx, hc⟩
            refine hok.1 x y rfl ?_
            simp [filled, hx, hc]
          | _ => trivial
        obtain ⟨w', h1, h2, h3⟩ := h.inv.step op hop hlen
        rw [h1] at ha
        refine ⟨⟨w', s.todo.set i rest⟩, sharedStep o op, ?_, ⟨h2, ?_, ?_, ?_⟩, h3⟩
        · simp only [ha]; rfl
        · intro j t hj
          by_cases hij : i = j
          · subst hij
            rw [List.getElem?_set_self (by
              have := List.getElem?_eq_some_iff.1 ht; exact this.1)] at hj
            injection hj with hj
            subst hj
            exact fun op' ho => hown op' (by simp [ho])
          · rw [List.getElem?_set_ne hij] at hj
            exact h.disj j t hj
        · intro j t hj
          rw [filled_step]
          by_cases hij : i = j
          · subst hij
            rw [List.getElem?_set_self (by
              have := List.getElem?_eq_some_iff.1 ht; exact this.1)] at hj
            injection hj with hj
            subst hj
            exact hok.2
          · rw [List.getElem?_set_ne hij] at hj
            refine noEmptyFrom_local t (filled o) _ (fun x => owner x = j) (h.disj j t hj) ?_ (h.ok j t hj)
            intro x hx
            rw [fillStep_other]
            intro hm
            exact hij ((hown op (by simp) x hm).symm.trans hx)
        · intro j t hj x hx
          rw [filled_step]
          by_cases hij : i = j
          · subst hij
            rw [List.getElem?_set_self (by
              have := List.getElem?_eq_some_iff.1 ht; exact this.1)] at hj
            injection hj with hj
            subst hj
            exact h.ends i _ ht x hx
          · rw [List.getElem?_set_ne hij] at hj
            rw [← h.ends j t hj x hx]
            symm
            refine fold_local t (filled o) _ (fun x => owner x = j) (h.disj j t hj) ?_ x hx
            intro x hx
            rw [fillStep_other]
            intro hm
            exact hij ((hown op (by simp) x hm).symm.trans hx)
      · obtain ⟨w', h1, h2, h3⟩ := h.inv.step (.reset x) trivial hlen
        rw [h1] at ha
        have hfx : filled o x ≠ none := by rw [ne_eq, filled_none]; exact hx
        have hfy : filled o y ≠ none := by rw [ne_eq, filled_none]; exact hy
        have hstep : fillStep (filled o) (.reset x) = upd (filled o) x (some false) := by
          simp only [fillStep, if_pos hfx]
        have hagain : fillStep (upd (filled o) x (some false)) (.assign x y) = fillStep (filled o) (.assign x y) := by
          have e1 : upd (filled o) x (some false) x ≠ none := by simp [upd]
          have e2 : upd (filled o) x (some false) y = filled o y := by simp [upd, Ne.symm hxy]
          simp only [fillStep, e2, if_pos (And.intro e1 hfy), if_pos (And.intro hfx hfy)]
          funext z
          unfold upd
          split <;> rfl
        have hxi : owner x = i := hown (.assign x y) (by simp) x (by simp [mentions])
        refine ⟨⟨w', s.todo⟩, sharedStep o (.reset x), ?_, ⟨h2, h.disj, ?_, ?_⟩, h3⟩
        · simp only [ha]; rfl
        · intro j t hj
          rw [filled_step, hstep]
          by_cases hij : i = j
          · subst hij
            rw [ht] at hj
            injection hj with hj
            subst hj
            exact ⟨by rintro _ _ ⟨⟩, by rw [hagain]; exact hok.2⟩
          · refine noEmptyFrom_local t (filled o) _ (fun x => owner x = j) (h.disj j t hj) ?_ (h.ok j t hj)
            intro z hz
            have : z ≠ x := fun hzx => hij (by rw [← hxi, ← hz, hzx])
            simp [upd, this]
        · intro j t hj z hz
          rw [filled_step, hstep]
          by_cases hij : i = j
          · subst hij
            rw [ht] at hj
            injection hj with hj
            subst hj
            rw [List.foldl_cons, hagain]
            exact h.ends i _ ht z hz
          · rw [← h.ends j t hj z hz]
            symm
            refine fold_local t (filled o) _ (fun x => owner x = j) (h.disj j t hj) ?_ z hz
            intro z hz
            have : z ≠ x := fun hzx => hij (by rw [← hxi, ← hz, hzx])
            simp [upd, this]

theorem TInv.run {owner : Nat → Nat} {ends : Nat → Filled} (sched : List Nat) : ∀ {s : State} {o : Owners},
    TInv owner ends s o → s.w.vars.length + sched.length < twoPow64 →
    ∃ s' o', Threads.run s sched = .ok s' ∧ TInv owner ends s' o' := by
  induction sched with
  | nil => intro s o h _; exact ⟨s, o, rfl, h⟩
  | cons i is ih =>
    intro s o h hlen
    rw [List.length_cons] at hlen
    obtain ⟨s1, o1, h1, h2, h3⟩ := h.tick i (by omega)
    obtain ⟨s2, o2, h4, h5⟩ := ih h2 (by omega)
    refine ⟨s2, o2, ?_, h5⟩
    rw [Threads.run, h1]
    exact h4

/-- The threads start after the statements `pre`. -/
theorem TInv.start {owner : Nat → Nat} {pre : List Op} {threads : List (List Op)} {w : World}
    (hw : Shared.Inv w (sharedRun pre)) (hd : Disjoint owner threads)
    (ht : ∀ t ∈ threads, NoEmptyCopies (pre ++ t)) :
    TInv owner (fun i => filled (sharedRun (pre ++ (threads[i]?).getD []))) ⟨w, threads⟩ (sharedRun pre) := by
  refine ⟨hw, hd, fun i t hi => noEmptyFrom_of pre t (ht t (List.mem_of_getElem? hi)), fun i t hi x _ => ?_⟩
  have hi : threads[i]? = some t := hi
  simp only [hi, Option.getD_some]
  have : ∀ (t pre : List Op), t.foldl fillStep (filled (sharedRun pre)) = filled (sharedRun (pre ++ t)) := by
    intro t
    induction t with
    | nil => intro pre; simp
    | cons op t ih =>
      intro pre
      rw [List.foldl_cons, ← filled_step, show sharedStep (sharedRun pre) op = sharedRun (pre ++ [op]) by simp [sharedRun],
        ih]
      simp
  rw [this]

end Threads

/-- C104: the main program runs `pre`; then any number of threads run, each on its own variables, interleaved in any way.
If every thread alone would copy-construct from no empty pointer, then nothing undefined happens; at every moment every
pointer's object is alive, every counter in use is the number of its owners, and nothing has been deleted. -/
theorem C104_threads (pre : List Op) (threads : List (List Op)) (owner : Nat → Nat) (sched : List Nat)
    (hd : Disjoint owner threads) (hp : NoEmptyCopies pre) (ht : ∀ t ∈ threads, NoEmptyCopies (pre ++ t))
    (hlen : pre.length + sched.length < twoPow64) :
    ∃ w s, Shared.run {} pre = .ok w ∧ Threads.run ⟨w, threads⟩ sched = .ok s ∧ s.w.heap.dead = [] ∧
      (∀ e ∈ s.w.vars, ∀ id, e.2.data = some id → s.w.heap.deref e.2.data = .ok id) ∧
      (∀ e ∈ s.w.vars, ∀ c, e.2.count = some c →
        s.w.counters[c]? = some (some (s.w.vars.filter fun e' => e'.2.count = some c).length)) := by
  obtain ⟨w, h1, h2, h3⟩ := shared_run pre hp (by omega)
  obtain ⟨s, o, h4, h5⟩ := (Threads.TInv.start h2 hd ht).run sched
    (by show w.vars.length + _ < _; omega)
  refine ⟨w, s, h1, h4, h5.inv.dead, fun e he id hid => ?_, fun e he c hc => ?_⟩
  · have h6 := h5.inv.data e he id hid
    have h7 := h5.inv.heap id
    rw [decide_eq_true h6, h5.inv.dead, b2n_true] at h7
    simp only [List.count_nil, Nat.add_zero] at h7
    rw [hid, Heap.deref, if_pos (List.count_pos_iff.1 (by omega))]
  · rw [h5.inv.counters c (h5.inv.cnt e he c hc), Vars.held, List.countP_eq_length_filter]
    congr 3
    apply List.filter_congr
    intro e' _
    unfold Shared.uses
    by_cases hu : e'.2.count = some c
    · simp [hu]
    · rw [decide_eq_false hu]; simpa using hu

/-- C104: threads do not disturb each other: when they have finished, a thread's variables exist and are empty exactly as
if it had run alone. -/
theorem C104_undisturbed (pre : List Op) (threads : List (List Op)) (owner : Nat → Nat) (sched : List Nat)
    (hd : Disjoint owner threads) (hp : NoEmptyCopies pre) (ht : ∀ t ∈ threads, NoEmptyCopies (pre ++ t))
    (hlen : pre.length + sched.length < twoPow64) (w : World) (s : Threads.State) (h1 : Shared.run {} pre = .ok w)
    (h4 : Threads.run ⟨w, threads⟩ sched = .ok s) (hdone : s.todo = threads.map fun _ => []) (i : Nat)
    (t : List Op) (hi : threads[i]? = some t) (x : Nat) (hx : owner x = i) :
    (s.w.vars.lookup x).map (·.data.isSome) = ((sharedRun (pre ++ t)).own x).map Option.isSome := by
  obtain ⟨w', g1, h2, h3⟩ := shared_run pre hp (by omega)
  rw [h1] at g1
  injection g1 with g1
  subst g1
  obtain ⟨s', o, g4, h5⟩ := (Threads.TInv.start h2 hd ht).run sched
    (by show w.vars.length + _ < _; omega)
  rw [h4] at g4
  injection g4 with g4
  subst g4
  have hn : s.todo[i]? = some [] := by
    rw [hdone, List.getElem?_map, hi]
    rfl
  have := h5.ends i [] hn x hx
  simp only [List.foldl_nil, hi, Option.getD_some] at this
  unfold filled at this
  rw [← this, ← h5.inv.own, Option.map_map]
  rfl

/-- C104 does not hold in full: when all threads and the main program have dropped their pointers, the object is still not
deleted. -/
theorem C104_fails_leak :
    ∃ w s, Shared.run {} [.make 0, .copy 1 0, .copy 2 0, .destroy 0] = .ok w ∧
      Threads.run ⟨w, [[.copy 3 1, .destroy 1, .destroy 3], [.destroy 2]]⟩ [0, 1, 0, 0] = .ok s ∧
      s.w.vars = [] ∧ s.todo = [[], []] ∧ s.w.heap.live = [0] ∧ s.w.heap.dead = [] :=
  ⟨_, _, rfl, rfl, rfl, rfl, rfl, rfl⟩

example : Disjoint (fun x => if x = 2 then 1 else 0) [[.copy 3 1, .assign 1 3, .destroy 1], [.destroy 2]] ∧
    ∃ w s, Shared.run {} [.make 0, .copy 1 0, .copy 2 0] = .ok w ∧
      Threads.run ⟨w, [[.copy 3 1, .assign 1 3, .destroy 1], [.destroy 2]]⟩ [0, 0, 1, 0] = .ok s ∧
      s.w.counters = [some 3] ∧ s.todo = [[.destroy 1], []] := by
  refine ⟨?_, _, _, rfl, rfl, rfl, rfl⟩
  intro i t hi op ho x hx
  match i, hi with
  | 0, hi =>
    injection hi with hi
    subst hi
    simp only [List.mem_cons, List.not_mem_nil, or_false] at ho
    rcases ho with rfl | rfl | rfl <;> simp [mentions] at hx <;> rcases hx with rfl | rfl <;> rfl
  | 1, hi =>
    injection hi with hi
    subst hi
    simp only [List.mem_cons, List.not_mem_nil, or_false] at ho
    subst ho
    simp [mentions] at hx
    subst hx
    rfl

end Caitlyn
