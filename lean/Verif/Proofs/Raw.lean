import Verif.Proofs.Unique

/-! # `Ptr` histories -/

namespace Caitlyn.Raw
open Caitlyn.Spec Vars

structure Inv (w : World) (s : RawState) : Prop where
  heap : w.heap.Wf
  next : w.heap.next = s.next
  dead : w.heap.dead = s.deleted
  ptr : ∀ x, w.vars.lookup x = s.ptr x
  bound : ∀ x id, s.ptr x = some (some id) → id < s.next

theorem Inv.init : Inv {} {} :=
  ⟨Heap.Wf.init, rfl, rfl, fun _ => rfl, by intro x id h; cases h⟩

/-- What is not deleted is alive. -/
theorem Inv.live {w : World} {s : RawState} (h : Inv w s) {x id : Nat} (hx : s.ptr x = some (some id))
    (hd : ¬ s.dangling x) : 1 ≤ w.heap.live.count id := by
  have h1 := h.heap id
  have h2 := h.bound x id hx
  rw [decide_eq_true (by rw [h.next]; exact h2), h.dead] at h1
  have h3 : s.deleted.count id = 0 := List.count_eq_zero.2 fun hm => hd ⟨id, hx, hm⟩
  simp at h1
  omega

theorem Inv.dead' {w : World} {s : RawState} (h : Inv w s) {x : Nat} (hd : s.dangling x) :
    ∃ id, w.vars.lookup x = some (some id) ∧ id ∉ w.heap.live := by
  obtain ⟨id, h1, h2⟩ := hd
  refine ⟨id, by rw [h.ptr]; exact h1, fun hl => ?_⟩
  have h3 := h.heap id
  have h4 := List.count_pos_iff.2 hl
  have h5 := List.count_pos_iff.2 h2
  rw [h.dead] at h3
  have : b2n (decide (id < w.heap.next)) ≤ 1 := by unfold b2n; split <;> omega
  omega

theorem Inv.put {w : World} {s : RawState} (h : Inv w s) {v : Vars (Option Nat)} {x : Nat} {a : Option (Option Nat)}
    (hv : ∀ y, v.lookup y = upd s.ptr x a y) (ha : ∀ id, a = some (some id) → id < s.next) :
    Inv { w with vars := v } (s.put x a) := by
  refine ⟨h.heap, h.next, h.dead, hv, fun y id hy => ?_⟩
  simp only [RawState.put, upd] at hy
  split at hy
  · exact ha id hy
  · exact h.bound y id hy

theorem Inv.fresh {w : World} {s : RawState} (h : Inv w s) {v : Vars (Option Nat)} {x : Nat}
    (hv : ∀ y, v.lookup y = upd s.ptr x (some (some s.next)) y) :
    Inv { heap := w.heap.new.1, vars := v } (s.fresh x) := by
  refine ⟨h.heap.new, congrArg (· + 1) h.next, h.dead, hv, fun y id hy => ?_⟩
  simp only [RawState.fresh, upd] at hy ⊢
  split at hy
  · cases hy; omega
  · have := h.bound y id hy; omega

/-- `delete` of the pointee of `x`. -/
theorem Inv.delete {w : World} {s : RawState} (h : Inv w s) {x : Nat} {d : Option Nat} (hx : w.vars.lookup x = some d)
    (hd : ¬ s.dangling x) : ∃ h', w.heap.delete d = .ok h' ∧ Inv { w with heap := h' } (s.delete x) := by
  have hx' := hx
  rw [h.ptr] at hx'
  cases d with
  | none =>
    refine ⟨w.heap, rfl, ?_⟩
    have : s.delete x = s := by unfold RawState.delete; rw [hx']
    rw [this]; exact h
  | some id =>
    have hl := h.live hx' hd
    refine ⟨_, Heap.delete_some hl, ?_⟩
    have : s.delete x = { s with deleted := id :: s.deleted } := by unfold RawState.delete; rw [hx']
    rw [this]
    exact ⟨h.heap.delete hl, h.next, by rw [← h.dead], h.ptr, h.bound⟩

theorem delete_ptr (s : RawState) (x : Nat) : (s.delete x).ptr = s.ptr ∧ (s.delete x).next = s.next := by
  unfold RawState.delete
  split <;> exact ⟨rfl, rfl⟩

theorem set_upd {v : Vars (Option Nat)} {f : Nat → Option (Option Nat)} (hf : ∀ x, v.lookup x = f x) {x : Nat}
    {old a : Option Nat} (hx : v.lookup x = some old) (y : Nat) :
    List.lookup y (v.set x a) = upd f x (some a) y := by
  rw [lookup_set, hx, upd, hf]
  rfl

theorem not_dangling_empty {s : RawState} {x : Nat} (h : s.ptr x = none) : ¬ s.dangling x := by
  rintro ⟨id, h1, _⟩
  rw [h] at h1; cases h1

theorem Inv.step {w : World} {s : RawState} (h : Inv w s) (op : Op) :
    match rawStep s op with
    | some s' => ∃ w', step w op = .ok w' ∧ Inv w' s'
    | none => step w op = .error .ub := by
  have dead_delete : ∀ {x : Nat} {d : Option Nat}, w.vars.lookup x = some d → s.dangling x →
      w.heap.delete d = .error .ub := by
    intro x d hx hd
    obtain ⟨id, h1, h2⟩ := h.dead' hd
    rw [hx] at h1
    injection h1 with h1
    subst h1
    simp only [Heap.delete, h2, if_false]
  cases op with
  | make x =>
    simp only [rawStep, Raw.step]
    cases hx : w.vars.lookup x with
    | some d => rw [← h.ptr, hx]; exact ⟨w, rfl, h⟩
    | none =>
      rw [← h.ptr, hx]
      refine ⟨_, rfl, h.fresh fun y => ?_⟩
      rw [lookup_cons', upd, h.ptr, ← h.next]
      rfl
  | makeEmpty x =>
    simp only [rawStep, Raw.step]
    cases hx : w.vars.lookup x with
    | some d => rw [← h.ptr, hx]; exact ⟨w, rfl, h⟩
    | none =>
      rw [← h.ptr, hx]
      refine ⟨_, rfl, h.put (fun y => ?_) (by simp)⟩
      rw [lookup_cons', upd, h.ptr]
  | copy x y =>
    simp only [rawStep, Raw.step]
    cases hx : w.vars.lookup x with
    | some d => rw [← h.ptr x, hx]; exact ⟨w, rfl, h⟩
    | none =>
      rw [← h.ptr x, hx]
      cases hy : w.vars.lookup y with
      | none =>
        refine ⟨w, rfl, ?_⟩
        rw [← h.ptr y, hy]
        refine h.put (v := w.vars) (fun z => ?_) (by simp)
        rw [upd, ← h.ptr z]
        split
        · rename_i hz; rw [hz, hx]
        · rfl
      | some d =>
        rw [← h.ptr y, hy]
        refine ⟨_, rfl, h.put (fun z => ?_) (fun id hid => h.bound y id (by rw [← h.ptr, hy, hid]))⟩
        rw [lookup_cons', upd, h.ptr]
  | assign x y =>
    simp only [rawStep, Raw.step]
    cases hx : w.vars.lookup x with
    | none => rw [← h.ptr x, hx]; exact ⟨w, rfl, by simpa using h⟩
    | some dx =>
      cases hy : w.vars.lookup y with
      | none => rw [← h.ptr y, hy]; exact ⟨w, rfl, by simpa using h⟩
      | some d =>
        rw [← h.ptr x, ← h.ptr y, hx, hy]
        exact ⟨_, rfl, h.put (fun z => set_upd h.ptr hx z) (fun id hid => h.bound y id (by rw [← h.ptr, hy, hid]))⟩
  | assignNew x =>
    simp only [rawStep, Raw.step]
    cases hx : w.vars.lookup x with
    | none => rw [← h.ptr x, hx]; exact ⟨w, rfl, by simpa using h⟩
    | some dx =>
      rw [← h.ptr x, hx]
      refine ⟨_, rfl, h.fresh fun z => ?_⟩
      rw [← h.next]
      exact set_upd h.ptr hx z
  | reset x =>
    simp only [rawStep, Raw.step]
    cases hx : w.vars.lookup x with
    | none =>
      rw [if_neg (not_dangling_empty (by rw [← h.ptr, hx]))]
      rw [← h.ptr x, hx]; exact ⟨w, rfl, by simpa using h⟩
    | some d =>
      by_cases hd : s.dangling x
      · rw [if_pos hd]
        simp only [Raw.reset, dead_delete hx hd]
        rfl
      · rw [if_neg hd, if_pos (by rw [← h.ptr, hx]; simp)]
        obtain ⟨h', h1, h2⟩ := h.delete hx hd
        simp only [Raw.reset, h1]
        exact ⟨_, rfl, h2.put (fun z => set_upd h2.ptr hx z) (by simp)⟩
  | resetNew x =>
    simp only [rawStep, Raw.step]
    cases hx : w.vars.lookup x with
    | none =>
      rw [if_neg (not_dangling_empty (by rw [← h.ptr, hx]))]
      rw [← h.ptr x, hx]; exact ⟨w, rfl, by simpa using h⟩
    | some d =>
      have hlt : ∀ id, d = some id → id < w.heap.next := by
        intro id hid
        rw [h.next]
        exact h.bound x id (by rw [← h.ptr, hx, hid])
      by_cases hd : s.dangling x
      · rw [if_pos hd]
        obtain ⟨id, h1, h2⟩ := h.dead' hd
        rw [hx] at h1
        injection h1 with h1
        subst h1
        have h3 : id ∉ w.heap.new.1.live := by
          have := hlt id rfl
          simp only [Heap.new, List.mem_cons, not_or]
          exact ⟨by omega, h2⟩
        simp only [Raw.reset, Heap.delete, h3, if_false]
        rfl
      · rw [if_neg hd, if_pos (by rw [← h.ptr, hx]; simp)]
        obtain ⟨h', h1, h2⟩ := h.delete hx hd
        have h3 : w.heap.new.1.delete d = .ok h'.new.1 ∧ h'.next = w.heap.next := by
          cases d with
          | none =>
            have : w.heap = h' := by injection h1
            rw [this]; exact ⟨rfl, rfl⟩
          | some id =>
            have hl := h.live (x := x) (by rw [← h.ptr, hx]) hd
            rw [Heap.delete_some hl] at h1
            injection h1 with h1
            rw [Heap.delete_some (Unique.delete_new h.heap hl), ← h1]
            have := hlt id rfl
            refine ⟨?_, rfl⟩
            simp only [Heap.new, Except.ok.injEq, Heap.mk.injEq, and_true, true_and]
            rw [List.erase_cons_tail]
            simp
            omega
        simp only [Raw.reset, h3.1]
        refine ⟨_, rfl, h2.fresh fun z => ?_⟩
        rw [← h2.next]
        change List.lookup z (w.vars.set x (some w.heap.next)) = _
        rw [← h3.2]
        exact set_upd h2.ptr hx z
  | resetSelf x =>
    simp only [rawStep, Raw.step]
    cases hx : w.vars.lookup x with
    | none =>
      rw [if_neg (not_dangling_empty (by rw [← h.ptr, hx]))]
      refine ⟨w, rfl, ?_⟩
      have : s.delete x = s := by unfold RawState.delete; rw [← h.ptr, hx]
      rw [this]; exact h
    | some d =>
      by_cases hd : s.dangling x
      · rw [if_pos hd]
        simp only [Raw.reset, dead_delete hx hd]
        rfl
      · rw [if_neg hd]
        obtain ⟨h', h1, h2⟩ := h.delete hx hd
        simp only [Raw.reset, h1]
        refine ⟨_, rfl, h2.heap, h2.next, h2.dead, fun z => ?_, h2.bound⟩
        rw [lookup_set, ← h2.ptr, hx]
        split
        · rename_i hz; rw [hz, hx]; rfl
        · rfl
  | destroyCall x =>
    simp only [rawStep, Raw.step]
    cases hx : w.vars.lookup x with
    | none =>
      rw [if_neg (not_dangling_empty (by rw [← h.ptr, hx]))]
      rw [← h.ptr x, hx]; exact ⟨w, rfl, by simpa using h⟩
    | some d =>
      by_cases hd : s.dangling x
      · rw [if_pos hd]
        simp only [dead_delete hx hd]
        rfl
      · rw [if_neg hd, if_pos (by rw [← h.ptr, hx]; simp)]
        obtain ⟨h', h1, h2⟩ := h.delete hx hd
        simp only [h1]
        exact ⟨_, rfl, h2.put (fun z => set_upd h2.ptr hx z) (by simp)⟩
  | deref x =>
    simp only [rawStep, Raw.step]
    cases hx : w.vars.lookup x with
    | none =>
      rw [if_neg (not_dangling_empty (by rw [← h.ptr, hx]))]
      exact ⟨w, rfl, h⟩
    | some d =>
      by_cases hd : s.dangling x
      · rw [if_pos hd]
        obtain ⟨id, h1, h2⟩ := h.dead' hd
        rw [hx] at h1
        injection h1 with h1
        subst h1
        simp only [Heap.deref, h2, if_false, caught]
      · rw [if_neg hd]
        refine ⟨w, ?_, h⟩
        cases d with
        | none => rfl
        | some id =>
          have hl := h.live (x := x) (by rw [← h.ptr, hx]) hd
          simp only [Heap.deref, List.count_pos_iff.1 hl, if_true, caught]
  | leave x =>
    simp only [rawStep, Raw.step]
    refine ⟨_, rfl, h.put (fun z => ?_) (by simp)⟩
    rw [lookup_drop, upd, h.ptr]

theorem Inv.run {w : World} {s : RawState} (h : Inv w s) (ops : List Op) :
    match rawRun s ops with
    | some s' => ∃ w', run w ops = .ok w' ∧ Inv w' s'
    | none => run w ops = .error .ub := by
  induction ops generalizing w s with
  | nil => exact ⟨w, rfl, h⟩
  | cons op ops ih =>
    have h1 := h.step op
    rw [rawRun, Raw.run]
    cases hs : rawStep s op with
    | none =>
      rw [hs] at h1
      simp only at h1
      rw [h1]
      rfl
    | some s' =>
      rw [hs] at h1
      obtain ⟨w', h2, h3⟩ := h1
      rw [h2]
      exact ih h3

/-- Statements that make no second pointer to an object. -/
def Op.single : Op → Prop
  | .copy _ _ | .assign _ _ | .resetSelf _ => False
  | _ => True

/-- No variable dangles and no two variables share. -/
def Clean (s : RawState) : Prop :=
  (∀ x, ¬ s.dangling x) ∧ (∀ x y id, s.ptr x = some (some id) → s.ptr y = some (some id) → x = y) ∧
  (∀ x id, s.ptr x = some (some id) → id < s.next) ∧ ∀ id ∈ s.deleted, id < s.next

theorem Clean.put {s : RawState} (h : Clean s) (x : Nat) (a : Option (Option Nat)) (ha : a = none ∨ a = some none) :
    Clean (s.put x a) := by
  obtain ⟨h1, h2, h3, h4⟩ := h
  have key : ∀ y id, (s.put x a).ptr y = some (some id) → s.ptr y = some (some id) := by
    intro y id hy
    simp only [RawState.put, upd] at hy
    split at hy
    · rcases ha with ha | ha <;> rw [ha] at hy <;> cases hy
    · exact hy
  refine ⟨?_, fun y z id hy hz => h2 y z id (key _ _ hy) (key _ _ hz), fun y id hy => h3 y id (key _ _ hy), h4⟩
  rintro y ⟨id, hy, hd⟩
  exact h1 y ⟨id, key _ _ hy, hd⟩

theorem Clean.fresh {s : RawState} (h : Clean s) (x : Nat) : Clean (s.fresh x) := by
  obtain ⟨h1, h2, h3, h4⟩ := h
  have key : ∀ y id, (s.fresh x).ptr y = some (some id) → (y = x ∧ id = s.next) ∨ s.ptr y = some (some id) := by
    intro y id hy
    simp only [RawState.fresh, upd] at hy
    split at hy
    · rename_i hyx; cases hy; exact .inl ⟨hyx, rfl⟩
    · exact .inr hy
  refine ⟨?_, ?_, ?_, ?_⟩
  · rintro y ⟨id, hy, hd⟩
    have h5 := h4 id hd
    rcases key y id hy with ⟨_, h6⟩ | h6
    · omega
    · exact h1 y ⟨id, h6, hd⟩
  · intro y z id hy hz
    rcases key y id hy with ⟨h6, h7⟩ | h6
    · rcases key z id hz with ⟨h8, _⟩ | h8
      · rw [h6, h8]
      · have := h3 z id h8; omega
    · rcases key z id hz with ⟨_, h8⟩ | h8
      · have := h3 y id h6; omega
      · exact h2 y z id h6 h8
  · intro y id hy
    change id < s.next + 1
    rcases key y id hy with ⟨_, h6⟩ | h6
    · omega
    · have := h3 y id h6; omega
  · intro id hid
    have := h4 id hid
    change id < s.next + 1
    omega

/-- Deleting the pointee of `x` and overwriting `x`. -/
theorem Clean.delete_put {s : RawState} (h : Clean s) (x : Nat) : Clean ((s.delete x).put x (some none)) := by
  obtain ⟨h1, h2, h3, h4⟩ := h
  have hp := delete_ptr s x
  have key : ∀ y id, ((s.delete x).put x (some none)).ptr y = some (some id) → y ≠ x ∧ s.ptr y = some (some id) := by
    intro y id hy
    simp only [RawState.put, upd] at hy
    split at hy
    · cases hy
    · rename_i hyx; rw [hp.1] at hy; exact ⟨hyx, hy⟩
  have del : ∀ id ∈ (s.delete x).deleted, s.ptr x = some (some id) ∨ id ∈ s.deleted := by
    intro id hid
    unfold RawState.delete at hid
    split at hid
    · rename_i i hi
      rcases List.mem_cons.1 hid with rfl | hid
      · exact .inl hi
      · exact .inr hid
    · exact .inr hid
  refine ⟨?_, fun y z id hy hz => h2 y z id (key _ _ hy).2 (key _ _ hz).2, ?_, ?_⟩
  · rintro y ⟨id, hy, hd⟩
    obtain ⟨h5, h6⟩ := key y id hy
    rcases del id hd with h7 | h7
    · exact h5 (h2 y x id h6 h7)
    · exact h1 y ⟨id, h6, h7⟩
  · intro y id hy
    change id < (s.delete x).next
    rw [hp.2]
    exact h3 y id (key y id hy).2
  · intro id hid
    change id < (s.delete x).next
    rw [hp.2]
    rcases del id hid with h7 | h7
    · exact h3 x id h7
    · exact h4 id h7

theorem Clean.step {s : RawState} (h : Clean s) (op : Op) (hop : op.single) : ∃ s', rawStep s op = some s' ∧ Clean s' := by
  have hd := h.1
  cases op with
  | make x =>
    refine ⟨_, rfl, ?_⟩
    split
    · exact h.fresh x
    · exact h
  | makeEmpty x =>
    refine ⟨_, rfl, ?_⟩
    split
    · exact h.put x _ (.inr rfl)
    · exact h
  | copy x y => exact hop.elim
  | assign x y => exact hop.elim
  | resetSelf x => exact hop.elim
  | assignNew x =>
    refine ⟨_, rfl, ?_⟩
    split
    · exact h.fresh x
    · exact h
  | reset x =>
    refine ⟨_, by rw [rawStep, if_neg (hd x)], ?_⟩
    split
    · exact h.delete_put x
    · exact h
  | resetNew x =>
    refine ⟨_, by rw [rawStep, if_neg (hd x)], ?_⟩
    split
    · have h1 := (h.delete_put x).fresh x
      have : ((s.delete x).put x (some none)).fresh x = (s.delete x).fresh x := by
        simp only [RawState.fresh, RawState.put, RawState.mk.injEq, true_and, and_true]
        funext y
        simp only [upd]
        split <;> rfl
      rw [← this]; exact h1
    · exact h
  | destroyCall x =>
    refine ⟨_, by rw [rawStep, if_neg (hd x)], ?_⟩
    split
    · exact h.delete_put x
    · exact h
  | deref x => exact ⟨_, by rw [rawStep, if_neg (hd x)], h⟩
  | leave x => exact ⟨_, rfl, h.put x _ (.inl rfl)⟩

theorem Clean.run {s : RawState} (h : Clean s) (ops : List Op) (hop : ∀ op ∈ ops, op.single) :
    ∃ s', rawRun s ops = some s' ∧ Clean s' := by
  induction ops generalizing s with
  | nil => exact ⟨s, rfl, h⟩
  | cons op ops ih =>
    obtain ⟨s1, h1, h2⟩ := h.step op (hop _ (by simp))
    rw [rawRun, h1]
    exact ih h2 (fun o ho => hop o (by simp [ho]))

theorem Clean.init : Clean {} := by
  refine ⟨?_, ?_, ?_, ?_⟩
  · rintro x ⟨id, h, _⟩; cases h
  · intro x y id h; cases h
  · intro x id h; cases h
  · intro id h; cases h

end Caitlyn.Raw
