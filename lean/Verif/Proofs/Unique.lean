import Verif.Proofs.Assoc
import Verif.Spec.Ptr

/-! # `UniquePtr` histories -/

namespace Caitlyn.Unique
open Caitlyn.Spec Vars

/-- Variables owning `id`. -/
def holds (id : Nat) (d : Option Nat) : Bool := d == some id

structure Inv (w : World) (s : Owners) : Prop where
  keys : w.vars.Keys
  heap : w.heap.Wf
  held : ∀ id, w.heap.live.count id = held (holds id) w.vars
  next : w.heap.next = s.next
  own : ∀ x, w.vars.lookup x = s.own x

theorem Inv.init : Inv {} {} := ⟨by simp [Keys], Heap.Wf.init, fun _ => rfl, rfl, fun _ => rfl⟩

theorem Inv.live {w : World} {s : Owners} (h : Inv w s) {x id : Nat} (hx : w.vars.lookup x = some (some id)) :
    1 ≤ w.heap.live.count id := by
  rw [h.held]
  exact held_pos hx (by simp [holds])

/-- `delete` of what `x` owns. -/
theorem Inv.delete {w : World} {s : Owners} (h : Inv w s) {x : Nat} {d : Option Nat} (hx : w.vars.lookup x = some d) :
    ∃ h', w.heap.delete d = .ok h' ∧ h'.Wf ∧ h'.next = w.heap.next ∧
      ∀ id, h'.live.count id + b2n (holds id d) = w.heap.live.count id := by
  cases d with
  | none => exact ⟨w.heap, rfl, h.heap, rfl, fun id => by simp [holds]⟩
  | some i =>
    have hl := h.live hx
    refine ⟨_, Heap.delete_some hl, h.heap.delete hl, rfl, fun id => ?_⟩
    have := Heap.erase_count w.heap.live i id hl
    have e : holds id (some i) = decide (i = id) := by
      by_cases hi : i = id <;> simp [holds, hi]
    rw [e]
    exact this

theorem delete_new {h : Heap} (hw : h.Wf) {i : Nat} (hl : 1 ≤ h.live.count i) : 1 ≤ h.new.1.live.count i := by
  rw [Heap.new_count]; omega

theorem holds_some (id i : Nat) : holds id (some i) = decide (i = id) := by
  by_cases hi : i = id <;> simp [holds, hi]

theorem Inv.step {w : World} {s : Owners} (h : Inv w s) (op : Op) :
    ∃ w', step w op = .ok w' ∧ Inv w' (uniqueStep s op) := by
  cases op with
  | make x =>
    rw [Unique.step, uniqueStep, ← h.own]
    cases hx : w.vars.lookup x with
    | some d => exact ⟨w, rfl, h⟩
    | none =>
      refine ⟨_, rfl, h.keys.cons _ hx, h.heap.new, fun id => ?_, ?_, fun y => ?_⟩
      · rw [Heap.new_count, held_cons, h.held]
        exact congrArg (_ + b2n ·) (holds_some _ _).symm
      · exact congrArg (· + 1) h.next
      · change List.lookup y ((x, some w.heap.next) :: w.vars) = upd s.own x (some (some s.next)) y
        rw [lookup_cons', h.own, h.next]
        rfl
  | makeEmpty x =>
    rw [Unique.step, uniqueStep, ← h.own]
    cases hx : w.vars.lookup x with
    | some d => exact ⟨w, rfl, h⟩
    | none =>
      refine ⟨_, rfl, h.keys.cons _ hx, h.heap, fun id => ?_, h.next, fun y => ?_⟩
      · rw [held_cons, h.held]
        simp [holds]
      · change List.lookup y ((x, none) :: w.vars) = upd s.own x (some none) y
        rw [lookup_cons', h.own]
        rfl
  | move x y =>
    rw [Unique.step, uniqueStep]
    simp only [← h.own]
    cases hx : w.vars.lookup x with
    | some d => exact ⟨w, rfl, by simpa using h⟩
    | none =>
      cases hy : w.vars.lookup y with
      | none => exact ⟨w, rfl, by simpa using h⟩
      | some d =>
        have hxy : x ≠ y := by rintro rfl; rw [hx] at hy; cases hy
        have hx' : List.lookup x (w.vars.set y none) = none := by rw [lookup_set, if_neg hxy, hx]
        refine ⟨_, rfl, (h.keys.set _ _).cons _ hx', h.heap, fun id => ?_, h.next, fun z => ?_⟩
        · have := held_set h.keys hy (holds id) none
          rw [held_cons, h.held]
          simp [holds] at this ⊢
          omega
        · rw [lookup_cons', lookup_set]
          simp only [ne_eq, reduceCtorEq, not_false_eq_true, and_self, if_true, Owners.put, upd, ← h.own, hy,
            Option.map_some]
          by_cases h1 : z = x
          · subst h1
            simp [hxy]
          · simp [h1]
  | moveAssign x y =>
    rw [Unique.step, uniqueStep]
    simp only [← h.own]
    cases hx : w.vars.lookup x with
    | none => exact ⟨w, rfl, by simpa using h⟩
    | some dx =>
      cases hy : w.vars.lookup y with
      | none => exact ⟨w, rfl, by simpa using h⟩
      | some dy =>
        simp only
        by_cases hxy : x = y
        · exact ⟨w, by rw [if_neg (by simpa using hxy)], by simpa [hxy] using h⟩
        · rw [if_pos hxy]
          obtain ⟨h', hd, hw, hn, hc⟩ := h.delete hx
          rw [hd]
          have hy' : List.lookup y (w.vars.set x dy) = some dy := by
            rw [lookup_set, if_neg (fun h => hxy h.symm), hy]
          refine ⟨_, rfl, (h.keys.set _ _).set _ _, hw, fun id => ?_, ?_, fun z => ?_⟩
          · have h1 := held_set h.keys hx (holds id) dy
            have h2 := held_set (h.keys.set x dy) hy' (holds id) none
            have h3 := hc id
            have h4 := h.held id
            have h5 : b2n (holds id none) = 0 := rfl
            simp only
            omega
          · simp [hxy, Owners.put, hn, h.next]
          · simp only [lookup_set, hx, hy, Option.map_some, if_neg (fun h => hxy h.symm : ¬ y = x), ne_eq, hxy,
              reduceCtorEq, not_false_eq_true, and_self, if_true, Owners.put, upd, ← h.own]
  | reset x =>
    rw [Unique.step, uniqueStep, ← h.own]
    cases hx : w.vars.lookup x with
    | none => exact ⟨w, rfl, by simpa using h⟩
    | some d =>
      have key : ∃ h', Unique.reset w.heap d none = .ok (h', none) ∧ h'.Wf ∧ h'.next = w.heap.next ∧
          ∀ id, h'.live.count id + b2n (holds id d) = w.heap.live.count id := by
        obtain ⟨h', hd, hr⟩ := h.delete hx
        refine ⟨h', ?_, hr⟩
        unfold Unique.reset
        cases d with
        | none =>
          have : w.heap = h' := by injection hd
          rw [this]; rfl
        | some i => rw [hd]; rfl
      obtain ⟨h', hd, hw, hn, hc⟩ := key
      simp only [hd]
      refine ⟨_, rfl, h.keys.set _ _, hw, fun id => ?_, by simp [Owners.put, hn, h.next], fun z => ?_⟩
      · have h1 := held_set h.keys hx (holds id) none
        have h3 := hc id
        have h4 := h.held id
        have h5 : b2n (holds id none) = 0 := rfl
        simp only
        omega
      · simp only [lookup_set, hx, Option.map_some, ne_eq, reduceCtorEq, not_false_eq_true, if_true, Owners.put,
          upd, ← h.own]
  | resetNew x =>
    rw [Unique.step, uniqueStep, ← h.own]
    cases hx : w.vars.lookup x with
    | none => exact ⟨w, rfl, by simpa using h⟩
    | some d =>
      have key : ∃ h', Unique.reset w.heap.new.1 d w.heap.new.2 = .ok (h', some w.heap.next) ∧ h'.Wf ∧
          h'.next = w.heap.next + 1 ∧
          ∀ id, h'.live.count id + b2n (holds id d) = w.heap.live.count id + b2n (holds id (some w.heap.next)) := by
        unfold Unique.reset
        cases d with
        | none =>
          refine ⟨w.heap.new.1, rfl, h.heap.new, rfl, fun id => ?_⟩
          rw [Heap.new_count, holds_some]
          rfl
        | some i =>
          have hl := h.live hx
          have hl' := delete_new h.heap hl
          have hne : ¬ some i = some w.heap.next := by
            intro he
            injection he with he
            have := h.heap i
            rw [he] at this hl
            simp at this
            omega
          refine ⟨{ w.heap.new.1 with live := w.heap.new.1.live.erase i, dead := i :: w.heap.new.1.dead }, ?_,
            h.heap.new.delete hl', rfl, fun id => ?_⟩
          · rw [if_pos (show some i ≠ w.heap.new.2 from hne), Heap.delete_some hl']
            rfl
          · have h1 := Heap.erase_count w.heap.new.1.live i id hl'
            have h2 := Heap.new_count w.heap id
            rw [holds_some, holds_some]
            simp only
            omega
      obtain ⟨h', hd, hw, hn, hc⟩ := key
      simp only [hd]
      refine ⟨_, rfl, h.keys.set _ _, hw, fun id => ?_, by simp [Owners.fresh, hn, h.next], fun z => ?_⟩
      · have h1 := held_set h.keys hx (holds id) (some w.heap.next)
        have h3 := hc id
        have h4 := h.held id
        simp only
        omega
      · simp only [lookup_set, hx, Option.map_some, ne_eq, reduceCtorEq, not_false_eq_true, if_true, Owners.fresh,
          upd, ← h.own, h.next]
  | resetSelf x =>
    rw [Unique.step, uniqueStep]
    cases hx : w.vars.lookup x with
    | none => exact ⟨w, rfl, h⟩
    | some d =>
      simp only
      have : Unique.reset w.heap d d = .ok (w.heap, d) := by
        unfold Unique.reset
        rw [if_neg (by simp)]
      simp only [this]
      refine ⟨_, rfl, h.keys.set _ _, h.heap, fun id => ?_, h.next, fun z => ?_⟩
      · have h1 := held_set h.keys hx (holds id) d
        have h4 := h.held id
        simp only
        omega
      · rw [lookup_set, hx, ← h.own]
        split
        · rename_i h; rw [h, hx]; rfl
        · rfl
  | deref x =>
    rw [Unique.step, uniqueStep]
    cases hx : w.vars.lookup x with
    | none => exact ⟨w, rfl, h⟩
    | some d =>
      refine ⟨w, ?_, h⟩
      cases d with
      | none => rfl
      | some i =>
        simp only [Heap.deref, List.count_pos_iff.1 (h.live hx), if_true, caught]
  | destroy x =>
    rw [Unique.step, uniqueStep]
    cases hx : w.vars.lookup x with
    | none =>
      refine ⟨w, rfl, h.keys, h.heap, h.held, h.next, fun z => ?_⟩
      simp only [Owners.put, upd, ← h.own]
      split
      · rename_i h; rw [h, hx]
      · rfl
    | some d =>
      simp only
      obtain ⟨h', hd, hw, hn, hc⟩ := h.delete hx
      rw [hd]
      refine ⟨_, rfl, h.keys.drop _, hw, fun id => ?_, by simp [Owners.put, hn, h.next], fun z => ?_⟩
      · have h1 := held_drop h.keys hx (holds id)
        have h3 := hc id
        have h4 := h.held id
        simp only
        omega
      · simp only [lookup_drop, Owners.put, upd, ← h.own]

theorem Inv.run {w : World} {s : Owners} (h : Inv w s) (ops : List Op) :
    ∃ w', run w ops = .ok w' ∧ Inv w' (ops.foldl uniqueStep s) := by
  induction ops generalizing w s with
  | nil => exact ⟨w, rfl, h⟩
  | cons op ops ih =>
    obtain ⟨w1, h1, h2⟩ := h.step op
    rw [Unique.run, h1]
    exact ih h2

/-- Two variables that satisfy `p` are counted twice. -/
theorem two_le_held {α : Type} {v : Vars α} {x y : Nat} {a b : α} (hxy : x ≠ y) {p : α → Bool}
    (hx : v.lookup x = some a) (hy : v.lookup y = some b) (ha : p a) (hb : p b) : 2 ≤ held p v := by
  induction v with
  | nil => simp at hx
  | cons e t ih =>
    obtain ⟨z, c⟩ := e
    rw [lookup_cons'] at hx hy
    rw [held_cons]
    by_cases h1 : x = z
    · rw [if_pos h1] at hx
      injection hx with hx
      subst hx
      rw [if_neg (by rintro rfl; exact hxy h1)] at hy
      have := held_pos hy hb
      rw [ha]
      simp
      omega
    · rw [if_neg h1] at hx
      by_cases h2 : y = z
      · rw [if_pos h2] at hy
        injection hy with hy
        subst hy
        have := held_pos hx ha
        rw [hb]
        simp
        omega
      · rw [if_neg h2] at hy
        have := ih hx hy
        omega

end Caitlyn.Unique
