import Verif.Model.Expected

/-! # Lemmas on the lifetime of the objects contained in `Expected` -/

namespace Caitlyn.Lifetime

/-- The contained objects of the existing variables. -/
def ids (vars : List (Nat × Slot)) : List Nat := vars.filterMap fun e => e.2.payload.map Prod.snd

structure Inv (w : World) : Prop where
  keys : (w.vars.map Prod.fst).Nodup
  full : ∀ e ∈ w.vars, ∃ id, e.2.payload = some (e.2.hasValue, id)
  live : w.live.Perm (ids w.vars)
  all : (w.live ++ w.dead).Perm (List.range w.next)

def others (vars : List (Nat × Slot)) (x : Nat) : List (Nat × Slot) := vars.filter fun e => e.1 ≠ x

theorem lookup_none {vars : List (Nat × Slot)} {x : Nat} (h : vars.lookup x = none) :
    x ∉ vars.map Prod.fst := by
  induction vars with
  | nil => simp
  | cons e t ih =>
    obtain ⟨y, s⟩ := e
    rw [List.lookup_cons] at h
    by_cases hy : x = y
    · subst hy; simp at h
    · rw [show (x == y) = false by simpa using hy] at h
      simp only [List.map_cons, List.mem_cons, not_or]
      exact ⟨hy, ih h⟩

theorem others_absent {vars : List (Nat × Slot)} {x : Nat} (h : x ∉ vars.map Prod.fst) : others vars x = vars := by
  unfold others
  rw [List.filter_eq_self]
  intro e he
  simp only [ne_eq, decide_not, Bool.not_eq_eq_eq_not, Bool.not_true, decide_eq_false_iff_not]
  intro hx
  exact h (hx ▸ List.mem_map_of_mem he)

theorem map_absent {vars : List (Nat × Slot)} {x : Nat} {s : Slot} (h : x ∉ vars.map Prod.fst) :
    (vars.map fun e => if e.1 = x then (x, s) else e) = vars := by
  induction vars with
  | nil => rfl
  | cons e t ih =>
    simp only [List.map_cons, List.mem_cons, not_or] at h
    rw [List.map_cons, if_neg (fun h' => h.1 h'.symm), ih h.2]

theorem perm_set {vars : List (Nat × Slot)} (hk : (vars.map Prod.fst).Nodup) {x : Nat} {s : Slot}
    (h : vars.lookup x = some s) :
    vars.Perm ((x, s) :: others vars x) ∧
      ∀ s', (vars.map fun e => if e.1 = x then (x, s') else e).Perm ((x, s') :: others vars x) := by
  induction vars with
  | nil => simp at h
  | cons e t ih =>
    obtain ⟨y, s1⟩ := e
    simp only [List.map_cons, List.nodup_cons] at hk
    rw [List.lookup_cons] at h
    by_cases hy : x = y
    · subst hy
      simp only [BEq.rfl, Option.some.injEq] at h
      subst h
      have ho : others ((x, s1) :: t) x = t := by
        have := others_absent hk.1
        unfold others at this ⊢
        rw [List.filter_cons_of_neg (by simp), this]
      rw [ho]
      refine ⟨.refl _, fun s' => ?_⟩
      rw [List.map_cons, if_pos rfl, map_absent hk.1]
    · rw [show (x == y) = false by simpa using hy] at h
      have ho : others ((y, s1) :: t) x = (y, s1) :: others t x := by
        unfold others
        rw [List.filter_cons_of_pos (by simpa using fun h' => hy h'.symm)]
      rw [ho]
      obtain ⟨h1, h2⟩ := ih hk.2 h
      refine ⟨(h1.cons _).trans (.swap _ _ _), fun s' => ?_⟩
      rw [List.map_cons, if_neg (fun h' => hy h'.symm)]
      exact ((h2 s').cons _).trans (.swap _ _ _)

theorem ids_perm {a b : List (Nat × Slot)} (h : a.Perm b) : (ids a).Perm (ids b) := h.filterMap _

theorem ids_cons_some {x : Nat} {b c : Bool} {i : Nat} {t : List (Nat × Slot)} :
    ids ((x, ⟨b, some (c, i)⟩) :: t) = i :: ids t := rfl

theorem keys_set {vars : List (Nat × Slot)} {x : Nat} {s : Slot} :
    (vars.map fun e => if e.1 = x then (x, s) else e).map Prod.fst = vars.map Prod.fst := by
  rw [List.map_map]
  apply List.map_congr_left
  intro e _
  simp only [Function.comp]
  split <;> rename_i h <;> simp_all

theorem mem_vars_of_lookup {vars : List (Nat × Slot)} {x : Nat} {s : Slot} (h : vars.lookup x = some s) :
    (x, s) ∈ vars := by
  induction vars with
  | nil => simp at h
  | cons e t ih =>
    obtain ⟨y, s1⟩ := e
    rw [List.lookup_cons] at h
    by_cases hy : x = y
    · subst hy
      simp only [BEq.rfl, Option.some.injEq] at h
      simp [h]
    · rw [show (x == y) = false by simpa using hy] at h
      exact List.mem_cons_of_mem _ (ih h)

/-- A variable that exists contains a live object of the kind its flag says. -/
theorem Inv.slot {w : World} (h : Inv w) {x : Nat} {s : Slot} (hx : w.get x = some s) :
    ∃ id, s.payload = some (s.hasValue, id) ∧ id ∈ w.live ∧
      w.vars.Perm ((x, s) :: others w.vars x) ∧ w.live.Perm (id :: ids (others w.vars x)) := by
  obtain ⟨id, hid⟩ := h.full _ (mem_vars_of_lookup hx)
  have hp := (perm_set h.keys hx).1
  have hl : w.live.Perm (id :: ids (others w.vars x)) := by
    refine h.live.trans ((ids_perm hp).trans ?_)
    obtain ⟨b, p⟩ := s
    simp only at hid
    subst hid
    rw [ids_cons_some]
  exact ⟨id, hid, hl.mem_iff.2 (by simp), hp, hl⟩

theorem destroyUnion_eq {w : World} {s : Slot} {id : Nat} (hp : s.payload = some (s.hasValue, id))
    (hl : id ∈ w.live) :
    destroyUnion w s = .ok { w with live := w.live.erase id, dead := id :: w.dead } := by
  rw [destroyUnion, hp]
  simp only [hl, and_self, if_true]

theorem readFor_eq {w : World} {s : Slot} {id : Nat} (hp : s.payload = some (s.hasValue, id))
    (hl : id ∈ w.live) : readFor s w = .ok () := by
  rw [readFor, hp]
  simp only [hl, and_self, if_true]

theorem Inv.make {w : World} (h : Inv w) {x : Nat} {b : Bool} (hx : w.get x = none) :
    Inv { w with next := w.next + 1, live := w.next :: w.live, vars := (x, ⟨b, some (b, w.next)⟩) :: w.vars } where
  keys := by
    simp only [List.map_cons, List.nodup_cons]
    exact ⟨lookup_none hx, h.keys⟩
  full := by
    intro e he
    rcases List.mem_cons.1 he with rfl | he
    · exact ⟨_, rfl⟩
    · exact h.full _ he
  live := by
    rw [ids_cons_some]
    exact h.live.cons _
  all := by
    simp only [List.range_succ, List.cons_append]
    exact (h.all.cons _).trans (List.perm_append_singleton _ _).symm

/-- Statements allowed in the partial theorem: anything but an assignment whose contained object's constructor
throws. -/
def Op.quiet : Op → Prop
  | .assign _ _ throws => throws = false
  | _ => True

theorem erase_perm {l d : List Nat} {id : Nat} (h : id ∈ l) : (l.erase id ++ id :: d).Perm (l ++ d) := by
  have h1 := (List.perm_cons_erase h).append_right d
  exact List.perm_middle.trans h1.symm

theorem Inv.destroyed {w : World} (h : Inv w) {x : Nat} {s : Slot} (hx : w.get x = some s) {id : Nat}
    (hp : s.payload = some (s.hasValue, id)) :
    id ∈ w.live ∧ (w.live.erase id).Perm (ids (others w.vars x)) ∧
      (w.live.erase id ++ id :: w.dead).Perm (List.range w.next) := by
  obtain ⟨id', hid', hm, _, hl⟩ := h.slot hx
  rw [hp] at hid'
  simp only [Option.some.injEq, Prod.mk.injEq, true_and] at hid'
  subst hid'
  refine ⟨hm, ?_, (erase_perm hm).trans h.all⟩
  have := hl.erase id
  rwa [List.erase_cons_head] at this

theorem ids_mem {vars : List (Nat × Slot)} {y : Nat} {s : Slot} {b : Bool} {id : Nat} (h : (y, s) ∈ vars)
    (hp : s.payload = some (b, id)) : id ∈ ids vars := by
  rw [ids, List.mem_filterMap]
  exact ⟨(y, s), h, by simp [hp]⟩

theorem Inv.step {w : World} (h : Inv w) (op : Op) (hq : op.quiet) : ∃ w', step w op = .ok w' ∧ Inv w' := by
  cases op with
  | make x b throws =>
    rw [Lifetime.step]
    by_cases hc : (w.get x).isSome ∨ throws
    · rw [if_pos hc]; exact ⟨w, rfl, h⟩
    · rw [if_neg hc]
      simp only [not_or, Bool.not_eq_true, Option.isSome_eq_false_iff, Option.isNone_iff_eq_none] at hc
      exact ⟨_, rfl, h.make hc.1⟩
  | make_from x y throws =>
    rw [Lifetime.step]
    cases hy : w.get y with
    | none => exact ⟨w, rfl, h⟩
    | some other =>
      simp only
      by_cases hc : (w.get x).isSome
      · rw [if_pos hc]; exact ⟨w, rfl, h⟩
      · rw [if_neg hc]
        obtain ⟨id, hp, hl, _, _⟩ := h.slot hy
        rw [readFor_eq hp hl]
        cases throws
        · exact ⟨_, rfl, h.make (by simpa using hc)⟩
        · exact ⟨_, rfl, h⟩
  | assign x y throws =>
    change throws = false at hq
    subst hq
    rw [Lifetime.step]
    cases hx : w.get x with
    | none => exact ⟨w, rfl, h⟩
    | some self =>
      cases hy : w.get y with
      | none => exact ⟨w, rfl, h⟩
      | some other =>
        simp only
        by_cases hxy : x = y
        · rw [if_pos hxy]; exact ⟨w, rfl, h⟩
        · rw [if_neg hxy]
          obtain ⟨id, hp, hm, hv, _⟩ := h.slot hx
          obtain ⟨hm, hl, ha⟩ := h.destroyed hx hp
          obtain ⟨id2, hp2, hm2, _, _⟩ := h.slot hy
          have hid2 : id2 ∈ w.live.erase id := by
            refine hl.mem_iff.2 (ids_mem (y := y) (s := other) ?_ hp2)
            rw [others, List.mem_filter]
            exact ⟨mem_vars_of_lookup hy, by simpa using fun h' => hxy h'.symm⟩
          rw [destroyUnion_eq hp hm]
          simp only [bind, Except.bind]
          rw [readFor_eq hp2 hid2]
          simp only [Bool.false_eq_true, if_false]
          refine ⟨_, rfl, ?_⟩
          have hset : ∀ (v : List (Nat × Slot)) (s1 s2 : Slot),
              (v.map fun e => if e.1 = x then (x, s1) else e).map (fun e => if e.1 = x then (x, s2) else e) =
                v.map fun e => if e.1 = x then (x, s2) else e := by
            intro v s1 s2
            rw [List.map_map]
            apply List.map_congr_left
            intro e _
            simp only [Function.comp]
            split <;> simp_all
          simp only [World.set, construct, hset]
          have hp' := (perm_set h.keys hx).2 ⟨other.hasValue, some (other.hasValue, w.next)⟩
          refine ⟨?_, ?_, ?_, ?_⟩
          · simp only [keys_set]; exact h.keys
          · intro e he
            rcases List.mem_cons.1 (hp'.mem_iff.1 he) with rfl | he
            · exact ⟨_, rfl⟩
            · exact h.full _ (List.mem_filter.1 he).1
          · refine List.Perm.trans ?_ (ids_perm hp').symm
            rw [ids_cons_some]
            exact hl.cons _
          · simp only [List.range_succ, List.cons_append]
            exact (ha.cons _).trans (List.perm_append_singleton _ _).symm
  | destroy x =>
    rw [Lifetime.step]
    cases hx : w.get x with
    | none => exact ⟨w, rfl, h⟩
    | some self =>
      simp only
      obtain ⟨id, hp, hm, hv, _⟩ := h.slot hx
      obtain ⟨hm, hl, ha⟩ := h.destroyed hx hp
      rw [destroyUnion_eq hp hm]
      refine ⟨_, rfl, ?_, ?_, hl, ha⟩
      · exact List.Nodup.sublist (List.filter_sublist.map _) h.keys
      · intro e he
        exact h.full _ (List.mem_filter.1 he).1

theorem Inv.run {w : World} (h : Inv w) (ops : List Op) (hq : ∀ op ∈ ops, op.quiet) :
    ∃ w', run w ops = .ok w' ∧ Inv w' := by
  induction ops generalizing w with
  | nil => exact ⟨w, rfl, h⟩
  | cons op ops ih =>
    obtain ⟨w1, h1, h2⟩ := h.step op (hq _ (by simp))
    rw [Lifetime.run, h1]
    exact ih h2 (fun o ho => hq o (by simp [ho]))

theorem Inv.init : Inv {} := ⟨by simp, by simp, by simp [ids], by simp⟩

end Caitlyn.Lifetime
