import Verif.Spec.Expected
import Verif.Proofs.Expected

/-! # The lifetime of the objects contained in `Expected`, also when assignments throw -/

namespace Caitlyn.Lifetime
open Spec

/-- The world `w` is as the state `s` says. -/
structure Exact (w : World) (s : Health) : Prop where
  keys : (w.vars.map Prod.fst).Nodup
  flag : ∀ e ∈ w.vars, ∀ b id, e.2.payload = some (b, id) → b = e.2.hasValue
  state : ∀ x, (w.get x).map (fun e => e.payload.map Prod.fst) = s x
  live : w.live.Perm (ids w.vars)
  all : (w.live ++ w.dead).Perm (List.range w.next)

theorem get_cons {w : World} {v : List (Nat × Slot)} {x y : Nat} {e : Slot} (hv : w.vars = (x, e) :: v) :
    w.get y = if y = x then some e else v.lookup y := by
  rw [World.get, hv, List.lookup_cons]
  by_cases h : y = x
  · subst h; simp
  · rw [show (y == x) = false by simpa using h, if_neg h]

theorem lookup_set {v : List (Nat × Slot)} {x y : Nat} {e d : Slot} (hx : v.lookup x = some d) :
    (v.map fun a => if a.1 = x then (x, e) else a).lookup y = if y = x then some e else v.lookup y := by
  induction v with
  | nil => cases hx
  | cons a t ih =>
    obtain ⟨z, f⟩ := a
    rw [List.lookup_cons] at hx
    rw [List.map_cons]
    by_cases hz : z = x
    · subst hz
      rw [if_pos rfl, List.lookup_cons, List.lookup_cons]
      by_cases hy : y = z
      · subst hy; simp
      · rw [show (y == z) = false by simpa using hy, if_neg hy]
        simp only
        clear ih hx
        induction t with
        | nil => rfl
        | cons b t ih =>
          obtain ⟨u, g⟩ := b
          rw [List.map_cons, List.lookup_cons]
          by_cases hu : u = z
          · subst hu
            rw [if_pos rfl, List.lookup_cons, show (y == u) = false by simpa using hy]
            exact ih
          · rw [if_neg hu, List.lookup_cons, ih]
    · rw [if_neg hz, List.lookup_cons, List.lookup_cons]
      rw [show (x == z) = false by simpa using fun h => hz h.symm] at hx
      by_cases hy : y = z
      · subst hy; simp [hz]
      · rw [show (y == z) = false by simpa using hy]
        exact ih hx

theorem lookup_others {v : List (Nat × Slot)} {x y : Nat} :
    (others v x).lookup y = if y = x then none else v.lookup y := by
  induction v with
  | nil => simp [others]
  | cons a t ih =>
    obtain ⟨z, f⟩ := a
    unfold others at ih ⊢
    rw [List.lookup_cons]
    by_cases hz : z = x
    · subst hz
      rw [List.filter_cons_of_neg (by simp), ih]
      by_cases hy : y = z
      · simp [hy]
      · rw [if_neg hy, if_neg hy, show (y == z) = false by simpa using hy]
    · rw [List.filter_cons_of_pos (by simpa using hz), List.lookup_cons, ih]
      by_cases hy : y = z
      · subst hy; simp [hz]
      · rw [show (y == z) = false by simpa using hy]

theorem Exact.absent {w : World} {s : Health} (h : Exact w s) {x : Nat} (hx : s x = none) : w.get x = none := by
  have := h.state x
  rw [hx] at this
  simpa using this

theorem Exact.broken {w : World} {s : Health} (h : Exact w s) {x : Nat} (hx : s x = some none) :
    ∃ e, w.get x = some e ∧ e.payload = none := by
  have := h.state x
  rw [hx] at this
  cases hg : w.get x with
  | none => rw [hg] at this; cases this
  | some e => rw [hg] at this; exact ⟨e, rfl, by simpa using this⟩

/-- A healthy variable contains a live object of the kind its flag says. -/
theorem Exact.healthy {w : World} {s : Health} (h : Exact w s) {x : Nat} {b : Bool} (hx : s x = some (some b)) :
    ∃ e id, w.get x = some e ∧ e.hasValue = b ∧ e.payload = some (e.hasValue, id) ∧ id ∈ w.live ∧
      (w.live.erase id).Perm (ids (others w.vars x)) ∧ (w.live.erase id ++ id :: w.dead).Perm (List.range w.next) := by
  have := h.state x
  rw [hx] at this
  cases hg : w.get x with
  | none => rw [hg] at this; cases this
  | some e =>
    rw [hg] at this
    cases hp : e.payload with
    | none => simp [hp] at this
    | some p =>
      obtain ⟨c, id⟩ := p
      have hc : c = b := by simpa [hp] using this
      have hf := h.flag _ (mem_vars_of_lookup hg) c id hp
      simp only at hf
      have hv := (perm_set h.keys hg).1
      have hl : w.live.Perm (id :: ids (others w.vars x)) := by
        refine h.live.trans ((ids_perm hv).trans ?_)
        obtain ⟨f, p⟩ := e
        simp only at hp
        subst hp
        rw [ids_cons_some]
      have hm := hl.mem_iff.2 (show id ∈ id :: _ by simp)
      refine ⟨e, id, rfl, by rw [← hf, hc], by rw [hp, hf], hm, ?_, (erase_perm hm).trans h.all⟩
      have := hl.erase id
      rwa [List.erase_cons_head] at this

theorem Exact.make {w : World} {s : Health} (h : Exact w s) {x : Nat} {b : Bool} (hx : s x = none) :
    Exact { w with next := w.next + 1, live := w.next :: w.live, vars := (x, ⟨b, some (b, w.next)⟩) :: w.vars }
      (s.put x (some (some b))) where
  keys := by
    simp only [List.map_cons, List.nodup_cons]
    exact ⟨lookup_none (h.absent hx), h.keys⟩
  flag := by
    intro e he c id hp
    rcases List.mem_cons.1 he with rfl | he
    · simp only [Option.some.injEq, Prod.mk.injEq] at hp
      exact hp.1.symm
    · exact h.flag _ he c id hp
  state := by
    intro y
    rw [get_cons rfl, Health.put, ← h.state y]
    split <;> rfl
  live := by
    rw [ids_cons_some]
    exact h.live.cons _
  all := by
    simp only [List.range_succ, List.cons_append]
    exact (h.all.cons _).trans (List.perm_append_singleton _ _).symm

theorem destroyUnion_none {w : World} {e : Slot} (h : e.payload = none) : destroyUnion w e = .error .ub := by
  rw [destroyUnion, h]

theorem readFor_none {w : World} {e : Slot} (h : e.payload = none) : readFor e w = .error .ub := by
  rw [readFor, h]

theorem Exact.step {w : World} {s : Health} (h : Exact w s) (op : Op) :
    match healthStep s op with
    | none => step w op = .error .ub
    | some s' => ∃ w', step w op = .ok w' ∧ Exact w' s' := by
  cases op with
  | make x b throws =>
    simp only [healthStep, Lifetime.step]
    cases hx : s x with
    | none =>
      rw [h.absent hx]
      cases throws
      · exact ⟨_, rfl, h.make hx⟩
      · exact ⟨w, rfl, h⟩
    | some a =>
      have hs := h.state x
      rw [hx] at hs
      have hg : (w.get x).isSome := by
        cases hg : w.get x with
        | none => rw [hg] at hs; cases hs
        | some e => rfl
      rw [if_pos (.inl hg)]
      exact ⟨w, rfl, by simpa using h⟩
  | make_from x y throws =>
    simp only [healthStep, Lifetime.step]
    cases hx : s x with
    | some a =>
      have hg : (w.get x).isSome := by
        have hs := h.state x
        rw [hx] at hs
        cases hg : w.get x with
        | none => rw [hg] at hs; cases hs
        | some e => rfl
      simp only [hg, if_true]
      refine ⟨w, ?_, h⟩
      split <;> rfl
    | none =>
      have hg := h.absent hx
      cases hy : s y with
      | none => simp only [h.absent hy]; exact ⟨w, rfl, h⟩
      | some a =>
        cases a with
        | none =>
          obtain ⟨e, he, hp⟩ := h.broken hy
          simp only [he, hg, readFor_none hp]
          rfl
        | some b =>
          obtain ⟨e, id, he, hb, hp, hm, _⟩ := h.healthy hy
          simp only [he, hg, readFor_eq hp hm]
          cases throws
          · refine ⟨_, rfl, ?_⟩
            have := h.make (b := b) hx
            rw [hb]
            exact this
          · exact ⟨_, rfl, h⟩
  | assign x y throws =>
    simp only [healthStep, Lifetime.step]
    by_cases hxy : x = y
    · simp only [hxy, if_true]
      refine ⟨w, ?_, h⟩
      split <;> rfl
    · simp only [hxy, if_false]
      cases hx : s x with
      | none => simp only [h.absent hx]; exact ⟨w, rfl, h⟩
      | some a =>
        cases hy : s y with
        | none =>
          simp only [h.absent hy]
          cases a <;> exact ⟨w, by cases w.get x <;> rfl, h⟩
        | some c =>
          cases a with
          | none =>
            obtain ⟨e, he, hp⟩ := h.broken hx
            have hgy : ∃ f, w.get y = some f := by
              have hs := h.state y
              rw [hy] at hs
              cases hg : w.get y with
              | none => rw [hg] at hs; cases hs
              | some f => exact ⟨f, rfl⟩
            obtain ⟨f, hf⟩ := hgy
            simp only [he, hf, destroyUnion_none hp]
            rfl
          | some a =>
            obtain ⟨e, id, he, hb, hp, hm, hl, ha⟩ := h.healthy hx
            cases c with
            | none =>
              obtain ⟨f, hf, hq⟩ := h.broken hy
              simp only [he, hf, destroyUnion_eq hp hm]
              simp only [bind, Except.bind]
              rw [readFor_none hq]
            | some b =>
              obtain ⟨f, id2, hf, hb2, hp2, hm2, _⟩ := h.healthy hy
              have hid2 : id2 ∈ w.live.erase id := by
                refine hl.mem_iff.2 (ids_mem (y := y) (s := f) ?_ hp2)
                rw [others, List.mem_filter]
                exact ⟨mem_vars_of_lookup hf, by simpa using fun h' => hxy h'.symm⟩
              simp only [he, hf, destroyUnion_eq hp hm]
              simp only [bind, Except.bind]
              rw [readFor_eq hp2 hid2]
              cases throws with
              | true =>
                refine ⟨_, rfl, ?_, ?_, ?_, ?_, ?_⟩
                · simp only [World.set, keys_set]; exact h.keys
                · intro g hg c i hc
                  have hperm := (perm_set h.keys he).2 ⟨f.hasValue, none⟩
                  rcases List.mem_cons.1 (hperm.mem_iff.1 hg) with rfl | hg
                  · cases hc
                  · exact h.flag _ (List.mem_filter.1 hg).1 c i hc
                · intro z
                  simp only [World.set, World.get]
                  rw [lookup_set he, Health.put, ← h.state z]
                  split <;> rfl
                · have hperm := (perm_set h.keys he).2 ⟨f.hasValue, none⟩
                  exact hl.trans (ids_perm hperm).symm
                · exact ha
              | false =>
                refine ⟨_, rfl, ?_⟩
                have hset : ∀ (v : List (Nat × Slot)) (s1 s2 : Slot),
                    (v.map fun e => if e.1 = x then (x, s1) else e).map (fun e => if e.1 = x then (x, s2) else e) =
                      v.map fun e => if e.1 = x then (x, s2) else e := by
                  intro v s1 s2
                  rw [List.map_map]
                  apply List.map_congr_left
                  intro e _
                  simp only [Function.comp]
                  split <;> simp_all
                simp only [World.set, construct, hset]
                have hperm := (perm_set h.keys he).2 ⟨f.hasValue, some (f.hasValue, w.next)⟩
                refine ⟨?_, ?_, ?_, ?_, ?_⟩
                · simp only [keys_set]; exact h.keys
                · intro g hg c i hc
                  rcases List.mem_cons.1 (hperm.mem_iff.1 hg) with rfl | hg
                  · simp only [Option.some.injEq, Prod.mk.injEq] at hc
                    exact hc.1.symm
                  · exact h.flag _ (List.mem_filter.1 hg).1 c i hc
                · intro z
                  simp only [World.get]
                  rw [lookup_set he, Health.put, ← h.state z]
                  split
                  · simp [hb2]
                  · rfl
                · refine List.Perm.trans ?_ (ids_perm hperm).symm
                  rw [ids_cons_some]
                  exact hl.cons _
                · simp only [List.range_succ, List.cons_append]
                  exact (ha.cons _).trans (List.perm_append_singleton _ _).symm
  | destroy x =>
    simp only [healthStep, Lifetime.step]
    cases hx : s x with
    | none =>
      simp only [h.absent hx]
      refine ⟨w, rfl, ?_⟩
      have : s.put x none = s := by
        funext z
        unfold Health.put
        split
        · rename_i hz; rw [hz, hx]
        · rfl
      rw [this]; exact h
    | some a =>
      cases a with
      | none =>
        obtain ⟨e, he, hp⟩ := h.broken hx
        simp only [he, destroyUnion_none hp]
        rfl
      | some b =>
        obtain ⟨e, id, he, hb, hp, hm, hl, ha⟩ := h.healthy hx
        simp only [he, destroyUnion_eq hp hm]
        refine ⟨_, rfl, ?_, ?_, ?_, hl, ha⟩
        · exact List.Nodup.sublist (List.filter_sublist.map _) h.keys
        · intro g hg
          exact h.flag _ (List.mem_filter.1 hg).1
        · intro z
          have := lookup_others (v := w.vars) (x := x) (y := z)
          unfold others at this
          simp only [World.get, this, Health.put, ← h.state z]
          split <;> rfl

theorem Exact.run {w : World} {s : Health} (h : Exact w s) (ops : List Op) :
    match healthRun s ops with
    | none => run w ops = .error .ub
    | some s' => ∃ w', run w ops = .ok w' ∧ Exact w' s' := by
  induction ops generalizing w s with
  | nil => exact ⟨w, rfl, h⟩
  | cons op ops ih =>
    have h1 := h.step op
    rw [healthRun, Lifetime.run]
    cases hs : healthStep s op with
    | none => rw [hs] at h1; simp only at h1; rw [h1]; rfl
    | some s' =>
      rw [hs] at h1
      obtain ⟨w', hw, h2⟩ := h1
      rw [hw]
      exact ih h2

theorem Exact.init : Exact {} fun _ => none := ⟨by simp, by simp, fun _ => rfl, by simp [ids], by simp⟩

end Caitlyn.Lifetime
