import Verif.Proofs.Unique

/-! # `SharedPtr` histories -/

namespace Caitlyn.Shared
open Caitlyn.Spec Vars

/-- Variables sharing counter `c`. -/
def uses (c : Nat) (p : Ptr) : Bool := p.count == some c

structure Inv (w : World) (s : Owners) : Prop where
  keys : w.vars.Keys
  heap : w.heap.Wf
  dead : w.heap.dead = []
  null : ∀ e ∈ w.vars, e.2.data = none ↔ e.2.count = none
  data : ∀ e ∈ w.vars, ∀ id, e.2.data = some id → id < w.heap.next
  cnt : ∀ e ∈ w.vars, ∀ c, e.2.count = some c → c < w.counters.length
  same : ∀ e ∈ w.vars, ∀ e' ∈ w.vars, e.2.count = e'.2.count ↔ e.2.data = e'.2.data
  counters : ∀ c < w.counters.length, w.counters[c]? = some (some (held (uses c) w.vars))
  next : w.heap.next = s.next
  own : ∀ x, (w.vars.lookup x).map (·.data) = s.own x

theorem Inv.init : Inv {} {} := by
  refine ⟨by simp [Keys], Heap.Wf.init, rfl, ?_, ?_, ?_, ?_, ?_, rfl, fun _ => rfl⟩ <;> simp

theorem uses_some (c c' : Nat) (d : Option Nat) : uses c ⟨d, some c'⟩ = decide (c' = c) := by
  by_cases h : c' = c <;> simp [uses, h]

theorem Inv.counter {w : World} {s : Owners} (h : Inv w s) {x c : Nat} {p : Ptr} (hx : w.vars.lookup x = some p)
    (hc : p.count = some c) :
    ∃ n, w.counters[c]? = some (some n) ∧ n = held (uses c) w.vars ∧ 1 ≤ n ∧ n ≤ w.vars.length := by
  have hlt := h.cnt _ (mem_of_lookup hx) c hc
  exact ⟨_, h.counters c hlt, rfl, held_pos hx (by simp [uses, hc]), held_le _ _⟩

/-- `Release` gives up one share and never deletes. -/
theorem Inv.release {w : World} {s : Owners} (h : Inv w s) {x : Nat} {p : Ptr} (hx : w.vars.lookup x = some p)
    (hlen : w.vars.length < twoPow64) (hp : Heap) :
    ∃ cs, release hp w.counters p = .ok (hp, cs) ∧ cs.length = w.counters.length ∧
      ∀ c < cs.length, ∃ n, cs[c]? = some (some n) ∧ n + b2n (uses c p) = held (uses c) w.vars := by
  cases hc : p.count with
  | none =>
    refine ⟨w.counters, by rw [Shared.release, hc], rfl, fun c hlt => ⟨_, h.counters c hlt, ?_⟩⟩
    simp [uses, hc]
  | some c =>
    obtain ⟨n, h1, h2, h3, h4⟩ := h.counter hx hc
    refine ⟨w.counters.set c (some (n - 1)), ?_, by simp, fun c' hlt => ?_⟩
    · simp only [Shared.release, hc, h1]
      rw [if_neg (by omega)]
      have : wsub n 1 = n - 1 := by
        unfold wsub
        have : (1 : Nat) % twoPow64 = 1 := by decide
        rw [this]
        have : n + (twoPow64 - 1) = (n - 1) + twoPow64 := by
          have : 1 ≤ twoPow64 := by decide
          omega
        rw [this, Nat.add_mod_right, Nat.mod_eq_of_lt (by omega)]
      rw [this]
    · rw [List.length_set] at hlt
      by_cases hcc : c = c'
      · subst hcc
        refine ⟨n - 1, ?_, ?_⟩
        · rw [List.getElem?_set_self hlt]
        · have : b2n (uses c p) = 1 := by simp [uses, hc]
          omega
      · refine ⟨_, by rw [List.getElem?_set_ne hcc]; exact h.counters c' hlt, ?_⟩
        have : uses c' p = false := by simp [uses, hc, hcc]
        rw [this]
        rfl

theorem wadd_one {n : Nat} (h : n + 1 < twoPow64) : wadd n 1 = n + 1 := Nat.mod_eq_of_lt h

theorem fetchAdd_eq {cs : List (Option Nat)} {c n : Nat} (h : cs[c]? = some (some n)) (hn : n + 1 < twoPow64) :
    fetchAdd cs (some c) = .ok (cs.set c (some (n + 1))) := by
  simp only [fetchAdd, h, wadd_one hn]

/-- The conditions on variables survive when the variables hold what some variable held, or nothing. -/
structure Ok (w : World) (v : Vars Ptr) : Prop where
  keys : v.Keys
  from' : ∀ e ∈ v, e.2 = {} ∨ ∃ e' ∈ w.vars, e'.2 = e.2

theorem Ok.build {w : World} {s s' : Owners} (h : Inv w s) {v : Vars Ptr} (hv : Ok w v) {cs : List (Option Nat)}
    (hl : cs.length = w.counters.length)
    (hcs : ∀ c < cs.length, cs[c]? = some (some (held (uses c) v)))
    (hn : s'.next = s.next) (ho : ∀ x, (v.lookup x).map (·.data) = s'.own x) :
    Inv { heap := w.heap, counters := cs, vars := v } s' where
  keys := hv.keys
  heap := h.heap
  dead := h.dead
  null := by
    intro e he
    rcases hv.from' e he with h1 | ⟨e', he', h1⟩
    · rw [h1]
    · rw [← h1]; exact h.null e' he'
  data := by
    intro e he
    rcases hv.from' e he with h1 | ⟨e', he', h1⟩
    · rw [h1]; simp
    · rw [← h1]; exact h.data e' he'
  cnt := by
    intro e he
    rcases hv.from' e he with h1 | ⟨e', he', h1⟩
    · rw [h1]; simp
    · rw [← h1, hl]; exact h.cnt e' he'
  same := by
    intro e he e2 he2
    rcases hv.from' e he with h1 | ⟨e', he', h1⟩
    · rcases hv.from' e2 he2 with h2 | ⟨e2', he2', h2⟩
      · rw [h1, h2]
      · rw [h1, ← h2]
        have := h.null e2' he2'
        constructor
        · intro hh; exact (this.2 hh.symm).symm
        · intro hh; exact (this.1 hh.symm).symm
    · rcases hv.from' e2 he2 with h2 | ⟨e2', he2', h2⟩
      · rw [h2, ← h1]
        exact (h.null e' he').symm
      · rw [← h1, ← h2]; exact h.same e' he' e2' he2'
  counters := hcs
  next := by rw [hn]; exact h.next
  own := ho

/-- A variable set to own a new object with a new counter. -/
theorem Inv.fresh {w : World} {s s' : Owners} (h : Inv w s) {v v0 : Vars Ptr} (hv0 : Ok w v0) (hk : v.Keys) {x : Nat}
    (hv : ∀ e ∈ v, e.2 = ⟨some w.heap.next, some w.counters.length⟩ ∧ e.1 = x ∨ e ∈ v0)
    {cs : List (Option Nat)} (hl : cs.length = w.counters.length)
    (hcs : ∀ c < cs.length, cs[c]? = some (some (held (uses c) v)))
    (hnew : held (uses w.counters.length) v = 1)
    (hn : s'.next = s.next + 1) (ho : ∀ x, (v.lookup x).map (·.data) = s'.own x) :
    Inv { heap := w.heap.new.1, counters := cs ++ [some 1], vars := v } s' := by
  have old : ∀ e ∈ v0, (e.2.data = none ↔ e.2.count = none) ∧ (∀ id, e.2.data = some id → id < w.heap.next) ∧
      (∀ c, e.2.count = some c → c < w.counters.length) := by
    intro e he
    rcases hv0.from' e he with h1 | ⟨e', he', h1⟩
    · rw [h1]; simp
    · rw [← h1]; exact ⟨h.null e' he', h.data e' he', h.cnt e' he'⟩
  have osame : ∀ e ∈ v0, ∀ e' ∈ v0, e.2.count = e'.2.count ↔ e.2.data = e'.2.data := by
    intro e he e2 he2
    rcases hv0.from' e he with h1 | ⟨e', he', h1⟩
    · rcases hv0.from' e2 he2 with h2 | ⟨e2', he2', h2⟩
      · rw [h1, h2]
      · rw [h1, ← h2]
        have := h.null e2' he2'
        constructor
        · intro hh; exact (this.2 hh.symm).symm
        · intro hh; exact (this.1 hh.symm).symm
    · rcases hv0.from' e2 he2 with h2 | ⟨e2', he2', h2⟩
      · rw [h2, ← h1]
        exact (h.null e' he').symm
      · rw [← h1, ← h2]; exact h.same e' he' e2' he2'
  refine ⟨hk, h.heap.new, h.dead, ?_, ?_, ?_, ?_, ?_, ?_, ho⟩
  · intro e he
    rcases hv e he with ⟨h1, _⟩ | h1
    · rw [h1]; simp
    · exact (old e h1).1
  · intro e he id hid
    change id < w.heap.next + 1
    rcases hv e he with ⟨h1, _⟩ | h1
    · rw [h1] at hid
      injection hid with hid
      omega
    · have := (old e h1).2.1 id hid
      omega
  · intro e he c hc
    rw [List.length_append, hl]
    change c < w.counters.length + 1
    rcases hv e he with ⟨h1, _⟩ | h1
    · rw [h1] at hc
      injection hc with hc
      omega
    · have := (old e h1).2.2 c hc
      omega
  · intro e he e2 he2
    rcases hv e he with ⟨h1, _⟩ | h1
    · rcases hv e2 he2 with ⟨h2, _⟩ | h2
      · rw [h1, h2]; simp
      · have ho := old e2 h2
        rw [h1]
        constructor
        · intro hh
          have := ho.2.2 _ hh.symm
          omega
        · intro hh
          have := ho.2.1 _ hh.symm
          omega
    · rcases hv e2 he2 with ⟨h2, _⟩ | h2
      · have ho := old e h1
        rw [h2]
        constructor
        · intro hh
          have := ho.2.2 _ hh
          omega
        · intro hh
          have := ho.2.1 _ hh
          omega
      · exact osame e h1 e2 h2
  · intro c hc
    rw [List.length_append] at hc
    change c < cs.length + 1 at hc
    by_cases hc' : c < cs.length
    · rw [List.getElem?_append_left hc']
      exact hcs c hc'
    · have : c = cs.length := by omega
      rw [this, List.getElem?_append_right (Nat.le_refl _), Nat.sub_self, hl, hnew]
      rfl
  · rw [hn, ← h.next]
    rfl

/-- The statement does not copy from a pointer that is empty. -/
def NoEmptyCopy (s : Owners) : Op → Prop
  | .copy x y => ¬ (s.own x = none ∧ s.own y = some none)
  | _ => True

theorem lookup_data {w : World} {s : Owners} (h : Inv w s) {x : Nat} {p : Ptr} (hx : w.vars.lookup x = some p) :
    s.own x = some p.data := by
  rw [← h.own, hx]; rfl

theorem lookup_none' {w : World} {s : Owners} (h : Inv w s) {x : Nat} (hx : w.vars.lookup x = none) :
    s.own x = none := by
  rw [← h.own, hx]; rfl

theorem Inv.uses_fresh {w : World} {s : Owners} (h : Inv w s) : held (uses w.counters.length) w.vars = 0 := by
  unfold held
  rw [List.countP_eq_zero]
  intro e he hu
  simp only [uses, beq_iff_eq] at hu
  have := h.cnt e he _ hu
  omega

theorem Ok.refl {w : World} {s : Owners} (h : Inv w s) : Ok w w.vars := ⟨h.keys, fun e he => .inr ⟨e, he, rfl⟩⟩

theorem Ok.set {w : World} {v : Vars Ptr} (h : Ok w v) {x : Nat} {p : Ptr} (hp : p = {} ∨ ∃ e' ∈ w.vars, e'.2 = p) :
    Ok w (v.set x p) := by
  refine ⟨h.keys.set _ _, fun e he => ?_⟩
  rcases mem_set he with rfl | he
  · exact hp
  · exact h.from' e he

theorem Ok.cons {w : World} {v : Vars Ptr} (h : Ok w v) {x : Nat} {p : Ptr} (hp : p = {} ∨ ∃ e' ∈ w.vars, e'.2 = p)
    (hx : v.lookup x = none) : Ok w ((x, p) :: v) := by
  refine ⟨h.keys.cons _ hx, fun e he => ?_⟩
  rcases List.mem_cons.1 he with rfl | he
  · exact hp
  · exact h.from' e he

theorem Ok.drop {w : World} {v : Vars Ptr} (h : Ok w v) {x : Nat} : Ok w (v.drop x) :=
  ⟨h.keys.drop _, fun e he => h.from' e (mem_drop he)⟩

theorem held_of {w : World} {x : Nat} {p : Ptr} (hx : w.vars.lookup x = some p) :
    p = {} ∨ ∃ e' ∈ w.vars, e'.2 = p := .inr ⟨_, mem_of_lookup hx, rfl⟩

theorem uses_empty (c : Nat) : b2n (uses c {}) = 0 := rfl

theorem Inv.step {w : World} {s : Owners} (h : Inv w s) (op : Op) (hop : NoEmptyCopy s op)
    (hlen : w.vars.length + 1 < twoPow64) :
    ∃ w', step w op = .ok w' ∧ Inv w' (sharedStep s op) ∧ w'.vars.length ≤ w.vars.length + 1 := by
  cases op with
  | make x =>
    rw [Shared.step, sharedStep]
    cases hx : w.vars.lookup x with
    | some d =>
      rw [lookup_data h hx]
      exact ⟨w, rfl, by simpa using h, by omega⟩
    | none =>
      rw [lookup_none' h hx, if_pos rfl]
      refine ⟨_, rfl, ?_, by simp⟩
      refine h.fresh (v0 := w.vars) (x := x) (v := (x, ⟨some w.heap.next, some w.counters.length⟩) :: w.vars)
        (Ok.refl h) (h.keys.cons _ hx) ?_ rfl ?_ ?_ rfl ?_
      · intro e he
        rcases List.mem_cons.1 he with rfl | he
        · exact .inl ⟨rfl, rfl⟩
        · exact .inr he
      · intro c hc
        rw [h.counters c hc, held_cons, uses_some]
        simp [show ¬ w.counters.length = c by omega]
      · rw [held_cons, uses_some, h.uses_fresh]
        simp
      · intro z
        simp only [lookup_cons', Owners.fresh, upd, ← h.own, ← h.next]
        split <;> rfl
  | makeEmpty x =>
    rw [Shared.step, sharedStep]
    cases hx : w.vars.lookup x with
    | some d =>
      rw [lookup_data h hx]
      exact ⟨w, rfl, by simpa using h, by omega⟩
    | none =>
      rw [lookup_none' h hx, if_pos rfl]
      refine ⟨_, rfl, ?_, by simp⟩
      refine ((Ok.refl h).cons (.inl rfl) hx).build h rfl ?_ rfl ?_
      · intro c hc
        rw [h.counters c hc, held_cons]
        simp [uses]
      · intro z
        simp only [lookup_cons', Owners.put, upd, ← h.own]
        split <;> rfl
  | copy x y =>
    rw [Shared.step, sharedStep]
    cases hx : w.vars.lookup x with
    | some d =>
      rw [lookup_data h hx]
      exact ⟨w, rfl, by simpa using h, by omega⟩
    | none =>
      rw [lookup_none' h hx, if_pos rfl]
      cases hy : w.vars.lookup y with
      | none =>
        refine ⟨w, rfl, ?_, by omega⟩
        rw [lookup_none' h hy]
        have : s.put x none = s := by
          unfold Owners.put upd
          congr 1
          funext z
          split
          · rename_i hz; rw [hz, lookup_none' h hx]
          · rfl
        rw [this]; exact h
      | some p =>
        have hd : p.data ≠ none := by
          intro hd
          apply hop
          rw [lookup_data h hy, hd]
          exact ⟨lookup_none' h hx, rfl⟩
        cases hc : p.count with
        | none => exact absurd ((h.null _ (mem_of_lookup hy)).2 hc) hd
        | some c =>
          obtain ⟨n, h1, h2, h3, h4⟩ := h.counter hy hc
          simp only [hc, fetchAdd_eq h1 (show n + 1 < twoPow64 by omega)]
          refine ⟨_, rfl, ?_, by simp⟩
          refine ((Ok.refl h).cons (held_of hy) hx).build h (by simp) ?_ rfl ?_
          · intro c' hc'
            rw [List.length_set] at hc'
            rw [held_cons]
            by_cases hcc : c = c'
            · subst hcc
              rw [List.getElem?_set_self hc', ← h2]
              simp [uses, hc]
            · rw [List.getElem?_set_ne hcc, h.counters c' hc']
              simp [uses, hc, show (c == c') = false by simpa using hcc]
          · intro z
            simp only [lookup_cons', Owners.put, upd, ← h.own, hy]
            split <;> rfl
  | move x y =>
    rw [Shared.step, sharedStep]
    cases hx : w.vars.lookup x with
    | some d =>
      rw [lookup_data h hx]
      exact ⟨w, rfl, by simpa using h, by omega⟩
    | none =>
      rw [lookup_none' h hx]
      cases hy : w.vars.lookup y with
      | none =>
        rw [lookup_none' h hy]
        exact ⟨w, rfl, by simpa using h, by omega⟩
      | some p =>
        have hxy : x ≠ y := by rintro rfl; rw [hx] at hy; cases hy
        have hx' : List.lookup x (w.vars.set y {}) = none := by rw [lookup_set, if_neg hxy, hx]
        rw [if_pos ⟨rfl, by rw [lookup_data h hy]; simp⟩]
        refine ⟨_, rfl, ?_, by simp [length_set]⟩
        refine (((Ok.refl h).set (.inl rfl)).cons (held_of hy) hx').build h rfl ?_ rfl ?_
        · intro c hc
          have h1 := held_set h.keys hy (uses c) {}
          have h2 := uses_empty c
          rw [h.counters c hc, held_cons]
          congr 2
          omega
        · intro z
          rw [lookup_data h hy]
          simp only [lookup_cons', lookup_set, Owners.put, upd, ← h.own, hy, Option.map_some]
          by_cases h1 : z = x
          · subst h1
            simp [hxy]
          · by_cases h2 : z = y
            · have h3 : ¬ y = x := fun h => hxy h.symm
              simp [h2, h3]
            · simp [h1, h2]
  | assign x y =>
    rw [Shared.step, sharedStep]
    cases hx : w.vars.lookup x with
    | none =>
      rw [lookup_none' h hx]
      exact ⟨w, rfl, by simpa using h, by omega⟩
    | some px =>
      cases hy : w.vars.lookup y with
      | none =>
        rw [lookup_none' h hy]
        exact ⟨w, rfl, by simpa using h, by omega⟩
      | some py =>
        simp only
        rw [if_pos (show s.own x ≠ none ∧ s.own y ≠ none from
          ⟨by rw [lookup_data h hx]; simp, by rw [lookup_data h hy]; simp⟩)]
        by_cases hxy : x = y
        · rw [if_neg (by simpa using hxy)]
          refine ⟨w, rfl, ?_, by omega⟩
          subst hxy
          have : s.put x (s.own x) = s := by
            unfold Owners.put upd
            congr 1
            funext z
            split
            · rename_i hz; rw [hz]
            · rfl
          rw [this]; exact h
        · rw [if_pos hxy]
          obtain ⟨cs, h1, h2, h3⟩ := h.release hx (by omega) w.heap
          rw [h1]
          have key : ∃ cs', retain cs py.count = .ok cs' ∧
              cs'.length = cs.length ∧
              ∀ c < cs'.length, cs'[c]? = some (some (held (uses c) (w.vars.set x py))) := by
            cases hc : py.count with
            | none =>
              refine ⟨cs, rfl, rfl, fun c hlt => ?_⟩
              obtain ⟨n, h4, h5⟩ := h3 c hlt
              have h6 := held_set h.keys hx (uses c) py
              have h7 : b2n (uses c py) = 0 := by simp [uses, hc]
              rw [h4]
              congr 2
              omega
            | some c =>
              have hlt : c < cs.length := by rw [h2]; exact h.cnt _ (mem_of_lookup hy) c hc
              obtain ⟨n, h4, h5⟩ := h3 c hlt
              have h8 := held_le (uses c) w.vars
              refine ⟨cs.set c (some (n + 1)), ?_, by simp, fun c' hlt' => ?_⟩
              · exact fetchAdd_eq h4 (by omega)
              · rw [List.length_set] at hlt'
                have h6 := held_set h.keys hx (uses c') py
                by_cases hcc : c = c'
                · subst hcc
                  have h7 : b2n (uses c py) = 1 := by simp [uses, hc]
                  rw [List.getElem?_set_self hlt']
                  congr 2
                  omega
                · have h7 : b2n (uses c' py) = 0 := by simp [uses, hc, show (c == c') = false by simpa using hcc]
                  obtain ⟨n', h9, h10⟩ := h3 c' hlt'
                  rw [List.getElem?_set_ne hcc, h9]
                  congr 2
                  omega
          obtain ⟨cs', h4, h5, h6⟩ := key
          simp only [bind, Except.bind, h4]
          refine ⟨_, rfl, ?_, by simp [length_set]⟩
          refine ((Ok.refl h).set (held_of hy)).build h (by rw [h5, h2]) h6 rfl ?_
          intro z
          simp only [lookup_set, Owners.put, upd, ← h.own, hx, hy, Option.map_some]
          split <;> rfl
  | moveAssign x y =>
    rw [Shared.step, sharedStep]
    cases hx : w.vars.lookup x with
    | none =>
      rw [lookup_none' h hx]
      exact ⟨w, rfl, by simpa using h, by omega⟩
    | some px =>
      cases hy : w.vars.lookup y with
      | none =>
        rw [lookup_none' h hy]
        exact ⟨w, rfl, by simpa using h, by omega⟩
      | some py =>
        simp only
        by_cases hxy : x = y
        · rw [if_neg (by simpa using hxy), if_neg (by simp [hxy])]
          exact ⟨w, rfl, h, by omega⟩
        · rw [if_pos hxy, if_pos (show s.own x ≠ none ∧ s.own y ≠ none ∧ x ≠ y from
            ⟨by rw [lookup_data h hx]; simp, by rw [lookup_data h hy]; simp, hxy⟩)]
          obtain ⟨cs, h1, h2, h3⟩ := h.release hx (by omega) w.heap
          rw [h1]
          have hy' : List.lookup y (w.vars.set x py) = some py := by
            rw [lookup_set, if_neg (fun h => hxy h.symm), hy]
          refine ⟨_, rfl, ?_, by simp [length_set]⟩
          refine (((Ok.refl h).set (held_of hy)).set (.inl rfl)).build h h2 ?_ rfl ?_
          · intro c hc
            obtain ⟨n, h4, h5⟩ := h3 c hc
            have h6 := held_set h.keys hx (uses c) py
            have h7 := held_set (h.keys.set x py) hy' (uses c) {}
            have h8 := uses_empty c
            rw [h4]
            congr 2
            omega
          · intro z
            rw [lookup_data h hy]
            simp only [lookup_set, Owners.put, upd, ← h.own, hx, hy, Option.map_some,
              if_neg (fun h => hxy h.symm : ¬ y = x)]
            by_cases h1 : z = y
            · simp [h1]
            · by_cases h2 : z = x
              · simp [h2, hxy]
              · simp [h1, h2]
  | reset x =>
    rw [Shared.step, sharedStep]
    cases hx : w.vars.lookup x with
    | none =>
      rw [lookup_none' h hx]
      exact ⟨w, rfl, by simpa using h, by omega⟩
    | some p =>
      simp only
      rw [if_pos (show s.own x ≠ none by rw [lookup_data h hx]; simp)]
      have own' : ∀ z, (List.lookup z (w.vars.set x {})).map (·.data) = (s.put x (some none)).own z := by
        intro z
        simp only [lookup_set, Owners.put, upd, ← h.own, hx, Option.map_some]
        split <;> rfl
      unfold Shared.reset
      by_cases hd : p.data = none
      · rw [if_neg (by simpa using hd)]
        have hp : p = {} := by
          have := (h.null _ (mem_of_lookup hx)).1 hd
          obtain ⟨d, c⟩ := p
          simp_all
        refine ⟨_, rfl, ?_, by simp [length_set]⟩
        subst hp
        refine ((Ok.refl h).set (.inl rfl)).build h rfl ?_ rfl own'
        intro c hc
        have h6 := held_set h.keys hx (uses c) {}
        rw [h.counters c hc]
        congr 2
        omega
      · rw [if_pos hd]
        obtain ⟨cs, h1, h2, h3⟩ := h.release hx (by omega) w.heap
        rw [h1]
        refine ⟨_, rfl, ?_, by simp [length_set]⟩
        refine ((Ok.refl h).set (.inl rfl)).build h h2 ?_ rfl own'
        intro c hc
        obtain ⟨n, h4, h5⟩ := h3 c hc
        have h6 := held_set h.keys hx (uses c) {}
        have h8 := uses_empty c
        rw [h4]
        congr 2
        omega
  | resetNew x =>
    rw [Shared.step, sharedStep]
    cases hx : w.vars.lookup x with
    | none =>
      rw [lookup_none' h hx]
      exact ⟨w, rfl, by simpa using h, by omega⟩
    | some p =>
      simp only
      rw [if_pos (show s.own x ≠ none by rw [lookup_data h hx]; simp)]
      unfold Shared.reset
      have hd : p.data ≠ w.heap.new.2 := by
        intro hd
        have := h.data _ (mem_of_lookup hx) _ hd
        omega
      rw [if_pos hd]
      obtain ⟨cs, h1, h2, h3⟩ := h.release hx (by omega) w.heap.new.1
      rw [h1]
      refine ⟨_, rfl, ?_, by simp [length_set]⟩
      have hcs : cs.length = w.counters.length := h2
      refine h.fresh (v0 := w.vars) (x := x) (cs := cs) (Ok.refl h) (h.keys.set _ _) ?_ h2 ?_ ?_ rfl ?_
      · intro e he
        rcases mem_set he with rfl | he
        · refine .inl ⟨?_, rfl⟩
          rw [← hcs]
          rfl
        · exact .inr he
      · intro c hc
        obtain ⟨n, h4, h5⟩ := h3 c hc
        have h6 := held_set h.keys hx (uses c) ⟨some w.heap.next, some cs.length⟩
        have h7 : b2n (uses c ⟨some w.heap.next, some cs.length⟩) = 0 := by
          rw [uses_some]
          simp [show ¬ cs.length = c by omega]
        rw [h4]
        congr 2
        exact (show n = held (uses c) (w.vars.set x ⟨some w.heap.next, some cs.length⟩) by omega)
      · have h6 := held_set h.keys hx (uses w.counters.length) ⟨some w.heap.next, some cs.length⟩
        have h7 : b2n (uses w.counters.length ⟨some w.heap.next, some cs.length⟩) = 1 := by
          rw [uses_some]
          simp [hcs]
        have h8 := h.uses_fresh
        have h9 : b2n (uses w.counters.length p) = 0 := by
          cases hu : uses w.counters.length p with
          | false => rfl
          | true =>
            have := held_pos hx hu
            omega
        exact (show held (uses w.counters.length) (w.vars.set x ⟨some w.heap.next, some cs.length⟩) = 1 by omega)
      · intro z
        simp only [lookup_set, Owners.fresh, upd, ← h.own, hx, Option.map_some, ← h.next]
        split <;> rfl
  | deref x =>
    rw [Shared.step, sharedStep]
    cases hx : w.vars.lookup x with
    | none => exact ⟨w, rfl, h, by omega⟩
    | some p =>
      refine ⟨w, ?_, h, by omega⟩
      simp only
      cases hd : p.data with
      | none => rfl
      | some i =>
        have h1 := h.data _ (mem_of_lookup hx) i hd
        have h2 := h.heap i
        rw [h.dead, decide_eq_true h1] at h2
        simp only [List.count_nil, Nat.add_zero, b2n_true] at h2
        have h3 : i ∈ w.heap.live := List.count_pos_iff.1 (by omega)
        simp only [Heap.deref, h3, if_true, caught]
  | destroy x =>
    rw [Shared.step, sharedStep]
    cases hx : w.vars.lookup x with
    | none =>
      refine ⟨w, rfl, ?_, by omega⟩
      have : s.put x none = s := by
        unfold Owners.put upd
        congr 1
        funext z
        split
        · rename_i hz; rw [hz, lookup_none' h hx]
        · rfl
      rw [this]; exact h
    | some p =>
      simp only
      obtain ⟨cs, h1, h2, h3⟩ := h.release hx (by omega) w.heap
      rw [h1]
      refine ⟨_, rfl, ?_, by have := length_drop w.vars x; simp only; omega⟩
      refine (Ok.refl h).drop.build h h2 ?_ rfl ?_
      · intro c hc
        obtain ⟨n, h4, h5⟩ := h3 c hc
        have h6 := held_drop h.keys hx (uses c)
        rw [h4]
        congr 2
        omega
      · intro z
        simp only [lookup_drop, Owners.put, upd, ← h.own]
        split <;> rfl

/-- Copy construction from an empty pointer increments a null counter. -/
theorem Inv.step_empty {w : World} {s : Owners} (h : Inv w s) {op : Op} (hop : ¬ NoEmptyCopy s op) :
    Shared.step w op = .error .ub := by
  cases op with
  | copy x y =>
    obtain ⟨h1, h2⟩ := Classical.not_not.1 hop
    cases hx : w.vars.lookup x with
    | some d => rw [lookup_data h hx] at h1; cases h1
    | none =>
      cases hy : w.vars.lookup y with
      | none => rw [lookup_none' h hy] at h2; cases h2
      | some p =>
        rw [lookup_data h hy] at h2
        injection h2 with h2
        have hc : p.count = none := (h.null _ (mem_of_lookup hy)).1 h2
        simp only [Shared.step, hx, hy, hc]
        rfl
  | _ => exact absurd trivial hop

end Caitlyn.Shared
