import Verif.Model.JsonMem
import Verif.Spec.JsonMem

/-! # Helper lemmas: copying a JSON value when memory may run out -/

namespace Caitlyn.JsonMem
open Caitlyn.Spec
variable {F : Type} (fails : Nat → Bool)

/-- What a part of the copying did: all its steps succeeded, or the last one tried is the first that failed. -/
def Outcome (m : Mem) (steps made : Nat) (b : Bool) (m' : Mem) : Prop :=
  (b = true ∧ m'.tries = m.tries + steps ∧ m'.nodes = m.nodes + made ∧ Clear fails m.tries m'.tries) ∨
  (b = false ∧ m.tries < m'.tries ∧ m'.tries ≤ m.tries + steps ∧ m.nodes ≤ m'.nodes ∧ m'.nodes ≤ m.nodes + made ∧
    fails (m'.tries - 1) = true ∧ Clear fails m.tries (m'.tries - 1))

theorem attempt_outcome (m : Mem) : Outcome fails m 1 0 (attempt fails m).1 (attempt fails m).2 ∧ (attempt fails m).2.nodes = m.nodes := by
  refine ⟨?_, rfl⟩
  unfold attempt
  cases h : fails m.tries with
  | false =>
    refine .inl ⟨rfl, rfl, rfl, fun i h1 h2 => ?_⟩
    simp only at h2
    rw [show i = m.tries by omega]; exact h
  | true =>
    refine .inr ⟨rfl, ?_, ?_, ?_, ?_, h, fun i h1 h2 => ?_⟩
    · simp
    · simp
    · simp
    · simp
    · simp only at h2; omega

theorem clear_append {fails : Nat → Bool} {a b c : Nat} (h1 : Clear fails a b) (h2 : Clear fails b c) : Clear fails a c := by
  intro i ha hc
  by_cases h : i < b
  · exact h1 i ha h
  · exact h2 i (by omega) hc

/-- One part after the other. -/
theorem Outcome.seq {m m1 m2 : Mem} {s1 s2 n1 n2 : Nat} {b1 b2 : Bool} (h1 : Outcome fails m s1 n1 b1 m1) (hb : b1 = true)
    (h2 : Outcome fails m1 s2 n2 b2 m2) : Outcome fails m (s1 + s2) (n1 + n2) b2 m2 := by
  rcases h1 with ⟨_, a1, a2, a3⟩ | ⟨h, _⟩
  · rcases h2 with ⟨c0, c1, c2, c3⟩ | ⟨c0, c1, c2, c3, c4, c5, c6⟩
    · exact .inl ⟨c0, by omega, by omega, clear_append a3 c3⟩
    · exact .inr ⟨c0, by omega, by omega, by omega, by omega, c5, clear_append a3 c6⟩
  · rw [hb] at h; cases h

theorem Outcome.more {m m1 : Mem} {s1 s2 n1 n2 : Nat} {b1 : Bool} (h1 : Outcome fails m s1 n1 b1 m1) (hb : b1 = false)
    (hs : s1 ≤ s2) (hn : n1 ≤ n2) : Outcome fails m s2 n2 false m1 := by
  rcases h1 with ⟨h, _⟩ | ⟨_, c1, c2, c3, c4, c5, c6⟩
  · rw [hb] at h; cases h
  · exact .inr ⟨rfl, by omega, by omega, by omega, by omega, c5, c6⟩

theorem Outcome.nothing (m : Mem) : Outcome fails m 0 0 true m :=
  .inl ⟨rfl, rfl, rfl, fun i h1 h2 => by omega⟩

mutual
theorem node_outcome : ∀ (j : Json F) (m : Mem),
    Outcome fails m (work j) (nodes j) (copyNode fails j m).1 (copyNode fails j m).2 ∧
      ((copyNode fails j m).1 = false → (copyNode fails j m).2.nodes < m.nodes + nodes j)
  | j, m => by
    have hat := attempt_outcome fails m
    have hw : 1 ≤ work j := by cases j <;> simp [work] <;> omega
    have hn : 1 ≤ nodes j := by cases j <;> simp [nodes]
    unfold copyNode
    generalize attempt fails m = x at hat
    obtain ⟨b, m1⟩ := x
    cases b with
    | false =>
      simp only
      refine ⟨hat.1.more fails rfl hw (by omega), fun _ => ?_⟩
      have := hat.2
      simp only at this
      omega
    | true =>
      simp only
      have hu := union_outcome j { m1 with nodes := m1.nodes + 1 }
      generalize copyUnion fails j { m1 with nodes := m1.nodes + 1 } = y at hu
      obtain ⟨b, m2⟩ := y
      have h1 := hat.1
      have h2 := hat.2
      simp only at h2
      have hsplit : Outcome fails m (1 + (work j - 1)) (nodes j) b m2 ∨ b = false ∧
          Outcome fails m (1 + (work j - 1)) (nodes j) false { m2 with nodes := m2.nodes - 1 } ∧ m2.nodes - 1 < m.nodes + nodes j := by
        rcases h1 with ⟨_, a1, a2, a3⟩ | ⟨h, _⟩
        · rcases hu with ⟨c0, c1, c2, c3⟩ | ⟨c0, c1, c2, c3, c4, c5, c6⟩
          · simp only at c1 c2 c3 a1
            exact .inl (.inl ⟨c0, by omega, by omega, clear_append a3 c3⟩)
          · simp only at c0 c1 c2 c3 c4 c5 c6 a1
            refine .inr ⟨c0, .inr ⟨rfl, by simp only; omega, by simp only; omega, by simp only; omega, by simp only; omega, c5, clear_append a3 c6⟩, by omega⟩
        · cases h
      rw [show 1 + (work j - 1) = work j by omega] at hsplit
      cases b with
      | true =>
        rcases hsplit with h | ⟨h, _⟩
        · exact ⟨h, fun h => by cases h⟩
        · cases h
      | false =>
        simp only
        rcases hu with ⟨h, _⟩ | ⟨c0, c1, c2, c3, c4, c5, c6⟩
        · cases h
        · simp only at c1 c2 c3 c4 c5 c6
          rcases h1 with ⟨_, a1, a2, a3⟩ | ⟨h, _⟩
          · simp only at a1 a3
            exact ⟨.inr ⟨rfl, by simp only; omega, by simp only; omega, by simp only; omega, by simp only; omega, c5, clear_append a3 c6⟩,
              fun _ => by omega⟩
          · cases h
theorem union_outcome : ∀ (j : Json F) (m : Mem),
    Outcome fails m (work j - 1) (nodes j - 1) (copyUnion fails j m).1 (copyUnion fails j m).2
  | .null, m => by unfold copyUnion; exact .nothing fails m
  | .bool _, m => by unfold copyUnion; exact .nothing fails m
  | .int _, m => by unfold copyUnion; exact .nothing fails m
  | .float _, m => by unfold copyUnion; exact .nothing fails m
  | .str _, m => by unfold copyUnion; exact (attempt_outcome fails m).1
  | .arr js, m => by
    have hat := (attempt_outcome fails m).1
    unfold copyUnion
    generalize attempt fails m = x at hat
    obtain ⟨b, m1⟩ := x
    have ew : work (.arr js) - 1 = 1 + workList js := by rw [work]; omega
    have en : nodes (.arr js) - 1 = 0 + nodesList js := by rw [nodes]; omega
    rw [ew, en]
    cases b with
    | false => exact hat.more fails rfl (by omega) (by omega)
    | true => exact hat.seq fails rfl (items_outcome js m1).1
  | .obj ms, m => by
    unfold copyUnion
    have ew : work (.obj ms) - 1 = workMembers ms := by rw [work]; omega
    have en : nodes (.obj ms) - 1 = nodesMembers ms := by rw [nodes]; omega
    rw [ew, en]
    exact (members_outcome ms m).1
theorem items_outcome : ∀ (js : List (Json F)) (m : Mem),
    Outcome fails m (workList js) (nodesList js) (copyItems fails js m).1 (copyItems fails js m).2.2 ∧
      ((copyItems fails js m).1 = true → (copyItems fails js m).2.1 = js.length) ∧
      ((copyItems fails js m).1 = false → (copyItems fails js m).2.1 < js.length ∧
        m.nodes + nodesList (js.take (copyItems fails js m).2.1) ≤ (copyItems fails js m).2.2.nodes)
  | [], m => by unfold copyItems; exact ⟨.nothing fails m, fun _ => rfl, fun h => by cases h⟩
  | j :: js, m => by
    have h1 := (node_outcome j m).1
    rw [workList, nodesList, copyItems]
    generalize copyNode fails j m = x at h1
    obtain ⟨b, m1⟩ := x
    cases b with
    | false =>
      refine ⟨h1.more fails rfl (by omega) (by omega), fun h => (by cases h), fun _ => ⟨by simp, ?_⟩⟩
      rcases h1 with ⟨h, _⟩ | ⟨_, c1, c2, c3, c4, c5, c6⟩
      · cases h
      · simpa [nodesList] using c3
    | true =>
      have h2 := (attempt_outcome fails m1)
      simp only
      generalize attempt fails m1 = y at h2
      obtain ⟨b, m2⟩ := y
      have h12 := h1.seq fails rfl h2.1
      have e1 : m1.nodes = m.nodes + nodes j := by
        rcases h1 with ⟨_, _, a, _⟩ | ⟨h, _⟩
        · exact a
        · cases h
      have e2 : m2.nodes = m1.nodes := h2.2
      cases b with
      | false =>
        refine ⟨h12.more fails rfl (by omega) (by omega), fun h => (by cases h), fun _ => ⟨by simp, ?_⟩⟩
        simp only [List.take_zero, nodesList]
        omega
      | true =>
        simp only
        obtain ⟨h3, h4, h5⟩ := items_outcome js m2
        generalize copyItems fails js m2 = z at h3 h4 h5
        obtain ⟨b, k, m3⟩ := z
        simp only at h3 h4 h5 ⊢
        refine ⟨?_, fun h => by rw [h4 h]; rfl, fun h => ⟨by have := (h5 h).1; simp; omega, ?_⟩⟩
        · have := h12.seq fails rfl h3
          rw [Nat.add_zero] at this
          exact this
        · have := (h5 h).2
          simp only [List.take_succ_cons, nodesList]
          omega
theorem members_outcome : ∀ (ms : List (Str × Json F)) (m : Mem),
    Outcome fails m (workMembers ms) (nodesMembers ms) (copyMembers fails ms m).1 (copyMembers fails ms m).2.2 ∧
      ((copyMembers fails ms m).1 = true → (copyMembers fails ms m).2.1 = ms.length) ∧
      ((copyMembers fails ms m).1 = false → (copyMembers fails ms m).2.1 < ms.length ∧
        m.nodes + nodesMembers (ms.take (copyMembers fails ms m).2.1) ≤ (copyMembers fails ms m).2.2.nodes)
  | [], m => by unfold copyMembers; exact ⟨.nothing fails m, fun _ => rfl, fun h => by cases h⟩
  | (k, j) :: ms, m => by
    have h1 := (node_outcome j m).1
    rw [workMembers, nodesMembers, copyMembers]
    generalize copyNode fails j m = x at h1
    obtain ⟨b, m1⟩ := x
    cases b with
    | false =>
      refine ⟨h1.more fails rfl (by omega) (by omega), fun h => (by cases h), fun _ => ⟨by simp, ?_⟩⟩
      rcases h1 with ⟨h, _⟩ | ⟨_, c1, c2, c3, c4, c5, c6⟩
      · cases h
      · simpa [nodesMembers] using c3
    | true =>
      have h2 := (attempt_outcome fails m1)
      simp only
      generalize attempt fails m1 = y at h2
      obtain ⟨b, m2⟩ := y
      have h12 := h1.seq fails rfl h2.1
      have e1 : m1.nodes = m.nodes + nodes j := by
        rcases h1 with ⟨_, _, a, _⟩ | ⟨h, _⟩
        · exact a
        · cases h
      have e2 : m2.nodes = m1.nodes := h2.2
      cases b with
      | false =>
        refine ⟨h12.more fails rfl (by omega) (by omega), fun h => (by cases h), fun _ => ⟨by simp, ?_⟩⟩
        simp only [List.take_zero, nodesMembers]
        omega
      | true =>
        simp only
        obtain ⟨h3, h4, h5⟩ := members_outcome ms m2
        generalize copyMembers fails ms m2 = z at h3 h4 h5
        obtain ⟨b, k', m3⟩ := z
        simp only at h3 h4 h5 ⊢
        refine ⟨?_, fun h => by rw [h4 h]; rfl, fun h => ⟨by have := (h5 h).1; simp; omega, ?_⟩⟩
        · have := h12.seq fails rfl h3
          rw [Nat.add_zero] at this
          exact this
        · have := (h5 h).2
          simp only [List.take_succ_cons, nodesMembers]
          omega
end

end Caitlyn.JsonMem

namespace Caitlyn.JsonMem
open Caitlyn.Spec
variable {F : Type} (fails : Nat → Bool)

theorem Outcome.clear {fails : Nat → Bool} {m m' : Mem} {s n : Nat} {b : Bool} (h : Outcome fails m s n b m') (hc : Clear fails m.tries (m.tries + s)) :
    b = true ∧ m' = ⟨m.tries + s, m.nodes + n⟩ := by
  rcases h with ⟨h0, h1, h2, _⟩ | ⟨_, h1, h2, _, _, h5, _⟩
  · refine ⟨h0, ?_⟩
    cases m'
    simp only at h1 h2
    rw [h1, h2]
  · have := hc (m'.tries - 1) (by omega) (by omega)
    rw [h5] at this
    cases this

theorem attempt_of (m : Mem) (b : Bool) (h : fails m.tries = b) : attempt fails m = (!b, ⟨m.tries + 1, m.nodes⟩) := by
  unfold attempt; rw [h]

theorem items_last : ∀ (js : List (Json F)) (m : Mem), js ≠ [] → Clear fails m.tries (m.tries + workList js - 1) →
    fails (m.tries + workList js - 1) = true →
    (copyItems fails js m).1 = false ∧ (copyItems fails js m).2.2 = ⟨m.tries + workList js, m.nodes + nodesList js⟩ := by
  intro js
  induction js with
  | nil => intro m h; exact absurd rfl h
  | cons j js ih =>
    intro m _ hc hf
    rw [workList] at hc hf ⊢
    rw [nodesList, copyItems]
    have h1 := ((node_outcome fails j m).1).clear (fun i h1 h2 => hc i h1 (by omega))
    generalize copyNode fails j m = x at h1
    obtain ⟨b, m1⟩ := x
    simp only at h1
    obtain ⟨rfl, rfl⟩ := h1
    simp only
    cases js with
    | nil =>
      rw [workList] at hf
      rw [attempt_of fails _ true (by rw [← hf]; congr 1)]
      simp only [Bool.not_true, workList, nodesList, Nat.add_zero, true_and, Mem.mk.injEq, and_true]
      omega
    | cons j' js =>
      have hw : 1 ≤ workList (j' :: js) := by rw [workList]; omega
      rw [attempt_of fails _ false (hc _ (by simp only; omega) (by simp only; omega))]
      simp only [Bool.not_false]
      have := ih ⟨m.tries + work j + 1, m.nodes + nodes j⟩ (by simp)
        (fun i h1 h2 => hc i (by simp only at h1; omega) (by simp only at h2; omega))
        (by rw [← hf]; congr 1; simp only; omega)
      refine ⟨this.1, ?_⟩
      rw [this.2]
      simp only [Mem.mk.injEq]
      omega

theorem members_last : ∀ (ms : List (Str × Json F)) (m : Mem), ms ≠ [] → Clear fails m.tries (m.tries + workMembers ms - 1) →
    fails (m.tries + workMembers ms - 1) = true →
    (copyMembers fails ms m).1 = false ∧ (copyMembers fails ms m).2.2 = ⟨m.tries + workMembers ms, m.nodes + nodesMembers ms⟩ := by
  intro ms
  induction ms with
  | nil => intro m h; exact absurd rfl h
  | cons e ms ih =>
    obtain ⟨k, j⟩ := e
    intro m _ hc hf
    rw [workMembers] at hc hf ⊢
    rw [nodesMembers, copyMembers]
    have h1 := ((node_outcome fails j m).1).clear (fun i h1 h2 => hc i h1 (by omega))
    generalize copyNode fails j m = x at h1
    obtain ⟨b, m1⟩ := x
    simp only at h1
    obtain ⟨rfl, rfl⟩ := h1
    simp only
    cases ms with
    | nil =>
      rw [workMembers] at hf
      rw [attempt_of fails _ true (by rw [← hf]; congr 1)]
      simp only [Bool.not_true, workMembers, nodesMembers, Nat.add_zero, true_and, Mem.mk.injEq, and_true]
      omega
    | cons e ms =>
      obtain ⟨k', j'⟩ := e
      have hw : 1 ≤ workMembers ((k', j') :: ms) := by rw [workMembers]; omega
      rw [attempt_of fails _ false (hc _ (by simp only; omega) (by simp only; omega))]
      simp only [Bool.not_false]
      have := ih ⟨m.tries + work j + 1, m.nodes + nodes j⟩ (by simp)
        (fun i h1 h2 => hc i (by simp only at h1; omega) (by simp only at h2; omega))
        (by rw [← hf]; congr 1; simp only; omega)
      refine ⟨this.1, ?_⟩
      rw [this.2]
      simp only [Mem.mk.injEq]
      omega

theorem node_last (j : Json F) (hp : HasParts j) (m : Mem) (hc : Clear fails m.tries (m.tries + work j - 1))
    (hf : fails (m.tries + work j - 1) = true) :
    copyNode fails j m = (false, ⟨m.tries + work j, m.nodes + (nodes j - 1)⟩) := by
  cases j with
  | arr js =>
    rw [work] at hc hf ⊢
    rw [copyNode]
    have hw : 1 ≤ workList js := by cases js with
      | nil => exact absurd rfl hp
      | cons => rw [workList]; omega
    rw [attempt_of fails _ false (hc _ (by omega) (by omega))]
    simp only [Bool.not_false]
    rw [copyUnion, attempt_of fails _ false (hc _ (by simp only; omega) (by simp only; omega))]
    simp only [Bool.not_false]
    have h := items_last fails js ⟨m.tries + 1 + 1, m.nodes + 1⟩ hp
      (fun i h1 h2 => hc i (by simp only at h1; omega) (by simp only at h2; omega)) (by rw [← hf]; congr 1; simp only; omega)
    rw [h.1, h.2]
    simp only [nodes, Prod.mk.injEq, Mem.mk.injEq, true_and]
    omega
  | obj ms =>
    rw [work] at hc hf ⊢
    rw [copyNode]
    have hw : 1 ≤ workMembers ms := by cases ms with
      | nil => exact absurd rfl hp
      | cons e ms => obtain ⟨k, j⟩ := e; rw [workMembers]; omega
    rw [attempt_of fails _ false (hc _ (by omega) (by omega))]
    simp only [Bool.not_false]
    rw [copyUnion]
    have h := members_last fails ms ⟨m.tries + 1, m.nodes + 1⟩ hp
      (fun i h1 h2 => hc i (by simp only at h1; omega) (by simp only at h2; omega)) (by rw [← hf]; congr 1; simp only; omega)
    rw [h.1, h.2]
    simp only [nodes, Prod.mk.injEq, Mem.mk.injEq, true_and]
    omega
  | _ => exact absurd hp (by simp [HasParts])

mutual
theorem released_eq : ∀ j : Json F, released j + 1 = nodes j
  | .null => by rw [released, nodes] <;> simp
  | .bool _ => by rw [released, nodes] <;> simp
  | .int _ => by rw [released, nodes] <;> simp
  | .float _ => by rw [released, nodes] <;> simp
  | .str _ => by rw [released, nodes] <;> simp
  | .arr js => by rw [released, nodes, releasedItems_eq js]; omega
  | .obj ms => by rw [released, nodes, releasedMembers_eq ms]; omega
theorem releasedItems_eq : ∀ js : List (Json F), releasedItems js = nodesList js
  | [] => by rw [releasedItems, nodesList]
  | j :: js => by
    have := released_eq j
    rw [releasedItems, nodesList, releasedItems_eq js]; omega
theorem releasedMembers_eq : ∀ ms : List (Str × Json F), releasedMembers ms = nodesMembers ms
  | [] => by rw [releasedMembers, nodesMembers]
  | (_, j) :: ms => by
    have := released_eq j
    rw [releasedMembers, nodesMembers, releasedMembers_eq ms]; omega
end

end Caitlyn.JsonMem
