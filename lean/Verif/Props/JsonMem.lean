import Verif.Proofs.JsonMem

/-! # Property C129: copying a JSON value when memory runs out -/

namespace Caitlyn
open Caitlyn.Spec JsonMem

variable {F : Type}

/-- C129. If none of the steps that may allocate fails, a copy of every value is made with as many nodes as the value has. -/
theorem C129_enough (fails : Nat → Bool) (j : Json F) (m : Mem) (h : Clear fails m.tries (m.tries + work j)) :
    copyNode fails j m = (true, ⟨m.tries + work j, m.nodes + nodes j⟩) := by
  have := ((node_outcome fails j m).1).clear h
  generalize copyNode fails j m = x at this
  obtain ⟨b, m'⟩ := x
  simp only at this
  rw [this.1, this.2]

/-- C129. Whatever fails: the copy is not made exactly if a step of it fails, the first such step ends it, no node that existed
before is released, and fewer nodes than the value has are left over. -/
theorem C129_bound (fails : Nat → Bool) (j : Json F) (m m' : Mem) (h : copyNode fails j m = (false, m')) :
    (∃ i, m.tries ≤ i ∧ i < m.tries + work j ∧ fails i = true ∧ Clear fails m.tries i ∧ m'.tries = i + 1) ∧
    m.nodes ≤ m'.nodes ∧ m'.nodes < m.nodes + nodes j := by
  have h1 := node_outcome fails j m
  rw [h] at h1
  obtain ⟨h1, h2⟩ := h1
  rcases h1 with ⟨h, _⟩ | ⟨_, c1, c2, c3, c4, c5, c6⟩
  · cases h
  · simp only at c1 c2 c3 c5 c6
    exact ⟨⟨m'.tries - 1, by omega, by omega, c5, c6, by omega⟩, c3, h2 rfl⟩

/-- C129 for values without items and members: a copy that fails leaves no node behind. Partial: C129_fails is about all others. -/
theorem C129_partial (fails : Nat → Bool) (j : Json F) (hj : ¬ HasParts j) (m m' : Mem) (h : copyNode fails j m = (false, m')) :
    m'.nodes = m.nodes := by
  have hn : nodes j = 1 := by
    cases j with
    | arr js =>
      cases js with
      | nil => simp [nodes, nodesList]
      | cons => exact absurd (by simp [HasParts]) hj
    | obj ms =>
      cases ms with
      | nil => simp [nodes, nodesMembers]
      | cons => exact absurd (by simp [HasParts]) hj
    | _ => simp [nodes]
  have := (C129_bound fails j m m' h).2
  omega

/-- C129 is false for every value with an item or a member: if only the last step of the copy fails, every node of the copy but
the outermost stays in memory, and nothing refers to them. `CopyUnion` keeps the new nodes in raw pointers, and an exception in a
constructor does not run the destructor. By C129_bound no failure leaves more. -/
theorem C129_fails (j : Json F) (hj : HasParts j) (m : Mem) :
    copyNode (fun i => i == m.tries + work j - 1) j m = (false, ⟨m.tries + work j, m.nodes + (nodes j - 1)⟩) ∧ 1 ≤ nodes j - 1 := by
  refine ⟨node_last _ j hj m (fun i h1 h2 => ?_) (by simp), ?_⟩
  · simp only [beq_eq_false_iff_ne]; omega
  · cases j with
    | arr js =>
      cases js with
      | nil => exact absurd rfl hj
      | cons j js => have : 1 ≤ nodes j := by cases j <;> simp [nodes]
                     simp only [nodes, nodesList]; omega
    | obj ms =>
      cases ms with
      | nil => exact absurd rfl hj
      | cons e ms => obtain ⟨k, j⟩ := e
                     have : 1 ≤ nodes j := by cases j <;> simp [nodes]
                     simp only [nodes, nodesMembers]; omega
    | _ => exact absurd hj (by simp [HasParts])

/-- A value for which the hypotheses hold: `{"a": [null, "x"]}`, nine steps and four nodes, of which three are left over. -/
example : let j : Json Unit := .obj [(c!"a", .arr [.null, .str c!"x"])]
    HasParts j ∧ work j = 9 ∧ nodes j = 4 ∧ (copyNode (fun i => i == 8) j ⟨0, 0⟩).2.nodes = 3 ∧
      (copyNode (fun i => i == 9) j ⟨0, 0⟩).2.nodes = 4 := by
  refine ⟨by simp [HasParts], by decide +kernel, by decide +kernel, ?_, ?_⟩ <;>
    simp [copyNode, copyUnion, copyMembers, copyItems, attempt]

/-- C129 for assignments: if nothing fails the variable has the value and the nodes of the old value are gone. -/
theorem C129_assign_enough (fails : Nat → Bool) (target source : Json F) (m : Mem)
    (h : Clear fails m.tries (m.tries + work source)) :
    assign fails target source m =
      (true, .value source, ⟨m.tries + (work source - 1), m.nodes - (nodes target - 1) + (nodes source - 1)⟩) := by
  have hr := released_eq target
  unfold assign
  cases source with
  | str s =>
    simp only
    rw [attempt_of fails _ false (h _ (by simp only; omega) (by simp [work]))]
    simp only [Bool.not_false, work, nodes, Prod.mk.injEq, Mem.mk.injEq, true_and]
    omega
  | arr js =>
    rw [work] at h ⊢
    simp only
    rw [attempt_of fails _ false (h _ (by simp only; omega) (by simp only; omega))]
    simp only [Bool.not_false]
    obtain ⟨h1, h2, _⟩ := items_outcome fails js ⟨m.tries + 1, m.nodes - released target⟩
    have h1 := h1.clear (fun i h1 h2 => h i (by simp only at h1; omega) (by simp only at h2; omega))
    generalize copyItems fails js ⟨m.tries + 1, m.nodes - released target⟩ = x at h1 h2
    obtain ⟨b, k, m'⟩ := x
    simp only at h1 h2
    obtain ⟨rfl, rfl⟩ := h1
    rw [h2 rfl]
    simp only [List.take_length, nodes, Prod.mk.injEq, Mem.mk.injEq, true_and]
    omega
  | obj ms =>
    rw [work] at h ⊢
    simp only
    obtain ⟨h1, h2, _⟩ := members_outcome fails ms ⟨m.tries, m.nodes - released target⟩
    have h1 := h1.clear (fun i h1 h2 => h i (by simp only at h1; omega) (by simp only at h2; omega))
    generalize copyMembers fails ms ⟨m.tries, m.nodes - released target⟩ = x at h1 h2
    obtain ⟨b, k, m'⟩ := x
    simp only at h1 h2
    obtain ⟨rfl, rfl⟩ := h1
    rw [h2 rfl]
    simp only [List.take_length, nodes, Prod.mk.injEq, Mem.mk.injEq, true_and]
    omega
  | _ =>
    simp only [work, nodes, Prod.mk.injEq, Mem.mk.injEq, true_and]
    omega

/-- C129 for assignments that fail, exactly what is left in the variable: nothing but a type, or the elements copied before
the failure, fewer than all of them. The old value is gone in every case. -/
theorem C129_assign_exact (fails : Nat → Bool) (target source : Json F) (m m' : Mem) (held : Held F)
    (h : assign fails target source m = (false, held, m')) :
    (∃ s, source = .str s ∧ held = .nothing .string ∧ m'.nodes = m.nodes - (nodes target - 1)) ∨
    (∃ js, source = .arr js ∧ held = .nothing .array ∧ m'.nodes = m.nodes - (nodes target - 1)) ∨
    (∃ js k, source = .arr js ∧ k < js.length ∧ held = .value (.arr (js.take k)) ∧
      m.nodes - (nodes target - 1) + nodesList (js.take k) ≤ m'.nodes) ∨
    (∃ ms k, source = .obj ms ∧ k < ms.length ∧ held = .value (.obj (ms.take k)) ∧
      m.nodes - (nodes target - 1) + nodesMembers (ms.take k) ≤ m'.nodes) := by
  have hr := released_eq target
  unfold assign at h
  cases source with
  | str s =>
    simp only [attempt] at h
    cases hf : fails m.tries with
    | false => simp [hf] at h
    | true =>
      simp only [hf, Bool.not_true, Prod.mk.injEq, true_and] at h
      obtain ⟨rfl, rfl⟩ := h
      exact .inl ⟨s, rfl, rfl, by simp only; omega⟩
  | arr js =>
    simp only [attempt] at h
    cases hf : fails m.tries with
    | true =>
      simp only [hf, Bool.not_true, Prod.mk.injEq, true_and] at h
      obtain ⟨rfl, rfl⟩ := h
      exact .inr (.inl ⟨js, rfl, rfl, by simp only; omega⟩)
    | false =>
      simp only [hf, Bool.not_false] at h
      obtain ⟨_, _, h3⟩ := items_outcome fails js ⟨m.tries + 1, m.nodes - released target⟩
      generalize copyItems fails js ⟨m.tries + 1, m.nodes - released target⟩ = x at h h3
      obtain ⟨b, k, m2⟩ := x
      simp only [Prod.mk.injEq] at h h3
      obtain ⟨rfl, rfl, rfl⟩ := h
      exact .inr (.inr (.inl ⟨js, k, rfl, (h3 rfl).1, rfl, by have := (h3 rfl).2; omega⟩))
  | obj ms =>
    simp only at h
    obtain ⟨_, _, h3⟩ := members_outcome fails ms ⟨m.tries, m.nodes - released target⟩
    generalize copyMembers fails ms ⟨m.tries, m.nodes - released target⟩ = x at h h3
    obtain ⟨b, k, m2⟩ := x
    simp only [Prod.mk.injEq] at h h3
    obtain ⟨rfl, rfl, rfl⟩ := h
    exact .inr (.inr (.inr ⟨ms, k, rfl, (h3 rfl).1, rfl, by have := (h3 rfl).2; omega⟩))
  | _ => simp at h

/-- C129 is false for assignments: whatever the variable held, after `a = b` failed for an array of one item the variable holds
the empty array and the node made for the item is lost; if already making the array failed there is no array to destroy, although
the type of the variable says so. -/
theorem C129_assign_fails (target : Json F) (m : Mem) :
    assign (fun i => i == m.tries + 2) target (.arr [.null]) m =
      (false, .value (.arr []), ⟨m.tries + 3, m.nodes - (nodes target - 1) + 1⟩) ∧
    assign (fun i => i == m.tries) target (.arr [.null]) m =
      (false, .nothing .array, ⟨m.tries + 1, m.nodes - (nodes target - 1)⟩) := by
  have hr := released_eq target
  constructor
  · have h0 : (m.tries == m.tries + 2) = false := by simp
    have h1 : (m.tries + 1 == m.tries + 2) = false := by simp
    simp [assign, attempt, copyItems, copyNode, copyUnion, h0, h1]
    omega
  · simp [assign, attempt]
    omega

end Caitlyn
