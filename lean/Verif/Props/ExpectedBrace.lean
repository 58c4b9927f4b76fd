import Verif.Spec.ExpectedBrace

/-!
# Property C168: an `Expected` holds what it is given, whatever its type

Reference: variables of a sum type (`Braces.run`).
-/

namespace Caitlyn
open Caitlyn.Spec Caitlyn.ExpectedBrace

theorem val_wrapped (v : Val) : Val.vec [v] ≠ v ∧ Val.vec [.any v] ≠ v ∧ Val.vec [.leaf v] ≠ v ∧ Val.node [v] ≠ v := by
  refine ⟨fun h => ?_, fun h => ?_, fun h => ?_, fun h => ?_⟩
  all_goals
    have := congrArg sizeOf h
    simp at this
    omega

/-- C168, exactly. `T{value}` is a copy of `value` unless `T` is a class with a list constructor whose elements can be made from a `T`: a
vector of `std::any`, a vector of trees, a tree. For these it is never a copy. -/
theorem C168_types_fails (t : Ty) (v : Val) :
    (t ≠ .tree ∧ t ≠ .vec .any ∧ t ≠ .vec .tree → brace t v = v) ∧
    (t = .tree ∨ t = .vec .any ∨ t = .vec .tree → brace t v ≠ v) := by
  constructor
  · rintro ⟨h1, h2, h3⟩
    cases t with
    | vec u =>
      have hu : Ty.vec u ≠ u := fun h => by have := congrArg sizeOf h; simp at this
      have ha : u ≠ .any := fun h => h2 (by rw [h])
      have ht : u ≠ .tree := fun h => h3 (by rw [h])
      simp [brace, listConstructor, convert, hu, ha, ht]
    | tree => exact absurd rfl h1
    | plain => rfl
    | text => rfl
    | any => rfl
  · rintro (rfl | rfl | rfl)
    · exact (val_wrapped v).2.2.2
    · exact (val_wrapped v).2.1
    · exact (val_wrapped v).2.2.1

theorem brace_id {t : Ty} (h : t ≠ .tree ∧ t ≠ .vec .any ∧ t ≠ .vec .tree) : brace t = id :=
  funext fun v => (C168_types_fails t v).1 h

theorem contents_id {t : Ty} (h : t ≠ .tree ∧ t ≠ .vec .any ∧ t ≠ .vec .tree) : contents t = id := by
  funext c
  cases c with
  | inl v => rw [contents, brace_id h]; rfl
  | inr e => rfl

/-- C168. For all other types of values and errors, programs with variables of type `Expected` compute with a sum type. Missing: the types of
`C168_types_fails`. -/
theorem C168_partial (t e : Ty) (ht : t ≠ .tree ∧ t ≠ .vec .any ∧ t ≠ .vec .tree) (he : e ≠ .tree ∧ e ≠ .vec .any ∧ e ≠ .vec .tree)
    (w : Vars) (ps : List Op) : run t e w ps = Braces.run w ps := by
  unfold run Braces.run
  induction ps generalizing w with
  | nil => rfl
  | cons p ps ih =>
    rw [List.foldl_cons, List.foldl_cons, ih]
    congr 1
    cases p with
    | assign x y =>
      simp only [step, Braces.step, contents_id ht, Option.map_id, id]
      split
      · next h =>
        subst h
        funext z
        simp only [Vars.set]
        split <;> simp_all
      · rfl
    | map x y f =>
      simp only [step, Braces.step, contents_id ht, brace_id ht, Option.map_id, id]
      rfl
    | _ => simp only [step, Braces.step, contents_id ht, brace_id ht, brace_id he, Option.map_id, id]

example : run (.vec .plain) .text (fun _ => none) [.make 0 (.vec [.plain 1, .plain 2]), .copy 1 0] 1 =
    some (.inl (.vec [.plain 1, .plain 2])) := by
  rw [C168_partial _ _ (by decide) (by decide)]
  rfl

/-- The number of constructions of the contents of each variable, over a program. -/
def Spec.Braces.timesAll (n : Nat → Nat) (ps : List Op) : Nat → Nat := ps.foldl times n

/-- C168, exactly, for all types and all programs without `Map`: a variable with a value holds the value of the sum type with braces put
around it as often as it has been constructed; an error has them once, from the constructor of `Unexpected`. -/
theorem C168_exact_fails (t e : Ty) (ps : List Op) (hps : ∀ p ∈ ps, ∀ x y f, p ≠ .map x y f) (x : Nat) :
    run t e (fun _ => none) ps x = (Braces.run (fun _ => none) ps x).map fun c => match c with
      | .inl v => .inl (Braces.iter (brace t) (Braces.timesAll (fun _ => 0) ps x) v)
      | .inr v => .inr (brace e v) := by
  suffices ∀ (ps : List Op), (∀ p ∈ ps, ∀ x y f, p ≠ .map x y f) → ∀ (w w' : Vars) (n : Nat → Nat),
      (∀ x, w x = (w' x).map fun c => match c with
        | .inl v => .inl (Braces.iter (brace t) (n x) v)
        | .inr v => .inr (brace e v)) →
      ∀ x, run t e w ps x = (Braces.run w' ps x).map fun c => match c with
        | .inl v => .inl (Braces.iter (brace t) (Braces.timesAll n ps x) v)
        | .inr v => .inr (brace e v) from
    this ps hps (fun _ => none) (fun _ => none) (fun _ => 0) (fun _ => rfl) x
  intro ps
  induction ps with
  | nil => exact fun _ _ _ _ h => h
  | cons p ps ih =>
    intro hps w w' n h
    refine ih (fun q hq => hps q (List.mem_cons_of_mem _ hq)) (step t e w p) (Braces.step w' p) (Braces.times n p) fun z => ?_
    have hp := hps p (by simp)
    cases p with
    | map x y f => exact absurd rfl (hp x y f)
    | make x v =>
      simp only [step, Braces.step, Braces.times, Vars.set]
      split
      · rfl
      · exact h z
    | fail x v =>
      simp only [step, Braces.step, Braces.times, Vars.set]
      split
      · rfl
      · exact h z
    | copy x y =>
      simp only [step, Braces.step, Braces.times, Vars.set]
      split
      · rw [h y]
        cases w' y with
        | none => rfl
        | some c => cases c <;> rfl
      · exact h z
    | move x y =>
      simp only [step, Braces.step, Braces.times, Vars.set]
      split
      · rw [h y]
        cases w' y with
        | none => rfl
        | some c => cases c <;> rfl
      · split
        · rfl
        · exact h z
    | assign x y =>
      simp only [step, Braces.step, Braces.times]
      by_cases hxy : x = y
      · subst hxy
        simp only [if_true, ne_eq, not_true_eq_false, and_false, if_false, Vars.set]
        split
        · next hz => rw [hz, h]
        · exact h z
      · simp only [hxy, if_false, ne_eq, not_false_eq_true, and_true, Vars.set]
        split
        · rw [h y]
          cases w' y with
          | none => rfl
          | some c => cases c <;> rfl
        · exact h z
    | moveAssign x y =>
      simp only [step, Braces.step, Braces.times]
      by_cases hxy : x = y
      · subst hxy
        simp only [if_true, ne_eq, not_true_eq_false, and_false, if_false]
        exact h z
      · simp only [hxy, if_false, ne_eq, not_false_eq_true, and_true, Vars.set]
        split
        · rw [h y]
          cases w' y with
          | none => rfl
          | some c => cases c <;> rfl
        · split
          · rfl
          · exact h z

/-- C168 fails: an `Expected<std::vector<std::any>, E>` made from a vector holds a vector with one element, which holds the vector; after
`n` copies of copies it is `n + 1` vectors deep. Two copies of one variable have the same contents, which are not those of the variable. -/
theorem C168_vector_fails (e : Ty) (n : Nat) (v : Val) :
    run (.vec .any) e (fun _ => none) (.make 0 v :: (List.range n).map fun i => .copy (i + 1) i) n =
      some (.inl (Braces.nested (n + 1) v)) := by
  suffices ∀ k, ∀ i ≤ k, run (.vec .any) e (fun _ => none) (.make 0 v :: (List.range k).map fun i => .copy (i + 1) i) i =
      some (.inl (Braces.nested (i + 1) v)) from this n n (Nat.le_refl _)
  intro k
  induction k with
  | zero =>
    intro i hi
    obtain rfl : i = 0 := by omega
    rfl
  | succ k ih =>
    intro i hi
    rw [List.range_succ, List.map_append, ← List.cons_append, run, List.foldl_append]
    simp only [List.map_cons, List.map_nil, List.foldl_cons, List.foldl_nil, step, Vars.set]
    split
    · next h =>
      subst h
      have := ih k (Nat.le_refl _)
      simp only [run, List.foldl_cons, step] at this
      rw [this]
      rfl
    · have := ih i (by omega)
      simpa only [run, List.foldl_cons, step] using this

/-- C168 fails: `Map` with the function that returns its argument gives another value, and an error that is a vector of `std::any` is not the
one that was given to `MakeError`. -/
theorem C168_map_fails (v : Val) :
    run (.vec .any) .plain (fun _ => none) [.make 0 v, .map 1 0 id] 1 = some (.inl (Braces.nested 3 v)) ∧
    run .plain (.vec .any) (fun _ => none) [.fail 0 v, .copy 1 0] 1 = some (.inr (Braces.nested 1 v)) ∧
    ∀ n, Braces.nested (n + 1) v ≠ Braces.nested n v :=
  ⟨rfl, rfl, fun n => (val_wrapped (Braces.nested n v)).2.1⟩

end Caitlyn
