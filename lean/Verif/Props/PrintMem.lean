import Verif.Proofs.PrintParsed
import Verif.Props.JsonStack

/-!
# Property C167: what printing a JSON value needs

Reference: a text that has no spaces for indentation needs none, whatever the second argument of `ToString` is; the work and the memory are
in proportion to the text.
-/

namespace Caitlyn
open Caitlyn.Spec Caitlyn.Spec.Print Caitlyn.PrintMem
variable {F : Type}

/-- C167, exactly. With room for `d` calls inside each other and `m` characters of spaces at a time, `ToString` gives the text that it gives
without limits if, and only if, the values lie no deeper in each other than `d` and the strings of spaces that it keeps while it prints (one
for each value that the current one lies in) fit; otherwise an allocation fails. The sums do not wrap around before that. -/
theorem C167_exact_fails (ops : FloatOps F) (d m : Nat) (pretty : Bool) (indent : Nat) (j : Json F) (hm : m < 2 ^ 63) :
    (height j ≤ d ∧ peak pretty indent indent j ≤ m →
      toStringC ops d m pretty indent j = (Json.toString ops pretty indent j).map fun t => (t, made pretty indent indent j)) ∧
    (¬ (height j ≤ d ∧ peak pretty indent indent j ≤ m) → toStringC ops d m pretty indent j = .error .memory) := by
  obtain ⟨h1, h2⟩ := print_lim ops pretty indent d m indent (Nat.le_refl _) hm j
  unfold toStringC Json.toString
  refine ⟨fun h => ?_, fun h => ?_⟩
  · rw [h1 h]
    simp only [bind, Except.bind]
    cases Str.ofStdString (Str.str (Json.output ops pretty indent indent j)) <;> rfl
  · rw [h2 h]
    rfl

example (ops : FloatOps F) : toStringC ops 2 6 false 2 (.arr [.null, .bool true]) = .ok (c!"[null,true]", 10) := by
  refine ((C167_exact_fails ops 2 6 false 2 _ (by decide)).1 ⟨by simp [height, heights], by simp [peak, peaks, closing]⟩).trans ?_
  have : Json.toString ops false 2 (.arr [.null, .bool true]) = .ok c!"[null,true]" := by
    unfold Json.toString
    simp only [Json.output, Json.outputItems, Json.whenPretty]
    decide +kernel
  rw [this]
  rfl

example (ops : FloatOps F) : toStringC ops 2 5 false 2 (.arr [.null, .bool true]) = .error .memory :=
  (C167_exact_fails ops 2 5 false 2 _ (by decide)).2 (by simp [peak, peaks, closing])

/-- C167. A compact text does not depend on the number of spaces asked for; the strings that are kept do: `n` spaces for the value, `2 * n`
for each of its parts, and so on, `n * h * (h + 1) / 2` in all for a value that is `h` deep. -/
theorem C167_compact (ops : FloatOps F) (n n' : Nat) (j : Json F) :
    Json.toString ops false n j = Json.toString ops false n' j ∧
    2 * peak false n n j = n * (height j * (height j + 1)) := by
  refine ⟨by unfold Json.toString; rw [output_compact ops n n n' n' j], ?_⟩
  have := stairs_eq n (height j) n
  rw [peak_compact]
  simp only [Nat.mul_add, Nat.mul_one] at this ⊢
  have e1 : height j * (n * height j) = n * (height j * height j) := Nat.mul_left_comm _ _ _
  have e2 : height j * (2 * n) = 2 * (n * height j) := by rw [Nat.mul_left_comm, Nat.mul_comm (height j)]
  rw [e1, e2] at this
  omega

/-- C167 fails: a compact text, which has no spaces, cannot be printed if the number of spaces given is greater than the memory has room for.
With the number 0 the same text needs no room for spaces. -/
theorem C167_room_fails (ops : FloatOps F) (d m : Nat) (j : Json F) (hm : m < 2 ^ 63) :
    toStringC ops d m false (m + 1) j = .error .memory ∧
    (height j ≤ d → toStringC ops d m false 0 j = (Json.toString ops false (m + 1) j).map fun t => (t, 0)) := by
  constructor
  · refine (C167_exact_fails ops d m false (m + 1) j hm).2 fun h => ?_
    have hp := height_pos j
    have := (C167_compact ops (m + 1) 0 j).2
    have h2 : 2 ≤ height j * (height j + 1) := Nat.mul_le_mul hp (show 2 ≤ height j + 1 by omega)
    have h3 := Nat.mul_le_mul_left (m + 1) h2
    omega
  · intro h
    have hp := (C167_compact ops 0 (m + 1) j)
    have h0 : peak false 0 0 j = 0 := by have := hp.2; omega
    have hz : made false 0 0 j = 0 := by
      have := made_compact 0 0 j
      simpa using this
    rw [(C167_exact_fails ops d m false 0 j hm).1 ⟨h, by omega⟩, hz, hp.1]

/-- C167. The work for compact texts: all the strings of spaces together have at most `n` characters for each value and each level. Missing: a
bound in proportion to the text (`C167_work_fails`). -/
theorem C167_work_partial (n : Nat) (j : Json F) : made false n n j ≤ count j * (n * height j) := by
  refine Nat.le_trans (made_compact n n j) (Nat.mul_le_mul_left _ ?_)
  have := height_pos j
  obtain ⟨h, hh⟩ : ∃ h, height j = h + 1 := ⟨height j - 1, by omega⟩
  rw [hh, Nat.add_sub_cancel, Nat.mul_add]
  omega

/-- C167. The work for indented texts is in proportion to the text: at most twice as many spaces are made as the text has characters, and `n`
more. -/
theorem C167_work_pretty (ops : FloatOps F) (n : Nat) (j : Json F) :
    made true n n j ≤ n + 2 * (Json.output ops true n n j).length :=
  made_pretty ops n n (Nat.le_refl _) j

theorem nest_height : ∀ k, height (nest k : Json F) = k + 1
  | 0 => rfl
  | k + 1 => by
    rw [nest, height, heights, heights, nest_height k]
    omega

theorem nest_made (base : Nat) : ∀ k indent, made false base indent (nest k : Json F) = stairs base (k + 1) indent
  | 0, indent => rfl
  | k + 1, indent => by
    rw [nest, made, mades, mades, nest_made base k, stairs]
    rfl

/-- C167 fails: the text of `k` arrays in each other has `2 * k + 1` characters; to print it `n * (k + 1) * (k + 2) / 2` spaces are made, none of
which is written, and all of them are kept at the same time. With the default `n = 2` these are `(k + 1) * (k + 2)`. -/
theorem C167_work_fails (ops : FloatOps F) (k n d m : Nat) (hm : m < 2 ^ 63) :
    (Json.output ops false n n (nest k : Json F)).length = 2 * k + 1 ∧
    2 * made false n n (nest k : Json F) = n * ((k + 1) * (k + 2)) ∧
    (2 * m < n * ((k + 1) * (k + 2)) → toStringC ops d m false n (nest k) = .error .memory) := by
  have hp := (C167_compact ops n 0 (nest k)).2
  rw [nest_height] at hp
  refine ⟨?_, ?_, fun h => ?_⟩
  · rw [nest_output]
    simp
    omega
  · rw [nest_made, ← hp, peak_compact, nest_height]
  · refine (C167_exact_fails ops d m false n _ hm).2 fun h' => ?_
    have := h'.2
    rw [show k + 1 + 1 = k + 2 from rfl] at hp
    omega

/-- C167 fails: whatever the stack has room for, there is a value with a text of twice as many characters that cannot be printed. -/
theorem C167_stack_fails (ops : FloatOps F) (d m : Nat) (pretty : Bool) (n : Nat) (hm : m < 2 ^ 63) :
    toStringC ops d m pretty n (nest d) = .error .memory ∧ (Json.output ops false n n (nest d : Json F)).length = 2 * d + 1 := by
  refine ⟨(C167_exact_fails ops d m pretty n _ hm).2 fun h => ?_, (C167_work_fails ops d n d m hm).1⟩
  have := h.1
  rw [nest_height] at this
  omega

/-- C167. What the parser can read with a stack can be printed with it: the value of a text that is parsed with room for `d` activations of
`ParseValue` is printed with as many activations of `MakeOutput`, if there is memory for the spaces. -/
theorem C167_parsed (ops : FloatOps F) (d m : Nat) (pretty : Bool) (n : Nat) (text : Str) (j : Json F) (e : JsonError) (hd : d ≠ 0)
    (hm : m < 2 ^ 63) (h : JsonParser.documentL ops d text = .ok (j, e)) (hp : peak pretty n n j ≤ m) :
    toStringC ops d m pretty n j = (Json.toString ops pretty n j).map fun t => (t, made pretty n n j) := by
  refine (C167_exact_fails ops d m pretty n j hm).1 ⟨?_, hp⟩
  have := JsonParser.documentL_height ops text d _ h
  simp only at this
  omega

end Caitlyn
