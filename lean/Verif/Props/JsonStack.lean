import Verif.Proofs.JsonStack
import Verif.Props.JsonPrint

/-! # Property C128: the stack the JSON parser needs -/

namespace Caitlyn
open Caitlyn.Spec JsonParser

variable {F : Type}

/-- C128. For every text, well-formed or not: with room for one activation of `ParseValue` more than the text opens brackets, the
parser does what the model of it without limit does. -/
theorem C128_enough (ops : FloatOps F) (text : Str) (d : Nat) (h : opens text < d) :
    documentL ops d text = document ops text := by
  unfold documentL document
  rw [parseL_same ops text d h]

/-- An array in an array, `k` levels, with the number 0 in the last. -/
def Spec.nest : Nat → Json F
  | 0 => .int 0
  | k + 1 => .arr [nest k]

theorem nest_printable (ops : FloatOps F) : ∀ k, Printable ops false (nest k : Json F)
  | 0 => .int 0 (by decide) (by decide)
  | k + 1 => .arr _ fun j hj => by rw [List.mem_singleton.mp hj]; exact nest_printable ops k

theorem nest_output (ops : FloatOps F) : ∀ k base indent, Json.output ops false base indent (nest k) =
    List.replicate k (chr 0x5B) ++ chr 0x30 :: List.replicate k (chr 0x5D)
  | 0, base, indent => by
    rw [nest, Json.output]
    decide
  | k + 1, base, indent => by
    rw [nest, Json.output, nest_output ops k]
    simp only [Json.whenPretty, Json.outputItems, Bool.false_eq_true, if_false, List.nil_append, List.append_nil]
    rw [List.replicate_succ, List.replicate_succ' (n := k) (a := chr 0x5D)]
    simp [chr]

/-- The text of the document `{"a":[[...[0]...]]}`. -/
theorem doc_output (ops : FloatOps F) (k n : Nat) : Json.output ops false n n (.obj [(c!"a", nest k)]) =
    c!"{\"a\":" ++ (List.replicate k (chr 0x5B) ++ chr 0x30 :: List.replicate k (chr 0x5D)) ++ c!"}" := by
  rw [Json.output, Json.outputMember, nest_output]
  simp [Json.whenPretty, Json.outputMembers]

theorem deep_memory (ops : FloatOps F) (k : Nat) (hk : k < 2 ^ 60) (text : Str)
    (ht : text = c!"{\"a\":" ++ (List.replicate k (chr 0x5B) ++ chr 0x30 :: List.replicate k (chr 0x5D)) ++ c!"}")
    (d : Nat) (hd : d ≤ k + 1) : documentL ops d text = .error .memory := by
  have hlen : text.length = 2 * k + 7 := by rw [ht]; simp; omega
  have h0 : At text 0 (chr 0x7B :: chr 0x22 :: (c!"a" ++ chr 0x22 :: ([] ++ chr 0x3A :: ([] ++
      (List.replicate k (chr 0x5B) ++ chr 0x30 :: (List.replicate k (chr 0x5D) ++ c!"}")))))) := by
    unfold At
    rw [ht, List.drop_zero]
    simp [chr]
  have hfirst : StrUtil.findFirstNonSpace text = .ok 0 := by
    have := h0.skip0 (noSpace_cons _ (by decide) (by unfold Space; decide) _)
    unfold skipSpace at this
    rw [List.drop_zero] at this
    exact this
  have hlast : StrUtil.findLastNonSpace text = .ok (text.length - 1) ∧ Str.index text (text.length - 1) = .ok rbrace := by
    have hpre : text = (c!"{\"a\":" ++ (List.replicate k (chr 0x5B) ++ chr 0x30 :: List.replicate k (chr 0x5D))) ++ chr 0x7D :: [] := ht
    have hl := congrArg List.length hpre
    rw [List.length_append] at hl
    generalize c!"{\"a\":" ++ (List.replicate k (chr 0x5B) ++ chr 0x30 :: List.replicate k (chr 0x5D)) = pre at hpre hl
    have e : text.length - 1 = pre.length := by simp at hl; omega
    constructor
    · unfold StrUtil.findLastNonSpace
      rw [if_neg (by rw [hpre]; simp), e]
      have := lastNonSpace_run text pre [] 0x7D (by decide) (by unfold Space; decide) (by
        rintro rfl; simp at hl; omega) hpre [] [] rfl (by intro c hc; cases hc)
      simpa using this
    · have : At text pre.length (chr 0x7D :: []) := by unfold At; rw [hpre, List.drop_left]
      rw [e]
      exact this.index
  unfold documentL parseL
  rw [if_neg (by rw [ht]; simp), hfirst, ok_bind, hlast.1, ok_bind, h0.index, ok_bind, if_neg (by decide), hlast.2, ok_bind,
    if_neg (by decide), hlen]
  have key : parseValueL ops text d (2 * (2 * k + 7) + 2) {} = .error .memory := by
    cases d with
    | zero => rw [parseValueL]
    | succ d =>
      have h1 := h0.cons
      have hm := memberKey_complete (by rw [hlen]; show 2 * k + 7 < 18446744073709551615; omega) (by decide)
        (by intro c hc; cases hc) (by intro c hc; cases hc) (by
          cases k with
          | zero => exact noSpace_cons _ (by decide) (by unfold Space; decide) _
          | succ k =>
            rw [List.replicate_succ, List.cons_append]
            exact noSpace_cons _ (by decide) (by unfold Space; decide) _) h1.cons
      have e0 : skipSpace text (PState.pos {}) = .ok 0 := h0.skip0 (noSpace_cons _ (by decide) (by unfold Space; decide) _)
      rw [parseValueL, e0, ok_bind,
        if_neg (by have := h0.lt; omega), h0.index, ok_bind, if_neg (by decide), if_pos (by decide),
        h1.skip0 (noSpace_cons _ (by decide) (by unfold Space; decide) _), ok_bind, objectLoopL, if_pos h1.lt,
        h1.skip0 (noSpace_cons _ (by decide) (by unfold Space; decide) _), ok_bind, h1.index, ok_bind, if_neg (by decide),
        if_pos (by decide), hm.1, ok_bind]
      simp only []
      rw [valueL_deep ops text d k _ _ _ _ (by omega) hm.2 (by omega)]
      rfl
  rw [key]
  rfl

/-- C128 is false for every fixed stack: documents that are well-formed, and that the program may have printed itself, need as
many activations as they have levels. With room for `d` activations the document `{"a":[[...[0]...]]}` with `k` levels of
arrays, of `2 * k + 7` characters, is parsed if `k + 2 ≤ d`, and exhausts the stack otherwise. -/
theorem C128_fails (ops : FloatOps F) (k : Nat) (hk : k < 2 ^ 60) :
    ∃ text, (Json.obj [(c!"a", nest k)]).toString ops false 2 = .ok text ∧ text.length = 2 * k + 7 ∧
      ∀ d, documentL ops d text =
        if d ≤ k + 1 then .error .memory else .ok (.obj [(c!"a", nest k)], .noError) := by
  have hp : Printable ops false (.obj [(c!"a", nest k)] : Json F) := by
    refine .obj _ (by simp) ?_ ?_ <;> intro m hm <;> rw [List.mem_singleton.mp hm]
    · refine ⟨?_, (by decide : chr 0x22 ∉ c!"a"), by simp⟩
      intro c hc
      rw [List.mem_singleton.mp hc]
      exact .one _ (by decide) (by decide)
    · exact nest_printable ops k
  have hprint := C52_prints ops false _ hp false 2
  have hlen : (Json.output ops false 2 2 (.obj [(c!"a", nest k)])).length = 2 * k + 7 := by
    rw [doc_output]; simp; omega
  refine ⟨_, hprint, hlen, fun d => ?_⟩
  by_cases hd : d ≤ k + 1
  · rw [if_pos hd]
    exact deep_memory ops k hk _ (doc_output ops k 2) d hd
  · rw [if_neg hd, C128_enough]
    · exact C52_partial ops false _ false 2 hp _ hprint (by rw [hlen]; show 2 * k + 7 < 18446744073709551615; omega)
    · rw [doc_output]
      have h1 : opens (List.replicate k (chr 0x5B)) = k := by
        unfold opens
        rw [List.countP_replicate, if_pos (by decide)]
      have h2 : opens (List.replicate k (chr 0x5D)) = 0 := by
        unfold opens
        rw [List.countP_replicate, if_neg (by decide)]
      have : opens (c!"{\"a\":" ++ (List.replicate k (chr 0x5B) ++ chr 0x30 :: List.replicate k (chr 0x5D)) ++ c!"}") =
          opens c!"{\"a\":" + (opens (List.replicate k (chr 0x5B)) + (opens (List.replicate k (chr 0x5D)))) + opens c!"}" := by
        unfold opens
        rw [List.countP_append, List.countP_append, List.countP_append,
          List.countP_cons_of_neg (a := chr 0x30) (by decide)]
      rw [this, h1, h2, show opens c!"{\"a\":" = 1 by decide, show opens c!"}" = 0 by decide]
      omega

example : opens c!"{\"a\":[1, 2, {}]}" = 3 ∧ documentL oneFloat 2 c!"{\"a\":[[0]]}" = .error .memory ∧
    documentL oneFloat 4 c!"{\"a\":[[0]]}" = .ok (.obj [(c!"a", nest 2)], .noError) := ⟨by decide, rfl, rfl⟩

end Caitlyn
