import Verif.Spec.JsonCost
import Verif.Proofs.JsonCost
import Verif.Proofs.JsonComplete

/-! # What parsing costs: bounds from below -/

namespace Caitlyn
open Caitlyn.Spec JsonParser

section
variable {F : Type}

@[simp] theorem texts_add (c d : Cost) : (c + d).texts = c.texts + d.texts := rfl
@[simp] theorem nodes_add (c d : Cost) : (c + d).nodes = c.nodes + d.nodes := rfl
@[simp] theorem keys_add (c d : Cost) : (c + d).keys = c.keys + d.keys := rfl

theorem costLe_zero (c : Cost) : CostLe {} c := ⟨Nat.zero_le _, Nat.zero_le _, Nat.zero_le _⟩

theorem leastItems_append (js : List (Json F)) (v : Json F) :
    leastItems (js ++ [v]) = leastItems js + (least v + appendCost v) := by
  induction js with
  | nil =>
    simp only [List.nil_append, leastItems, appendCost]
    show Cost.mk _ _ _ = Cost.mk _ _ _
    simp
  | cons j js ih =>
    simp only [List.cons_append, leastItems, ih]
    show Cost.mk _ _ _ = Cost.mk _ _ _
    simp [Nat.add_assoc]

/-- Members set: no more than before and the new value, and keys found are not counted. -/
theorem leastMembers_set (k : Str) (v : Json F) (ms : List (Str × Json F)) :
    CostLe (leastMembers (Json.setMember k v ms)) (leastMembers ms + least v) ∧
      pairs (Json.setMember k v ms).length ≤ pairs ms.length + searched k ms := by
    have h1 : CostLe (leastMembers (Json.setMember k v ms)) (leastMembers ms + least v) := by
      induction ms with
      | nil => simp [Json.setMember, leastMembers, CostLe]
      | cons m ms ih =>
        obtain ⟨k', w⟩ := m
        rw [Json.setMember]
        split
        · simp only [leastMembers, CostLe, texts_add, nodes_add, keys_add]; omega
        · simp only [leastMembers, CostLe, texts_add, nodes_add, keys_add] at ih ⊢; omega
    refine ⟨h1, ?_⟩
    have h2 : (Json.setMember k v ms).length = ms.length ∨
        ((Json.setMember k v ms).length = ms.length + 1 ∧ searched k ms = ms.length) := by
      clear h1
      induction ms with
      | nil => right; simp [Json.setMember, searched]
      | cons m ms ih =>
        obtain ⟨k', w⟩ := m
        rw [Json.setMember, searched]
        split
        · left; rfl
        · simpa using ih
    rcases h2 with h2 | ⟨h2, h3⟩
    · rw [h2]; omega
    · rw [h2, h3, pairs]

variable (ops : FloatOps F) (s : Str)

/-- The bounds of a value. -/
def ValLow (r : (Json F × PState) × Cost) : Prop := CostLe (least r.1.1) r.2

def ObjLow (acc : List (Str × Json F)) (r : (Json F × PState) × Cost) : Prop :=
  CostLe (least r.1.1) (leastMembers acc + { keys := pairs acc.length } + r.2)

def ArrLow (acc : List (Json F)) (r : (Json F × PState) × Cost) : Prop := CostLe (least r.1.1) (leastItems acc + r.2)

theorem valLow_leaf {r : Json F × PState} (c : Cost) (h : least r.1 = {}) : ValLow (r, c) := by
  unfold ValLow; rw [h]; exact costLe_zero c

theorem least_null : least (.null : Json F) = {} := by rw [least] <;> simp

theorem low_stringEnd (st : PState) (out : List UInt8) : OkP (fun r => least r.1 = {}) (stringEnd (F := F) s st out) := by
  unfold stringEnd
  refine (okp_true _).bind fun c _ => ?_
  split
  · refine (okp_true _).bind fun v _ => .pure ?_
    rw [least] <;> simp
  · refine .pure ?_
    rw [least] <;> simp

theorem low_fail (e : JsonError) (p : Nat) : OkP (fun r => least r.1 = {}) (fail (F := F) e p) := by
  refine .pure ?_
  rw [least] <;> simp

theorem low_stringLoop : ∀ (n : Nat) (st : PState) (out : List UInt8),
    OkP (fun r => least r.1 = {}) (stringLoop (F := F) s n st out)
  | 0, _, _ => fun _ h => by rw [stringLoop] at h; cases h
  | n + 1, st, out => by
    rw [stringLoop]
    split
    · refine (okp_true _).bind fun c _ => ?_
      split
      · exact low_stringEnd s st out
      · split
        · split
          · exact low_fail _ _
          · refine (okp_true _).bind fun d _ => (okp_true _).bind fun r _ => ?_
            cases r with
            | error e => exact low_fail _ _
            | ok r => exact low_stringLoop n _ _
        · exact low_stringLoop n _ _
    · exact low_stringEnd s st out

theorem low_parseNumber (st : PState) : OkP (fun r => least r.1 = {}) (parseNumber ops s st) := by
  unfold parseNumber
  refine (okp_true _).bind fun len _ => (okp_true _).bind fun t _ => ?_
  cases h : convert ops t with
  | error e => exact low_fail _ _
  | ok j =>
    refine .pure ?_
    unfold convert at h
    repeat' split at h
    all_goals first | cases h | skip
    all_goals (rw [least] <;> simp)

theorem low_parseNull (st : PState) : OkP (fun r => least r.1 = {}) (parseNull (F := F) s st) := by
  unfold parseNull
  refine (okp_true _).bind fun b _ => ?_
  split
  · refine .pure ?_
    rw [least] <;> simp
  · exact low_fail _ _

theorem low_parseBooleanC (st : PState) : OkP ValLow (parseBooleanC (F := F) s st) := by
  unfold parseBooleanC parseBoolean
  refine (okp_self _).bind fun b hb => ?_
  rw [hb, ok_bind]
  split
  · exact .pure ⟨by simp [least], by simp [least], by simp [least]⟩
  · rename_i h
    have hb : b = false := by simpa using h
    subst hb
    cases compareAt s st.pos (Str.valueOfBool false) with
    | error e => intro r h; cases h
    | ok b =>
      rw [ok_bind]
      cases b
      · exact .pure (valLow_leaf _ least_null)
      · exact .pure ⟨by simp [least], by simp [least], by simp [least]⟩

def ValW (n : Nat) : Prop := ∀ st, OkP ValLow (parseValueC ops s n st)
def ObjW (n : Nat) : Prop := ∀ st acc, OkP (ObjLow acc) (objectLoopC ops s n st acc)
def ArrW (n : Nat) : Prop := ∀ st acc, OkP (ArrLow acc) (arrayLoopC ops s n st acc)

theorem objLow_null (acc : List (Str × Json F)) (st : PState) (c : Cost) : ObjLow acc ((.null, st), c) := by
  unfold ObjLow; rw [least_null]; exact costLe_zero _

theorem arrLow_null (acc : List (Json F)) (st : PState) (c : Cost) : ArrLow acc ((.null, st), c) := by
  unfold ArrLow; rw [least_null]; exact costLe_zero _

theorem valW_succ {n : Nat} (ho : ObjW ops s n) (ha : ArrW ops s n) : ValW ops s (n + 1) := by
  intro st
  rw [parseValueC]
  refine (okp_true _).bind fun q _ => ?_
  split
  · exact .pure (valLow_leaf _ least_null)
  · refine (okp_true _).bind fun c _ => ?_
    split
    · refine OkP.bind ?_ fun r hr => .pure (valLow_leaf _ hr)
      exact low_stringLoop s _ _ _
    · split
      · refine (okp_true _).bind fun q _ => (ho _ []).mono ?_
        rintro ⟨⟨v, st⟩, cost⟩ h
        simpa [ObjLow, ValLow, leastMembers, pairs, CostLe] using h
      · split
        · refine (okp_true _).bind fun q _ => (ha _ []).mono ?_
          rintro ⟨⟨v, st⟩, cost⟩ h
          simpa [ArrLow, ValLow, leastItems, CostLe] using h
        · split
          · exact low_parseBooleanC s _
          · split
            · exact (low_parseNull s _).bind fun r hr => .pure (valLow_leaf _ hr)
            · refine (okp_true _).bind fun cp _ => ?_
              split
              · exact (low_parseNumber ops s _).bind fun r hr => .pure (valLow_leaf _ hr)
              · exact OkP.pure (valLow_leaf _ least_null)

theorem objW_succ {n : Nat} (hv : ValW ops s n) (ho : ObjW ops s n) : ObjW ops s (n + 1) := by
  intro st acc
  rw [objectLoopC]
  split
  · refine (okp_true _).bind fun q _ => (okp_true _).bind fun c _ => ?_
    split
    · refine .pure ?_
      simp only [ObjLow, least, CostLe, texts_add, nodes_add, keys_add]; omega
    · split
      · refine (okp_true _).bind fun r _ => ?_
        cases r with
        | error r => exact .pure (objLow_null _ _ _)
        | ok r =>
          obtain ⟨key, q₁⟩ := r
          refine (hv _).bind ?_
          rintro ⟨⟨v, st'⟩, cost⟩ hl
          obtain ⟨h1, h2⟩ := leastMembers_set key v acc
          simp only [ValLow, CostLe, texts_add, nodes_add, keys_add] at hl h1
          refine (okp_true _).bind fun a _ => ?_
          cases a with
          | closed q₂ =>
            refine .pure ?_
            simp only [ObjLow, least, CostLe, texts_add, nodes_add, keys_add]; omega
          | error e' q₂ => exact .pure (objLow_null _ _ _)
          | more q₂ =>
            refine (ho _ _).bind ?_
            rintro ⟨r, rest⟩ h3
            refine .pure ?_
            simp only [ObjLow, CostLe, texts_add, nodes_add, keys_add] at h3 ⊢; omega
      · exact .pure (objLow_null _ _ _)
  · exact .pure (objLow_null _ _ _)

theorem arrW_succ {n : Nat} (hv : ValW ops s n) (ha : ArrW ops s n) : ArrW ops s (n + 1) := by
  intro st acc
  rw [arrayLoopC]
  split
  · refine (okp_true _).bind fun q _ => (okp_true _).bind fun c _ => ?_
    split
    · refine .pure ?_
      simp only [ArrLow, least, CostLe, texts_add, nodes_add, keys_add]; omega
    · refine (hv _).bind ?_
      rintro ⟨⟨v, st'⟩, cost⟩ hl
      have h1 := leastItems_append acc v
      simp only [ValLow, CostLe] at hl
      refine (okp_true _).bind fun a _ => ?_
      cases a with
      | closed q₂ =>
        refine .pure ?_
        simp only [ArrLow, least, CostLe, h1, texts_add, nodes_add, keys_add]; omega
      | error e' q₂ => exact .pure (arrLow_null _ _ _)
      | more q₂ =>
        refine (ha _ _).bind ?_
        rintro ⟨r, rest⟩ h3
        refine .pure ?_
        simp only [ArrLow, CostLe, h1, texts_add, nodes_add, keys_add] at h3 ⊢; omega
  · exact .pure (arrLow_null _ _ _)

theorem low_all : ∀ n, ValW ops s n ∧ ObjW ops s n ∧ ArrW ops s n
  | 0 => ⟨fun _ _ h => (by rw [parseValueC] at h; cases h), fun _ _ _ h => (by rw [objectLoopC] at h; cases h),
      fun _ _ _ h => (by rw [arrayLoopC] at h; cases h)⟩
  | n + 1 => by
    obtain ⟨hv, ho, ha⟩ := low_all n
    exact ⟨valW_succ ops s ho ha, objW_succ ops s hv ho, arrW_succ ops s hv ha⟩

theorem documentC_low : OkP (fun r => CostLe (least r.1.1) r.2) (documentC ops s) := by
  unfold documentC
  have h : OkP ValLow (parseC ops s) := by
    unfold parseC
    split
    · exact .pure (valLow_leaf _ least_null)
    · refine (okp_true _).bind fun first _ => (okp_true _).bind fun last _ => (okp_true _).bind fun c _ => ?_
      split
      · exact .pure (valLow_leaf _ least_null)
      · refine (okp_true _).bind fun d _ => ?_
        split
        · exact .pure (valLow_leaf _ least_null)
        · exact (low_all ops s _).1 _
  refine h.bind ?_
  rintro ⟨⟨data, st⟩, cost⟩ hl
  simp only [ValLow] at hl
  show OkP _ (if _ then _ else _)
  split
  · exact .pure (by show CostLe (least (.null : Json F)) _; rw [least_null]; exact costLe_zero _)
  · refine .pure ?_
    simp only [CostLe, texts_add, nodes_add, keys_add] at hl ⊢; omega

end
end Caitlyn
