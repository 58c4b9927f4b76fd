import Verif.Model.JsonStack
import Verif.Proofs.JsonCost
import Verif.Proofs.PrintMem

/-! # How deep the values are that the parser makes with a finite stack -/

namespace Caitlyn.JsonParser
open Caitlyn Caitlyn.Spec.Print Caitlyn.PrintMem
variable {F : Type} (ops : FloatOps F) (s : Str)

theorem copied_leaf {j : Json F} (h : copied j = 1) : height j = 1 := by
  cases j with
  | arr js =>
    cases js with
    | nil => simp [height, heights]
    | cons j js => have := copied_pos j; simp only [copied, copiedItems] at h; omega
  | obj ms =>
    cases ms with
    | nil => simp [height, heightsOf]
    | cons m ms => have := copied_pos m.2; obtain ⟨k, v⟩ := m; simp only [copied, copiedMembers] at h this; omega
  | _ => simp [height]

theorem heightsOf_set (k : Str) (v : Json F) : ∀ ms : List (Str × Json F),
    heightsOf (Json.setMember k v ms) ≤ max (height v) (heightsOf ms)
  | [] => by simp [Json.setMember, heightsOf]
  | (k', w) :: ms => by
    rw [Json.setMember]
    split
    · simp only [heightsOf]; omega
    · have := heightsOf_set k v ms
      simp only [heightsOf]; omega

theorem heights_append (v : Json F) : ∀ js : List (Json F), heights (js ++ [v]) = max (heights js) (height v)
  | [] => by simp [heights]
  | j :: js => by
    rw [List.cons_append, heights, heights, heights_append v js]
    omega

def ValH (n : Nat) : Prop := ∀ d st, OkP (fun r => height r.1 ≤ d) (parseValueL ops s d n st)
def ObjH (n : Nat) : Prop := ∀ d st ms, heightsOf ms ≤ d → OkP (fun r => height r.1 ≤ d + 1) (objectLoopL ops s d n st ms)
def ArrH (n : Nat) : Prop := ∀ d st js, heights js ≤ d → OkP (fun r => height r.1 ≤ d + 1) (arrayLoopL ops s d n st js)

theorem leafH {d : Nat} {r : Res (Json F × PState)} (h : OkP (fun r => copied r.1 = 1) r) : OkP (fun r => height r.1 ≤ d + 1) r :=
  h.mono fun a ha => by rw [copied_leaf ha]; omega

theorem valH_succ {n : Nat} (ho : ObjH ops s n) (ha : ArrH ops s n) : ValH ops s (n + 1) := by
  intro d st
  cases d with
  | zero => intro a h; rw [parseValueL] at h; cases h
  | succ d =>
    rw [parseValueL]
    refine (okp_true _).bind fun pos _ => ?_
    split
    · exact .pure (by simp [height])
    refine (okp_true _).bind fun c _ => ?_
    split
    · exact leafH (leaf_stringLoop s _ _ _)
    split
    · exact (okp_true _).bind fun pos _ => ho d _ [] (by simp [heightsOf])
    split
    · exact (okp_true _).bind fun pos _ => ha d _ [] (by simp [heights])
    split
    · exact leafH (leaf_parseBoolean s _)
    split
    · exact leafH (leaf_parseNull s _)
    refine (okp_true _).bind fun cp _ => ?_
    split
    · exact leafH (leaf_parseNumber ops s _)
    · exact leafH (leaf_fail _ _)

theorem objH_succ {n : Nat} (hv : ValH ops s n) (ho : ObjH ops s n) : ObjH ops s (n + 1) := by
  intro d st ms hms
  rw [objectLoopL]
  split
  · refine (okp_true _).bind fun pos _ => (okp_true _).bind fun c _ => ?_
    split
    · exact .pure (by simp only [height]; omega)
    split
    · refine (okp_true _).bind fun r _ => ?_
      cases r with
      | error r => exact leafH (leaf_fail _ _)
      | ok r =>
        refine (hv d _).bind fun v hh => (okp_true _).bind fun r' _ => ?_
        have := heightsOf_set r.1 v.1 ms
        cases r' with
        | closed pos => exact .pure (by simp only [height]; omega)
        | more pos => exact ho d _ _ (by omega)
        | error e pos => exact leafH (leaf_fail _ _)
    · exact leafH (leaf_fail _ _)
  · exact leafH (leaf_fail _ _)

theorem arrH_succ {n : Nat} (hv : ValH ops s n) (ha : ArrH ops s n) : ArrH ops s (n + 1) := by
  intro d st js hjs
  rw [arrayLoopL]
  split
  · refine (okp_true _).bind fun pos _ => (okp_true _).bind fun c _ => ?_
    split
    · exact .pure (by simp only [height]; omega)
    · refine (hv d _).bind fun v hh => (okp_true _).bind fun r' _ => ?_
      have := heights_append v.1 js
      cases r' with
      | closed pos => exact .pure (by simp only [height]; omega)
      | more pos => exact ha d _ _ (by omega)
      | error e pos => exact leafH (leaf_fail _ _)
  · exact leafH (leaf_fail _ _)

theorem height_all : ∀ n, ValH ops s n ∧ ObjH ops s n ∧ ArrH ops s n
  | 0 => by
    refine ⟨fun d st a h => ?_, fun d st ms _ a h => ?_, fun d st js _ a h => ?_⟩
    · rw [parseValueL] at h; cases h
    · rw [objectLoopL] at h; cases h
    · rw [arrayLoopL] at h; cases h
  | n + 1 => by
    obtain ⟨hv, ho, ha⟩ := height_all n
    exact ⟨valH_succ ops s ho ha, objH_succ ops s hv ho, arrH_succ ops s hv ha⟩

theorem documentL_height (d : Nat) : OkP (fun r => height r.1 ≤ max d 1) (documentL ops d s) := by
  have leaf {r : Res (Json F × PState)} (h : OkP (fun r => copied r.1 = 1) r) : OkP (fun r => height r.1 ≤ max d 1) r :=
    h.mono fun a ha => by rw [copied_leaf ha]; omega
  unfold documentL
  refine OkP.bind (P := fun r => height r.1 ≤ max d 1) ?_ fun r hr => ?_
  · unfold parseL
    split
    · exact leaf (leaf_fail _ _)
    · refine (okp_true _).bind fun first _ => (okp_true _).bind fun last _ => (okp_true _).bind fun c _ => ?_
      split
      · exact leaf (leaf_fail _ _)
      · refine (okp_true _).bind fun c _ => ?_
        split
        · exact leaf (leaf_fail _ _)
        · exact ((height_all ops s _).1 d _).mono fun a h => by omega
  · obtain ⟨data, st⟩ := r
    intro a ha
    simp only at ha
    split at ha
    · injection ha with ha
      subst ha
      simp only [height]
      omega
    · injection ha with ha
      subst ha
      exact hr

end Caitlyn.JsonParser
