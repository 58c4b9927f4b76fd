import Verif.Model.JsonCost
import Verif.Proofs.JsonTerm
import Mathlib.Tactic.Linarith

/-! # What parsing costs: the copy computes the same, bounds from above -/

namespace Caitlyn
open Caitlyn.Spec JsonParser

section
variable {F : Type} (ops : FloatOps F) (s : Str)

theorem bind_map {α β γ : Type} (r : Res α) (f : α → Res β) (g : α → Res γ) (h : γ → β)
    (hf : ∀ a, f a = (g a).map h) : (r >>= f) = (r >>= g).map h := by
  cases r with
  | error e => rfl
  | ok a => exact hf a

def ValS (n : Nat) : Prop := ∀ st, parseValue ops s n st = (parseValueC ops s n st).map Prod.fst
def ObjS (n : Nat) : Prop := ∀ st acc, objectLoop ops s n st acc = (objectLoopC ops s n st acc).map Prod.fst
def ArrS (n : Nat) : Prop := ∀ st acc, arrayLoop ops s n st acc = (arrayLoopC ops s n st acc).map Prod.fst

theorem same_pure {α : Type} (r : Res α) (c : Cost) : r = (r >>= fun a => (pure (a, c) : Res (α × Cost))).map Prod.fst := by
  cases r <;> rfl

theorem parseBooleanC_same (st : PState) : parseBoolean (F := F) s st = (parseBooleanC s st).map Prod.fst := by
  unfold parseBooleanC
  cases h : compareAt s st.pos (Str.valueOfBool true) with
  | error e => unfold parseBoolean; rw [h]; rfl
  | ok b => exact same_pure _ _

theorem valS_succ {n : Nat} (ho : ObjS ops s n) (ha : ArrS ops s n) : ValS ops s (n + 1) := by
  intro st
  rw [parseValueC, parseValue]
  refine bind_map _ _ _ _ fun pos => ?_
  split
  · rfl
  · refine bind_map _ _ _ _ fun c => ?_
    split
    · exact same_pure _ _
    · split
      · exact bind_map _ _ _ _ fun q => ho _ _
      · split
        · exact bind_map _ _ _ _ fun q => ha _ _
        · split
          · exact parseBooleanC_same s _
          · split
            · exact same_pure _ _
            · refine bind_map _ _ _ _ fun cp => ?_
              split
              · exact same_pure _ _
              · rfl

theorem objS_succ {n : Nat} (hv : ValS ops s n) (ho : ObjS ops s n) : ObjS ops s (n + 1) := by
  intro st acc
  rw [objectLoopC, objectLoop]
  split
  · refine bind_map _ _ _ _ fun pos => bind_map _ _ _ _ fun c => ?_
    split
    · rfl
    · split
      · refine bind_map _ _ _ _ fun r => ?_
        cases r with
        | error r => rfl
        | ok r =>
          obtain ⟨key, q⟩ := r
          simp only []
          rw [hv]
          cases parseValueC ops s n { st with pos := q } with
          | error e => rfl
          | ok r =>
            obtain ⟨⟨v, st⟩, cost⟩ := r
            simp only [Except.map, ok_bind]
            cases afterValue s rbrace st.pos with
            | error e => rfl
            | ok a =>
              simp only [ok_bind]
              cases a with
              | closed q => rfl
              | error e q => rfl
              | more q =>
                simp only []
                rw [ho]
                cases objectLoopC ops s n { st with pos := q } (Json.setMember key v acc) <;> rfl
      · rfl
  · rfl

theorem arrS_succ {n : Nat} (hv : ValS ops s n) (ha : ArrS ops s n) : ArrS ops s (n + 1) := by
  intro st acc
  rw [arrayLoopC, arrayLoop]
  split
  · refine bind_map _ _ _ _ fun pos => bind_map _ _ _ _ fun c => ?_
    split
    · rfl
    · rw [hv]
      cases parseValueC ops s n { st with pos := pos } with
      | error e => rfl
      | ok r =>
        obtain ⟨⟨v, st⟩, cost⟩ := r
        simp only [Except.map, ok_bind]
        cases afterValue s rbracket st.pos with
        | error e => rfl
        | ok a =>
          simp only [ok_bind]
          cases a with
          | closed q => rfl
          | error e q => rfl
          | more q =>
            simp only []
            rw [ha]
            cases arrayLoopC ops s n { st with pos := q } (acc ++ [v]) <;> rfl
  · rfl

theorem same_all : ∀ n, ValS ops s n ∧ ObjS ops s n ∧ ArrS ops s n
  | 0 => ⟨fun _ => by rw [parseValue, parseValueC]; rfl, fun _ _ => by rw [objectLoop, objectLoopC]; rfl,
      fun _ _ => by rw [arrayLoop, arrayLoopC]; rfl⟩
  | n + 1 => by
    obtain ⟨hv, ho, ha⟩ := same_all n
    exact ⟨valS_succ ops s ho ha, objS_succ ops s hv ho, arrS_succ ops s hv ha⟩

theorem parseC_same : parse ops s = (parseC ops s).map Prod.fst := by
  unfold parse parseC
  split
  · rfl
  · refine bind_map _ _ _ _ fun first => bind_map _ _ _ _ fun last => bind_map _ _ _ _ fun c => ?_
    split
    · rfl
    · refine bind_map _ _ _ _ fun c => ?_
      split
      · rfl
      · exact (same_all ops s _).1 _

theorem documentC_same : document ops s = (documentC ops s).map Prod.fst := by
  unfold document documentC
  rw [parseC_same]
  cases parseC ops s with
  | error e => rfl
  | ok r =>
    obtain ⟨⟨data, st⟩, cost⟩ := r
    simp only [Except.map, ok_bind]
    split <;> rfl

/-! ### Bounds from above -/

/-- What holds of the result if there is one. -/
def OkP {α : Type} (P : α → Prop) (r : Res α) : Prop := ∀ a, r = .ok a → P a

theorem OkP.bind {α β : Type} {P : α → Prop} {Q : β → Prop} {r : Res α} {f : α → Res β}
    (hr : OkP P r) (hf : ∀ a, P a → OkP Q (f a)) : OkP Q (r >>= f) := by
  cases r with
  | error e => intro b hb; cases hb
  | ok a => exact hf a (hr a rfl)

theorem OkP.mono {α : Type} {P Q : α → Prop} {r : Res α} (hr : OkP P r) (h : ∀ a, P a → Q a) : OkP Q r :=
  fun a ha => h a (hr a ha)

theorem OkP.pure {α : Type} {P : α → Prop} {a : α} (h : P a) : OkP P (.ok a) := by
  intro b hb; cases hb; exact h

theorem okp_nf {α : Type} {P : α → Prop} {r : Res α} (h : NF P r) : OkP P r := by
  intro a ha; rw [ha] at h; exact h

theorem OkP.and {α : Type} {P Q : α → Prop} {r : Res α} (h : OkP P r) (h' : OkP Q r) : OkP (fun a => P a ∧ Q a) r :=
  fun a ha => ⟨h a ha, h' a ha⟩

theorem okp_self {α : Type} (r : Res α) : OkP (fun a => r = .ok a) r := fun _ h => h

theorem okp_true {α : Type} (r : Res α) : OkP (fun _ => True) r := fun _ _ => trivial

theorem leaf_stringEnd (st : PState) (out : List UInt8) : OkP (fun r => copied r.1 = 1) (stringEnd (F := F) s st out) := by
  unfold stringEnd
  refine (okp_true _).bind fun c _ => ?_
  split
  · refine (okp_true _).bind fun v _ => .pure ?_
    rw [copied] <;> simp
  · refine .pure ?_
    rw [copied] <;> simp

theorem leaf_fail (e : JsonError) (p : Nat) : OkP (fun r => copied r.1 = 1) (fail (F := F) e p) := by
  refine .pure ?_
  rw [copied] <;> simp

theorem leaf_stringLoop : ∀ (n : Nat) (st : PState) (out : List UInt8),
    OkP (fun r => copied r.1 = 1) (stringLoop (F := F) s n st out)
  | 0, _, _ => fun _ h => by rw [stringLoop] at h; cases h
  | n + 1, st, out => by
    rw [stringLoop]
    split
    · refine (okp_true _).bind fun c _ => ?_
      split
      · exact leaf_stringEnd s st out
      · split
        · split
          · exact leaf_fail _ _
          · refine (okp_true _).bind fun d _ => (okp_true _).bind fun r _ => ?_
            cases r with
            | error e => exact leaf_fail _ _
            | ok r => exact leaf_stringLoop n _ _
        · exact leaf_stringLoop n _ _
    · exact leaf_stringEnd s st out

theorem leaf_parseNumber (st : PState) : OkP (fun r => copied r.1 = 1) (parseNumber ops s st) := by
  unfold parseNumber
  refine (okp_true _).bind fun len _ => (okp_true _).bind fun t _ => ?_
  cases h : convert ops t with
  | error e => exact leaf_fail _ _
  | ok j =>
    refine .pure ?_
    unfold convert at h
    repeat' split at h
    all_goals first | cases h | skip
    all_goals (rw [copied] <;> simp)

theorem leaf_parseNull (st : PState) : OkP (fun r => copied r.1 = 1) (parseNull (F := F) s st) := by
  unfold parseNull
  refine (okp_true _).bind fun b _ => ?_
  split
  · refine .pure ?_
    rw [copied] <;> simp
  · exact leaf_fail _ _

theorem leaf_parseBoolean (st : PState) : OkP (fun r => copied r.1 = 1) (parseBoolean (F := F) s st) := by
  unfold parseBoolean
  refine (okp_true _).bind fun b _ => ?_
  split
  · refine .pure ?_
    rw [copied] <;> simp
  · refine (okp_true _).bind fun b _ => ?_
    split
    · refine .pure ?_
      rw [copied] <;> simp
    · exact leaf_fail _ _

theorem copied_pos (j : Json F) : 1 ≤ copied j := by cases j <;> simp [copied]

theorem copiedItems_append (a b : List (Json F)) : copiedItems (a ++ b) = copiedItems a + copiedItems b := by
  induction a with
  | nil => simp [copiedItems]
  | cons j a ih => simp [copiedItems, ih]; omega

theorem copiedMembers_set (k : Str) (v : Json F) : ∀ ms : List (Str × Json F),
    copiedMembers (Json.setMember k v ms) ≤ copiedMembers ms + copied v
  | [] => by simp [Json.setMember, copiedMembers]
  | (k', w) :: ms => by
    rw [Json.setMember]
    split
    · simp only [copiedMembers]; omega
    · have := copiedMembers_set k v ms
      simp only [copiedMembers]; omega

theorem length_set (k : Str) (v : Json F) : ∀ ms : List (Str × Json F),
    (Json.setMember k v ms).length ≤ ms.length + 1
  | [] => by simp [Json.setMember]
  | (k', w) :: ms => by
    rw [Json.setMember]
    split
    · simp
    · have := length_set k v ms
      simp only [List.length_cons]; omega

theorem searched_le (k : Str) : ∀ ms : List (Str × Json F), searched k ms ≤ ms.length
  | [] => by simp [searched]
  | (k', w) :: ms => by
    have := searched_le k ms
    rw [searched]
    split <;> simp only [List.length_cons] <;> omega

/-- The bounds of a value that is read from position `p`. -/
def ValPost (p : Nat) (r : (Json F × PState) × Cost) : Prop :=
  ∃ l, r.1.2.pos = p + l ∧ copied r.1.1 ≤ l + 1 ∧ r.2.texts ≤ 2 * l + 2 ∧ r.2.nodes ≤ (l + 1) ^ 2 ∧ r.2.keys ≤ l ^ 2

/-- The bounds of the rest of an object after `a` members with `m` nodes. -/
def ObjPost (p a m : Nat) (r : (Json F × PState) × Cost) : Prop :=
  ∃ l, r.1.2.pos = p + l ∧ p + l ≤ s.length ∧ copied r.1.1 ≤ 1 + m + l ∧ r.2.texts ≤ 2 * l + 2 ∧
    r.2.nodes ≤ (l + 1) ^ 2 + 2 * (l + 1) ∧ r.2.keys ≤ (l + 1) ^ 2 + a * (l + 1)

/-- The bounds of the rest of an array after items with `m` nodes. -/
def ArrPost (p m : Nat) (r : (Json F × PState) × Cost) : Prop :=
  ∃ l, r.1.2.pos = p + l ∧ p + l ≤ s.length ∧ copied r.1.1 ≤ 1 + m + l ∧ r.2.texts ≤ 2 * l + 2 ∧
    r.2.nodes ≤ (l + 1) ^ 2 + 2 * (l + 1) ∧ r.2.keys ≤ l ^ 2

def ValB (n : Nat) : Prop := ∀ p e, OkP (ValPost p) (parseValueC ops s n ⟨p, e⟩)
def ObjB (n : Nat) : Prop := ∀ p e acc, p ≤ s.length →
  OkP (ObjPost s p acc.length (copiedMembers acc)) (objectLoopC ops s n ⟨p, e⟩ acc)
def ArrB (n : Nat) : Prop := ∀ p e acc, p ≤ s.length →
  OkP (ArrPost s p (copiedItems acc)) (arrayLoopC ops s n ⟨p, e⟩ acc)

theorem firstNonSpace_le : ∀ (u : Str) (i : Nat), OkP (fun k => k ≤ i + u.length) (StrUtil.firstNonSpace u i)
  | [], i => .pure (by simp)
  | c :: u, i => by
    rw [StrUtil.firstNonSpace]
    refine (okp_true _).bind fun cp _ => ?_
    split
    · exact (firstNonSpace_le u (i + 1)).mono fun k h => by simp only [List.length_cons]; omega
    · exact .pure (by omega)

theorem okp_skipSpace (p : Nat) (hp : p ≤ s.length) : OkP (fun q => p ≤ q ∧ q ≤ s.length) (skipSpace s p) :=
  (okp_nf (nf_skipSpace s p)).and ((firstNonSpace_le (s.drop p) p).mono fun q h => by
    rw [List.length_drop] at h; omega)

/-- The positions after a value. -/
theorem okp_afterValue (c : Chr) (p : Nat) : OkP (fun r => match r with
    | .closed q => p < q ∧ q ≤ s.length
    | .more q => p < q ∧ q ≤ s.length
    | .error _ q => p ≤ q ∧ q ≤ s.length) (afterValue s c p) := by
  unfold afterValue
  refine (okp_nf (nf_skipSpace _ _)).bind fun q hq => (okp_nf (nf_index _ _)).bind fun d hd => ?_
  split
  · refine (okp_nf (nf_skipSpace _ _)).bind fun q' hq' => (okp_nf (nf_index _ _)).bind fun d' hd' => ?_
    split
    · exact .pure ⟨by omega, by omega⟩
    · exact .pure ⟨by omega, by omega⟩
  · split
    · exact .pure ⟨by omega, by omega⟩
    · exact .pure ⟨by omega, by omega⟩

theorem okp_memberKey (p : Nat) (hp : p ≤ s.length) : OkP (fun r => match r with
    | .ok (_, q) => p < q
    | .error (_, q) => p ≤ q ∧ q ≤ s.length) (memberKey s p) := by
  have h := okp_nf (nf_memberKey s p)
  intro r hr
  have h := h r hr
  cases r with
  | ok r => exact h.2 _ _ rfl
  | error r =>
    refine ⟨(h.1 _ _ rfl).2, ?_⟩
    unfold memberKey at hr
    revert hr
    have : OkP (fun r => ∀ e q, r = Except.error (e, q) → q ≤ s.length) (memberKey s p) := by
      unfold memberKey
      refine (okp_true _).bind fun k _ => ?_
      split
      · refine .pure ?_
        intro e q h; cases h; exact hp
      · refine (okp_true _).bind fun key _ => (okp_true _).bind fun q _ => (okp_nf (nf_index _ _)).bind fun c hc => ?_
        split
        · refine .pure ?_
          intro e q h; cases h; omega
        · refine (okp_true _).bind fun q' _ => .pure ?_
          intro e q h; cases h
    intro hr
    exact this _ hr _ _ rfl

theorem valB_succ {n : Nat} (ho : ObjB ops s n) (ha : ArrB ops s n) : ValB ops s (n + 1) := by
  intro p e
  rw [parseValueC]
  refine (okp_nf (nf_skipSpace s p)).bind fun q hq => ?_
  have leaf : ∀ (c : Cost) (r : Json F × PState), q ≤ r.2.pos → copied r.1 = 1 → c.texts ≤ 2 → c.nodes = 0 → c.keys = 0 →
      ValPost p (r, c) := by
    intro c r h1 h2 h3 h4 h5
    refine ⟨r.2.pos - p, by simp only; omega, by simp only; omega, by simp only; omega, ?_, ?_⟩
    · simp only; rw [h4]; exact Nat.zero_le _
    · simp only; rw [h5]; exact Nat.zero_le _
  split
  · refine .pure (leaf _ _ (Nat.le_refl _) ?_ (by decide) rfl rfl)
    rw [copied] <;> simp
  · refine (okp_nf (nf_index s q)).bind fun c hc => ?_
    split
    · refine ((okp_nf (nf_parseString s q e)).and (leaf_stringLoop s _ _ _)).bind fun r hr => ?_
      exact .pure (leaf _ _ hr.1.1 hr.2 (by decide) rfl rfl)
    · split
      · refine (okp_skipSpace s (q + 1) (by omega)).bind fun q' hq' => (ho q' e [] hq'.2).mono ?_
        rintro r ⟨l, h1, h2, h3, h4, h5, h6⟩
        refine ⟨q' + l - p, by omega, ?_, by omega, ?_, ?_⟩
        · simp only [copiedMembers] at h3; omega
        · have : l + 1 ≤ q' + l - p := by omega
          generalize q' + l - p = m at this
          nlinarith
        · have : l + 1 ≤ q' + l - p := by omega
          simp only [List.length_nil, Nat.zero_mul, Nat.add_zero] at h6
          exact h6.trans (Nat.pow_le_pow_left this 2)
      · split
        · refine (okp_skipSpace s (q + 1) (by omega)).bind fun q' hq' => (ha q' e [] hq'.2).mono ?_
          rintro r ⟨l, h1, h2, h3, h4, h5, h6⟩
          refine ⟨q' + l - p, by omega, ?_, by omega, ?_, ?_⟩
          · simp only [copiedItems] at h3; omega
          · have : l + 1 ≤ q' + l - p := by omega
            generalize q' + l - p = m at this
            nlinarith
          · exact h6.trans (Nat.pow_le_pow_left (by omega) 2)
        · split
          · unfold parseBooleanC
            refine (okp_true _).bind fun b _ =>
              ((okp_nf (nf_parseBoolean s q e)).and (leaf_parseBoolean s _)).bind fun r hr => ?_
            exact .pure (leaf _ _ hr.1.1 hr.2 (by cases b <;> decide) rfl rfl)
          · split
            · unfold parseNullC
              refine ((okp_nf (nf_parseNull s q e)).and (leaf_parseNull s _)).bind fun r hr => ?_
              exact .pure (leaf _ _ hr.1.1 hr.2 (by decide) rfl rfl)
            · refine (okp_true _).bind fun cp _ => ?_
              split
              · refine ((okp_nf (nf_parseNumber ops s q e)).and (leaf_parseNumber ops s _)).bind fun r hr => ?_
                exact .pure (leaf _ _ hr.1.1 hr.2 (by decide) rfl rfl)
              · exact OkP.pure (leaf {} (.null, ⟨q, .unexpectedCharacter⟩) (Nat.le_refl _) (by rw [copied] <;> simp)
                  (by decide) rfl rfl)

/-- The costs of an item and of the rest. -/
theorem cost_add (l m k : Nat) (h : l + 1 ≤ m) :
    (l + 1) ^ 2 + 2 * (l + 1) + ((k + 1) ^ 2 + 2 * (k + 1)) ≤ (m + k + 1) ^ 2 + 2 * (m + k + 1) := by
  nlinarith

theorem nodes_ending {c l m : Nat} (h : c ≤ (l + 1) ^ 2) (hm : l + 1 ≤ m) : c ≤ (m + 1) ^ 2 + 2 * (m + 1) := by
  have : (l + 1) ^ 2 ≤ (m + 1) ^ 2 := Nat.pow_le_pow_left (by omega) 2
  omega

theorem keys_ending {c t l m a : Nat} (h : c ≤ l ^ 2) (ht : t ≤ a) (hm : l + 1 ≤ m) :
    c + t ≤ (m + 1) ^ 2 + a * (m + 1) := by
  have h1 : l ^ 2 ≤ (m + 1) ^ 2 := Nat.pow_le_pow_left (by omega) 2
  have h2 : a * 1 ≤ a * (m + 1) := Nat.mul_le_mul_left a (by omega)
  omega

theorem keys_more {c t l m a k d b : Nat} (h : c ≤ l ^ 2) (ht : t ≤ a) (hm : l + 1 ≤ m) (hb : b ≤ a + 1)
    (hd : d ≤ (k + 1) ^ 2 + b * (k + 1)) : c + t + d ≤ (m + k + 1) ^ 2 + a * (m + k + 1) := by
  have h1 : l ^ 2 + (k + 1) ^ 2 + (k + 1) ≤ (m + k + 1) ^ 2 := by nlinarith
  have h2 : b * (k + 1) ≤ (a + 1) * (k + 1) := Nat.mul_le_mul_right _ hb
  have h3 : a + a * (k + 1) ≤ a * (m + k + 1) := by nlinarith
  have h4 : (a + 1) * (k + 1) = a * (k + 1) + (k + 1) := Nat.succ_mul a (k + 1)
  omega

theorem items_ending {c v l m : Nat} (h : c ≤ (l + 1) ^ 2) (hv : v ≤ l + 1) (hm : l ≤ m) :
    c + 2 * v ≤ (m + 1) ^ 2 + 2 * (m + 1) := by
  have : (l + 1) ^ 2 ≤ (m + 1) ^ 2 := Nat.pow_le_pow_left (by omega) 2
  omega

theorem squares {l m k : Nat} (hm : l + 1 ≤ m) : l ^ 2 + k ^ 2 ≤ (m + k) ^ 2 := by
  have : l ^ 2 ≤ m ^ 2 := Nat.pow_le_pow_left (by omega) 2
  nlinarith [Nat.zero_le (m * k)]

theorem objB_succ {n : Nat} (hv : ValB ops s n) (ho : ObjB ops s n) : ObjB ops s (n + 1) := by
  intro p e acc hp
  rw [objectLoopC]
  have done : ∀ (c : Cost) (r : Json F × PState) (q : Nat), p ≤ q → q ≤ s.length → r.2.pos = q →
      copied r.1 ≤ 1 + copiedMembers acc → c.texts = 0 → c.nodes = 0 → c.keys = 0 →
      ObjPost s p acc.length (copiedMembers acc) (r, c) := by
    intro c r q h0 h1 h2 h3 h4 h5 h6
    refine ⟨q - p, by simp only; omega, by omega, by simp only; omega, by simp only; omega, ?_, ?_⟩
    · simp only; rw [h5]; exact Nat.zero_le _
    · simp only; rw [h6]; exact Nat.zero_le _
  have null : copied (.null : Json F) ≤ 1 + copiedMembers acc := by rw [copied] <;> simp
  split
  · refine (okp_skipSpace s p hp).bind fun q hq => (okp_nf (nf_index s q)).bind fun c hc => ?_
    split
    · refine .pure (done _ _ (q + 1) (by omega) (by omega) rfl ?_ rfl rfl rfl)
      simp only [copied]; omega
    · split
      · refine (okp_memberKey s (q + 1) (by omega)).bind fun r hr => ?_
        cases r with
        | error r => exact .pure (done _ _ r.2 (by have := hr.1; omega) hr.2 rfl null rfl rfl rfl)
        | ok r =>
          obtain ⟨key, q₁⟩ := r
          refine (hv q₁ e).bind ?_
          rintro ⟨⟨v, st⟩, cost⟩ ⟨l, h1, h2, h3, h4, h5⟩
          simp only at h1 h2 h3 h4 h5 hr
          have hs := searched_le key acc
          have ht : (cost + { keys := searched key acc }).texts = cost.texts := rfl
          have hn : (cost + { keys := searched key acc }).nodes = cost.nodes := Nat.add_zero _
          have hk : (cost + { keys := searched key acc }).keys = cost.keys + searched key acc := rfl
          refine (okp_afterValue s rbrace st.pos).bind fun a h => ?_
          have ending : ∀ (w : Json F) (e' : JsonError) (q₂ : Nat), st.pos ≤ q₂ → q₂ ≤ s.length →
              copied w ≤ 1 + copiedMembers acc + (l + 1) →
              ObjPost s p acc.length (copiedMembers acc) ((w, ⟨q₂, e'⟩), cost + { keys := searched key acc }) := by
            intro w e' q₂ k1 k2 k3
            refine ⟨q₂ - p, by simp only; omega, by omega, by simp only; omega, by simp only; omega, ?_, ?_⟩
            · simp only; rw [hn]
              exact nodes_ending h4 (by omega)
            · simp only; rw [hk]
              exact keys_ending h5 hs (by omega)
          cases a with
          | closed q₂ =>
            refine .pure (ending _ _ q₂ (by have := h.1; omega) h.2 ?_)
            have := copiedMembers_set key v acc
            simp only [copied]; omega
          | error e' q₂ => exact .pure (ending _ _ q₂ h.1 h.2 (by omega))
          | more q₂ =>
            simp only at h
            refine (ho q₂ st.err _ h.2).bind ?_
            rintro ⟨r, rest⟩ ⟨k, g1, g2, g3, g4, g5, g6⟩
            have := copiedMembers_set key v acc
            have hlen := length_set key v acc
            simp only at g1 g2 g3 g4 g5 g6
            have e1 : (cost + { keys := searched key acc } + rest).texts = cost.texts + rest.texts := rfl
            have e2 : (cost + { keys := searched key acc } + rest).nodes = cost.nodes + rest.nodes := rfl
            have e3 : (cost + { keys := searched key acc } + rest).keys = cost.keys + searched key acc + rest.keys := rfl
            have hm : l + 1 ≤ q₂ - p := by omega
            refine .pure ⟨q₂ - p + k, by simp only; omega, by omega, by simp only; omega, ?_, ?_, ?_⟩
            · simp only; rw [e1]; omega
            · simp only; rw [e2]
              have := cost_add l (q₂ - p) k hm
              omega
            · simp only; rw [e3]
              exact keys_more h5 hs hm hlen g6
      · exact .pure (done _ _ q hq.1 hq.2 rfl null rfl rfl rfl)
  · exact .pure (done _ _ p (Nat.le_refl _) hp rfl null rfl rfl rfl)

theorem arrB_succ {n : Nat} (hv : ValB ops s n) (ha : ArrB ops s n) : ArrB ops s (n + 1) := by
  intro p e acc hp
  rw [arrayLoopC]
  have done : ∀ (c : Cost) (r : Json F × PState) (q : Nat), p ≤ q → q ≤ s.length → r.2.pos = q →
      copied r.1 ≤ 1 + copiedItems acc → c.texts = 0 → c.nodes = 0 → c.keys = 0 →
      ArrPost s p (copiedItems acc) (r, c) := by
    intro c r q h0 h1 h2 h3 h4 h5 h6
    refine ⟨q - p, by simp only; omega, by omega, by simp only; omega, by simp only; omega, ?_, ?_⟩
    · simp only; rw [h5]; exact Nat.zero_le _
    · simp only; rw [h6]; exact Nat.zero_le _
  have null : copied (.null : Json F) ≤ 1 + copiedItems acc := by rw [copied] <;> simp
  split
  · refine (okp_skipSpace s p hp).bind fun q hq => (okp_nf (nf_index s q)).bind fun c hc => ?_
    split
    · refine .pure (done _ _ (q + 1) (by omega) (by omega) rfl ?_ rfl rfl rfl)
      simp only [copied]; omega
    · refine (hv q e).bind ?_
      rintro ⟨⟨v, st⟩, cost⟩ ⟨l, h1, h2, h3, h4, h5⟩
      simp only at h1 h2 h3 h4 h5
      have ht : (cost + appendCost v).texts = cost.texts := rfl
      have hn : (cost + appendCost v).nodes = cost.nodes + 2 * copied v := rfl
      have hk : (cost + appendCost v).keys = cost.keys := rfl
      have hitems := copiedItems_append acc [v]
      simp only [copiedItems, Nat.add_zero] at hitems
      refine (okp_afterValue s rbracket st.pos).bind fun a h => ?_
      have ending : ∀ (w : Json F) (e' : JsonError) (q₂ : Nat), st.pos ≤ q₂ → q₂ ≤ s.length →
          copied w ≤ 1 + copiedItems acc + (q₂ - p) →
          ArrPost s p (copiedItems acc) ((w, ⟨q₂, e'⟩), cost + appendCost v) := by
        intro w e' q₂ k1 k2 k3
        have : l ≤ q₂ - p := by omega
        refine ⟨q₂ - p, by simp only; omega, by omega, by simp only; omega, by simp only; omega, ?_, ?_⟩
        · simp only; rw [hn]
          exact items_ending h4 h2 this
        · simp only; rw [hk]
          exact h5.trans (Nat.pow_le_pow_left this 2)
      cases a with
      | closed q₂ =>
        simp only at h
        refine .pure (ending _ _ q₂ (by omega) h.2 ?_)
        simp only [copied]; omega
      | error e' q₂ => exact .pure (ending _ _ q₂ h.1 h.2 (by omega))
      | more q₂ =>
        simp only at h
        refine (ha q₂ st.err _ h.2).bind ?_
        rintro ⟨r, rest⟩ ⟨k, g1, g2, g3, g4, g5, g6⟩
        simp only at g1 g2 g3 g4 g5 g6
        have e1 : (cost + appendCost v + rest).texts = cost.texts + rest.texts := rfl
        have e2 : (cost + appendCost v + rest).nodes = cost.nodes + 2 * copied v + rest.nodes := rfl
        have e3 : (cost + appendCost v + rest).keys = cost.keys + rest.keys := rfl
        have hm : l + 1 ≤ q₂ - p := by omega
        refine .pure ⟨q₂ - p + k, by simp only; omega, by omega, by simp only; omega, ?_, ?_, ?_⟩
        · simp only; rw [e1]; omega
        · simp only; rw [e2]
          have := cost_add l (q₂ - p) k hm
          omega
        · simp only; rw [e3]
          have := squares (k := k) hm
          omega
  · exact .pure (done _ _ p (Nat.le_refl _) hp rfl null rfl rfl rfl)

theorem bounds_all : ∀ n, ValB ops s n ∧ ObjB ops s n ∧ ArrB ops s n
  | 0 => ⟨fun _ _ _ h => (by rw [parseValueC] at h; cases h), fun _ _ _ _ _ h => (by rw [objectLoopC] at h; cases h),
      fun _ _ _ _ _ h => (by rw [arrayLoopC] at h; cases h)⟩
  | n + 1 => by
    obtain ⟨hv, ho, ha⟩ := bounds_all n
    exact ⟨valB_succ ops s ho ha, objB_succ ops s hv ho, arrB_succ ops s hv ha⟩

/-- The bounds for a whole text. -/
def DocPost (r : (Json F × PState) × Cost) : Prop :=
  r.2.texts ≤ 2 * s.length ∧ r.2.nodes ≤ s.length ^ 2 + 2 * s.length ∧ r.2.keys ≤ s.length ^ 2 ∧
    copied r.1.1 ≤ s.length + 1

theorem docPost_null (st : PState) : DocPost s (((.null : Json F), st), {}) := by
  refine ⟨Nat.zero_le _, Nat.zero_le _, Nat.zero_le _, ?_⟩
  rw [copied] <;> simp

theorem docPost_object (n : Nat) (p : Nat) (c : Chr) (h1 : skipSpace s 0 = .ok p) (h2 : Str.index s p = .ok c)
    (h3 : c = lbrace) : OkP (DocPost s) (parseValueC ops s n {}) := by
  cases n with
  | zero => intro r h; rw [parseValueC] at h; cases h
  | succ n =>
    rw [parseValueC]
    have hp : p < s.length := (okp_nf (nf_index s p)) _ h2
    refine (okp_self _).bind fun p' hp' => ?_
    obtain rfl : p = p' := Except.ok.inj (h1.symm.trans hp')
    rw [if_neg (by omega)]
    refine (okp_self _).bind fun c' hc' => ?_
    obtain rfl : c = c' := Except.ok.inj (h2.symm.trans hc')
    subst h3
    rw [if_neg (by decide), if_pos rfl]
    refine (okp_skipSpace s (p + 1) (by omega)).bind fun q hq => ?_
    refine ((bounds_all ops s n).2.1 q _ [] hq.2).mono ?_
    rintro ⟨r, cost⟩ ⟨l, k1, k2, k3, k4, k5, k6⟩
    simp only [copiedMembers, List.length_nil, Nat.zero_mul, Nat.add_zero] at k3 k6
    have h : (l + 1) ^ 2 ≤ s.length ^ 2 := Nat.pow_le_pow_left (by omega) 2
    simp only at k4 k5
    exact ⟨by simp only; omega, by simp only; omega, by simp only; omega, by simp only; omega⟩

theorem parseC_bounds : OkP (DocPost s) (parseC ops s) := by
  unfold parseC
  split
  · exact .pure (docPost_null s _)
  · refine (okp_self _).bind fun first hf => (okp_true _).bind fun last _ => (okp_self _).bind fun c hc => ?_
    split
    · exact .pure (docPost_null s _)
    · rename_i h
      refine (okp_true _).bind fun d _ => ?_
      split
      · exact .pure (docPost_null s _)
      · exact docPost_object ops s _ first c hf hc (Classical.byContradiction h)

theorem documentC_bounds : OkP (fun r => r.2.texts ≤ 2 * s.length ∧ r.2.nodes ≤ s.length ^ 2 + 3 * s.length + 1 ∧
    r.2.keys ≤ s.length ^ 2) (documentC ops s) := by
  unfold documentC
  refine (parseC_bounds ops s).bind ?_
  rintro ⟨⟨data, st⟩, cost⟩ ⟨h1, h2, h3, h4⟩
  simp only at h1 h2 h3 h4 ⊢
  split
  · exact .pure ⟨h1, by simp only; omega, h3⟩
  · have e2 : (cost + { nodes := copied data }).nodes = cost.nodes + copied data := rfl
    exact .pure ⟨h1, by simp only; omega, h3⟩

end
end Caitlyn
