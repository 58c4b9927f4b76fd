import Verif.Proofs.JsonSound

/-! # Helper lemmas: every text, well-formed or not -/

namespace Caitlyn
open Caitlyn.Spec JsonParser

/-- The call does not run out of fuel, and what it returns satisfies `P`. -/
def NF {α : Type} (P : α → Prop) : Res α → Prop
  | .ok a => P a
  | .error x => x ≠ .fuel

namespace NF

theorem bind {α β : Type} {P : α → Prop} {Q : β → Prop} {r : Res α} {f : α → Res β}
    (hr : NF P r) (hf : ∀ a, P a → NF Q (f a)) : NF Q (r >>= f) := by
  cases r with
  | error e => exact hr
  | ok a => exact hf a hr

theorem mono {α : Type} {P Q : α → Prop} {r : Res α} (hr : NF P r) (h : ∀ a, P a → Q a) : NF Q r := by
  cases r with
  | error e => exact hr
  | ok a => exact h a hr

end NF

theorem nf_byteAt (s : List UInt8) (i : Nat) : NF (fun _ => True) (Chr.byteAt s i) := by
  unfold Chr.byteAt
  split
  · unfold vecGet; split <;> simp [NF]
  · split <;> simp [NF]

theorem nf_getCodePoint (c : Chr) : NF (fun _ => True) c.getCodePoint := by
  unfold Chr.getCodePoint
  refine (nf_byteAt _ _).bind fun lead _ => ?_
  split
  · trivial
  · split
    · exact (nf_byteAt _ _).bind fun _ _ => trivial
    · split
      · exact (nf_byteAt _ _).bind fun _ _ => (nf_byteAt _ _).bind fun _ _ => trivial
      · split
        · exact (nf_byteAt _ _).bind fun _ _ => (nf_byteAt _ _).bind fun _ _ => (nf_byteAt _ _).bind fun _ _ => trivial
        · trivial

theorem nf_index (s : Str) (p : Nat) : NF (fun _ => p < s.length) (Str.index s p) := by
  unfold Str.index vecGet
  cases h : s[p]? with
  | none => simp [NF]
  | some a => exact (List.getElem?_eq_some_iff.mp h).1

theorem nf_firstNonSpace : ∀ (u : Str) (i : Nat), NF (fun k => i ≤ k) (StrUtil.firstNonSpace u i)
  | [], i => Nat.le_refl i
  | c :: u, i => by
    rw [StrUtil.firstNonSpace]
    refine (nf_getCodePoint c).bind fun cp _ => ?_
    split
    · exact (nf_firstNonSpace u (i + 1)).mono fun k h => by omega
    · exact Nat.le_refl i

theorem nf_skipSpace (s : Str) (p : Nat) : NF (fun q => p ≤ q) (skipSpace s p) := nf_firstNonSpace _ _

theorem nf_lastNonSpace (s : Str) : ∀ i, NF (fun _ => True) (StrUtil.lastNonSpace s i)
  | 0 => trivial
  | i + 1 => by
    rw [StrUtil.lastNonSpace]
    refine (nf_index s _).bind fun c _ => (nf_getCodePoint c).bind fun cp _ => ?_
    split
    · exact nf_lastNonSpace s i
    · trivial

theorem nf_substring (s : Str) (p n : Nat) : NF (fun _ => True) (Str.substring s p n) := by
  unfold Str.substring; split <;> simp [NF]

theorem nf_compareAt (s : Str) (p : Nat) (t : List UInt8) : NF (fun _ => True) (compareAt s p t) := by
  unfold compareAt; split <;> simp [NF]

theorem nf_ofStdString (bs : List UInt8) : NF (fun _ => True) (Str.ofStdString bs) := by
  unfold Str.ofStdString Str.ofCStr
  have := Str.decodeLoop_fuel ((bs ++ [0]).length + 1) (bs ++ [0]) (by omega)
  cases h : Str.decodeLoop ((bs ++ [0]).length + 1) (bs ++ [0]) with
  | ok _ => trivial
  | error e => rintro rfl; exact this h

theorem nf_numLen : ∀ u : Str, NF (fun _ => True) (numLen u)
  | [] => trivial
  | c :: u => by
    rw [numLen]
    have : NF (fun _ => True) (isNumChar c) := by
      unfold isNumChar; exact (nf_getCodePoint c).bind fun _ _ => trivial
    refine this.bind fun b _ => ?_
    split
    · exact (nf_numLen u).bind fun _ _ => trivial
    · trivial

/-- After a step of the parser from position `p` and error `e`: no step back, no error forgotten, unique keys. -/
def Post {F : Type} (p : Nat) (e : JsonError) (r : Json F × PState) : Prop :=
  p ≤ r.2.pos ∧ (r.2.err = .noError → e = .noError) ∧ UniqueKeys r.1

theorem post_fail {F : Type} {p q : Nat} {e e' : JsonError} (h : p ≤ q) (h' : e' ≠ .noError) :
    NF (Post (F := F) p e) (fail e' q) :=
  ⟨h, fun h => absurd h h', .null⟩

theorem nf_parseNull {F : Type} (s : Str) (p : Nat) (e : JsonError) :
    NF (Post (F := F) p e) (parseNull s ⟨p, e⟩) := by
  unfold parseNull
  refine (nf_compareAt _ _ _).bind fun b _ => ?_
  split
  · exact ⟨Nat.le_add_right _ _, id, .null⟩
  · exact post_fail (Nat.le_refl _) (by decide)

theorem nf_parseBoolean {F : Type} (s : Str) (p : Nat) (e : JsonError) :
    NF (Post (F := F) p e) (parseBoolean s ⟨p, e⟩) := by
  unfold parseBoolean
  refine (nf_compareAt _ _ _).bind fun b _ => ?_
  split
  · exact ⟨Nat.le_add_right _ _, id, .bool _⟩
  · refine (nf_compareAt _ _ _).bind fun b _ => ?_
    split
    · exact ⟨Nat.le_add_right _ _, id, .bool _⟩
    · exact post_fail (Nat.le_refl _) (by decide)

theorem nf_parseNumber {F : Type} (ops : FloatOps F) (s : Str) (p : Nat) (e : JsonError) :
    NF (Post (F := F) p e) (parseNumber ops s ⟨p, e⟩) := by
  unfold parseNumber
  refine (nf_numLen _).bind fun len _ => (nf_substring _ _ _).bind fun t _ => ?_
  cases h : convert ops t with
  | error e' => exact post_fail (Nat.le_refl _) (convert_err ops h)
  | ok j =>
    refine ⟨Nat.le_add_right _ _, id, ?_⟩
    unfold convert at h
    repeat' split at h
    all_goals first
      | (cases h; done)
      | (cases h; constructor)

theorem nf_escape (s : Str) (p : Nat) (c : Chr) :
    NF (fun r => ∀ e, r = .error e → e ≠ .noError) (escape s p c) := by
  have h := fun e => escape_err (s := s) (p := p) (c := c) (e := e)
  have h2 : NF (fun _ => True) (escape s p c) := by
    unfold escape
    split
    · trivial
    · split
      · split
        · trivial
        · refine (nf_substring _ _ _).bind fun t _ => ?_
          split <;> trivial
      · trivial
  cases hr : escape s p c with
  | error x => rw [hr] at h2; exact h2
  | ok r =>
    intro e he
    subst he
    rw [h e hr]; decide

theorem nf_stringEnd {F : Type} (s : Str) (p : Nat) (e : JsonError) (out : List UInt8) :
    NF (Post (F := F) p e) (stringEnd s ⟨p, e⟩ out) := by
  unfold stringEnd
  refine (nf_index _ _).bind fun c _ => ?_
  split
  · exact (nf_ofStdString _).bind fun v _ => ⟨Nat.le_add_right _ _, id, .str v⟩
  · exact post_fail (Nat.le_refl _) (by decide)

theorem nf_stringLoop {F : Type} (s : Str) : ∀ (n p : Nat) (e : JsonError) (out : List UInt8), s.length - p < n →
    NF (Post (F := F) p e) (stringLoop s n ⟨p, e⟩ out)
  | 0, p, e, out, h => by omega
  | n + 1, p, e, out, h => by
    rw [stringLoop]
    split
    · rename_i hlt
      change p < s.length at hlt
      refine (nf_index _ _).bind fun c _ => ?_
      split
      · exact nf_stringEnd s p e out
      · split
        · split
          · exact post_fail (Nat.le_add_right _ _) (by decide)
          · refine (nf_index _ _).bind fun d _ => (nf_escape s (p + 1) d).bind fun r hr => ?_
            cases r with
            | error e' => exact post_fail (Nat.le_add_right _ _) (hr e' rfl)
            | ok r =>
              obtain ⟨bytes, k⟩ := r
              refine (nf_stringLoop s n (p + 1 + k + 1) e (out ++ bytes) (by omega)).mono ?_
              rintro r ⟨h1, h2, h3⟩
              exact ⟨by omega, h2, h3⟩
        · refine (nf_stringLoop s n (p + 1) e _ (by omega)).mono ?_
          rintro r ⟨h1, h2, h3⟩
          exact ⟨by omega, h2, h3⟩
    · exact nf_stringEnd s p e out

theorem nf_parseString {F : Type} (s : Str) (p : Nat) (e : JsonError) :
    NF (Post (F := F) p e) (parseString s ⟨p, e⟩) := by
  refine (nf_stringLoop s (s.length + 1) (p + 1) e [] (by omega)).mono ?_
  rintro r ⟨h1, h2, h3⟩
  exact ⟨by omega, h2, h3⟩

theorem nf_memberKey (s : Str) (p : Nat) :
    NF (fun r => (∀ e q, r = .error (e, q) → e ≠ .noError ∧ p ≤ q) ∧ ∀ k q, r = .ok (k, q) → p < q)
      (memberKey s p) := by
  unfold memberKey
  have hf : NF (fun k => k = npos ∨ p ≤ k) (Str.find s [quote] p) := by
    unfold Str.find
    split
    · simp [NF]
    · show (if _ then _ else _) = npos ∨ _
      split
      · exact .inr (by omega)
      · exact .inl rfl
  refine hf.bind fun k hk => ?_
  split
  · exact ⟨fun e q h => by cases h; exact ⟨by decide, Nat.le_refl _⟩, fun k q h => by cases h⟩
  · rename_i hne
    have hk : p ≤ k := hk.resolve_left hne
    refine (nf_substring _ _ _).bind fun key _ => (nf_skipSpace _ _).bind fun q hq => (nf_index _ _).bind fun c _ => ?_
    split
    · exact ⟨fun e q h => by cases h; exact ⟨by decide, by omega⟩, fun k q h => by cases h⟩
    · refine (nf_skipSpace _ _).bind fun q' hq' => ?_
      exact ⟨fun e q h => (by cases h), fun k q h => by cases h; omega⟩

/-- Bounds of an `After`. -/
def AfterPost (p : Nat) : After → Prop
  | .closed q => p < q
  | .more q => p < q
  | .error e q => p ≤ q ∧ e ≠ .noError

theorem nf_afterValue (s : Str) (c : Chr) (p : Nat) :
    NF (fun r => p < s.length ∧ AfterPost p r) (afterValue s c p) := by
  unfold afterValue
  refine (nf_skipSpace _ _).bind fun q hq => (nf_index _ _).bind fun d hd => ?_
  split
  · refine (nf_skipSpace _ _).bind fun q' hq' => (nf_index _ _).bind fun d' _ => ?_
    split
    · exact ⟨by omega, (by omega : p ≤ q'), by decide⟩
    · exact ⟨by omega, (by omega : p < q')⟩
  · split
    · exact ⟨by omega, (by omega : p < q + 1)⟩
    · exact ⟨by omega, hq, by decide⟩

/-! ### Members -/

theorem setMember_keys {F : Type} (k : Str) (v : Json F) : ∀ ms : List (Str × Json F),
    (Json.setMember k v ms).map Prod.fst =
      if k ∈ ms.map Prod.fst then ms.map Prod.fst else ms.map Prod.fst ++ [k]
  | [] => rfl
  | (k', v') :: ms => by
    rw [Json.setMember]
    by_cases h : k' = k
    · rw [if_pos h, if_pos (by simp [h])]; rfl
    · rw [if_neg h, List.map_cons, setMember_keys k v ms]
      by_cases hm : k ∈ ms.map Prod.fst
      · rw [if_pos hm, if_pos (by simp only [List.map_cons, List.mem_cons]; exact .inr hm)]; rfl
      · have : k ∉ ((k', v') :: ms).map Prod.fst := by
          simp only [List.map_cons, List.mem_cons, not_or]
          exact ⟨fun e => h e.symm, hm⟩
        rw [if_neg hm, if_neg this]; rfl

theorem setMember_mem {F : Type} (k : Str) (v : Json F) : ∀ (ms : List (Str × Json F)) (m : Str × Json F),
    m ∈ Json.setMember k v ms → m.2 = v ∨ m ∈ ms
  | [], m, h => by simp [Json.setMember] at h; exact .inl (by rw [h])
  | (k', v') :: ms, m, h => by
    rw [Json.setMember] at h
    split at h
    · rcases List.mem_cons.mp h with rfl | h
      · exact .inl rfl
      · exact .inr (by simp [h])
    · rcases List.mem_cons.mp h with rfl | h
      · exact .inr (by simp)
      · rcases setMember_mem k v ms m h with h | h
        · exact .inl h
        · exact .inr (by simp [h])

theorem setMember_nodup {F : Type} (k : Str) (v : Json F) (ms : List (Str × Json F)) (h : (ms.map Prod.fst).Nodup) :
    ((Json.setMember k v ms).map Prod.fst).Nodup := by
  rw [setMember_keys]
  split
  · exact h
  · rename_i hm
    rw [List.nodup_append]
    refine ⟨h, by simp, ?_⟩
    intro a ha b hb
    simp at hb
    subst hb
    rintro rfl
    exact hm ha

theorem unique_set {F : Type} {k : Str} {v : Json F} {ms : List (Str × Json F)} (hv : UniqueKeys v)
    (hm : UniqueKeys (.obj ms)) : UniqueKeys (.obj (Json.setMember k v ms)) := by
  cases hm with
  | obj _ h1 h2 =>
    refine .obj _ (setMember_nodup k v ms h1) fun m hm => ?_
    rcases setMember_mem k v ms m hm with h | h
    · rw [h]; exact hv
    · exact h2 m h

theorem unique_append {F : Type} {v : Json F} {js : List (Json F)} (hv : UniqueKeys v)
    (hm : UniqueKeys (.arr js)) : UniqueKeys (.arr (js ++ [v])) := by
  cases hm with
  | arr _ h =>
    refine .arr _ fun j hj => ?_
    rcases List.mem_append.mp hj with hj | hj
    · exact h j hj
    · simp at hj; subst hj; exact hv

/-! ### Values -/

section
variable {F : Type} (ops : FloatOps F) (s : Str)

def ValNF (n : Nat) : Prop := ∀ p e, 2 * (s.length - p) + 1 ≤ n → NF (Post p e) (parseValue ops s n ⟨p, e⟩)

def ObjNF (n : Nat) : Prop := ∀ p e acc, UniqueKeys (.obj acc) → 2 * (s.length - p) + 2 ≤ n →
  NF (fun r => Post p e r ∧ (r.2.err = .noError → ∃ ms, r.1 = .obj ms)) (objectLoop ops s n ⟨p, e⟩ acc)

def ArrNF (n : Nat) : Prop := ∀ p e acc, UniqueKeys (.arr acc) → 2 * (s.length - p) + 2 ≤ n →
  NF (Post p e) (arrayLoop ops s n ⟨p, e⟩ acc)

theorem post_mono {p q : Nat} {e : JsonError} {r : Json F × PState} (h : Post q e r) (hp : p ≤ q) : Post p e r :=
  ⟨Nat.le_trans hp h.1, h.2⟩

theorem valNF_succ {n : Nat} (ho : ObjNF ops s n) (ha : ArrNF ops s n) : ValNF ops s (n + 1) := by
  intro p e hn
  rw [parseValue]
  refine (nf_skipSpace s p).bind fun q hq => ?_
  split
  · exact ⟨hq, id, .null⟩
  · rename_i hlt
    refine (nf_index _ _).bind fun c _ => ?_
    split
    · exact (nf_parseString s q e).mono fun r h => post_mono h hq
    · split
      · refine (nf_skipSpace s (q + 1)).bind fun q' hq' => ?_
        exact (ho q' e [] (.obj _ (by simp) (by simp)) (by omega)).mono fun r h => post_mono h.1 (by omega)
      · split
        · refine (nf_skipSpace s (q + 1)).bind fun q' hq' => ?_
          exact (ha q' e [] (.arr _ (by simp)) (by omega)).mono fun r h => post_mono h (by omega)
        · split
          · exact (nf_parseBoolean s q e).mono fun r h => post_mono h hq
          · split
            · exact (nf_parseNull s q e).mono fun r h => post_mono h hq
            · refine (nf_getCodePoint c).bind fun cp _ => ?_
              split
              · exact (nf_parseNumber ops s q e).mono fun r h => post_mono h hq
              · exact post_fail hq (by decide)

theorem objNF_succ {n : Nat} (hv : ValNF ops s n) (ho : ObjNF ops s n) : ObjNF ops s (n + 1) := by
  intro p e acc hacc hn
  rw [objectLoop]
  have hfail : ∀ (q : Nat) (e' : JsonError), p ≤ q → e' ≠ .noError →
      NF (fun r => Post p e r ∧ (r.2.err = .noError → ∃ ms, r.1 = .obj ms)) (fail (F := F) e' q) :=
    fun q e' h1 h2 => ⟨post_fail h1 h2, fun h => absurd h h2⟩
  split
  · rename_i hlt
    change p < s.length at hlt
    refine (nf_skipSpace s p).bind fun q hq => (nf_index _ _).bind fun c _ => ?_
    split
    · exact ⟨⟨Nat.le_succ_of_le hq, id, hacc⟩, fun _ => ⟨acc, rfl⟩⟩
    · split
      · refine (nf_memberKey s (q + 1)).bind fun r hr => ?_
        cases r with
        | error r =>
          obtain ⟨e', q'⟩ := r
          obtain ⟨h1, h2⟩ := hr.1 e' q' rfl
          exact hfail q' e' (by omega) h1
        | ok r =>
          obtain ⟨key, q'⟩ := r
          have hq' := hr.2 key q' rfl
          refine (hv q' e (by omega)).bind fun r hr => ?_
          obtain ⟨v, p₂, e₂⟩ := r
          obtain ⟨k1, k2, k3⟩ := hr
          change q' ≤ p₂ at k1
          refine (nf_afterValue s rbrace p₂).bind fun r hr => ?_
          cases r with
          | closed q₃ =>
            have : p₂ < q₃ := hr.2
            exact ⟨⟨(by omega : p ≤ q₃), k2, unique_set k3 hacc⟩, fun _ => ⟨_, rfl⟩⟩
          | more q₃ =>
            have : p₂ < q₃ := hr.2
            refine (ho q₃ e₂ _ (unique_set k3 hacc) (by have := hr.1; omega)).mono fun r h => ?_
            exact ⟨⟨by have := h.1.1; omega, fun h' => k2 (h.1.2.1 h'), h.1.2.2⟩, h.2⟩
          | error e' q₃ =>
            have : p₂ ≤ q₃ := hr.2.1
            exact hfail q₃ e' (by omega) hr.2.2
      · exact hfail q _ hq (by decide)
  · exact hfail _ _ (Nat.le_refl _) (by decide)

theorem arrNF_succ {n : Nat} (hv : ValNF ops s n) (ho : ArrNF ops s n) : ArrNF ops s (n + 1) := by
  intro p e acc hacc hn
  rw [arrayLoop]
  split
  · rename_i hlt
    change p < s.length at hlt
    refine (nf_skipSpace s p).bind fun q hq => (nf_index _ _).bind fun c _ => ?_
    split
    · exact ⟨Nat.le_succ_of_le hq, id, hacc⟩
    · refine (hv q e (by omega)).bind fun r hr => ?_
      obtain ⟨v, p₂, e₂⟩ := r
      obtain ⟨k1, k2, k3⟩ := hr
      change q ≤ p₂ at k1
      refine (nf_afterValue s rbracket p₂).bind fun r hr => ?_
      cases r with
      | closed q₃ =>
        have : p₂ < q₃ := hr.2
        exact ⟨(by omega : p ≤ q₃), k2, unique_append k3 hacc⟩
      | more q₃ =>
        have : p₂ < q₃ := hr.2
        refine (ho q₃ e₂ _ (unique_append k3 hacc) (by have := hr.1; omega)).mono fun r h => ?_
        exact ⟨by have := h.1; omega, fun h' => k2 (h.2.1 h'), h.2.2⟩
      | error e' q₃ =>
        have : p₂ ≤ q₃ := hr.2.1
        exact post_fail (by omega) hr.2.2
  · exact post_fail (Nat.le_refl _) (by decide)

theorem nf_all : ∀ n, ValNF ops s n ∧ ObjNF ops s n ∧ ArrNF ops s n
  | 0 => ⟨fun _ _ h => absurd h (by omega), fun _ _ _ _ h => absurd h (by omega), fun _ _ _ _ h => absurd h (by omega)⟩
  | n + 1 => by
    obtain ⟨hv, ho, ha⟩ := nf_all n
    exact ⟨valNF_succ ops s ho ha, objNF_succ ops s hv ho, arrNF_succ ops s hv ha⟩

/-- The first non-space character being `{`, `ParseValue` returns an object or an error. -/
theorem parse_nf : NF (fun r => UniqueKeys r.1 ∧ (r.2.err = .noError → ∃ ms, r.1 = .obj ms)) (parse ops s) := by
  unfold parse
  have hfail : ∀ (q : Nat) (e' : JsonError), e' ≠ .noError →
      NF (fun r => UniqueKeys r.1 ∧ (r.2.err = .noError → ∃ ms, r.1 = .obj ms)) (fail (F := F) e' q) :=
    fun q e' h2 => ⟨.null, fun h => absurd h h2⟩
  split
  · exact hfail _ _ (by decide)
  · have hfirst := nf_firstNonSpace s 0
    cases hf : StrUtil.findFirstNonSpace s with
    | error x =>
      unfold StrUtil.findFirstNonSpace at hf
      rw [hf] at hfirst; exact hfirst
    | ok first =>
      rw [ok_bind]
      have hlast : NF (fun _ => True) (StrUtil.findLastNonSpace s) := by
        unfold StrUtil.findLastNonSpace
        split
        · simp [NF]
        · exact nf_lastNonSpace s _
      refine hlast.bind fun last _ => ?_
      cases hi : Str.index s first with
      | error x => have := nf_index s first; rw [hi] at this; exact this
      | ok c =>
        rw [ok_bind]
        split
        · exact hfail _ _ (by decide)
        · rename_i hc
          refine (nf_index s last).bind fun d _ => ?_
          split
          · exact hfail _ _ (by decide)
          · have hc : c = lbrace := by
              by_cases h : c = lbrace
              · exact h
              · exact absurd h hc
            subst hc
            rw [parseValue, show skipSpace s (PState.pos {}) = .ok first by
              unfold StrUtil.findFirstNonSpace at hf
              unfold skipSpace
              rw [show (PState.pos {}) = 0 from rfl, List.drop_zero]; exact hf]
            have hlt := (index_inv hi).lt
            rw [ok_bind, if_neg (by omega), hi, ok_bind, if_neg (by decide), if_pos rfl]
            refine (nf_skipSpace s (first + 1)).bind fun q hq => ?_
            exact ((nf_all ops s _).2.1 q .noError [] (.obj _ (by simp) (by simp)) (by omega)).mono
              fun r h => ⟨h.1.2.2, h.2⟩

end
end Caitlyn
