import Verif.Model.JsonStack
import Verif.Proofs.JsonTerm

/-! # The depth of recursion of the parser -/

namespace Caitlyn
open Caitlyn.Spec JsonParser

/-- How many brackets `u` opens, those in strings included. -/
def Spec.opens (u : Str) : Nat := u.countP fun c => decide (c = chr 0x7B ∨ c = chr 0x5B)

theorem opens_le (s : Str) {p q : Nat} (h : p ≤ q) : opens (s.drop q) ≤ opens (s.drop p) := by
  have : s.drop q = (s.drop p).drop (q - p) := by rw [List.drop_drop]; congr 1; omega
  rw [this]
  exact (List.drop_sublist _ _).countP_le

theorem opens_lt (s : Str) {p : Nat} {c : Chr} (h : Str.index s p = .ok c) (hc : c = lbrace ∨ c = lbracket) :
    opens (s.drop p) = opens (s.drop (p + 1)) + 1 := by
  have : s.drop p = c :: s.drop (p + 1) := index_inv h
  rw [this]
  unfold opens
  rw [List.countP_cons_of_pos]
  rcases hc with rfl | rfl <;> decide

theorem bind_same {α β : Type} {P : α → Prop} {r : Res α} {f g : α → Res β} (hr : NF P r)
    (h : ∀ a, r = .ok a → P a → f a = g a) : (r >>= f) = (r >>= g) := by
  cases r with
  | error e => rfl
  | ok a => exact h a rfl hr

section
variable {F : Type} (ops : FloatOps F) (s : Str)

def ValL (n : Nat) : Prop := ∀ d p e, 2 * (s.length - p) + 1 ≤ n → opens (s.drop p) < d →
  parseValueL ops s d n ⟨p, e⟩ = parseValue ops s n ⟨p, e⟩

def ObjL (n : Nat) : Prop := ∀ d p e acc, 2 * (s.length - p) + 2 ≤ n → opens (s.drop p) < d →
  objectLoopL ops s d n ⟨p, e⟩ acc = objectLoop ops s n ⟨p, e⟩ acc

def ArrL (n : Nat) : Prop := ∀ d p e acc, 2 * (s.length - p) + 2 ≤ n → opens (s.drop p) < d →
  arrayLoopL ops s d n ⟨p, e⟩ acc = arrayLoop ops s n ⟨p, e⟩ acc

theorem valL_succ {n : Nat} (ho : ObjL ops s n) (ha : ArrL ops s n) : ValL ops s (n + 1) := by
  intro d p e hn hd
  obtain ⟨d, rfl⟩ : ∃ d', d = d' + 1 := ⟨d - 1, by omega⟩
  rw [parseValueL, parseValue]
  refine bind_same (nf_skipSpace s p) fun q _ hq => ?_
  split
  · rfl
  · refine bind_same (nf_index s q) fun c hc hlt => ?_
    have hop := opens_le s hq
    split
    · rfl
    · split
      · next hb =>
        have := opens_lt s hc (.inl hb)
        refine bind_same (nf_skipSpace s (q + 1)) fun q' _ hq' => ?_
        have := opens_le s hq'
        exact ho d q' e [] (by omega) (by omega)
      · split
        · next hb =>
          have := opens_lt s hc (.inr hb)
          refine bind_same (nf_skipSpace s (q + 1)) fun q' _ hq' => ?_
          have := opens_le s hq'
          exact ha d q' e [] (by omega) (by omega)
        · rfl

theorem objL_succ {n : Nat} (hv : ValL ops s n) (ho : ObjL ops s n) : ObjL ops s (n + 1) := by
  intro d p e acc hn hd
  rw [objectLoopL, objectLoop]
  split
  · next hlt =>
    change p < s.length at hlt
    refine bind_same (nf_skipSpace s p) fun q _ hq => bind_same (nf_index s q) fun c hc _ => ?_
    split
    · rfl
    · split
      · refine bind_same (nf_memberKey s (q + 1)) fun r _ hr => ?_
        cases r with
        | error r => rfl
        | ok r =>
          obtain ⟨key, q'⟩ := r
          have hq' := hr.2 key q' rfl
          have := opens_le s (show p ≤ q' by omega)
          simp only []
          rw [hv d q' e (by omega) (by omega)]
          refine bind_same ((nf_all ops s n).1 q' e (by omega)) fun r _ hr => ?_
          obtain ⟨v, p₂, e₂⟩ := r
          have k1 : q' ≤ p₂ := hr.1
          refine bind_same (nf_afterValue s rbrace p₂) fun r _ hr => ?_
          cases r with
          | closed q₃ => rfl
          | error e' q₃ => rfl
          | more q₃ =>
            have : p₂ < q₃ := hr.2
            have := opens_le s (show q' ≤ q₃ by omega)
            exact ho d q₃ e₂ _ (by have := hr.1; omega) (by omega)
      · rfl
  · rfl

theorem arrL_succ {n : Nat} (hv : ValL ops s n) (ha : ArrL ops s n) : ArrL ops s (n + 1) := by
  intro d p e acc hn hd
  rw [arrayLoopL, arrayLoop]
  split
  · next hlt =>
    change p < s.length at hlt
    refine bind_same (nf_skipSpace s p) fun q _ hq => bind_same (nf_index s q) fun c hc _ => ?_
    split
    · rfl
    · have := opens_le s hq
      rw [hv d q e (by omega) (by omega)]
      refine bind_same ((nf_all ops s n).1 q e (by omega)) fun r _ hr => ?_
      obtain ⟨v, p₂, e₂⟩ := r
      have k1 : q ≤ p₂ := hr.1
      refine bind_same (nf_afterValue s rbracket p₂) fun r _ hr => ?_
      cases r with
      | closed q₃ => rfl
      | error e' q₃ => rfl
      | more q₃ =>
        have : p₂ < q₃ := hr.2
        have := opens_le s (show q ≤ q₃ by omega)
        exact ha d q₃ e₂ _ (by have := hr.1; omega) (by omega)
  · rfl

theorem stack_all : ∀ n, ValL ops s n ∧ ObjL ops s n ∧ ArrL ops s n
  | 0 => ⟨fun _ _ _ h => absurd h (by omega), fun _ _ _ _ h => absurd h (by omega), fun _ _ _ _ h => absurd h (by omega)⟩
  | n + 1 => by
    obtain ⟨hv, ho, ha⟩ := stack_all n
    exact ⟨valL_succ ops s ho ha, objL_succ ops s hv ho, arrL_succ ops s hv ha⟩

theorem parseL_same (d : Nat) (h : opens s < d) : parseL ops d s = parse ops s := by
  unfold parseL parse
  rw [show parseValueL ops s d (2 * s.length + 2) {} = parseValue ops s (2 * s.length + 2) {} from
    (stack_all ops s _).1 d 0 .noError (by omega) (by simpa using h)]

/-- With `k` brackets ahead and room for no more than `k` activations the stack is not enough. -/
theorem valueL_deep : ∀ (d k n p : Nat) (e : JsonError) (u : Str), d ≤ k →
    At s p (List.replicate k (chr 0x5B) ++ chr 0x30 :: u) → 2 * d < n →
    parseValueL ops s d n ⟨p, e⟩ = .error .memory := by
  intro d
  induction d with
  | zero =>
    intro k n p e u _ _ hn
    obtain ⟨n, rfl⟩ : ∃ m, n = m + 1 := ⟨n - 1, by omega⟩
    rw [parseValueL]
  | succ d ih =>
    intro k n p e u hk hs hn
    obtain ⟨n, rfl⟩ : ∃ m, n = m + 2 := ⟨n - 2, by omega⟩
    obtain ⟨k, rfl⟩ : ∃ m, k = m + 1 := ⟨k - 1, by omega⟩
    rw [List.replicate_succ, List.cons_append] at hs
    have hs1 := hs.cons
    have hnext : ∃ b : UInt8, ∃ v, List.replicate k (chr 0x5B) ++ chr 0x30 :: u = chr b :: v ∧ b ≤ 0x7F ∧
        ¬ Space (chr b) ∧ chr b ≠ rbracket := by
      cases k with
      | zero => exact ⟨0x30, u, rfl, by decide, by unfold Space; decide, by decide⟩
      | succ k =>
        exact ⟨0x5B, _, by rw [List.replicate_succ, List.cons_append], by decide, by unfold Space; decide, by decide⟩
    obtain ⟨b, v, hbv, hb1, hb2, hb3⟩ := hnext
    have hs1' := hs1
    rw [hbv] at hs1'
    rw [parseValueL, hs.skip0 (noSpace_cons _ (by decide) (by unfold Space; decide) _), ok_bind,
      if_neg (by have := hs.lt; omega), hs.index, ok_bind, if_neg (by decide), if_neg (by decide), if_pos (by decide),
      hs1'.skip0 (noSpace_cons _ hb1 hb2 _), ok_bind, arrayLoopL, if_pos hs1'.lt,
      hs1'.skip0 (noSpace_cons _ hb1 hb2 _), ok_bind, hs1'.index, ok_bind, if_neg hb3,
      ih k n (p + 1) e u (by omega) hs1 (by omega)]
    rfl

end
end Caitlyn
