import Verif.Proofs.Str

/-! When constructing a `String` from a NUL-terminated byte sequence is undefined. -/

namespace Caitlyn
open Spec
namespace Str

theorem decodeLen_cases (b : UInt8) :
    (b ≤ 0x7F ∧ decodeLen b = some 1) ∨ (0xC0 ≤ b ∧ b ≤ 0xDF ∧ decodeLen b = some 2) ∨
    (0xE0 ≤ b ∧ b ≤ 0xEF ∧ decodeLen b = some 3) ∨ (0xF0 ≤ b ∧ b ≤ 0xF7 ∧ decodeLen b = some 4) ∨
    decodeLen b = none := by
  revert b; apply forall_u8; decide +kernel

theorem Truncated.decodeLen {b : UInt8} {t : List UInt8} (h : Truncated (b :: t)) :
    ∃ len, decodeLen b = some len ∧ t.length + 2 < len := by
  have key : ∀ b : UInt8, (0xE0 ≤ b → b ≤ 0xEF → Str.decodeLen b = some 3) ∧
      (0xF0 ≤ b → b ≤ 0xF7 → Str.decodeLen b = some 4) := by
    apply forall_u8; decide +kernel
  cases h with
  | three _ h1 h2 => exact ⟨3, (key b).1 h1 h2, by simp⟩
  | four1 _ h1 h2 => exact ⟨4, (key b).2 h1 h2, by simp⟩
  | four2 _ c h1 h2 => exact ⟨4, (key b).2 h1 h2, by simp⟩

theorem Truncated.ne_nil {t : List UInt8} (h : Truncated t) : t ≠ [] := by cases h <;> simp

theorem decodeLoop_ub_iff (n : Nat) : ∀ a : List UInt8, a.length + 1 < n → (0 : UInt8) ∉ a →
    (decodeLoop n (a ++ [0]) = .error .ub ↔
      ∃ (ps : List (List UInt8)) (t : List UInt8),
        (∀ p ∈ ps, Shape p) ∧ a = ps.flatten ++ t ∧ Truncated t) := by
  induction n with
  | zero => intro a h; simp at h
  | succ n ih =>
    intro a hn h0
    cases a with
    | nil =>
      rw [List.nil_append, decodeLoop_zero]
      simp only [reduceCtorEq, false_iff]
      rintro ⟨ps, t, _, h, ht⟩
      exact Truncated.ne_nil ht (List.append_eq_nil_iff.mp h.symm).2
    | cons b t =>
      have hb : b ≠ 0 := by intro h; subst h; simp at h0
      -- the decomposition must start with a shaped character or be truncated right here
      by_cases hsh : ∃ p r, Shape p ∧ b :: t = p ++ r
      · obtain ⟨p, r, hp, hr⟩ := hsh
        have hlen := congrArg List.length hr
        have hpl := Shape.length_pos hp
        rw [List.length_append] at hlen
        rw [hr, List.append_assoc, decodeLoop_shape hp]
        have h0r : (0 : UInt8) ∉ r := by intro h; exact h0 (by rw [hr]; simp [h])
        have hi := ih r (by omega) h0r
        constructor
        · intro h
          have : decodeLoop n (r ++ [0]) = .error .ub := by
            revert h; cases decodeLoop n (r ++ [0]) <;> simp [Except.map]
          obtain ⟨ps, t', h1, h2, h3⟩ := hi.mp this
          refine ⟨p :: ps, t', ?_, by rw [h2]; simp, h3⟩
          intro q hq
          rcases List.mem_cons.mp hq with rfl | hq
          · exact hp
          · exact h1 q hq
        · rintro ⟨ps, t', h1, h2, h3⟩
          have : decodeLoop n (r ++ [0]) = .error .ub := by
            apply hi.mpr
            cases ps with
            | nil =>
              exfalso
              obtain ⟨b', t'', ht'⟩ : ∃ b' t'', t' = b' :: t'' := by
                cases t' with
                | nil => exact absurd rfl (Truncated.ne_nil h3)
                | cons x y => exact ⟨x, y, rfl⟩
              subst ht'
              obtain ⟨len, e1, e2⟩ := Truncated.decodeLen h3
              obtain ⟨b2, q, rfl⟩ : ∃ b2 q, p = b2 :: q := by cases hp <;> exact ⟨_, _, rfl⟩
              have e3 := decodeLen_shape hp
              simp at h2
              obtain ⟨rfl, h2'⟩ := h2
              rw [e3] at e1
              have := congrArg List.length h2'
              simp at this e1
              omega
            | cons q ps =>
              have hq := h1 q (by simp)
              have : p = q := by
                obtain ⟨b2, p', rfl⟩ : ∃ b2 q, p = b2 :: q := by cases hp <;> exact ⟨_, _, rfl⟩
                obtain ⟨b3, q', rfl⟩ : ∃ b2 p, q = b2 :: p := by cases hq <;> exact ⟨_, _, rfl⟩
                have e1 := decodeLen_shape hp
                have e2 := decodeLen_shape hq
                simp only [List.flatten_cons, List.cons_append, List.cons.injEq] at h2
                obtain ⟨rfl, h2'⟩ := h2
                rw [e1] at e2
                have e3 : p'.length = q'.length := by simpa using e2
                rw [List.append_assoc] at h2'
                have := List.append_inj_left h2' e3
                rw [this]
              subst this
              refine ⟨ps, t', fun x hx => h1 x (by simp [hx]), ?_, h3⟩
              rw [List.flatten_cons, List.append_assoc] at h2
              exact List.append_cancel_left h2
          rw [this]; rfl
      · -- no shaped character here
        have step : decodeLoop (n + 1) (b :: t ++ [0]) =
            (decodeUtf8Char (b :: t ++ [0])).bind fun c =>
              (decodeLoop n ((b :: t ++ [0]).drop c.data.length)).bind fun r => .ok (c :: r) := by
          simp [decodeLoop, vecGet, bind, Except.bind, hb, pure, Except.pure]
        rw [step]
        have hnok : ∀ c, decodeUtf8Char (b :: t ++ [0]) ≠ .ok c := by
          intro c hc
          obtain ⟨hs, rest, hr⟩ := decodeUtf8Char_ok hc
          rcases hs with hs | hs
          · -- the character lies inside `b :: t`
            apply hsh
            have hnz := Shape.no_zero hs
            have hlen := congrArg List.length hr
            simp only [List.length_append, List.length_cons, List.length_nil] at hlen
            rcases List.eq_nil_or_concat rest with hnil | ⟨rest, x, hrest⟩
            · exfalso; apply hnz
              rw [hnil, List.append_nil] at hr
              rw [← hr]; simp
            · rw [hrest, List.concat_eq_append, ← List.append_assoc] at hr
              have := List.append_inj_left' hr (by simp)
              exact ⟨c.data, rest, hs, this⟩
          · rw [hs] at hr; simp at hr; exact hb hr.1
        have hub : decodeUtf8Char (b :: t ++ [0]) = .error .ub ↔ Truncated (b :: t) := by
          simp only [decodeUtf8Char, vecGet, List.cons_append, List.getElem?_cons_zero, bind,
            Except.bind]
          constructor
          · intro h
            split at h
            · cases h
            rename_i len hl
            split at h
            · rename_i hlt
              simp only [List.length_cons, List.length_append, List.length_nil] at hlt
              rcases decodeLen_cases b with ⟨_, e⟩ | ⟨_, _, e⟩ | ⟨e1, e2, e⟩ | ⟨e1, e2, e⟩ | e <;>
                rw [e] at hl <;> simp at hl <;> subst hl
              · omega
              · omega
              · have : t = [] := List.eq_nil_of_length_eq_zero (by omega)
                subst this; exact .three b e1 e2
              · rcases t with _ | ⟨c, _ | ⟨d, t⟩⟩
                · exact .four1 b e1 e2
                · exact .four2 b c e1 e2
                · simp at hlt; omega
            · unfold Chr.ofBytes at h; split at h <;> simp at h
          · intro h
            obtain ⟨len, e1, e2⟩ := Truncated.decodeLen h
            rw [e1]
            simp only [List.length_cons, List.length_append, List.length_nil]
            rw [if_pos (by omega)]
        constructor
        · intro h
          have : decodeUtf8Char (b :: t ++ [0]) = .error .ub := by
            revert h
            cases hd : decodeUtf8Char (b :: t ++ [0]) with
            | ok c => exact absurd hd (hnok c)
            | error e => simp [Except.bind]
          exact ⟨[], b :: t, by simp, by simp, hub.mp this⟩
        · rintro ⟨ps, t', h1, h2, h3⟩
          cases ps with
          | nil =>
            simp at h2
            rw [← h2] at h3
            rw [hub.mpr h3]; rfl
          | cons q ps =>
            exact absurd ⟨q, ps.flatten ++ t', h1 q (by simp), by rw [h2]; simp⟩ hsh

end Str
end Caitlyn
