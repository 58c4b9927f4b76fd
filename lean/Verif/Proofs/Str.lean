import Verif.Model.Str
import Verif.Proofs.Char

/-! Helper lemmas about constructing `Str` from bytes. -/

namespace Caitlyn
open Spec

theorem forall_u8 {P : UInt8 → Prop} (h : ∀ n < 256, P (UInt8.ofNat n)) (b : UInt8) : P b := by
  have := h b.toNat (UInt8.toNat_lt b)
  rwa [UInt8.ofNat_toNat] at this

namespace Chr

theorem cont_iff (b : UInt8) : isContinuationByte b = true ↔ Cont b := by
  unfold isContinuationByte Cont
  revert b
  apply forall_u8
  decide +kernel

theorem lead80 (b : UInt8) : (b &&& 0x80 == 0) = decide (b ≤ 0x7F) := by
  revert b; apply forall_u8; decide +kernel
theorem leadC0 (b : UInt8) : (b &&& 0xE0 == 0xC0) = decide (0xC0 ≤ b ∧ b ≤ 0xDF) := by
  revert b; apply forall_u8; decide +kernel
theorem leadE0 (b : UInt8) : (b &&& 0xF0 == 0xE0) = decide (0xE0 ≤ b ∧ b ≤ 0xEF) := by
  revert b; apply forall_u8; decide +kernel
theorem leadF0 (b : UInt8) : (b &&& 0xF8 == 0xF0) = decide (0xF0 ≤ b ∧ b ≤ 0xF7) := by
  revert b; apply forall_u8; decide +kernel

theorem u8_le_iff (a b : UInt8) : a ≤ b ↔ a.toNat ≤ b.toNat := UInt8.le_iff_toNat_le
theorem u8_lt_iff (a b : UInt8) : a < b ↔ a.toNat < b.toNat := UInt8.lt_iff_toNat_lt

/-- Which byte sequences `Char`'s validating constructors accept. -/
theorem isValid_iff (s : List UInt8) : isValidUtf8Char s = true ↔ Shape s ∨ s = [0] := by
  constructor
  · intro h
    unfold isValidUtf8Char at h
    split at h
    · cases h
    rename_i b rest
    simp only [lead80, leadC0, leadE0, leadF0, decide_eq_true_eq] at h
    split at h
    · split at h
      · rename_i h1 _
        by_cases h0 : b = 0
        · right; rw [h0]
        · left
          refine .one b ?_ h1
          have : b.toNat ≠ 0 := by intro h'; exact h0 (UInt8.toNat_inj.mp (by simpa using h'))
          rw [u8_le_iff]; simp; omega
      · cases h
    split at h
    · split at h
      · rename_i h1 _ c
        exact .inl (.two b c h1.1 h1.2 ((cont_iff c).mp h))
      · cases h
    split at h
    · split at h
      · rename_i h1 _ c d
        simp only [Bool.and_eq_true, cont_iff] at h
        exact .inl (.three b c d h1.1 h1.2 h.1 h.2)
      · cases h
    split at h
    · split at h
      · rename_i h1 _ c d e
        simp only [Bool.and_eq_true, cont_iff] at h
        exact .inl (.four b c d e h1.1 h1.2 h.1.1 h.1.2 h.2)
      · cases h
    · cases h
  · intro h
    rcases h with h | h
    · cases h with
      | one b h1 h2 => simp [isValidUtf8Char, lead80, h2]
      | two b c h1 h2 hc =>
        have n1 : ¬ b ≤ 0x7F := by rw [u8_le_iff] at *; simp at *; omega
        simp [isValidUtf8Char, lead80, leadC0, h1, h2, n1, (cont_iff c).mpr hc]
      | three b c d h1 h2 hc hd =>
        have n1 : ¬ b ≤ 0x7F := by rw [u8_le_iff] at *; simp at *; omega
        have n2 : ¬ b ≤ 0xDF := by rw [u8_le_iff] at *; simp at *; omega
        simp [isValidUtf8Char, lead80, leadC0, leadE0, h1, h2, n1, n2, (cont_iff c).mpr hc,
          (cont_iff d).mpr hd]
      | four b c d e h1 h2 hc hd he =>
        have n1 : ¬ b ≤ 0x7F := by rw [u8_le_iff] at *; simp at *; omega
        have n2 : ¬ b ≤ 0xDF := by rw [u8_le_iff] at *; simp at *; omega
        have n3 : ¬ b ≤ 0xEF := by rw [u8_le_iff] at *; simp at *; omega
        simp [isValidUtf8Char, lead80, leadC0, leadE0, leadF0, h1, h2, n1, n2, n3,
          (cont_iff c).mpr hc, (cont_iff d).mpr hd, (cont_iff e).mpr he]
    · subst h; decide

theorem ofBytes_ok_iff (s : List UInt8) (c : Chr) :
    ofBytes s = .ok c ↔ c = ⟨s⟩ ∧ (Shape s ∨ s = [0]) := by
  unfold ofBytes
  rw [← isValid_iff]
  split <;> rename_i h
  · simp [h, eq_comm]
  · simp [h]

end Chr

theorem Shape.ne_nil {p : List UInt8} (h : Shape p) : p ≠ [] := by cases h <;> simp
theorem Shape.length_pos {p : List UInt8} (h : Shape p) : 0 < p.length := by cases h <;> simp

theorem Shape.no_zero {p : List UInt8} (h : Shape p) : (0 : UInt8) ∉ p := by
  cases h <;> simp only [Cont, List.mem_cons, List.not_mem_nil, not_or, or_false] at * <;>
    simp only [Chr.u8_le_iff] at * <;> simp at * <;>
    (repeat' apply And.intro) <;> (intro h; subst h; simp at *)

theorem takeWhile_all {p : α → Bool} {l : List α} (h : ∀ x ∈ l, p x = true) : l.takeWhile p = l := by
  induction l with
  | nil => rfl
  | cons a l ih =>
    rw [List.takeWhile_cons, h a (by simp), if_pos rfl, ih (fun x hx => h x (by simp [hx]))]

theorem Shape.printed {p : List UInt8} (h : Shape p) : Chr.printed ⟨p⟩ = p := by
  unfold Chr.printed
  apply takeWhile_all
  intro x hx
  have := Shape.no_zero h
  simp; intro h0; subst h0; exact this hx

namespace Str

/-- The lead byte of a shaped character announces its length. -/
theorem decodeLen_shape {b : UInt8} {p : List UInt8} (h : Shape (b :: p)) :
    decodeLen b = some (p.length + 1) := by
  unfold decodeLen
  simp only [Chr.lead80, Chr.leadC0, Chr.leadE0, Chr.leadF0]
  cases h with
  | one _ h1 h2 => simp [h2]
  | two _ c h1 h2 hc =>
    have n1 : ¬ b ≤ 0x7F := by rw [Chr.u8_le_iff] at *; simp at *; omega
    simp [h1, h2, n1]
  | three _ c d h1 h2 hc hd =>
    have n1 : ¬ b ≤ 0x7F := by rw [Chr.u8_le_iff] at *; simp at *; omega
    have n2 : ¬ b ≤ 0xDF := by rw [Chr.u8_le_iff] at *; simp at *; omega
    simp [h1, h2, n1, n2]
  | four _ c d e h1 h2 hc hd he =>
    have n1 : ¬ b ≤ 0x7F := by rw [Chr.u8_le_iff] at *; simp at *; omega
    have n2 : ¬ b ≤ 0xDF := by rw [Chr.u8_le_iff] at *; simp at *; omega
    have n3 : ¬ b ≤ 0xEF := by rw [Chr.u8_le_iff] at *; simp at *; omega
    simp [h1, h2, n1, n2, n3]

theorem decodeUtf8Char_shape {p : List UInt8} (h : Shape p) (rest : List UInt8) :
    decodeUtf8Char (p ++ rest) = .ok ⟨p⟩ := by
  obtain ⟨b, q, rfl⟩ : ∃ b q, p = b :: q := by cases h <;> exact ⟨_, _, rfl⟩
  have hl := decodeLen_shape h
  have hv : Chr.ofBytes (b :: q) = .ok ⟨b :: q⟩ := (Chr.ofBytes_ok_iff _ _).mpr ⟨rfl, .inl h⟩
  simp [decodeUtf8Char, vecGet, bind, Except.bind, hl, hv]

theorem decodeLoop_zero (n : Nat) (rest : List UInt8) : decodeLoop (n + 1) (0 :: rest) = .ok [] := by
  simp [decodeLoop, vecGet, bind, Except.bind, pure, Except.pure]

theorem decodeLoop_shape {p : List UInt8} (h : Shape p) (rest : List UInt8) (n : Nat) :
    decodeLoop (n + 1) (p ++ rest) = (decodeLoop n rest).map (⟨p⟩ :: ·) := by
  have hd := decodeUtf8Char_shape h rest
  obtain ⟨b, q, rfl⟩ : ∃ b q, p = b :: q := by cases h <;> exact ⟨_, _, rfl⟩
  have hb : b ≠ 0 := by
    intro h0; subst h0; exact Shape.no_zero h (by simp)
  simp only [decodeLoop, hd]
  simp [vecGet, bind, Except.bind, pure, Except.pure, hb, Except.map]

/-- If `decodeUtf8Char` returns, it has consumed a shaped character (or a NUL). -/
theorem decodeUtf8Char_ok {mem : List UInt8} {c : Chr} (h : decodeUtf8Char mem = .ok c) :
    (Shape c.data ∨ c.data = [0]) ∧ ∃ rest, mem = c.data ++ rest := by
  unfold decodeUtf8Char at h
  cases mem with
  | nil => simp [vecGet, bind, Except.bind] at h
  | cons b t =>
    simp only [vecGet, List.getElem?_cons_zero, bind, Except.bind] at h
    split at h
    · cases h
    · rename_i len hl
      split at h
      · cases h
      · rw [Chr.ofBytes_ok_iff] at h
        obtain ⟨rfl, hs⟩ := h
        exact ⟨hs, (b :: t).drop len, (List.take_append_drop len (b :: t)).symm⟩

theorem decodeLoop_ok (n : Nat) : ∀ (mem : List UInt8) (s : Str), decodeLoop n mem = .ok s →
    (∀ c ∈ s, Shape c.data) ∧ ∃ rest, mem = (s.map Chr.data).flatten ++ 0 :: rest := by
  induction n with
  | zero => intro mem s h; simp [decodeLoop] at h
  | succ n ih =>
    intro mem s h
    cases mem with
    | nil => simp [decodeLoop, vecGet, bind, Except.bind] at h
    | cons b t =>
      by_cases hb : b = 0
      · subst hb
        rw [decodeLoop_zero] at h
        cases h
        exact ⟨by simp, t, by simp⟩
      · simp only [decodeLoop, vecGet, List.getElem?_cons_zero, bind, Except.bind] at h
        simp only [beq_iff_eq, hb, if_false] at h
        split at h
        · cases h
        rename_i c hc
        obtain ⟨hs, rest, hr⟩ := decodeUtf8Char_ok hc
        split at h
        · cases h
        rename_i cs hcs
        simp only [pure, Except.pure, Except.ok.injEq] at h
        subst h
        rw [hr, List.drop_left] at hcs
        obtain ⟨h1, r2, h2⟩ := ih _ _ hcs
        have hc0 : Shape c.data := by
          rcases hs with hs | hs
          · exact hs
          · rw [hs] at hr; simp at hr; exact absurd hr.1 hb
        refine ⟨?_, r2, ?_⟩
        · intro x hx
          rcases List.mem_cons.mp hx with rfl | hx
          · exact hc0
          · exact h1 x hx
        · rw [hr, h2]; simp

/-- Decoding a concatenation of shaped characters followed by NUL. -/
theorem decodeLoop_shapes (ps : List (List UInt8)) (hp : ∀ p ∈ ps, Shape p) (rest : List UInt8) :
    ∀ n, ps.length < n → decodeLoop n (ps.flatten ++ 0 :: rest) = .ok (ps.map Chr.mk) := by
  induction ps with
  | nil =>
    intro n hn
    obtain ⟨n, rfl⟩ : ∃ m, n = m + 1 := ⟨n - 1, by simp at hn; omega⟩
    simpa using decodeLoop_zero n rest
  | cons p ps ih =>
    intro n hn
    obtain ⟨n, rfl⟩ : ∃ m, n = m + 1 := ⟨n - 1, by simp at hn; omega⟩
    rw [List.flatten_cons, List.append_assoc, decodeLoop_shape (hp p (by simp)),
      ih (fun q hq => hp q (by simp [hq])) n (by simpa using hn)]
    rfl

theorem flatten_length_ge (ps : List (List UInt8)) (hp : ∀ p ∈ ps, Shape p) :
    ps.length ≤ ps.flatten.length := by
  induction ps with
  | nil => simp
  | cons p ps ih =>
    have := Shape.length_pos (hp p (by simp))
    have := ih (fun q hq => hp q (by simp [hq]))
    simp only [List.length_cons, List.flatten_cons, List.length_append]
    omega

theorem ofCStr_shapes (ps : List (List UInt8)) (hp : ∀ p ∈ ps, Shape p) (rest : List UInt8) :
    ofCStr (ps.flatten ++ 0 :: rest) = .ok (ps.map Chr.mk) := by
  apply decodeLoop_shapes ps hp
  have := flatten_length_ge ps hp
  rw [List.length_append]; omega

/-- Running out of fuel never happens in `ofCStr`: every iteration consumes a byte. -/
theorem decodeLoop_fuel : ∀ (n : Nat) (mem : List UInt8), mem.length < n →
    decodeLoop n mem ≠ .error .fuel := by
  intro n
  induction n with
  | zero => intro mem h; simp at h
  | succ n ih =>
    intro mem h
    cases mem with
    | nil => simp [decodeLoop, vecGet, bind, Except.bind]
    | cons b t =>
      by_cases hb : b = 0
      · subst hb; rw [decodeLoop_zero]; simp
      · simp only [decodeLoop, vecGet, List.getElem?_cons_zero, bind, Except.bind, beq_iff_eq, hb,
          if_false]
        split
        · rename_i e he
          intro h'
          injection h' with h'
          subst h'
          revert he
          simp only [decodeUtf8Char, vecGet, List.getElem?_cons_zero, bind, Except.bind]
          split
          · simp
          · split
            · simp
            · unfold Chr.ofBytes; split <;> simp
        · rename_i c hc
          obtain ⟨hs, rest, hr⟩ := decodeUtf8Char_ok hc
          rw [hr, List.drop_left]
          have hl : 0 < c.data.length := by
            rcases hs with hs | hs
            · exact Shape.length_pos hs
            · simp [hs]
          have := congrArg List.length hr
          simp at this h
          have := ih rest (by omega)
          split
          · rename_i e he; intro h'; injection h' with h'; subst h'; exact this he
          · simp [pure, Except.pure]

theorem str_shapes (s : Str) (h : ∀ c ∈ s, Shape c.data) : str s = (s.map Chr.data).flatten := by
  induction s with
  | nil => rfl
  | cons c s ih =>
    have := Shape.printed (h c (by simp))
    simp only [str, List.flatMap_cons, List.map_cons, List.flatten_cons]
    rw [show Chr.printed c = c.data from this]
    congr 1
    exact ih (fun c hc => h c (by simp [hc]))

end Str

theorem shape_utf8 (c : Char) (h : c ≠ Char.ofNat 0) : Shape (String.utf8EncodeChar c) := by
  have hv : c.val.toNat < 0x110000 := by
    have := c.valid
    simp only [UInt32.isValidChar, Nat.isValidChar] at this
    omega
  have h0 : c.val.toNat ≠ 0 := by
    intro h'
    apply h
    apply Char.ext
    apply UInt32.toNat_inj.mp
    rw [h']; rfl
  have cont : ∀ x, Cont (UInt8.ofNat (x % 64 + 0x80)) := by
    intro x
    rw [← Chr.cont_iff]; exact Chr.cont_ofNat _ (Nat.mod_lt _ (by decide))
  have r2 : ∀ x < 32, 0xC0 ≤ UInt8.ofNat (x + 0xC0) ∧ UInt8.ofNat (x + 0xC0) ≤ 0xDF := by decide
  have r3 : ∀ x < 16, 0xE0 ≤ UInt8.ofNat (x + 0xE0) ∧ UInt8.ofNat (x + 0xE0) ≤ 0xEF := by decide
  have r4 : ∀ x < 8, 0xF0 ≤ UInt8.ofNat (x + 0xF0) ∧ UInt8.ofNat (x + 0xF0) ≤ 0xF7 := by decide
  have r1 : ∀ x < 128, x ≠ 0 → 1 ≤ UInt8.ofNat x ∧ UInt8.ofNat x ≤ 0x7F := by decide
  rw [← Chr.fromCodePoint_eq_utf8 c h, Chr.fromCodePoint_arith _ (by omega)]
  simp only [h0, if_false]
  split
  · exact .one _ (r1 _ (by omega) h0).1 (r1 _ (by omega) h0).2
  split
  · exact .two _ _ (r2 _ (by omega)).1 (r2 _ (by omega)).2 (cont _)
  split
  · exact .three _ _ _ (r3 _ (by omega)).1 (r3 _ (by omega)).2 (cont _) (cont _)
  · exact .four _ _ _ _ (r4 _ (by omega)).1 (r4 _ (by omega)).2 (cont _) (cont _) (cont _)

end Caitlyn
