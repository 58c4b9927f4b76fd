import Verif.Model.StrUtil
import Verif.Model.Builder
import Verif.Spec.Escape
import Verif.Proofs.Str

/-! # Helper lemmas on the string utilities -/

namespace Caitlyn
open Caitlyn.Spec

namespace Str

theorem ofStdString_str (s : Str) (h : ∀ c ∈ s, Shape c.data) : ofStdString (str s) = .ok s := by
  unfold ofStdString
  rw [str_shapes s h, ofCStr_shapes _ (by
    intro p hp
    obtain ⟨c, hc, rfl⟩ := List.mem_map.mp hp
    exact h c hc)]
  rw [List.map_map]
  exact congrArg _ ((List.map_congr_left (fun _ _ => rfl)).trans (List.map_id s))

theorem str_append (a b : Str) : str (a ++ b) = str a ++ str b := by simp [str]

end Str

namespace StrUtil

/-! ### Split -/

theorem getlines_cons (d : UInt8) (n : Nat) (b : UInt8) (t : List UInt8) :
    getlines d (n + 1) (b :: t) =
      (b :: t).takeWhile (· != d) :: getlines d n (((b :: t).dropWhile (· != d)).drop 1) := by
  rw [getlines]; simp

theorem dropWhile_head {d : UInt8} {t u : List UInt8} {c : UInt8}
    (h : t.dropWhile (· != d) = c :: u) : c = d := by
  have := List.head_dropWhile_not (p := fun x => x != d) (l := t) (by rw [h]; simp)
  simpa [h] using this

theorem getlines_nil_iff (d : UInt8) (n : Nat) (t : List UInt8) (h : t.length ≤ n) :
    getlines d n t = [] ↔ t = [] := by
  cases n with
  | zero => simp at h; simp [h, getlines]
  | succ n => cases t with
    | nil => simp [getlines]
    | cons b t => simp [getlines_cons]

theorem intercalate_cons {α} (sep a : List α) (l : List (List α)) (h : l ≠ []) :
    sep.intercalate (a :: l) = a ++ sep ++ sep.intercalate l := by
  cases l with
  | nil => exact absurd rfl h
  | cons b l => simp [List.intercalate, List.intersperse]

theorem intercalate_one {α} (sep a : List α) : sep.intercalate [a] = a := by
  simp [List.intercalate, List.intersperse]

theorem getlines_spec (d : UInt8) : ∀ (n : Nat) (t : List UInt8), t.length ≤ n →
    (∀ p ∈ getlines d n t, d ∉ p) ∧
    (if t.getLast? = some d then t = [d].intercalate (getlines d n t) ++ [d]
      else t = [d].intercalate (getlines d n t)) := by
  intro n
  induction n with
  | zero =>
    intro t h
    simp at h; subst h
    exact ⟨by simp [getlines], by simp [getlines, List.intercalate]⟩
  | succ n ih =>
    intro t h
    cases t with
    | nil => exact ⟨by simp [getlines], by simp [getlines, List.intercalate]⟩
    | cons b t =>
      rw [getlines_cons]
      generalize hT : b :: t = T at *
      have hTne : T ≠ [] := by rw [← hT]; simp
      have hsplit := List.takeWhile_append_dropWhile (p := (· != d)) (l := T)
      have hnd : d ∉ T.takeWhile (· != d) := by
        intro hm
        have := List.all_takeWhile (p := (· != d)) (l := T)
        rw [List.all_eq_true] at this
        simpa using this d hm
      have hlen : ((T.dropWhile (· != d)).drop 1).length ≤ n := by
        have h1 := congrArg List.length hsplit
        rw [List.length_append] at h1
        rw [List.length_drop]; omega
      obtain ⟨ih1, ih2⟩ := ih _ hlen
      refine ⟨?_, ?_⟩
      · intro p hp
        rcases List.mem_cons.mp hp with rfl | hp
        · exact hnd
        · exact ih1 p hp
      · cases hdw : T.dropWhile (· != d) with
        | nil =>
          rw [hdw, List.append_nil] at hsplit
          have hnil : getlines d n (List.drop 1 ([] : List UInt8)) = [] :=
            (getlines_nil_iff d n [] (by simp)).mpr rfl
          rw [hnil, intercalate_one, if_neg, hsplit]
          intro hl
          apply hnd
          rw [hsplit]
          exact List.mem_of_getLast? hl
        | cons c u =>
          have hc := dropWhile_head hdw
          subst hc
          rw [hdw] at hsplit ih2 hlen
          rw [List.drop_one, List.tail_cons] at ih2 hlen ⊢
          cases u with
          | nil =>
            have hnil : getlines c n ([] : List UInt8) = [] :=
              (getlines_nil_iff c n [] (by simp)).mpr rfl
            rw [hnil, intercalate_one, if_pos, hsplit]
            rw [← hsplit]; simp
          | cons e u =>
            have hne : getlines c n (e :: u) ≠ [] := by
              rw [ne_eq, getlines_nil_iff c n _ hlen]; simp
            rw [intercalate_cons _ _ _ hne]
            have hgl : T.getLast? = (e :: u).getLast? := by
              rw [← hsplit, List.getLast?_append, List.getLast?_cons_cons]
              rw [List.getLast?_eq_some_getLast (by simp : e :: u ≠ [])]
              rfl
            rw [hgl]
            by_cases hl : (e :: u).getLast? = some c
            · rw [if_pos hl] at ih2 ⊢
              rw [List.append_assoc, ← ih2, List.append_assoc]
              exact hsplit.symm
            · rw [if_neg hl] at ih2 ⊢
              rw [← ih2, List.append_assoc]
              exact hsplit.symm

/-! ### Spaces -/

theorem firstNonSpace_spec : ∀ (s : Str) (i : Nat), (∀ c ∈ s, ∃ cp, c.getCodePoint = .ok cp) →
    ∃ k, firstNonSpace s i = .ok (i + k) ∧ k ≤ s.length ∧
      (∀ j, j < k → ∃ c cp, s[j]? = some c ∧ c.getCodePoint = .ok cp ∧ CharUtil.isSpace cp = true) ∧
      (k < s.length → ∃ c cp, s[k]? = some c ∧ c.getCodePoint = .ok cp ∧ CharUtil.isSpace cp = false)
  | [], i, _ => ⟨0, rfl, by simp, by omega, by simp⟩
  | c :: s, i, h => by
    obtain ⟨cp, hcp⟩ := h c (by simp)
    simp only [firstNonSpace, hcp, bind, Except.bind]
    by_cases hs : CharUtil.isSpace cp = true
    · rw [if_pos hs]
      obtain ⟨k, h1, h2, h3, h4⟩ := firstNonSpace_spec s (i + 1) (fun d hd => h d (by simp [hd]))
      refine ⟨k + 1, by rw [h1]; congr 1; omega, by simp; omega, ?_, ?_⟩
      · intro j hj
        cases j with
        | zero => exact ⟨c, cp, rfl, hcp, hs⟩
        | succ j => simpa using h3 j (by omega)
      · intro hk
        simpa using h4 (by simpa using hk)
    · rw [if_neg hs]
      refine ⟨0, rfl, by simp, by omega, fun _ => ⟨c, cp, rfl, hcp, by simpa using hs⟩⟩

theorem lastNonSpace_spec (s : Str) (h : ∀ c ∈ s, ∃ cp, c.getCodePoint = .ok cp) :
    ∀ i, i < s.length →
      ∃ k, lastNonSpace s i = .ok k ∧
        ((0 < k ∧ k ≤ i ∧ (∃ c cp, s[k]? = some c ∧ c.getCodePoint = .ok cp ∧ CharUtil.isSpace cp = false) ∧
          (∀ j, k < j → j ≤ i → ∃ c cp, s[j]? = some c ∧ c.getCodePoint = .ok cp ∧ CharUtil.isSpace cp = true)) ∨
        (k = s.length ∧
          ∀ j, 0 < j → j ≤ i → ∃ c cp, s[j]? = some c ∧ c.getCodePoint = .ok cp ∧ CharUtil.isSpace cp = true))
  | 0, _ => ⟨s.length, rfl, .inr ⟨rfl, by omega⟩⟩
  | i + 1, hi => by
    have hm : s[i + 1]? = some s[i + 1] := List.getElem?_eq_getElem hi
    obtain ⟨cp, hcp⟩ := h s[i + 1] (List.getElem_mem _)
    simp only [lastNonSpace, Str.index, vecGet, hm, bind, Except.bind, hcp]
    by_cases hs : CharUtil.isSpace cp = true
    · rw [if_pos hs]
      obtain ⟨k, h1, h2⟩ := lastNonSpace_spec s h i (by omega)
      refine ⟨k, h1, ?_⟩
      rcases h2 with ⟨a, b, c, d⟩ | ⟨a, b⟩
      · refine .inl ⟨a, by omega, c, fun j h1 h2 => ?_⟩
        by_cases e : j = i + 1
        · subst e; exact ⟨_, cp, hm, hcp, hs⟩
        · exact d j h1 (by omega)
      · refine .inr ⟨a, fun j h1 h2 => ?_⟩
        by_cases e : j = i + 1
        · subst e; exact ⟨_, cp, hm, hcp, hs⟩
        · exact b j h1 (by omega)
    · rw [if_neg hs]
      exact ⟨i + 1, rfl, .inl ⟨by omega, by omega, ⟨_, cp, hm, hcp, by simpa using hs⟩, by omega⟩⟩

/-! ### Escapes -/

theorem hexValue_digitVal (b : UInt8) (v : Nat) (h : hexValue b = some v) :
    StdNum.digitVal b = some v ∧ v < 16 ∧ StdNum.isSpace b = false ∧ b ≠ 0x2D ∧ b ≠ 0x2B ∧ b ≠ 0x78 ∧
      b ≠ 0x58 ∧ 1 ≤ b ∧ b ≤ 0x7F := by
  revert v
  revert b
  refine forall_u8 ?_
  intro n hn v
  revert v
  have key : ∀ n < 256, (hexValue (UInt8.ofNat n)).all (fun v => decide (
      StdNum.digitVal (UInt8.ofNat n) = some v ∧ v < 16 ∧ StdNum.isSpace (UInt8.ofNat n) = false ∧
        UInt8.ofNat n ≠ 0x2D ∧ UInt8.ofNat n ≠ 0x2B ∧ UInt8.ofNat n ≠ 0x78 ∧ UInt8.ofNat n ≠ 0x58 ∧
        1 ≤ UInt8.ofNat n ∧ UInt8.ofNat n ≤ 0x7F)) = true := by decide +kernel
  intro v hv
  have := key n hn
  rw [hv] at this
  exact of_decide_eq_true this

theorem sign_none (b : UInt8) (s : List UInt8) (h1 : b ≠ 0x2D) (h2 : b ≠ 0x2B) :
    StdNum.sign (b :: s) = (false, b :: s) := by
  unfold StdNum.sign
  split
  · rename_i h; injection h with h; exact absurd h h1
  · rename_i h; injection h with h; exact absurd h h2
  · rfl

theorem hexPrefix_none (a b : UInt8) (s : List UInt8) (h1 : b ≠ 0x78) (h2 : b ≠ 0x58) :
    StdNum.hexPrefix 16 (a :: b :: s) = a :: b :: s := by
  unfold StdNum.hexPrefix
  split
  · rename_i h; injection h with h3 h4; injection h4 with h4 h5
    rw [if_neg]
    · simp only [h3, h4, h5]
    · rintro ⟨_, h | h, _⟩
      · exact h1 (h4.trans h)
      · exact h2 (h4.trans h)
  · rfl

theorem parse_hex4 (a b c d : UInt8) (n : Nat) (h : EscItem.codeUnit a b c d = some n) :
    StdNum.parse 16 [a, b, c, d] = some (false, n) ∧ n < 65536 ∧ Shape [a] ∧ Shape [b] ∧ Shape [c] ∧
      Shape [d] := by
  unfold EscItem.codeUnit at h
  cases ha : hexValue a with
  | none => rw [ha] at h; cases h
  | some va =>
  cases hb : hexValue b with
  | none => rw [ha, hb] at h; cases h
  | some vb =>
  cases hc : hexValue c with
  | none => rw [ha, hb, hc] at h; cases h
  | some vc =>
  cases hd : hexValue d with
  | none => rw [ha, hb, hc, hd] at h; cases h
  | some vd =>
  rw [ha, hb, hc, hd] at h
  simp only [bind, Option.bind, pure, Option.some.injEq] at h
  obtain ⟨a1, a2, a3, a4, a5, a6, a7, a8, a9⟩ := hexValue_digitVal a va ha
  obtain ⟨b1, b2, b3, b4, b5, b6, b7, b8, b9⟩ := hexValue_digitVal b vb hb
  obtain ⟨c1, c2, c3, c4, c5, c6, c7, c8, c9⟩ := hexValue_digitVal c vc hc
  obtain ⟨d1, d2, d3, d4, d5, d6, d7, d8, d9⟩ := hexValue_digitVal d vd hd
  refine ⟨?_, by omega, .one _ a8 a9, .one _ b8 b9, .one _ c8 c9, .one _ d8 d9⟩
  unfold StdNum.parse
  rw [List.dropWhile_cons_of_neg (by simp [a3]), sign_none _ _ a4 a5]
  simp only []
  rw [hexPrefix_none _ _ _ b6 b7]
  have i : ∀ x v, StdNum.digitVal x = some v → v < 16 → StdNum.isDigitIn 16 x = true := by
    intro x v h1 h2; simp [StdNum.isDigitIn, h1, h2]
  rw [List.takeWhile_cons_of_pos (i _ _ a1 a2), List.takeWhile_cons_of_pos (i _ _ b1 b2),
    List.takeWhile_cons_of_pos (i _ _ c1 c2), List.takeWhile_cons_of_pos (i _ _ d1 d2)]
  rw [if_neg (by simp)]
  simp only [List.takeWhile_nil, StdNum.digitsVal, List.foldl_cons, List.foldl_nil, a1, b1, c1, d1, Option.getD_some]
  rw [← h]
  congr 2
  omega

theorem letter_simple (l m : Chr) (h : letterMeaning.lookup l = some m) :
    simpleEscape l = some m.data ∧ Shape m.data := by
  have key : ∀ p ∈ letterMeaning, simpleEscape p.1 = some p.2.data ∧
      p.2.data = [p.2.data.headD 0] ∧ 1 ≤ p.2.data.headD 0 ∧ p.2.data.headD 0 ≤ 0x7F := by
    decide
  have hm : (l, m) ∈ letterMeaning := by
    obtain ⟨a, b, e, _⟩ := List.lookup_eq_some_iff.mp h
    rw [e]; simp
  obtain ⟨h1, h2, h3, h4⟩ := key _ hm
  refine ⟨h1, ?_⟩
  rw [h2]
  exact .one _ h3 h4

/-- An item the code decodes properly: an ordinary character, a known letter or an ASCII code unit. -/
def GoodItem : EscItem → Prop
  | .plain c => c ≠ ⟨b!"\\"⟩ ∧ Shape c.data
  | .letter l => (letterMeaning.lookup l).isSome
  | .unicode a b c d => ∃ n, EscItem.codeUnit a b c d = some n ∧ 0 < n ∧ n < 128

theorem item_denotes_shape (i : EscItem) (h : GoodItem i) : ∀ c ∈ i.denotes, Shape c.data := by
  cases i with
  | plain c => intro x hx; simp [EscItem.denotes] at hx; subst hx; exact h.2
  | letter l =>
    obtain ⟨m, hm⟩ := Option.isSome_iff_exists.mp h
    intro x hx
    simp [EscItem.denotes, hm] at hx; subst hx
    exact (letter_simple l _ hm).2
  | unicode a b c d =>
    obtain ⟨n, h1, h2, h3⟩ := h
    intro x hx
    simp [EscItem.denotes, h1] at hx; subst hx
    have : (Chr.ofCodePoint n).data = [UInt8.ofNat n] := by
      simp only [Chr.ofCodePoint, Chr.fromCodePoint]
      rw [if_neg (by omega), if_pos (by simp [Chr.calculateLength, h3])]
    rw [this]
    refine .one _ ?_ ?_
    · rw [Chr.u8_le_iff, UInt8.toNat_ofNat_of_lt' (show n < 256 by omega)]; exact h2
    · rw [Chr.u8_le_iff, UInt8.toNat_ofNat_of_lt' (show n < 256 by omega)]; show n ≤ 127; omega

theorem escapeLoop_item (i : EscItem) (h : GoodItem i) (rest : Str) (out : List UInt8) (n : Nat)
    (ho : escapeLoop n rest = .ok out) :
    escapeLoop (n + 1) (i.written ++ rest) = .ok (Str.str i.denotes ++ out) := by
  cases i with
  | plain c =>
    simp only [EscItem.written, EscItem.denotes, List.cons_append, List.nil_append, escapeLoop]
    rw [if_neg h.1, ho]
    simp [bind, Except.bind, pure, Except.pure, Str.str]
  | letter l =>
    obtain ⟨m, hm⟩ := Option.isSome_iff_exists.mp h
    obtain ⟨h1, h2⟩ := letter_simple l m hm
    simp only [EscItem.written, EscItem.denotes, List.cons_append, List.nil_append, escapeLoop, if_true,
      h1, ho, bind, Except.bind, pure, Except.pure, hm, Option.map_some, Option.getD_some]
    have : Chr.printed m = m.data := Shape.printed h2
    simp [Str.str, this]
  | unicode a b c d =>
    obtain ⟨k, h1, h2, h3⟩ := h
    obtain ⟨p1, p2, p3, p4, p5, p6⟩ := parse_hex4 a b c d k h1
    have hu : simpleEscape ⟨b!"u"⟩ = none := by decide
    have hs : Str.str [⟨[a]⟩, ⟨[b]⟩, ⟨[c]⟩, ⟨[d]⟩] = [a, b, c, d] := by
      rw [Str.str_shapes]
      · rfl
      · intro x hx
        simp at hx
        rcases hx with rfl | rfl | rfl | rfl <;> assumption
    have hst : StdNum.stoi 16 [a, b, c, d] = .ok k := by
      unfold StdNum.stoi StdNum.signed
      rw [p1]
      simp only [Bool.false_eq_true, if_false]
      rw [if_pos (by omega)]
    simp only [EscItem.written, EscItem.denotes, List.cons_append, List.nil_append, escapeLoop, if_true, hu]
    rw [if_pos ⟨trivial, by simp⟩]
    simp only [List.take_succ_cons, List.take_zero, List.drop_succ_cons, List.drop_zero, hs, hst, ho, bind,
      Except.bind, pure, Except.pure, h1, Option.map_some, Option.getD_some]
    have e1 : (Chr.ofCodePoint k).data = [UInt8.ofNat k] := by
      simp only [Chr.ofCodePoint, Chr.fromCodePoint]
      rw [if_neg (by omega), if_pos (by simp [Chr.calculateLength, h3])]
    have e2 : Chr.printed (Chr.ofCodePoint k) = (Chr.ofCodePoint k).data :=
      Shape.printed (item_denotes_shape (.unicode a b c d) ⟨k, h1, h2, h3⟩ _
        (by rw [EscItem.denotes, h1]; exact List.mem_singleton.mpr rfl))
    have e3 : ((k : Int) % 256).toNat = k := by omega
    simp [Str.str, e2, e1, e3]

theorem escapeLoop_mono : ∀ (n : Nat) (s : Str) (r : List UInt8), escapeLoop n s = .ok r →
    escapeLoop (n + 1) s = .ok r := by
  intro n
  induction n with
  | zero => intro s r h; simp [escapeLoop] at h
  | succ n ih =>
    intro s r h
    cases s with
    | nil => simpa [escapeLoop] using h
    | cons c rest =>
      rw [escapeLoop.eq_def] at h ⊢
      simp only at h ⊢
      have lift : ∀ (t : Str) (f : List UInt8 → Res (List UInt8)),
          (escapeLoop n t >>= f) = .ok r → (escapeLoop (n + 1) t >>= f) = .ok r := by
        intro t f hh
        cases e : escapeLoop n t with
        | error x => rw [e] at hh; simp [bind, Except.bind] at hh
        | ok v => rw [ih t v e]; rw [e] at hh; exact hh
      split at h <;> rename_i hc
      · rw [if_pos hc]
        cases rest with
        | nil => exact lift _ _ h
        | cons d rest' =>
          simp only at h ⊢
          split at h
          · exact lift _ _ h
          · split at h <;> rename_i hd
            · rw [if_pos hd]
              simp only [bind, Except.bind] at h ⊢
              split at h
              · cases h
              · exact lift _ _ h
            · rw [if_neg hd]
              exact lift _ _ h
      · rw [if_neg hc]
        exact lift _ _ h

theorem escapeLoop_le (n m : Nat) (h : n ≤ m) (s : Str) (r : List UInt8) (e : escapeLoop n s = .ok r) :
    escapeLoop m s = .ok r := by
  induction h with
  | refl => exact e
  | step _ ih => exact escapeLoop_mono _ _ _ ih

theorem escapeLoop_items (is : List EscItem) (h : ∀ i ∈ is, GoodItem i) :
    escapeLoop (is.length + 1) (is.flatMap EscItem.written) = .ok (Str.str (is.flatMap EscItem.denotes)) := by
  induction is with
  | nil => rfl
  | cons i is ih =>
    rw [List.flatMap_cons, List.flatMap_cons, Str.str_append]
    exact escapeLoop_item i (h i (by simp)) _ _ _ (ih fun j hj => h j (by simp [hj]))

theorem written_length (is : List EscItem) : is.length ≤ (is.flatMap EscItem.written).length := by
  induction is with
  | nil => simp
  | cons i is ih =>
    rw [List.flatMap_cons, List.length_append, List.length_cons]
    have : 1 ≤ i.written.length := by cases i <;> simp [EscItem.written]
    omega

/-- `EscapeString` on a list of good items. -/
theorem escapeString_items (is : List EscItem) (h : ∀ i ∈ is, GoodItem i) :
    escapeString (is.flatMap EscItem.written) = .ok (is.flatMap EscItem.denotes) := by
  unfold escapeString
  rw [escapeLoop_le _ _ (by have := written_length is; omega) _ _ (escapeLoop_items is h)]
  apply Str.ofStdString_str
  intro c hc
  obtain ⟨i, hi, hc⟩ := List.mem_flatMap.mp hc
  exact item_denotes_shape i (h i hi) c hc

end StrUtil
end Caitlyn
