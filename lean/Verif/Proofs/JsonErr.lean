import Verif.Proofs.JsonSound
import Verif.Proofs.JsonTerm

/-! # Helper lemmas: numbers that do not convert -/

namespace Caitlyn
open Caitlyn.Spec JsonParser

variable {F : Type}

/-- On a text that starts with `{` and ends with `}`, `Parse` is `ParseValue`. -/
theorem parse_braces (ops : FloatOps F) (u : Str) :
    parse ops (chr 0x7B :: u ++ [chr 0x7D]) =
      parseValue ops (chr 0x7B :: u ++ [chr 0x7D]) (2 * (chr 0x7B :: u ++ [chr 0x7D]).length + 2) ⟨0, .noError⟩ := by
  have h0 : At (chr 0x7B :: u ++ [chr 0x7D]) 0 (chr 0x7B :: (u ++ [chr 0x7D])) := rfl
  have hNS : NoSpace (chr 0x7B :: (u ++ [chr 0x7D])) := head_noSpace rfl (by decide) (by unfold Space; decide)
  have hp : At (chr 0x7B :: u ++ [chr 0x7D]) (u.length + 1) [chr 0x7D] := by
    unfold At
    rw [show u.length + 1 = (chr 0x7B :: u).length from rfl, List.drop_left]
  unfold parse StrUtil.findFirstNonSpace StrUtil.findLastNonSpace
  rw [if_neg (by simp)]
  have hfirst : StrUtil.firstNonSpace (chr 0x7B :: u ++ [chr 0x7D]) 0 = .ok 0 := by
    have := firstNonSpace_run [] _ 0 (by simp [Spaces]) hNS
    simpa using this
  have hlast : StrUtil.lastNonSpace (chr 0x7B :: u ++ [chr 0x7D]) ((chr 0x7B :: u ++ [chr 0x7D]).length - 1) =
      .ok (u.length + 1) := by
    have := lastNonSpace_run (chr 0x7B :: u ++ [chr 0x7D]) (chr 0x7B :: u) [] 0x7D (by decide)
      (by unfold Space; decide) (by simp) rfl [] [] (by simp) (by simp [Spaces])
    rw [show (chr 0x7B :: u ++ [chr 0x7D]).length - 1 = (chr 0x7B :: u).length + ([] : Str).length by simp]
    exact this
  rw [if_neg (by simp), hfirst, hlast]
  simp only [ok_bind]
  rw [h0.index]
  simp only [ok_bind]
  rw [if_neg (by decide), hp.index]
  simp only [ok_bind]
  rw [if_neg (by decide)]

/-- A number that does not convert is not passed over: the character after the value is that of the number. -/
theorem parse_bad_number (ops : FloatOps F) (key : Str) (c : Chr) (t : Str) (e : JsonError)
    (hlen : (chr 0x7B :: (chr 0x22 :: key ++ chr 0x22 :: chr 0x3A :: (c :: t)) ++ [chr 0x7D]).length < npos)
    (hk : chr 0x22 ∉ key) (hc : NumStart c) (ht : ∀ d ∈ t, NumChar d) (he : convert ops (c :: t) = .error e) :
    ∃ p, parse ops (chr 0x7B :: (chr 0x22 :: key ++ chr 0x22 :: chr 0x3A :: (c :: t)) ++ [chr 0x7D]) =
      .ok (.null, ⟨p, .unexpectedCharacter⟩) := by
  rw [parse_braces]
  generalize hs : chr 0x7B :: (chr 0x22 :: key ++ chr 0x22 :: chr 0x3A :: (c :: t)) ++ [chr 0x7D] = s at hlen ⊢
  obtain ⟨b, hb1, hb, rfl⟩ := numChar_ascii (numStart_numChar hc)
  have hsp : ¬ Space (chr b) := by
    rcases hc with hc | hc | hc
    · have := (digit_chr b).mp hc
      intro h
      simp only [Space, List.mem_cons, List.not_mem_nil, or_false] at h
      rcases h with h | h | h | h | h | h <;> rw [chr_inj h] at this <;> exact absurd this (by decide)
    · rw [hc]; unfold Space; decide
    · rw [hc]; unfold Space; decide
  have h0 : At s 0 (chr 0x7B :: chr 0x22 :: (key ++ chr 0x22 :: ([] ++ chr 0x3A :: ([] ++ (chr b :: t ++ [chr 0x7D]))))) := by
    unfold At; rw [← hs]; simp
  obtain ⟨k1, k2⟩ := memberKey_complete hlen hk (by simp [Spaces]) (by simp [Spaces])
    (head_noSpace (List.cons_append ..) hb hsp) h0.cons.cons
  rw [parseValue_start ops s _ 0 .noError 0x7B _ h0 (by decide) (by unfold Space; decide),
    if_neg (by decide), if_pos (by decide), h0.cons.skip0 (head_noSpace rfl (by decide) (by unfold Space; decide)), ok_bind,
    objectLoop_start ops s _ (0 + 1) .noError [] 0x22 _ h0.cons (by decide) (by unfold Space; decide),
    if_neg (by decide), if_pos (by decide), k1]
  simp only [ok_bind]
  generalize 0 + 1 + 1 + key.length + 1 + ([] : Str).length + 1 + ([] : Str).length = q at k2
  have hlt := k2.lt
  obtain ⟨n, hn⟩ := Nat.exists_eq_succ_of_ne_zero (show 2 * s.length ≠ 0 by omega)
  rw [hn]
  have key : chr b ≠ quote ∧ chr b ≠ lbrace ∧ chr b ≠ lbracket ∧ ¬ (chr b = lowerT ∨ chr b = lowerF) ∧
      chr b ≠ lowerN ∧ (CharUtil.isDigit b.toNat = true ∨ chr b = minus ∨ chr b = plus) ∧ chr b ≠ comma ∧
      chr b ≠ rbrace := by
    rcases hc with hc | hc | hc
    · have hd := (isDigit_iff_digit b hb).mpr hc
      refine ⟨?_, ?_, ?_, ?_, ?_, .inl hd, ?_, ?_⟩
      · intro h; rw [h] at hc; exact absurd ((digit_chr 0x22).mp hc) (by decide)
      · intro h; rw [h] at hc; exact absurd ((digit_chr 0x7B).mp hc) (by decide)
      · intro h; rw [h] at hc; exact absurd ((digit_chr 0x5B).mp hc) (by decide)
      · rintro (h | h) <;> rw [h] at hc
        · exact absurd ((digit_chr 0x74).mp hc) (by decide)
        · exact absurd ((digit_chr 0x66).mp hc) (by decide)
      · intro h; rw [h] at hc; exact absurd ((digit_chr 0x6E).mp hc) (by decide)
      · intro h; rw [h] at hc; exact absurd ((digit_chr 0x2C).mp hc) (by decide)
      · intro h; rw [h] at hc; exact absurd ((digit_chr 0x7D).mp hc) (by decide)
    · rw [hc]; exact ⟨by decide, by decide, by decide, by decide, by decide, .inr (.inl rfl), by decide, by decide⟩
    · rw [hc]; exact ⟨by decide, by decide, by decide, by decide, by decide, .inr (.inr rfl), by decide, by decide⟩
  obtain ⟨q1, q2, q3, q4, q5, q6, q7, q8⟩ := key
  rw [parseValue_start ops s _ q .noError b _ k2 hb hsp, if_neg q1, if_neg q2, if_neg q3, if_neg q4, if_neg q5,
    if_pos q6]
  have hnum : parseNumber ops s ⟨q, .noError⟩ = .ok (.null, ⟨q, e⟩) := by
    unfold parseNumber
    rw [show (⟨q, .noError⟩ : PState).pos = q from rfl, show s.drop q = _ from k2,
      numLen_run (chr b :: t) [chr 0x7D] (fun d hd => by
        rcases List.mem_cons.mp hd with rfl | hd
        · exact numStart_numChar hc
        · exact ht d hd) (by
          intro c hc
          cases hc
          refine ⟨⟨0x7D, by decide, rfl⟩, ?_⟩
          rintro (h | h)
          · exact absurd ((digit_chr 0x7D).mp h) (by decide)
          · revert h; decide)]
    simp only [ok_bind]
    rw [substring_at (Nat.le_of_lt hlt) k2]
    simp only [ok_bind, he, fail]
  rw [hnum]
  simp only [ok_bind]
  refine ⟨q, ?_⟩
  have ha : afterValue s rbrace q = .ok (.error .unexpectedCharacter q) := by
    unfold afterValue
    rw [k2.skip0 (head_noSpace rfl hb hsp), ok_bind, k2.index, ok_bind, if_neg q7, if_neg q8]
    rfl
  rw [ha]; rfl

theorem convert_range (ops : FloatOps F) {c : Chr} {t : Str} {i : Int} (h : IntLit (c :: t) i)
    (hr : i < -(2 ^ 63) ∨ 2 ^ 63 ≤ i) :
    NumStart c ∧ (∀ d ∈ t, NumChar d) ∧ convert ops (c :: t) = .error .outOfRangeError := by
  have hd : (c = chr 0x2D ∨ Digit c) ∧ (∀ d ∈ t, Digit d) := by
    generalize hg : c :: t = g at h
    cases h with
    | nonneg ds _ hd =>
      subst hg
      exact ⟨.inr (hd c (by simp)), fun d h => hd d (by simp [h])⟩
    | neg ds _ hd =>
      injection hg with h1 h2
      subst h2
      exact ⟨.inl h1, hd⟩
  have hc : NumStart c := by
    rcases hd.1 with h | h
    · exact .inr (.inl h)
    · exact .inl h
  have hp : c ≠ chr 0x2B := by
    rintro rfl
    rcases hd.1 with h | h
    · exact absurd (chr_inj h) (by decide)
    · exact absurd ((digit_chr _).mp h) (by decide)
  refine ⟨hc, fun d h => .inl (hd.2 d h), ?_⟩
  unfold convert
  have hne : ∀ x : UInt8, (x = 0x2B ∨ x = 0x65 ∨ x = 0x45) → chr x ∉ c :: t := by
    intro x hx h
    rcases List.mem_cons.mp h with h | h
    · rw [← h] at hd
      rcases hd.1 with h | h
      · have := chr_inj h; subst this; revert hx; decide
      · have := (digit_chr _).mp h
        rcases hx with rfl | rfl | rfl <;> exact absurd this (by decide)
    · have := (digit_chr _).mp (hd.2 _ h)
      rcases hx with rfl | rfl | rfl <;> exact absurd this (by decide)
  rw [if_neg (by
    rintro (h | h | h)
    · exact hne 0x2B (by simp) h
    · exact hne 0x65 (by simp) h
    · exact hne 0x45 (by simp) h)]
  obtain ⟨neg, n, hpz, hi⟩ := (intLit_iff c t hc hp (fun d h => .inl (hd.2 d h)) i).mpr
    ⟨c :: t, [], by simp, h, by simp⟩
  have : StdNum.stoll 10 (Str.str (c :: t)) = .error .outOfRange := by
    unfold StdNum.stoll StdNum.signed
    rw [hpz]
    simp only [← hi]
    rw [if_neg (by omega)]
  rw [this]

end Caitlyn
