import Verif.Spec.JsonRead
import Verif.Proofs.FormatFull
import Verif.Proofs.JsonTerm
import Verif.Proofs.JsonSound
import Verif.Proofs.StrUtil

/-! # Helper lemmas: the parser is the reader of `Spec.JsonText` -/

namespace Caitlyn
open Caitlyn.Spec JsonParser Spec.JsonText Spec.Unicode Format

namespace JsonText
variable {F : Type}

theorem isSpace_white (cp : Nat) : CharUtil.isSpace cp = decide (WhiteSpace cp) := by
  have : CharUtil.isSpace cp = true ↔ WhiteSpace cp := by
    simp only [CharUtil.isSpace, CharUtil.spaceCodepoints, WhiteSpace, List.contains_eq_mem, List.mem_cons, List.not_mem_nil, or_false,
      decide_eq_true_eq]
    omega
  by_cases h : WhiteSpace cp
  · rw [decide_eq_true h, this.mpr h]
  · rw [decide_eq_false h]
    cases hx : CharUtil.isSpace cp
    · rfl
    · exact absurd (this.mp hx) h

theorem shapes_drop {s : Str} (h : Shapes s) (p : Nat) : Shapes (s.drop p) := fun c hc => h c (List.mem_of_mem_drop hc)

theorem firstNonSpace_trim : ∀ (u : Str) (i : Nat), Shapes u →
    ∃ k, StrUtil.firstNonSpace u i = .ok (i + k) ∧ u.drop k = trim u ∧ k ≤ u.length
  | [], i, _ => ⟨0, rfl, rfl, Nat.le_refl _⟩
  | c :: u, i, h => by
    obtain ⟨cp, hcp⟩ := Shape.getCodePoint (h c (by simp))
    simp only [StrUtil.firstNonSpace, hcp, ok_bind, isSpace_white, trim]
    have hw : white c = decide (WhiteSpace cp) := by unfold white; rw [hcp]
    by_cases hx : WhiteSpace cp
    · rw [decide_eq_true hx] at hw ⊢
      rw [if_pos rfl, List.dropWhile_cons_of_pos hw]
      obtain ⟨k, h1, h2, h3⟩ := firstNonSpace_trim u (i + 1) (fun d hd => h d (by simp [hd]))
      exact ⟨k + 1, by rw [h1]; congr 1; omega, h2, by simpa using h3⟩
    · rw [decide_eq_false hx] at hw ⊢
      rw [if_neg (by simp), List.dropWhile_cons_of_neg (by simp [hw])]
      exact ⟨0, rfl, rfl, Nat.zero_le _⟩

theorem skip {s : Str} (hs : Shapes s) (p : Nat) :
    ∃ q, skipSpace s p = .ok q ∧ s.drop q = trim (s.drop p) ∧ p ≤ q := by
  obtain ⟨k, h1, h2, _⟩ := firstNonSpace_trim (s.drop p) p (shapes_drop hs p)
  exact ⟨p + k, h1, by rw [← h2, List.drop_drop], by omega⟩

theorem index_nil {s : Str} {p : Nat} (h : s.drop p = []) : Str.index s p = .error .ub := by
  have := List.drop_eq_nil_iff.mp h
  unfold Str.index vecGet
  rw [List.getElem?_eq_none this]

theorem index_cons {s : Str} {p : Nat} {c : Chr} {u : Str} (h : s.drop p = c :: u) : Str.index s p = .ok c :=
  At.index h

theorem drop_succ {s : Str} {p : Nat} {c : Chr} {u : Str} (h : s.drop p = c :: u) : s.drop (p + 1) = u := At.cons h

theorem drop_add {s : Str} {p : Nat} {u : Str} (h : s.drop p = u) (k : Nat) : s.drop (p + k) = u.drop k := by
  rw [← h, List.drop_drop]

theorem lt_length {s : Str} {p : Nat} {c : Chr} {u : Str} (h : s.drop p = c :: u) : p < s.length := At.lt h

theorem length_sub {s : Str} {p : Nat} {u : Str} (h : s.drop p = u) (hp : p ≤ s.length) : s.length - u.length = p := by
  rw [← h, List.length_drop]; omega

/-- What a step of the parser gives, seen as a reading. -/
def view (s : Str) (x : Res (Json F × PState)) : Res (Reading F) := x.map fun r => ⟨r.1, r.2.err, s.drop r.2.pos⟩

theorem view_fail (s : Str) (e : JsonError) (p : Nat) : view (F := F) s (fail e p) = wrong e (s.drop p) := rfl

theorem spells_eq {s t : Str} {p : Nat} (h : s.drop p = t) (hp : p ≤ s.length) (hlen : p ≤ (Str.str s).length) (word : List UInt8) :
    compareAt s p word = .ok (spells s t word) := by
  unfold compareAt spells
  rw [if_neg (by omega), length_sub h hp]

theorem str_length_ge {s : Str} (h : Shapes s) : s.length ≤ (Str.str s).length := by
  induction s with
  | nil => exact Nat.zero_le _
  | cons c s ih =>
    have := ih (fun d hd => h d (by simp [hd]))
    have hc := h c (by simp)
    have e : Str.str (c :: s) = c.data ++ Str.str s := by
      show c.printed ++ Str.str s = _
      rw [Shape.printed hc]
    rw [e, List.length_append, List.length_cons]
    have : 0 < c.data.length := by
      cases hd : c.data with
      | nil => rw [hd] at hc; cases hc
      | cons => simp
    omega

theorem simpleEscape_eq (c : Chr) : simpleEscape c = (escaped c).map fun b => [b] := by
  cases h : simpleEscape c with
  | some bs =>
    obtain ⟨b, h2, h1⟩ := of_simpleEscape h
    simp only [escapes, List.mem_cons, List.not_mem_nil, or_false, Prod.mk.injEq] at h1
    rcases h1 with ⟨rfl, rfl⟩ | ⟨rfl, rfl⟩ | ⟨rfl, rfl⟩ | ⟨rfl, rfl⟩ | ⟨rfl, rfl⟩ | ⟨rfl, rfl⟩ | ⟨rfl, rfl⟩ <;>
      (rw [← h]; decide)
  | none =>
    cases hx : escaped c with
    | none => rfl
    | some b =>
      unfold escaped at hx
      rw [Option.map_eq_some_iff] at hx
      obtain ⟨⟨c', b'⟩, h1, h2⟩ := hx
      have h3 := List.mem_of_find?_eq_some h1
      have h4 := List.find?_some h1
      simp only [decide_eq_true_eq] at h4
      subst h4
      rw [simpleEscape_of h3] at h
      cases h

theorem escape_eq {s : Str} {p : Nat} {d : Chr} {u : Str} (h : s.drop p = d :: u) :
    escape s p d = .ok (match escaped d with
      | some b => .ok ([b], 1)
      | none => if d = chr 0x75 then
          match codeUnit u with
          | some b => .ok ([b], 5)
          | none => .error .invalidEscapeSequence
        else .error .invalidEscapeSequence) := by
  unfold escape
  rw [simpleEscape_eq]
  cases escaped d with
  | some b => rfl
  | none =>
    simp only [Option.map_none]
    by_cases hu : d = chr 0x75
    · rw [if_pos (show d = lowerU from hu), if_pos hu]
      have hl : s.length = p + (u.length + 1) := by
        have := congrArg List.length h
        have := lt_length h
        simp at *
        omega
      unfold codeUnit
      by_cases h4 : u.length < 4
      · rw [if_pos h4, if_pos (by omega)]
      · rw [if_neg h4, if_neg (by omega)]
        have hsub : Str.substring s (p + 1) 4 = .ok (u.take 4) := by
          unfold Str.substring
          rw [if_neg (by omega), drop_succ h]
          congr 2
          omega
        rw [hsub, ok_bind]
        cases StdNum.stoul 16 (Str.str (u.take 4)) <;> rfl
    · rw [if_neg (show ¬ d = lowerU from hu), if_neg hu]

theorem stringEnd_eq {s : Str} {p : Nat} {e : JsonError} {out : List UInt8} (h : s.drop p = [] ∨ ∃ u, s.drop p = chr 0x22 :: u) :
    view (F := F) s (stringEnd s ⟨p, e⟩ out) = match s.drop p with
      | [] => .error .ub
      | _ :: u => (Str.ofStdString out).map fun v => ⟨.str v, e, u⟩ := by
  unfold stringEnd
  rcases h with h | ⟨u, h⟩
  · simp only
    rw [h, index_nil h]; rfl
  · simp only
    rw [h, index_cons h, ok_bind, if_pos (by rfl)]
    cases Str.ofStdString out with
    | error x => rfl
    | ok v => simp only [view, Except.map, bind, Except.bind, pure, Except.pure, drop_succ h]

theorem stringLoop_eq (s : Str) : ∀ (n p : Nat) (e : JsonError) (out : List UInt8), s.length - p < n →
    view (F := F) s (stringLoop s n ⟨p, e⟩ out) = readString e out (s.drop p)
  | 0, p, e, out, h => absurd h (by omega)
  | n + 1, p, e, out, hn => by
    rw [stringLoop]
    simp only
    cases ht : s.drop p with
    | nil =>
      rw [if_neg (by have := List.drop_eq_nil_iff.mp ht; omega), stringEnd_eq (.inl ht), ht, readString]
    | cons c t =>
      have hlt := lt_length ht
      rw [if_pos hlt, index_cons ht, ok_bind, readString.eq_def]
      simp only
      by_cases hq : c = chr 0x22
      · subst hq
        rw [if_pos (by rfl), if_pos rfl, stringEnd_eq (.inr ⟨t, ht⟩), ht]
      · rw [if_neg (show ¬ c = quote from hq), if_neg hq]
        by_cases hb : c = chr 0x5C
        · rw [if_pos (show c = backslash from hb), if_pos hb]
          have ht1 := drop_succ ht
          cases t with
          | nil =>
            have hl : s.length = p + 1 := by
              have := congrArg List.length ht
              simp at this
              omega
            rw [if_pos (by omega), view_fail, ht1]
          | cons d u =>
            have hlt1 := lt_length ht1
            rw [if_neg (by omega), index_cons ht1, ok_bind, escape_eq ht1, ok_bind]
            simp only
            cases escaped d with
            | some b =>
              simp only
              rw [stringLoop_eq s n _ e _ (by omega), show p + 1 + 1 + 1 = (p + 1 + 1) + 1 from rfl, drop_add (drop_succ ht1) 1]
            | none =>
              simp only
              by_cases hu : d = chr 0x75
              · rw [if_pos hu, if_pos hu]
                cases codeUnit u with
                | some b =>
                  simp only
                  rw [stringLoop_eq s n _ e _ (by omega), show p + 1 + 5 + 1 = (p + 1 + 1) + 5 from rfl, drop_add (drop_succ ht1) 5]
                | none =>
                  simp only
                  rw [view_fail, ht1]
              · rw [if_neg hu, if_neg hu]
                simp only
                rw [view_fail, ht1]
        · rw [if_neg (show ¬ c = backslash from hb), if_neg hb, stringLoop_eq s n _ e _ (by omega), drop_succ ht]

theorem parseString_eq {s : Str} {p : Nat} {e : JsonError} {c : Chr} {u : Str} (h : s.drop p = c :: u) :
    view (F := F) s (parseString s ⟨p, e⟩) = readString e [] u := by
  unfold parseString
  rw [stringLoop_eq s _ _ e [] (by simp only; omega)]
  simp only
  rw [drop_succ h]

/-! ### Numbers -/

theorem anyDigit_eq {c : Chr} {cp : Nat} (h : c.getCodePoint = .ok cp) : anyDigit c = CharUtil.isDigit cp := by
  unfold anyDigit; rw [h]

theorem isNumChar_eq {c : Chr} (h : Shape c.data) : isNumChar c = .ok (numeric c) := by
  obtain ⟨cp, hcp⟩ := Shape.getCodePoint h
  unfold isNumChar numeric
  rw [hcp, ok_bind, anyDigit_eq hcp]
  simp only [pure, Except.pure, List.mem_cons, List.not_mem_nil, or_false, dot, lowerE, upperE, minus, plus, Bool.or_assoc,
    Bool.decide_or]
  congr

theorem numLen_eq : ∀ (t : Str), Shapes t → numLen t = .ok (t.takeWhile numeric).length
  | [], _ => rfl
  | c :: t, h => by
    rw [numLen, isNumChar_eq (h c (by simp)), ok_bind]
    cases hc : numeric c with
    | true =>
      rw [if_pos rfl, numLen_eq t (fun d hd => h d (by simp [hd])), List.takeWhile_cons_of_pos hc]; rfl
    | false =>
      rw [if_neg (by simp), List.takeWhile_cons_of_neg (by simp [hc])]; rfl

theorem parse_neg (x : List UInt8) :
    StdNum.parse 10 (0x2D :: x) =
      if x.head?.all (fun b => !StdNum.isDigitIn 10 b) then none else (StdNum.parse 10 x).map fun r => (true, r.2) := by
  have e : StdNum.parse 10 (0x2D :: x) =
      if x.takeWhile (StdNum.isDigitIn 10) = [] then none else some (true, StdNum.digitsVal 10 (x.takeWhile (StdNum.isDigitIn 10))) := by
    unfold StdNum.parse
    rw [List.dropWhile_cons_of_neg (by decide)]
    simp only [StdNum.sign, StdNum.hexPrefix_ten]
  rw [e]
  cases x with
  | nil => rfl
  | cons b x =>
    cases hb : StdNum.isDigitIn 10 b with
    | false => rw [List.takeWhile_cons_of_neg (by simp [hb]), if_pos rfl]; simp [hb]
    | true =>
      rw [List.takeWhile_cons_of_pos hb, if_neg (by simp), if_neg (by simp [hb])]
      have key : ∀ n < 256, StdNum.isDigitIn 10 (UInt8.ofNat n) = true → StdNum.isSpace (UInt8.ofNat n) = false ∧
          UInt8.ofNat n ≠ 0x2D ∧ UInt8.ofNat n ≠ 0x2B := by decide +kernel
      obtain ⟨k1, k2, k3⟩ := key b.toNat (UInt8.toNat_lt b) (by rw [UInt8.ofNat_toNat]; exact hb)
      rw [UInt8.ofNat_toNat] at k1 k2 k3
      unfold StdNum.parse
      rw [List.dropWhile_cons_of_neg (by simp [k1])]
      have esign : StdNum.sign (b :: x) = (false, b :: x) := by
        unfold StdNum.sign
        split
        · rename_i heq; exact absurd (List.cons.inj heq).1 k2
        · rename_i heq; exact absurd (List.cons.inj heq).1 k3
        · rfl
      rw [esign]
      simp only [StdNum.hexPrefix_ten]
      rw [List.takeWhile_cons_of_pos hb, if_neg (by simp)]
      rfl

theorem anyDigit_digitChrs : ∀ c ∈ digitChrs, anyDigit c = true := by decide +kernel

theorem parse_minus (u : Str) (h : Shapes u) :
    StdNum.parse 10 (Str.str (chr 0x2D :: u)) =
      if u.takeWhile (· ∈ digitChrs) = [] then none else some (true, numeral (u.takeWhile (· ∈ digitChrs))) := by
  have e : Str.str (chr 0x2D :: u) = 0x2D :: Str.str u := by
    show (chr 0x2D).printed ++ Str.str u = _
    rw [chr_printed _ (by decide) (by decide)]; rfl
  rw [e, parse_neg]
  cases u with
  | nil => rfl
  | cons c u =>
    by_cases hc : c ∈ digitChrs
    · have ha := anyDigit_digitChrs c hc
      have := parse_any (c :: u) h (by rw [List.takeWhile_cons_of_pos ha]; simp)
      have hne : ¬ (c :: u).takeWhile (· ∈ digitChrs) = [] := by
        rw [List.takeWhile_cons_of_pos (by simpa using hc)]; simp
      rw [if_neg hne] at this
      rw [this, if_neg hne]
      have hd : ∃ b x, Str.str (c :: u) = b :: x ∧ StdNum.isDigitIn 10 b = true := by
        have key : ∀ c ∈ digitChrs, ∃ b, b ∈ c.printed.head? ∧ StdNum.isDigitIn 10 b = true := by decide +kernel
        obtain ⟨b, hb, hd⟩ := key c hc
        show ∃ b x, c.printed ++ Str.str u = b :: x ∧ _
        cases hp : c.printed with
        | nil => rw [hp] at hb; cases hb
        | cons a l =>
          rw [hp] at hb
          cases hb
          exact ⟨_, _, rfl, hd⟩
      obtain ⟨b, x, e1, e2⟩ := hd
      rw [e1]
      simp [e2]
    · have hnil : (c :: u).takeWhile (· ∈ digitChrs) = [] := by rw [List.takeWhile_cons_of_neg (by simpa using hc)]
      have := not_digit_byte c (h c (by simp)) hc u
      rw [if_pos hnil, if_pos]
      cases hx : (Str.str (c :: u)).head? with
      | none => rfl
      | some b => simp [this b hx]

theorem stoll_eq (t : Str) (h : Shapes t) (hne : t.head?.any (fun c => anyDigit c || decide (c = chr 0x2D))) :
    StdNum.stoll 10 (Str.str t) = match integerAt t with
      | none => .error .invalidArgument
      | some i => if -(2 ^ 63) ≤ i ∧ i < 2 ^ 63 then .ok i else .error .outOfRange := by
  cases t with
  | nil => cases hne
  | cons c u =>
    unfold StdNum.stoll StdNum.signed integerAt
    by_cases hc : c = chr 0x2D
    · subst hc
      rw [parse_minus u (fun d hd => h d (by simp [hd])), if_pos (show (chr 0x2D :: u).head? = some (chr 0x2D) from rfl), List.tail_cons]
      unfold naturalAt
      by_cases hd : u.takeWhile (· ∈ digitChrs) = []
      · rw [if_pos hd, if_pos hd]; rfl
      · rw [if_neg hd, if_neg hd]; rfl
    · rw [if_neg (by simpa using hc), parse_any (c :: u) h]
      · unfold naturalAt
        by_cases hd : (c :: u).takeWhile (· ∈ digitChrs) = []
        · rw [if_pos hd, if_pos hd]; rfl
        · rw [if_neg hd, if_neg hd]; rfl
      · simp only [List.head?_cons, Option.any_some, Bool.or_eq_true, decide_eq_true_eq, hc, or_false] at hne
        rw [List.takeWhile_cons_of_pos hne]
        simp

theorem convert_eq (ops : FloatOps F) (t : Str) (h : Shapes t)
    (hne : t.head?.any (fun c => anyDigit c || decide (c = chr 0x2D) || decide (c = chr 0x2B))) :
    convert ops t = numberValue ops t := by
  have hf : (plus ∈ t ∨ lowerE ∈ t ∨ upperE ∈ t) ↔ t.any (· ∈ c!"+eE") = true := by
    rw [← floating_iff]
    unfold Floating
    simp only [List.any_eq_true, decide_eq_true_eq]
  unfold convert numberValue
  by_cases hfl : t.any (· ∈ c!"+eE") = true
  · rw [if_pos (hf.mpr hfl), if_pos hfl]
    cases ops.stod (Str.str t) with
    | ok f => rfl
    | error b => cases b <;> rfl
  · rw [if_neg (fun x => hfl (hf.mp x)), if_neg hfl, stoll_eq t h]
    · cases integerAt t with
      | none => rfl
      | some i =>
        simp only
        by_cases hr : -(2 ^ 63) ≤ i ∧ i < 2 ^ 63
        · rw [if_pos hr, if_pos hr]
        · rw [if_neg hr, if_neg hr]
    · cases t with
      | nil => cases hne
      | cons c u =>
        simp only [List.head?_cons, Option.any_some] at hne ⊢
        cases hp : decide (c = chr 0x2B) with
        | false => rw [hp, Bool.or_false] at hne; exact hne
        | true =>
          have : c = chr 0x2B := by simpa using hp
          subst this
          exact absurd (by simp [chr]) hfl

theorem takeWhile_length_drop {p : Chr → Bool} : ∀ (t : Str), t.drop (t.takeWhile p).length = t.dropWhile p
  | [] => rfl
  | c :: t => by
    cases hc : p c with
    | true => rw [List.takeWhile_cons_of_pos hc, List.dropWhile_cons_of_pos hc]; exact takeWhile_length_drop t
    | false => rw [List.takeWhile_cons_of_neg (by simp [hc]), List.dropWhile_cons_of_neg (by simp [hc])]; rfl

theorem takeWhile_length_take {p : Chr → Bool} : ∀ (t : Str), t.take (t.takeWhile p).length = t.takeWhile p
  | [] => rfl
  | c :: t => by
    cases hc : p c with
    | true => rw [List.takeWhile_cons_of_pos hc]; simp [takeWhile_length_take t]
    | false => rw [List.takeWhile_cons_of_neg (by simp [hc])]; rfl

theorem parseNumber_eq (ops : FloatOps F) {s : Str} (hs : Shapes s) {p : Nat} {e : JsonError} {c : Chr} {u : Str}
    (h : s.drop p = c :: u) (hc : anyDigit c ∨ c = chr 0x2D ∨ c = chr 0x2B) :
    view s (parseNumber ops s ⟨p, e⟩) = readNumber ops e (c :: u) := by
  have hsh : Shapes (c :: u) := by rw [← h]; exact shapes_drop hs p
  have hnum : numeric c = true := by
    unfold numeric
    rcases hc with hc | rfl | rfl
    · rw [hc]; rfl
    · decide +kernel
    · decide +kernel
  unfold parseNumber readNumber
  simp only
  rw [h, numLen_eq _ hsh, ok_bind]
  have hlt := lt_length h
  have hl : s.length - p = (c :: u).length := by rw [← h, List.length_drop]
  have hsub : Str.substring s p ((c :: u).takeWhile numeric).length = .ok ((c :: u).takeWhile numeric) := by
    unfold Str.substring
    rw [if_neg (by omega), h, hl, Nat.min_eq_left (List.Sublist.length_le (List.takeWhile_sublist _)), takeWhile_length_take]
  rw [hsub, ok_bind, convert_eq ops _ (fun d hd => hsh d ((List.takeWhile_sublist _).mem hd))]
  · cases numberValue ops ((c :: u).takeWhile numeric) with
    | error x => simp only; rw [view_fail, h]
    | ok j =>
      simp only [view, pure, Except.pure, Except.map]
      rw [drop_add h, takeWhile_length_drop]
  · rw [List.takeWhile_cons_of_pos hnum]
    simp only [List.head?_cons, Option.any_some, Bool.or_eq_true, decide_eq_true_eq]
    rcases hc with hc | hc | hc
    · exact .inl (.inl hc)
    · exact .inl (.inr hc)
    · exact .inr hc

/-! ### Literals -/

theorem parseNull_eq {s : Str} (hs : Shapes s) {p : Nat} {e : JsonError} {c : Chr} {u : Str} (h : s.drop p = c :: u) :
    view (F := F) s (parseNull s ⟨p, e⟩) = readNull s e (c :: u) := by
  have hlt := lt_length h
  have := str_length_ge hs
  unfold parseNull readNull
  simp only
  rw [spells_eq h (by omega) (by omega), ok_bind, show Str.valueOfNull = b!"null" from rfl]
  split
  · simp only [view, pure, Except.pure, Except.map]
    rw [drop_add h]
  · rw [view_fail, h]

theorem parseBoolean_eq {s : Str} (hs : Shapes s) {p : Nat} {e : JsonError} {c : Chr} {u : Str} (h : s.drop p = c :: u) :
    view (F := F) s (parseBoolean s ⟨p, e⟩) = readBoolean s e (c :: u) := by
  have hlt := lt_length h
  have := str_length_ge hs
  unfold parseBoolean readBoolean
  simp only
  rw [spells_eq h (by omega) (by omega), ok_bind, show Str.valueOfBool true = b!"true" from rfl]
  split
  · simp only [view, pure, Except.pure, Except.map]
    rw [drop_add h]
  · rw [spells_eq h (by omega) (by omega), ok_bind, show Str.valueOfBool false = b!"false" from rfl]
    split
    · simp only [view, pure, Except.pure, Except.map]
      rw [drop_add h]
    · rw [view_fail, h]

/-! ### Objects and arrays -/

/-- The same for what follows a value. -/
def viewAfter (s : Str) (x : Res After) : Res Next := x.map fun a => match a with
  | .closed p => .closed (s.drop p)
  | .more p => .more (s.drop p)
  | .error e p => .wrong e (s.drop p)

theorem afterValue_eq {s : Str} (hs : Shapes s) (close : Chr) (p : Nat) :
    viewAfter s (afterValue s close p) = afterItem close (trim (s.drop p)) := by
  unfold afterValue
  obtain ⟨q, h1, h2, _⟩ := skip hs p
  rw [h1, ok_bind, ← h2]
  cases ht : s.drop q with
  | nil => rw [index_nil ht]; rfl
  | cons c t =>
    rw [index_cons ht, ok_bind]
    unfold afterItem
    simp only
    by_cases hc : c = chr 0x2C
    · rw [if_pos (show c = comma from hc), if_pos hc]
      obtain ⟨q', h1, h2, _⟩ := skip hs (q + 1)
      rw [h1, ok_bind, ← drop_succ ht, ← h2]
      cases ht' : s.drop q' with
      | nil => rw [index_nil ht']; rfl
      | cons d t' =>
        rw [index_cons ht', ok_bind]
        unfold afterComma
        simp only
        split
        · simp only [viewAfter, pure, Except.pure, Except.map, ht']
        · simp only [viewAfter, pure, Except.pure, Except.map, ht']
    · rw [if_neg (show ¬ c = comma from hc), if_neg hc]
      split
      · simp only [viewAfter, pure, Except.pure, Except.map, drop_succ ht]
      · simp only [viewAfter, pure, Except.pure, Except.map, ht]

def viewKey (s : Str) (x : Res (Except (JsonError × Nat) (Str × Nat))) : Res (Except (JsonError × Str) (Str × Str)) :=
  x.map fun a => match a with
  | .error (e, p) => .error (e, s.drop p)
  | .ok (k, p) => .ok (k, s.drop p)

theorem memberKey_eq {s : Str} (hs : Shapes s) (hlen : s.length < npos) {p : Nat} (hp : p ≤ s.length) :
    viewKey s (memberKey s p) = readKey (s.drop p) := by
  unfold memberKey readKey
  by_cases hm : chr 0x22 ∈ s.drop p
  · rw [if_pos hm]
    obtain ⟨key, rest, he, hk⟩ := List.eq_append_cons_of_mem hm
    have ha : At s p (key ++ chr 0x22 :: rest) := he
    have hf := find_key hlen hk ha
    have hle := ha.le
    rw [hf, ok_bind, if_neg (by omega)]
    have hpos : ∀ c ∈ key, decide (c ≠ chr 0x22) = true := by
      intro c hc
      simp only [decide_eq_true_eq]
      rintro rfl
      exact hk hc
    have h1 : (s.drop p).takeWhile (· ≠ chr 0x22) = key := by
      rw [he, List.takeWhile_append_of_pos hpos, List.takeWhile_cons_of_neg (by simp), List.append_nil]
    have h2 : (s.drop p).dropWhile (· ≠ chr 0x22) = chr 0x22 :: rest := by
      rw [he, List.dropWhile_append_of_pos hpos, List.dropWhile_cons_of_neg (by simp)]
    rw [h1, h2, show p + key.length - p = key.length by omega, substring_at hp ha, ok_bind, List.tail_cons]
    have h3 : s.drop (p + key.length + 1) = rest := by
      have := ha.app
      exact drop_succ this
    obtain ⟨q, h4, h5, _⟩ := skip hs (p + key.length + 1)
    rw [h4, ok_bind, ← h3, ← h5]
    cases ht : s.drop q with
    | nil => rw [index_nil ht]; rfl
    | cons c t =>
      rw [index_cons ht, ok_bind]
      unfold afterKey
      simp only
      by_cases hc : c = chr 0x3A
      · rw [if_neg (show ¬ c ≠ colon from fun x => x hc), if_pos hc]
        obtain ⟨q', h6, h7, _⟩ := skip hs (q + 1)
        rw [h6, ok_bind, ← drop_succ ht, ← h7]
        rfl
      · rw [if_pos (show c ≠ colon from hc), if_neg hc]
        simp only [viewKey, pure, Except.pure, Except.map, ht]
  · rw [if_neg hm]
    have hf : Str.find s [quote] p = .ok npos := by
      unfold Str.find
      rw [if_neg (by omega)]
      have hs' : Str.search (s.drop p) [quote] = (s.drop p).length := by
        apply Str.search_none
        rintro ⟨i, pre, post, hd, _⟩
        exact hm (by rw [hd]; simp [quote, chr])
      simp only
      rw [hs', if_neg]
      simp; omega
    rw [hf, ok_bind, if_pos rfl]
    rfl

theorem collapse_snoc (ms : List (Str × Json F)) (k : Str) (v : Json F) :
    collapse (ms ++ [(k, v)]) = Json.setMember k v (collapse ms) := by
  rw [← setMember_fold _ _ (Nat.le_refl _), ← setMember_fold _ _ (Nat.le_refl _), List.foldl_append]
  rfl

theorem trim_idem (t : Str) : trim (trim t) = trim t := by
  unfold trim
  induction t with
  | nil => rfl
  | cons c t ih =>
    cases hc : white c with
    | true => rw [List.dropWhile_cons_of_pos hc, ih]
    | false =>
      have := List.dropWhile_cons_of_neg (p := white) (a := c) (l := t) (by simp [hc])
      rw [this, this]

section
variable (ops : FloatOps F) (s : Str)

def ValEq (n : Nat) : Prop := ∀ p e, view s (parseValue ops s n ⟨p, e⟩) = readValue ops s n e (s.drop p)
def ObjEq (n : Nat) : Prop := ∀ p e ms, view s (objectLoop ops s n ⟨p, e⟩ (collapse ms)) = readMembers ops s n e ms (s.drop p)
def ArrEq (n : Nat) : Prop := ∀ p e js, view s (arrayLoop ops s n ⟨p, e⟩ js) = readElements ops s n e js (s.drop p)

theorem valEq_succ (hs : Shapes s) {n : Nat} (ho : ObjEq ops s n) (ha : ArrEq ops s n) : ValEq ops s (n + 1) := by
  intro p e
  rw [parseValue, readValue]
  simp only
  obtain ⟨q, h1, h2, _⟩ := skip hs p
  rw [h1, ok_bind, ← h2]
  cases ht : s.drop q with
  | nil =>
    rw [if_pos (List.drop_eq_nil_iff.mp ht)]
    simp only [view, pure, Except.pure, Except.map, ht]
  | cons c u =>
    have hlt := lt_length ht
    rw [if_neg (by omega), index_cons ht, ok_bind]
    simp only
    by_cases hq : c = chr 0x22
    · rw [if_pos (show c = quote from hq), if_pos hq, parseString_eq ht]
    rw [if_neg (show ¬ c = quote from hq), if_neg hq]
    by_cases hb : c = chr 0x7B
    · rw [if_pos (show c = lbrace from hb), if_pos hb]
      obtain ⟨q', h3, h4, _⟩ := skip hs (q + 1)
      rw [h3, ok_bind, ← drop_succ ht, ← h4]
      exact ho q' e []
    rw [if_neg (show ¬ c = lbrace from hb), if_neg hb]
    by_cases hk : c = chr 0x5B
    · rw [if_pos (show c = lbracket from hk), if_pos hk]
      obtain ⟨q', h3, h4, _⟩ := skip hs (q + 1)
      rw [h3, ok_bind, ← drop_succ ht, ← h4]
      exact ha q' e []
    rw [if_neg (show ¬ c = lbracket from hk), if_neg hk]
    by_cases hl : c = chr 0x74 ∨ c = chr 0x66
    · rw [if_pos (show c = lowerT ∨ c = lowerF from hl), if_pos hl, parseBoolean_eq hs ht]
    rw [if_neg (show ¬ (c = lowerT ∨ c = lowerF) from hl), if_neg hl]
    by_cases hn : c = chr 0x6E
    · rw [if_pos (show c = lowerN from hn), if_pos hn, parseNull_eq hs ht]
    rw [if_neg (show ¬ c = lowerN from hn), if_neg hn]
    obtain ⟨cp, hcp⟩ := Shape.getCodePoint (hs c (List.mem_of_mem_drop (by rw [ht]; simp)))
    rw [hcp, ok_bind]
    by_cases hd : anyDigit c ∨ c = chr 0x2D ∨ c = chr 0x2B
    · rw [if_pos hd, if_pos (show CharUtil.isDigit cp = true ∨ c = minus ∨ c = plus by rw [← anyDigit_eq hcp]; exact hd),
        parseNumber_eq ops hs ht hd]
    · rw [if_neg hd, if_neg (show ¬ (CharUtil.isDigit cp = true ∨ c = minus ∨ c = plus) by rw [← anyDigit_eq hcp]; exact hd),
        view_fail, ht]

theorem objEq_succ (hs : Shapes s) (hlen : s.length < npos) {n : Nat} (hv : ValEq ops s n) (ho : ObjEq ops s n) :
    ObjEq ops s (n + 1) := by
  intro p e ms
  rw [objectLoop, readMembers]
  simp only
  by_cases hp : s.drop p = []
  · rw [if_pos hp, if_neg (by have := List.drop_eq_nil_iff.mp hp; omega), view_fail, hp]
  have hlt : p < s.length := by
    rcases Nat.lt_or_ge p s.length with h | h
    · exact h
    · exact absurd (List.drop_eq_nil_iff.mpr h) hp
  rw [if_neg hp, if_pos hlt]
  obtain ⟨q, h1, h2, _⟩ := skip hs p
  rw [h1, ok_bind, ← h2]
  cases ht : s.drop q with
  | nil => rw [index_nil ht]; rfl
  | cons c u =>
    have hltq := lt_length ht
    rw [index_cons ht, ok_bind]
    simp only
    by_cases hb : c = chr 0x7D
    · rw [if_pos (show c = rbrace from hb), if_pos hb]
      simp only [view, pure, Except.pure, Except.map, drop_succ ht]
    rw [if_neg (show ¬ c = rbrace from hb), if_neg hb]
    by_cases hq : c = chr 0x22
    · rw [if_pos (show c = quote from hq), if_pos hq]
      have hk := memberKey_eq hs hlen (show q + 1 ≤ s.length by omega)
      rw [drop_succ ht] at hk
      rw [← hk]
      cases hm : memberKey s (q + 1) with
      | error x => rfl
      | ok r =>
        cases r with
        | error r => obtain ⟨x, q'⟩ := r; rfl
        | ok r =>
          obtain ⟨key, q'⟩ := r
          rw [ok_bind]
          simp only [viewKey, Except.map]
          have hv' := hv q' e
          rw [← hv']
          cases hpv : parseValue ops s n ⟨q', e⟩ with
          | error x => rfl
          | ok r =>
            obtain ⟨v, st⟩ := r
            rw [ok_bind]
            simp only [view, Except.map]
            have hav := afterValue_eq hs (chr 0x7D) st.pos
            rw [← hav]
            rw [show rbrace = chr 0x7D from rfl]
            cases hx : afterValue s (chr 0x7D) st.pos with
            | error x => rfl
            | ok a =>
              rw [ok_bind]
              cases a with
              | closed q => simp only [viewAfter, Except.map, pure, Except.pure, collapse_snoc]
              | more q =>
                simp only [viewAfter, Except.map]
                rw [← collapse_snoc]
                exact ho q st.err _
              | error x q => rfl
    · rw [if_neg (show ¬ c = quote from hq), if_neg hq, view_fail, ht]

theorem arrEq_succ (hs : Shapes s) {n : Nat} (hv : ValEq ops s n) (ha : ArrEq ops s n) :
    ArrEq ops s (n + 1) := by
  intro p e js
  rw [arrayLoop, readElements]
  simp only
  by_cases hp : s.drop p = []
  · rw [if_pos hp, if_neg (by have := List.drop_eq_nil_iff.mp hp; omega), view_fail, hp]
  have hlt : p < s.length := by
    rcases Nat.lt_or_ge p s.length with h | h
    · exact h
    · exact absurd (List.drop_eq_nil_iff.mpr h) hp
  rw [if_neg hp, if_pos hlt]
  obtain ⟨q, h1, h2, _⟩ := skip hs p
  rw [h1, ok_bind, ← h2]
  cases ht : s.drop q with
  | nil => rw [index_nil ht]; rfl
  | cons c u =>
    rw [index_cons ht, ok_bind]
    simp only
    by_cases hb : c = chr 0x5D
    · rw [if_pos (show c = rbracket from hb), if_pos hb]
      simp only [view, pure, Except.pure, Except.map, drop_succ ht]
    rw [if_neg (show ¬ c = rbracket from hb), if_neg hb]
    have hv' := hv q e
    rw [ht] at hv'
    rw [← hv']
    cases hpv : parseValue ops s n ⟨q, e⟩ with
    | error x => rfl
    | ok r =>
      obtain ⟨v, st⟩ := r
      rw [ok_bind]
      simp only [view, Except.map]
      have hav := afterValue_eq hs (chr 0x5D) st.pos
      rw [← hav]
      rw [show rbracket = chr 0x5D from rfl]
      cases hx : afterValue s (chr 0x5D) st.pos with
      | error x => rfl
      | ok a =>
        rw [ok_bind]
        cases a with
        | closed q => simp only [viewAfter, Except.map, pure, Except.pure]
        | more q =>
          simp only [viewAfter, Except.map]
          exact ha q st.err _
        | error x q => rfl

theorem eq_all (hs : Shapes s) (hlen : s.length < npos) : ∀ n, ValEq ops s n ∧ ObjEq ops s n ∧ ArrEq ops s n
  | 0 => ⟨fun p e => by rw [parseValue, readValue]; rfl, fun p e ms => by rw [objectLoop, readMembers]; rfl,
      fun p e js => by rw [arrayLoop, readElements]; rfl⟩
  | n + 1 => by
    obtain ⟨hv, ho, ha⟩ := eq_all hs hlen n
    exact ⟨valEq_succ ops s hs ho ha, objEq_succ ops s hs hlen hv ho, arrEq_succ ops s hs hv ha⟩

end

/-! ### The whole text -/

theorem white_of {c : Chr} {cp : Nat} (h : c.getCodePoint = .ok cp) : white c = CharUtil.isSpace cp := by
  unfold white; rw [h, isSpace_white]

theorem trim_nil_iff (t : Str) : trim t = [] ↔ ∀ c ∈ t, white c = true := by
  unfold trim
  induction t with
  | nil => simp
  | cons c t ih =>
    cases hc : white c with
    | true => rw [List.dropWhile_cons_of_pos hc, ih]; simp [hc]
    | false => rw [List.dropWhile_cons_of_neg (by simp [hc])]; simp [hc]

theorem lastVisible_of (pre post : Str) (c : Chr) (hc : white c = false) (hp : ∀ d ∈ post, white d = true) :
    lastVisible (pre ++ c :: post) = some c := by
  unfold lastVisible
  rw [List.reverse_append, List.reverse_cons, List.append_assoc, List.dropWhile_append_of_pos (by simpa using hp)]
  rw [List.singleton_append, List.dropWhile_cons_of_neg (by simp [hc])]
  rfl

theorem document_eq (ops : FloatOps F) (s : Str) (hs : Shapes s) (hlen : s.length < npos) :
    JsonParser.document ops s = Spec.JsonText.document ops s := by
  have hcp : ∀ c ∈ s, ∃ cp, c.getCodePoint = .ok cp := fun c hc => Shape.getCodePoint (hs c hc)
  unfold JsonParser.document parse Spec.JsonText.document
  by_cases hne : s = []
  · rw [if_pos hne, if_pos hne]; rfl
  rw [if_neg hne, if_neg hne]
  obtain ⟨k, h1, h2, _⟩ := firstNonSpace_trim s 0 hs
  rw [Nat.zero_add] at h1
  have hpos : 0 < s.length := List.length_pos_iff.mpr hne
  unfold StrUtil.findFirstNonSpace StrUtil.findLastNonSpace
  rw [h1, ok_bind, if_neg (by omega)]
  obtain ⟨l, h3, h4⟩ := StrUtil.lastNonSpace_spec s hcp (s.length - 1) (by omega)
  rw [h3, ok_bind]
  cases ht : trim s with
  | nil => rw [ht] at h2; rw [index_nil h2, if_pos rfl]; rfl
  | cons c u =>
    rw [ht] at h2
    rw [index_cons h2, ok_bind, if_neg (show ¬ c :: u = [] by simp), List.head?_cons]
    by_cases hc : c = chr 0x7B
    · rw [if_neg (show ¬ c ≠ lbrace from fun x => x hc), if_neg (by simp [hc])]
      rcases h4 with ⟨hl0, hl1, ⟨d, cp, g1, g2, g3⟩, g4⟩ | ⟨hl, g4⟩
      · have hd : white d = false := by rw [white_of g2, g3]
        obtain ⟨hlt, hget⟩ := List.getElem?_eq_some_iff.mp g1
        have hsplit : s = s.take l ++ d :: s.drop (l + 1) := by
          conv => lhs; rw [← List.take_append_drop l s, List.drop_eq_getElem_cons hlt, hget]
        have hpost : ∀ x ∈ s.drop (l + 1), white x = true := by
          intro x hx
          obtain ⟨i, hi⟩ := List.mem_iff_getElem?.mp hx
          rw [List.getElem?_drop] at hi
          obtain ⟨hil, _⟩ := List.getElem?_eq_some_iff.mp hi
          obtain ⟨x', cp', q1, q2, q3⟩ := g4 (l + 1 + i) (by omega) (by omega)
          rw [q1] at hi
          cases hi
          rw [white_of q2, q3]
        have hlast : lastVisible s = some d := by
          conv => lhs; rw [hsplit]
          exact lastVisible_of _ _ d hd hpost
        have htail : ¬ trim s.tail = [] := by
          rw [trim_nil_iff]
          intro h
          have : d ∈ s.tail := by
            rw [List.mem_iff_getElem?]
            refine ⟨l - 1, ?_⟩
            rw [List.getElem?_tail, show l - 1 + 1 = l by omega, g1]
          rw [h d this] at hd
          cases hd
        rw [if_neg htail, hlast]
        have hix : Str.index s l = .ok d := by
          unfold Str.index vecGet
          rw [g1]
        rw [hix, ok_bind]
        by_cases hdr : d = chr 0x7D
        · rw [if_neg (show ¬ d ≠ rbrace from fun x => x hdr), if_neg (by simp [hdr])]
          have heq := (eq_all ops s hs hlen (2 * s.length + 2)).1 0 .noError
          rw [List.drop_zero] at heq
          rw [← heq]
          show (do let r ← parseValue ops s (2 * s.length + 2) ⟨0, .noError⟩; _) = _
          cases parseValue ops s (2 * s.length + 2) ⟨0, .noError⟩ with
          | error x => rfl
          | ok r =>
            simp only [view, Except.map, ok_bind, result]
            by_cases he : r.2.err = .noError
            · rw [if_neg (by simp [he]), if_pos he]; rfl
            · rw [if_pos he, if_neg he]; rfl
        · rw [if_pos (show d ≠ rbrace from hdr), if_pos (by simpa using hdr)]
          rfl
      · have htail : trim s.tail = [] := by
          rw [trim_nil_iff]
          intro x hx
          obtain ⟨i, hi⟩ := List.mem_iff_getElem?.mp hx
          rw [List.getElem?_tail] at hi
          obtain ⟨hil, _⟩ := List.getElem?_eq_some_iff.mp hi
          obtain ⟨x', cp', q1, q2, q3⟩ := g4 (i + 1) (by omega) (by omega)
          rw [q1] at hi
          cases hi
          rw [white_of q2, q3]
        rw [if_pos htail, hl, index_nil (List.drop_eq_nil_iff.mpr (Nat.le_refl _))]
        rfl
    · rw [if_pos (show c ≠ lbrace from hc), if_pos (by simpa using hc)]
      rfl

/-! ### The errors that are reported -/

/-- The errors `Parse` reports. -/
def reported : List JsonError :=
  [.noError, .invalidJson, .unexpectedCharacter, .unterminatedString, .missingColon, .trailingComma, .invalidEscapeSequence]

/-- The text starts with a visible character that is neither a comma nor a closing bracket. -/
def Stops (t : Str) : Prop :=
  ∃ c u, t = c :: u ∧ white c = false ∧ c ≠ chr 0x2C ∧ c ≠ chr 0x7D ∧ c ≠ chr 0x5D

theorem trim_suffix (t : Str) : trim t <:+ t := List.dropWhile_suffix _

theorem trim_head {t u : Str} {c : Chr} (h : trim t = c :: u) : white c = false := by
  have := List.head?_dropWhile_not white t
  unfold trim at h
  rw [h] at this
  simpa using this

theorem trim_of_visible {c : Chr} {u : Str} (h : white c = false) : trim (c :: u) = c :: u :=
  List.dropWhile_cons_of_neg (by simp [h])

theorem afterItem_stops {t : Str} (h : Stops t) {close : Chr} (hc : close = chr 0x7D ∨ close = chr 0x5D) :
    afterItem close (trim t) = .ok (.wrong .unexpectedCharacter t) := by
  obtain ⟨c, u, rfl, h1, h2, h3, h4⟩ := h
  rw [trim_of_visible h1, afterItem, if_neg h2, if_neg]
  rcases hc with rfl | rfl <;> assumption

theorem readString_errors (e : JsonError) (w : Str) : ∀ (n : Nat) (t : Str) (out : List UInt8) (r : Reading F), t.length < n → t <:+ w →
    readString e out t = .ok r → r.rest <:+ w ∧ r.err ∈ [e, .unterminatedString, .invalidEscapeSequence]
  | 0, _, _, _, h, _, _ => absurd h (by omega)
  | n + 1, [], out, r, _, _, h => by rw [readString] at h; cases h
  | n + 1, c :: t, out, r, hn, hw, h => by
    have ht : t <:+ w := (List.suffix_cons c t).trans hw
    rw [readString.eq_def] at h
    simp only at h
    by_cases hq : c = chr 0x22
    · rw [if_pos hq] at h
      cases ho : Str.ofStdString out with
      | error x => rw [ho] at h; cases h
      | ok v => rw [ho] at h; cases h; exact ⟨ht, by simp⟩
    rw [if_neg hq] at h
    by_cases hb : c = chr 0x5C
    · rw [if_pos hb] at h
      cases t with
      | nil => cases h; exact ⟨List.nil_suffix, by simp⟩
      | cons d u =>
        simp only at h
        have hu : u <:+ w := (List.suffix_cons d u).trans ht
        simp only [List.length_cons] at hn
        cases hx : escaped d with
        | some b =>
          rw [hx] at h
          exact readString_errors e w n _ _ r (by simp; omega) ((List.drop_suffix 1 u).trans hu) h
        | none =>
          rw [hx] at h
          simp only at h
          split at h
          · cases hc : codeUnit u with
            | some b =>
              rw [hc] at h
              exact readString_errors e w n _ _ r (by simp; omega) ((List.drop_suffix 5 u).trans hu) h
            | none => rw [hc] at h; cases h; exact ⟨ht, by simp⟩
          · cases h; exact ⟨ht, by simp⟩
    · rw [if_neg hb] at h
      exact readString_errors e w n t _ r (by simpa using hn) ht h

section
variable (ops : FloatOps F) (w : Str)

def ValErr (n : Nat) : Prop := ∀ e t r, e ∈ reported → t <:+ w → readValue ops w n e t = .ok r →
  r.rest <:+ w ∧ (r.err ∈ reported ∨ Stops r.rest)
def ObjErr (n : Nat) : Prop := ∀ e ms t r, e ∈ reported → t <:+ w → t ≠ [] → readMembers ops w n e ms t = .ok r →
  r.rest <:+ w ∧ r.err ∈ reported
def ArrErr (n : Nat) : Prop := ∀ e js t r, e ∈ reported → t <:+ w → t ≠ [] → readElements ops w n e js t = .ok r →
  r.rest <:+ w ∧ r.err ∈ reported

theorem open_not_last {w : Str} (hw : lastVisible w = some (chr 0x7D)) {c : Chr} {u : Str} (h : c :: u <:+ w)
    (hc : white c = false) (hne : c ≠ chr 0x7D) : trim u ≠ [] := by
  intro ht
  rw [trim_nil_iff] at ht
  obtain ⟨pre, rfl⟩ := h
  rw [lastVisible_of pre u c hc ht] at hw
  cases hw
  exact hne rfl

theorem valErr_succ (hw : lastVisible w = some (chr 0x7D)) {n : Nat} (ho : ObjErr ops w n) (ha : ArrErr ops w n) :
    ValErr ops w (n + 1) := by
  intro e t r he hs h
  rw [readValue] at h
  cases ht : trim t with
  | nil => rw [ht] at h; cases h; exact ⟨List.nil_suffix, .inl he⟩
  | cons c u =>
    rw [ht] at h
    simp only at h
    have hv := trim_head ht
    have hcu : c :: u <:+ w := by rw [← ht]; exact (trim_suffix t).trans hs
    have hu : u <:+ w := (List.suffix_cons c u).trans hcu
    by_cases hq : c = chr 0x22
    · rw [if_pos hq] at h
      obtain ⟨h1, h2⟩ := readString_errors e w _ u [] r (Nat.lt_succ_self _) hu h
      refine ⟨h1, .inl ?_⟩
      simp only [List.mem_cons, List.not_mem_nil, or_false] at h2
      rcases h2 with h2 | h2 | h2 <;> rw [h2]
      · exact he
      · decide
      · decide
    rw [if_neg hq] at h
    by_cases hb : c = chr 0x7B
    · rw [if_pos hb] at h
      have := ho e [] (trim u) r he ((trim_suffix u).trans hu) (open_not_last hw hcu hv (by rw [hb]; decide)) h
      exact ⟨this.1, .inl this.2⟩
    rw [if_neg hb] at h
    by_cases hk : c = chr 0x5B
    · rw [if_pos hk] at h
      have := ha e [] (trim u) r he ((trim_suffix u).trans hu) (open_not_last hw hcu hv (by rw [hk]; decide)) h
      exact ⟨this.1, .inl this.2⟩
    rw [if_neg hk] at h
    by_cases hl : c = chr 0x74 ∨ c = chr 0x66
    · rw [if_pos hl, readBoolean] at h
      split at h
      · cases h; exact ⟨(List.drop_suffix _ _).trans hcu, .inl he⟩
      · split at h
        · cases h; exact ⟨(List.drop_suffix _ _).trans hcu, .inl he⟩
        · cases h
          refine ⟨hcu, .inr ⟨c, u, rfl, hv, ?_⟩⟩
          rcases hl with rfl | rfl <;> decide
    rw [if_neg hl] at h
    by_cases hn : c = chr 0x6E
    · rw [if_pos hn, readNull] at h
      split at h
      · cases h; exact ⟨(List.drop_suffix _ _).trans hcu, .inl he⟩
      · cases h
        refine ⟨hcu, .inr ⟨c, u, rfl, hv, ?_⟩⟩
        subst hn; decide
    rw [if_neg hn] at h
    by_cases hd : anyDigit c ∨ c = chr 0x2D ∨ c = chr 0x2B
    · rw [if_pos hd, readNumber] at h
      cases hx : numberValue ops ((c :: u).takeWhile numeric) with
      | ok j => rw [hx] at h; cases h; exact ⟨(List.dropWhile_suffix _).trans hcu, .inl he⟩
      | error x =>
        rw [hx] at h
        cases h
        refine ⟨hcu, .inr ⟨c, u, rfl, hv, ?_⟩⟩
        refine ⟨?_, ?_, ?_⟩ <;> (rintro rfl; revert hd; decide +kernel)
    · rw [if_neg hd] at h
      cases h
      exact ⟨hcu, .inl (show JsonError.unexpectedCharacter ∈ reported by decide)⟩

/-- What follows an item leaves a part of the text and a reported error. -/
def NextOk (w : Str) (err : JsonError) : Next → Prop
  | .closed rest => rest <:+ w ∧ err ∈ reported
  | .more rest => rest <:+ w ∧ rest ≠ [] ∧ err ∈ reported
  | .wrong e rest => rest <:+ w ∧ e ∈ reported

/-- What reading a key leaves. -/
def KeyOk (w : Str) : Except (JsonError × Str) (Str × Str) → Prop
  | .error (e, rest) => rest <:+ w ∧ e ∈ reported
  | .ok (_, rest) => rest <:+ w

theorem afterItem_errors {w : Str} {close : Chr} (hc : close = chr 0x7D ∨ close = chr 0x5D) {r : Reading F} (hs : r.rest <:+ w)
    (hr : r.err ∈ reported ∨ Stops r.rest) {x : Next} (h : afterItem close (trim r.rest) = .ok x) :
    NextOk w r.err x := by
  by_cases hst : Stops r.rest
  · rw [afterItem_stops hst hc] at h
    cases h
    exact ⟨hs, by decide⟩
  · have hr : r.err ∈ reported := hr.resolve_right hst
    have hts := (trim_suffix r.rest).trans hs
    cases ht : trim r.rest with
    | nil => rw [ht] at h; cases h
    | cons c u =>
      rw [ht] at h hts
      have hu : u <:+ w := (List.suffix_cons c u).trans hts
      rw [afterItem] at h
      split at h
      · have htu := (trim_suffix u).trans hu
        cases hx : trim u with
        | nil => rw [hx] at h; cases h
        | cons d v =>
          rw [hx] at h htu
          rw [afterComma] at h
          split at h
          · cases h; exact ⟨htu, by decide⟩
          · cases h; exact ⟨htu, by simp, hr⟩
      · split at h
        · cases h; exact ⟨hu, hr⟩
        · cases h; exact ⟨hts, by decide⟩

theorem readKey_errors {w t : Str} (hs : t <:+ w) {x : Except (JsonError × Str) (Str × Str)} (h : readKey t = .ok x) :
    KeyOk w x := by
  rw [readKey] at h
  split at h
  · have hu : (t.dropWhile (· ≠ chr 0x22)).tail <:+ w :=
      ((List.tail_suffix _).trans (List.dropWhile_suffix _)).trans hs
    generalize (t.dropWhile (· ≠ chr 0x22)).tail = u at h hu
    have htu := (trim_suffix u).trans hu
    cases hx : trim u with
    | nil => rw [hx] at h; cases h
    | cons c v =>
      rw [hx] at h htu
      rw [afterKey] at h
      split at h
      · cases h; exact (trim_suffix v).trans ((List.suffix_cons c v).trans htu)
      · cases h; exact ⟨htu, by decide⟩
  · cases h; exact ⟨hs, by decide⟩

theorem objErr_succ {n : Nat} (hv : ValErr ops w n) (ho : ObjErr ops w n) : ObjErr ops w (n + 1) := by
  intro e ms t r he hs hne h
  rw [readMembers, if_neg hne] at h
  have hts := (trim_suffix t).trans hs
  cases ht : trim t with
  | nil => rw [ht] at h; cases h
  | cons c u =>
    rw [ht] at h hts
    have hu : u <:+ w := (List.suffix_cons c u).trans hts
    simp only at h
    split at h
    · cases h; exact ⟨hu, he⟩
    split at h
    · cases hk : readKey u with
      | error x => rw [hk] at h; cases h
      | ok x =>
        rw [hk] at h
        have hk' := readKey_errors hu hk
        cases x with
        | error x => obtain ⟨x, rest⟩ := x; cases h; exact hk'
        | ok x =>
          obtain ⟨key, rest⟩ := x
          simp only at h hk'
          cases hr : readValue ops w n e rest with
          | error x => rw [hr] at h; cases h
          | ok q =>
            rw [hr] at h
            simp only at h
            obtain ⟨g1, g2⟩ := hv e rest q he hk' hr
            cases hx : afterItem (chr 0x7D) (trim q.rest) with
            | error x => rw [hx] at h; cases h
            | ok x =>
              rw [hx] at h
              have ha := afterItem_errors (.inl rfl) g1 g2 hx
              cases x with
              | closed rest => cases h; exact ha
              | more rest => exact ho _ _ _ _ ha.2.2 ha.1 ha.2.1 h
              | wrong x rest => cases h; exact ha
    · cases h; exact ⟨hts, show JsonError.unexpectedCharacter ∈ reported by decide⟩

theorem arrErr_succ {n : Nat} (hv : ValErr ops w n) (ho : ArrErr ops w n) : ArrErr ops w (n + 1) := by
  intro e ms t r he hs hne h
  rw [readElements, if_neg hne] at h
  have hts := (trim_suffix t).trans hs
  cases ht : trim t with
  | nil => rw [ht] at h; cases h
  | cons c u =>
    rw [ht] at h hts
    simp only at h
    split at h
    · cases h; exact ⟨(List.suffix_cons c u).trans hts, he⟩
    · cases hr : readValue ops w n e (c :: u) with
      | error x => rw [hr] at h; cases h
      | ok q =>
        rw [hr] at h
        simp only at h
        obtain ⟨g1, g2⟩ := hv e _ q he hts hr
        cases hx : afterItem (chr 0x5D) (trim q.rest) with
        | error x => rw [hx] at h; cases h
        | ok x =>
          rw [hx] at h
          have ha := afterItem_errors (.inr rfl) g1 g2 hx
          cases x with
          | closed rest => cases h; exact ha
          | more rest => exact ho _ _ _ _ ha.2.2 ha.1 ha.2.1 h
          | wrong x rest => cases h; exact ha

theorem err_all (hw : lastVisible w = some (chr 0x7D)) : ∀ n, ValErr ops w n ∧ ObjErr ops w n ∧ ArrErr ops w n
  | 0 => by
    refine ⟨fun _ _ _ _ _ h => ?_, fun _ _ _ _ _ _ _ h => ?_, fun _ _ _ _ _ _ _ h => ?_⟩
    · rw [readValue] at h; cases h
    · rw [readMembers] at h; cases h
    · rw [readElements] at h; cases h
  | n + 1 => by
    obtain ⟨hv, ho, ha⟩ := err_all hw n
    exact ⟨valErr_succ ops w hw ho ha, objErr_succ ops w hv ho, arrErr_succ ops w hv ha⟩

end

theorem document_errors (ops : FloatOps F) (s : Str) (j : Json F) (e : JsonError)
    (h : Spec.JsonText.document ops s = .ok (j, e)) : e ∈ reported := by
  unfold Spec.JsonText.document at h
  split at h
  · cases h; decide
  split at h
  · cases h
  split at h
  · cases h; decide
  rename_i hbrace
  split at h
  · cases h
  split at h
  · cases h; decide
  rename_i htail hlast
  have hw : lastVisible s = some (chr 0x7D) := Classical.not_not.mp hlast
  have hbr : (trim s).head? = some (chr 0x7B) := Classical.not_not.mp hbrace
  cases hr : readValue ops s (2 * s.length + 2) .noError s with
  | error x => rw [hr] at h; cases h
  | ok r =>
    rw [hr] at h
    have hrep : r.err ∈ reported := by
      rw [readValue] at hr
      cases ht : trim s with
      | nil => rw [ht] at hbr; cases hbr
      | cons c u =>
        rw [ht] at hr hbr
        cases hbr
        have hts : chr 0x7B :: u <:+ s := by rw [← ht]; exact trim_suffix s
        simp only at hr
        rw [if_neg (by decide), if_pos trivial] at hr
        exact ((err_all ops s hw _).2.1 _ _ _ r (by decide) ((trim_suffix u).trans ((List.suffix_cons _ u).trans hts))
          (open_not_last hw hts (trim_head ht) (by decide)) hr).2
    simp only [Except.map, result] at h
    split at h
    · cases h; decide
    · cases h; exact hrep

/-! ### The exceptions that leave `Parse` -/

theorem decode_kinds : ∀ (n : Nat) (mem : List UInt8) (e : Err), Str.decodeLoop n mem = .error e →
    e = .fuel ∨ e = .ub ∨ e = .invalidArgument ∨ e = .runtimeError
  | 0, _, _, h => .inl (by rw [Str.decodeLoop] at h; cases h; rfl)
  | n + 1, [], _, h => by
    rw [Str.decodeLoop] at h
    cases h
    exact .inr (.inl rfl)
  | n + 1, b :: t, e, h => by
    simp only [Str.decodeLoop, vecGet, List.getElem?_cons_zero, bind, Except.bind] at h
    split at h
    · cases h
    split at h
    · rename_i e' he
      cases h
      simp only [Str.decodeUtf8Char, vecGet, List.getElem?_cons_zero, bind, Except.bind] at he
      split at he
      · cases he; simp
      · split at he
        · cases he; simp
        · unfold Chr.ofBytes at he
          split at he
          · cases he
          · cases he; simp
    · split at h
      · rename_i e' he
        cases h
        exact decode_kinds n _ _ he
      · cases h

theorem ofStdString_kinds {bs : List UInt8} {e : Err} (h : Str.ofStdString bs = .error e) :
    e = .ub ∨ e = .invalidArgument ∨ e = .runtimeError := by
  rcases decode_kinds _ _ _ h with he | he
  · have hf : Str.ofStdString bs ≠ .error .fuel := Str.decodeLoop_fuel _ _ (by simp)
    rw [he] at h
    exact absurd h hf
  · exact he

theorem readString_throws (e : JsonError) : ∀ (n : Nat) (t : Str) (out : List UInt8) (x : Err), t.length < n →
    readString (F := F) e out t = .error x → x = .ub ∨ x = .invalidArgument ∨ x = .runtimeError
  | 0, _, _, _, h, _ => absurd h (by omega)
  | n + 1, [], out, x, _, h => by rw [readString] at h; cases h; exact .inl rfl
  | n + 1, c :: t, out, x, hn, h => by
    rw [readString.eq_def] at h
    simp only at h
    by_cases hq : c = chr 0x22
    · rw [if_pos hq] at h
      cases ho : Str.ofStdString out with
      | error y => rw [ho] at h; cases h; exact ofStdString_kinds ho
      | ok v => rw [ho] at h; cases h
    rw [if_neg hq] at h
    by_cases hb : c = chr 0x5C
    · rw [if_pos hb] at h
      cases t with
      | nil => cases h
      | cons d u =>
        simp only [List.length_cons] at hn h
        cases hx : escaped d with
        | some b =>
          rw [hx] at h
          exact readString_throws e n _ _ x (by simp; omega) h
        | none =>
          rw [hx] at h
          simp only at h
          split at h
          · cases hc : codeUnit u with
            | some b =>
              rw [hc] at h
              exact readString_throws e n _ _ x (by simp; omega) h
            | none => rw [hc] at h; cases h
          · cases h
    · rw [if_neg hb] at h
      exact readString_throws e n t _ x (by simpa using hn) h

/-- Without an escape the string is put together again from its characters. -/
theorem readString_plain (e : JsonError) : ∀ (t o : Str) (x : Err), Shapes o → Shapes t → chr 0x5C ∉ t →
    readString (F := F) e (Str.str o) t = .error x → x = .ub
  | [], o, x, _, _, _, h => by rw [readString] at h; cases h; rfl
  | c :: t, o, x, ho, ht, hb, h => by
    rw [readString.eq_def] at h
    simp only at h
    by_cases hq : c = chr 0x22
    · rw [if_pos hq, Str.ofStdString_str o ho] at h; cases h
    rw [if_neg hq, if_neg (fun hc => hb (by simp [hc]))] at h
    have hp : Str.str o ++ c.printed = Str.str (o ++ [c]) := by
      rw [Str.str_append]
      simp [Str.str]
    rw [hp] at h
    refine readString_plain e t (o ++ [c]) x ?_ (fun d hd => ht d (by simp [hd])) (fun hd => hb (by simp [hd])) h
    intro d hd
    rcases List.mem_append.mp hd with hd | hd
    · exact ho d hd
    · exact ht d (by simp at hd; simp [hd])

section
variable (ops : FloatOps F) (w : Str) (Q : Err → Prop)

def ValThrow (n : Nat) : Prop := ∀ e t x, t <:+ w → readValue ops w n e t = .error x → Q x
def ObjThrow (n : Nat) : Prop := ∀ e ms t x, t <:+ w → readMembers ops w n e ms t = .error x → Q x
def ArrThrow (n : Nat) : Prop := ∀ e js t x, t <:+ w → readElements ops w n e js t = .error x → Q x

theorem afterItem_throws {close : Chr} {t : Str} {x : Err} (h : afterItem close t = .error x) : x = .ub := by
  cases t with
  | nil => cases h; rfl
  | cons c u =>
    rw [afterItem] at h
    split at h
    · cases hx : trim u with
      | nil => rw [hx] at h; cases h; rfl
      | cons d v =>
        rw [hx, afterComma] at h
        split at h <;> cases h
    · split at h <;> cases h

theorem readKey_throws {t : Str} {x : Err} (h : readKey t = .error x) : x = .ub := by
  rw [readKey] at h
  split at h
  · cases hx : trim (t.dropWhile (· ≠ chr 0x22)).tail with
    | nil => rw [hx] at h; cases h; rfl
    | cons c v =>
      rw [hx, afterKey] at h
      split at h <;> cases h
  · cases h

/-- The part of the text that a reading leaves. -/
def RestIn (n : Nat) : Prop :=
  (∀ e t r, t <:+ w → readValue ops w n e t = .ok r → r.rest <:+ w) ∧
  (∀ e ms t r, t <:+ w → readMembers ops w n e ms t = .ok r → r.rest <:+ w) ∧
  (∀ e js t r, t <:+ w → readElements ops w n e js t = .ok r → r.rest <:+ w)

/-- What follows an item leaves a part of the text. -/
def NextIn (w : Str) : Next → Prop
  | .closed rest => rest <:+ w
  | .more rest => rest <:+ w
  | .wrong _ rest => rest <:+ w

theorem afterItem_in {w : Str} {close : Chr} {t : Str} (hs : t <:+ w) {x : Next} (h : afterItem close (trim t) = .ok x) :
    NextIn w x := by
  have hts := (trim_suffix t).trans hs
  cases ht : trim t with
  | nil => rw [ht] at h; cases h
  | cons c u =>
    rw [ht] at h hts
    have hu : u <:+ w := (List.suffix_cons c u).trans hts
    rw [afterItem] at h
    split at h
    · have htu := (trim_suffix u).trans hu
      cases hx : trim u with
      | nil => rw [hx] at h; cases h
      | cons d v =>
        rw [hx] at h htu
        rw [afterComma] at h
        split at h <;> (cases h; exact htu)
    · split at h
      · cases h; exact hu
      · cases h; exact hts

theorem restIn_all : ∀ n, RestIn ops w n
  | 0 => by
    refine ⟨fun _ _ _ _ h => ?_, fun _ _ _ _ _ h => ?_, fun _ _ _ _ _ h => ?_⟩
    · rw [readValue] at h; cases h
    · rw [readMembers] at h; cases h
    · rw [readElements] at h; cases h
  | n + 1 => by
    obtain ⟨hv, ho, ha⟩ := restIn_all n
    refine ⟨fun e t r hs h => ?_, fun e ms t r hs h => ?_, fun e js t r hs h => ?_⟩
    · rw [readValue] at h
      cases ht : trim t with
      | nil => rw [ht] at h; cases h; exact List.nil_suffix
      | cons c u =>
        rw [ht] at h
        simp only at h
        have hcu : c :: u <:+ w := by rw [← ht]; exact (trim_suffix t).trans hs
        have hu : u <:+ w := (List.suffix_cons c u).trans hcu
        split at h
        · exact (readString_errors e w _ u [] r (Nat.lt_succ_self _) hu h).1
        split at h
        · exact ho _ _ _ _ ((trim_suffix u).trans hu) h
        split at h
        · exact ha _ _ _ _ ((trim_suffix u).trans hu) h
        split at h
        · rw [readBoolean] at h
          split at h
          · cases h; exact (List.drop_suffix _ _).trans hcu
          · split at h
            · cases h; exact (List.drop_suffix _ _).trans hcu
            · cases h; exact hcu
        split at h
        · rw [readNull] at h
          split at h
          · cases h; exact (List.drop_suffix _ _).trans hcu
          · cases h; exact hcu
        split at h
        · rw [readNumber] at h
          split at h
          · cases h; exact (List.dropWhile_suffix _).trans hcu
          · cases h; exact hcu
        · cases h; exact hcu
    · rw [readMembers] at h
      split at h
      · cases h; exact List.nil_suffix
      have hts := (trim_suffix t).trans hs
      cases ht : trim t with
      | nil => rw [ht] at h; cases h
      | cons c u =>
        rw [ht] at h hts
        have hu : u <:+ w := (List.suffix_cons c u).trans hts
        simp only at h
        split at h
        · cases h; exact hu
        split at h
        · cases hk : readKey u with
          | error x => rw [hk] at h; cases h
          | ok x =>
            rw [hk] at h
            have hk' := readKey_errors hu hk
            cases x with
            | error x => obtain ⟨x, rest⟩ := x; cases h; exact hk'.1
            | ok x =>
              obtain ⟨key, rest⟩ := x
              simp only at h
              cases hr : readValue ops w n e rest with
              | error x => rw [hr] at h; cases h
              | ok q =>
                rw [hr] at h
                simp only at h
                have hq := hv e rest q hk' hr
                cases hx : afterItem (chr 0x7D) (trim q.rest) with
                | error x => rw [hx] at h; cases h
                | ok x =>
                  rw [hx] at h
                  have hi := afterItem_in hq hx
                  cases x with
                  | closed rest => cases h; exact hi
                  | more rest => exact ho _ _ _ _ hi h
                  | wrong x rest => cases h; exact hi
        · cases h; exact hts
    · rw [readElements] at h
      split at h
      · cases h; exact List.nil_suffix
      have hts := (trim_suffix t).trans hs
      cases ht : trim t with
      | nil => rw [ht] at h; cases h
      | cons c u =>
        rw [ht] at h hts
        simp only at h
        split at h
        · cases h; exact (List.suffix_cons c u).trans hts
        · cases hr : readValue ops w n e (c :: u) with
          | error x => rw [hr] at h; cases h
          | ok q =>
            rw [hr] at h
            simp only at h
            have hq := hv e _ q hts hr
            cases hx : afterItem (chr 0x5D) (trim q.rest) with
            | error x => rw [hx] at h; cases h
            | ok x =>
              rw [hx] at h
              have hi := afterItem_in hq hx
              cases x with
              | closed rest => cases h; exact hi
              | more rest => exact ha _ _ _ _ hi h
              | wrong x rest => cases h; exact hi

theorem throw_all (hub : Q .ub) (hfuel : Q .fuel)
    (hstr : ∀ e u x, u <:+ w → readString (F := F) e [] u = .error x → Q x) :
    ∀ n, ValThrow ops w Q n ∧ ObjThrow ops w Q n ∧ ArrThrow ops w Q n
  | 0 => by
    refine ⟨fun _ _ _ _ h => ?_, fun _ _ _ _ _ h => ?_, fun _ _ _ _ _ h => ?_⟩
    · rw [readValue] at h; cases h; exact hfuel
    · rw [readMembers] at h; cases h; exact hfuel
    · rw [readElements] at h; cases h; exact hfuel
  | n + 1 => by
    obtain ⟨hv, ho, ha⟩ := throw_all hub hfuel hstr n
    refine ⟨fun e t x hs h => ?_, fun e ms t x hs h => ?_, fun e js t x hs h => ?_⟩
    · rw [readValue] at h
      cases ht : trim t with
      | nil => rw [ht] at h; cases h
      | cons c u =>
        rw [ht] at h
        simp only at h
        have hcu : c :: u <:+ w := by rw [← ht]; exact (trim_suffix t).trans hs
        have hu : u <:+ w := (List.suffix_cons c u).trans hcu
        split at h
        · exact hstr _ _ _ hu h
        split at h
        · exact ho _ _ _ _ ((trim_suffix u).trans hu) h
        split at h
        · exact ha _ _ _ _ ((trim_suffix u).trans hu) h
        split at h
        · rw [readBoolean] at h
          split at h
          · cases h
          · split at h <;> cases h
        split at h
        · rw [readNull] at h
          split at h <;> cases h
        split at h
        · rw [readNumber] at h
          split at h <;> cases h
        · cases h
    · rw [readMembers] at h
      split at h
      · cases h
      have hts := (trim_suffix t).trans hs
      cases ht : trim t with
      | nil => rw [ht] at h; cases h; exact hub
      | cons c u =>
        rw [ht] at h hts
        have hu : u <:+ w := (List.suffix_cons c u).trans hts
        simp only at h
        split at h
        · cases h
        split at h
        · cases hk : readKey u with
          | error x => rw [hk] at h; cases h; rw [readKey_throws hk]; exact hub
          | ok x =>
            rw [hk] at h
            have hk' := readKey_errors hu hk
            cases x with
            | error x => obtain ⟨x, rest⟩ := x; cases h
            | ok x =>
              obtain ⟨key, rest⟩ := x
              simp only at h
              cases hr : readValue ops w n e rest with
              | error x => rw [hr] at h; cases h; exact hv _ _ _ hk' hr
              | ok q =>
                rw [hr] at h
                simp only at h
                have hq := (restIn_all ops w n).1 e rest q hk' hr
                cases hx : afterItem (chr 0x7D) (trim q.rest) with
                | error x => rw [hx] at h; cases h; rw [afterItem_throws hx]; exact hub
                | ok x =>
                  rw [hx] at h
                  have hi := afterItem_in hq hx
                  cases x with
                  | closed rest => cases h
                  | more rest => exact ho _ _ _ _ hi h
                  | wrong x rest => cases h
        · cases h
    · rw [readElements] at h
      split at h
      · cases h
      have hts := (trim_suffix t).trans hs
      cases ht : trim t with
      | nil => rw [ht] at h; cases h; exact hub
      | cons c u =>
        rw [ht] at h hts
        simp only at h
        split at h
        · cases h
        · cases hr : readValue ops w n e (c :: u) with
          | error x => rw [hr] at h; cases h; exact hv _ _ _ hts hr
          | ok q =>
            rw [hr] at h
            simp only at h
            have hq := (restIn_all ops w n).1 e _ q hts hr
            cases hx : afterItem (chr 0x5D) (trim q.rest) with
            | error x => rw [hx] at h; cases h; rw [afterItem_throws hx]; exact hub
            | ok x =>
              rw [hx] at h
              have hi := afterItem_in hq hx
              cases x with
              | closed rest => cases h
              | more rest => exact ha _ _ _ _ hi h
              | wrong x rest => cases h

theorem document_throws (hub : Q .ub) (hfuel : Q .fuel)
    (hstr : ∀ e u x, u <:+ w → readString (F := F) e [] u = .error x → Q x) {x : Err}
    (h : Spec.JsonText.document ops w = .error x) : Q x := by
  unfold Spec.JsonText.document at h
  split at h
  · cases h
  split at h
  · cases h; exact hub
  split at h
  · cases h
  split at h
  · cases h; exact hub
  split at h
  · cases h
  cases hr : readValue ops w (2 * w.length + 2) .noError w with
  | error y => rw [hr] at h; cases h; exact (throw_all ops w Q hub hfuel hstr _).1 _ _ _ (List.suffix_refl w) hr
  | ok r => rw [hr] at h; cases h

end

end JsonText
end Caitlyn
