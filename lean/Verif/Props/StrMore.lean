import Verif.Model.StrObj
import Verif.Model.StrUtil
import Verif.Spec.Utf8
import Verif.Proofs.Str
import Verif.Proofs.StrOrder
import Verif.Proofs.CodePointOrder
import Verif.Proofs.CharUtil
import Verif.Lit

/-!
# More about `String` and `Char`: copy loops, exceptions, predicates, references, numbers, order (C09, C93–C97)
-/

namespace Caitlyn
open Spec

/-! ## C09: the loops of `operator+` -/

theorem Str.copyLoop_eq (src : Str) (off k i : Nat) (ret : Str) (h1 : i + k ≤ src.length)
    (h2 : off + i + k ≤ ret.length) :
    Str.copyLoop src off k i ret =
      .ok (ret.take (off + i) ++ (src.drop i).take k ++ ret.drop (off + i + k)) := by
  induction k generalizing i ret with
  | zero => simp [Str.copyLoop]
  | succ k ih =>
    have hi : i < src.length := by omega
    simp only [Str.copyLoop, vecGet, List.getElem?_eq_getElem hi, Str.vecSet, bind, Except.bind]
    rw [if_pos (by omega)]
    simp only
    rw [ih (i + 1) _ (by omega) (by simp; omega)]
    congr 1
    rw [show off + (i + 1) = off + i + 1 by omega, List.take_succ_eq_append_getElem (by simp; omega)]
    rw [List.getElem_set_self, List.take_set_of_le (by omega), List.drop_set_of_lt (by omega)]
    rw [List.drop_eq_getElem_cons hi, List.take_succ_cons]
    simp [Nat.add_assoc, Nat.add_comm 1]

/-- C09. The copy loops of `operator+` never leave their vectors and produce the elements of the left operand
followed by those of the right one. -/
theorem C09_plus_loops (a b : Str) : Str.plusLoop a b = .ok (a ++ b) := by
  simp only [Str.plusLoop, bind, Except.bind]
  rw [Str.copyLoop_eq a 0 a.length 0 _ (by omega) (by simp)]
  simp only
  rw [Str.copyLoop_eq b a.length b.length 0 _ (by omega) (by simp)]
  simp

/-! ## C93: exceptions -/

/-- C93. Exactly what `Append(const char*)` leaves behind: if decoding the whole argument succeeds, all of it is
appended; if not, the call ends with the error of the first undecodable position and the characters in front of it
have been appended. -/
theorem C93_append_exact (a : Str) (mem : List UInt8) :
    (∀ t, Str.ofCStr mem = .ok t → Str.appendObj a mem = (a ++ t, .ok ())) ∧
    (∀ e, Str.ofCStr mem = .error e → ∃ t rest, mem = (t.map Chr.data).flatten ++ rest ∧
      (∀ c ∈ t, Shape c.data) ∧ rest.head? ≠ some 0 ∧ Str.decodeUtf8Char rest = .error e ∧
      Str.appendObj a mem = (a ++ t, .error e)) := by
  have key : ∀ n mem a, mem.length < n →
      (∀ t, Str.decodeLoop n mem = .ok t → Str.appendLoop n a mem = (a ++ t, .ok ())) ∧
      (∀ e, Str.decodeLoop n mem = .error e → ∃ t rest, mem = (t.map Chr.data).flatten ++ rest ∧
        (∀ c ∈ t, Shape c.data) ∧ rest.head? ≠ some 0 ∧ Str.decodeUtf8Char rest = .error e ∧
        Str.appendLoop n a mem = (a ++ t, .error e)) := by
    intro n
    induction n with
    | zero => intro mem a h; omega
    | succ n ih =>
      intro mem a hn
      cases mem with
      | nil =>
        simp only [Str.decodeLoop, Str.appendLoop, vecGet, List.getElem?_nil, bind, Except.bind]
        refine ⟨by simp, fun e h => ⟨[], [], by simp, by simp, by simp, ?_, ?_⟩⟩
        · injection h with h; subst h; rfl
        · injection h with h; subst h; simp
      | cons b mem =>
        simp only [Str.decodeLoop, Str.appendLoop, vecGet, List.getElem?_cons_zero, bind, Except.bind]
        by_cases hb : b = 0
        · subst hb
          simp [pure, Except.pure]
        · simp only [beq_iff_eq, hb, if_false]
          cases hd : Str.decodeUtf8Char (b :: mem) with
          | error e =>
            refine ⟨by simp, fun e' h => ⟨[], b :: mem, by simp, by simp, by simpa using hb, ?_, ?_⟩⟩
            · injection h with h; subst h; exact hd
            · injection h with h; subst h; simp
          | ok c =>
            obtain ⟨hs, rest, hr⟩ := Str.decodeUtf8Char_ok hd
            have hc : Shape c.data := by
              rcases hs with hs | hs
              · exact hs
              · rw [hs] at hr; simp at hr; exact absurd hr.1 hb
            have hl := Shape.length_pos hc
            have hlen : rest.length < n := by
              have := congrArg List.length hr
              simp only [List.length_cons, List.length_append] at this hn
              omega
            simp only
            rw [hr, List.drop_left]
            obtain ⟨i1, i2⟩ := ih rest (a ++ [c]) hlen
            constructor
            · intro t ht
              cases hd2 : Str.decodeLoop n rest with
              | error e => rw [hd2] at ht; simp at ht
              | ok t' =>
                rw [hd2] at ht
                simp only [pure, Except.pure, Except.ok.injEq] at ht
                subst ht
                rw [i1 t' hd2]; simp
            · intro e he
              cases hd2 : Str.decodeLoop n rest with
              | ok t' => rw [hd2] at he; simp [pure, Except.pure] at he
              | error e' =>
                rw [hd2] at he
                simp only [Except.error.injEq] at he
                subst he
                obtain ⟨t, r, h1, h2, h3, h4, h5⟩ := i2 e' hd2
                refine ⟨c :: t, r, ?_, ?_, h3, h4, ?_⟩
                · rw [h1]; simp
                · intro x hx
                  rcases List.mem_cons.mp hx with rfl | hx
                  · exact hc
                  · exact h2 x hx
                · rw [h5]; simp
  exact key (mem.length + 1) mem a (Nat.lt_succ_self _)

/-- C93. `Append(count, const char*)`: `count` copies if the pattern is one character; if not, and `count > 0`, the
call throws `invalid_argument` and the string is as before. -/
theorem C93_append_pattern (a : Str) (n : Nat) (pattern : List UInt8) (h0 : (0 : UInt8) ∉ pattern) :
    (Shape pattern → Str.appendCountObj n a pattern = (a ++ List.replicate n ⟨pattern⟩, .ok ())) ∧
    (¬ Shape pattern → 0 < n → Str.appendCountObj n a pattern = (a, .error .invalidArgument)) ∧
    Str.appendCountObj 0 a pattern = (a, .ok ()) ∧
    (Str.appendCountObj n a pattern = match Str.appendCountCStr a n pattern with
      | .ok r => (r, .ok ())
      | .error e => (a, .error e)) := by
  have hv : Chr.isValidUtf8Char pattern = true ↔ Shape pattern := by
    rw [Chr.isValid_iff]
    constructor
    · rintro (h | h)
      · exact h
      · subst h; simp at h0
    · exact .inl
  have good : ∀ n a, Shape pattern →
      Str.appendCountObj n a pattern = (a ++ List.replicate n ⟨pattern⟩, .ok ()) := by
    intro n
    induction n with
    | zero => intro a _; simp [Str.appendCountObj]
    | succ n ih =>
      intro a h
      simp only [Str.appendCountObj, Chr.ofBytes, hv.mpr h, if_true]
      rw [ih _ h]
      simp [List.replicate_succ]
  have bad : ∀ n, ¬ Shape pattern → 0 < n → Str.appendCountObj n a pattern = (a, .error .invalidArgument) := by
    intro n h hn
    obtain ⟨n, rfl⟩ : ∃ m, n = m + 1 := ⟨n - 1, by omega⟩
    have : Chr.isValidUtf8Char pattern = false := by
      rw [← Bool.not_eq_true]; exact fun hh => h (hv.mp hh)
    simp [Str.appendCountObj, Chr.ofBytes, this]
  refine ⟨good n a, bad n, rfl, ?_⟩
  by_cases hn : n = 0
  · subst hn; rfl
  by_cases h : Shape pattern
  · rw [good n a h]
    simp [Str.appendCountCStr, hn, Chr.ofBytes, hv.mpr h, bind, Except.bind, pure, Except.pure]
  · rw [bad n h (by omega)]
    have : Chr.isValidUtf8Char pattern = false := by
      rw [← Bool.not_eq_true]; exact fun hh => h (hv.mp hh)
    simp [Str.appendCountCStr, hn, Chr.ofBytes, this, bind, Except.bind]

/-- C93, partial: an `Append(const char*)` that throws leaves the string as it was if the first character of the
argument is the malformed one. Missing: malformed input later on. -/
theorem C93_unchanged_partial (a : Str) (mem : List UInt8) (e : Err) (h : Str.ofCStr mem = .error e)
    (hm : Str.decodeUtf8Char mem = .error e) : (Str.appendObj a mem).1 = a := by
  obtain ⟨t, rest, h1, h2, h3, h4, h5⟩ := (C93_append_exact a mem).2 e h
  cases t with
  | nil => rw [h5]; simp
  | cons c t =>
    have := Str.decodeUtf8Char_shape (h2 c (by simp)) ((t.map Chr.data).flatten ++ rest)
    rw [h1] at hm
    simp only [List.map_cons, List.flatten_cons, List.append_assoc] at hm
    rw [this] at hm
    cases hm

/-- C93 fails: `Append("ab\xFF")` throws and leaves "ab" appended. -/
theorem C93_fails (a : Str) :
    Str.appendObj a (b!"ab" ++ [0xFF, 0]) = (a ++ c!"ab", .error .runtimeError) := by
  have e : Str.appendObj [] (b!"ab" ++ [0xFF, 0]) = (c!"ab", .error .runtimeError) := by decide
  have gen : ∀ n (a : Str) mem, Str.appendLoop n a mem =
      (a ++ (Str.appendLoop n [] mem).1, (Str.appendLoop n [] mem).2) := by
    intro n
    induction n with
    | zero => intro a mem; simp [Str.appendLoop]
    | succ n ih =>
      intro a mem
      simp only [Str.appendLoop]
      split
      · simp
      · split
        · simp
        · split
          · simp
          · rename_i c _
            rw [ih (a ++ [c]), ih ([] ++ [c])]
            simp
  unfold Str.appendObj at e ⊢
  rw [gen, e]

/-! ## C94: `FindIf` and `FindIfNot` -/

/-- C94. `FindIf(p, pos)` with `pos <= size()` returns the least index from `pos` on whose character satisfies `p`, and
NPosition if there is none. -/
theorem C94_find_if (s : Str) (p : Chr → Bool) (pos : Nat) (h : pos ≤ Str.size s) :
    (∃ i, Str.findIf s p pos = .ok i ∧ pos ≤ i ∧ (∃ c, s[i]? = some c ∧ p c = true) ∧
      ∀ j c, pos ≤ j → j < i → s[j]? = some c → p c = false) ∨
    (Str.findIf s p pos = .ok npos ∧ ∀ j c, pos ≤ j → s[j]? = some c → p c = false) := by
  simp only [Str.size] at h
  have hd := List.takeWhile_append_dropWhile (p := fun c => !p c) (l := s.drop pos)
  have hw : ∀ x ∈ (s.drop pos).takeWhile (fun c => !p c), p x = false := by
    have := List.all_takeWhile (p := fun c => !p c) (l := s.drop pos)
    intro x hx
    simpa using List.all_eq_true.mp this x hx
  have hh : ∀ c t, (s.drop pos).dropWhile (fun c => !p c) = c :: t → p c = true := by
    intro c t e
    have := List.head_dropWhile_not (p := fun c => !p c) (l := s.drop pos) (by simp [e])
    simpa [e] using this
  unfold Str.findIf
  rw [if_neg (by omega)]
  revert hd hw hh
  generalize (s.drop pos).takeWhile (fun c => !p c) = w
  generalize (s.drop pos).dropWhile (fun c => !p c) = d
  intro hd hw hh
  have hlen : pos + w.length + d.length = s.length := by
    have := congrArg List.length hd
    simp only [List.length_append, List.length_drop] at this
    omega
  have before : ∀ j c, pos ≤ j → j < pos + w.length → s[j]? = some c → p c = false := by
    intro j c h1 h2 h3
    have e : s[j]? = (s.drop pos)[j - pos]? := by rw [List.getElem?_drop, show pos + (j - pos) = j by omega]
    rw [e, ← hd, List.getElem?_append_left (by omega)] at h3
    exact hw c (List.mem_of_getElem? h3)
  cases d with
  | nil =>
    right
    simp only [List.length_nil, Nat.add_zero] at hlen
    simp only [hlen, ne_eq, not_true_eq_false, if_false, true_and]
    intro j c h1 h2
    refine before j c h1 ?_ h2
    rw [hlen]
    exact (List.getElem?_eq_some_iff.mp h2).1
  | cons c t =>
    left
    simp only [List.length_cons] at hlen
    refine ⟨pos + w.length, by simp only; rw [if_pos (by omega)], by omega, ⟨c, ?_, hh c t rfl⟩, before⟩
    rw [← List.getElem?_drop, ← hd]
    simp

/-- C94. `FindIfNot(p, pos)` is `FindIf` of the negated predicate; a start position behind the end is undefined
behaviour for both. -/
theorem C94_find_if_not (s : Str) (p : Chr → Bool) (pos : Nat) :
    Str.findIfNot s p pos = Str.findIf s (fun c => !p c) pos ∧
    (Str.size s < pos → Str.findIf s p pos = .error .ub ∧ Str.findIfNot s p pos = .error .ub) := by
  refine ⟨rfl, fun h => ?_⟩
  simp only [Str.size] at h
  simp [Str.findIfNot, Str.findIf, h]

example : Str.findIf c!"ab1c2" (fun c => c == ⟨b!"1"⟩ || c == ⟨b!"2"⟩) 0 = .ok 2 ∧
    Str.findIf c!"ab1c2" (fun c => c == ⟨b!"1"⟩ || c == ⟨b!"2"⟩) 3 = .ok 4 ∧
    Str.findIfNot c!"aab" (fun c => c == ⟨b!"a"⟩) 0 = .ok 2 ∧
    Str.findIf c!"ab" (fun c => c == ⟨b!"1"⟩) 0 = .ok npos := by decide

/-! ## C95: repeated characters -/

/-- C95. The constructors from a count: `count` copies of an ASCII byte or of a character; a byte that is no character
by itself throws `invalid_argument` (unless `count` is 0). -/
theorem C95_constructors (n : Nat) (b : UInt8) (c : Chr) :
    (b < 0x80 → Str.ofCountByte n b = .ok (List.replicate n ⟨[b]⟩)) ∧
    (¬ b < 0x80 → 0 < n → Str.ofCountByte n b = .error .invalidArgument) ∧
    Str.ofCountByte 0 b = .ok [] ∧
    Str.ofCountChr n c = List.replicate n c ∧ (∀ s : List Chr, Str.ofChars s = s) := by
  have hv : Chr.isValidUtf8Char [b] = decide (b < 0x80) := by
    revert b
    apply Caitlyn.forall_u8
    decide +kernel
  refine ⟨fun h => ?_, fun h hn => ?_, rfl, rfl, fun _ => rfl⟩
  · by_cases hn : n = 0
    · subst hn; rfl
    · simp [Str.ofCountByte, hn, Chr.ofBytes, hv, h, bind, Except.bind, pure, Except.pure]
  · simp [Str.ofCountByte, Nat.pos_iff_ne_zero.mp hn, Chr.ofBytes, hv, h, bind, Except.bind]

/-- C95. `Append(n, ch)` with a character that is not part of the string appends `n` copies, whatever the capacity and
the growth strategy. -/
theorem C95_append_value (grow : Nat → Nat) (n : Nat) (v : Str.Vec) (c : Chr) :
    let r := Str.Vec.append grow n v (.value c)
    r.1.elems = v.elems ++ List.replicate n c ∧ r.2 = .ok () ∧ r.1.elems = Str.appendCount v.elems n c := by
  have : ∀ v : Str.Vec, (Str.Vec.append grow n v (.value c)).1.elems = v.elems ++ List.replicate n c ∧
      (Str.Vec.append grow n v (.value c)).2 = .ok () := by
    induction n with
    | zero => intro v; simp [Str.Vec.append]
    | succ n ih =>
      intro v
      simp only [Str.Vec.append, Str.Ref.get]
      obtain ⟨h1, h2⟩ := ih (v.emplaceBack grow c)
      refine ⟨?_, h2⟩
      rw [h1]
      simp only [Str.Vec.emplaceBack]
      split <;> simp [List.replicate_succ]
  exact ⟨(this v).1, (this v).2, (this v).1⟩

/-- C95. `Append(n, s[i])` on `s` itself, exactly: it appends `n` copies if the storage is not replaced before the last
iteration, that is if `size() + n <= capacity() + 1`; otherwise it reads freed storage. -/
theorem C95_append_own_exact (grow : Nat → Nat) (n : Nat) (v : Str.Vec) (i : Nat) (hi : i < v.elems.length)
    (hc : v.elems.length ≤ v.cap) :
    let r := Str.Vec.append grow n v (.elem v.gen i)
    (v.elems.length + n ≤ v.cap + 1 → r.1.elems = v.elems ++ List.replicate n v.elems[i] ∧ r.2 = .ok ()) ∧
    (v.cap + 1 < v.elems.length + n → r.2 = .error .ub) := by
  induction n generalizing v with
  | zero => simp [Str.Vec.append]; omega
  | succ n ih =>
    simp only [Str.Vec.append, Str.Ref.get, if_true, vecGet, List.getElem?_eq_getElem hi]
    by_cases hcap : v.elems.length < v.cap
    · simp only [Str.Vec.emplaceBack, hcap, if_true]
      have := ih { v with elems := v.elems ++ [v.elems[i]] } (by simp; omega) (by simp; omega)
      simp only [List.length_append, List.length_singleton] at this
      obtain ⟨h1, h2⟩ := this
      refine ⟨fun h => ?_, fun h => h2 (by omega)⟩
      obtain ⟨h3, h4⟩ := h1 (by omega)
      refine ⟨?_, h4⟩
      rw [h3, List.getElem_append_left hi]
      simp [List.replicate_succ]
    · simp only [Str.Vec.emplaceBack, hcap, if_false]
      cases n with
      | zero => simp [Str.Vec.append]; omega
      | succ n =>
        simp only [Str.Vec.append, Str.Ref.get]
        rw [if_neg (by omega)]
        simp; omega

/-- C95 fails: appending its own first character twice to a string with full storage, as every copy of a string has,
is undefined behaviour, for every string and every growth strategy. -/
theorem C95_fails (grow : Nat → Nat) (s : Str) (hs : s ≠ []) (g : Nat) :
    (Str.Vec.append grow 2 ⟨s, s.length, g⟩ (.elem g 0)).2 = .error .ub :=
  (C95_append_own_exact grow 2 ⟨s, s.length, g⟩ 0 (List.length_pos_iff.mpr hs) (Nat.le_refl _)).2
    (by simp)

example : (Str.Vec.append (· * 2) 3 ⟨c!"ab", 4, 0⟩ (.elem 0 1)).1.elems = c!"abbbb" := by decide

/-! ## C96: `IsNumber` -/

/-- C96. On strings of characters with a code point, `IsNumber` is true exactly for the non-empty ones all of whose
characters are digits. -/
theorem C96_is_number (s : Str) (h : ∀ c ∈ s, ∃ cp, c.getCodePoint = .ok cp) :
    ∃ r, StrUtil.isNumber s = .ok r ∧
      (r = true ↔ s ≠ [] ∧ ∀ c ∈ s, ∃ cp, c.getCodePoint = .ok cp ∧ CharUtil.isDigit cp = true) := by
  have key : ∀ s : Str, (∀ c ∈ s, ∃ cp, c.getCodePoint = .ok cp) → ∃ r, StrUtil.isNumber.go s = .ok r ∧
      (r = true ↔ ∀ c ∈ s, ∃ cp, c.getCodePoint = .ok cp ∧ CharUtil.isDigit cp = true) := by
    intro s
    induction s with
    | nil => intro _; exact ⟨true, rfl, by simp⟩
    | cons c s ih =>
      intro h
      obtain ⟨cp, hcp⟩ := h c (by simp)
      simp only [StrUtil.isNumber.go, hcp, bind, Except.bind]
      by_cases hd : CharUtil.isDigit cp = true
      · rw [if_pos hd]
        obtain ⟨r, h1, h2⟩ := ih (fun x hx => h x (by simp [hx]))
        refine ⟨r, h1, h2.trans ⟨fun g x hx => ?_, fun g x hx => g x (by simp [hx])⟩⟩
        rcases List.mem_cons.mp hx with rfl | hx
        · exact ⟨cp, hcp, hd⟩
        · exact g x hx
      · rw [if_neg hd]
        refine ⟨false, rfl, ?_⟩
        simp only [Bool.false_eq_true, false_iff]
        intro g
        obtain ⟨cp', h1, h2⟩ := g c (by simp)
        rw [hcp] at h1; cases h1; exact hd h2
  unfold StrUtil.isNumber
  by_cases hs : s = []
  · exact ⟨false, by simp [hs], by simp [hs]⟩
  · rw [if_neg hs]
    obtain ⟨r, h1, h2⟩ := key s h
    exact ⟨r, h1, h2.trans ⟨fun g => ⟨hs, g⟩, fun g => g.2⟩⟩

/-- C96. In particular for ASCII text: `IsNumber` accepts exactly non-empty sequences of `0`..`9`. -/
theorem C96_ascii (bs : List UInt8) (h : ∀ b ∈ bs, b < 0x80) :
    StrUtil.isNumber (bs.map Chr.ofByte) =
      .ok (decide (bs ≠ [] ∧ ∀ b ∈ bs, 0x30 ≤ b ∧ b ≤ 0x39)) := by
  have hcp : ∀ b : UInt8, b < 0x80 → (Chr.ofByte b).getCodePoint = .ok b.toNat ∧
      (CharUtil.isDigit b.toNat = true ↔ 0x30 ≤ b ∧ b ≤ 0x39) := by
    apply Caitlyn.forall_u8
    decide +kernel
  obtain ⟨r, h1, h2⟩ := C96_is_number (bs.map Chr.ofByte) (by
    intro c hc
    obtain ⟨b, hb, rfl⟩ := List.mem_map.mp hc
    exact ⟨_, (hcp b (h b hb)).1⟩)
  rw [h1]
  congr 1
  rw [Bool.eq_iff_iff, h2, decide_eq_true_iff]
  simp only [ne_eq, List.map_eq_nil_iff]
  refine and_congr Iff.rfl ⟨fun g b hb => ?_, fun g c hc => ?_⟩
  · obtain ⟨cp, e1, e2⟩ := g (Chr.ofByte b) (List.mem_map_of_mem hb)
    rw [(hcp b (h b hb)).1] at e1
    cases e1
    exact (hcp b (h b hb)).2.mp e2
  · obtain ⟨b, hb, rfl⟩ := List.mem_map.mp hc
    exact ⟨_, (hcp b (h b hb)).1, (hcp b (h b hb)).2.mpr (g b hb)⟩

/-- C96 fails for bytes that are not ASCII: a character made from the byte 0xF0 alone is read past its end. -/
theorem C96_fails : StrUtil.isNumber [Chr.ofByte 0xF0] = .error .ub := by decide

example : StrUtil.isNumber c!"0123" = .ok true ∧ StrUtil.isNumber c!"12a" = .ok false ∧
    StrUtil.isNumber c!"٣" = .ok true := by decide +kernel

/-! ## C97: order of characters -/

/-- C97. The six comparison operators of `Char` come from one total order: `<` is irreflexive, transitive and total, the
others are its converse and their negations, and `==` holds exactly for characters not ordered either way. -/
theorem C97_order (a b c : Chr) :
    Chr.lt a a = false ∧
    (Chr.lt a b = true → Chr.lt b c = true → Chr.lt a c = true) ∧
    (Chr.lt a b = true ∨ a = b ∨ Chr.lt b a = true) ∧
    (a = b ↔ Chr.lt a b = false ∧ Chr.lt b a = false) ∧
    Chr.gt a b = Chr.lt b a ∧
    (Chr.le a b = true ↔ Chr.lt a b = true ∨ a = b) ∧
    (Chr.ge a b = true ↔ Chr.gt a b = true ∨ a = b) := by
  have tot : ∀ a b : Chr, Chr.lt a b = true ∨ a = b ∨ Chr.lt b a = true := by
    intro a b
    by_cases h : a = b
    · exact .inr (.inl h)
    · have : a.data ≠ b.data := fun e => h (by cases a; cases b; simp_all)
      rcases Chr.bytesLt_total a.data b.data this with h1 | h1
      · exact .inl h1
      · exact .inr (.inr h1)
  have irr : ∀ a : Chr, Chr.lt a a = false := fun a => Chr.bytesLt_irrefl a.data
  have asy : ∀ a b : Chr, Chr.lt a b = true → Chr.lt b a = false := fun a b => Chr.bytesLt_asymm a.data b.data
  have le : ∀ a b : Chr, Chr.le a b = true ↔ Chr.lt a b = true ∨ a = b := by
    intro a b
    have : Chr.le a b = !Chr.lt b a := rfl
    rw [this]
    constructor
    · intro h
      rcases tot a b with h1 | h1 | h1
      · exact .inl h1
      · exact .inr h1
      · simp [h1] at h
    · rintro (h | rfl)
      · simp [asy a b h]
      · simp [irr]
  refine ⟨irr a, ?_, tot a b, ⟨?_, ?_⟩, rfl, le a b, ?_⟩
  · simp only [Chr.lt, Chr.bytesLt_iff]
    exact List.lt_trans
  · rintro rfl; exact ⟨irr a, irr a⟩
  · rintro ⟨h1, h2⟩
    rcases tot a b with h | h | h
    · rw [h1] at h; cases h
    · exact h
    · rw [h2] at h; cases h
  · have := le b a
    have e : Chr.ge a b = Chr.le b a := rfl
    have e2 : Chr.gt a b = Chr.lt b a := rfl
    rw [e, e2, this]
    exact or_congr Iff.rfl eq_comm

/-- C97. On the characters made from code points the order is the order of the code points. -/
theorem C97_code_points (a b : Nat) (ha : a < 0x110000) (hb : b < 0x110000) :
    (Chr.lt (Chr.ofCodePoint a) (Chr.ofCodePoint b) = true ↔ a < b) ∧
    (Chr.le (Chr.ofCodePoint a) (Chr.ofCodePoint b) = true ↔ a ≤ b) ∧
    (Chr.gt (Chr.ofCodePoint a) (Chr.ofCodePoint b) = true ↔ b < a) ∧
    (Chr.ge (Chr.ofCodePoint a) (Chr.ofCodePoint b) = true ↔ b ≤ a) := by
  have up : ∀ a b, a < 0x110000 → b < 0x110000 → a < b →
      Chr.lt (Chr.ofCodePoint a) (Chr.ofCodePoint b) = true := by
    intro a b _ hb h
    by_cases h0 : a = 0
    · subst h0
      have : Chr.fromCodePoint b ≠ [] := by
        have hb0 : b ≠ 0 := by omega
        simp only [Chr.fromCodePoint, hb0, if_false]
        split
        · simp
        split
        · simp
        split <;> simp
      simp only [Chr.lt, Chr.ofCodePoint]
      cases hc : Chr.fromCodePoint b with
      | nil => exact absurd hc this
      | cons x t => simp [Chr.fromCodePoint, Chr.bytesLt]
    · exact Chr.bytesLt_encode a b (by omega) h0 h
  have lt : ∀ a b, a < 0x110000 → b < 0x110000 →
      (Chr.lt (Chr.ofCodePoint a) (Chr.ofCodePoint b) = true ↔ a < b) := by
    intro a b ha hb
    refine ⟨fun h => ?_, up a b ha hb⟩
    rcases Nat.lt_trichotomy a b with g | g | g
    · exact g
    · subst g
      rw [(C97_order (Chr.ofCodePoint a) (Chr.ofCodePoint a) (Chr.ofCodePoint a)).1] at h; cases h
    · have := Chr.bytesLt_asymm _ _ (up b a hb ha g)
      simp only [Chr.lt] at h
      rw [this] at h; cases h
  refine ⟨lt a b ha hb, ?_, lt b a hb ha, ?_⟩
  · have : Chr.le (Chr.ofCodePoint a) (Chr.ofCodePoint b) = !Chr.lt (Chr.ofCodePoint b) (Chr.ofCodePoint a) := rfl
    rw [this, Bool.not_eq_true', ← Bool.not_eq_true, lt b a hb ha]; omega
  · have : Chr.ge (Chr.ofCodePoint a) (Chr.ofCodePoint b) = !Chr.lt (Chr.ofCodePoint a) (Chr.ofCodePoint b) := rfl
    rw [this, Bool.not_eq_true', ← Bool.not_eq_true, lt a b ha hb]; omega

example : Chr.lt (Chr.ofCodePoint 0x7A) (Chr.ofCodePoint 0xE4) = true ∧
    Chr.ge (Chr.ofCodePoint 0x1F600) (Chr.ofCodePoint 0xFFFF) = true := by decide

end Caitlyn
