import Verif.Lit
import Verif.Proofs.Search
import Verif.Proofs.Str

/-!
# Properties C09-C15: operations of `String`
-/

namespace Caitlyn
open Spec

/-! ## C09 -/

/-- C09. `a + b` consists of the elements of `a` followed by those of `b`; size, byte count and
`str()` add up. -/
theorem C09_concat (a b : Str) :
    Str.plus a b = a ++ b ∧ Str.size (Str.plus a b) = Str.size a + Str.size b ∧
    Str.byteCount (Str.plus a b) = Str.byteCount a + Str.byteCount b ∧
    Str.str (Str.plus a b) = Str.str a ++ Str.str b := by
  simp [Str.plus, Str.size, Str.byteCount, Str.str, List.flatMap_append]

/-- C09. Partial: `a += b` agrees with `a + b` when `b` is another object. Missing: `a += a`
(`C09_self_fails`). -/
theorem C09_plus_assign_partial (a b : Str) :
    Str.plusAssign a (.other b) = .ok (Str.plus a b) ∧
    Str.str (a ++ b) = Str.str a ++ Str.str b ∧ Str.size (Str.plus a b) = Str.size a + Str.size b :=
  ⟨rfl, (C09_concat a b).2.2.2, (C09_concat a b).2.1⟩

/-- C09 fails for `a += a`, where `a + a` is fine: `vector::insert` may not be given a range of its own
elements, so the behaviour is undefined, for every string. -/
theorem C09_self_fails (a : Str) : Str.plusAssign a .self = .error .ub ∧ Str.plus a a = a ++ a := ⟨rfl, rfl⟩

/-- C09. `Append` of a C string appends exactly what constructing a `String` from it gives, so
`str()` is extended by exactly the bytes before the terminator. -/
theorem C09_append_cstr (a r : Str) (mem : List UInt8) (h : Str.appendCStr a mem = .ok r) :
    ∃ bytes rest, mem = bytes ++ 0 :: rest ∧ (0 : UInt8) ∉ bytes ∧
      Str.str r = Str.str a ++ bytes := by
  unfold Str.appendCStr at h
  cases ht : Str.ofCStr mem with
  | error e => rw [ht] at h; simp [bind, Except.bind] at h
  | ok t =>
    rw [ht] at h
    simp only [bind, Except.bind, pure, Except.pure, Except.ok.injEq] at h
    obtain ⟨h1, rest, h2⟩ := Str.decodeLoop_ok _ _ _ ht
    refine ⟨(t.map Chr.data).flatten, rest, h2, ?_, ?_⟩
    · intro h0
      obtain ⟨p, hp, h0⟩ := List.mem_flatten.mp h0
      obtain ⟨c, hc, rfl⟩ := List.mem_map.mp hp
      exact Shape.no_zero (h1 c hc) h0
    · rw [← h, ← Str.str_shapes t h1]; simp [Str.str, List.flatMap_append]

example : Str.appendCStr c!"ab" (b!"cé" ++ [0]) = .ok c!"abcé" := by decide

/-- C09. `Append(count, c)`, `PushBack`: copies of `c` at the end. -/
theorem C09_append_count (a : Str) (n : Nat) (c : Chr) :
    Str.appendCount a n c = a ++ List.replicate n c ∧ Str.size (Str.appendCount a n c) = Str.size a + n ∧
    Str.pushBack a c = Str.appendCount a 1 c := by
  simp [Str.appendCount, Str.size, Str.pushBack]

/-! ## C10 -/

/-- C10. `Substring(pos, count)` throws `out_of_range` iff `pos > size()`; otherwise it returns the
elements from `pos`, at most `count` of them. It has no other outcome, whatever
`pos` and `count` (in particular when `pos + count` exceeds `size_t`). -/
theorem C10_substring (s : Str) (pos count : Nat) :
    (Str.size s < pos → Str.substring s pos count = .error .outOfRange) ∧
    (pos ≤ Str.size s → Str.substring s pos count = .ok ((s.drop pos).take count)) := by
  constructor
  · intro h; simp only [Str.substring, Str.size] at *; rw [if_pos h]
  · intro h
    simp only [Str.substring, Str.size] at *
    rw [if_neg (by omega)]
    congr 1
    rcases Nat.le_total count (s.length - pos) with h1 | h1
    · rw [Nat.min_eq_left h1]
    · rw [Nat.min_eq_right h1, List.take_of_length_le (by simp), List.take_of_length_le (by simp; omega)]

/-- C10. A substring together with what is before and after it is the whole string. -/
theorem C10_substring_partition (s : Str) (pos count : Nat) (h : pos ≤ Str.size s) :
    ∃ m, Str.substring s pos count = .ok m ∧ m.length = min count (Str.size s - pos) ∧
      s = s.take pos ++ m ++ s.drop (pos + m.length) := by
  refine ⟨_, (C10_substring s pos count).2 h, by simp [Str.size], ?_⟩
  rw [List.append_assoc]
  conv => lhs; rw [← List.take_append_drop pos s]
  congr 1
  simp only [Str.size] at h
  rw [List.length_take, List.length_drop, ← List.drop_drop]
  rcases Nat.le_total count (s.length - pos) with h1 | h1
  · rw [Nat.min_eq_left h1, List.take_append_drop]
  · rw [Nat.min_eq_right h1, List.take_of_length_le (by simp; omega)]
    rw [List.drop_of_length_le (l := List.drop pos s) (by simp)]; simp

example : Str.substring c!"héllo" 1 npos = .ok c!"éllo" ∧
    Str.substring c!"héllo" 6 0 = .error .outOfRange := by decide

/-! ## C11 -/

/-- C11. For a non-empty needle and `pos <= size()`, `Find` returns the least index `>= pos` at which
the needle occurs; it returns `NPosition` iff the needle occurs at no index `>= pos`. -/
theorem C11_find_first (s sub : Str) (pos : Nat) (hn : sub ≠ []) (hp : pos ≤ Str.size s) :
    (∃ i, Str.find s sub pos = .ok i ∧ pos ≤ i ∧ OccursAt sub s i ∧
        ∀ j, pos ≤ j → OccursAt sub s j → i ≤ j) ∨
    (Str.find s sub pos = .ok npos ∧ ∀ j, pos ≤ j → ¬ OccursAt sub s j) := by
  simp only [Str.size] at hp
  have hd : ∀ j, OccursAt sub (s.drop pos) j ↔ OccursAt sub s (pos + j) :=
    fun j => Str.occursAt_drop sub s pos j hp
  unfold Str.find
  rw [if_neg (by omega)]
  by_cases ho : Occurs sub (s.drop pos)
  · left
    obtain ⟨h1, h2⟩ := Str.search_occ _ _ ho
    have h3 := Str.search_lt _ _ hn ho
    rw [List.length_drop] at h3
    refine ⟨pos + Str.search (s.drop pos) sub, ?_, by omega, (hd _).mp h1, ?_⟩
    · simp only; rw [if_pos (by omega)]
    · intro j hj hoj
      have := h2 (j - pos) ((hd _).mpr (by rwa [Nat.add_sub_cancel' hj]))
      omega
  · right
    constructor
    · simp only [Str.search_none _ _ ho, List.length_drop]
      rw [if_neg (by omega)]
    · intro j hj hoj
      exact ho ⟨j - pos, (hd _).mpr (by rwa [Nat.add_sub_cancel' hj])⟩

/-- C11, the remaining inputs: `pos > size()` is undefined; the empty needle is found at `pos`,
except at the end of the string where the result is `NPosition`. -/
theorem C11_find_other (s sub : Str) (pos : Nat) :
    (Str.size s < pos → Str.find s sub pos = .error .ub) ∧
    (pos < Str.size s → Str.find s [] pos = .ok pos) ∧
    (pos = Str.size s → Str.find s [] pos = .ok npos) := by
  have e : ∀ t : Str, Str.search t [] = 0 := by intro t; rw [Str.search.eq_def]; simp
  simp only [Str.find, Str.size, e]
  refine ⟨fun h => by rw [if_pos h], fun h => ?_, fun h => ?_⟩
  · rw [if_neg (by omega)]; simp; omega
  · rw [if_neg (by omega)]; simp; omega

example : c!"ana" ≠ [] ∧ (1 : Nat) ≤ Str.size c!"banana" ∧ Str.find c!"banana" c!"ana" 0 = .ok 1 ∧
    Str.find c!"banana" c!"ana" 2 = .ok 3 ∧ Str.find c!"banana" c!"ana" 4 = .ok npos := by decide

/-! ## C12 -/

/-- C12, what `ReverseFind` computes for a non-empty needle: the index of the *last element* of the
last occurrence that ends no later than `pos`, and `NPosition` iff there is no such
occurrence. `hs`: no string has 2^63 or more elements. -/
theorem C12_reverse_find_exact (s sub : Str) (pos : Nat) (hn : sub ≠ []) (hs : Str.size s < 2 ^ 63) :
    (∃ i, OccursAt sub s i ∧ i + sub.length ≤ pos + 1 ∧
        (∀ j, OccursAt sub s j → j + sub.length ≤ pos + 1 → j ≤ i) ∧
        Str.reverseFind s sub pos = .ok (i + sub.length - 1)) ∨
    ((∀ j, OccursAt sub s j → ¬ j + sub.length ≤ pos + 1) ∧
        Str.reverseFind s sub pos = .ok npos) := by
  simp only [Str.size] at hs
  have hl : 0 < sub.length := List.length_pos_iff.mpr hn
  unfold Str.reverseFind
  by_cases hlen : sub.length > s.length
  · right
    rw [if_pos hlen]
    refine ⟨fun j hj => ?_, rfl⟩
    have := Str.occursAt_le hj
    omega
  rw [if_neg hlen]
  have hw : wsub s.length 1 = s.length - 1 := by simp only [wsub, twoPow64]; omega
  -- the effective position and offset
  obtain ⟨p, hp⟩ : ∃ p, (if pos ≥ s.length then wsub s.length 1 else pos) = p := ⟨_, rfl⟩
  have hp' : p = min pos (s.length - 1) := by rw [← hp, hw]; split <;> omega
  simp only [hp]
  have hoff : wsub (wsub s.length p) 1 = s.length - 1 - p := by simp only [wsub, twoPow64]; omega
  simp only [hoff]
  rw [if_neg (by omega)]
  have hocc : ∀ j, OccursAt sub.reverse (s.reverse.drop (s.length - 1 - p)) j ↔
      ∃ i, OccursAt sub s i ∧ i + sub.length + (s.length - 1 - p + j) = s.length := by
    intro j
    rw [Str.occursAt_drop _ _ _ _ (by simp; omega), Str.occursAt_reverse]
  have hrn : sub.reverse ≠ [] := by simpa using hn
  by_cases ho : Occurs sub.reverse (s.reverse.drop (s.length - 1 - p))
  · left
    obtain ⟨h1, h2⟩ := Str.search_occ _ _ ho
    have h3 := Str.search_lt _ _ hrn ho
    rw [List.length_drop, List.length_reverse] at h3
    obtain ⟨i, hi, he⟩ := (hocc _).mp h1
    refine ⟨i, hi, by omega, ?_, ?_⟩
    · intro j hj hjp
      have hjl := Str.occursAt_le hj
      have := h2 (s.length - (j + sub.length) - (s.length - 1 - p))
        ((hocc _).mpr ⟨j, hj, by omega⟩)
      omega
    · rw [if_pos (by omega)]
      refine congrArg Except.ok ?_
      simp only [wsub, twoPow64]
      omega
  · right
    constructor
    · intro j hj hjp
      have hjl := Str.occursAt_le hj
      exact ho ⟨s.length - (j + sub.length) - (s.length - 1 - p), (hocc _).mpr ⟨j, hj, by omega⟩⟩
    · rw [Str.search_none _ _ ho, List.length_drop, List.length_reverse, if_neg (by omega)]

/-- C12. Partial: `ReverseFind` returns the start of the last occurrence for needles of one
character. Missing: longer needles, for which the returned index is
`needle.size() - 1` too large (`C12_fails`). -/
theorem C12_reverse_find_single_partial (s : Str) (c : Chr) (pos : Nat) (hs : Str.size s < 2 ^ 63) :
    (∃ i, Str.reverseFind s [c] pos = .ok i ∧ OccursAt [c] s i ∧ i ≤ pos ∧
        ∀ j, OccursAt [c] s j → j ≤ pos → j ≤ i) ∨
    (Str.reverseFind s [c] pos = .ok npos ∧ ∀ j, OccursAt [c] s j → ¬ j ≤ pos) := by
  rcases C12_reverse_find_exact s [c] pos (by simp) hs with ⟨i, h1, h2, h3, h4⟩ | ⟨h1, h2⟩
  · left
    simp only [List.length_singleton, Nat.add_le_add_iff_right, Nat.add_sub_cancel] at *
    exact ⟨i, h4, h1, h2, h3⟩
  · right
    simp only [List.length_singleton, Nat.add_le_add_iff_right] at *
    exact ⟨h2, h1⟩

/-- C12 is false as stated: the only occurrence of "na" ending by the end of "ana" starts at 1, but
`ReverseFind` returns 2. -/
theorem C12_fails : OccursAt c!"na" c!"ana" 1 ∧ Str.reverseFind c!"ana" c!"na" npos = .ok 2 :=
  ⟨⟨c!"a", [], rfl, rfl⟩, by decide +kernel⟩

example : Str.size c!"a/b/c" < 2 ^ 63 ∧ Str.reverseFind c!"a/b/c" c!"/" npos = .ok 3 ∧
    Str.reverseFind c!"a/b/c" c!"/" 2 = .ok 1 := by decide +kernel

/-! ## C13 -/

/-- C13. `StartsWith` decides the prefix relation. -/
theorem C13_starts_with (s pre : Str) : Str.startsWith s pre = true ↔ pre <+: s := by
  unfold Str.startsWith
  split
  · rename_i h
    simp only [Bool.false_eq_true, false_iff]
    intro hp; have := hp.length_le; omega
  · exact List.isPrefixOf_iff_prefix

/-- C13. `EndsWith` decides the suffix relation. -/
theorem C13_ends_with (s suf : Str) : Str.endsWith s suf = true ↔ suf <:+ s := by
  unfold Str.endsWith
  split
  · rename_i h
    simp only [Bool.false_eq_true, false_iff]
    intro hp; have := hp.length_le; omega
  · rw [List.isPrefixOf_iff_prefix, List.reverse_prefix]

/-- C13. `Contains` decides the contiguous-substring relation for every pair except the empty needle in
the empty string (where it answers false). -/
theorem C13_contains (s sub : Str) (h : sub ≠ [] ∨ s ≠ []) :
    Str.contains s sub = true ↔ sub <:+: s := by
  rw [← occurs_iff_infix]
  unfold Str.contains
  by_cases hn : sub = []
  · subst hn
    have hs : s ≠ [] := by simpa using h
    have e : Str.search s [] = 0 := by rw [Str.search.eq_def]; simp
    have : 0 < s.length := List.length_pos_iff.mpr hs
    constructor
    · intro _; exact ⟨0, (occursAt_zero _ _).mpr List.nil_prefix⟩
    · intro _; simp [e]; omega
  · have := Str.search_eq_length_iff s sub hn
    by_cases ho : Occurs sub s
    · simp only [ho, iff_true, bne_iff_ne, ne_eq]; intro h; exact this.mp h ho
    · simp only [ho, iff_false, bne_iff_ne, ne_eq, Decidable.not_not]; exact this.mpr ho

/-- C13, the excluded case: the empty string is not reported to contain the empty string, although it
is a substring of it. -/
theorem C13_contains_fails_empty : Str.contains [] [] = false ∧ ([] : Str) <:+: ([] : Str) := by
  constructor
  · decide
  · exact List.infix_refl []

example : Str.contains c!"banana" c!"nan" = true ∧ Str.endsWith c!"banana" c!"ana" = true ∧
    Str.startsWith c!"banana" c!"ba" = true ∧ Str.contains c!"banana" c!"nn" = false := by decide

/-! ## C14 -/

/-- C14. Partial: `Insert(pos, str)` throws `out_of_range` iff `pos > size()` (and yields no new content);
otherwise, `str` being another object, the result is the first `pos` elements, then `str`, then the rest.
Missing: a string inserted into itself (`C14_self_fails`). -/
theorem C14_insert_partial (s t : Str) (pos : Nat) :
    (∀ arg, Str.insert s pos arg = .error .outOfRange ↔ Str.size s < pos) ∧
    (pos ≤ Str.size s → ∃ r, Str.insert s pos (.other t) = .ok r ∧ r.take pos = s.take pos ∧
        (r.drop pos).take t.length = t ∧ r.drop (pos + t.length) = s.drop pos ∧
        r.length = s.length + t.length) := by
  simp only [Str.insert, Str.size]
  refine ⟨fun arg => ?_, fun h => ?_⟩
  · split
    · simp_all
    · cases arg <;> simp_all
  rw [if_neg (by omega)]
  have hl : (s.take pos).length = pos := by simp; omega
  refine ⟨_, rfl, ?_, ?_, ?_, ?_⟩
  · rw [List.append_assoc, List.take_append_of_le_length (by omega), List.take_of_length_le (by omega)]
  · rw [List.append_assoc, List.drop_append_of_le_length (by omega),
      List.drop_of_length_le (l := List.take pos s) (by omega)]
    simp
  · have : pos + t.length = (s.take pos ++ t).length := by rw [List.length_append, hl]
    rw [this, List.drop_left]
  · simp; omega

/-- C14 fails for a string that is inserted into itself, at whatever position: `vector::insert` may not be
given a range of its own elements. -/
theorem C14_self_fails (s : Str) (pos : Nat) :
    Str.insert s pos .self = if pos ≤ Str.size s then .error .ub else .error .outOfRange := by
  by_cases h : pos ≤ List.length s
  · simp [Str.insert, Str.size, h]
  · simp [Str.insert, Str.size, h, Nat.lt_of_not_le h]

/-- C14. `Insert(pos, count, ch)`: same with `count` copies of `ch`; `Insert(pos, cstr)`: same with the
decoded characters. -/
theorem C14_insert_variants (s : Str) (pos count : Nat) (ch : Chr) (mem : List UInt8) :
    Str.insertCount s pos count ch = Str.insert s pos (.other (List.replicate count ch)) ∧
    (∀ t, Str.ofCStr mem = .ok t → Str.insertCStr s pos mem = Str.insert s pos (.other t)) ∧
    (∀ e, Str.ofCStr mem = .error e → pos ≤ Str.size s → Str.insertCStr s pos mem = .error e) := by
  refine ⟨rfl, ?_, ?_⟩
  · intro t ht
    simp only [Str.insertCStr, Str.insert, ht]
    split <;> rfl
  · intro e he hp
    simp only [Str.size] at hp
    simp only [Str.insertCStr, he]
    rw [if_neg (by omega)]; rfl

example : Str.insert c!"held" 3 (.other c!"lo wor") = .ok c!"hello word" ∧
    Str.insert c!"ab" 3 (.other c!"x") = .error .outOfRange := by decide

/-! ## C15 -/

/-- C15. `At(i)` returns element `i` when `i < size()` and throws `out_of_range` otherwise;
`operator[]` returns the same element, and is undefined exactly where `At` throws. -/
theorem C15_at (s : Str) (i : Nat) :
    (∀ h : i < Str.size s, Str.at' s i = .ok s[i] ∧ Str.index s i = .ok s[i]) ∧
    (Str.at' s i = .error .outOfRange ↔ Str.size s ≤ i) ∧
    (Str.index s i = .error .ub ↔ Str.size s ≤ i) := by
  simp only [Str.size]
  refine ⟨fun h => ?_, ?_, ?_⟩
  · unfold Str.at' Str.index vecGet Str.size
    rw [if_neg (by omega)]
    simp [List.getElem?_eq_getElem (l := s) h]
  · unfold Str.at' vecGet Str.size
    by_cases h : i < s.length
    · rw [if_neg (by omega)]
      simp [h]
    · rw [if_pos (by omega)]; simp; omega
  · unfold Str.index vecGet
    by_cases h : i < s.length
    · simp [h]
    · have h' : s.length ≤ i := by omega
      simp [h']

example : Str.at' c!"abc" 1 = .ok ⟨[0x62]⟩ ∧ Str.at' c!"abc" 3 = .error .outOfRange ∧
    Str.index c!"abc" 3 = .error .ub := by decide

end Caitlyn
