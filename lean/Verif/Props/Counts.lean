import Verif.Model.Counts
import Verif.Props.StrMore
import Verif.Props.Convert

/-!
# Property C164: counts, positions and indexes

Reference: a number given as count, position or index is this number, and the character given beside it is the character that a
`Char` made from the same expression is (`makeChar`).
-/

namespace Caitlyn
open Caitlyn.Spec Caitlyn.Traits Caitlyn.Convert Caitlyn.Counts

theorem construct_integers (b e : Base) (hb : (integer b).isSome = true) (he : (integer e).isSome = true) :
    construct (.value b) (.value e) = if b = e then none else some (.arith .char) := by
  cases b <;> first | (simp [integer] at hb; done) | skip
  all_goals cases e <;> first | (simp [integer] at he; done) | decide

theorem append_integers (b e : Base) (hb : (integer b).isSome = true) (he : (integer e).isSome = true) :
    Counts.append (.value b) (.value e) = if e ∈ [.char, .uint, .char32] then some (.cls .char) else none := by
  cases b <;> first | (simp [integer] at hb; done) | skip
  all_goals cases e <;> first | (simp [integer] at he; done) | decide

theorem standard_size (b : Base) (hb : (integer b).isSome = true) : ∃ r, standard (.value b) sizeType = some r := by
  cases b <;> first | (simp [integer] at hb; done) | exact ⟨_, rfl⟩

theorem insertMany_integers (a b e : Base) (ha : (integer a).isSome = true) (hb : (integer b).isSome = true)
    (he : (integer e).isSome = true) :
    insertMany (.value a) (.value b) (.value e) = if e ∈ [.char, .uint, .char32] then some (.cls .char) else none := by
  obtain ⟨r, hr⟩ := standard_size a ha
  obtain ⟨r', hr'⟩ := standard_size b hb
  have h1 : rank (.value a) sizeType = some r := by simp [Convert.rank, hr]
  have h2 : rank (.value b) sizeType = some r' := by simp [Convert.rank, hr']
  have h3 : rank (.value e) (.cls .char) = some .user := by
    cases e <;> first | (simp [integer] at he; done) | decide
  have h4 : (pick (plain (.value e) (constructors .char))).isSome = decide (e ∈ [.char, .uint, .char32]) := by
    cases e <;> first | (simp [integer] at he; done) | decide
  have h5 : standard (.value e) (.cls .char) = none := rfl
  by_cases h : e ∈ [.char, .uint, .char32]
  · simp only [h, decide_true] at h4
    simp [insertMany, resolve, ranks, h1, h2, h3, hr, hr', choose, clear, h4, h5, h]
  · simp only [h, decide_false] at h4
    simp [insertMany, resolve, ranks, h1, h2, h3, hr, hr', choose, clear, h4, h5, h]

/-- C164. Which calls with integers compile. `String(n, c)` takes every two integer types that are different, and none twice:
`String(3, 97)` chooses the template for iterators, which cannot be compiled. `Append(n, c)` and `Insert(p, n, c)` take every integer
type for the count and the position, and a `char`, an `unsigned int` or a `char32_t` for the character. -/
theorem C164_compiles_partial (s : Str) (a b e : Base) (p n v : Int) (ha : (integer a).isSome = true) (hb : (integer b).isSome = true)
    (he : (integer e).isSome = true) :
    ((makeRepeated b n e v).isSome = true ↔ b ≠ e) ∧
    ((appendRepeated s b n e v).isSome = true ↔ e ∈ [.char, .uint, .char32]) ∧
    ((insertRepeated s a p b n e v).isSome = true ↔ e ∈ [.char, .uint, .char32]) := by
  have hc := (C160_compiles_partial Unit e v he).1
  refine ⟨?_, ?_, ?_⟩
  · unfold makeRepeated
    rw [construct_integers b e hb he]
    by_cases h : b = e <;> simp [h]
  · unfold appendRepeated
    rw [append_integers b e hb he]
    by_cases h : e ∈ [.char, .uint, .char32]
    · simp only [h, if_true]
      simpa [h] using hc
    · simp [h]
  · unfold insertRepeated
    rw [insertMany_integers a b e ha hb he]
    by_cases h : e ∈ [.char, .uint, .char32]
    · simp only [h, if_true]
      simpa [h] using hc
    · simp [h]

example : (makeRepeated .int 3 .char 0x61).isSome = true ∧ (makeRepeated .int 3 .int 0x61).isSome = false := by decide +kernel

/-- C164. The number that a count or a position is: the number given, if it is not negative, else one that no text has the length
of. -/
theorem toSize_eq (b : Base) (n : Int) (h : Holds b n) : (0 ≤ n → toSize n = n.toNat) ∧ (n < 0 → 2 ^ 63 ≤ toSize n) := by
  have hr : -2 ^ 63 ≤ n ∧ n < 2 ^ 64 := by
    unfold Holds at h
    cases b <;> simp only [integer] at h <;> first | exact h.elim | (norm_num at h ⊢; omega)
  have ht : toSize n = (n % 18446744073709551616).toNat := by
    simp [toSize, toInteger, integer]
  rw [ht]
  constructor
  · intro h0; omega
  · intro h0; omega

theorem toByte_eq (v : Int) : toByte v = UInt8.ofNat (v % 256).toNat := by
  have h1 : toInteger .char v = Int.bmod v 256 := rfl
  have h2 : ∀ x, toInteger .uchar x = x % 256 := fun _ => rfl
  rw [toByte, h1, h2]
  congr 2
  exact Int.bmod_emod

theorem byte_lt (v : Int) : UInt8.ofNat (v % 256).toNat < 0x80 ↔ v % 256 < 128 := by
  rw [UInt8.lt_iff_toNat_lt, UInt8.toNat_ofNat']
  have h1 : (0x80 : UInt8).toNat = 128 := rfl
  rw [h1]
  omega

/-- C164. What `String(n, c)` makes of two integers, exactly. The second is taken modulo 256; if this byte is no ASCII character, the
constructor throws unless the count is zero, and else the text has as many of them as the number said. A negative count asks for more
memory than there is. -/
theorem C164_construct_exact (b e : Base) (n v : Int) (hn : Holds b n) (he : (integer e).isSome = true) (h : b ≠ e)
    (hmax : n < 2 ^ 58) :
    makeRepeated b n e v = some (
      if n = 0 then .ok []
      else if 128 ≤ v % 256 then .error .invalidArgument
      else if n < 0 then .error .memory
      else .ok (List.replicate n.toNat ⟨[UInt8.ofNat (v % 256).toNat]⟩)) := by
  have hb : (integer b).isSome = true := by
    unfold Holds at hn
    split at hn <;> simp_all
  obtain ⟨s1, s2⟩ := toSize_eq b n hn
  unfold makeRepeated
  rw [construct_integers b e hb he, if_neg h]
  simp only [toByte_eq]
  congr 1
  generalize hx : UInt8.ofNat (v % 256).toNat = x
  have hlt : x < 0x80 ↔ v % 256 < 128 := by rw [← hx]; exact byte_lt v
  by_cases h0 : n = 0
  · subst h0
    rw [s1 (Int.le_refl 0)]
    simp [Str.ofCountByte, held, bind, Except.bind]
  · have hpos : 0 < toSize n := by
      rcases Int.lt_or_lt_of_ne h0 with hneg | hp
      · have := s2 hneg; omega
      · rw [s1 (by omega)]; omega
    rw [if_neg h0, Nat.min_eq_right hpos]
    by_cases hv : 128 ≤ v % 256
    · rw [if_pos hv, (C95_constructors 1 x ⟨[]⟩).2.1 (by rw [hlt]; omega) (by decide)]
      rfl
    · rw [if_neg hv, (C95_constructors 1 x ⟨[]⟩).1 (by rw [hlt]; omega),
        (C95_constructors (toSize n) x ⟨[]⟩).1 (by rw [hlt]; omega)]
      by_cases hneg : n < 0
      · have := s2 hneg
        rw [if_pos hneg]
        simp only [held, bind, Except.bind]
        rw [if_pos (by omega)]
      · rw [if_neg hneg, s1 (by omega)]
        simp only [held, bind, Except.bind]
        rw [if_neg (by omega)]

example : Holds .int 3 ∧ makeRepeated .int 3 .char 0x61 = some (.ok c!"aaa") :=
  ⟨by simp [Holds, integer], by decide +kernel⟩

/-- C164. What `Append(n, c)` and `Insert(p, n, c)` do with integers, exactly: the character is the `Char` made from the second number, for
code points too, and there are as many as the number said. -/
theorem C164_append_exact (s : Str) (a b e : Base) (p n v : Int) (hp : Holds a p) (hn : Holds b n) (he : (integer e).isSome = true)
    (hmax : n < 2 ^ 58) (hs : s.length < 2 ^ 58) :
    appendRepeated s b n e v = (makeChar e v).map (fun c =>
      if n < 0 then .error .memory else .ok (s ++ List.replicate n.toNat c)) ∧
    insertRepeated s a p b n e v = (makeChar e v).map fun c =>
      if p < 0 ∨ (s.length : Int) < p then .error .outOfRange
      else if n < 0 then .error .memory
      else .ok (s.take p.toNat ++ List.replicate n.toNat c ++ s.drop p.toNat) := by
  have hb : (integer b).isSome = true := by
    unfold Holds at hn
    split at hn <;> simp_all
  have ha : (integer a).isSome = true := by
    unfold Holds at hp
    split at hp <;> simp_all
  have hc := (C160_compiles_partial Unit e v he).1
  obtain ⟨s1, s2⟩ := toSize_eq b n hn
  obtain ⟨t1, t2⟩ := toSize_eq a p hp
  unfold appendRepeated insertRepeated
  rw [append_integers b e hb he, insertMany_integers a b e ha hb he]
  by_cases h : e ∈ [.char, .uint, .char32]
  · simp only [h, if_true]
    obtain ⟨c, hc⟩ := Option.isSome_iff_exists.mp (hc.mpr h)
    rw [hc]
    simp only [Option.map_some]
    refine ⟨congrArg some ?_, congrArg some ?_⟩
    · by_cases hneg : n < 0
      · have := s2 hneg
        rw [if_pos hneg, held, if_pos (by omega)]
      · rw [if_neg hneg, s1 (by omega), held, if_neg (by omega), Str.appendCount]
    · by_cases hout : p < 0 ∨ (s.length : Int) < p
      · rw [if_pos hout]
        have hgt : s.length < toSize p := by
          rcases hout with h1 | h1
          · have := t2 h1; omega
          · rw [t1 (by omega)]; omega
        simp [Str.insertCount, hgt, bind, Except.bind]
      · rw [if_neg hout, t1 (by omega)]
        have hle : ¬ s.length < p.toNat := by omega
        by_cases hneg : n < 0
        · have := s2 hneg
          simp only [Str.insertCount, gt_iff_lt, hle, if_false, bind, Except.bind, held, if_pos hneg]
          rw [if_pos (by omega)]
        · simp only [Str.insertCount, gt_iff_lt, hle, if_false, bind, Except.bind, held, if_neg hneg]
          rw [s1 (by omega), if_neg (by omega)]
  · simp only [h, if_false]
    have : makeChar e v = none := by
      rw [← Option.not_isSome_iff_eq_none]
      exact fun hh => h (hc.mp hh)
    simp [this]

example : appendRepeated c!"x" .int 2 .char32 0x20AC = some (.ok c!"x€€") ∧
    insertRepeated c!"xy" .int 1 .int 2 .char 0x61 = some (.ok c!"xaay") := by decide +kernel

/-- C164. For ASCII characters other than NUL given as `char`, `unsigned int` or `char32_t`, the constructor makes the text that `Append` makes from an
empty one, if it compiles. -/
theorem C164_same_partial (b e : Base) (n v : Int) (hn : Holds b n) (he : e ∈ [.char, .uint, .char32]) (h : b ≠ e) (h0 : 0 ≤ n)
    (hmax : n < 2 ^ 58) (hv : 0 < v ∧ v < 128) : makeRepeated b n e v = appendRepeated [] b n e v := by
  have hi : (integer e).isSome = true := by
    simp only [List.mem_cons, List.not_mem_nil, or_false] at he
    rcases he with rfl | rfl | rfl <;> rfl
  rw [C164_construct_exact b e n v hn hi h hmax,
    (C164_append_exact [] .int b e 0 n v (by simp [Holds, integer]) hn hi hmax (by decide)).1]
  have hm : v % 256 = v := by omega
  have hc : makeChar e v = some ⟨[UInt8.ofNat v.toNat]⟩ := by
    obtain ⟨k, rfl⟩ := Int.eq_ofNat_of_zero_le (Int.le_of_lt hv.1)
    have hk : k < 128 := by omega
    have hk' : 0 < k := by omega
    clear hm hv h0
    simp only [List.mem_cons, List.not_mem_nil, or_false] at he
    rcases he with rfl | rfl | rfl <;> revert k <;> decide +kernel
  rw [hm, hc, Option.map_some, if_neg (by omega : ¬ n < 0)]
  congr 1
  by_cases hz : n = 0
  · subst hz; rfl
  · rw [if_neg hz, if_neg (by omega), if_neg (by omega)]; rfl

/-- C164. For other characters it does not: `String(2, U'\u0101')` is two control characters, `String(2, U'\u20AC')` throws,
`String(2, U'\0')` is two NUL, and `String(2, '\xE4')` throws, where `Append` makes two times the character, nothing for NUL, or the byte. -/
theorem C164_same_fails :
    (makeRepeated .int 2 .char32 0x101 = some (.ok [⟨[1]⟩, ⟨[1]⟩]) ∧ appendRepeated [] .int 2 .char32 0x101 = some (.ok c!"āā")) ∧
    (makeRepeated .int 2 .char32 0x20AC = some (.error .invalidArgument) ∧ appendRepeated [] .int 2 .char32 0x20AC = some (.ok c!"€€")) ∧
    (makeRepeated .int 2 .char32 0 = some (.ok [⟨[0]⟩, ⟨[0]⟩]) ∧ appendRepeated [] .int 2 .char32 0 = some (.ok [⟨[]⟩, ⟨[]⟩])) ∧
    (makeRepeated .int 2 .char (-28) = some (.error .invalidArgument) ∧
      appendRepeated [] .int 2 .char (-28) = some (.ok [⟨[0xE4]⟩, ⟨[0xE4]⟩])) := by
  decide +kernel

/-- C164. A literal `0` given for a character beside a count of integer type. `String(n, 0)` is zero bytes unless `n` is an `int`, when it
does not compile; `Append(n, 0)` and `Insert(p, 0)` take it for a null pointer and read through it; `Insert(p, n, 0)` does not compile. With
`nullptr` they all compile and read through it. -/
theorem C164_zero_fails (b : Base) (hb : (integer b).isSome = true) :
    construct (.value b) .zero = (if b = .int then none else some (.arith .char)) ∧
    (Counts.append (.value b) .zero = some .cstr ∧ Counts.readsNull .zero (Counts.append (.value b) .zero) = true) ∧
    (Counts.insert (.value b) .zero = some .cstr ∧ Counts.readsNull .zero (Counts.insert (.value b) .zero) = true) ∧
    insertMany (.value b) (.value b) .zero = none ∧
    Counts.readsNull .null (construct (.value b) .null) = true ∧ Counts.readsNull .null (Counts.append (.value b) .null) = true ∧
    Counts.readsNull .null (Counts.insert (.value b) .null) = true ∧
    Counts.readsNull .null (insertMany (.value b) (.value b) .null) = true := by
  cases b <;> first | (simp [integer] at hb; done) | decide

/-- C164. The same three functions with texts and objects: a `const char*`, a `std::string` or a `Char` can be given for the character, a
`const char*`, a `std::string` or a `String` for the text. -/
theorem C164_texts (b : Base) (hb : (integer b).isSome = true) (g : Given) (hg : g ∈ [.cstr, .stdString, .object .char, .object .string]) :
    construct (.value b) g = (if g = .object .string then none else some (.cls .char)) ∧
    Counts.append (.value b) g = (if g = .object .string then none else if g = .cstr then some .cstr else some (.cls .char)) ∧
    Counts.insert (.value b) g = (if g = .object .char then none else if g = .cstr then some .cstr else some (.cls .string)) ∧
    insertMany (.value b) (.value b) g = (if g = .object .string then none else some (.cls .char)) := by
  simp only [List.mem_cons, List.not_mem_nil, or_false] at hg
  rcases hg with rfl | rfl | rfl | rfl <;> cases b <;> first | (simp [integer] at hb; done) | decide

/-- C164. `json[x]` takes every number for an index, also the literal `0`, characters and fractions, and every text for a key;
`document[x]` takes a text for a key. Nothing else compiles but `nullptr`, and the literal `0` for a document. -/
theorem C164_index_partial (g : Given) :
    index g = (match g with
      | .value b => if arithmetic b then some (.arith .ulong) else none
      | .zero => some (.arith .ulong)
      | .null | .cstr | .stdString | .object .string => some (.cls .string)
      | .object _ => none) ∧
    key g = (match g with
      | .zero | .null | .cstr | .stdString | .object .string => some (.cls .string)
      | _ => none) := by
  rcases g with b | _ | _ | _ | _ | c
  · cases b <;> exact ⟨rfl, rfl⟩
  · decide
  · decide
  · decide
  · decide
  · cases c <;> decide

/-- C164. `document[0]` compiles and reads through a null pointer, as do `document[nullptr]` and `json[nullptr]`; `json[0]` is the first
element. A character is an index: `json['a']` is the element 97, and a negative index an element far beyond every end. -/
theorem C164_index_fails :
    Counts.readsNull .zero (key .zero) = true ∧ Counts.readsNull .null (key .null) = true ∧
    Counts.readsNull .null (index .null) = true ∧ Counts.readsNull .zero (index .zero) = false ∧
    index (.value .char) = some sizeType ∧ toSize (-1) = 2 ^ 64 - 1 := by
  decide +kernel

end Caitlyn
