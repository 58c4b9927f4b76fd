import Verif.Lit
import Verif.Proofs.StrUb
import Verif.Proofs.CodePointOrder

/-!
# Properties C01-C08: characters, code points, UTF-8
-/

namespace Caitlyn
open Spec

/-! ## C01 -/

/-- C01. Constructing a `Char` from any Unicode scalar value other than 0 stores exactly its
UTF-8 encoding (reference: Lean core's `String.utf8EncodeChar`). -/
theorem C01_encodes_utf8 (c : Char) (h : c ≠ Char.ofNat 0) :
    Chr.ofCodePoint c.val.toNat = ⟨String.utf8EncodeChar c⟩ := by
  rw [Chr.ofCodePoint, Chr.fromCodePoint_eq_utf8 c h]

/-- C01, the excluded case: U+0000 is stored as the empty string, not as one NUL byte. -/
theorem C01_nul_is_empty : Chr.ofCodePoint 0 = ⟨[]⟩ := rfl

example : '€' ≠ Char.ofNat 0 ∧ Chr.ofCodePoint '€'.val.toNat = ⟨[0xE2, 0x82, 0xAC]⟩ := by
  constructor <;> decide

/-! ## C02 -/

/-- C02. The code point of `Char(cp)` is `cp`, for every `cp` below 2^21 (so for all of
Unicode). -/
theorem C02_code_point_round_trip (cp : Nat) (h : cp < 0x200000) :
    (Chr.ofCodePoint cp).getCodePoint = .ok cp :=
  Chr.getCodePoint_ofCodePoint cp h

example : (0x1F600 : Nat) < 0x200000 ∧ (Chr.ofCodePoint 0x1F600).getCodePoint = .ok 0x1F600 := by
  decide

theorem lead_big : ∀ q < 256, (UInt8.ofNat (0xF0 ||| q) &&& 0x80 == 0) = false ∧
    (UInt8.ofNat (0xF0 ||| q) &&& 0xE0 == 0xC0) = false ∧
    (UInt8.ofNat (0xF0 ||| q) &&& 0xF0 == 0xE0) = false ∧
    (UInt8.ofNat (0xF0 ||| q) &&& 0xF8 == 0xF0) = (q / 8 % 2 == 0) ∧
    (UInt8.ofNat (0xF0 ||| q) &&& 0x07).toNat = q % 8 := by decide +kernel

theorem lead_big_mod (q : Nat) : UInt8.ofNat (0xF0 ||| q) = UInt8.ofNat (0xF0 ||| (q % 256)) := by
  apply UInt8.toNat_inj.mp
  simp only [UInt8.toNat_ofNat']
  rw [Nat.or_mod_two_pow (n := 8), Nat.or_mod_two_pow (n := 8) (b := q % 256), Nat.mod_mod]

/-- C02, all other 32-bit values: at and above 2^21 the code point is lost; the result is 0 if
bit 21 is set and the value modulo 2^21 otherwise. -/
theorem C02_code_point_beyond (cp : Nat) (h : 0x200000 ≤ cp) :
    (Chr.ofCodePoint cp).getCodePoint =
      .ok (if cp / 0x200000 % 2 = 1 then 0 else cp % 0x200000) := by
  have e : Chr.fromCodePoint cp =
      [UInt8.ofNat (0xF0 ||| (cp / 262144)), UInt8.ofNat (cp / 4096 % 64 + 0x80),
         UInt8.ofNat (cp / 64 % 64 + 0x80), UInt8.ofNat (cp % 64 + 0x80)] := by
    have m := fun x : Nat => Chr.or_80 (x % 64) (Nat.mod_lt _ (by decide))
    simp only [Chr.fromCodePoint, Chr.calculateLength, Chr.and_3F, Nat.shiftRight_eq_div_pow,
      Nat.reducePow, m]
    simp [show ¬ cp = 0 by omega, show ¬ cp < 128 by omega, show ¬ cp < 2048 by omega,
      show ¬ cp < 65536 by omega]
  rw [lead_big_mod] at e
  obtain ⟨a, b, c, d, f⟩ := lead_big (cp / 262144 % 256) (Nat.mod_lt _ (by decide))
  have d1 := Chr.cont_and (cp % 64) (by omega)
  have d2 := Chr.cont_and (cp / 64 % 64) (by omega)
  have d3 := Chr.cont_and (cp / 4096 % 64) (by omega)
  have hbit : cp / 262144 % 256 / 8 % 2 = cp / 0x200000 % 2 := by omega
  rw [hbit] at d
  simp only [Chr.ofCodePoint, e]
  simp only [Chr.getCodePoint, Chr.byteAt, vecGet, bind, Except.bind, pure, Except.pure,
    List.length_cons, List.length_nil, Nat.zero_add, Nat.reduceAdd, Nat.reduceLT, if_true,
    List.getElem?_cons_zero, List.getElem?_cons_succ, a, b, c, d, d1, d2, d3, f]
  have : cp / 0x200000 % 2 = 0 ∨ cp / 0x200000 % 2 = 1 := by omega
  rcases this with h0 | h0
  · simp only [h0]
    rw [Chr.assemble4 _ _ _ _ (Nat.mod_lt _ (by decide)) (Nat.mod_lt _ (by decide))
      (Nat.mod_lt _ (by decide))]
    simp; omega
  · simp [h0]

example : (Chr.ofCodePoint 0x200041).getCodePoint = .ok 0 ∧
    (Chr.ofCodePoint 0x400041).getCodePoint = .ok 0x41 := by decide

/-! ## C03 -/

/-- The `Char`s a user can create: by default construction, from a raw byte, from a code point,
or from a validated byte string. -/
inductive Chr.Constructible : Chr → Prop
  | default : Constructible Chr.empty
  | byte (b : UInt8) : Constructible (Chr.ofByte b)
  | codePoint (cp : Nat) : Constructible (Chr.ofCodePoint cp)
  | bytes (s : List UInt8) (c : Chr) : Chr.ofBytes s = .ok c → Constructible c

theorem getCodePoint_shape (p : List UInt8) (h : Shape p) : ∃ cp, Chr.getCodePoint ⟨p⟩ = .ok cp := by
  cases h <;>
    simp only [Chr.getCodePoint, Chr.byteAt, vecGet, bind, Except.bind, pure, Except.pure,
      Chr.lead80, Chr.leadC0, Chr.leadE0, Chr.leadF0] <;>
    simp only [Cont, Chr.u8_le_iff] at * <;> simp at * <;> (repeat' split) <;>
    first | exact ⟨_, rfl⟩ | (exfalso; omega)

theorem getCodePoint_byte (b : UInt8) :
    (0xE0 ≤ b ∧ b ≤ 0xF7 → Chr.getCodePoint (Chr.ofByte b) = .error .ub) ∧
    (¬ (0xE0 ≤ b ∧ b ≤ 0xF7) → ∃ cp, Chr.getCodePoint (Chr.ofByte b) = .ok cp) := by
  have : (if 0xE0 ≤ b ∧ b ≤ 0xF7 then decide (Chr.getCodePoint (Chr.ofByte b) = .error .ub)
      else (Chr.getCodePoint (Chr.ofByte b)).toBool) = true := by
    revert b; apply forall_u8; decide +kernel
  by_cases h : 0xE0 ≤ b ∧ b ≤ 0xF7
  · rw [if_pos h, decide_eq_true_eq] at this
    exact ⟨fun _ => this, fun h' => absurd h h'⟩
  · rw [if_neg h] at this
    refine ⟨fun h' => absurd h' h, fun _ => ?_⟩
    cases hg : Chr.getCodePoint (Chr.ofByte b) with
    | ok cp => exact ⟨cp, rfl⟩
    | error e => rw [hg] at this; simp [Except.toBool] at this

/-- C03. `GetCodePoint` on a `Char` that a user can create returns normally, except for a
`Char` holding one raw byte 0xE0..0xF7, on which it reads out of bounds. -/
theorem C03_get_code_point_safe (c : Chr) (h : Chr.Constructible c) :
    (∃ cp, c.getCodePoint = .ok cp) ∨
    (c.getCodePoint = .error .ub ∧ ∃ b : UInt8, c = Chr.ofByte b ∧ 0xE0 ≤ b ∧ b ≤ 0xF7) := by
  cases h with
  | default => left; exact ⟨0, rfl⟩
  | byte b =>
    obtain ⟨h1, h2⟩ := getCodePoint_byte b
    by_cases h : 0xE0 ≤ b ∧ b ≤ 0xF7
    · exact .inr ⟨h1 h, b, rfl, h⟩
    · exact .inl (h2 h)
  | codePoint cp =>
    left
    by_cases h : cp < 0x200000
    · exact ⟨_, C02_code_point_round_trip cp h⟩
    · exact ⟨_, C02_code_point_beyond cp (by omega)⟩
  | bytes s _ h =>
    left
    obtain ⟨e, hs⟩ := (Chr.ofBytes_ok_iff _ _).mp h
    subst e
    rcases hs with hs | hs
    · exact getCodePoint_shape s hs
    · subst hs; exact ⟨0, rfl⟩

/-- C03, in particular: never out of bounds on a `Char` accepted by the validating
constructor. -/
theorem C03_validated_char_is_safe (s : List UInt8) (c : Chr) (h : Chr.ofBytes s = .ok c) :
    ∃ cp, c.getCodePoint = .ok cp := by
  obtain ⟨e, hs⟩ := (Chr.ofBytes_ok_iff _ _).mp h
  subst e
  rcases hs with hs | hs
  · exact getCodePoint_shape s hs
  · subst hs; exact ⟨0, rfl⟩

/-- C03 witness: the unsafe `Char`s exist. -/
theorem C03_raw_byte_is_ub : Chr.Constructible (Chr.ofByte 0xE4) ∧
    (Chr.ofByte 0xE4).getCodePoint = .error .ub := ⟨.byte _, by decide⟩

example : Chr.ofBytes [0xC3, 0xA9] = .ok ⟨[0xC3, 0xA9]⟩ := by decide

/-! ## C04 -/

/-- C04. Building a `String` from the UTF-8 bytes of any sequence of non-NUL scalar values
succeeds; it has one element per scalar value, each with that code point, and `str()` gives the
bytes back. `rest` is whatever follows the terminator in memory. -/
theorem C04_decodes_utf8 (cs : List Char) (h : NoNul cs) (rest : List UInt8) :
    ∃ s, Str.ofCStr (utf8 cs ++ 0 :: rest) = .ok s ∧
      Str.size s = cs.length ∧
      s.map Chr.getCodePoint = cs.map (fun c => .ok c.val.toNat) ∧
      Str.str s = utf8 cs := by
  let ps := cs.map String.utf8EncodeChar
  have hps : ∀ p ∈ ps, Shape p := by
    intro p hp
    obtain ⟨c, hc, rfl⟩ := List.mem_map.mp hp
    exact shape_utf8 c (h c hc)
  have hu : utf8 cs = ps.flatten := by simp [utf8, ps, List.flatMap]
  refine ⟨ps.map Chr.mk, ?_, ?_, ?_, ?_⟩
  · rw [hu]; exact Str.ofCStr_shapes ps hps rest
  · simp [Str.size, ps]
  · simp only [ps, List.map_map]
    apply List.map_congr_left
    intro c hc
    have hcc := char_nat_facts c (h c hc)
    simp only [Function.comp]
    rw [← Chr.fromCodePoint_eq_utf8 c (h c hc)]
    exact C02_code_point_round_trip _ (by omega)
  · rw [Str.str_shapes, hu]
    · simp [List.map_map, Function.comp_def]
    · intro c hc
      obtain ⟨p, hp, rfl⟩ := List.mem_map.mp hc
      exact hps p hp

example : NoNul ['a', 'é', '€', '😀'] ∧ utf8 ['a', 'é', '€', '😀'] = b!"aé€😀" := by
  constructor
  · unfold NoNul; decide
  · decide

/-! ## C05 -/

/-- C05. Whenever constructing a `String` from memory succeeds, the memory starts with `a` and
a NUL where `a` has no NUL, `str()` is exactly `a`, `ByteCount()` is its length and every element has
the shape of one UTF-8 character. -/
theorem C05_byte_exact (mem : List UInt8) (s : Str) (h : Str.ofCStr mem = .ok s) :
    ∃ a rest, mem = a ++ 0 :: rest ∧ (0 : UInt8) ∉ a ∧ Str.str s = a ∧
      Str.byteCount s = a.length ∧ ∀ c ∈ s, Shape c.data := by
  obtain ⟨h1, rest, h2⟩ := Str.decodeLoop_ok _ _ _ h
  refine ⟨(s.map Chr.data).flatten, rest, h2, ?_, Str.str_shapes s h1, ?_, h1⟩
  · intro h0
    obtain ⟨p, hp, h0⟩ := List.mem_flatten.mp h0
    obtain ⟨c, hc, rfl⟩ := List.mem_map.mp hp
    exact Shape.no_zero (h1 c hc) h0
  · simp [Str.byteCount, List.length_flatten, List.map_map, Function.comp_def]

/-- C05. A successful construction does not depend on the memory after the terminator. -/
theorem C05_reads_only_to_nul (a rest rest' : List UInt8) (s : Str) (h0 : (0 : UInt8) ∉ a)
    (h : Str.ofCStr (a ++ 0 :: rest) = .ok s) : Str.ofCStr (a ++ 0 :: rest') = .ok s := by
  obtain ⟨h1, r, h2⟩ := Str.decodeLoop_ok _ _ _ h
  have hz : (0 : UInt8) ∉ (s.map Chr.data).flatten := by
    intro h0
    obtain ⟨p, hp, h0⟩ := List.mem_flatten.mp h0
    obtain ⟨c, hc, rfl⟩ := List.mem_map.mp hp
    exact Shape.no_zero (h1 c hc) h0
  have ha : a = (s.map Chr.data).flatten := by
    rcases List.append_eq_append_iff.mp h2 with ⟨u, e1, e2⟩ | ⟨u, e1, e2⟩
    · cases u with
      | nil => simpa using e1.symm
      | cons x u => simp at e2; exact absurd (by rw [e1, ← e2.1]; simp) hz
    · cases u with
      | nil => simpa using e1
      | cons x u => simp at e2; exact absurd (by rw [e1, ← e2.1]; simp) h0
  have := Str.ofCStr_shapes (s.map Chr.data)
    (fun p hp => by obtain ⟨c, hc, rfl⟩ := List.mem_map.mp hp; exact h1 c hc) rest'
  rw [← ha] at this
  rw [this]
  simp [List.map_map, Function.comp_def]

example : Str.ofCStr (b!"né" ++ 0 :: [1, 2, 3]) = .ok c!"né" := by decide

/-! ## C06 -/

/-- C06, full classification, success: construction from NUL-terminated bytes succeeds iff the
bytes are a sequence of characters of UTF-8 shape. -/
theorem C06_succeeds_iff_shaped (a : List UInt8) (h0 : (0 : UInt8) ∉ a) :
    (∃ s, Str.ofStdString a = .ok s) ↔
      ∃ ps : List (List UInt8), (∀ p ∈ ps, Shape p) ∧ a = ps.flatten := by
  constructor
  · rintro ⟨s, h⟩
    obtain ⟨h1, r, h2⟩ := Str.decodeLoop_ok _ _ _ h
    refine ⟨s.map Chr.data, fun p hp => ?_, ?_⟩
    · obtain ⟨c, hc, rfl⟩ := List.mem_map.mp hp; exact h1 c hc
    · rcases List.append_eq_append_iff.mp h2 with ⟨u, e1, e2⟩ | ⟨u, e1, e2⟩
      · cases u with
        | nil => simpa using e1.symm
        | cons x u => simp at e2
      · cases u with
        | nil => simpa using e1
        | cons x u => simp at e2; exact absurd (by rw [e1, ← e2.1]; simp) h0
  · rintro ⟨ps, hp, rfl⟩
    exact ⟨_, Str.ofCStr_shapes ps hp []⟩

/-- C06, full classification, undefined behaviour: constructing a `String` from NUL-terminated
bytes reads past the terminator iff the bytes are shaped characters followed by a
three- or four-byte character with at least two bytes missing. -/
theorem C06_reads_past_end_iff_truncated (a : List UInt8) (h0 : (0 : UInt8) ∉ a) :
    Str.ofStdString a = .error .ub ↔
      ∃ (ps : List (List UInt8)) (t : List UInt8),
        (∀ p ∈ ps, Shape p) ∧ a = ps.flatten ++ t ∧ Truncated t := by
  apply Str.decodeLoop_ub_iff _ _ _ h0
  simp

/-- C06. Partial: rejection of malformed input holds for everything that does not have UTF-8
shape, except the truncated inputs of `C06_reads_past_end_iff_truncated`; what is missing is that
those are undefined instead of rejected and that overlong forms and surrogates are accepted
(`C06_fails_...` below). -/
theorem C06_malformed_rejected_partial (a : List UInt8) (h0 : (0 : UInt8) ∉ a)
    (hs : ¬ ∃ ps : List (List UInt8), (∀ p ∈ ps, Shape p) ∧ a = ps.flatten)
    (ht : ¬ ∃ (ps : List (List UInt8)) (t : List UInt8),
        (∀ p ∈ ps, Shape p) ∧ a = ps.flatten ++ t ∧ Truncated t) :
    ∃ e, Str.ofStdString a = .error e ∧ (e = .invalidArgument ∨ e = .runtimeError) := by
  rw [← C06_succeeds_iff_shaped a h0] at hs
  rw [← C06_reads_past_end_iff_truncated a h0] at ht
  have hf : Str.ofStdString a ≠ .error .fuel := Str.decodeLoop_fuel _ _ (by simp)
  have key : ∀ n mem e, Str.decodeLoop n mem = .error e →
      e = .fuel ∨ e = .ub ∨ e = .invalidArgument ∨ e = .runtimeError := by
    intro n
    induction n with
    | zero => intro mem e h; simp [Str.decodeLoop] at h; exact .inl h.symm
    | succ n ih =>
      intro mem e h
      cases mem with
      | nil =>
        simp [Str.decodeLoop, vecGet, bind, Except.bind] at h
        exact .inr (.inl h.symm)
      | cons b t =>
        simp only [Str.decodeLoop, vecGet, List.getElem?_cons_zero, bind, Except.bind] at h
        split at h
        · cases h
        split at h
        · rename_i e' he
          cases h
          simp only [Str.decodeUtf8Char, vecGet, List.getElem?_cons_zero, bind, Except.bind] at he
          split at he
          · cases he; simp
          · split at he
            · cases he; simp
            · unfold Chr.ofBytes at he
              split at he
              · cases he
              · cases he; simp
        · split at h
          · rename_i e' he
            cases h
            exact ih _ _ he
          · cases h
  cases hr : Str.ofStdString a with
  | ok s => exact absurd ⟨s, hr⟩ hs
  | error e =>
    refine ⟨e, rfl, ?_⟩
    rcases key _ _ _ hr with h | h | h | h
    · rw [h] at hr; exact absurd hr hf
    · rw [h] at hr; exact absurd hr ht
    · exact .inl h
    · exact .inr h

/-- C06 is false as stated: a string ending in a lone three-byte lead is undefined behaviour. -/
theorem C06_fails_truncated : Str.ofStdString (b!"ab" ++ [0xE2]) = .error .ub := by decide

/-- C06 is false as stated: an overlong encoding and a surrogate are accepted although they are
not UTF-8. -/
theorem C06_fails_overlong :
    Str.ofStdString [0xC1, 0x81] = .ok [⟨[0xC1, 0x81]⟩] ∧ ¬ WellFormed [0xC1, 0x81] ∧
    Str.ofStdString [0xED, 0xA0, 0x80] = .ok [⟨[0xED, 0xA0, 0x80]⟩] := by
  refine ⟨by decide, ?_, by decide⟩
  rintro ⟨cs, hn, h⟩
  obtain ⟨s, h1, h2, h3, h4⟩ := C04_decodes_utf8 cs hn []
  rw [h] at h1
  have e : Str.ofCStr ([0xC1, 0x81] ++ [0]) = .ok [⟨[0xC1, 0x81]⟩] := by decide
  rw [e] at h1
  injection h1 with h1
  subst h1
  simp only [Str.size, List.length_cons, List.length_nil] at h2
  match cs, h2 with
  | [c], _ =>
    have hc := char_nat_facts c (hn c (by simp))
    simp only [utf8, List.flatMap_cons, List.flatMap_nil, List.append_nil] at h
    rw [← Chr.fromCodePoint_eq_utf8 c (hn c (by simp))] at h
    have e2 : Chr.getCodePoint ⟨[0xC1, 0x81]⟩ = .ok 0x41 := by decide
    simp only [List.map_cons, List.map_nil, e2, List.cons.injEq, Except.ok.injEq, and_true] at h3
    rw [← h3] at h
    revert h; decide

/-- Non-vacuity of the partial theorem: `0xFF` is neither shaped nor truncated. -/
example : Str.ofStdString [0x41, 0xFF] = .error .runtimeError ∧
    Str.ofStdString [0xE2, 0x41, 0x41] = .error .invalidArgument := by decide

/-! ## C07, C08 -/

/-- C07. For `String`s of shaped characters, element-wise `<` is byte-wise lexicographic `<` of
`str()` (Lean's order on lists of bytes), hence also `<` against a C string. -/
theorem C07_order_is_byte_order (a b : Str) (ha : ∀ c ∈ a, Shape c.data)
    (hb : ∀ c ∈ b, Shape c.data) :
    (Str.lt a b = true ↔ Str.str a < Str.str b) ∧ Str.lt a b = Str.ltCStr a (Str.str b) ∧
    Str.gt a b = Str.gtCStr a (Str.str b) ∧ Str.le a b = Str.leCStr a (Str.str b) ∧
    Str.ge a b = Str.geCStr a (Str.str b) := by
  have h1 := Str.lt_eq_bytesLt a b ha hb
  have h2 := Str.lt_eq_bytesLt b a hb ha
  refine ⟨?_, h1, h2, ?_, ?_⟩
  · rw [h1, Chr.bytesLt_iff]
  · simp [Str.le, Str.leCStr, h2]
  · simp [Str.ge, Str.geCStr, h1]

/-- C07. For `String`s decoded from scalar values, `<` is the lexicographic order of the code
points (Lean's order on `List Char`). -/
theorem C07_order_is_code_point_order (cs ds : List Char) (hc : NoNul cs) (hd : NoNul ds)
    (a b : Str) (ha : Str.ofStdString (utf8 cs) = .ok a) (hb : Str.ofStdString (utf8 ds) = .ok b) :
    Str.lt a b = true ↔ cs < ds := by
  have key : ∀ (cs : List Char) (a : Str), NoNul cs → Str.ofStdString (utf8 cs) = .ok a →
      a = cs.map fun c => ⟨String.utf8EncodeChar c⟩ := by
    intro cs a hc ha
    have := Str.ofCStr_shapes (cs.map String.utf8EncodeChar) (fun p hp => by
      obtain ⟨c, h, rfl⟩ := List.mem_map.mp hp; exact shape_utf8 c (hc c h)) []
    have e : utf8 cs = (cs.map String.utf8EncodeChar).flatten := by simp [utf8, List.flatMap]
    unfold Str.ofStdString at ha
    rw [e, this] at ha
    injection ha with ha
    rw [← ha]; simp
  rw [key cs a hc ha, key ds b hd hb]
  exact lt_scalars cs ds hc hd

example : Str.lt c!"z" c!"é" = true ∧ Str.lt c!"zz" c!"z" = false := by decide

/-- C08. Two `String`s of shaped characters are equal iff their bytes are equal, so comparing with
a `String` and with a C string agree. -/
theorem C08_equality_is_byte_equality (a b : Str) (ha : ∀ c ∈ a, Shape c.data)
    (hb : ∀ c ∈ b, Shape c.data) :
    (Str.eq a b = true ↔ Str.str a = Str.str b) ∧ Str.eq a b = Str.eqCStr a (Str.str b) := by
  have h : a = b ↔ Str.str a = Str.str b :=
    ⟨fun h => by rw [h], Str.str_injective a b ha hb⟩
  refine ⟨by simp [Str.eq, h], ?_⟩
  rw [Bool.eq_iff_iff]
  simp only [Str.eq, Str.eqCStr, beq_iff_eq, h]

/-- C08 needs the hypothesis: raw bytes can form different `String`s with equal bytes. -/
theorem C08_raw_bytes_differ :
    Str.eq [⟨[0xC3, 0xA9]⟩] [Chr.ofByte 0xC3, Chr.ofByte 0xA9] = false ∧
    Str.str [⟨[0xC3, 0xA9]⟩] = Str.str [Chr.ofByte 0xC3, Chr.ofByte 0xA9] := by decide

example : (∀ c ∈ c!"né", Shape c.data) := by
  intro c hc
  have : c = ⟨[0x6E]⟩ ∨ c = ⟨[0xC3, 0xA9]⟩ := by simpa using hc
  rcases this with rfl | rfl
  · exact .one _ (by decide) (by decide)
  · exact .two _ _ (by decide) (by decide) ⟨by decide, by decide⟩

end Caitlyn
