import Verif.Spec.CNumber
import Verif.Proofs.StrUtil

/-! # Helper lemmas: hexadecimal numbers of the C library -/

namespace Caitlyn.StdNum
open Caitlyn.Spec

theorem isSpace_blanks (b : UInt8) : isSpace b = decide (b ∈ cBlanks) := by
  revert b
  refine forall_u8 ?_
  decide +kernel

theorem digit_hex (b : UInt8) : isDigitIn 16 b = (hexValue b).isSome ∧ ∀ v, hexValue b = some v → digitVal b = some v := by
  revert b
  refine forall_u8 ?_
  intro n hn
  have key : ∀ n < 256, isDigitIn 16 (UInt8.ofNat n) = (hexValue (UInt8.ofNat n)).isSome ∧
      ((hexValue (UInt8.ofNat n)).all fun v => decide (digitVal (UInt8.ofNat n) = some v)) = true := by decide +kernel
  refine ⟨(key n hn).1, fun v hv => ?_⟩
  have := (key n hn).2
  rw [hv] at this
  exact of_decide_eq_true this

theorem hexDigits_spec {ds : List UInt8} {n : Nat} (h : HexDigits ds n) :
    ds ≠ [] ∧ (∀ b ∈ ds, isDigitIn 16 b = true) ∧ digitsVal 16 ds = n := by
  induction h with
  | one b v hb =>
    refine ⟨by simp, ?_, ?_⟩
    · intro x hx
      rw [List.mem_singleton] at hx
      subst hx
      rw [(digit_hex x).1, hb]; rfl
    · simp [digitsVal, (digit_hex b).2 v hb]
  | more ds n b v _ hb ih =>
    refine ⟨by simp, ?_, ?_⟩
    · intro x hx
      rcases List.mem_append.mp hx with hx | hx
      · exact ih.2.1 x hx
      · rw [List.mem_singleton] at hx
        subst hx
        rw [(digit_hex x).1, hb]; rfl
    · have := ih.2.2
      unfold digitsVal at this ⊢
      rw [List.foldl_append, this]
      simp [(digit_hex b).2 v hb, Nat.mul_comm]

theorem hexDigits_of : ∀ (m : Nat) (ds : List UInt8), ds.length = m → ds ≠ [] → (∀ b ∈ ds, isDigitIn 16 b = true) →
    HexDigits ds (digitsVal 16 ds) := by
  intro m
  induction m with
  | zero => intro ds h1 h2; exact absurd (List.length_eq_zero_iff.mp h1) h2
  | succ m ih =>
    intro ds h1 h2 h3
    obtain ⟨init, b, rfl⟩ : ∃ init b, ds = init ++ [b] := ⟨ds.dropLast, ds.getLast h2, (List.dropLast_concat_getLast h2).symm⟩
    have hb := h3 b (by simp)
    rw [(digit_hex b).1] at hb
    obtain ⟨v, hv⟩ := Option.isSome_iff_exists.mp hb
    by_cases hi : init = []
    · subst hi
      have : digitsVal 16 ([] ++ [b]) = v := by simp [digitsVal, (digit_hex b).2 v hv]
      rw [this]
      exact .one b v hv
    · have hr := ih init (by simpa using h1) hi (fun x hx => h3 x (by simp [hx]))
      have : digitsVal 16 (init ++ [b]) = 16 * digitsVal 16 init + v := by
        unfold digitsVal
        rw [List.foldl_append]
        simp [(digit_hex b).2 v hv, Nat.mul_comm]
      rw [this]
      exact .more _ _ _ _ hr hv

theorem hexByte (b : UInt8) (v : Nat) (h : hexValue b = some v) :
    isSpace b = false ∧ b ≠ 0x2D ∧ b ≠ 0x2B ∧ b ≠ 0x78 ∧ b ≠ 0x58 := by
  obtain ⟨_, _, h3, h4, h5, h6, h7, _, _⟩ := StrUtil.hexValue_digitVal b v h
  exact ⟨h3, h4, h5, h6, h7⟩

theorem mem_takeWhile_true {p : UInt8 → Bool} {l : List UInt8} {b : UInt8} (h : b ∈ l.takeWhile p) : p b = true := by
  have := List.all_takeWhile (p := p) (l := l)
  exact List.all_eq_true.mp this b h

theorem span_append {p : UInt8 → Bool} {a b : List UInt8} (h : ∀ x ∈ a, p x = true) (hb : ∀ x, b.head? = some x → p x = false) :
    (a ++ b).takeWhile p = a ∧ (a ++ b).dropWhile p = b := by
  induction a with
  | nil =>
    cases b with
    | nil => exact ⟨rfl, rfl⟩
    | cons x b =>
      have := hb x rfl
      exact ⟨List.takeWhile_cons_of_neg (by simp [this]), List.dropWhile_cons_of_neg (by simp [this])⟩
  | cons x a ih =>
    have hx := h x (by simp)
    obtain ⟨h1, h2⟩ := ih (fun y hy => h y (by simp [hy]))
    refine ⟨?_, ?_⟩
    · rw [List.cons_append, List.takeWhile_cons_of_pos hx, h1]
    · rw [List.cons_append, List.dropWhile_cons_of_pos hx, h2]

/-- The prefix of base 16. -/
theorem hexPrefix_cases (s : List UInt8) : ∃ pre, pre ∈ [[], b!"0x", b!"0X"] ∧ s = pre ++ hexPrefix 16 s ∧
    (pre = [] → ¬ ∃ rest, s = 0x30 :: rest ∧ HexTail rest) := by
  unfold hexPrefix
  split
  · rename_i x d t
    by_cases hc : (16 : Nat) = 16 ∧ (x = 0x78 ∨ x = 0x58) ∧ isDigitIn 16 d = true
    · rw [if_pos hc]
      refine ⟨[0x30, x], ?_, rfl, by simp⟩
      rcases hc.2.1 with h | h <;> subst h <;> simp
    · rw [if_neg hc]
      refine ⟨[], by simp, rfl, fun _ ⟨rest, h1, x', d', t', v, h2, h3, h4⟩ => ?_⟩
      injection h1 with _ h1
      subst h1
      injection h2 with h5 h6
      injection h6 with h6 h7
      subst h5 h6 h7
      refine hc ⟨rfl, by simpa using h3, ?_⟩
      rw [(digit_hex d).1, h4]; rfl
  · rename_i hne
    refine ⟨[], by simp, rfl, fun _ ⟨rest, h1, x', d', t', v, h2, h3, h4⟩ => ?_⟩
    subst h1 h2
    exact hne _ _ _ rfl

theorem hexPrefix_of {pre body : List UInt8} (hp : pre ∈ [[], b!"0x", b!"0X"]) {b : UInt8} (hb : body.head? = some b)
    (hd : isDigitIn 16 b = true) (hn : pre = [] → ¬ ∃ rest, body = 0x30 :: rest ∧ HexTail rest) :
    hexPrefix 16 (pre ++ body) = body := by
  obtain ⟨t, rfl⟩ : ∃ t, body = b :: t := by
    cases body with
    | nil => cases hb
    | cons x t => injection hb with hb; subst hb; exact ⟨t, rfl⟩
  simp only [List.mem_cons, List.not_mem_nil, or_false] at hp
  rcases hp with rfl | rfl | rfl
  · obtain ⟨pre, h1, h2, _⟩ := hexPrefix_cases (b :: t)
    simp only [List.mem_cons, List.not_mem_nil, or_false] at h1
    have hno := hn rfl
    rw [List.nil_append]
    unfold hexPrefix
    split
    · rename_i x d s he
      rw [if_neg]
      · exact he.symm
      · rintro ⟨_, hx, hd'⟩
        rw [(digit_hex d).1] at hd'
        obtain ⟨v, hv⟩ := Option.isSome_iff_exists.mp hd'
        exact hno ⟨_, he, x, d, s, v, rfl, by simpa using hx, hv⟩
    · rfl
  · simp [hexPrefix, hd]
  · simp [hexPrefix, hd]

theorem parse_hex (s : List UInt8) (neg : Bool) (n : Nat) : parse 16 s = some (neg, n) ↔ HexNumber s neg n := by
  constructor
  · intro h
    unfold parse at h
    have hsplit : s = s.takeWhile isSpace ++ s.dropWhile isSpace := (List.takeWhile_append_dropWhile).symm
    have hbl : ∀ b ∈ s.takeWhile isSpace, b ∈ cBlanks := by
      intro b hb
      have := mem_takeWhile_true hb
      rw [isSpace_blanks] at this
      exact of_decide_eq_true this
    generalize s.takeWhile isSpace = bl at hsplit hbl
    generalize s.dropWhile isSpace = u at hsplit h
    obtain ⟨sg, body, neg', hs1, hs2, hs3⟩ : ∃ sg body neg', sign u = (neg', body) ∧ u = sg ++ body ∧ CSign sg neg' := by
      unfold sign
      split
      · exact ⟨[0x2D], _, _, rfl, rfl, .minus⟩
      · exact ⟨[0x2B], _, _, rfl, rfl, .plus⟩
      · exact ⟨[], _, _, rfl, rfl, .none⟩
    rw [hs1] at h
    simp only at h
    by_cases hnil : (hexPrefix 16 body).takeWhile (isDigitIn 16) = []
    · rw [if_pos hnil] at h; cases h
    · rw [if_neg hnil] at h
      injection h with h
      injection h with h1 h2
      subst h1 h2
      obtain ⟨pre, p1, p2, p3⟩ := hexPrefix_cases body
      have hds := hexDigits_of _ _ rfl hnil (fun b hb => mem_takeWhile_true hb)
      have hcut := (List.takeWhile_append_dropWhile (p := isDigitIn 16) (l := hexPrefix 16 body)).symm
      have hrest : ∀ b, ((hexPrefix 16 body).dropWhile (isDigitIn 16)).head? = some b → hexValue b = none := by
        intro b hb
        have := List.head?_dropWhile_not (isDigitIn 16) (hexPrefix 16 body)
        rw [hb] at this
        simp only at this
        rw [(digit_hex b).1] at this
        cases hx : hexValue b with
        | none => rfl
        | some v => rw [hx] at this; simp at this
      generalize (hexPrefix 16 body).takeWhile (isDigitIn 16) = ds at *
      generalize (hexPrefix 16 body).dropWhile (isDigitIn 16) = rest at *
      have hno : ¬ (pre = [] ∧ ds = b!"0" ∧ HexTail rest) := by
        rintro ⟨e1, e2, e3⟩
        refine p3 e1 ⟨rest, ?_, e3⟩
        rw [p2, e1, hcut, e2]; rfl
      have := HexNumber.mk bl sg pre ds rest neg' _ hbl hs3 p1 hds hrest hno
      have e : s = bl ++ sg ++ pre ++ ds ++ rest := by
        rw [hsplit, hs2]
        rw [p2, hcut]
        simp [List.append_assoc]
      rw [e]; exact this
  · rintro ⟨bl, sg, pre, ds, rest, neg, n, hbl, hs, hp, hds, hrest, hno⟩
    obtain ⟨d1, d2, d3⟩ := hexDigits_spec hds
    obtain ⟨b, t, rfl⟩ : ∃ b t, ds = b :: t := by
      cases ds with
      | nil => exact absurd rfl d1
      | cons b t => exact ⟨b, t, rfl⟩
    have hb : isDigitIn 16 b = true := d2 b (by simp)
    have hbv := hb
    rw [(digit_hex b).1] at hbv
    obtain ⟨v, hv⟩ := Option.isSome_iff_exists.mp hbv
    have hbody : hexPrefix 16 (pre ++ ((b :: t) ++ rest)) = (b :: t) ++ rest := by
      refine hexPrefix_of hp (b := b) rfl hb ?_
      rintro e ⟨r, h1, h2⟩
      obtain ⟨x, d, m, v', h3, h4, h5⟩ := h2
      subst h3
      rw [List.cons_append] at h1
      injection h1 with h6 h7
      subst h6
      cases t with
      | nil => exact hno ⟨e, rfl, x, d, m, v', h7, h4, h5⟩
      | cons y t =>
        rw [List.cons_append] at h7
        injection h7 with h7 _
        subst h7
        have := d2 y (by simp)
        rw [(digit_hex y).1] at this
        obtain ⟨w, hw⟩ := Option.isSome_iff_exists.mp this
        have := hexByte y w hw
        simp at h4
        rcases h4 with h4 | h4
        · exact this.2.2.2.1 h4
        · exact this.2.2.2.2 h4
    have hz : hexValue 0x30 = some 0 := by decide
    -- what stands behind the sign starts with a digit
    have hhead : ∃ c w r, pre ++ ((b :: t) ++ rest) = c :: r ∧ hexValue c = some w := by
      simp only [List.mem_cons, List.not_mem_nil, or_false] at hp
      rcases hp with rfl | rfl | rfl
      · exact ⟨b, v, _, rfl, hv⟩
      · exact ⟨0x30, 0, _, rfl, hz⟩
      · exact ⟨0x30, 0, _, rfl, hz⟩
    obtain ⟨c, w, r, hc, hw⟩ := hhead
    obtain ⟨c1, c2, c3, _, _⟩ := hexByte c w hw
    have hsp : ((bl ++ sg ++ pre ++ (b :: t) ++ rest).dropWhile isSpace) = sg ++ (pre ++ ((b :: t) ++ rest)) := by
      have : bl ++ sg ++ pre ++ (b :: t) ++ rest = bl ++ (sg ++ (pre ++ ((b :: t) ++ rest))) := by simp [List.append_assoc]
      rw [this]
      refine (span_append ?_ ?_).2
      · intro x hx
        rw [isSpace_blanks]
        exact decide_eq_true (hbl x hx)
      · intro x hx
        rw [hc] at hx
        cases hs with
        | none => injection hx with hx; subst hx; exact c1
        | plus => injection hx with hx; subst hx; decide
        | minus => injection hx with hx; subst hx; decide
    have hsign : sign (sg ++ (pre ++ ((b :: t) ++ rest))) = (neg, pre ++ ((b :: t) ++ rest)) := by
      cases hs with
      | none => rw [List.nil_append, hc]; exact StrUtil.sign_none c r c2 c3
      | plus => rfl
      | minus => rfl
    unfold parse
    rw [hsp, hsign]
    simp only
    rw [hbody]
    have : ((b :: t) ++ rest).takeWhile (isDigitIn 16) = b :: t := by
      refine (span_append d2 ?_).1
      intro x hx
      rw [(digit_hex x).1, hrest x hx]; rfl
    rw [this, if_neg (by simp), d3]

theorem byteOf_nat (neg : Bool) (n : Nat) (h : n < 2 ^ 64) :
    UInt8.ofNat (if neg then (2 ^ 64 - n) % 2 ^ 64 else n) = byteOf neg n := by
  apply UInt8.toNat_inj.mp
  unfold byteOf
  cases neg
  · simp only [Bool.false_eq_true, if_false, UInt8.toNat_ofNat']
    omega
  · simp only [if_true, UInt8.toNat_ofNat']
    omega

/-- `std::stoul` in base 16. -/
theorem stoul_hex (s : List UInt8) (k : Nat) : stoul 16 s = .ok k ↔
    ∃ neg n, HexNumber s neg n ∧ n < 2 ^ 64 ∧ k = if neg then (2 ^ 64 - n) % 2 ^ 64 else n := by
  unfold stoul
  constructor
  · intro h
    split at h
    · cases h
    · rename_i neg n hp
      split at h
      · cases h
      · rename_i hlt
        injection h with h
        exact ⟨neg, n, (parse_hex _ _ _).mp hp, by omega, h.symm⟩
  · rintro ⟨neg, n, h1, h2, h3⟩
    rw [(parse_hex _ _ _).mpr h1]
    simp only
    rw [if_neg (by omega), h3]

/-- `std::stoul` in base 16 fails exactly if there is no number or it is too large. -/
theorem stoul_hex_error (s : List UInt8) (e : Err) : stoul 16 s = .error e ↔
    ((∀ neg n, ¬ HexNumber s neg n) ∧ e = .invalidArgument) ∨ (∃ neg n, HexNumber s neg n ∧ 2 ^ 64 ≤ n) ∧ e = .outOfRange := by
  unfold stoul
  cases hp : parse 16 s with
  | none =>
    have hno : ∀ neg n, ¬ HexNumber s neg n := fun neg n h => by
      rw [(parse_hex _ _ _).mpr h] at hp; cases hp
    simp only
    constructor
    · intro h; injection h with h; exact .inl ⟨hno, h.symm⟩
    · rintro (⟨_, rfl⟩ | ⟨⟨neg, n, h, _⟩, _⟩)
      · rfl
      · exact absurd h (hno _ _)
  | some x =>
    obtain ⟨neg, n⟩ := x
    have hx := (parse_hex _ _ _).mp hp
    simp only
    by_cases hn : n ≥ 2 ^ 64
    · rw [if_pos hn]
      constructor
      · intro h; injection h with h; exact .inr ⟨⟨neg, n, hx, hn⟩, h.symm⟩
      · rintro (⟨h, _⟩ | ⟨_, rfl⟩)
        · exact absurd hx (h _ _)
        · rfl
    · rw [if_neg hn]
      constructor
      · intro h; cases h
      · rintro (⟨h, _⟩ | ⟨⟨neg', n', h, h'⟩, _⟩)
        · exact absurd hx (h _ _)
        · rw [(parse_hex _ _ _).mpr h] at hp
          injection hp with hp
          injection hp with h1 h2
          omega

end Caitlyn.StdNum
