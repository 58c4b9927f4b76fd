import Verif.Proofs.BigIntDiv

/-!
# Properties C36-C47: `BigInteger`

The reference (`Verif/Spec/Decimal.lean`): `decimal z` is the usual notation of an integer,
`big z` the canonical `BigInteger` of an integer. C36 ties the two together through the
constructor and `ToString`, so the other properties can be read as statements about numbers.
-/

namespace Caitlyn
open Caitlyn.Spec BigInt

/-! ## C36 -/

theorem toString_big (z : Int) : BigInt.toString (big z) = decimal z := by
  unfold BigInt.toString decimal
  rw [toString_chars]
  by_cases h0 : z = 0
  · subst h0
    decide
  · have hne : z.natAbs ≠ 0 := by omega
    have hd : (big z).digits = (Nat.toDigits 10 z.natAbs).reverse.map
        fun c => ((c.toNat - 48 : Nat) : Int) := by
      show digs z.natAbs = _
      unfold digs
      rw [if_neg hne]
    have hemp : (big z).digits.isEmpty = false := by
      rw [hd]
      cases h : Nat.toDigits 10 z.natAbs with
      | nil => exact absurd h Nat.toDigits_ne_nil
      | cons a b => simp
    rw [hemp, hd]
    simp only [Bool.false_eq_true, if_false]
    have hm : (List.map (fun c : Char => ((c.toNat - 48 : Nat) : Int))
        (Nat.toDigits 10 z.natAbs).reverse).reverse.map
          (fun d => Chr.ofByte (UInt8.ofNat ((d + 0x30) % 256).toNat)) =
        (Nat.toDigits 10 z.natAbs).map fun c => Chr.ofByte (UInt8.ofNat c.toNat) := by
      rw [← List.map_reverse, List.reverse_reverse, List.map_map]
      apply List.map_congr_left
      intro c hc
      have := toDigits_digitChar _ c hc
      unfold DigitChar at this
      simp only [Function.comp_apply]
      rw [show (((c.toNat - 48 : Nat) : Int) + 0x30) % 256 = c.toNat by omega, Int.toNat_natCast]
    rw [hm]
    show (if decide (z < 0) = true then _ else _) ++ _ = _
    by_cases hz : z < 0
    · simp only [hz, decide_true, if_true]
      rfl
    · simp only [hz, decide_false, if_false, Bool.false_eq_true]
      rfl

/-- C36. The decimal notation of an integer is accepted, gives the canonical number, and is printed
back. -/
theorem C36_round_trip (z : Int) :
    BigInt.parse (decimal z) = .ok (big z) ∧ BigInt.toString (big z) = decimal z :=
  ⟨parse_decimal z, toString_big z⟩

/-- C36. Any non-empty string of ASCII digits, with or without sign, leading zeros allowed, gives the
number it denotes (reference: Lean core's `Nat.ofDigitChars`); so "-0" and "000" give
zero. -/
theorem C36_normalises (cs : List Char) (hne : cs ≠ []) (h : ∀ c ∈ cs, c.isDigit = true) :
    let text : Str := cs.map fun c => Chr.ofByte (UInt8.ofNat c.toNat)
    BigInt.parse text = .ok (big (Nat.ofDigitChars 10 cs 0)) ∧
    BigInt.parse (c!"+" ++ text) = .ok (big (Nat.ofDigitChars 10 cs 0)) ∧
    BigInt.parse (c!"-" ++ text) = .ok (big (-(Nat.ofDigitChars 10 cs 0 : Nat))) := by
  have h' : ∀ c ∈ cs, DigitChar c := fun c hc => (digitChar_iff c).mp (h c hc)
  have e : ∀ n : Nat, big (n : Int) = mk' n false := by intro n; simp [big, mk']
  refine ⟨?_, ?_, ?_⟩
  · rw [e]; exact parse_digits cs hne h'
  · rw [e]; exact parse_plus cs h'
  · refine (parse_minus cs h').trans ?_
    generalize Nat.ofDigitChars 10 cs 0 = n
    refine congrArg Except.ok ?_
    by_cases hn : n = 0
    · subst hn; rfl
    · rw [if_neg hn]
      unfold big mk'
      rw [Int.natAbs_neg, Int.natAbs_natCast, decide_eq_true (by omega)]

example : BigInt.parse c!"-0012" = .ok (big (-12)) ∧ BigInt.toString (big (-12)) = c!"-12" ∧
    BigInt.parse c!"-000" = .ok (big 0) ∧ BigInt.toString (big 0) = c!"0" := by decide +kernel

example : ∀ c ∈ "00129".toList, c.isDigit = true := by decide

/-! ## C37 -/

/-- The text without its optional sign. -/
def unsignedPart : Str → Str
  | [] => []
  | c :: cs => if c = ⟨[0x2D]⟩ ∨ c = ⟨[0x2B]⟩ then cs else c :: cs

theorem parseDigits_result : ∀ s : Str, (∀ c ∈ s, ∃ cp, c.getCodePoint = .ok cp) →
    ((∀ c ∈ s, ∃ cp, c.getCodePoint = .ok cp ∧ CharUtil.isDigit cp = true) →
      ∃ ds, parseDigits s = .ok ds) ∧
    ((∃ c ∈ s, ∃ cp, c.getCodePoint = .ok cp ∧ CharUtil.isDigit cp = false) →
      parseDigits s = .error .invalidArgument)
  | [], _ => ⟨fun _ => ⟨[], rfl⟩, by simp⟩
  | c :: s, h => by
    obtain ⟨cp, hcp⟩ := h c (by simp)
    obtain ⟨ih1, ih2⟩ := parseDigits_result s (fun d hd => h d (by simp [hd]))
    simp only [parseDigits, hcp, bind, Except.bind]
    by_cases hd : CharUtil.isDigit cp = true
    · rw [if_pos hd]
      constructor
      · intro ha
        obtain ⟨ds, e⟩ := ih1 (fun d hd => ha d (by simp [hd]))
        rw [e]; exact ⟨_, rfl⟩
      · rintro ⟨d, hm, cp', e1, e2⟩
        rcases List.mem_cons.mp hm with rfl | hm
        · rw [hcp] at e1; injection e1 with e1; subst e1; simp [hd] at e2
        · rw [ih2 ⟨d, hm, cp', e1, e2⟩]
    · rw [if_neg hd]
      refine ⟨fun ha => ?_, fun _ => rfl⟩
      obtain ⟨cp', e1, e2⟩ := ha c (by simp)
      rw [hcp] at e1; injection e1 with e1; subst e1
      exact absurd e2 hd

/-- C37. Partial: for a `String` whose characters have code points, the constructor throws
`invalid_argument` iff the string is empty or some character after the optional sign is not
accepted by `IsDigit`; otherwise it succeeds. Missing: a sign alone and non-ASCII digits should
be rejected too but are accepted (`C37_fails`). -/
theorem C37_rejects_partial (s : Str) (h : ∀ c ∈ s, ∃ cp, c.getCodePoint = .ok cp) :
    (s = [] ∨ (∃ c ∈ unsignedPart s, ∃ cp, c.getCodePoint = .ok cp ∧ CharUtil.isDigit cp = false) →
      BigInt.parse s = .error .invalidArgument) ∧
    (s ≠ [] ∧ (∀ c ∈ unsignedPart s, ∃ cp, c.getCodePoint = .ok cp ∧ CharUtil.isDigit cp = true) →
      ∃ b, BigInt.parse s = .ok b) := by
  cases s with
  | nil => exact ⟨fun _ => rfl, fun h => absurd rfl h.1⟩
  | cons c cs =>
    have hb : ∀ x ∈ unsignedPart (c :: cs), ∃ cp, x.getCodePoint = .ok cp := by
      intro x hx
      apply h x
      by_cases hs : c = ⟨[0x2D]⟩ ∨ c = ⟨[0x2B]⟩
      · simp only [unsignedPart, if_pos hs] at hx; simp [hx]
      · simp only [unsignedPart, if_neg hs] at hx; exact hx
    obtain ⟨p1, p2⟩ := parseDigits_result _ hb
    have key : ∃ neg, BigInt.parse (c :: cs) = (do
        let ds ← parseDigits (unsignedPart (c :: cs))
        return removeLeadingZeros ⟨ds.reverse, neg⟩) := by
      by_cases h1 : c = ⟨[0x2D]⟩
      · subst h1; exact ⟨true, rfl⟩
      · by_cases h2 : c = ⟨[0x2B]⟩
        · subst h2; exact ⟨false, rfl⟩
        · refine ⟨false, ?_⟩
          simp only [BigInt.parse, unsignedPart]
          rw [if_neg (show ¬ c = Chr.ofByte 0x2D from h1),
            if_neg (show ¬ c = Chr.ofByte 0x2B from h2), if_neg (by simp [h1, h2])]
    obtain ⟨neg, key⟩ := key
    rw [key]
    constructor
    · rintro (h0 | h0)
      · simp at h0
      · rw [p2 h0]; rfl
    · rintro ⟨_, h0⟩
      obtain ⟨ds, e⟩ := p1 h0
      rw [e]; exact ⟨_, rfl⟩

private theorem digit_least (cp : Nat) (h : CharUtil.isDigit cp = true) : 48 ≤ cp := by
  have : ∀ r ∈ CharUtil.digitRanges, 48 ≤ r.1 := by decide +kernel
  unfold CharUtil.isDigit at h
  rw [List.any_eq_true] at h
  obtain ⟨r, hr, hx⟩ := h
  have := this r hr
  have := (of_decide_eq_true hx).1
  omega

private theorem parseDigits_codes : ∀ (s : Str) (cps : List Nat), s.map Chr.getCodePoint = cps.map .ok →
    (∀ cp ∈ cps, CharUtil.isDigit cp = true) → parseDigits s = .ok (cps.map fun cp : Nat => (cp : Int) - 48)
  | [], [], _, _ => rfl
  | [], _ :: _, h, _ => by simp at h
  | _ :: _, [], h, _ => by simp at h
  | c :: s, cp :: cps, h, hd => by
    simp only [List.map_cons, List.cons.injEq] at h
    simp only [parseDigits, h.1, bind, Except.bind]
    rw [if_pos (hd cp (by simp)), parseDigits_codes s cps h.2 fun x hx => hd x (by simp [hx])]
    rfl

/-- C37, exactly, for what is accepted: the "digits" of the number are the code points less 48, whatever the script, without leading
zeros; so the result is a number if and only if all of them are ASCII digits (a sign alone, with none, is 0). -/
theorem C37_exact_fails (s : Str) (cps : List Nat) (hne : s ≠ []) (h : (unsignedPart s).map Chr.getCodePoint = cps.map .ok)
    (hd : ∀ cp ∈ cps, CharUtil.isDigit cp = true) :
    BigInt.parse s = .ok ⟨((cps.map fun cp : Nat => (cp : Int) - 48).dropWhile (· == 0)).reverse,
      decide (s.head? = some ⟨[0x2D]⟩ ∧ ∃ cp ∈ cps, cp ≠ 48)⟩ ∧
    ((∃ z, BigInt.parse s = .ok (big z)) ↔ ∀ cp ∈ cps, cp ≤ 57) := by
  have hp := parseDigits_codes _ cps h hd
  have hempty : ∀ l : List Nat, (((l.map fun cp : Nat => (cp : Int) - 48).dropWhile (· == 0)) = [] ↔ ∀ cp ∈ l, cp = 48) := by
    intro l
    induction l with
    | nil => simp
    | cons a l ih =>
      simp only [List.map_cons, List.dropWhile_cons]
      by_cases ha : a = 48
      · subst ha; simp [ih]
      · have : ¬ ((a : Int) - 48 = 0) := by omega
        simp [this, ha]
  have key : BigInt.parse s = .ok ⟨((cps.map fun cp : Nat => (cp : Int) - 48).dropWhile (· == 0)).reverse,
      decide (s.head? = some ⟨[0x2D]⟩ ∧ ∃ cp ∈ cps, cp ≠ 48)⟩ := by
    have hr : ∀ neg : Bool, removeLeadingZeros ⟨(cps.map fun cp : Nat => (cp : Int) - 48).reverse, neg⟩ =
        ⟨((cps.map fun cp : Nat => (cp : Int) - 48).dropWhile (· == 0)).reverse, neg && decide (∃ cp ∈ cps, cp ≠ 48)⟩ := by
      intro neg
      unfold removeLeadingZeros trim
      simp only [List.reverse_reverse, BigInt.mk.injEq, true_and, List.isEmpty_reverse, List.isEmpty_iff]
      by_cases hx : ∀ cp ∈ cps, cp = 48
      · have hx' : ¬ ∃ cp ∈ cps, cp ≠ 48 := by rintro ⟨cp, h1, h2⟩; exact h2 (hx cp h1)
        rw [if_pos ((hempty cps).mpr hx), decide_eq_false hx', Bool.and_false]
      · have hx' : ∃ cp ∈ cps, cp ≠ 48 := by
          refine Classical.byContradiction fun hn => hx fun cp hcp => Classical.byContradiction fun h48 => hn ⟨cp, hcp, h48⟩
        rw [if_neg (fun e => hx ((hempty cps).mp e)), decide_eq_true hx', Bool.and_true]
    cases s with
    | nil => exact absurd rfl hne
    | cons c cs =>
      by_cases h1 : c = ⟨[0x2D]⟩
      · subst h1
        have hp' : parseDigits cs = .ok (cps.map fun cp : Nat => (cp : Int) - 48) := hp
        have e : BigInt.parse (⟨[0x2D]⟩ :: cs) = (parseDigits cs).map fun ds => removeLeadingZeros ⟨ds.reverse, true⟩ := by
          cases hq : parseDigits cs <;> simp [BigInt.parse, Chr.ofByte, hq, bind, Except.bind, Except.map, pure, Except.pure]
        rw [e, hp', Except.map, hr true]
        simp
      · by_cases h2 : c = ⟨[0x2B]⟩
        · subst h2
          have hp' : parseDigits cs = .ok (cps.map fun cp : Nat => (cp : Int) - 48) := hp
          have e : BigInt.parse (⟨[0x2B]⟩ :: cs) = (parseDigits cs).map fun ds => removeLeadingZeros ⟨ds.reverse, false⟩ := by
            cases hq : parseDigits cs <;> simp [BigInt.parse, Chr.ofByte, hq, bind, Except.bind, Except.map, pure, Except.pure]
          rw [e, hp', Except.map, hr false]
          simp
        · have hu : unsignedPart (c :: cs) = c :: cs := by
            simp only [unsignedPart, h1, h2, or_self, if_false]
          rw [hu] at hp
          have e : BigInt.parse (c :: cs) = (parseDigits (c :: cs)).map fun ds => removeLeadingZeros ⟨ds.reverse, false⟩ := by
            simp only [BigInt.parse]
            rw [if_neg (show ¬ c = Chr.ofByte 0x2D from h1), if_neg (show ¬ c = Chr.ofByte 0x2B from h2)]
            cases parseDigits (c :: cs) <;> rfl
          rw [e, hp, Except.map, hr false]
          simp [h1]
  refine ⟨key, ?_⟩
  rw [key]
  constructor
  · rintro ⟨z, hz⟩ cp hcp
    injection hz with hz
    have hv := digs_valid z.natAbs
    have e : ((cps.map fun cp : Nat => (cp : Int) - 48).dropWhile (· == 0)).reverse = digs z.natAbs := congrArg BigInt.digits hz
    rw [← e] at hv
    have hm : ∀ l : List Nat, cp ∈ l → cp = 48 ∨ ((cp : Int) - 48) ∈ (l.map fun cp : Nat => (cp : Int) - 48).dropWhile (· == 0) := by
      intro l
      induction l with
      | nil => intro h; cases h
      | cons a l ih =>
        intro hmem
        simp only [List.map_cons, List.dropWhile_cons]
        by_cases ha : a = 48
        · subst ha
          simp only [show (((48 : Nat) : Int) - 48 == 0) = true by decide, if_true]
          rcases List.mem_cons.mp hmem with rfl | hmem
          · exact .inl rfl
          · exact ih hmem
        · have : (((a : Int) - 48 == 0) = true) = False := by simp; omega
          rw [if_neg (by rw [this]; exact id)]
          rcases List.mem_cons.mp hmem with rfl | hmem
          · exact .inr (by simp)
          · exact .inr (List.mem_cons_of_mem _ (List.mem_map.mpr ⟨cp, hmem, rfl⟩))
    rcases hm cps hcp with rfl | hx
    · omega
    · have := (hv _ (List.mem_reverse.mpr hx)).2
      omega
  · intro hall
    have hv : Valid (cps.map fun cp : Nat => (cp : Int) - 48).reverse := by
      intro d hdm
      obtain ⟨cp, hcp, rfl⟩ := List.mem_map.mp (List.mem_reverse.mp hdm)
      have := digit_least cp (hd cp hcp)
      have := hall cp hcp
      omega
    have ht := trim_eq_digs _ hv
    unfold trim at ht
    rw [List.reverse_reverse] at ht
    obtain ⟨n, hn⟩ : ∃ n : Nat, ((cps.map fun cp : Nat => (cp : Int) - 48).dropWhile (· == 0)).reverse = digs n := ⟨_, ht⟩
    rw [hn]
    have hz : n = 0 ↔ ∀ cp ∈ cps, cp = 48 := by
      rw [← hempty cps, ← List.reverse_eq_nil_iff, hn]
      constructor
      · rintro rfl; rfl
      · intro e
        refine Classical.byContradiction fun h0 => ?_
        unfold digs at e
        rw [if_neg h0] at e
        simp [Nat.toDigits_ne_nil] at e
    by_cases hsgn : s.head? = some ⟨[0x2D]⟩ ∧ ∃ cp ∈ cps, cp ≠ 48
    · refine ⟨-(n : Int), ?_⟩
      rw [decide_eq_true hsgn]
      have hn0 : n ≠ 0 := by
        intro e
        obtain ⟨cp, h1, h2⟩ := hsgn.2
        exact h2 (hz.mp e cp h1)
      unfold big
      rw [Int.natAbs_neg, Int.natAbs_natCast, decide_eq_true (by omega)]
    · refine ⟨n, ?_⟩
      rw [decide_eq_false hsgn]
      unfold big
      rw [Int.natAbs_natCast, decide_eq_false (by omega)]

/-- Digits of other scripts and ASCII digits mixed: the "digits" 1, 1587, 0. -/
example : BigInt.parse c!"-01٣0" = .ok ⟨[0, 1587, 1], true⟩ ∧ (unsignedPart c!"-01٣0").map Chr.getCodePoint =
    [48, 49, 0x663, 48].map .ok := by decide +kernel

/-- C37 is false as stated: a lone sign is accepted as zero, and an Arabic-Indic three (U+0663) is
accepted as a "digit" of value 1587. -/
theorem C37_fails : BigInt.parse c!"-" = .ok (big 0) ∧ BigInt.parse c!"+" = .ok (big 0) ∧
    BigInt.parse c!"٣" = .ok ⟨[1587], false⟩ := by decide +kernel

example : BigInt.parse c!"12x4" = .error .invalidArgument ∧ BigInt.parse c!"1-2" = .error .invalidArgument ∧
    BigInt.parse [] = .error .invalidArgument := by decide +kernel

/-! ## C38 -/

/-- C38, what `Add` computes for all pairs: the sum, except that a negative left operand of larger
magnitude than a non-negative right operand loses its sign, and `x + (-x)` for positive
`x` is a zero with the sign flag set. -/
theorem C38_add_exact (x y : Int) : BigInt.add (big x) (big y) = .ok (
    if x < 0 ∧ 0 ≤ y ∧ y < -x then big (-(x + y))
    else if 0 < x ∧ y = -x then negZero
    else big (x + y)) := by
  rw [big_mk, big_mk, add_mk]
  refine congrArg Except.ok ?_
  have hz : negZero = mk' 0 true := rfl
  by_cases hx : x < 0 <;> by_cases hy : y < 0
  · simp only [hx, hy, decide_true, if_true]
    rw [if_neg (by omega), if_neg (by omega), if_neg (by omega), big_mk,
      decide_eq_true (by omega : x + y < 0), show (x + y).natAbs = x.natAbs + y.natAbs by omega]
  · simp only [hx, hy, decide_true, decide_false, Bool.true_eq_false, if_false]
    simp only [true_and]
    by_cases hm : y.natAbs < x.natAbs
    · rw [if_pos hm, if_pos (by omega), big_mk, decide_eq_false (by omega : ¬ -(x + y) < 0),
        show (-(x + y)).natAbs = x.natAbs - y.natAbs by omega]
    · rw [if_neg hm, if_neg (by omega), if_neg (by omega), big_mk,
        decide_eq_false (by omega : ¬ x + y < 0), show (x + y).natAbs = y.natAbs - x.natAbs by omega]
  · simp only [hx, hy, decide_true, decide_false, Bool.false_eq_true, if_false]
    by_cases hm : y.natAbs < x.natAbs
    · rw [if_pos hm, if_neg (by omega), if_neg (by omega), big_mk,
        decide_eq_false (by omega : ¬ x + y < 0), show (x + y).natAbs = x.natAbs - y.natAbs by omega]
    · rw [if_neg hm, if_neg (by omega)]
      by_cases he : 0 < x ∧ y = -x
      · rw [if_pos he, hz, show y.natAbs - x.natAbs = 0 by omega]
      · rw [if_neg he, big_mk, decide_eq_true (by omega : x + y < 0),
          show (x + y).natAbs = y.natAbs - x.natAbs by omega]
  · simp only [hx, hy, decide_false, if_true, ite_self]
    rw [if_neg (by omega), if_neg (by omega), big_mk, decide_eq_false (by omega : ¬ x + y < 0),
      show (x + y).natAbs = x.natAbs + y.natAbs by omega]

/-- C38. Partial: the sum is exact for operands of equal sign, and for mixed signs when the left
operand is positive and larger or has the smaller magnitude. Missing: the pairs listed in
`C38_add_exact` (`C38_fails`). -/
theorem C38_add_partial (x y : Int)
    (h : (0 ≤ x ∧ 0 ≤ y) ∨ (x < 0 ∧ y < 0) ∨ (0 ≤ x ∧ y < 0 ∧ x ≠ -y) ∨ (x < 0 ∧ -x ≤ y)) :
    BigInt.add (big x) (big y) = .ok (big (x + y)) := by
  rw [C38_add_exact, if_neg (by omega), if_neg (by omega)]

/-- C38 is false as stated: (-5) + 3 is 2, (-5) + 0 is 5, and 5 + (-5) is a zero that is not equal
to 0. -/
theorem C38_fails : BigInt.add (big (-5)) (big 3) = .ok (big 2) ∧
    BigInt.add (big (-5)) (big 0) = .ok (big 5) ∧
    BigInt.add (big 5) (big (-5)) = .ok negZero ∧ BigInt.opEq negZero (big 0) = false := by
  decide +kernel

example : BigInt.add (big 999) (big 1) = .ok (big 1000) ∧ BigInt.add (big 7) (big (-10)) = .ok (big (-3)) := by
  decide +kernel

/-! ## C39 -/

/-- C39, what `Subtract` computes for all pairs. -/
theorem C39_subtract_exact (x y : Int) : BigInt.subtract (big x) (big y) = .ok (
    if 0 ≤ x ∧ 0 ≤ y then big (x - y)
    else if x < 0 ∧ y < 0 then big (y - x)
    else if 0 ≤ x then big (x + y).natAbs
    else if x + y = 0 then negZero
    else big (-(x + y).natAbs)) := by
  rw [big_mk, big_mk, subtract_mk]
  refine congrArg Except.ok ?_
  have hz : negZero = mk' 0 true := rfl
  have e0 : big 0 = mk' 0 false := rfl
  by_cases hx : x < 0 <;> by_cases hy : y < 0
  · simp only [hx, hy, decide_true, if_true]
    rw [if_neg (show ¬ (0 ≤ x ∧ 0 ≤ y) by omega), if_pos (show True ∧ True from ⟨trivial, trivial⟩)]
    by_cases h1 : x.natAbs = y.natAbs
    · rw [if_pos h1, show y - x = 0 by omega, e0]
    · rw [if_neg h1]
      by_cases h2 : x.natAbs < y.natAbs
      · rw [if_pos h2, big_mk, decide_eq_true (by omega : y - x < 0),
          show (y - x).natAbs = y.natAbs - x.natAbs by omega]
      · rw [if_neg h2, big_mk, decide_eq_false (by omega : ¬ y - x < 0),
          show (y - x).natAbs = x.natAbs - y.natAbs by omega]
  · simp only [hx, hy, decide_true, decide_false, Bool.true_eq_false, if_false]
    rw [if_neg (show ¬ (0 ≤ x ∧ 0 ≤ y) by omega), if_neg (show ¬ (True ∧ False) by simp),
      if_neg (show ¬ 0 ≤ x by omega)]
    by_cases h0 : x + y = 0
    · rw [if_pos h0, hz, if_neg (by omega), show y.natAbs - x.natAbs = 0 by omega]
    · rw [if_neg h0, big_mk, decide_eq_true (by omega : -((x + y).natAbs : Int) < 0)]
      congr 1
      split <;> omega
  · simp only [hx, hy, decide_true, decide_false, Bool.false_eq_true, if_false]
    rw [if_neg (show ¬ (0 ≤ x ∧ 0 ≤ y) by omega), if_neg (show ¬ (False ∧ True) by simp),
      if_pos (show 0 ≤ x by omega), big_mk, decide_eq_false (by omega : ¬ ((x + y).natAbs : Int) < 0)]
    congr 1
    split <;> omega
  · simp only [hx, hy, decide_false, if_true]
    rw [if_pos (show 0 ≤ x ∧ 0 ≤ y by omega)]
    by_cases h1 : x.natAbs = y.natAbs
    · rw [if_pos h1, show x - y = 0 by omega, e0]
    · rw [if_neg h1]
      by_cases h2 : x.natAbs < y.natAbs
      · rw [if_pos h2, big_mk, decide_eq_true (by omega : x - y < 0),
          show (x - y).natAbs = y.natAbs - x.natAbs by omega]
      · rw [if_neg h2, big_mk, decide_eq_false (by omega : ¬ x - y < 0),
          show (x - y).natAbs = x.natAbs - y.natAbs by omega]

/-- C39. Partial: exact when both operands are non-negative, when they are equal, or when one of them
is 0. Missing: two different negative operands (the result has the opposite sign) and
non-zero operands of different signs (`C39_fails`). -/
theorem C39_subtract_partial (x y : Int) (h : (0 ≤ x ∧ 0 ≤ y) ∨ x = y ∨ x = 0 ∨ y = 0) :
    BigInt.subtract (big x) (big y) = .ok (big (x - y)) := by
  rw [C39_subtract_exact]
  refine congrArg Except.ok ?_
  by_cases h1 : 0 ≤ x ∧ 0 ≤ y
  · rw [if_pos h1]
  · rw [if_neg h1]
    by_cases h2 : x < 0 ∧ y < 0
    · rw [if_pos h2, show y - x = x - y by omega]
    · rw [if_neg h2]
      by_cases h3 : 0 ≤ x
      · rw [if_pos h3]; congr 1; omega
      · rw [if_neg h3, if_neg (by omega)]; congr 1; omega

/-- C39 is false as stated: 5 - (-3) is 2, (-5) - 3 is -2, (-5) - (-3) is 2, (-5) - 5 is a zero that is
not equal to 0. -/
theorem C39_fails : BigInt.subtract (big 5) (big (-3)) = .ok (big 2) ∧
    BigInt.subtract (big (-5)) (big 3) = .ok (big (-2)) ∧
    BigInt.subtract (big (-5)) (big (-3)) = .ok (big 2) ∧
    BigInt.subtract (big (-5)) (big 5) = .ok negZero := by decide +kernel

example : BigInt.subtract (big 1000) (big 1) = .ok (big 999) ∧
    BigInt.subtract (big 3) (big 12) = .ok (big (-9)) := by decide +kernel

/-! ## C40 -/

/-- C40. The product of any two numbers is exact and canonical; the computation has no undefined
behaviour (no overflow, no access out of bounds). -/
theorem C40_multiply (x y : Int) : BigInt.multiply (big x) (big y) = .ok (big (x * y)) :=
  multiply_big x y

example : BigInt.multiply (big (-99)) (big 98) = .ok (big (-9702)) := by decide +kernel

/-! ## C41 -/

/-- C41. Division truncates toward zero (`Int.tdiv`), and division by zero throws
`invalid_argument`. -/
theorem C41_divide (x y : Int) :
    (y ≠ 0 → BigInt.divide (big x) (big y) = .ok (big (x.tdiv y))) ∧
    BigInt.divide (big x) (big 0) = .error .invalidArgument :=
  ⟨divide_big x y, divide_zero (big x)⟩

/-- `Int.tdiv` is indeed rounding toward zero: the quotient times the divisor is within one divisor of
the dividend, on the side of zero. -/
theorem C41_truncates (x y : Int) (hy : y ≠ 0) :
    (x.tdiv y * y).natAbs ≤ x.natAbs ∧ x.natAbs < (x.tdiv y * y).natAbs + y.natAbs ∧
    0 ≤ x * (x.tdiv y * y) := by
  have h1 : (x.tdiv y).natAbs = x.natAbs / y.natAbs := Int.natAbs_tdiv x y
  rw [Int.natAbs_mul, h1]
  have hpos : 0 < y.natAbs := by omega
  have h2 := Nat.div_add_mod x.natAbs y.natAbs
  have h3 := Nat.mod_lt x.natAbs hpos
  rw [Nat.mul_comm] at h2
  refine ⟨by omega, by omega, ?_⟩
  have e := Int.mul_tdiv_add_tmod x y
  rcases Int.le_total 0 x with hx | hx
  · have := Int.tmod_nonneg y hx
    have hl : x.tmod y ≤ x := by
      have := Int.natAbs_tmod x y
      have := Nat.mod_le x.natAbs y.natAbs
      omega
    apply Int.mul_nonneg hx
    rw [Int.mul_comm]; omega
  · have h4 : x.tmod y ≤ 0 := by
      have := Int.tmod_nonneg (a := -x) y (by omega)
      rw [Int.neg_tmod] at this; omega
    have hl : x ≤ x.tmod y := by
      have := Int.natAbs_tmod x y
      have := Nat.mod_le x.natAbs y.natAbs
      omega
    have h5 : x.tdiv y * y ≤ 0 := by rw [Int.mul_comm]; omega
    have := Int.mul_nonneg (a := -x) (b := -(x.tdiv y * y)) (by omega) (by omega)
    rwa [Int.neg_mul_neg] at this

/-- C41, the divisor that no number equals: dividing by "negative zero" (which `5 + (-5)` produces) is not
detected and yields an invalid digit. -/
theorem C41_negative_zero_divisor_fails :
    BigInt.add (big 5) (big (-5)) = .ok negZero ∧
    BigInt.divide (big 7) negZero = .ok ⟨[10], true⟩ := by decide +kernel

example : BigInt.divide (big (-7)) (big 2) = .ok (big (-3)) ∧ (-7 : Int).tdiv 2 = -3 := by decide +kernel

/-! ## C42 -/

/-- C42. The remainder has the value `Int.tmod` (`x - y * (x / y)`, sign of `x`, magnitude below `y`).
Its representation is canonical except that an exact division of a negative number gives a
zero with the sign flag. -/
theorem C42_modulo_exact (x y : Int) (hy : y ≠ 0) :
    BigInt.modulo (big x) (big y) =
      .ok (if x < 0 ∧ y ∣ x then negZero else big (x.tmod y)) := by
  unfold BigInt.modulo
  simp only [divide_big x y hy, multiply_big, bind, Except.bind]
  have e := Int.mul_tdiv_add_tmod x y
  have hd : y ∣ x ↔ x.tmod y = 0 := Int.dvd_iff_tmod_eq_zero
  have hmag := Int.natAbs_tmod x y
  have hle := Nat.mod_le x.natAbs y.natAbs
  rw [Int.mul_comm y] at e
  generalize hp : x.tdiv y * y = p at *
  generalize hr : x.tmod y = r at *
  have hz : negZero = mk' 0 true := rfl
  have m2 : ∀ m s, (mk' m s).digits = digs m := fun _ _ => rfl
  rcases Int.lt_or_le x 0 with hx | hx
  · have hr0 : r ≤ 0 := by
      have := Int.tmod_nonneg (a := -x) y (by omega)
      rw [Int.neg_tmod] at this; omega
    rw [big_mk, big_mk, subtract_mk, decide_eq_true hx]
    by_cases h0 : r = 0
    · rw [decide_eq_true (by omega : p < 0), if_pos rfl, if_pos (show x.natAbs = p.natAbs by omega),
        if_pos ⟨hx, hd.mpr h0⟩]
      rfl
    · have hnd : ¬ (x < 0 ∧ y ∣ x) := fun h => h0 (hd.mp h.2)
      by_cases hp0 : p < 0
      · rw [decide_eq_true hp0, if_pos rfl, if_neg (show ¬ x.natAbs = p.natAbs by omega),
          if_neg (show ¬ x.natAbs < p.natAbs by omega), if_neg hnd]
        simp only [pure, Except.pure, mk'_neg, m2, big]
        rw [decide_eq_true (by omega : r < 0), show r.natAbs = x.natAbs - p.natAbs by omega]
        rfl
      · rw [decide_eq_false hp0, if_neg (by simp), if_pos (show p.natAbs < x.natAbs by omega),
          if_neg hnd]
        simp only [pure, Except.pure, mk'_neg, m2, big]
        rw [decide_eq_true (by omega : r < 0), show r.natAbs = x.natAbs - p.natAbs by omega]
        rfl
  · have hr0 : 0 ≤ r := by
      have := Int.tmod_nonneg (a := x) y (by omega)
      omega
    rw [if_neg (by omega), big_mk, big_mk, subtract_mk, decide_eq_false (by omega : ¬ x < 0),
      decide_eq_false (by omega : ¬ p < 0), if_pos rfl]
    have : (if x.natAbs = p.natAbs then mk' 0 false
        else if x.natAbs < p.natAbs then mk' (p.natAbs - x.natAbs) true
        else mk' (x.natAbs - p.natAbs) false) = mk' r.natAbs false := by
      by_cases h1 : x.natAbs = p.natAbs
      · rw [if_pos h1, show r.natAbs = 0 by omega]
      · rw [if_neg h1, if_neg (by omega), show r.natAbs = x.natAbs - p.natAbs by omega]
    rw [this]
    simp only [pure, Except.pure, mk'_neg, m2, big]
    rw [decide_eq_false (by omega : ¬ r < 0)]
    rfl

/-- C42. Partial: `a % b` is the canonical number of that value unless `a` is a negative multiple of `b`;
`x % 0` throws `invalid_argument`. Missing: negative multiples, where the result prints as "0" but is
not equal to 0 (`C42_fails`). -/
theorem C42_modulo_partial (x y : Int) :
    (y ≠ 0 → ¬ (x < 0 ∧ y ∣ x) → ∃ r, BigInt.modulo (big x) (big y) = .ok (big r) ∧
      r = x - y * x.tdiv y ∧ r.natAbs < y.natAbs ∧ (0 ≤ x → 0 ≤ r) ∧ (x < 0 → r < 0)) ∧
    BigInt.modulo (big x) (big 0) = .error .invalidArgument := by
  constructor
  · intro hy h
    refine ⟨x.tmod y, by rw [C42_modulo_exact x y hy, if_neg h], ?_, ?_, ?_, ?_⟩
    · have := Int.mul_tdiv_add_tmod x y; omega
    · rw [Int.natAbs_tmod]; exact Nat.mod_lt _ (by omega)
    · exact fun hx => Int.tmod_nonneg y hx
    · intro hx
      have h1 := Int.tmod_nonneg (a := -x) y (by omega)
      rw [Int.neg_tmod] at h1
      have h2 : x.tmod y ≠ 0 := fun e => h ⟨hx, Int.dvd_iff_tmod_eq_zero.mpr e⟩
      omega
  · unfold BigInt.modulo
    rw [(C41_divide x 0).2]; rfl

/-- C42 is false as stated: (-6) % 3 is a zero that is not equal to 0 (it prints as "0"). -/
theorem C42_fails : BigInt.modulo (big (-6)) (big 3) = .ok negZero ∧
    BigInt.opEq negZero (big 0) = false ∧ BigInt.toString negZero = c!"0" := by decide +kernel

example : BigInt.modulo (big (-7)) (big 3) = .ok (big (-1)) ∧ BigInt.modulo (big 7) (big (-3)) = .ok (big 1) := by
  decide +kernel

/-! ## C43 -/

/-- C43. `Pow(e)` is the power for `e >= 0` (with enough loop rounds: `e + 1` suffice, so it
terminates) and throws `invalid_argument` for negative `e`. -/
theorem C43_pow (x : Int) :
    (∀ (e fuel : Nat), e < fuel → BigInt.pow fuel (big x) e = .ok (big (x ^ e))) ∧
    (∀ (e : Int) (fuel : Nat), e < 0 → BigInt.pow fuel (big x) e = .error .invalidArgument) := by
  constructor
  · intro e fuel h
    unfold BigInt.pow
    rw [if_neg (by omega)]
    simp only [parse_one, bind, Except.bind]
    rw [powLoop_spec fuel 1 x e h, Int.one_mul]
  · intro e fuel h
    unfold BigInt.pow
    rw [if_pos h]

example : BigInt.pow 6 (big (-3)) 5 = .ok (big (-243)) := by decide +kernel

/-! ## C44 -/

/-- C44. `Sqrt()` of a non-negative number terminates (`n + 1` rounds suffice) and is the integer square
root; it throws `invalid_argument` for negative numbers. -/
theorem C44_sqrt (x : Int) :
    (0 ≤ x → ∃ r : Nat, (∀ fuel : Nat, x < fuel → BigInt.sqrt fuel (big x) = .ok (big r)) ∧
      (r * r : Int) ≤ x ∧ x < (r + 1) * (r + 1)) ∧
    (x < 0 → ∀ fuel, BigInt.sqrt fuel (big x) = .error .invalidArgument) := by
  constructor
  · intro hx
    obtain ⟨n, rfl⟩ := Int.eq_ofNat_of_zero_le hx
    have e : ∀ n : Nat, big (n : Int) = mk' n false := by intro n; simp [big, mk']
    by_cases h2 : n < 2
    · refine ⟨n, ?_, ?_, ?_⟩
      · intro fuel _
        have : n = 0 ∨ n = 1 := by omega
        unfold BigInt.sqrt
        rcases this with rfl | rfl
        · rw [if_neg (by decide)]
          simp only [parse_zero, bind, Except.bind, parse_one]
          rfl
        · rw [if_neg (by decide)]
          simp only [parse_zero, bind, Except.bind, parse_one]
          rfl
      · have : n = 0 ∨ n = 1 := by omega
        rcases this with rfl | rfl <;> decide
      · have : n = 0 ∨ n = 1 := by omega
        rcases this with rfl | rfl <;> decide
    · have hb : n < (n + 1) * (n + 1) := by
        rw [Nat.add_mul, Nat.mul_add]
        omega
      obtain ⟨r, _, h3, h4⟩ := sqrtLoop_spec n (n + 1) 1 n (by omega) (by omega) (by simp) hb (by omega)
      refine ⟨r, ?_, by exact_mod_cast h3, by exact_mod_cast h4⟩
      intro fuel hf
      obtain ⟨r', g1, g3, g4⟩ := sqrtLoop_spec n fuel 1 n (by omega) (by omega) (by simp) hb (by omega)
      have : r' = r := by
        rcases Nat.lt_trichotomy r' r with h | h | h
        · have := Nat.mul_le_mul (show r' + 1 ≤ r by omega) (show r' + 1 ≤ r by omega); omega
        · exact h
        · have := Nat.mul_le_mul (show r + 1 ≤ r' by omega) (show r + 1 ≤ r' by omega); omega
      subst this
      unfold BigInt.sqrt
      rw [e, if_neg (by simp [mk'_neg])]
      have e1 : BigInt.parse c!"1" = .ok (mk' 1 false) := parse_one
      simp only [parse_zero, bind, Except.bind, e1]
      rw [equal_mk, equal_mk, show decide (n = 0) = false by simp; omega,
        show decide (n = 1) = false by simp; omega]
      simp only [Bool.false_and, Bool.or_false, Bool.false_eq_true, if_false]
      rw [g1, e]
  · intro hx fuel
    unfold BigInt.sqrt
    rw [if_pos (by simp [big, hx])]

example : BigInt.sqrt 200 (big 144) = .ok (big 12) ∧ BigInt.sqrt 200 (big 143) = .ok (big 11) := by
  decide +kernel

/-! ## C45 -/

/-- C45, what the comparison operators compute for all pairs of canonical numbers: equality is right
everywhere; the order is the integer order unless both numbers are negative, where it is
reversed. -/
theorem C45_compare_exact (x y : Int) :
    BigInt.opEq (big x) (big y) = decide (x = y) ∧ BigInt.opNe (big x) (big y) = decide (x ≠ y) ∧
    BigInt.opLt (big x) (big y) = (if x < 0 ∧ y < 0 then decide (y < x) else decide (x < y)) ∧
    BigInt.opGt (big x) (big y) = (if x < 0 ∧ y < 0 then decide (x < y) else decide (y < x)) ∧
    BigInt.opLe (big x) (big y) = (if x < 0 ∧ y < 0 then decide (y ≤ x) else decide (x ≤ y)) ∧
    BigInt.opGe (big x) (big y) = (if x < 0 ∧ y < 0 then decide (x ≤ y) else decide (y ≤ x)) := by
  have he : BigInt.equal (big x) (big y) = decide (x = y) := by
    rw [big_mk, big_mk, equal_mk]
    by_cases hx : x < 0 <;> by_cases hy : y < 0 <;> simp [hx, hy] <;> omega
  have hl : BigInt.lessThan (big x) (big y) =
      (if x < 0 ∧ y < 0 then decide (y < x) else decide (x < y)) := by
    rw [big_mk, big_mk, lessThan_mk]
    by_cases hx : x < 0 <;> by_cases hy : y < 0 <;> simp [hx, hy] <;> omega
  unfold BigInt.opEq BigInt.opNe BigInt.opLt BigInt.opGt BigInt.opLe BigInt.opGe BigInt.greaterThan
  rw [he, hl]
  refine ⟨rfl, by simp, rfl, ?_, ?_, ?_⟩
  · split <;> rw [Bool.eq_iff_iff] <;> simp <;> omega
  · split <;> rw [Bool.eq_iff_iff] <;> simp <;> omega
  · split <;> rw [Bool.eq_iff_iff] <;> simp <;> omega

/-- C45. Partial: all six operators are right unless both numbers are negative and different. Missing:
two different negative numbers (`C45_fails`). -/
theorem C45_compare_partial (x y : Int) (h : 0 ≤ x ∨ 0 ≤ y ∨ x = y) :
    BigInt.opEq (big x) (big y) = decide (x = y) ∧ BigInt.opNe (big x) (big y) = decide (x ≠ y) ∧
    BigInt.opLt (big x) (big y) = decide (x < y) ∧ BigInt.opGt (big x) (big y) = decide (y < x) ∧
    BigInt.opLe (big x) (big y) = decide (x ≤ y) ∧ BigInt.opGe (big x) (big y) = decide (y ≤ x) := by
  obtain ⟨h1, h2, h3, h4, h5, h6⟩ := C45_compare_exact x y
  rw [h1, h2, h3, h4, h5, h6]
  refine ⟨rfl, rfl, ?_, ?_, ?_, ?_⟩ <;> split <;> first | rfl | (rw [decide_eq_decide]; omega)

/-- C45 is false as stated: -5 < -3 is reported false. -/
theorem C45_fails : BigInt.opLt (big (-5)) (big (-3)) = false ∧ BigInt.opGt (big (-5)) (big (-3)) = true := by
  decide +kernel

example : BigInt.opLt (big 99) (big 100) = true ∧ BigInt.opLt (big (-1)) (big 0) = true := by decide +kernel

/-! ## C46 -/

/-- The numbers a program can compute from ASCII numerals with the API, as long as it does not divide
by a zero whose sign flag is set. -/
inductive Computed : BigInt → Prop
  | numeral (z : Int) (b) : BigInt.parse (decimal z) = .ok b → Computed b
  | int (z : Int) (b) : BigInt.ofInt z = .ok b → Computed b
  | default : Computed BigInt.default
  | copy (a) : Computed a → Computed (BigInt.copy a)
  | moved (a) : Computed a → Computed (BigInt.move a).2
  | movedTo (a) : Computed a → Computed (BigInt.move a).1
  | add (a b r) : Computed a → Computed b → BigInt.add a b = .ok r → Computed r
  | subtract (a b r) : Computed a → Computed b → BigInt.subtract a b = .ok r → Computed r
  | multiply (a b r) : Computed a → Computed b → BigInt.multiply a b = .ok r → Computed r
  | divide (a b r) : Computed a → Computed b → b ≠ negZero → BigInt.divide a b = .ok r → Computed r
  | modulo (a b r) : Computed a → Computed b → b ≠ negZero → BigInt.modulo a b = .ok r → Computed r
  | abs (a) : Computed a → Computed (BigInt.abs a)
  | trimmed (a) : Computed a → Computed (BigInt.removeLeadingZeros a)

theorem computed_mk (b : BigInt) (h : Computed b) : ∃ m s, b = mk' m s := by
  induction h with
  | numeral z b h => rw [parse_decimal] at h; injection h with h; exact ⟨_, _, h.symm⟩
  | int z b h => rw [ofInt_eq] at h; injection h with h; exact ⟨_, _, h.symm⟩
  | default => exact ⟨0, false, rfl⟩
  | copy a _ ih => obtain ⟨m, s, rfl⟩ := ih; exact ⟨m, s, rfl⟩
  | moved a _ ih => exact ⟨0, false, rfl⟩
  | movedTo a _ ih => exact ih
  | add a b r _ _ h iha ihb =>
    obtain ⟨m, s, rfl⟩ := iha; obtain ⟨n, t, rfl⟩ := ihb
    rw [add_mk] at h; injection h with h
    rw [← h]; repeat' split
    all_goals exact ⟨_, _, rfl⟩
  | subtract a b r _ _ h iha ihb =>
    obtain ⟨m, s, rfl⟩ := iha; obtain ⟨n, t, rfl⟩ := ihb
    rw [subtract_mk] at h; injection h with h
    rw [← h]; repeat' split
    all_goals exact ⟨_, _, rfl⟩
  | multiply a b r _ _ h iha ihb =>
    obtain ⟨m, s, rfl⟩ := iha; obtain ⟨n, t, rfl⟩ := ihb
    rw [multiply_mk] at h; injection h with h
    exact ⟨_, _, h.symm⟩
  | divide a b r _ _ hz h iha ihb =>
    obtain ⟨m, s, rfl⟩ := iha; obtain ⟨n, t, rfl⟩ := ihb
    by_cases hn : n = 0
    · subst hn
      cases t with
      | true => exact absurd rfl hz
      | false => rw [divide_zero] at h; simp at h
    · rw [divide_mk _ _ _ _ (by omega)] at h; injection h with h
      exact ⟨_, _, h.symm⟩
  | modulo a b r _ _ hz h iha ihb =>
    obtain ⟨m, s, rfl⟩ := iha; obtain ⟨n, t, rfl⟩ := ihb
    unfold BigInt.modulo at h
    by_cases hn : n = 0
    · subst hn
      cases t with
      | true => exact absurd rfl hz
      | false => rw [divide_zero] at h; simp [bind, Except.bind] at h
    · rw [divide_mk _ _ _ _ (by omega)] at h
      simp only [bind, Except.bind, multiply_mk, subtract_mk, pure, Except.pure] at h
      injection h with h
      rw [← h]
      have gen : ∀ (v : BigInt) (s : Bool), (∃ m t, v = mk' m t) →
          ∃ m t, (⟨v.digits, s⟩ : BigInt) = mk' m t := by
        rintro v s ⟨m, t, rfl⟩; exact ⟨m, s, rfl⟩
      apply gen
      repeat' split
      all_goals exact ⟨_, _, rfl⟩
  | abs a _ ih => obtain ⟨m, s, rfl⟩ := ih; exact ⟨m, false, rfl⟩
  | trimmed a _ ih =>
    obtain ⟨m, s, rfl⟩ := ih
    exact ⟨_, _, rlz_eq (digs m) s (digs_valid m) m (val_digs m)⟩

/-- C46. Partial: every computed number has digits 0..9 without leading zero; it is the canonical
number of its value or the zero with sign flag. Missing: "no negative zero" (`C46_fails`), and
division by such a zero, which even creates the digit 10 (`C41_negative_zero_divisor_fails`). -/
theorem C46_canonical_partial (b : BigInt) (h : Computed b) :
    (∀ d ∈ b.digits, 0 ≤ d ∧ d ≤ 9) ∧ b.digits.getLast? ≠ some 0 ∧ (b = negZero ∨ ∃ z, b = big z) := by
  obtain ⟨m, s, rfl⟩ := computed_mk b h
  refine ⟨digs_valid m, fun e => digs_noLead m 0 e rfl, ?_⟩
  cases s with
  | false => exact .inr ⟨m, by simp [big, mk']⟩
  | true =>
    by_cases hm : m = 0
    · subst hm; exact .inl rfl
    · refine .inr ⟨-(m : Int), ?_⟩
      unfold big mk'
      rw [Int.natAbs_neg, Int.natAbs_natCast, decide_eq_true (by omega)]

/-- C46. The canonical number of an integer is unique: equal values have equal representations. -/
theorem C46_unique (x y : Int) : big x = big y ↔ x = y := by
  constructor
  · intro h
    have h1 : digs x.natAbs = digs y.natAbs := congrArg BigInt.digits h
    have h2 : decide (x < 0) = decide (y < 0) := congrArg BigInt.neg h
    have h3 := digs_injective h1
    rw [decide_eq_decide] at h2
    omega
  · rintro rfl; rfl

/-- C46 is false as stated: a negative zero is computed from numerals. -/
theorem C46_fails : Computed negZero :=
  .add (big 5) (big (-5)) negZero (.numeral 5 _ (parse_decimal 5)) (.numeral (-5) _ (parse_decimal (-5)))
    (by decide +kernel)

/-! ## C47 -/

/-- C47. The 64-bit constructors are exact (they go through `std::to_string`). -/
theorem C47_int64 (v : Int) (_h : -(2 ^ 63) ≤ v ∧ v < 2 ^ 64) : BigInt.ofInt v = .ok (big v) :=
  ofInt_eq v

example : -(2 ^ 63) ≤ (-9223372036854775808 : Int) ∧
    BigInt.ofInt (-9223372036854775808) = .ok (big (-9223372036854775808)) ∧
    BigInt.toString (big (-9223372036854775808)) = c!"-9223372036854775808" := by decide +kernel

end Caitlyn
