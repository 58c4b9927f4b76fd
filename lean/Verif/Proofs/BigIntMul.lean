import Verif.Proofs.BigInt

/-!
# Lemmas about `BigInteger`: multiplication, division, parsing
-/

namespace Caitlyn
namespace BigInt
open Caitlyn.Spec

/-! ### Multiply -/

theorem mul_digit_range {x y : Int} (hx : 0 ≤ x ∧ x ≤ 9) (hy : 0 ≤ y ∧ y ≤ 9) :
    0 ≤ x * y ∧ x * y ≤ 81 := by
  constructor
  · exact Int.mul_nonneg hx.1 hy.1
  · have := Int.mul_le_mul hx.2 hy.2 hy.1 (by omega : (0 : Int) ≤ 9)
    omega

theorem mulInner_spec (x : Int) (hx : 0 ≤ x ∧ x ≤ 9) : ∀ (rs ys : List Int) (c : Int),
    Valid rs → Valid ys → 0 ≤ c → c ≤ 9 → ys.length ≤ rs.length →
    val rs + x * val ys + c < 10 ^ rs.length →
    ∃ r, mulInner x ys rs c = .ok r ∧ Valid r ∧ r.length = rs.length ∧
      val r = val rs + x * val ys + c := by
  intro rs
  induction rs with
  | nil =>
    intro ys c _ _ h0 _ hl hb
    have : ys = [] := List.length_eq_zero_iff.mp (by simpa using hl)
    subst this
    simp [val] at hb
    have : c = 0 := by omega
    subst this
    exact ⟨[], by simp [mulInner], valid_nil, rfl, by simp [val]⟩
  | cons r rs ih =>
    intro ys c hr hy h0 h9 hl hb
    have hr' := valid_cons.mp hr
    by_cases hstop : ys.isEmpty ∧ c = 0
    · obtain ⟨h1, h2⟩ := hstop
      have : ys = [] := List.isEmpty_iff.mp h1
      subst this; subst h2
      exact ⟨r :: rs, by simp [mulInner], hr, rfl, by simp [val]⟩
    · have hyr := headD_range hy
      have hp := mul_digit_range hx hyr
      have e1 : chkInt (x * ys.headD 0) = .ok (x * ys.headD 0) := chkInt_ok (by omega) (by omega)
      have e2 : chkInt (r + x * ys.headD 0) = .ok (r + x * ys.headD 0) :=
        chkInt_ok (by omega) (by omega)
      have e3 : chkInt (r + x * ys.headD 0 + c) = .ok (r + x * ys.headD 0 + c) :=
        chkInt_ok (by omega) (by omega)
      have hval : x * val ys = x * ys.headD 0 + 10 * (x * val ys.tail) := by
        rw [val_eq_head_tail ys]; grind
      generalize hs : r + x * ys.headD 0 + c = s at *
      have hdiv : s.tdiv 10 = s / 10 := Int.tdiv_eq_ediv_of_nonneg (by omega)
      have hmod : s.tmod 10 = s % 10 := Int.tmod_eq_emod_of_nonneg (by omega)
      have hb' : val rs + x * val ys.tail + s / 10 < 10 ^ rs.length := by
        rw [hval, val, List.length_cons, Int.pow_succ] at hb
        omega
      obtain ⟨t, h1, h2, h3, h4⟩ := ih ys.tail (s / 10) hr'.2 (valid_tail hy) (by omega) (by omega)
        (by simp at hl ⊢; omega) hb'
      refine ⟨s % 10 :: t, ?_, ?_, by simp [h3], ?_⟩
      · rw [mulInner, if_neg hstop]
        simp only [e1, bind, Except.bind, e2, hs, e3, hdiv, hmod, h1]
        rfl
      · rw [valid_cons]; exact ⟨by omega, h2⟩
      · rw [val, h4, val, hval]; omega

theorem mulOuter_spec (ys : List Int) (hy : Valid ys) : ∀ (xs rs : List Int), Valid xs → Valid rs →
    rs.length = xs.length + ys.length → val rs + val xs * val ys < 10 ^ rs.length →
    ∃ r, mulOuter xs ys rs = .ok r ∧ Valid r ∧ r.length = rs.length ∧
      val r = val rs + val xs * val ys := by
  intro xs
  induction xs with
  | nil => intro rs _ hr _ _; exact ⟨rs, rfl, hr, rfl, by simp [val]⟩
  | cons x xs ih =>
    intro rs hx hr hl hb
    have hx' := valid_cons.mp hx
    have hvx := val_nonneg xs hx'.2
    have hvy := val_nonneg ys hy
    have hnn : 0 ≤ val xs * val ys := Int.mul_nonneg hvx hvy
    have hexp : val (x :: xs) * val ys = x * val ys + 10 * (val xs * val ys) := by
      rw [val]; grind
    rw [hexp] at hb
    obtain ⟨r, h1, h2, h3, h4⟩ := mulInner_spec x hx'.1 rs ys 0 hr hy (by omega) (by omega)
      (by omega) (by omega)
    cases r with
    | nil => simp [hl] at h3; omega
    | cons r0 rt =>
      have h2' := valid_cons.mp h2
      have hlen : rt.length = xs.length + ys.length := by simp [hl] at h3; omega
      have hb' : val rt + val xs * val ys < 10 ^ rt.length := by
        rw [← h3, List.length_cons, Int.pow_succ] at hb
        rw [val] at h4
        omega
      obtain ⟨t, g1, g2, g3, g4⟩ := ih rt hx'.2 h2'.2 hlen hb'
      refine ⟨r0 :: t, ?_, ?_, ?_, ?_⟩
      · simp only [mulOuter, h1, bind, Except.bind, List.tail_cons, g1]
        rfl
      · rw [valid_cons]; exact ⟨h2'.1, g2⟩
      · simp [g3, ← h3]
      · rw [val, g4, hexp]
        rw [val] at h4
        omega

theorem val_replicate_zero (n : Nat) : val (List.replicate n 0) = 0 := by
  induction n with
  | zero => rfl
  | succ n ih => simp [List.replicate_succ, val, ih]

theorem multiply_mk (m n : Nat) (s t : Bool) :
    multiply (mk' m s) (mk' n t) = .ok (mk' (m * n) (if m * n = 0 then false else s != t)) := by
  unfold multiply
  simp only [mk'_digits, mk'_neg]
  obtain ⟨r, h1, h2, h3, h4⟩ := mulOuter_spec (digs n) (digs_valid n) (digs m)
    (List.replicate ((digs m).length + (digs n).length) 0) (digs_valid m)
    (by intro d hd; rw [List.mem_replicate] at hd; omega) (by simp)
    (by
      rw [val_replicate_zero, Int.zero_add, List.length_replicate, Int.pow_add]
      have a := val_lt (digs m) (digs_valid m)
      have b := val_lt (digs n) (digs_valid n)
      have c := val_nonneg (digs m) (digs_valid m)
      have d := val_nonneg (digs n) (digs_valid n)
      have e : val (digs m) * val (digs n) ≤ val (digs m) * 10 ^ (digs n).length :=
        Int.mul_le_mul_of_nonneg_left (by omega) c
      have f : val (digs m) * 10 ^ (digs n).length < 10 ^ (digs m).length * 10 ^ (digs n).length :=
        Int.mul_lt_mul_of_pos_right a (Int.pow_pos (by omega))
      omega)
  rw [h1]
  simp only [bind, Except.bind, pure, Except.pure]
  rw [rlz_eq r _ h2 (m * n)]
  rw [h4, val_replicate_zero, val_digs, val_digs]; simp

/-! ### parsing -/

/-- One ASCII digit. -/
def DigitChar (c : Char) : Prop := 48 ≤ c.toNat ∧ c.toNat ≤ 57

theorem digitChar_iff (c : Char) : c.isDigit = true ↔ DigitChar c := by
  unfold Char.isDigit DigitChar
  simp only [ge_iff_le, Bool.and_eq_true, decide_eq_true_eq]
  rfl

/-- The `String` element of an ASCII character. -/
def asc (c : Char) : Chr := Chr.ofByte (UInt8.ofNat c.toNat)

theorem asc_codePoint (c : Char) (h : c.toNat < 128) : (asc c).getCodePoint = .ok c.toNat := by
  have key : ∀ n < 128, (Chr.ofByte (UInt8.ofNat n)).getCodePoint = .ok n := by decide +kernel
  exact key _ h

theorem isDigit_ascii (n : Nat) (h : 48 ≤ n ∧ n ≤ 57) : CharUtil.isDigit n = true := by
  have : ∀ n < 58, 48 ≤ n → CharUtil.isDigit n = true := by decide +kernel
  exact this n (by omega) h.1

theorem parseDigits_digits : ∀ cs : List Char, (∀ c ∈ cs, DigitChar c) →
    parseDigits (cs.map asc) = .ok (cs.map fun c => ((c.toNat : Int) - 48))
  | [], _ => rfl
  | c :: cs, h => by
    have hc := h c (by simp)
    have ih := parseDigits_digits cs (fun d hd => h d (by simp [hd]))
    have hlt : c.toNat < 128 := by unfold DigitChar at hc; omega
    simp only [List.map_cons, parseDigits, asc_codePoint c hlt, bind, Except.bind]
    rw [isDigit_ascii _ hc]
    simp only [if_true, ih]
    rfl

theorem valid_digits (cs : List Char) (h : ∀ c ∈ cs, DigitChar c) :
    Valid (cs.map fun c => ((c.toNat : Int) - 48)) := by
  intro d hd
  obtain ⟨c, hc, rfl⟩ := List.mem_map.mp hd
  have := h c hc
  unfold DigitChar at this
  omega

theorem val_reverse_digits : ∀ (cs : List Char) (init : Nat), (∀ c ∈ cs, DigitChar c) →
    val (cs.map fun c => ((c.toNat : Int) - 48)).reverse + 10 ^ cs.length * init =
      (Nat.ofDigitChars 10 cs init : Nat)
  | [], init, _ => by simp [val]
  | c :: cs, init, h => by
    have hc := h c (by simp)
    unfold DigitChar at hc
    have ih := val_reverse_digits cs (init * 10 + (c.toNat - 48)) (fun d hd => h d (by simp [hd]))
    rw [List.map_cons, List.reverse_cons, val_append, Nat.ofDigitChars_cons]
    simp only [List.length_reverse, List.length_map, val, List.length_cons, Int.pow_succ]
    have e : ('0' : Char).toNat = 48 := rfl
    rw [e]
    rw [show 10 * init + (c.toNat - 48) = init * 10 + (c.toNat - 48) by omega, ← ih]
    rw [show ((init * 10 + (c.toNat - 48) : Nat) : Int) = init * 10 + ((c.toNat : Int) - 48) by omega]
    grind

theorem rlz_digits (cs : List Char) (s : Bool) (h : ∀ c ∈ cs, DigitChar c) :
    removeLeadingZeros ⟨(cs.map fun c => ((c.toNat : Int) - 48)).reverse, s⟩ =
      mk' (Nat.ofDigitChars 10 cs 0) (if Nat.ofDigitChars 10 cs 0 = 0 then false else s) := by
  apply rlz_eq
  · intro d hd
    exact valid_digits cs h d (List.mem_reverse.mp hd)
  · have := val_reverse_digits cs 0 h
    simpa using this

theorem asc_ne (c : Char) (h : DigitChar c) :
    asc c ≠ Chr.ofByte 0x2D ∧ asc c ≠ Chr.ofByte 0x2B := by
  have key : ∀ n < 58, 48 ≤ n → Chr.ofByte (UInt8.ofNat n) ≠ Chr.ofByte 0x2D ∧
      Chr.ofByte (UInt8.ofNat n) ≠ Chr.ofByte 0x2B := by decide +kernel
  unfold DigitChar at h
  exact key _ (by omega) h.1

theorem parse_digits (cs : List Char) (hne : cs ≠ []) (h : ∀ c ∈ cs, DigitChar c) :
    parse (cs.map asc) = .ok (mk' (Nat.ofDigitChars 10 cs 0) false) := by
  cases cs with
  | nil => exact absurd rfl hne
  | cons c cs =>
    have hn := asc_ne c (h c (by simp))
    have hp := parseDigits_digits _ h
    rw [List.map_cons] at hp ⊢
    rw [parse, if_neg hn.1, if_neg hn.2]
    rw [hp]
    simp only [bind, Except.bind, pure, Except.pure]
    rw [rlz_digits _ _ h]
    simp

theorem parse_plus (cs : List Char) (h : ∀ c ∈ cs, DigitChar c) :
    parse (asc '+' :: cs.map asc) = .ok (mk' (Nat.ofDigitChars 10 cs 0) false) := by
  rw [parse, if_neg (by decide), if_pos (by decide), parseDigits_digits _ h]
  simp only [bind, Except.bind, pure, Except.pure]
  rw [rlz_digits _ _ h]
  simp

theorem parse_minus (cs : List Char) (h : ∀ c ∈ cs, DigitChar c) :
    parse (asc '-' :: cs.map asc) = .ok (mk' (Nat.ofDigitChars 10 cs 0)
      (if Nat.ofDigitChars 10 cs 0 = 0 then false else true)) := by
  rw [parse, if_pos (by decide), parseDigits_digits _ h]
  simp only [bind, Except.bind, pure, Except.pure]
  rw [rlz_digits _ _ h]

theorem toDigits_digitChar (n : Nat) : ∀ c ∈ Nat.toDigits 10 n, DigitChar c := by
  intro c hc
  exact (digitChar_iff c).mp (Nat.isDigit_of_mem_toDigits (by omega) (by omega) hc)

theorem toString_chars (z : Int) : (ToString.toString z : String).toList =
    if z < 0 then '-' :: Nat.toDigits 10 z.natAbs else Nat.toDigits 10 z.natAbs := by
  show (Int.repr z).toList = _
  rw [Int.repr_eq_if]
  split
  · rename_i h
    rw [if_neg (by omega)]
    simp [Nat.toList_repr, show z.toNat = z.natAbs by omega]
  · rename_i h
    rw [if_pos (by omega)]
    simp [Nat.toList_repr, show (-z).toNat = z.natAbs by omega]

theorem parse_decimal (z : Int) : parse (decimal z) = .ok (big z) := by
  unfold decimal
  rw [toString_chars]
  show parse (List.map asc _) = _
  split
  · rename_i h
    rw [List.map_cons, parse_minus _ (toDigits_digitChar _), Nat.ofDigitChars_ten_toDigits,
      if_neg (by omega)]
    simp [big, mk', h]
  · rename_i h
    rw [parse_digits _ Nat.toDigits_ne_nil (toDigits_digitChar _), Nat.ofDigitChars_ten_toDigits]
    simp [big, mk', h]

end BigInt
end Caitlyn
