import Verif.Spec.Resolve
import Verif.Proofs.CNumber

/-! # Helper lemmas: `EscapeString` on every text -/

namespace Caitlyn
open Caitlyn.Spec

namespace StdNum

theorem hexDigits_lt {ds : List UInt8} {n : Nat} (h : HexDigits ds n) : n < 16 ^ ds.length := by
  induction h with
  | one b v hb =>
    have := (StrUtil.hexValue_digitVal b v hb).2.1
    simpa using this
  | more ds n b v _ hb ih =>
    have := (StrUtil.hexValue_digitVal b v hb).2.1
    rw [List.length_append, List.length_singleton, Nat.pow_succ]
    omega

/-- A byte below 0x80. -/
def low (b : UInt8) : Bool := decide (b ≤ 0x7F)

theorem shape_low {p : List UInt8} (h : Shape p) : p.countP low ≤ 1 := by
  have hc : ∀ b : UInt8, Cont b → low b = false := by
    intro b hb
    have : ¬ b ≤ 0x7F := by
      have := hb.1
      rw [Chr.u8_le_iff] at *
      have e : (0x7F : UInt8).toNat = 127 := rfl
      have e' : (0x80 : UInt8).toNat = 128 := rfl
      omega
    simpa [low] using this
  have hl : ∀ b : UInt8, 0xC0 ≤ b → low b = false := by
    intro b hb
    have : ¬ b ≤ 0x7F := by
      rw [Chr.u8_le_iff] at *
      have e : (0x7F : UInt8).toNat = 127 := rfl
      have e' : (0xC0 : UInt8).toNat = 192 := rfl
      omega
    simpa [low] using this
  have up : ∀ k : UInt8, 0xC0 ≤ k → ∀ b : UInt8, k ≤ b → 0xC0 ≤ b := by
    intro k hk b hb
    rw [Chr.u8_le_iff] at *
    omega
  cases h with
  | one b _ _ => rw [List.countP_singleton]; split <;> omega
  | two b c h1 _ h3 => simp [hl _ h1, hc _ h3]
  | three b c d h1 _ h3 h4 => simp [hl _ (up _ (by decide) _ h1), hc _ h3, hc _ h4]
  | four b c d e h1 _ h3 h4 h5 => simp [hl _ (up _ (by decide) _ h1), hc _ h3, hc _ h4, hc _ h5]

theorem str_low : ∀ (s : Str), (∀ c ∈ s, Shape c.data) → (Str.str s).countP low ≤ s.length
  | [], _ => Nat.le_refl _
  | c :: s, h => by
    have ih := str_low s (fun d hd => h d (by simp [hd]))
    have hc := shape_low (h c (by simp))
    have e : Str.str (c :: s) = c.data ++ Str.str s := by
      rw [Str.str_shapes _ h, Str.str_shapes _ (fun d hd => h d (by simp [hd]))]
      rfl
    rw [e, List.countP_append, List.length_cons]
    omega

/-- A number written by four characters is below 65536. -/
theorem hexNumber_lt {s : Str} (hs : ∀ c ∈ s, Shape c.data) (hl : s.length ≤ 4) {neg : Bool} {n : Nat}
    (h : HexNumber (Str.str s) neg n) : n < 65536 := by
  have hlow := str_low s hs
  generalize Str.str s = t at *
  obtain ⟨bl, sg, pre, ds, rest, neg, n, hbl, hsg, hp, hds, hrest, hno⟩ := h
  have h1 := hexDigits_lt hds
  have h2 : ds.countP low = ds.length := by
    rw [List.countP_eq_length]
    intro b hb
    have := (hexDigits_spec hds).2.1 b hb
    rw [(digit_hex b).1] at this
    obtain ⟨v, hv⟩ := Option.isSome_iff_exists.mp this
    obtain ⟨_, _, _, _, _, _, _, _, h9⟩ := StrUtil.hexValue_digitVal b v hv
    exact decide_eq_true h9
  rw [List.countP_append, List.countP_append] at hlow
  have h3 : ds.length ≤ 4 := by omega
  have h4 : 16 ^ ds.length ≤ 16 ^ 4 := Nat.pow_le_pow_right (by omega) h3
  omega

/-- `std::stoi` in base 16 on four characters. -/
theorem stoi_hex {s : Str} (hs : ∀ c ∈ s, Shape c.data) (hl : s.length ≤ 4) :
    (∃ neg n v, HexNumber (Str.str s) neg n ∧ stoi 16 (Str.str s) = .ok v ∧ UInt8.ofNat (v % 256).toNat = byteOf neg n) ∨
    (∀ neg n, ¬ HexNumber (Str.str s) neg n) ∧ stoi 16 (Str.str s) = .error .invalidArgument := by
  unfold stoi signed
  cases hp : parse 16 (Str.str s) with
  | none =>
    refine .inr ⟨fun neg n h => ?_, rfl⟩
    rw [(parse_hex _ _ _).mpr h] at hp; cases hp
  | some x =>
    obtain ⟨neg, n⟩ := x
    have hx := (parse_hex _ _ _).mp hp
    have hlt := hexNumber_lt hs hl hx
    refine .inl ⟨neg, n, _, hx, ?_, rfl⟩
    simp only
    rw [if_pos]
    cases neg <;> simp <;> omega

theorem hexNumber_unique {s : List UInt8} {neg neg' : Bool} {n n' : Nat} (h : HexNumber s neg n) (h' : HexNumber s neg' n') :
    neg = neg' ∧ n = n' := by
  have h1 := (parse_hex _ _ _).mpr h
  rw [(parse_hex _ _ _).mpr h'] at h1
  injection h1 with h1
  injection h1 with h1 h2
  exact ⟨h1.symm, h2.symm⟩

end StdNum

namespace StrUtil

theorem simple_none (d : Chr) (h : letterMeaning.lookup d = none) : simpleEscape d = none := by
  have h' : ∀ p ∈ letterMeaning, d ≠ p.1 := by
    intro p hp he
    have := List.lookup_eq_none_iff.mp h p hp
    simp [he] at this
  simp only [letterMeaning, List.mem_cons, List.not_mem_nil, or_false, forall_eq_or_imp, forall_eq] at h'
  obtain ⟨a1, a2, a3, a4, a5, a6, a7, a8, a9, a10, a11⟩ := h'
  unfold simpleEscape
  rw [if_neg a1, if_neg a2, if_neg a3, if_neg a4, if_neg a5, if_neg a6, if_neg a7, if_neg a8, if_neg a9, if_neg a10,
    if_neg a11]

/-- The loop on every text. -/
theorem escapeLoop_exact : ∀ (n : Nat) (s : Str), s.length < n → (∀ c ∈ s, Shape c.data) →
    (∃ bs, Resolves s bs ∧ escapeLoop n s = .ok bs) ∨ (∀ bs, ¬ Resolves s bs) ∧ escapeLoop n s = .error .invalidArgument := by
  intro n
  induction n with
  | zero => intro s h; omega
  | succ n ih =>
    intro s hn hs
    cases s with
    | nil => exact .inl ⟨[], .nil, rfl⟩
    | cons c rest =>
      have hrest : ∀ x ∈ rest, Shape x.data := fun x hx => hs x (by simp [hx])
      rw [escapeLoop.eq_def]
      simp only
      by_cases hc : c = ⟨b!"\\"⟩
      · rw [if_pos hc]
        cases rest with
        | nil =>
          subst hc
          refine .inl ⟨b!"\\", .last, ?_⟩
          have hn0 : n ≠ 0 := by rintro rfl; simp at hn
          obtain ⟨m, rfl⟩ := Nat.exists_eq_succ_of_ne_zero hn0
          rfl
        | cons d rest' =>
          simp only
          have hrest' : ∀ x ∈ rest', Shape x.data := fun x hx => hrest x (by simp [hx])
          have hlen : rest'.length + 2 < n + 1 := hn
          cases hm : letterMeaning.lookup d with
          | some m =>
            rw [(letter_simple d m hm).1]
            simp only
            rcases ih rest' (by omega) hrest' with ⟨bs, h1, h2⟩ | ⟨h1, h2⟩
            · rw [h2]
              subst hc
              exact .inl ⟨_, .letter d m rest' bs hm h1, rfl⟩
            · rw [h2]
              refine .inr ⟨fun bs h => ?_, rfl⟩
              cases h with
              | plain _ _ bs hne _ => exact hne hc
              | letter _ m' _ bs _ hr => exact h1 _ hr
              | unicode _ _ _ _ _ _ _ bs _ _ => rw [show letterMeaning.lookup (⟨b!"u"⟩ : Chr) = none by decide] at hm; cases hm
              | unknown _ _ bs hno _ _ => rw [hm] at hno; cases hno
          | none =>
            rw [simple_none d hm]
            simp only
            by_cases hu : d = ⟨b!"u"⟩ ∧ 4 ≤ rest'.length
            · rw [if_pos hu]
              obtain ⟨h₁, h₂, h₃, h₄, u, rfl⟩ : ∃ h₁ h₂ h₃ h₄ u, rest' = h₁ :: h₂ :: h₃ :: h₄ :: u := by
                match rest', hu.2 with
                | a :: b :: c :: d :: u, _ => exact ⟨a, b, c, d, u, rfl⟩
              have hfour : ∀ x ∈ [h₁, h₂, h₃, h₄], Shape x.data := fun x hx => hrest' x (by simp at hx ⊢; rcases hx with h | h | h | h <;> simp [h])
              have hu' : ∀ x ∈ u, Shape x.data := fun x hx => hrest' x (by simp [hx])
              have hd := hu.1
              subst hd hc
              simp only [List.take_succ_cons, List.take_zero, List.drop_succ_cons, List.drop_zero]
              rcases StdNum.stoi_hex hfour (by simp) with ⟨neg, k, v, hx, he, hb⟩ | ⟨hno, he⟩
              · rw [he]
                simp only [bind, Except.bind, pure, Except.pure, hb]
                rcases ih u (by simp at hlen; omega) hu' with ⟨bs, h1, h2⟩ | ⟨h1, h2⟩
                · rw [h2]
                  exact .inl ⟨_, .unicode h₁ h₂ h₃ h₄ neg k u bs hx h1, rfl⟩
                · rw [h2]
                  refine .inr ⟨fun bs h => ?_, rfl⟩
                  cases h with
                  | plain _ _ bs hne _ => exact hne rfl
                  | letter _ m' _ bs hm' hr => rw [hm] at hm'; cases hm'
                  | unicode _ _ _ _ _ _ _ bs _ hr => exact h1 _ hr
                  | unknown _ _ bs _ hlt _ => have := hlt rfl; simp at this; omega
              · rw [he]
                refine .inr ⟨fun bs h => ?_, rfl⟩
                cases h with
                | plain _ _ bs hne _ => exact hne rfl
                | letter _ m' _ bs hm' hr => rw [hm] at hm'; cases hm'
                | unicode _ _ _ _ _ _ _ bs hx hr => exact hno _ _ hx
                | unknown _ _ bs _ hlt _ => have := hlt rfl; simp at this; omega
            · rw [if_neg hu]
              subst hc
              have hlt : d = ⟨b!"u"⟩ → rest'.length < 4 := fun e => by
                have : ¬ 4 ≤ rest'.length := fun h => hu ⟨e, h⟩
                omega
              rcases ih (d :: rest') (by simp; omega) hrest with ⟨bs, h1, h2⟩ | ⟨h1, h2⟩
              · rw [h2]
                exact .inl ⟨_, .unknown d rest' bs hm hlt h1, rfl⟩
              · rw [h2]
                refine .inr ⟨fun bs h => ?_, rfl⟩
                cases h with
                | plain _ _ bs hne _ => exact hne rfl
                | letter _ m' _ bs hm' hr => rw [hm] at hm'; cases hm'
                | unicode _ _ _ _ _ _ _ bs hx hr => exact hu ⟨rfl, by simp⟩
                | unknown _ _ bs _ _ hr => exact h1 _ hr
      · rw [if_neg hc]
        rcases ih rest (by simp at hn; omega) hrest with ⟨bs, h1, h2⟩ | ⟨h1, h2⟩
        · rw [h2]
          exact .inl ⟨_, .plain c rest bs hc h1, rfl⟩
        · rw [h2]
          refine .inr ⟨fun bs h => ?_, rfl⟩
          cases h with
          | plain _ _ bs _ hr => exact h1 _ hr
          | last => exact hc rfl
          | letter _ m' _ bs hm' hr => exact hc rfl
          | unicode _ _ _ _ _ _ _ bs hx hr => exact hc rfl
          | unknown _ _ bs _ _ hr => exact hc rfl

theorem resolves_unique {s : Str} {a b : List UInt8} (ha : Resolves s a) : Resolves s b → a = b := by
  induction ha generalizing b with
  | nil => intro hb; cases hb; rfl
  | plain c s bs h _ ih =>
    intro hb
    cases hb with
    | plain _ _ bs' _ hr => rw [ih hr]
    | last => exact absurd rfl h
    | letter => exact absurd rfl h
    | unicode => exact absurd rfl h
    | unknown => exact absurd rfl h
  | last =>
    intro hb
    cases hb with
    | plain _ _ _ h _ => exact absurd rfl h
    | last => rfl
  | letter l m s bs h _ ih =>
    intro hb
    cases hb with
    | plain _ _ _ h _ => exact absurd rfl h
    | letter _ m' _ bs' h' hr =>
      rw [h] at h'
      injection h' with h'
      rw [ih hr, h']
    | unicode => exact absurd h (by rw [show letterMeaning.lookup (⟨b!"u"⟩ : Chr) = none by decide]; simp)
    | unknown _ _ _ h' _ _ => rw [h] at h'; cases h'
  | unicode h₁ h₂ h₃ h₄ neg n s bs h _ ih =>
    intro hb
    cases hb with
    | plain _ _ _ h _ => exact absurd rfl h
    | letter _ m' _ bs' h' hr =>
      exact absurd h' (by rw [show letterMeaning.lookup (⟨b!"u"⟩ : Chr) = none by decide]; simp)
    | unicode _ _ _ _ neg' n' _ bs' h' hr =>
      obtain ⟨rfl, rfl⟩ := StdNum.hexNumber_unique h h'
      rw [ih hr]
    | unknown _ _ _ _ h' _ => have := h' rfl; simp at this; omega
  | unknown d s bs h h' _ ih =>
    intro hb
    cases hb with
    | plain _ _ _ h _ => exact absurd rfl h
    | letter _ m' _ bs' h2 hr => rw [h] at h2; cases h2
    | unicode _ _ _ _ neg' n' _ bs' h2 hr => have := h' rfl; simp at this; omega
    | unknown _ _ bs' _ _ hr => rw [ih hr]

end StrUtil
end Caitlyn
