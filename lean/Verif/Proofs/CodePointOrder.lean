import Verif.Proofs.StrOrder

/-! UTF-8 encoding is monotone: byte order is code point order. -/

namespace Caitlyn
open Spec

namespace Chr

theorem ofNat_lt_iff (a b : Nat) (ha : a < 256) (hb : b < 256) :
    UInt8.ofNat a < UInt8.ofNat b ↔ a < b := by
  rw [u8_lt_iff]
  simp [UInt8.toNat_ofNat', Nat.mod_eq_of_lt ha, Nat.mod_eq_of_lt hb]

/-- `bytesLt` on code units given as numbers. -/
def natsLt : List Nat → List Nat → Bool
  | _, [] => false
  | [], _ :: _ => true
  | a :: as, b :: bs => if a < b then true else if b < a then false else natsLt as bs

theorem bytesLt_map (a b : List Nat) (ha : ∀ x ∈ a, x < 256) (hb : ∀ x ∈ b, x < 256) :
    bytesLt (a.map UInt8.ofNat) (b.map UInt8.ofNat) = natsLt a b := by
  induction a generalizing b with
  | nil => cases b <;> rfl
  | cons x a ih =>
    cases b with
    | nil => rfl
    | cons y b =>
      have hx := ha x (by simp)
      have hy := hb y (by simp)
      simp only [List.map_cons, bytesLt, natsLt, ofNat_lt_iff x y hx hy, ofNat_lt_iff y x hy hx]
      rw [ih b (fun z hz => ha z (by simp [hz])) (fun z hz => hb z (by simp [hz]))]

/-- Encoding as numbers. -/
def enc (cp : Nat) : List Nat :=
  if cp < 0x80 then [cp]
  else if cp < 0x800 then [cp / 64 + 0xC0, cp % 64 + 0x80]
  else if cp < 0x10000 then [cp / 4096 + 0xE0, cp / 64 % 64 + 0x80, cp % 64 + 0x80]
  else [cp / 262144 + 0xF0, cp / 4096 % 64 + 0x80, cp / 64 % 64 + 0x80, cp % 64 + 0x80]

theorem fromCodePoint_enc (cp : Nat) (h : cp < 0x200000) (h0 : cp ≠ 0) :
    fromCodePoint cp = (enc cp).map UInt8.ofNat := by
  rw [fromCodePoint_arith cp h, if_neg h0]
  unfold enc
  split
  · rfl
  split
  · rfl
  split <;> rfl

theorem enc_lt (cp : Nat) (h : cp < 0x200000) : ∀ x ∈ enc cp, x < 256 := by
  unfold enc
  split
  · simp; omega
  split
  · simp; omega
  split
  · simp; omega
  · simp; omega

theorem natsLt_enc (a b : Nat) (hb : b < 0x200000) (hab : a < b) :
    natsLt (enc a) (enc b) = true := by
  unfold enc
  split
  · split
    · simp [natsLt, hab]
    split
    · simp [natsLt]; omega
    split
    · simp [natsLt]; omega
    · simp [natsLt]; omega
  split
  · rw [if_neg (by omega)]
    split
    · simp [natsLt]; omega
    split
    · simp [natsLt]; omega
    · simp [natsLt]; omega
  split
  · rw [if_neg (by omega), if_neg (by omega)]
    split
    · simp [natsLt]; omega
    · simp [natsLt]; omega
  · rw [if_neg (by omega), if_neg (by omega), if_neg (by omega)]
    simp [natsLt]; omega

theorem bytesLt_encode (a b : Nat) (hb : b < 0x200000) (h0 : a ≠ 0) (hab : a < b) :
    bytesLt (fromCodePoint a) (fromCodePoint b) = true := by
  rw [fromCodePoint_enc a (by omega) h0, fromCodePoint_enc b hb (by omega),
    bytesLt_map _ _ (enc_lt a (by omega)) (enc_lt b hb)]
  exact natsLt_enc a b hb hab

theorem bytesLt_asymm (a b : List UInt8) (h : bytesLt a b = true) : bytesLt b a = false := by
  induction a generalizing b with
  | nil => cases b <;> rfl
  | cons x a ih =>
    cases b with
    | nil => simp [bytesLt] at h
    | cons y b =>
      simp only [bytesLt] at *
      by_cases h1 : x < y
      · have : ¬ y < x := by rw [u8_lt_iff] at *; omega
        simp [h1, this]
      · by_cases h2 : y < x
        · simp [h1, h2] at h
        · simp only [h1, h2, if_false] at *
          exact ih b h

end Chr

theorem char_nat_facts (c : Char) (h : c ≠ Char.ofNat 0) :
    c.val.toNat < 0x110000 ∧ c.val.toNat ≠ 0 := by
  constructor
  · have := c.valid
    simp only [UInt32.isValidChar, Nat.isValidChar] at this
    omega
  · intro h'
    apply h
    apply Char.ext
    apply UInt32.toNat_inj.mp
    rw [h']; rfl

theorem char_lt_iff (c d : Char) : c < d ↔ c.val.toNat < d.val.toNat := by
  rw [Char.lt_def, UInt32.lt_iff_toNat_lt]

theorem bytesLt_utf8Char (c d : Char) (hc : c ≠ Char.ofNat 0) (hd : d ≠ Char.ofNat 0) :
    Chr.bytesLt (String.utf8EncodeChar c) (String.utf8EncodeChar d) = decide (c < d) := by
  obtain ⟨c1, c2⟩ := char_nat_facts c hc
  obtain ⟨d1, d2⟩ := char_nat_facts d hd
  rw [← Chr.fromCodePoint_eq_utf8 c hc, ← Chr.fromCodePoint_eq_utf8 d hd]
  rw [Bool.eq_iff_iff, decide_eq_true_eq, char_lt_iff]
  constructor
  · intro h
    rcases Nat.lt_trichotomy c.val.toNat d.val.toNat with h1 | h1 | h1
    · exact h1
    · rw [h1, Chr.bytesLt_irrefl] at h; cases h
    · have := Chr.bytesLt_asymm _ _ (Chr.bytesLt_encode _ _ (by omega) d2 h1)
      rw [this] at h; cases h
  · intro h
    exact Chr.bytesLt_encode _ _ (by omega) c2 h

/-- Order of the `String`s of two scalar sequences. -/
theorem lt_scalars (cs ds : List Char) (hc : NoNul cs) (hd : NoNul ds) :
    Str.lt (cs.map fun c => ⟨String.utf8EncodeChar c⟩) (ds.map fun c => ⟨String.utf8EncodeChar c⟩)
      = true ↔ cs < ds := by
  induction cs generalizing ds with
  | nil => cases ds <;> simp [Str.lt]
  | cons c cs ih =>
    cases ds with
    | nil => simp [Str.lt]
    | cons d ds =>
      have h1 := bytesLt_utf8Char c d (hc c (by simp)) (hd d (by simp))
      have h2 := bytesLt_utf8Char d c (hd d (by simp)) (hc c (by simp))
      have := ih ds (fun x hx => hc x (by simp [hx])) (fun x hx => hd x (by simp [hx]))
      rw [List.cons_lt_cons_iff, ← this]
      simp only [List.map_cons, Str.lt, Chr.lt, h1, h2]
      have tri : c = d ∨ c < d ∨ d < c := by
        rcases Nat.lt_trichotomy c.val.toNat d.val.toNat with h | h | h
        · exact .inr (.inl ((char_lt_iff c d).mpr h))
        · exact .inl (Char.ext (UInt32.toNat_inj.mp h))
        · exact .inr (.inr ((char_lt_iff d c).mpr h))
      have irr : ∀ c : Char, ¬ c < c := by intro c; rw [char_lt_iff]; omega
      rcases tri with rfl | h | h
      · simp [irr]
      · have : ¬ d < c := by rw [char_lt_iff] at *; omega
        simp [h]
      · have h3 : ¬ c < d := by rw [char_lt_iff] at *; omega
        have h4 : c ≠ d := by intro e; subst e; exact irr c h
        simp [h, h3, h4]

end Caitlyn
