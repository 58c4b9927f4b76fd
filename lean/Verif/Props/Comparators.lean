import Verif.Model.Comparators

/-! # Property C81: mixed-sign comparisons -/

namespace Caitlyn
open Cmp

/-- The integer types of the platform. -/
def IsIntTy (ty : IntTy) : Prop := ty.bits = 8 ∨ ty.bits = 16 ∨ ty.bits = 32 ∨ ty.bits = 64

/-- The values of a type. -/
def InRange (ty : IntTy) (v : Int) : Prop :=
  if ty.signed then -(2 ^ (ty.bits - 1) : Int) ≤ v ∧ v < 2 ^ (ty.bits - 1) else 0 ≤ v ∧ v < 2 ^ ty.bits

theorem conv_id (ty : IntTy) (hty : IsIntTy ty) (v : Int) (h : InRange ty v) : conv ty v = v := by
  obtain ⟨s, b⟩ := ty
  unfold conv
  unfold InRange at h
  cases s
  · simp only [Bool.false_eq_true, if_false] at h ⊢
    rcases hty with rfl | rfl | rfl | rfl <;> simp at h ⊢ <;> omega
  · simp only [if_true] at h ⊢
    rcases hty with rfl | rfl | rfl | rfl <;> simp [Int.bmod] at h ⊢ <;> omega

theorem promote_ty (a : IntTy) (ha : IsIntTy a) : IsIntTy (promote a) ∧ 32 ≤ (promote a).bits := by
  obtain ⟨s, b⟩ := a
  rcases ha with rfl | rfl | rfl | rfl <;> simp [promote, IsIntTy]

theorem range_mono (s : Bool) (m n : Nat) (h : m ≤ n) (hm : 1 ≤ m) (v : Int) (hv : InRange ⟨s, m⟩ v) :
    InRange ⟨s, n⟩ v := by
  unfold InRange at *
  have h1 : (2 : Int) ^ (m - 1) ≤ 2 ^ (n - 1) := by
    have : 2 ^ (m - 1) ≤ 2 ^ (n - 1) := Nat.pow_le_pow_right (by omega) (by omega)
    exact_mod_cast this
  have h2 : (2 : Int) ^ m ≤ 2 ^ n := by
    have : 2 ^ m ≤ 2 ^ n := Nat.pow_le_pow_right (by omega) h
    exact_mod_cast this
  cases s <;> simp only [Bool.false_eq_true, if_false, if_true] at * <;> omega

theorem range_promote (a : IntTy) (ha : IsIntTy a) (v : Int) (h : InRange a v) : InRange (promote a) v := by
  obtain ⟨s, b⟩ := a
  unfold InRange at *
  rcases ha with rfl | rfl | rfl | rfl <;> cases s <;> simp [promote] at * <;> omega

/-- Promoting or keeping two types of equal signedness, or of which the second operand's value is not
negative, loses no value in the common type. -/
theorem range_common (a b : IntTy) (ha : IsIntTy a) (hb : IsIntTy b) (t u : Int) (ht : InRange a t)
    (hu : InRange b u) (hs : a.signed = b.signed ∨ 0 ≤ t ∧ 0 ≤ u) :
    InRange (common (promote a) (promote b)) t ∧ InRange (common (promote a) (promote b)) u ∧
    IsIntTy (common (promote a) (promote b)) := by
  obtain ⟨sa, ba⟩ := a
  obtain ⟨sb, bb⟩ := b
  unfold InRange at *
  rcases ha with rfl | rfl | rfl | rfl <;> rcases hb with rfl | rfl | rfl | rfl <;> cases sa <;> cases sb <;>
    simp [promote, common, IsIntTy] at * <;> omega

theorem builtinEq_exact (a b : IntTy) (ha : IsIntTy a) (hb : IsIntTy b) (t u : Int) (ht : InRange a t)
    (hu : InRange b u) (hs : a.signed = b.signed ∨ 0 ≤ t ∧ 0 ≤ u) : builtinEq a b t u = decide (t = u) := by
  obtain ⟨h1, h2, h3⟩ := range_common a b ha hb t u ht hu hs
  unfold builtinEq
  simp only [conv_id _ h3 _ h1, conv_id _ h3 _ h2]
  rfl

theorem builtinLt_exact (a b : IntTy) (ha : IsIntTy a) (hb : IsIntTy b) (t u : Int) (ht : InRange a t)
    (hu : InRange b u) (hs : a.signed = b.signed ∨ 0 ≤ t ∧ 0 ≤ u) : builtinLt a b t u = decide (t < u) := by
  obtain ⟨h1, h2, h3⟩ := range_common a b ha hb t u ht hu hs
  unfold builtinLt
  simp only [conv_id _ h3 _ h1, conv_id _ h3 _ h2]

theorem mkUnsigned_facts (a : IntTy) (ha : IsIntTy a) (hs : a.signed = true) (t : Int) (ht : InRange a t) (h0 : 0 ≤ t) :
    conv (mkUnsigned a) t = t ∧ InRange (mkUnsigned a) t ∧ IsIntTy (mkUnsigned a) := by
  obtain ⟨s, b⟩ := a
  simp only at hs
  subst hs
  have hr : InRange (mkUnsigned ⟨true, b⟩) t := by
    unfold InRange at *
    rcases ha with rfl | rfl | rfl | rfl <;> simp [mkUnsigned] at * <;> omega
  exact ⟨conv_id (mkUnsigned ⟨true, b⟩) ha _ hr, hr, ha⟩

theorem zero_range : InRange ⟨true, 32⟩ 0 ∧ IsIntTy ⟨true, 32⟩ := by
  simp [InRange, IsIntTy]

/-- C81. `cmp_eq` compares the mathematical values, for all integer types and values. -/
theorem C81_eq (a b : IntTy) (ha : IsIntTy a) (hb : IsIntTy b) (t u : Int) (ht : InRange a t) (hu : InRange b u) :
    cmpEq a b t u = decide (t = u) := by
  unfold cmpEq
  by_cases hs : a.signed = b.signed
  · rw [if_pos hs, builtinEq_exact a b ha hb t u ht hu (.inl hs)]
  · rw [if_neg hs]
    cases hsa : a.signed
    · have hsb : b.signed = true := by
        cases h : b.signed
        · exact absurd (hsa.trans h.symm) hs
        · rfl
      rw [if_neg (by simp), builtinLt_exact b ⟨true, 32⟩ hb zero_range.2 u 0 hu zero_range.1 (.inl hsb)]
      have ht0 : 0 ≤ t := by unfold InRange at ht; simp [hsa] at ht; exact ht.1
      by_cases hu0 : u < 0
      · simp [hu0]; omega
      · obtain ⟨h1, h2, h3⟩ := mkUnsigned_facts b hb hsb u hu (by omega)
        rw [h1, builtinEq_exact a _ ha h3 t u ht h2 (.inr ⟨ht0, by omega⟩)]
        simp [hu0]
    · have hsb : b.signed = false := by
        cases h : b.signed
        · rfl
        · exact absurd (hsa.trans h.symm) hs
      rw [if_pos rfl, builtinLt_exact a ⟨true, 32⟩ ha zero_range.2 t 0 ht zero_range.1 (.inl hsa)]
      have hu0 : 0 ≤ u := by unfold InRange at hu; simp [hsb] at hu; exact hu.1
      by_cases ht0 : t < 0
      · simp [ht0]; omega
      · obtain ⟨h1, h2, h3⟩ := mkUnsigned_facts a ha hsa t ht (by omega)
        rw [h1, builtinEq_exact _ b h3 hb t u h2 hu (.inr ⟨by omega, hu0⟩)]
        simp [ht0]

/-- C81. `cmp_less` compares the mathematical values, for all integer types and values. -/
theorem C81_less (a b : IntTy) (ha : IsIntTy a) (hb : IsIntTy b) (t u : Int) (ht : InRange a t) (hu : InRange b u) :
    cmpLess a b t u = decide (t < u) := by
  unfold cmpLess
  by_cases hs : a.signed = b.signed
  · rw [if_pos hs, builtinLt_exact a b ha hb t u ht hu (.inl hs)]
  · rw [if_neg hs]
    cases hsa : a.signed
    · have hsb : b.signed = true := by
        cases h : b.signed
        · exact absurd (hsa.trans h.symm) hs
        · rfl
      rw [if_neg (by simp), builtinLt_exact b ⟨true, 32⟩ hb zero_range.2 u 0 hu zero_range.1 (.inl hsb)]
      have ht0 : 0 ≤ t := by unfold InRange at ht; simp [hsa] at ht; exact ht.1
      by_cases hu0 : u < 0
      · simp [hu0]; omega
      · obtain ⟨h1, h2, h3⟩ := mkUnsigned_facts b hb hsb u hu (by omega)
        rw [h1, builtinLt_exact a _ ha h3 t u ht h2 (.inr ⟨ht0, by omega⟩)]
        simp [hu0]
    · have hsb : b.signed = false := by
        cases h : b.signed
        · rfl
        · exact absurd (hsa.trans h.symm) hs
      rw [if_pos rfl, builtinLt_exact a ⟨true, 32⟩ ha zero_range.2 t 0 ht zero_range.1 (.inl hsa)]
      have hu0 : 0 ≤ u := by unfold InRange at hu; simp [hsb] at hu; exact hu.1
      by_cases ht0 : t < 0
      · simp [ht0]; omega
      · obtain ⟨h1, h2, h3⟩ := mkUnsigned_facts a ha hsa t ht (by omega)
        rw [h1, builtinLt_exact _ b h3 hb t u h2 hu (.inr ⟨by omega, hu0⟩)]
        simp [ht0]

/-- C81, why the functions are needed: the built-in operators get mixed signs wrong. -/
theorem C81_builtin_differs :
    builtinLt ⟨true, 32⟩ ⟨false, 32⟩ (-1) 0 = false ∧ builtinEq ⟨true, 32⟩ ⟨false, 32⟩ (-1) 4294967295 = true := by
  decide

/-- An operand of a comparison of C++ by itself: if the other one is unsigned, not narrower than `int` and not narrower than this
type, a negative value is taken for the value plus a power of two. -/
def Spec.takenFor (own other : IntTy) (v : Int) : Int :=
  if v < 0 ∧ other.signed = false ∧ 32 ≤ other.bits ∧ own.bits ≤ other.bits then v + 2 ^ other.bits else v

/-- C81: exactly what `t < u` and `t == u` give without the functions, for all integer types and values. -/
theorem C81_builtin_exact (a b : IntTy) (ha : IsIntTy a) (hb : IsIntTy b) (t u : Int) (ht : InRange a t) (hu : InRange b u) :
    builtinLt a b t u = decide (Spec.takenFor a b t < Spec.takenFor b a u) ∧
    builtinEq a b t u = decide (Spec.takenFor a b t = Spec.takenFor b a u) := by
  have hbeq : ∀ x y : Int, (x == y) = decide (x = y) := fun _ _ => rfl
  obtain ⟨sa, ba⟩ := a
  obtain ⟨sb, bb⟩ := b
  unfold InRange at *
  rcases ha with rfl | rfl | rfl | rfl <;> rcases hb with rfl | rfl | rfl | rfl <;> cases sa <;> cases sb <;>
    simp [promote, common, builtinLt, builtinEq, conv, Spec.takenFor, Int.bmod, hbeq] at * <;> omega

/-- C81: so the comparison is wrong exactly if one operand is negative and the other unsigned and not narrower, and as an unsigned
number the first is not less. -/
theorem C81_builtin_wrong (a b : IntTy) (ha : IsIntTy a) (hb : IsIntTy b) (t u : Int) (ht : InRange a t) (hu : InRange b u) :
    builtinLt a b t u ≠ cmpLess a b t u ↔
      (t < 0 ∧ b.signed = false ∧ 32 ≤ b.bits ∧ a.bits ≤ b.bits ∧ u ≤ t + 2 ^ b.bits) ∨
      (u < 0 ∧ a.signed = false ∧ 32 ≤ a.bits ∧ b.bits ≤ a.bits ∧ t < u + 2 ^ a.bits) := by
  rw [(C81_builtin_exact a b ha hb t u ht hu).1, C81_less a b ha hb t u ht hu, ne_eq, decide_eq_decide]
  have hua : a.signed = false → 0 ≤ t := fun h => by unfold InRange at ht; rw [h] at ht; exact ht.1
  have hub : b.signed = false → 0 ≤ u := fun h => by unfold InRange at hu; rw [h] at hu; exact hu.1
  have hta : t < 2 ^ a.bits ∧ -(2 ^ a.bits : Int) ≤ t := by
    obtain ⟨s, n⟩ := a
    unfold InRange at ht
    rcases ha with rfl | rfl | rfl | rfl <;> cases s <;> simp at ht ⊢ <;> omega
  have htb : u < 2 ^ b.bits ∧ -(2 ^ b.bits : Int) ≤ u := by
    obtain ⟨s, n⟩ := b
    unfold InRange at hu
    rcases hb with rfl | rfl | rfl | rfl <;> cases s <;> simp at hu ⊢ <;> omega
  unfold Spec.takenFor
  by_cases h1 : t < 0 ∧ b.signed = false ∧ 32 ≤ b.bits ∧ a.bits ≤ b.bits
  · have := hub h1.2.1
    rw [if_pos h1, if_neg (by omega)]
    constructor
    · intro h; left; refine ⟨h1.1, h1.2.1, h1.2.2.1, h1.2.2.2, ?_⟩; omega
    · rintro (h | h) <;> omega
  · rw [if_neg h1]
    by_cases h2 : u < 0 ∧ a.signed = false ∧ 32 ≤ a.bits ∧ b.bits ≤ a.bits
    · have := hua h2.2.1
      rw [if_pos h2]
      constructor
      · intro h; right; refine ⟨h2.1, h2.2.1, h2.2.2.1, h2.2.2.2, ?_⟩; omega
      · rintro (h | h) <;> omega
    · rw [if_neg h2]
      constructor
      · intro h; omega
      · rintro (h | h)
        · exact absurd ⟨h.1, h.2.1, h.2.2.1, h.2.2.2.1⟩ h1
        · exact absurd ⟨h.1, h.2.1, h.2.2.1, h.2.2.2.1⟩ h2

example : cmpLess ⟨true, 32⟩ ⟨false, 32⟩ (-1) 0 = true ∧ cmpEq ⟨true, 32⟩ ⟨false, 32⟩ (-1) 4294967295 = false ∧
    cmpLess ⟨false, 64⟩ ⟨true, 8⟩ 18446744073709551615 127 = false ∧
    InRange ⟨false, 64⟩ 18446744073709551615 ∧ InRange ⟨true, 8⟩ (-128) := by
  refine ⟨by decide, by decide, by decide, by simp [InRange], by simp [InRange]⟩

end Caitlyn
