import Verif.Spec.OdrUse

/-! # Proofs about uses of the constants -/

namespace Caitlyn.OdrUse
open Spec.OdrUse

theorem object_iff (e : Expr) : Object e ↔ e.isLvalue = true := by
  constructor
  · intro h
    induction h with
    | const => rfl
    | var => rfl
    | paren _ ih => exact ih
    | cond _ _ ha hb => simp [Expr.isLvalue, ha, hb]
    | comma _ ih => exact ih
  · induction e with
    | const => exact fun _ => .const
    | var => exact fun _ => .var
    | value => exact nofun
    | paren e ih => exact fun h => .paren (ih h)
    | cond a b iha ihb =>
      intro h
      rw [Expr.isLvalue, Bool.and_eq_true] at h
      exact .cond (iha h.1) (ihb h.2)
    | comma l r _ ih => exact fun h => .comma (ih h)
    | arith a b => exact nofun
    | unary e => exact nofun

theorem names_lvalue {e : Expr} (h : Names e) : e.isLvalue = true := by
  induction h with
  | const => rfl
  | paren _ ih => exact ih
  | left _ hb ih => simp [Expr.isLvalue, ih, (object_iff _).1 hb]
  | right ha _ ih => simp [Expr.isLvalue, ih, (object_iff _).1 ha]
  | comma _ ih => exact ih

@[simp] theorem names_const : Names .const ↔ True := ⟨fun _ => trivial, fun _ => .const⟩
@[simp] theorem names_var : Names .var ↔ False := ⟨nofun, nofun⟩
@[simp] theorem names_value : Names .value ↔ False := ⟨nofun, nofun⟩
@[simp] theorem names_arith {a b : Expr} : Names (.arith a b) ↔ False := ⟨nofun, nofun⟩
@[simp] theorem names_unary {e : Expr} : Names (.unary e) ↔ False := ⟨nofun, nofun⟩
@[simp] theorem names_paren {e : Expr} : Names (.paren e) ↔ Names e := ⟨fun | .paren h => h, .paren⟩
@[simp] theorem names_comma {l r : Expr} : Names (.comma l r) ↔ Names r := ⟨fun | .comma h => h, .comma⟩
theorem names_cond {a b : Expr} : Names (.cond a b) ↔ (a.isLvalue = true ∧ b.isLvalue = true) ∧ (Names a ∨ Names b) := by
  constructor
  · intro h
    cases h with
    | left h g => exact ⟨⟨names_lvalue h, (object_iff _).1 g⟩, .inl h⟩
    | right h g => exact ⟨⟨(object_iff _).1 h, names_lvalue g⟩, .inr g⟩
  · rintro ⟨⟨h, g⟩, h' | h'⟩
    · exact .left h' ((object_iff _).2 g)
    · exact .right ((object_iff _).2 h) h'

/-- An operator of some part chooses or throws away the constant. -/
def Bad (e : Expr) : Prop := ∃ p ∈ parts e, Chosen p

theorem bad_const : Bad .const ↔ False := by simp [Bad, parts, Chosen]
theorem bad_var : Bad .var ↔ False := by simp [Bad, parts, Chosen]
theorem bad_value : Bad .value ↔ False := by simp [Bad, parts, Chosen]
theorem bad_paren {e : Expr} : Bad (.paren e) ↔ Bad e := by simp [Bad, parts, Chosen]
theorem bad_unary {e : Expr} : Bad (.unary e) ↔ Bad e := by simp [Bad, parts, Chosen]
theorem bad_arith {a b : Expr} : Bad (.arith a b) ↔ Bad a ∨ Bad b := by
  simp [Bad, parts, Chosen, or_and_right, exists_or]
theorem bad_cond {a b : Expr} : Bad (.cond a b) ↔ Names (.cond a b) ∨ Bad a ∨ Bad b := by
  simp [Bad, parts, Chosen, or_and_right, exists_or]
theorem bad_comma {l r : Expr} : Bad (.comma l r) ↔ Names l ∨ Names r ∨ Bad l ∨ Bad r := by
  simp [Bad, parts, Chosen, or_and_right, exists_or, or_assoc]

/-- C++14: only where a reference is bound to the constant itself. -/
theorem uses14 (e : Expr) : odrUses .cpp14 .read e = false ∧ odrUses .cpp14 .discarded e = false ∧
    (odrUses .cpp14 .bound e = true ↔ Names e) := by
  induction e with
  | const => simp [odrUses]
  | var => simp [odrUses]
  | value => simp [odrUses]
  | paren e ih => simpa [odrUses] using ih
  | cond a b iha ihb =>
    obtain ⟨a1, a2, a3⟩ := iha
    obtain ⟨b1, b2, b3⟩ := ihb
    rw [names_cond]
    by_cases h : a.isLvalue = true ∧ b.isLvalue = true
    · simp [odrUses, h, a1, a2, a3, b1, b2, b3]
    · have h' : (a.isLvalue && b.isLvalue) = false := by
        rw [← Bool.not_eq_true, Bool.and_eq_true]; exact h
      simp only [odrUses, h', h, a1, b1, false_and]
      simp [a1, b1]
  | comma l r ihl ihr =>
    obtain ⟨l1, l2, l3⟩ := ihl
    obtain ⟨r1, r2, r3⟩ := ihr
    simp [odrUses, l2, r1, r2, r3]
  | arith a b iha ihb => simp [odrUses, iha.1, ihb.1]
  | unary e ih => simp [odrUses, ih.1]

/-- C++11: also where an operator chooses it or throws it away. -/
theorem uses11 (e : Expr) : (odrUses .cpp11 .read e = true ↔ Bad e) ∧ (odrUses .cpp11 .discarded e = true ↔ Names e ∨ Bad e) ∧
    (odrUses .cpp11 .bound e = true ↔ Names e ∨ Bad e) := by
  induction e with
  | const => simp [odrUses, bad_const]
  | var => simp [odrUses, bad_var]
  | value => simp [odrUses, bad_value]
  | paren e ih => simpa [odrUses, bad_paren] using ih
  | cond a b iha ihb =>
    obtain ⟨a1, a2, a3⟩ := iha
    obtain ⟨b1, b2, b3⟩ := ihb
    rw [bad_cond, names_cond]
    by_cases h : a.isLvalue = true ∧ b.isLvalue = true
    · simp only [odrUses, h, a3, b3, Bool.and_self, if_true, Bool.or_eq_true, true_and]
      grind
    · have h' : (a.isLvalue && b.isLvalue) = false := by
        rw [← Bool.not_eq_true, Bool.and_eq_true]; exact h
      simp only [odrUses, h', h, false_and, false_or]
      simp [a1, b1]
  | comma l r ihl ihr =>
    obtain ⟨l1, l2, l3⟩ := ihl
    obtain ⟨r1, r2, r3⟩ := ihr
    rw [bad_comma, names_comma]
    have hr := @names_lvalue r
    by_cases h : r.isLvalue = true
    · simp only [odrUses, h, and_self, if_true, Bool.or_eq_true, l2, r3]
      grind
    · have : ¬ Names r := fun g => h (hr g)
      simp only [odrUses, h, and_false, Bool.or_eq_true, l2]
      simp only [if_neg (by simp : ¬ (False)), r1, r2, r3, this, Bool.false_eq_true, and_false, if_false]
      grind
  | arith a b iha ihb => simp [odrUses, iha.1, ihb.1, bad_arith]
  | unary e ih => simp [odrUses, ih.1, bad_unary]

theorem plus_names (e : Expr) : ¬ Names (plus e) := by
  induction e with
  | const => simp [plus]
  | var => simp [plus]
  | value => simp [plus]
  | paren e ih => simpa [plus] using ih
  | cond a b iha ihb => simp [plus, names_cond, iha, ihb]
  | comma l r _ ihr => simpa [plus] using ihr
  | arith a b _ _ => simp [plus]
  | unary e _ => simp [plus]

theorem plus_bad (e : Expr) : ¬ Bad (plus e) := by
  induction e with
  | const => simp [plus, bad_unary, bad_const]
  | var => simp [plus, bad_var]
  | value => simp [plus, bad_value]
  | paren e ih => simpa [plus, bad_paren] using ih
  | cond a b iha ihb => simp [plus, bad_cond, names_cond, plus_names, iha, ihb]
  | comma l r ihl ihr => simp [plus, bad_comma, plus_names, ihl, ihr]
  | arith a b iha ihb => simp [plus, bad_arith, iha, ihb]
  | unary e ih => simpa [plus, bad_unary] using ih

end Caitlyn.OdrUse
