import Verif.Model.Detect

/-! # Property C134: the detectors of members -/

namespace Caitlyn
open Detect

/-- A class as usual: its members of this name have no reference qualifier and are accessible. -/
def Spec.Usual (c : Class) (n : Name) : Prop := ∀ o ∈ c.members n, o.ref = .none ∧ o.accessible = true

/-- Some member of this name can be called on an object that is `const` or not. -/
def Spec.Offers (const : Bool) (c : Class) (n : Name) : Prop := ∃ o ∈ c.members n, const = true → o.const = true

theorem Detect.call_usual (const lvalue : Bool) (c : Class) (n : Name) (h : Spec.Usual c n) :
    call const lvalue c n = true ↔ Spec.Offers const c n := by
  have hv : ∀ o ∈ c.members n, viable const lvalue o = (o.const || !const) := by
    intro o ho
    unfold viable
    rw [(h o ho).1]
    simp
  have heq : ∀ a ∈ c.members n, ∀ b ∈ c.members n, a.const = b.const → a = b := by
    intro a ha b hb hab
    have h1 := h a ha
    have h2 := h b hb
    cases a; cases b
    simp_all
  have hbet : ∀ a ∈ c.members n, ∀ b ∈ c.members n, better lvalue a b = (b.const && !a.const) := by
    intro a ha b hb
    unfold better
    rw [(h a ha).1, (h b hb).1]
    simp
  have hmem : ∀ o, o ∈ (c.members n).filter (viable const lvalue) ↔ o ∈ c.members n ∧ (const = true → o.const = true) := by
    intro o
    rw [List.mem_filter]
    constructor
    · rintro ⟨h1, h2⟩
      refine ⟨h1, fun hc => ?_⟩
      rw [hv o h1, hc] at h2
      simpa using h2
    · rintro ⟨h1, h2⟩
      refine ⟨h1, ?_⟩
      rw [hv o h1]
      cases hc : const with
      | false => simp
      | true => simp [h2 hc]
  constructor
  · intro hcall
    unfold call at hcall
    split at hcall
    · rename_i o ho
      unfold resolve at ho
      have := (hmem o).mp (List.mem_of_find?_eq_some ho)
      exact ⟨o, this.1, this.2⟩
    · cases hcall
  · rintro ⟨o, ho, hoc⟩
    unfold call
    cases hr : resolve const lvalue (c.members n) with
    | some o' =>
      unfold resolve at hr
      exact (h o' ((hmem o').mp (List.mem_of_find?_eq_some hr)).1).2
    | none =>
      exfalso
      unfold resolve at hr
      rw [List.find?_eq_none] at hr
      have key : ∃ a ∈ (c.members n).filter (viable const lvalue),
          ∀ b ∈ (c.members n).filter (viable const lvalue), a.const = true → b.const = true := by
        by_cases hx : ∃ a ∈ (c.members n).filter (viable const lvalue), a.const = false
        · obtain ⟨a, ha, hac⟩ := hx
          exact ⟨a, ha, fun b _ h => by rw [hac] at h; cases h⟩
        · refine ⟨o, (hmem o).mpr ⟨ho, hoc⟩, fun b hb _ => ?_⟩
          cases hbc : b.const with
          | true => rfl
          | false => exact absurd ⟨b, hb, hbc⟩ hx
      obtain ⟨a, ha, hall⟩ := key
      refine hr a ha (List.all_eq_true.mpr fun b hb => ?_)
      have ha' := ((hmem a).mp ha).1
      have hb' := ((hmem b).mp hb).1
      rw [hbet a ha' b hb']
      cases hac : a.const with
      | true => rw [heq a ha' b hb' (hac.trans (hall b hb hac).symm)]; simp
      | false =>
        cases hbc : b.const with
        | true => simp
        | false => rw [heq a ha' b hb' (hac.trans hbc.symm)]; simp

/-- C134: for usual classes a detector is true exactly if the class offers the member for objects of that type, and the type that
the call needs. -/
theorem C134_objects (const : Bool) (c : Class) (n : Name) (h : Spec.Usual c n) :
    has n (.object const c) = true ↔
      Spec.Offers const c n ∧ (n = .push_back → c.value_type = true) ∧ (n = .resize → c.size_type = true) := by
  simp only [has, Bool.and_eq_true, call_usual _ _ _ _ h]
  constructor
  · rintro ⟨h1, h2⟩
    refine ⟨h2, ?_, ?_⟩ <;> (rintro rfl; exact h1)
  · rintro ⟨h1, h2, h3⟩
    refine ⟨?_, h1⟩
    cases n <;> first | rfl | exact h2 rfl | exact h3 rfl

/-- C134: a reference to a type has the members that the type has. Partial: C134_reference_fails is about `push_back` and `resize`,
C134_qualified_fails about classes that are not usual. -/
theorem C134_reference_partial (const : Bool) (c : Class) (n : Name) (h : Spec.Usual c n) (hn : n ≠ .push_back) (hr : n ≠ .resize) :
    has n (.lref const c) = has n (.object const c) ∧ has n (.rref const c) = has n (.object const c) := by
  have ht : takes n = false := by cases n <;> first | rfl | exact absurd rfl hn | exact absurd rfl hr
  have ha : argument c n = true := by cases n <;> first | rfl | exact absurd rfl hn | exact absurd rfl hr
  have h1 : call const true c n = call const false c n := by
    rw [Bool.eq_iff_iff, call_usual _ _ _ _ h, call_usual _ _ _ _ h]
  simp only [has, ht, ha, h1, Bool.not_false, Bool.true_and, and_self]

/-- C134: for every class, usual or not, an rvalue reference is like the class itself, apart from `push_back` and `resize`. -/
theorem C134_rvalue (const : Bool) (c : Class) (n : Name) (hn : n ≠ .push_back) (hr : n ≠ .resize) :
    has n (.rref const c) = has n (.object const c) := by
  cases n <;> first | rfl | exact absurd rfl hn | exact absurd rfl hr

/-- C134: what is found for `const T` is found for `T`. -/
theorem C134_const (c : Class) (n : Name) (h : Spec.Usual c n) (hc : has n (.object true c) = true) :
    has n (.object false c) = true := by
  rw [C134_objects _ _ _ h] at hc ⊢
  exact ⟨let ⟨o, ho, _⟩ := hc.1; ⟨o, ho, fun h => by cases h⟩, hc.2⟩

/-- C134 is false: for every class, a reference to it has neither `push_back` nor `resize`, because `typename T::value_type` is
ill-formed for references. -/
theorem C134_reference_fails (const : Bool) (c : Class) :
    has .push_back (.lref const c) = false ∧ has .resize (.lref const c) = false ∧
    has .push_back (.rref const c) = false ∧ has .resize (.rref const c) = false := ⟨rfl, rfl, rfl, rfl⟩

/-- C134 is false for members with qualifiers: `begin() &` is found for `T&` but not for `T`, although every variable of type `T`
has it; and a private `begin()` hides a public `begin() const`. -/
theorem C134_qualified_fails :
    (has .begin (.object false { members := fun _ => [⟨false, .lvalue, true⟩] }) = false ∧
      has .begin (.lref false { members := fun _ => [⟨false, .lvalue, true⟩] }) = true) ∧
    (has .begin (.object true { members := fun _ => [⟨false, .none, false⟩, ⟨true, .none, true⟩] }) = true ∧
      has .begin (.object false { members := fun _ => [⟨false, .none, false⟩, ⟨true, .none, true⟩] }) = false) := by
  decide

/-- C134: of the members asked for, the library's `String` has four, for every kind of `String`; so it is no collection to code that asks for
`empty`, `front` or `push_back`. -/
theorem C134_string (const : Bool) (n : Name) :
    (has n (.object const string) = true ↔ n = .begin ∨ n = .end ∨ n = .size ∨ n = .data) ∧
    has n (.lref const string) = has n (.object const string) := by
  cases const <;> cases n <;> decide

/-- A class like `std::vector`. -/
example : let c : Class := { members := fun n => if n ∈ [.push_back, .pop_back, .clear, .resize] then [⟨false, .none, true⟩] else
      if n ∈ [.size, .empty] then [⟨true, .none, true⟩] else [⟨false, .none, true⟩, ⟨true, .none, true⟩] }
    Spec.Usual c .begin ∧ has .push_back (.object false c) = true ∧ has .push_back (.object true c) = false ∧
      has .size (.object true c) = true := by
  refine ⟨?_, by decide, by decide, by decide⟩
  intro o ho
  have : o ∈ [⟨false, .none, true⟩, ⟨true, .none, true⟩] := ho
  simp only [List.mem_cons, List.not_mem_nil, or_false] at this
  rcases this with rfl | rfl <;> exact ⟨rfl, rfl⟩

/-- The kinds of member function with a reference qualifier that a call considers, the best first: for an rvalue `f() &&`,
`f() const &&`, `f() const &`; for an lvalue `f() &`, `f() const &`; without those that are not `const` if the object is. -/
def Spec.preference : Bool → Bool → List (Bool × Ref)
  | false, false => [(false, .rvalue), (true, .rvalue), (true, .lvalue)]
  | true, false => [(true, .rvalue), (true, .lvalue)]
  | false, true => [(false, .lvalue), (true, .lvalue)]
  | true, true => [(true, .lvalue)]

/-- A class with qualified members: all members of this name have a reference qualifier, and they are different. -/
def Spec.Qualified (c : Class) (n : Name) : Prop :=
  (∀ o ∈ c.members n, o.ref ≠ .none) ∧ ∀ a ∈ c.members n, ∀ b ∈ c.members n, a.const = b.const → a.ref = b.ref → a = b

theorem Detect.viable_preference (const lvalue : Bool) (o : Overload) (h : o.ref ≠ .none) :
    viable const lvalue o = true ↔ (o.const, o.ref) ∈ Spec.preference const lvalue := by
  obtain ⟨oc, r, a⟩ := o
  cases r with
  | none => exact absurd rfl h
  | _ => cases const <;> cases lvalue <;> cases oc <;> simp [viable, Spec.preference]

theorem Detect.better_preference (const lvalue : Bool) (a b : Overload)
    (ha : (a.const, a.ref) ∈ Spec.preference const lvalue) (hb : (b.const, b.ref) ∈ Spec.preference const lvalue) :
    better lvalue a b = true ↔ (Spec.preference const lvalue).idxOf (a.const, a.ref) <
      (Spec.preference const lvalue).idxOf (b.const, b.ref) := by
  obtain ⟨ac, ar, aa⟩ := a
  obtain ⟨bc, br, ba⟩ := b
  cases const <;> cases lvalue <;> cases ac <;> cases ar <;> cases bc <;> cases br <;> revert ha hb <;>
    simp [Spec.preference, better] <;> decide

/-- C134: for members with reference qualifiers, exactly what is found: the best of the kinds declared must be accessible. -/
theorem C134_qualified_exact (const lvalue : Bool) (c : Class) (n : Name) (h : Spec.Qualified c n) (hn : n ≠ .push_back)
    (hr : n ≠ .resize) :
    has n (if lvalue then .lref const c else .object const c) = true ↔
      ∃ o ∈ c.members n, o.accessible = true ∧ (o.const, o.ref) ∈ Spec.preference const lvalue ∧
        ∀ b ∈ c.members n, (b.const, b.ref) ∈ Spec.preference const lvalue →
          (Spec.preference const lvalue).idxOf (o.const, o.ref) ≤ (Spec.preference const lvalue).idxOf (b.const, b.ref) := by
  have e : has n (if lvalue then .lref const c else .object const c) = call const lvalue c n := by
    cases lvalue <;> cases n <;> first | rfl | exact absurd rfl hn | exact absurd rfl hr
  rw [e]
  have hmem : ∀ o, o ∈ (c.members n).filter (viable const lvalue) ↔
      o ∈ c.members n ∧ (o.const, o.ref) ∈ Spec.preference const lvalue := by
    intro o
    rw [List.mem_filter]
    exact ⟨fun ⟨h1, h2⟩ => ⟨h1, (viable_preference _ _ _ (h.1 o h1)).mp h2⟩,
      fun ⟨h1, h2⟩ => ⟨h1, (viable_preference _ _ _ (h.1 o h1)).mpr h2⟩⟩
  have hinj : ∀ a b : Overload, a ∈ c.members n → b ∈ c.members n → (a.const, a.ref) ∈ Spec.preference const lvalue →
      (Spec.preference const lvalue).idxOf (a.const, a.ref) = (Spec.preference const lvalue).idxOf (b.const, b.ref) →
      (b.const, b.ref) ∈ Spec.preference const lvalue → a = b := by
    intro a b ha hb hpa hi hpb
    have h1 := List.getElem_idxOf (List.idxOf_lt_length_of_mem hpa)
    have h2 := List.getElem_idxOf (List.idxOf_lt_length_of_mem hpb)
    have h3 : (a.const, a.ref) = (b.const, b.ref) := by rw [← h1, ← h2]; congr 1
    exact h.2 a ha b hb (congrArg Prod.fst h3) (congrArg Prod.snd h3)
  unfold call
  constructor
  · intro hcall
    split at hcall
    · rename_i o ho
      unfold resolve at ho
      have hm := (hmem o).mp (List.mem_of_find?_eq_some ho)
      have hb := List.find?_some ho
      rw [List.all_eq_true] at hb
      refine ⟨o, hm.1, hcall, hm.2, fun b hbm hbp => ?_⟩
      have := hb b ((hmem b).mpr ⟨hbm, hbp⟩)
      rw [Bool.or_eq_true, beq_iff_eq] at this
      rcases this with rfl | this
      · exact Nat.le_refl _
      · exact Nat.le_of_lt ((better_preference _ _ _ _ hm.2 hbp).mp this)
    · cases hcall
  · rintro ⟨o, ho, hacc, hp, hmin⟩
    cases hres : resolve const lvalue (c.members n) with
    | none =>
      exfalso
      unfold resolve at hres
      rw [List.find?_eq_none] at hres
      refine hres o ((hmem o).mpr ⟨ho, hp⟩) (List.all_eq_true.mpr fun b hb => ?_)
      have hb := (hmem b).mp hb
      rw [Bool.or_eq_true, beq_iff_eq]
      rcases Nat.lt_or_eq_of_le (hmin b hb.1 hb.2) with h1 | h1
      · exact Or.inr ((better_preference _ _ _ _ hp hb.2).mpr h1)
      · exact Or.inl (hinj o b ho hb.1 hp h1 hb.2)
    | some a =>
      unfold resolve at hres
      have hm := (hmem a).mp (List.mem_of_find?_eq_some hres)
      have hb := List.find?_some hres
      rw [List.all_eq_true] at hb
      have := hb o ((hmem o).mpr ⟨ho, hp⟩)
      rw [Bool.or_eq_true, beq_iff_eq] at this
      rcases this with rfl | this
      · exact hacc
      · have h1 := (better_preference _ _ _ _ hm.2 hp).mp this
        have h2 := hmin a hm.1 hm.2
        omega

/-- A class with `begin() &`, `begin() const &` and a deleted `begin() &&`: nothing is found for the class itself. -/
example : let c : Class := { members := fun _ => [⟨false, .lvalue, true⟩, ⟨true, .lvalue, true⟩, ⟨false, .rvalue, false⟩] }
    Spec.Qualified c .begin ∧ has .begin (.object false c) = false ∧ has .begin (.object true c) = true ∧
      has .begin (.lref false c) = true := by
  refine ⟨⟨by decide, by decide⟩, by decide, by decide, by decide⟩

end Caitlyn
