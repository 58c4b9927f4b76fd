import Verif.Model.Traits

/-!
# Property C101: the type traits are those of the standard

Reference: the descriptions of the standard library ([meta.trans], [meta.unary]), stated by what a type is, not by
matching templates.
-/

namespace Caitlyn
open Traits Traits.Ty

/-- `u` is `t` without these qualifiers: the same type but for the qualifiers at its top (of the elements, for arrays). -/
inductive Spec.Strips (keep : CV → CV) : Ty → Ty → Prop
  | base (q b) : Strips keep (.base q b) (.base (keep q) b)
  | ptr (q t) : Strips keep (.ptr q t) (.ptr (keep q) t)
  | member (q k t) : Strips keep (.member q k t) (.member (keep q) k t)
  | arr (n t u) : Strips keep t u → Strips keep (.arr n t) (.arr n u)
  | lref (t) : Strips keep (.lref t) (.lref t)
  | rref (t) : Strips keep (.rref t) (.rref t)
  | fn (f r) : Strips keep (.fn f r) (.fn f r)

/-- [defns.referenceable]: an object type, a function type without qualifiers, or a reference. -/
def Spec.Referenceable (t : Ty) : Prop := (∀ q, t ≠ .base q .void) ∧ ∀ f, t ≠ .fn f true

/-- the type a reference refers to -/
def Spec.referred (t : Ty) : Ty := match t with | .lref u | .rref u => u | t => t

/-- Types that exist: nothing points to a reference, and elements of arrays are objects. -/
inductive Spec.Exists : Ty → Prop
  | base (q b) : Exists (.base q b)
  | ptr (q t) : Exists t → (∀ u, t ≠ .lref u ∧ t ≠ .rref u) → Exists (.ptr q t)
  | member (q k t) : Exists t → (∀ u, t ≠ .lref u ∧ t ≠ .rref u) → Exists (.member q k t)
  | arr (n t) : Exists t → (∀ u, t ≠ .lref u ∧ t ≠ .rref u) → (∀ f r, t ≠ .fn f r) → Exists (.arr n t)
  | lref (t) : Exists t → (∀ u, t ≠ .lref u ∧ t ≠ .rref u) → Exists (.lref t)
  | rref (t) : Exists t → (∀ u, t ≠ .lref u ∧ t ≠ .rref u) → Exists (.rref t)
  | fn (f r) : Exists (.fn f r)

open Spec

theorem strips_unique {keep : CV → CV} {t u v : Ty} (h1 : Strips keep t u) (h2 : Strips keep t v) : u = v := by
  induction h1 generalizing v with
  | arr n t u _ ih => cases h2 with | arr _ _ w hw => rw [ih hw]
  | _ => cases h2; rfl

theorem strips_qualify (q : CV) : ∀ t, Strips (·.or q) t (t.qualify q)
  | .base .. => .base ..
  | .ptr .. => .ptr ..
  | .member .. => .member ..
  | .arr n t => .arr n t _ (strips_qualify q t)
  | .lref _ => .lref _
  | .rref _ => .rref _
  | .fn .. => .fn ..

theorem removeCVStruct_strips : ∀ t, Strips (fun _ => {}) t (removeCVStruct t) := by
  have arrE : ∀ n t, removeCVStruct (.arr n t) = .arr n (removeCVStruct t) := by
    intro n t
    unfold removeCVStruct
    have hq : (Ty.arr n t).quals = t.quals := rfl
    rw [hq]
    by_cases h1 : (t.quals.c && t.quals.v) = true
    · simp only [if_pos h1, without]
    · by_cases h2 : t.quals.c = true
      · simp only [if_neg h1, if_pos h2, without]
      · by_cases h3 : t.quals.v = true
        · simp only [if_neg h1, if_neg h2, if_pos h3, without]
        · simp only [if_neg h1, if_neg h2, if_neg h3]
  intro t
  induction t with
  | base q b =>
    have : removeCVStruct (.base q b) = .base {} b := by
      obtain ⟨c, v⟩ := q
      cases c <;> cases v <;> rfl
    rw [this]
    exact .base q b
  | ptr q t _ =>
    have : removeCVStruct (.ptr q t) = .ptr {} t := by
      obtain ⟨c, v⟩ := q
      cases c <;> cases v <;> rfl
    rw [this]
    exact .ptr q t
  | member q k t _ =>
    have : removeCVStruct (.member q k t) = .member {} k t := by
      obtain ⟨c, v⟩ := q
      cases c <;> cases v <;> rfl
    rw [this]
    exact .member q k t
  | arr n t ih => rw [arrE]; exact .arr n t _ ih
  | lref t _ => exact .lref t
  | rref t _ => exact .rref t
  | fn f r => exact .fn f r

theorem strips_comp {k1 k2 : CV → CV} {t u v : Ty} (h1 : Strips k1 t u) (h2 : Strips k2 u v) :
    Strips (fun q => k2 (k1 q)) t v := by
  induction h1 generalizing v with
  | base q b => cases h2; exact .base q b
  | ptr q t => cases h2; exact .ptr q t
  | member q k t => cases h2; exact .member q k t
  | arr n t u _ ih => cases h2 with | arr _ _ w hw => exact .arr n t w (ih hw)
  | lref t => cases h2; exact .lref t
  | rref t => cases h2; exact .rref t
  | fn f r => cases h2; exact .fn f r

/-- C101. `AddConstType`, `AddVolatileType`, `AddCVType` add exactly these qualifiers, and `RemoveCVType` removes exactly
both, at the top of every type. -/
theorem C101_qualifiers (t : Ty) :
    Strips (fun q => ⟨true, q.v⟩) t (addConst t) ∧ Strips (fun q => ⟨q.c, true⟩) t (addVolatile t) ∧
    Strips (fun _ => ⟨true, true⟩) t (addCV t) ∧ Strips (fun _ => ⟨false, false⟩) t (removeCV t) := by
  refine ⟨?_, ?_, ?_, removeCVStruct_strips t⟩
  · have h := strips_qualify { c := true } t
    have e : (fun q : CV => q.or { c := true }) = fun q => ⟨true, q.v⟩ := by funext ⟨c, v⟩; simp [CV.or]
    rwa [e] at h
  · have h := strips_qualify { v := true } t
    have e : (fun q : CV => q.or { v := true }) = fun q => ⟨q.c, true⟩ := by funext ⟨c, v⟩; simp [CV.or]
    rwa [e] at h
  · have h := strips_qualify { c := true, v := true } t
    have e : (fun q : CV => q.or { c := true, v := true }) = fun _ => ⟨true, true⟩ := by funext ⟨c, v⟩; simp [CV.or]
    rwa [e] at h

/-- C101. `RemoveConstType` and `RemoveVolatileType`, exactly: both remove both qualifiers. -/
theorem C101_remove_exact (t : Ty) : removeConst t = removeCV t ∧ removeVolatile t = removeCV t := by
  constructor
  · exact strips_unique (strips_comp (strips_qualify { c := true } t) (removeCVStruct_strips _)) (removeCVStruct_strips t)
  · exact strips_unique (strips_comp (strips_qualify { v := true } t) (removeCVStruct_strips _)) (removeCVStruct_strips t)

theorem quals_strips {keep : CV → CV} {t u : Ty} (h : Strips keep t u) : u.quals = keep t.quals ∨ t = u := by
  induction h with
  | arr n t u _ ih =>
    rcases ih with ih | ih
    · exact .inl ih
    · exact .inr (by rw [ih])
  | _ => first | exact .inl rfl | exact .inr rfl

theorem strips_congr {k1 k2 : CV → CV} {t u : Ty} (h : Strips k1 t u) (e : k1 t.quals = k2 t.quals) : Strips k2 t u := by
  induction h with
  | base q b => have e : k1 q = k2 q := e; rw [e]; exact .base q b
  | ptr q t => have e : k1 q = k2 q := e; rw [e]; exact .ptr q t
  | member q k t => have e : k1 q = k2 q := e; rw [e]; exact .member q k t
  | arr n t u _ ih => exact .arr n t u (ih e)
  | lref t => exact .lref t
  | rref t => exact .rref t
  | fn f r => exact .fn f r

/-- C101. `RemoveConstType` removes just `const` if the type is not `volatile`, and `RemoveVolatileType` just `volatile` if
it is not `const`. Missing: the other types, see `C101_fails_remove_const`. -/
theorem C101_remove_partial (t : Ty) :
    (t.quals.v = false → Strips (fun q => ⟨false, q.v⟩) t (removeConst t)) ∧
    (t.quals.c = false → Strips (fun q => ⟨q.c, false⟩) t (removeVolatile t)) := by
  have h := removeCVStruct_strips t
  rw [(C101_remove_exact t).1, (C101_remove_exact t).2]
  exact ⟨fun hv => strips_congr h (by rw [hv]), fun hc => strips_congr h (by rw [hc])⟩

/-- C101 fails: `RemoveConstType<const volatile int>` is `int` where `volatile int` is asked for. -/
theorem C101_fails_remove_const :
    removeConst (.base ⟨true, true⟩ .int) = .base {} .int ∧
    ¬ Strips (fun q => ⟨false, q.v⟩) (.base ⟨true, true⟩ .int) (removeConst (.base ⟨true, true⟩ .int)) := by
  refine ⟨rfl, ?_⟩
  intro h
  have e : removeConst (.base ⟨true, true⟩ .int) = .base ⟨false, false⟩ .int := rfl
  rw [e] at h
  exact absurd (strips_unique h (.base _ _)) (by decide)

/-- C101. References: `RemoveReferenceType` gives the type referred to, `AddRValueReferenceType` adds `&&` with collapsing
to every referenceable type and leaves the others, `AddLValueReferenceType` adds `&` likewise except on `T&&`. -/
theorem C101_references_partial (t : Ty) :
    removeReference t = referred t ∧
    (Referenceable t → addRref t = (match t with | .lref u => .lref u | t => .rref (referred t))) ∧
    (¬ Referenceable t → addRref t = t ∧ addLref t = t) ∧
    (Referenceable t → (∀ u, t ≠ .rref u) → addLref t = .lref (referred t)) := by
  refine ⟨by cases t <;> rfl, ?_, ?_, ?_⟩
  · rintro ⟨h1, h2⟩
    cases t with
    | base q b => cases b <;> first | rfl | exact absurd rfl (h1 q)
    | fn f r => cases r <;> first | rfl | exact absurd rfl (h2 f)
    | _ => rfl
  · intro h
    cases t with
    | base q b =>
      cases b <;> first
        | exact ⟨rfl, rfl⟩
        | exact absurd ⟨fun q => by simp, fun f => by simp⟩ h
    | fn f r => cases r <;> first | exact ⟨rfl, rfl⟩ | exact absurd ⟨fun q => by simp, fun f => by simp⟩ h
    | _ => exact absurd ⟨fun q => by simp, fun f => by simp⟩ h
  · rintro ⟨h1, h2⟩ h3
    cases t with
    | base q b => cases b <;> first | rfl | exact absurd rfl (h1 q)
    | fn f r => cases r <;> first | rfl | exact absurd rfl (h2 f)
    | rref u => exact absurd rfl (h3 u)
    | _ => rfl

/-- C101 fails: `AddLValueReferenceType<T&&>` is `T&&`, not `T&`; `AddPointerType` of a reference is the reference, not a
pointer to what it refers to. -/
theorem C101_fails_references (t : Ty) :
    addLref (.rref t) = .rref t ∧ addPointer (.lref t) = .lref t ∧ addPointer (.rref t) = .rref t := ⟨rfl, rfl, rfl⟩

/-- C101. Pointers: on every existing type but references, `AddPointerType` is the type of its addresses if there are any,
and `RemovePointerType` takes off one pointer, whatever its qualifiers. -/
theorem C101_pointers_partial (t : Ty) :
    ((∀ u, t ≠ .lref u ∧ t ≠ .rref u) → addPointer t = (match t with | .fn f true => .fn f true | t => .ptr {} t)) ∧
    (∀ q u, t = .ptr q u → removePointer t = u) ∧ ((∀ q u, t ≠ .ptr q u) → removePointer t = t) := by
  refine ⟨?_, ?_, ?_⟩
  · intro h
    cases t with
    | lref u => exact absurd rfl (h u).1
    | rref u => exact absurd rfl (h u).2
    | fn f r => cases r <;> rfl
    | _ => rfl
  · rintro ⟨c, v⟩ u rfl
    cases c <;> cases v <;> rfl
  · intro h
    cases t with
    | ptr q u => exact absurd rfl (h q u)
    | _ => rfl

/-- C101. Every type made by the traits exists if the type given exists. -/
theorem C101_exist (t : Ty) (h : Exists t) :
    Exists (addLref t) ∧ Exists (addRref t) ∧ Exists (addPointer t) ∧ Exists (removeReference t) ∧
    Exists (removePointer t) := by
  have nr : (∀ u, t ≠ .lref u ∧ t ≠ .rref u) ∨ ∃ u, t = .lref u ∨ t = .rref u := by
    cases t with
    | lref u => exact .inr ⟨u, .inl rfl⟩
    | rref u => exact .inr ⟨u, .inr rfl⟩
    | _ => exact .inl (fun u => ⟨by simp, by simp⟩)
  rcases nr with hn | ⟨u, rfl | rfl⟩
  · have hr : removeReference t = t := by
      cases t with
      | lref u => exact absurd rfl (hn u).1
      | rref u => exact absurd rfl (hn u).2
      | _ => rfl
    have hl : t.mkLref = .lref t := by
      cases t with
      | lref u => exact absurd rfl (hn u).1
      | rref u => exact absurd rfl (hn u).2
      | _ => rfl
    have hrr : t.mkRref = .rref t := by
      cases t with
      | lref u => exact absurd rfl (hn u).1
      | rref u => exact absurd rfl (hn u).2
      | _ => rfl
    refine ⟨?_, ?_, ?_, by rw [hr]; exact h, ?_⟩
    · unfold addLref; split
      · rw [hl]; exact .lref t h hn
      · exact h
    · unfold addRref; split
      · rw [hrr]; exact .rref t h hn
      · exact h
    · unfold addPointer; split
      · rw [hr]; exact .ptr _ t h hn
      · exact h
    · cases h with
      | ptr q t ht _ => rw [(C101_pointers_partial (.ptr q t)).2.1 q t rfl]; exact ht
      | lref t _ _ => exact absurd rfl (hn t).1
      | rref t _ _ => exact absurd rfl (hn t).2
      | base q b => exact .base q b
      | member q k t a b => exact .member q k t a b
      | arr n t a b c => exact .arr n t a b c
      | fn f r => exact .fn f r
  · cases h with | lref _ h1 h2 => exact ⟨.lref _ h1 h2, .lref _ h1 h2, .lref _ h1 h2, h1, .lref _ h1 h2⟩
  · cases h with | rref _ h1 h2 => exact ⟨.rref _ h1 h2, .rref _ h1 h2, .rref _ h1 h2, h1, .rref _ h1 h2⟩

/-- C101. The primary categories, for every type whatever its qualifiers. -/
theorem C101_categories (t u : Ty) :
    (same t u = true ↔ t = u) ∧ (different t u = true ↔ t ≠ u) ∧
    (isVoid t = true ↔ ∃ q, t = .base q .void) ∧ (isNullPointer t = true ↔ ∃ q, t = .base q .nullptr) ∧
    (isBoolean t = true ↔ ∃ q, t = .base q .bool) ∧ (isArray t = true ↔ ∃ n e, t = .arr n e) ∧
    (isPointer t = true ↔ ∃ q e, t = .ptr q e) ∧ (isLref t = true ↔ ∃ e, t = .lref e) := by
  have key : ∀ b : Base, (same (.base {} b) (removeCV t) = true ↔ ∃ q, t = .base q b) := by
    intro b
    have h := removeCVStruct_strips t
    simp only [same, decide_eq_true_eq]
    constructor
    · intro e
      unfold removeCV at e
      rw [← e] at h
      cases h with | base q b => exact ⟨q, rfl⟩
    · rintro ⟨q, rfl⟩
      exact strips_unique (.base q b) h
  refine ⟨by simp [same], by simp [different, same], key .void, key .nullptr, key .bool, ?_, ?_, ?_⟩
  · constructor
    · intro h
      cases t with
      | arr n e => exact ⟨n, e, rfl⟩
      | _ => cases h
    · rintro ⟨n, e, rfl⟩
      cases n <;> rfl
  · constructor
    · intro h
      cases t with
      | ptr q e => exact ⟨q, e, rfl⟩
      | _ => cases h
    · rintro ⟨⟨c, v⟩, e, rfl⟩
      cases c <;> cases v <;> rfl
  · constructor
    · intro h
      cases t with
      | lref e => exact ⟨e, rfl⟩
      | _ => cases h
    · rintro ⟨e, rfl⟩
      rfl

/-- C101 fails: `IsRValueReference` is true exactly on lvalue references. -/
theorem C101_fails_rvalue (t : Ty) : (isRref t = true ↔ ∃ e, t = .lref e) ∧ isRref (.rref t) = false :=
  ⟨(C101_categories t t).2.2.2.2.2.2.2, rfl⟩

/-- The integral types: characters, integers, `bool`. -/
def Spec.charTypes : List Base := [.char, .schar, .uchar, .wchar, .char16, .char32]
def Spec.integerTypes : List Base :=
  [.schar, .uchar, .short, .ushort, .int, .uint, .long, .ulong, .llong, .ullong]
def Spec.floatTypes : List Base := [.float, .double, .ldouble]

/-- C101. Numbers: `IsCharacter`, `IsInteger`, `IsFloating` recognise exactly the unqualified types of their lists, and
`IsIntegral` these and `bool`. Missing: qualified types, see `C101_fails_const`. -/
theorem C101_numbers_partial (t : Ty) :
    (isCharacter t = true ↔ ∃ b ∈ charTypes, t = .base {} b) ∧ (isInteger t = true ↔ ∃ b ∈ integerTypes, t = .base {} b) ∧
    (isFloating t = true ↔ ∃ b ∈ floatTypes, t = .base {} b) ∧
    (t.quals = {} → (isIntegral t = true ↔ ∃ b ∈ .bool :: (charTypes ++ integerTypes), t = .base {} b)) := by
  have h1 : isCharacter t = true ↔ ∃ b ∈ charTypes, t = .base {} b := by
    constructor
    · intro h
      cases t with
      | base q b =>
        obtain ⟨c, v⟩ := q
        cases c <;> cases v <;> cases b <;> first | exact ⟨_, by decide, rfl⟩ | cases h
      | _ => cases h
    · rintro ⟨b, hb, rfl⟩
      simp only [charTypes, List.mem_cons, List.not_mem_nil, or_false] at hb
      rcases hb with rfl | rfl | rfl | rfl | rfl | rfl <;> rfl
  have h2 : isInteger t = true ↔ ∃ b ∈ integerTypes, t = .base {} b := by
    constructor
    · intro h
      cases t with
      | base q b =>
        obtain ⟨c, v⟩ := q
        cases c <;> cases v <;> cases b <;> first | exact ⟨_, by decide, rfl⟩ | cases h
      | _ => cases h
    · rintro ⟨b, hb, rfl⟩
      simp only [integerTypes, List.mem_cons, List.not_mem_nil, or_false] at hb
      rcases hb with rfl | rfl | rfl | rfl | rfl | rfl | rfl | rfl | rfl | rfl <;> rfl
  refine ⟨h1, h2, ?_, ?_⟩
  · constructor
    · intro h
      cases t with
      | base q b =>
        obtain ⟨c, v⟩ := q
        cases c <;> cases v <;> cases b <;> first | exact ⟨_, by decide, rfl⟩ | cases h
      | _ => cases h
    · rintro ⟨b, hb, rfl⟩
      simp only [floatTypes, List.mem_cons, List.not_mem_nil, or_false] at hb
      rcases hb with rfl | rfl | rfl <;> rfl
  · intro hq
    simp only [isIntegral, Bool.or_eq_true, h1, h2, (C101_categories t t).2.2.2.2.1]
    constructor
    · rintro ((⟨b, hb, rfl⟩ | ⟨b, hb, rfl⟩) | ⟨q, rfl⟩)
      · exact ⟨b, by simp [hb], rfl⟩
      · exact ⟨b, by simp [hb], rfl⟩
      · exact ⟨.bool, by simp, by have : q = {} := hq; rw [this]⟩
    · rintro ⟨b, hb, rfl⟩
      simp only [List.mem_cons, List.mem_append] at hb
      rcases hb with rfl | hb | hb
      · exact .inr ⟨_, rfl⟩
      · exact .inl (.inl ⟨b, hb, rfl⟩)
      · exact .inl (.inr ⟨b, hb, rfl⟩)

/-- C101 fails: no qualified type but `bool` counts as a number: `IsIntegral<const int>()` is false, `IsIntegral<const
bool>()` true. -/
theorem C101_fails_const (q : CV) (hq : q ≠ {}) (b : Base) :
    isCharacter (.base q b) = false ∧ isInteger (.base q b) = false ∧ isFloating (.base q b) = false ∧
    (isIntegral (.base q b) = true ↔ b = .bool) := by
  have h1 : isCharacter (.base q b) = false := by
    obtain ⟨c, v⟩ := q
    cases c <;> cases v <;> first | rfl | exact absurd rfl hq
  have h2 : isInteger (.base q b) = false := by
    obtain ⟨c, v⟩ := q
    cases c <;> cases v <;> first | rfl | exact absurd rfl hq
  refine ⟨h1, h2, ?_, ?_⟩
  · obtain ⟨c, v⟩ := q
    cases c <;> cases v <;> first | rfl | exact absurd rfl hq
  · simp only [isIntegral, h1, h2, Bool.or_false, Bool.false_or, (C101_categories (.base q b) (.base q b)).2.2.2.2.1]
    constructor
    · rintro ⟨q', h⟩
      cases h
      rfl
    · rintro rfl
      exact ⟨q, rfl⟩

/-- The signed and unsigned types of each width. -/
def Spec.signPairs : List (Base × Base) :=
  [(.schar, .uchar), (.short, .ushort), (.int, .uint), (.long, .ulong), (.llong, .ullong)]

/-- C101. `MakeSignedType` and `MakeUnsignedType` give the signed and the unsigned type of the same width for each signed
or unsigned integer type and `char`, and exist for no other type. Missing: the other types for which the standard
defines them, that is qualified types, wide characters and enumerations. -/
theorem C101_signs_partial (t r : Ty) :
    (makeSigned t = some r ↔ ∃ p ∈ signPairs, r = .base {} p.1 ∧
      (t = .base {} p.1 ∨ t = .base {} p.2 ∨ (t = .base {} .char ∧ p.1 = .schar))) ∧
    (makeUnsigned t = some r ↔ ∃ p ∈ signPairs, r = .base {} p.2 ∧
      (t = .base {} p.1 ∨ t = .base {} p.2 ∨ (t = .base {} .char ∧ p.1 = .schar))) := by
  simp only [signPairs, List.mem_cons, List.not_mem_nil, or_false, exists_eq_or_imp, exists_eq_left]
  constructor
  · constructor
    · intro h
      cases t with
      | base q b =>
        obtain ⟨c, v⟩ := q
        cases c <;> cases v <;> cases b <;> first | (simp only [makeSigned, Option.some.injEq] at h; subst h; decide) | cases h
      | _ => cases h
    · intro h
      rcases h with h | h | h | h | h <;> (obtain ⟨rfl, h⟩ := h; rcases h with rfl | rfl | ⟨rfl, h⟩ <;> first | rfl | (cases h))
  · constructor
    · intro h
      cases t with
      | base q b =>
        obtain ⟨c, v⟩ := q
        cases c <;> cases v <;> cases b <;> first | (simp only [makeUnsigned, Option.some.injEq] at h; subst h; decide) | cases h
      | _ => cases h
    · intro h
      rcases h with h | h | h | h | h <;> (obtain ⟨rfl, h⟩ := h; rcases h with rfl | rfl | ⟨rfl, h⟩ <;> first | rfl | (cases h))

/-- C101. `Rank` and `Extent` only say whether rank and extent are zero. -/
theorem C101_queries_partial (t : Ty) :
    (rank t = true ↔ ∃ n e, t = .arr n e) ∧ (extent t = true ↔ ∃ n e, t = .arr (some (n + 1)) e) := by
  constructor
  · cases t with
    | arr n e => simp [rank, asBool, stdRank]
    | _ => simp [rank, asBool, stdRank]
  · cases t with
    | arr n e =>
      cases n with
      | none => simp [extent, asBool, stdExtent]
      | some n => cases n <;> simp [extent, asBool, stdExtent]
    | _ => simp [extent, asBool, stdExtent]

/-- C101 fails: the number of dimensions, the bound and the alignment are lost. -/
theorem C101_fails_queries :
    rank (.arr (some 2) (.arr (some 3) (.base {} .int))) = rank (.arr (some 2) (.base {} .int)) ∧
    extent (.arr (some 2) (.base {} .int)) = extent (.arr (some 7) (.base {} .int)) ∧
    ∀ n m, 0 < n → 0 < m → alignmentOf n = alignmentOf m := by
  refine ⟨rfl, rfl, ?_⟩
  intro n m hn hm
  have h : ∀ k, 0 < k → alignmentOf k = true := by intro k hk; simp [alignmentOf, asBool]; omega
  rw [h n hn, h m hm]

/-- C101. `Required<c, T>` is `T` if `c` holds and does not exist otherwise. -/
theorem C101_required (c : Bool) (t r : Ty) : required c t = some r ↔ c = true ∧ t = r := by
  cases c <;> simp [required]

/-- C101. Each operator detector but one tests its own operator. -/
theorem C101_operators_partial (valid : Expression → Bool) (op : Operator) (h : op ≠ .bitOr) :
    ∃ k, hasOperator valid op = valid ⟨op, k⟩ := by
  cases op <;> first | exact absurd rfl h | exact ⟨_, rfl⟩

/-- C101 fails: `HasBitwiseOrOperatorType` tests `&`; input from a stream is tested with a value that cannot be read into,
so a type that can only be read into variables (as `int`) is said to have no input operator. -/
theorem C101_fails_operators :
    (∀ valid, hasOperator valid .bitOr = hasOperator valid .bitAnd) ∧
    hasOperator (fun e => e = ⟨.istream, .variable⟩) .istream = false := ⟨fun _ => rfl, rfl⟩

example : removePointer (.ptr ⟨true, true⟩ (.arr (some 3) (.base ⟨true, false⟩ .char))) = .arr (some 3) (.base ⟨true, false⟩ .char) ∧
    removeCV (.arr none (.arr (some 2) (.base ⟨true, true⟩ .long))) = .arr none (.arr (some 2) (.base {} .long)) ∧
    addRref (.lref (.fn 0 false)) = .lref (.fn 0 false) ∧ addLref (.base ⟨true, false⟩ .void) = .base ⟨true, false⟩ .void ∧
    Exists (.ptr {} (.arr (some 3) (.base {} .int))) :=
  ⟨rfl, rfl, rfl, rfl, .ptr _ _ (.arr _ _ (.base _ _) (fun u => ⟨by simp, by simp⟩) (fun f r => by simp)) (fun u => ⟨by simp, by simp⟩)⟩

end Caitlyn
