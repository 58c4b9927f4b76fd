import Verif.Model.Forward
import Verif.Props.Traits

/-! # C110: forwarding, moving, signedness -/

namespace Caitlyn
open Traits

/-- Expressions that exist: of object or function type, no reference; functions are lvalues. -/
def Spec.IsExpr (e : Expr) : Prop :=
  Spec.Referenceable e.ty ∧ (∀ t, e.ty ≠ .lref t) ∧ (∀ t, e.ty ≠ .rref t) ∧ ∀ f r, e.ty = .fn f r → e.cat = .lvalue

theorem compatible_self (t : Ty) : compatible t t = true := by
  simp only [compatible, decide_true, Bool.true_and]
  cases t.quals.c <;> cases t.quals.v <;> rfl

/-- **C110 (perfect forwarding).** In `template <typename T> f(T&& x) { g(Forward<T>(x)); }` called with any argument, `g` gets an
expression of the type and of the category of that argument. -/
theorem C110_forward (e : Expr) (h : Spec.IsExpr e) :
    forward (deduceForwarding e) ⟨.lvalue, e.ty⟩ = some e := by
  obtain ⟨c, t⟩ := e
  obtain ⟨_, h2, h3, h4⟩ := h
  cases c with
  | lvalue =>
    simp only [forward, deduceForwarding, Ty.mkRref, resultOf, removeReference, compatible_self, if_true]
  | xvalue =>
    cases t with
    | lref t => exact absurd rfl (h2 t)
    | rref t => exact absurd rfl (h3 t)
    | fn f r => cases h4 f r rfl
    | base q b => simp only [forward, deduceForwarding, Ty.mkRref, resultOf, removeReference, compatible_self, if_true]
    | ptr q b => simp only [forward, deduceForwarding, Ty.mkRref, resultOf, removeReference, compatible_self, if_true]
    | member q k b => simp only [forward, deduceForwarding, Ty.mkRref, resultOf, removeReference, compatible_self, if_true]
    | arr n b => simp only [forward, deduceForwarding, Ty.mkRref, resultOf, removeReference, compatible_self, if_true]

/-- **C110 (an rvalue never becomes an lvalue).** `Forward<T>` of an rvalue compiles only if `T` is no lvalue reference, and then
gives an rvalue (for types other than functions). -/
theorem C110_rvalue (t : Ty) (u : Ty) (r : Expr) (h : forward t ⟨.xvalue, u⟩ = some r) :
    (∀ s, t ≠ .lref s) ∧ ((∀ f b, removeReference t ≠ .fn f b) → r.cat = .xvalue) := by
  unfold forward at h
  split at h
  · simp only at h
    split at h
    · cases h
    · rename_i hc hl
      have hl' : ∀ s, t ≠ .lref s := fun s e => by subst e; exact hl rfl
      refine ⟨hl', fun hf => ?_⟩
      cases h
      cases t with
      | lref s => exact absurd rfl (hl' s)
      | rref s =>
        cases s <;> simp only [Ty.mkRref, resultOf]
        exact absurd rfl (hf _ _)
      | fn f b => exact absurd rfl (hf f b)
      | base => rfl
      | ptr => rfl
      | member => rfl
      | arr => rfl
  · cases h

/-- **C110 (moving).** `MakeMovable` of a variable of object type is an xvalue of the same type, qualifiers included. It does not
compile for temporaries, which `std::move` takes, unless they are `const`. -/
theorem C110_move_partial (t : Ty) (h : Spec.IsExpr ⟨.xvalue, t⟩) :
    makeMovable ⟨.lvalue, t⟩ = some ⟨.xvalue, t⟩ ∧
      (makeMovable ⟨.xvalue, t⟩ = none ↔ ¬ (t.quals.c = true ∧ t.quals.v = false)) := by
  obtain ⟨_, h2, h3, h4⟩ := h
  cases t with
  | lref t => exact absurd rfl (h2 t)
  | rref t => exact absurd rfl (h3 t)
  | fn f r => cases h4 f r rfl
  | base q b => refine ⟨rfl, ?_⟩; simp [makeMovable]
  | ptr q b => refine ⟨rfl, ?_⟩; simp [makeMovable]
  | member q k b => refine ⟨rfl, ?_⟩; simp [makeMovable]
  | arr n b => refine ⟨rfl, ?_⟩; simp [makeMovable]

/-- **C110 fails for moving temporaries.** -/
theorem C110_move_fails (b : Base) : makeMovable ⟨.xvalue, .base {} b⟩ = none := rfl

/-- The signed and the unsigned arithmetic types of the standard. -/
def Spec.StdSigned (p : Platform) (b : Base) : Prop :=
  b ∈ [Base.schar, .short, .int, .long, .llong, .float, .double, .ldouble] ∨ b = .char ∧ p.charSigned = true ∨
    b = .wchar ∧ p.wcharSigned = true

def Spec.StdUnsigned (p : Platform) (b : Base) : Prop :=
  b ∈ [Base.bool, .uchar, .char16, .char32, .ushort, .uint, .ulong, .ullong] ∨ b = .char ∧ p.charSigned = false ∨
    b = .wchar ∧ p.wcharSigned = false

/-- **C110 (signedness).** Where `IsSigned` and `IsUnsigned` compile, they agree with `std::is_signed` and `std::is_unsigned`, on
every platform. -/
theorem C110_signed_partial (p : Platform) (valid : Base → Bool) (b : Base) (r : Bool) :
    (isSigned p valid b = some r → (r = true ↔ Spec.StdSigned p b)) ∧
      (isUnsigned p valid b = some r → (r = true ↔ Spec.StdUnsigned p b)) := by
  obtain ⟨c, w⟩ := p
  constructor <;> intro h <;> cases b <;> cases c <;> cases w <;>
    simp [isSigned, isUnsigned, minusOne, Spec.StdSigned, Spec.StdUnsigned] at h ⊢ <;>
    first
      | (subst h; decide)
      | exact h
      | (exact h.2)
      | (split at h <;> simp_all)
      | skip

/-- **C110 fails for other types.** `IsSigned<void>()` and `IsSigned<std::nullptr_t>()` do not compile, nor does it for a class
without conversion from `int` such as `String`; the standard traits are false there. -/
theorem C110_signed_fails (p : Platform) (valid : Base → Bool) (n : Nat) :
    isSigned p valid .void = none ∧ isSigned p valid .nullptr = none ∧ isUnsigned p valid .void = none ∧
      isUnsigned p valid .nullptr = none ∧
      ∀ b ∈ [Base.class n, Base.union n], valid b = false → isSigned p valid b = none ∧ isUnsigned p valid b = none := by
  refine ⟨rfl, rfl, rfl, rfl, ?_⟩
  intro b hb h
  simp only [List.mem_cons, List.not_mem_nil, or_false] at hb
  rcases hb with rfl | rfl <;> simp [isSigned, isUnsigned, minusOne, h]

theorem without_all (t : Ty) : removeCV t = t.without { c := true, v := true } := by
  unfold removeCV removeCVStruct
  have key : ∀ (s : Ty) (q : CV), (s.quals.c = true → q.c = true) → (s.quals.v = true → q.v = true) →
      s.without q = s.without { c := true, v := true } := by
    intro s q
    induction s with
    | base q' b | ptr q' b | member q' k b =>
      intro h1 h2
      obtain ⟨c, v⟩ := q
      obtain ⟨c', v'⟩ := q'
      cases c <;> cases v <;> cases c' <;> cases v' <;> simp_all [Ty.quals, Ty.without, CV.minus]
    | arr n t ih => intro h1 h2; simp only [Ty.without, ih h1 h2]
    | _ => intros; rfl
  have keep : ∀ s : Ty, s.quals.c = false → s.quals.v = false → s = s.without { c := true, v := true } := by
    intro s
    induction s with
    | base q' b | ptr q' b | member q' k b =>
      intro h1 h2
      obtain ⟨c', v'⟩ := q'
      cases c' <;> cases v' <;> simp_all [Ty.quals, Ty.without, CV.minus]
    | arr n t ih => intro h1 h2; simp only [Ty.without, ← ih h1 h2]
    | _ => intros; rfl
  cases hc : t.quals.c <;> cases hv : t.quals.v
  · exact keep t hc hv
  · exact key t _ (by simp [hc]) (by simp)
  · exact key t _ (by simp) (by simp [hv])
  · rfl

/-- A reference binds exactly to the types that become its type by adding qualifiers. -/
theorem compatible_iff (p t : Ty) : compatible p t = true ↔ ∃ q, p = t.qualify q := by
  unfold compatible
  rw [Bool.and_eq_true, Bool.and_eq_true, decide_eq_true_eq, without_all, without_all]
  constructor
  · rintro ⟨⟨h1, h2⟩, h3⟩
    refine ⟨p.quals, ?_⟩
    have hq : ∀ a b : CV, (!b.c || a.c) = true → (!b.v || a.v) = true → a = b.or a := by
      intro ⟨c, v⟩ ⟨c', v'⟩
      cases c <;> cases v <;> cases c' <;> cases v' <;> decide
    induction t generalizing p with
    | base q b =>
      cases p with
      | base q' b' =>
        simp only [Ty.without, Ty.base.injEq] at h1
        simp only [Ty.quals, Ty.qualify, ← hq q' q h2 h3, h1.2]
      | _ => simp only [Ty.without, reduceCtorEq] at h1
    | ptr q b =>
      cases p with
      | ptr q' b' =>
        simp only [Ty.without, Ty.ptr.injEq] at h1
        simp only [Ty.quals, Ty.qualify, ← hq q' q h2 h3, h1.2]
      | _ => simp only [Ty.without, reduceCtorEq] at h1
    | member q k b =>
      cases p with
      | member q' k' b' =>
        simp only [Ty.without, Ty.member.injEq] at h1
        simp only [Ty.quals, Ty.qualify, ← hq q' q h2 h3, h1.2]
      | _ => simp only [Ty.without, reduceCtorEq] at h1
    | arr n t ih =>
      cases p with
      | arr n' p =>
        simp only [Ty.without, Ty.arr.injEq] at h1
        have := ih p h3 h1.2 h2
        simp only [Ty.quals, Ty.qualify, ← this, h1.1]
      | _ => simp only [Ty.without, reduceCtorEq] at h1
    | _ => cases p <;> simp only [Ty.without, reduceCtorEq] at h1 <;> exact h1
  · rintro ⟨q, rfl⟩
    obtain ⟨qc, qv⟩ := q
    induction t with
    | base q b | ptr q b | member q k b =>
      obtain ⟨c, v⟩ := q
      cases qc <;> cases qv <;> cases c <;> cases v <;> simp [Ty.without, Ty.qualify, Ty.quals, CV.or, CV.minus]
    | arr n t ih =>
      simp only [Ty.without, Ty.qualify, Ty.quals, Ty.arr.injEq, true_and]
      exact ih
    | _ => exact ⟨⟨rfl, rfl⟩, rfl⟩

/-- **C110 (which calls compile).** `Forward<T>(e)` compiles exactly if the type that `T` is or refers to is the type of the argument,
possibly with more qualifiers, and the argument is no rvalue for which `T` is an lvalue reference; and the result has the type that `T` is
or refers to. -/
theorem C110_compiles (t : Ty) (e : Expr) :
    ((forward t e).isSome = true ↔ (∃ q, removeReference t = e.ty.qualify q) ∧ (e.cat = .xvalue → ∀ s, t ≠ .lref s)) ∧
    ∀ r, forward t e = some r → r.ty = removeReference t := by
  have hres : (resultOf t.mkRref).ty = removeReference t := by
    cases t with
    | rref t => cases t <;> rfl
    | _ => rfl
  constructor
  · rw [← compatible_iff]
    unfold forward
    obtain ⟨c, u⟩ := e
    by_cases h : compatible (removeReference t) u = true
    · rw [if_pos h]
      cases c with
      | lvalue => exact ⟨fun _ => ⟨h, (nomatch ·)⟩, fun _ => rfl⟩
      | xvalue => cases t <;> simp [isLref, isLrefStruct, h]
    · rw [if_neg h]
      exact ⟨(nomatch ·), fun h' => absurd h'.1 h⟩
  · intro r hr
    unfold forward at hr
    split at hr
    · split at hr
      · cases hr; exact hres
      · split at hr
        · cases hr
        · cases hr; exact hres
    · cases hr

/-- **C110 (where the signedness can be asked).** `IsSigned` and `IsUnsigned` compile for exactly the same types: all but `void`,
`std::nullptr_t`, and the classes and unions whose values cannot be made from -1 and compared. -/
theorem C110_signed_compiles (p : Platform) (valid : Base → Bool) (b : Base) :
    ((isSigned p valid b).isSome = true ↔ b ≠ .void ∧ b ≠ .nullptr ∧ ((∃ n, b = .class n ∨ b = .union n) → valid b = true)) ∧
    (isUnsigned p valid b).isSome = (isSigned p valid b).isSome := by
  cases b <;> simp [isSigned, isUnsigned, minusOne] <;> (split <;> simp_all)

example : (forward (.lref (.base { c := true } .int)) ⟨.lvalue, .base {} .int⟩).isSome = true ∧
    forward (.lref (.base {} .int)) ⟨.lvalue, .base { c := true } .int⟩ = none ∧
    forward (.base {} .int) ⟨.xvalue, .base {} .long⟩ = none := by decide

example : Spec.IsExpr ⟨.xvalue, .base { c := true } (.class 0)⟩ :=
  ⟨⟨(fun _ h => by cases h), (fun _ h => by cases h)⟩, (fun _ h => by cases h), (fun _ h => by cases h), (fun _ _ h => by cases h)⟩
example : forward (.base {} .int) ⟨.xvalue, .base {} .int⟩ = some ⟨.xvalue, .base {} .int⟩ ∧
    forward (.lref (.base {} .int)) ⟨.xvalue, .base {} .int⟩ = none := by decide

end Caitlyn
