import Verif.Model.ExpectedTypes

/-! # C159: the types of the operations of `Expected` -/

namespace Caitlyn
open ExpectedTypes

namespace Spec.SumTy

/-- The type that an operation has on a sum type of `t` and `e`, where functions may change the types: `none` if the types do not fit
without conversions. -/
def wanted (t e : Ty) : Use → Option Ty
  | .map res => some (.expected res e)
  | .mapError res => some (.expected t res)
  | .andThen res => match res with
    | .expected u e' => if e' = e then some (.expected u e) else none
    | _ => none
  | .orElse res => match res with
    | .expected t' g => if t' = t then some (.expected t g) else none
    | _ => none
  | .unwrapOr arg => if arg = t then some t else none
  | .unwrapOrElse res => if res = t then some t else none
  | .unwrapOrDefault => some t
  | .filter => some (.expected t e)
  | .fold init res => if init = res then some res else none
  | .onError _ => some (.expected t e)
  | .customize res => some res
  | .inspect res err => if res = err then some res else none

/-- The operation keeps the types, is not one of those that name things that do not exist, and its result type is one that
exists. -/
def Keeps (t e : Ty) : Use → Prop
  | .map res => res ≠ .void ∧ res ≠ .unexpected e
  | .mapError res => res = e
  | .andThen res => res = .expected t e
  | .orElse res => res = .expected t e
  | .unwrapOrDefault => False
  | .filter => False
  | _ => True

end Spec.SumTy
open Spec.SumTy

/-- C159 (in part): the operations that keep the types of value and error compile where the types fit, and have the wanted type.
Missing: `MapError` and `OrElse` that change the type of the error, `AndThen` that changes the type of the value, `UnwrapOrDefault`, `Filter`. -/
theorem C159_partial (r : Rules) (t e : Ty) (h : instantiable t e = true) (u : Use) (hk : Keeps t e u) (w : Ty)
    (hw : wanted t e u = some w) : typeOf r t e u = some w := by
  cases u with
  | map res =>
    simp only [Keeps] at hk
    cases hw
    have he : e ≠ .void := by simp [instantiable] at h; exact h.1.2
    simp [typeOf, instantiable, hk, he]
  | mapError res => simp only [Keeps] at hk; subst hk; cases hw; simp [typeOf, h, Rules.returns]
  | andThen res => simp only [Keeps] at hk; subst hk; simp [wanted] at hw; simp [typeOf, Rules.returns, hw]
  | orElse res => simp only [Keeps] at hk; subst hk; simp [wanted] at hw; simp [typeOf, Rules.returns, hw]
  | unwrapOr arg =>
    simp only [wanted] at hw
    split at hw
    · next e => cases hw; simp [typeOf, e, Rules.returns]
    · cases hw
  | unwrapOrElse res =>
    simp only [wanted] at hw
    split at hw
    · next e => cases hw; simp [typeOf, e, Rules.returns]
    · cases hw
  | unwrapOrDefault => exact hk.elim
  | filter => exact hk.elim
  | fold init res =>
    simp only [wanted] at hw
    split at hw
    · next e => cases hw; simp [typeOf, e, Rules.returns]
    · cases hw
  | onError res => cases hw; rfl
  | customize res => cases hw; rfl
  | inspect res err =>
    simp only [wanted] at hw
    split at hw
    · next e => cases hw; simp [typeOf, e, Rules.returns]
    · cases hw

theorem expected_ne (t e : Ty) : t ≠ .expected t e := fun h => by
  have := congrArg sizeOf h
  simp at this
  omega

/-- C159 fails for `MapError`, exactly: it compiles if and only if the function does not change the type of the error, whatever
conversions there are. -/
theorem C159_map_error_fails (r : Rules) (t e res : Ty) (h : instantiable t e = true) :
    (typeOf r t e (.mapError res)).isSome = true ↔ res = e := by
  have hs : r.standardly (.expected t e) t = false := by
    rw [Bool.eq_false_iff]
    intro h
    simp only [Rules.standardly, Bool.or_eq_true, beq_iff_eq] at h
    rcases h with h | h
    · exact expected_ne t e h.symm
    · cases h
  constructor
  · intro hc
    simp only [typeOf, Rules.returns, hs] at hc
    split at hc
    · next hr =>
      simp only [Bool.false_or, Bool.and_eq_true, Bool.or_eq_true, beq_iff_eq, Ty.expected.injEq] at hr
      rcases hr.2 with h | h
      · exact h.2.symm
      · cases h
    · cases hc
  · rintro rfl
    simp [typeOf, h, Rules.returns]

/-- C159 fails for `AndThen`, `Then`, `OrElse` and `CatchError`, exactly: they compile if and only if the function returns an `Expected` of
the same types, a value of the same type or of one with a standard conversion to it, or an `Unexpected` of the same type. -/
theorem C159_and_then_fails (r : Rules) (t e res : Ty) :
    ((typeOf r t e (.andThen res)).isSome = true ↔
      res = .expected t e ∨ r.standardly res t = true ∨ res = .unexpected e) ∧
    typeOf r t e (.orElse res) = typeOf r t e (.andThen res) := by
  refine ⟨?_, rfl⟩
  have hr : r.returns res (.expected t e) = true ↔ res = .expected t e ∨ r.standardly res t = true ∨ res = .unexpected e := by
    simp [Rules.returns]
  rw [← hr]
  cases h : r.returns res (.expected t e) <;> simp [typeOf, h]

/-- So a computation that may fail cannot be followed by one with another type of value: `AndThen` with a function that returns an
`Expected<u, e>` compiles only if `u` is `t`, or `t` is itself that type. -/
theorem C159_chain_fails (r : Rules) (t e u : Ty) :
    (typeOf r t e (.andThen (.expected u e))).isSome = true ↔ u = t ∨ t = .expected u e := by
  rw [(C159_and_then_fails r t e _).1]
  simp only [Rules.standardly, Bool.or_eq_true, beq_iff_eq, Ty.expected.injEq, and_true]
  constructor
  · rintro (h | (h | h) | h)
    · exact .inl h
    · exact .inr h.symm
    · cases h
    · cases h
  · rintro (h | h)
    · exact .inl h
    · exact .inr (.inl (.inl h.symm))

/-- C159 fails for `UnwrapOrDefault` and `Filter`: they never compile, for any types. -/
theorem C159_names_fails (r : Rules) (t e : Ty) :
    typeOf r t e .unwrapOrDefault = none ∧ typeOf r t e .filter = none ∧
      wanted t e .unwrapOrDefault = some t ∧ wanted t e .filter = some (.expected t e) := ⟨rfl, rfl, rfl, rfl⟩

/-- C159. Which types of values there are: an `Expected<T, E>` is one exactly if neither type is `void`, and the value is not an
`Unexpected` of the error's type. -/
theorem C159_instances (t e : Ty) : instantiable t e = true ↔ t ≠ .void ∧ e ≠ .void ∧ t ≠ .unexpected e := by
  simp [instantiable, and_assoc]

/-- C159, exactly, for values that are converted. `UnwrapOr` takes what the value type can be made from, and gives the value type;
`UnwrapOrElse` gives the type of the function's result, which must be one that the value can be converted to; `Fold` takes a first value that
converts to the function's result. `AndThen` takes a value too, but only where a standard conversion is enough. -/
theorem C159_converted (r : Rules) (m n : Nat) (e : Ty) :
    (typeOf r (.base n) e (.unwrapOr (.base m)) = some (.base n) ↔ m = n ∨ r.standard m n = true ∨ r.user (.base m) n = true) ∧
    (typeOf r (.base n) e (.unwrapOrElse (.base m)) = some (.base m) ↔ n = m ∨ r.standard n m = true ∨ r.user (.base n) m = true) ∧
    (typeOf r (.base n) e (.fold (.base m) (.base n)) = some (.base n) ↔ m = n ∨ r.standard m n = true ∨ r.user (.base m) n = true) ∧
    (typeOf r (.base n) e (.andThen (.base m)) = some (.expected (.base n) e) ↔ m = n ∨ r.standard m n = true) := by
  simp only [typeOf, Rules.returns, Rules.standardly]
  refine ⟨?_, ?_, ?_, ?_⟩
  all_goals by_cases h : m = n
  all_goals first | (subst h; simp; done) | skip
  all_goals
    have h' : ¬ n = m := fun e => h e.symm
    simp [h, h']
    try (cases r.standard m n <;> cases r.standard n m <;> simp)

/-- C159, exactly, for all operations that have a wanted type: they compile, with this type, if and only if they keep the types, or, in the
case of `AndThen` and `OrElse`, the wanted type is the type of the value itself. -/
theorem C159_exact_fails (r : Rules) (t e : Ty) (h : instantiable t e = true) (u : Use) (w : Ty) (hw : wanted t e u = some w)
    (hu : ∀ res, u = .andThen res ∨ u = .orElse res → t ≠ res) : typeOf r t e u = some w ↔ Keeps t e u := by
  refine ⟨fun hc => ?_, fun hk => C159_partial r t e h u hk w hw⟩
  cases u with
  | map res =>
    simp only [typeOf] at hc
    split at hc
    · next hi => simp [instantiable] at hi; exact ⟨hi.1.1, hi.2⟩
    · cases hc
  | mapError res => exact (C159_map_error_fails r t e res h).mp (by rw [hc]; rfl)
  | andThen res =>
    simp only [wanted] at hw
    split at hw
    · next u e' =>
      split at hw
      · next he =>
        subst he
        rcases (C159_chain_fails r t e' u).mp (by rw [hc]; rfl) with rfl | h
        · rfl
        · exact absurd h (hu _ (.inl rfl))
      · cases hw
    · cases hw
  | orElse res =>
    simp only [wanted] at hw
    split at hw
    · next t' g =>
      split at hw
      · next ht =>
        subst ht
        have hs := (C159_and_then_fails r t' e (.expected t' g)).1.mp (by
          rw [← (C159_and_then_fails r t' e (.expected t' g)).2, hc]; rfl)
        rcases hs with h | h | h
        · exact h
        · simp only [Rules.standardly, Bool.or_eq_true, beq_iff_eq] at h
          rcases h with h | h
          · exact absurd h.symm (expected_ne t' g)
          · cases h
        · cases h
      · cases hw
    · cases hw
  | unwrapOrDefault => cases hc
  | filter => cases hc
  | _ => trivial

/-- `int`, `double`, `String`, `std::string`: numbers convert to each other, and `std::string` to `String`. -/
def ExpectedTypes.sample : Rules := ⟨fun m n => m < 2 && n < 2, fun a n => a == .base 3 && n == 2⟩

/-- `Expected<int, String>`: `Map` to another type, `MapError` to another type, `AndThen` that returns a `double`, and
`UnwrapOr` with a `double`. -/
example : typeOf sample (.base 0) (.base 2) (.map (.base 1)) = some (.expected (.base 1) (.base 2)) ∧
    typeOf sample (.base 0) (.base 2) (.mapError (.base 0)) = none ∧
    typeOf sample (.base 0) (.base 2) (.andThen (.base 1)) = some (.expected (.base 0) (.base 2)) ∧
    typeOf sample (.base 0) (.base 2) (.andThen (.expected (.base 1) (.base 2))) = none ∧
    typeOf sample (.base 0) (.base 2) (.unwrapOr (.base 1)) = some (.base 0) ∧
    typeOf sample (.base 0) (.base 2) (.map .void) = none ∧
    instantiable (.base 0) (.base 2) = true := by decide

/-- A value of a type that the value type has a constructor for can be given to `UnwrapOr`, but not returned to `AndThen`. -/
example : typeOf sample (.base 2) (.base 0) (.unwrapOr (.base 3)) = some (.base 2) ∧
    typeOf sample (.base 2) (.base 0) (.andThen (.base 3)) = none := by decide

end Caitlyn
