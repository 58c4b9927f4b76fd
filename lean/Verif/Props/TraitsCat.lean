import Verif.Props.Traits
import Verif.Model.TraitsStd

/-! # C121: the categories of types divide the types, and the composite categories are unions of them -/

namespace Caitlyn
open Traits Ty

/-- The primary categories that contain the type, as the library answers. -/
def Spec.categories (t : Ty) : List Bool :=
  [isVoid t, isNullPointer t, isIntegral t, isFloating t, isArray t, isEnum t, isUnion t, isClass t, isFunction t, isPointer t,
   isLref t, isRref t, isMemberObjectPointer t, isMemberFunctionPointer t]

/-- A `const` or `volatile` number other than a truth value. -/
def Spec.qualifiedNumber : Ty → Bool
  | .base q b => q != {} && b ∈ Spec.charTypes ++ Spec.integerTypes ++ Spec.floatTypes
  | _ => false

theorem Traits.removeCV_base (q : CV) (b : Base) : removeCV (.base q b) = .base {} b :=
  strips_unique (removeCVStruct_strips _) (.base q b)

theorem Traits.isX_base (q : CV) (b : Base) :
    isVoid (.base q b) = decide (b = .void) ∧ isNullPointer (.base q b) = decide (b = .nullptr) ∧
    isBoolean (.base q b) = decide (b = .bool) := by
  unfold isVoid isNullPointer isBoolean
  rw [removeCV_base]
  unfold same
  refine ⟨?_, ?_, ?_⟩ <;> (apply decide_eq_decide.mpr; constructor <;> intro h <;> cases h <;> rfl)

theorem Traits.isX_other (t : Ty) (h : ∀ q b, t ≠ .base q b) :
    isVoid t = false ∧ isNullPointer t = false ∧ isBoolean t = false := by
  have := C101_categories t t
  refine ⟨?_, ?_, ?_⟩
  · exact Bool.eq_false_iff.mpr fun e => by obtain ⟨q, e⟩ := this.2.2.1.mp e; exact h _ _ e
  · exact Bool.eq_false_iff.mpr fun e => by obtain ⟨q, e⟩ := this.2.2.2.1.mp e; exact h _ _ e
  · exact Bool.eq_false_iff.mpr fun e => by obtain ⟨q, e⟩ := this.2.2.2.2.1.mp e; exact h _ _ e

/-- The number of primary categories that the library gives a type. -/
def Spec.categoryCount : Ty → Nat
  | .lref _ => 2
  | .rref _ => 0
  | t => if Spec.qualifiedNumber t then 0 else 1

/-- C121: in how many primary categories the library puts a type, for every type. -/
theorem C121_exact (t : Ty) : (Spec.categories t).count true = Spec.categoryCount t := by
  cases t with
  | base q b =>
    obtain ⟨h1, h2, h3⟩ := isX_base q b
    unfold Spec.categories isIntegral
    rw [h1, h2, h3]
    obtain ⟨c, v⟩ := q
    cases b <;> cases c <;> cases v <;> rfl
  | ptr q t =>
    obtain ⟨h1, h2, h3⟩ := isX_other (.ptr q t) (fun _ _ => nofun)
    unfold Spec.categories isIntegral
    rw [h1, h2, h3]
    obtain ⟨c, v⟩ := q
    cases c <;> cases v <;> rfl
  | member q k t =>
    obtain ⟨h1, h2, h3⟩ := isX_other (.member q k t) (fun _ _ => nofun)
    unfold Spec.categories isIntegral
    rw [h1, h2, h3]
    cases t <;> rfl
  | arr n t =>
    obtain ⟨h1, h2, h3⟩ := isX_other (.arr n t) (fun _ _ => nofun)
    unfold Spec.categories isIntegral
    rw [h1, h2, h3]
    cases n <;> rfl
  | lref t =>
    obtain ⟨h1, h2, h3⟩ := isX_other (.lref t) (fun _ _ => nofun)
    unfold Spec.categories isIntegral
    rw [h1, h2, h3]
    rfl
  | rref t =>
    obtain ⟨h1, h2, h3⟩ := isX_other (.rref t) (fun _ _ => nofun)
    unfold Spec.categories isIntegral
    rw [h1, h2, h3]
    rfl
  | fn f r =>
    obtain ⟨h1, h2, h3⟩ := isX_other (.fn f r) (fun _ _ => nofun)
    unfold Spec.categories isIntegral
    rw [h1, h2, h3]
    rfl

/-- C121: a type that is neither a reference nor a qualified number belongs to exactly one primary category. -/
theorem C121_one_partial (t : Ty) (h : isReference t = false) (hq : Spec.qualifiedNumber t = false) :
    (Spec.categories t).count true = 1 := by
  rw [C121_exact]
  cases t with
  | lref => cases h
  | rref => cases h
  | _ => simp [Spec.categoryCount, hq]

example : isReference (.arr none (.base { c := true } .int)) = false ∧
    Spec.qualifiedNumber (.arr none (.base { c := true } .int)) = false := by decide

/-- C121 fails for references and qualified numbers: `int&` is in two categories; `int&&` and `const int` are in none. -/
theorem C121_one_fails (t : Ty) (q : CV) (hq : q ≠ {}) (b : Base)
    (hb : b ∈ Spec.charTypes ++ Spec.integerTypes ++ Spec.floatTypes) :
    (Spec.categories (.lref t)).count true = 2 ∧ (Spec.categories (.rref t)).count true = 0 ∧
    (Spec.categories (.base q b)).count true = 0 := by
  refine ⟨C121_exact _, C121_exact _, ?_⟩
  rw [C121_exact]
  have : Spec.qualifiedNumber (.base q b) = true := by
    show (q != {} && decide (b ∈ Spec.charTypes ++ Spec.integerTypes ++ Spec.floatTypes)) = true
    rw [decide_eq_true hb, bne_iff_ne.mpr hq]
    rfl
  simp [Spec.categoryCount, this]

/-- C121: the composite categories are the unions of the primary ones as the standard defines them, except for references and
qualified numbers. -/
theorem C121_composite_partial (t : Ty) (hq : Spec.qualifiedNumber t = false) :
    isArithmetic t = (isIntegral t || isFloating t) ∧
    isFundamental t = (isArithmetic t || isVoid t || isNullPointer t) ∧
    isScalar t = (isArithmetic t || isEnum t || isPointer t || isMemberPointer t || isNullPointer t) ∧
    isObject t = (isScalar t || isArray t || isUnion t || isClass t) ∧
    isCompound t = !isFundamental t ∧
    isMemberPointer t = (isMemberObjectPointer t || isMemberFunctionPointer t) ∧
    (isReference t = (isLref t || isRref t) ↔ ∀ u, t ≠ .rref u) := by
  cases t with
  | base q b =>
    obtain ⟨h1, h2, h3⟩ := isX_base q b
    unfold isIntegral
    rw [h1, h2, h3]
    obtain ⟨c, v⟩ := q
    cases b <;> cases c <;> cases v <;>
      first | (exact absurd hq (by decide)) | exact ⟨rfl, rfl, rfl, rfl, rfl, rfl, ⟨fun _ _ => nofun, fun _ => rfl⟩⟩
  | ptr q t =>
    obtain ⟨h1, h2, h3⟩ := isX_other (.ptr q t) (fun _ _ => nofun)
    unfold isIntegral
    rw [h1, h2, h3]
    obtain ⟨c, v⟩ := q
    cases c <;> cases v <;> exact ⟨rfl, rfl, rfl, rfl, rfl, rfl, ⟨fun _ _ => nofun, fun _ => rfl⟩⟩
  | member q k t =>
    obtain ⟨h1, h2, h3⟩ := isX_other (.member q k t) (fun _ _ => nofun)
    unfold isIntegral
    rw [h1, h2, h3]
    cases t <;> exact ⟨rfl, rfl, rfl, rfl, rfl, rfl, ⟨fun _ _ => nofun, fun _ => rfl⟩⟩
  | arr n t =>
    obtain ⟨h1, h2, h3⟩ := isX_other (.arr n t) (fun _ _ => nofun)
    unfold isIntegral
    rw [h1, h2, h3]
    cases n <;> exact ⟨rfl, rfl, rfl, rfl, rfl, rfl, ⟨fun _ _ => nofun, fun _ => rfl⟩⟩
  | lref t =>
    obtain ⟨h1, h2, h3⟩ := isX_other (.lref t) (fun _ _ => nofun)
    unfold isIntegral
    rw [h1, h2, h3]
    exact ⟨rfl, rfl, rfl, rfl, rfl, rfl, ⟨fun _ _ => nofun, fun _ => rfl⟩⟩
  | rref t =>
    obtain ⟨h1, h2, h3⟩ := isX_other (.rref t) (fun _ _ => nofun)
    unfold isIntegral
    rw [h1, h2, h3]
    exact ⟨rfl, rfl, rfl, rfl, rfl, rfl, ⟨fun h => (by cases h), fun h => absurd rfl (h t)⟩⟩
  | fn f r =>
    obtain ⟨h1, h2, h3⟩ := isX_other (.fn f r) (fun _ _ => nofun)
    unfold isIntegral
    rw [h1, h2, h3]
    exact ⟨rfl, rfl, rfl, rfl, rfl, rfl, ⟨fun _ _ => nofun, fun _ => rfl⟩⟩

/-- C121 fails: a qualified number is arithmetic, but neither integral nor floating. -/
theorem C121_composite_fails (q : CV) (hq : q ≠ {}) (b : Base)
    (hb : b ∈ Spec.charTypes ++ Spec.integerTypes ++ Spec.floatTypes) :
    isArithmetic (.base q b) = true ∧ isIntegral (.base q b) = false ∧ isFloating (.base q b) = false := by
  obtain ⟨h1, h2, h3⟩ := isX_base q b
  unfold isIntegral
  rw [h3]
  obtain ⟨c, v⟩ := q
  simp only [Spec.charTypes, Spec.integerTypes, Spec.floatTypes, List.mem_append, List.mem_cons, List.not_mem_nil, or_false] at hb
  rcases hb with (hb | hb) | hb <;> (rcases hb with rfl | rfl | rfl | rfl | rfl | rfl | rfl | rfl | rfl | rfl) <;>
    cases c <;> cases v <;> first | exact absurd rfl hq | exact ⟨rfl, rfl, rfl⟩

/-- C121: `IsConst` and `IsVolatile` are true of a type exactly if it can be qualified and adding the qualifier changes nothing. -/
theorem C121_qualifiers (t : Ty) :
    (isConst t = true ↔ addConst t = t ∧ removeCV t ≠ addConst (removeCV t)) ∧
    (isVolatile t = true ↔ addVolatile t = t ∧ removeCV t ≠ addVolatile (removeCV t)) := by
  have h := removeCVStruct_strips t
  rw [show removeCVStruct t = removeCV t from rfl] at h
  generalize removeCV t = u at h
  unfold isConst isVolatile addConst addVolatile
  induction h with
  | arr n t u _ ih =>
    simp only [Ty.quals, Ty.qualify, ne_eq, Ty.arr.injEq, true_and]
    exact ih
  | base q b => obtain ⟨c, v⟩ := q; cases c <;> cases v <;> simp [Ty.quals, Ty.qualify, CV.or]
  | ptr q t => obtain ⟨c, v⟩ := q; cases c <;> cases v <;> simp [Ty.quals, Ty.qualify, CV.or]
  | member q k t => obtain ⟨c, v⟩ := q; cases c <;> cases v <;> simp [Ty.quals, Ty.qualify, CV.or]
  | lref t => simp [Ty.quals, Ty.qualify]
  | rref t => simp [Ty.quals, Ty.qualify]
  | fn f r => simp [Ty.quals, Ty.qualify]

/-- C121: the three ways to ask a `BooleanConstant` agree. -/
theorem C121_constant (b : Bool) : BooleanConstant.value ⟨b⟩ = b ∧ BooleanConstant.convert ⟨b⟩ = b ∧ BooleanConstant.call ⟨b⟩ = b :=
  ⟨rfl, rfl, rfl⟩

end Caitlyn
