import Verif.Model.Lookup
import Verif.Props.Headers

/-! # C161: the operators of the library are found -/

namespace Caitlyn
open Lookup Headers Traits

/-- The operators that a class offers for two of its objects, or for a stream and one of its objects. -/
def Spec.offers : Cls → List Operator
  | .string => [.less, .greater, .equal, .notEqual, .add, .istream, .ostream]
  | .char => [.less, .greater, .equal, .notEqual, .ostream]
  | .bigInteger => [.less, .greater, .equal, .notEqual, .add, .subtract, .multiply, .divide, .modulus, .ostream]
  | .bigFloat => [.less, .greater, .equal, .notEqual, .add, .subtract, .multiply, .divide, .ostream]
  | .json => [.istream, .ostream]
  | _ => [.equal, .notEqual]

/-- The classes all of whose comparisons and sums are found at every place. -/
def Spec.selfContained : List Cls := [.string, .char, .rawPtr, .uniquePtr, .sharedPtr, .weakPtr]

theorem Lookup.member_iff (c : Cls) (op : Operator) : member c op = true ↔
    c ∈ Spec.selfContained ∧ op ∈ Spec.offers c ∧ op ≠ .istream ∧ op ≠ .ostream := by
  cases c with
  | unexpected g => cases g <;> cases op <;> decide
  | _ => cases op <;> decide

theorem Lookup.free_iff (c : Cls) (op : Operator) : free c op = true ↔
    op ∈ Spec.offers c ∧ (c ∈ Spec.selfContained → op = .istream ∨ op = .ostream) := by
  cases c with
  | unexpected g => cases g <;> cases op <;> decide
  | _ => cases op <;> decide

theorem Lookup.offers_iff (c : Cls) (op : Operator) : op ∈ Spec.offers c ↔ member c op = true ∨ free c op = true := by
  cases c with
  | unexpected g => cases g <;> cases op <;> decide
  | _ => cases op <;> decide

/-- Some header has been read before the detectors. -/
def Spec.ReadFirst (tu : Tu) (f : File) : Prop := ∃ pre post, tu.out = pre ++ .Core_Traits_Types_Operators :: post ∧ f ∈ pre

theorem Lookup.takeWhile_iff {l : List File} (hn : l.Nodup) {x : File} (hx : x ∈ l) (f : File) :
    f ∈ l.takeWhile (· ≠ x) ↔ ∃ pre post, l = pre ++ x :: post ∧ f ∈ pre := by
  induction l with
  | nil => simp at hx
  | cons a l ih =>
    by_cases ha : a = x
    · subst ha
      simp only [ne_eq, not_true_eq_false, decide_false, Bool.false_eq_true, not_false_eq_true, List.takeWhile_cons_of_neg,
        List.not_mem_nil, false_iff, not_exists, not_and]
      intro pre post h
      cases pre with
      | nil => simp
      | cons b pre =>
        rw [List.cons_append, List.cons.injEq] at h
        exact absurd (h.2 ▸ List.mem_append_right pre List.mem_cons_self) (List.nodup_cons.mp hn).1
    · have hx' : x ∈ l := by
        rcases List.mem_cons.mp hx with h | h
        · exact absurd h.symm ha
        · exact h
      rw [List.takeWhile_cons_of_pos (by simpa using ha), List.mem_cons, ih (List.nodup_cons.mp hn).2 hx']
      constructor
      · rintro (rfl | ⟨pre, post, rfl, h⟩)
        · obtain ⟨pre, post, rfl⟩ := List.append_of_mem hx'
          exact ⟨f :: pre, post, rfl, List.mem_cons_self⟩
        · exact ⟨a :: pre, post, rfl, List.mem_cons_of_mem _ h⟩
      · rintro ⟨pre, post, h, hf⟩
        cases pre with
        | nil => simp at hf
        | cons b pre =>
          rw [List.cons_append, List.cons.injEq] at h
          rcases List.mem_cons.mp hf with rfl | hf
          · exact .inl h.1.symm
          · exact .inr ⟨pre, post, h.2, hf⟩

theorem Lookup.takeWhile_prefix {l m : List File} (h : l <+: m) {x : File} (hx : x ∈ l) :
    m.takeWhile (· ≠ x) = l.takeWhile (· ≠ x) := by
  obtain ⟨t, rfl⟩ := h
  induction l with
  | nil => simp at hx
  | cons a l ih =>
    by_cases ha : a = x
    · subst ha; simp
    · have hx' : x ∈ l := by
        rcases List.mem_cons.mp hx with h | h
        · exact absurd h.symm ha
        · exact h
      rw [List.cons_append, List.takeWhile_cons_of_pos (by simpa using ha), List.takeWhile_cons_of_pos (by simpa using ha), ih hx']

/-- C161: comparisons of strings, characters and pointers and the sum of strings compile at every place: in every source file, in every
namespace, in the templates of the standard library, and the detectors say so. -/
theorem C161_members (tu : Tu) (c : Cls) (op : Operator) (o : Operand) (hc : c ∈ Spec.selfContained) (ho : op ∈ Spec.offers c)
    (hs : op ≠ .istream ∧ op ≠ .ostream) :
    inSource tu c ⟨op, o⟩ = true ∧ inNamespace tu c ⟨op, o⟩ = true ∧ (∀ a : Algorithm, a.uses.op = op → works tu a c = true) ∧
      detects tu c op = true := by
  have hm : member c op = true := (member_iff c op).mpr ⟨hc, ho, hs⟩
  have hv : ∀ seen all o, valid seen all c ⟨op, o⟩ = true := by
    intro seen all o
    unfold valid
    simp [hm, hs.1]
  refine ⟨hv _ _ _, hv _ _ _, ?_, ?_⟩
  · intro a ha
    have : a.uses = ⟨op, a.uses.operand⟩ := by rw [← ha]
    unfold works inNamespace
    rw [this]
    exact hv _ _ _
  · have ht : (tested op).op = op := by
      revert ho
      cases c with
      | unexpected g => cases g <;> cases op <;> decide
      | _ => cases op <;> decide
    have := hv (tu.out.takeWhile (· ≠ .Core_Traits_Types_Operators)) tu.out (tested op).operand
    unfold detects hasOperator
    have e : tested op = ⟨op, (tested op).operand⟩ := by
      generalize hx : tested op = x at ht
      cases x
      cases ht
      rfl
    rw [e]
    exact this

example (tu : Tu) : inNamespace tu .string ⟨.less, .value⟩ = true ∧ works tu .sort .string = true ∧ works tu .find .uniquePtr = true :=
  ⟨rfl, rfl, rfl⟩

/-- What is read before some header includes what its headers include. -/
theorem Lookup.closed {names : List Name} {tu : Tu} (h : translate true names = .ok tu) (x f g : File) (hg : .exact g ∈ includes f)
    (hf : f ∈ tu.out.takeWhile (· ≠ x)) : g ∈ tu.out.takeWhile (· ≠ x) := by
  obtain ⟨tu', h1, -, h2, -⟩ := C119_any_order names
  rw [h] at h1
  cases h1
  obtain ⟨pre, post, e⟩ := List.append_of_mem hf
  obtain ⟨t, ht⟩ := List.takeWhile_prefix (l := tu.out) (· ≠ x)
  obtain ⟨y, e1, e2⟩ := h2 pre f (post ++ t) (by rw [← ht, e]; simp) _ hg
  cases e1
  rw [e]
  exact List.mem_append_left _ e2

theorem Lookup.closed_all {names : List Name} {tu : Tu} (h : translate true names = .ok tu) (f g : File) (hg : .exact g ∈ includes f)
    (hf : f ∈ tu.out) : g ∈ tu.out := by
  obtain ⟨tu', h1, -, h2, -⟩ := C119_any_order names
  rw [h] at h1
  cases h1
  obtain ⟨pre, post, e⟩ := List.append_of_mem hf
  obtain ⟨y, e1, e2⟩ := h2 pre f post e _ hg
  cases e1
  rw [e]
  exact List.mem_append_left _ e2

/-- Headers that were read together: the larger classes only after those they need. -/
structure Lookup.Read (seen : List File) : Prop where
  float : .Numeric_Types_BigFloat ∈ seen → File.Numeric_Types_BigInteger ∈ seen
  integer : .Numeric_Types_BigInteger ∈ seen → File.Core_String_String ∈ seen
  json : .Serializing_Json_Types_Json ∈ seen → File.Core_String_String ∈ seen

theorem Lookup.valid_iff {seen all : List File} (hr : Read seen) (c : Cls) (op : Operator) (o : Operand) (hi : op ≠ .istream) :
    valid seen all c ⟨op, o⟩ = true ↔
      op ∈ Spec.offers c ∧ (member c op = true ∨ c.header ∈ (if c = .unexpected true then all else seen)) ∨
      c = .string ∧ .Numeric_Types_BigInteger ∈ seen ∧ (op = .modulus ∨
        op ∈ [Operator.subtract, .multiply, .divide] ∧ .Numeric_Types_BigFloat ∉ seen) := by
  obtain ⟨h1, h2, h3⟩ := hr
  rw [offers_iff]
  unfold valid own others
  rw [if_neg hi]
  cases c with
  | string =>
    cases op
    case istream => exact absurd rfl hi
    case ostream =>
      by_cases hS : File.Core_String_String ∈ seen
      · simp [member, free, converts, Cls.header, hS]
      · have n1 : File.Numeric_Types_BigInteger ∉ seen := fun h => hS (h2 h)
        have n2 : File.Numeric_Types_BigFloat ∉ seen := fun h => n1 (h1 h)
        have n3 : File.Serializing_Json_Types_Json ∉ seen := fun h => hS (h3 h)
        simp [member, free, converts, Cls.header, hS, n1, n2, n3]
    case modulus =>
      by_cases hI : File.Numeric_Types_BigInteger ∈ seen <;> simp [member, free, converts, Cls.header, List.filter, hI]
    case subtract | multiply | divide =>
      by_cases hI : File.Numeric_Types_BigInteger ∈ seen
      · by_cases hF : File.Numeric_Types_BigFloat ∈ seen <;> simp [member, free, converts, Cls.header, List.filter, hI, hF]
      · have hF : File.Numeric_Types_BigFloat ∉ seen := fun h => hI (h1 h)
        simp [member, free, converts, Cls.header, List.filter, hI, hF]
    all_goals simp [member, free, converts, Cls.header, List.filter]
  | unexpected g => cases g <;> cases op <;> simp_all [member, free, converts, Cls.header]
  | _ => cases op <;> simp_all [member, free, converts, Cls.header]

theorem Lookup.read_out {names : List Name} {tu : Tu} (h : translate true names = .ok tu) : Read tu.out where
  float := closed_all h _ _ (by decide)
  integer := fun hi => closed_all h .Core_String _ (by decide) (closed_all h .Numeric_Types_BigInteger _ (by decide) hi)
  json := fun hi => closed_all h .Core_String _ (by decide) (closed_all h .Serializing_Json_Types_JsonParser _ (by decide)
    (closed_all h .Serializing_Json_Types_Json _ (by decide) hi))

theorem Lookup.read_first {names : List Name} {tu : Tu} (h : translate true names = .ok tu) (x : File) :
    Read (tu.out.takeWhile (· ≠ x)) where
  float := closed h x _ _ (by decide)
  integer := fun hi => closed h x .Core_String _ (by decide) (closed h x .Numeric_Types_BigInteger _ (by decide) hi)
  json := fun hi => closed h x .Core_String _ (by decide) (closed h x .Serializing_Json_Types_JsonParser _ (by decide)
    (closed h x .Serializing_Json_Types_Json _ (by decide) hi))

/-- C161, in the functions of a source file that has read the header of the class: an expression with two of its objects, or with an
output stream and one, compiles exactly if the class offers the operator; and, besides, `%` compiles for strings if BigInteger.h has
been read, and `-`, `*`, `/` compile for strings if BigInteger.h has been read and BigFloat.h has not. Reading from a stream needs a
variable. -/
theorem C161_source_partial {names : List Name} {tu : Tu} (h : translate true names = .ok tu) (c : Cls) (hc : c.header ∈ tu.out)
    (op : Operator) (o : Operand) :
    inSource tu c ⟨op, o⟩ = true ↔ op ∈ Spec.offers c ∧ (op = .istream → o = .variable) ∨
      c = .string ∧ .Numeric_Types_BigInteger ∈ tu.out ∧ (op = .modulus ∨
        op ∈ [Operator.subtract, .multiply, .divide] ∧ .Numeric_Types_BigFloat ∉ tu.out) := by
  unfold inSource
  by_cases hi : op = .istream
  · subst hi
    have : own tu.out tu.out c .istream = free c .istream := by
      unfold own
      rw [ite_self, decide_eq_true hc, Bool.and_true]
    have e : Operator.istream ∈ Spec.offers c ↔ free c .istream = true := by
      rw [offers_iff]
      have : member c .istream = false := by cases c <;> rfl
      simp [this]
    unfold valid
    simp [this, e, and_comm]
  · rw [valid_iff (read_out h) c op o hi]
    simp [hi, hc]

/-- A source file that reads the headers of integers and nothing of `BigFloat`: `-` of two strings compiles. -/
example : ∃ tu, translate true [.exact .Numeric_Types_BigInteger] = .ok tu ∧ Cls.string.header ∈ tu.out ∧
    inSource tu .string ⟨.subtract, .value⟩ = true := by
  obtain ⟨tu, h, -⟩ := C119_any_order [.exact .Numeric_Types_BigInteger]
  have e : (translate true [.exact .Numeric_Types_BigInteger]).toOption.all (fun tu => decide (Cls.string.header ∈ tu.out) &&
      inSource tu .string ⟨.subtract, .value⟩) = true := by decide +kernel
  rw [h] at e
  simp only [Except.toOption, Option.all_some, Bool.and_eq_true, decide_eq_true_eq] at e
  exact ⟨tu, h, e⟩

/-- C161 fails in every namespace that declares an operator of the same name for something else: exactly the operators that are members
are still found, and those of `Unexpected<E>` if `E` is a class of the global namespace. Nothing can be written to a stream or read
from one. -/
theorem C161_namespace_fails (tu : Tu) (c : Cls) (op : Operator) (o : Operand) :
    inNamespace tu c ⟨op, o⟩ = true ↔ op ∈ Spec.offers c ∧ op ≠ .istream ∧ op ≠ .ostream ∧
      (c ∈ Spec.selfContained ∨ c = .unexpected true ∧ c.header ∈ tu.out) := by
  unfold inNamespace
  by_cases hi : op = .istream
  · subst hi
    have : own [] tu.out c .istream = false := by
      cases c with
      | unexpected g => cases g <;> simp [own, free]
      | _ => simp [own, free]
    unfold valid
    simp [this]
  · rw [valid_iff ⟨by simp, by simp, by simp⟩ c op o hi, member_iff]
    cases c with
    | unexpected g =>
      cases g <;> cases op <;> simp_all [Spec.offers, Spec.selfContained, Cls.header]
    | _ => cases op <;> simp_all [Spec.offers, Spec.selfContained, Cls.header]

/-- No operator of the classes for large numbers is found there. -/
example (tu : Tu) (op : Operator) (o : Operand) : inNamespace tu .bigInteger ⟨op, o⟩ = false ∧ inNamespace tu .bigFloat ⟨op, o⟩ = false := by
  constructor <;> rw [← Bool.not_eq_true, C161_namespace_fails] <;> simp [Spec.selfContained]

/-- C161 fails in the templates of the standard library: large numbers can neither be sorted, nor searched for, nor summed up, nor
multiplied, nor written or read through iterators of streams; strings can be sorted, searched for and summed up but not written or
read; characters and pointers can be searched for. -/
theorem C161_std_fails (tu : Tu) (a : Algorithm) (c : Cls) : works tu a c = true ↔
    (c = .string ∧ a ∈ [.sort, .find, .sortGreater, .accumulate]) ∨ (c = .char ∧ a ∈ [.sort, .find, .sortGreater]) ∨
    (c ∈ [.rawPtr, .uniquePtr, .sharedPtr, .weakPtr] ∧ a = .find) ∨
    (c = .unexpected true ∧ a = .find ∧ .Core_Error_Unexpected ∈ tu.out) := by
  unfold works
  have e : a.uses = ⟨a.uses.op, a.uses.operand⟩ := rfl
  rw [e, C161_namespace_fails]
  cases c with
  | unexpected g =>
    cases g <;> cases a <;> simp [Spec.offers, Spec.selfContained, Cls.header, Algorithm.uses]
  | _ => cases a <;> simp [Spec.offers, Spec.selfContained, Cls.header, Algorithm.uses]

/-- C161, the detectors: `HasXxxOperatorType` answers yes exactly if the operator is one that the class offers, is not the one that
reads from a stream, and is a member or stands in a header that has been read before the detectors; and, besides, for `%` of strings if
BigInteger.h has been read before, and for `-`, `*`, `/` of strings if BigInteger.h has been read before and BigFloat.h has not. -/
theorem C161_detectors_partial {names : List Name} {tu : Tu} (h : translate true names = .ok tu)
    (hd : .Core_Traits_Types_Operators ∈ tu.out) (c : Cls) (hu : c ≠ .unexpected true) (op : Operator) :
    detects tu c op = true ↔ op ∈ Spec.offers c ∧ op ≠ .istream ∧
        (c ∈ Spec.selfContained ∧ op ≠ .ostream ∨ Spec.ReadFirst tu c.header) ∨
      c = .string ∧ Spec.ReadFirst tu .Numeric_Types_BigInteger ∧ (op = .modulus ∨
        op ∈ [Operator.subtract, .multiply, .divide] ∧ ¬Spec.ReadFirst tu .Numeric_Types_BigFloat) := by
  have hn : tu.out.Nodup := by
    obtain ⟨tu', h1, h2, -⟩ := C119_any_order names
    rw [h] at h1
    cases h1
    exact h2
  have hf : ∀ f, f ∈ tu.out.takeWhile (· ≠ .Core_Traits_Types_Operators) ↔ Spec.ReadFirst tu f := fun f => takeWhile_iff hn hd f
  unfold detects hasOperator
  by_cases hi : op = .istream
  · subst hi
    simp [tested, valid]
  by_cases hb : op = .bitOr
  · subst hb
    have e : tested .bitOr = ⟨.bitAnd, .value⟩ := rfl
    rw [e, valid_iff (read_first h _) c _ _ (by decide)]
    have x : ∀ c, Operator.bitAnd ∉ Spec.offers c ∧ Operator.bitOr ∉ Spec.offers c := by
      intro c
      cases c <;> simp [Spec.offers]
    simp [(x c).1, (x c).2]
  · have e : tested op = ⟨op, (tested op).operand⟩ := by cases op <;> first | rfl | exact absurd rfl hb
    rw [e, valid_iff (read_first h _) c _ _ hi, if_neg hu, hf, hf, hf, member_iff]
    constructor
    · rintro (⟨a, ⟨b, c, d, e⟩ | b⟩ | b)
      · exact .inl ⟨a, hi, .inl ⟨b, e⟩⟩
      · exact .inl ⟨a, hi, .inr b⟩
      · exact .inr b
    · rintro (⟨a, -, ⟨b, e⟩ | b⟩ | b)
      · exact .inl ⟨a, .inl ⟨b, a, hi, e⟩⟩
      · exact .inl ⟨a, .inr b⟩
      · exact .inr b

theorem Lookup.detects_prefix {names more : List Name} {tu tu' : Tu} (h : translate true names = .ok tu)
    (h' : translate true (names ++ more) = .ok tu') (hd : .Core_Traits_Types_Operators ∈ tu.out) (c : Cls) (hu : c ≠ .unexpected true)
    (op : Operator) : detects tu' c op = detects tu c op := by
  unfold detects hasOperator
  rw [takeWhile_prefix (translate_prefix h h') hd]
  unfold valid own
  simp only [if_neg hu]

/-- What one file decides for all that follow it. -/
theorem Lookup.decided (names more : List Name) (P : Tu → Bool) (hp : (translate true names).toOption.all (fun tu =>
    decide (.Core_Traits_Types_Operators ∈ tu.out) && P tu) = true) :
    ∃ tu tu', translate true names = .ok tu ∧ translate true (names ++ more) = .ok tu' ∧ .Core_Traits_Types_Operators ∈ tu.out ∧
      P tu = true ∧ tu.out <+: tu'.out ∧ ∀ c, c ≠ .unexpected true → ∀ op, detects tu' c op = detects tu c op := by
  obtain ⟨tu, h, -⟩ := C119_any_order names
  obtain ⟨tu', h', -⟩ := C119_any_order (names ++ more)
  rw [h] at hp
  simp only [Except.toOption, Option.all_some, Bool.and_eq_true, decide_eq_true_eq] at hp
  exact ⟨tu, tu', h, h', hp.1, hp.2, translate_prefix h h', fun c hu op => detects_prefix h h' hp.1 c hu op⟩

/-- All operators. -/
def Spec.operators : List Operator := [.less, .greater, .add, .subtract, .multiply, .divide, .modulus, .equal, .notEqual, .subscript,
  .increment, .decrement, .bitAnd, .bitOr, .bitXor, .shiftLeft, .shiftRight, .istream, .ostream]

theorem Lookup.operators_all (op : Operator) : op ∈ Spec.operators := by cases op <;> decide

/-- C161 fails for the detectors in every source file that begins with the header for everything, `Caitlyn/Caitlyn`: they deny all
operators of large numbers and the output of documents, all of which compile there. -/
theorem C161_umbrella_fails (more : List Name) : ∃ tu, translate true (.exact .PublicCaitlyn :: more) = .ok tu ∧
    ∀ c ∈ [Cls.bigInteger, .bigFloat, .json], ∀ op, detects tu c op = false ∧
      (inSource tu c ⟨op, .variable⟩ = true ↔ op ∈ Spec.offers c) := by
  obtain ⟨tu, tu', h, h', hd, hp, hpre, hs⟩ := decided [.exact .PublicCaitlyn] more (fun tu =>
    [Cls.bigInteger, .bigFloat, .json].all fun c => decide (c.header ∈ tu.out) && Spec.operators.all fun op => !detects tu c op)
    (by decide +kernel)
  refine ⟨tu', h', fun c hc op => ?_⟩
  have := List.all_eq_true.mp hp c hc
  simp only [Bool.and_eq_true, decide_eq_true_eq, List.all_eq_true, Bool.not_eq_true'] at this
  have hu : c ≠ .unexpected true := by rintro rfl; revert hc; decide
  have hstr : c ≠ .string := by rintro rfl; revert hc; decide
  refine ⟨by rw [hs c hu, this.2 op (operators_all op)], ?_⟩
  rw [C161_source_partial h' c (hpre.subset this.1)]
  simp [hstr]

/-- C161 fails: the answers depend on the order of the headers. A source file that reads `Caitlyn/Numeric` before `Caitlyn/Traits` is
told that large integers have `<` and `+`, that they can be written, and that strings can be written and have `%`; one that reads
`Caitlyn/Traits` first is told the opposite, whatever it reads then. -/
theorem C161_order_fails (more : List Name) :
    (∃ tu, translate true (.exact .PublicNumeric :: .exact .PublicTraits :: more) = .ok tu ∧
      ∀ x ∈ [(Cls.bigInteger, Operator.less), (.bigInteger, .add), (.bigInteger, .ostream), (.string, .ostream), (.string, .modulus)],
        detects tu x.1 x.2 = true) ∧
    (∃ tu, translate true (.exact .PublicTraits :: more) = .ok tu ∧
      ∀ x ∈ [(Cls.bigInteger, Operator.less), (.bigInteger, .add), (.bigInteger, .ostream), (.string, .ostream), (.string, .modulus)],
        detects tu x.1 x.2 = false) := by
  constructor
  · obtain ⟨tu, tu', h, h', hd, hp, hpre, hs⟩ := decided [.exact .PublicNumeric, .exact .PublicTraits] more (fun tu =>
      [(Cls.bigInteger, Operator.less), (.bigInteger, .add), (.bigInteger, .ostream), (.string, .ostream),
        (.string, .modulus)].all fun x => decide (x.1 ≠ .unexpected true) && detects tu x.1 x.2) (by decide +kernel)
    refine ⟨tu', h', fun x hx => ?_⟩
    have := List.all_eq_true.mp hp x hx
    simp only [Bool.and_eq_true, decide_eq_true_eq] at this
    rw [hs _ this.1, this.2]
  · obtain ⟨tu, tu', h, h', hd, hp, hpre, hs⟩ := decided [.exact .PublicTraits] more (fun tu =>
      [(Cls.bigInteger, Operator.less), (.bigInteger, .add), (.bigInteger, .ostream), (.string, .ostream),
        (.string, .modulus)].all fun x => decide (x.1 ≠ .unexpected true) && !detects tu x.1 x.2) (by decide +kernel)
    refine ⟨tu', h', fun x hx => ?_⟩
    have := List.all_eq_true.mp hp x hx
    simp only [Bool.and_eq_true, decide_eq_true_eq, Bool.not_eq_true'] at this
    rw [hs _ this.1, this.2]

/-- C161 fails: two translation units of one program that links can disagree about a class template with the same name, here
`HasLessOperatorType<BigInteger>` and `HasOStreamOperatorType<String>`. -/
theorem C161_units_fails :
    build false [[.exact .Numeric_Types_BigInteger, .exact .Core_Traits], [.exact .Core_Traits, .exact .Numeric_Types_BigInteger]] =
      .linked ∧
    ∃ a b, translateAll false [[.exact .Numeric_Types_BigInteger, .exact .Core_Traits],
        [.exact .Core_Traits, .exact .Numeric_Types_BigInteger]] = .ok [a, b] ∧
      detects a .bigInteger .less = true ∧ detects b .bigInteger .less = false ∧
      detects a .string .ostream = true ∧ detects b .string .ostream = false := by
  refine ⟨by decide +kernel, ?_⟩
  have e : (match translateAll false [[.exact .Numeric_Types_BigInteger, .exact .Core_Traits],
        [.exact .Core_Traits, .exact .Numeric_Types_BigInteger]] with
      | .ok [a, b] => detects a .bigInteger .less && !detects b .bigInteger .less && detects a .string .ostream &&
          !detects b .string .ostream
      | _ => false) = true := by decide +kernel
  split at e
  · rename_i a b h
    simp only [Bool.and_eq_true, Bool.not_eq_true'] at e
    exact ⟨a, b, h, e.1.1.1, e.1.1.2, e.1.2, e.2⟩
  · exact absurd e (by decide)

/-- C161 fails: strings are subtracted, multiplied and divided as numbers where only BigInteger.h has been read; reading BigFloat.h as
well makes the same expression ambiguous. The remainder of two strings compiles in both cases. -/
theorem C161_strings_fails {names : List Name} {tu : Tu} (h : translate true names = .ok tu)
    (hi : .Numeric_Types_BigInteger ∈ tu.out) (o : Operand) : inSource tu .string ⟨.modulus, o⟩ = true ∧
      ∀ op ∈ [Operator.subtract, .multiply, .divide], (inSource tu .string ⟨op, o⟩ = true ↔ .Numeric_Types_BigFloat ∉ tu.out) := by
  have hs := (read_out h).integer hi
  refine ⟨(C161_source_partial h .string hs _ o).mpr (.inr ⟨rfl, hi, .inl rfl⟩), fun op hop => ?_⟩
  rw [C161_source_partial h .string hs]
  have : op ∉ Spec.offers .string ∧ op ≠ .modulus := by
    revert hop
    cases op <;> decide
  simp [this.1, this.2, hi, hop]

end Caitlyn
