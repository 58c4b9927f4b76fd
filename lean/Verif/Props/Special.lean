import Verif.Model.Special
import Verif.Lit

/-! # C122: the traits of operations tell the truth about the library's types -/

namespace Caitlyn
open Special

/-- What a trait says of an operation is true: if it exists it compiles. -/
def Spec.Compiles (o : Ops) : Prop := ∀ op, able o op = true → (o op).compiles = true
/-- ... and if it is said not to throw it does not throw. -/
def Spec.KeepsQuiet (o : Ops) : Prop := ∀ op, nothrow o op = true → (o op).quiet = true

/-- An operation that exists, compiles and throws nothing. -/
structure Spec.Harmless (v : Verdict) : Prop where
  found : v.found = true
  promised : v.promised = true
  compiles : v.compiles = true
  quiet : v.quiet = true

/-- A type of a user as one expects it: the traits tell the truth, it can be destroyed, destroying it throws nothing, and what can be
copied can be moved. -/
structure Spec.Ordinary (o : Ops) : Prop where
  compiles : Spec.Compiles o
  quiet : Spec.KeepsQuiet o
  destroy : Spec.Harmless (o .destroy)
  move : able o .copy = true → able o .move = true
  moveAssign : able o .copyAssign = true → able o .moveAssign = true

/-- The type can be copied, moved and destroyed. -/
def Spec.copied (o : Ops) : Bool := able o .copy && able o .move && able o .destroy

/-- All user's types in it are ordinary, and the types held by `Expected` can be copied. -/
def Spec.Usable : Typ → Prop
  | .user o => Spec.Ordinary o
  | .ptr t | .uniquePtr t | .sharedPtr t | .weakPtr t | .unexpected t => Spec.Usable t
  | .expected t e => Spec.Usable t ∧ Spec.Usable e ∧ Spec.copied (ops t) = true ∧ Spec.copied (ops e) = true
  | _ => True

theorem Special.single (c : Class) (m : Ops) (h : c.members = [m]) (hv : c.values = false) (op : Op) : generated c op = m op := by
  unfold generated
  rw [h, hv]
  simp only [Bool.false_eq_true, and_false, if_false]
  show (m op).and .good = m op
  generalize m op = v
  obtain ⟨a, b, c, d, e⟩ := v
  cases a <;> cases b <;> cases c <;> cases d <;> cases e <;> rfl

theorem Special.unexpected_ops (e : Ops) (op : Op) : unexpected e op = match op with
    | .default => .none
    | .move => if (e .move).found then e .move else e .copy
    | .moveAssign => if (e .moveAssign).found then e .moveAssign else e .copyAssign
    | op => e op := by
  have h := fun op => single { decl := fun _ => .absent, constructors := true, members := [e] } e rfl rfl op
  unfold unexpected opsOf
  cases op
  · rfl
  · show generated _ _ = _; rw [h]
  · show (if (_ || !(generated _ _).found) = true then generated _ _ else generated _ _) = _
    rw [h, h]
    simp only [Decl.declared, Bool.or_self, Bool.false_or]
    cases (e .move).found <;> rfl
  · show generated _ _ = _; rw [h]
  · show (if (_ || !(generated _ _).found) = true then generated _ _ else generated _ _) = _
    rw [h, h]
    simp only [Decl.declared, Bool.or_self, Bool.false_or]
    cases (e .moveAssign).found <;> rfl
  · show generated _ _ = _; rw [h]

theorem Special.provided_harmless (uses : List Verdict) (h : ∀ u ∈ uses, Spec.Harmless u) : Spec.Harmless (provided true uses) :=
  ⟨rfl, rfl, List.all_eq_true.mpr fun u hu => by rw [(h u hu).found, (h u hu).compiles]; rfl,
    List.all_eq_true.mpr fun u hu => (h u hu).quiet⟩

/-- Every type of the library can be destroyed without an exception if the user's types can. -/
theorem C122_destroy (t : Typ) (h : Spec.Usable t) : Spec.Harmless (ops t .destroy) := by
  induction t with
  | user o => exact h.destroy
  | uniquePtr t ih => exact provided_harmless [_] fun u hu => by rw [List.mem_singleton.mp hu]; exact ih h
  | sharedPtr t ih => exact provided_harmless [_] fun u hu => by rw [List.mem_singleton.mp hu]; exact ih h
  | weakPtr t ih =>
    show Spec.Harmless (generated _ _)
    rw [single _ (sharedPtr (ops t)) rfl rfl]
    exact provided_harmless [_] fun u hu => by rw [List.mem_singleton.mp hu]; exact ih h
  | unexpected e ih => show Spec.Harmless (unexpected _ _); rw [unexpected_ops]; exact ih h
  | expected t e iht ihe =>
    refine provided_harmless [_, unexpected (ops e) .destroy] fun u hu => ?_
    simp only [List.mem_cons, List.not_mem_nil, or_false] at hu
    rcases hu with rfl | rfl
    · exact iht h.1
    · rw [unexpected_ops]; exact ihe h.2.1
  | _ => exact ⟨rfl, rfl, rfl, rfl⟩

theorem Special.expected_ops (t e : Ops) (op : Op) : expected t e op = match op with
    | .default => .none
    | .copy => provided false [t .copy, unexpected e .copy]
    | .move =>
      provided ((t .move).found && (t .move).promised && ((e .move).found && (e .move).promised)) [t .move, unexpected e .move]
    | .copyAssign => provided false [t .destroy, unexpected e .destroy, t .copy, unexpected e .copy]
    | .moveAssign =>
      provided ((t .moveAssign).found && (t .moveAssign).promised && ((e .moveAssign).found && (e .moveAssign).promised))
        [t .destroy, unexpected e .destroy, t .move, unexpected e .move]
    | .destroy => provided true [t .destroy, unexpected e .destroy] := by
  cases op <;> rfl

/-- C122: if a trait says that the library's type has an operation, then the operation compiles. -/
theorem C122_compiles_partial (t : Typ) (h : Spec.Usable t) : Spec.Compiles (ops t) := by
  induction t with
  | user o => exact h.compiles
  | ptr t => intro op; cases op <;> intro _ <;> rfl
  | uniquePtr t ih =>
    have hd := C122_destroy t h
    intro op
    cases op
    · intro _; rfl
    · intro h; cases h
    · intro _; rfl
    · intro h; cases h
    · intro _; show (provided true [_, _]).compiles = _; simp [provided, Special.scalar, Verdict.good, hd.found, hd.compiles, hd.quiet]
    · intro _; show (provided true [_]).compiles = _; simp [provided, Special.scalar, Verdict.good, hd.found, hd.compiles, hd.quiet]
  | sharedPtr t ih =>
    have hd := C122_destroy t h
    intro op
    cases op
    · intro _; rfl
    · intro _; rfl
    · intro _; rfl
    · intro _; show (provided false [_, _]).compiles = _; simp [provided, Special.scalar, Verdict.good, hd.found, hd.compiles, hd.quiet]
    · intro _; show (provided true [_, _]).compiles = _; simp [provided, Special.scalar, Verdict.good, hd.found, hd.compiles, hd.quiet]
    · intro _; show (provided true [_]).compiles = _; simp [provided, Special.scalar, Verdict.good, hd.found, hd.compiles, hd.quiet]
  | weakPtr t ih =>
    have hd := C122_destroy t h
    intro op
    cases op
    · intro _; rfl
    · intro _; rfl
    · intro _; rfl
    · intro _; show (provided false [provided false [_, _]]).compiles = _; simp [provided, Special.scalar, Verdict.good, hd.found, hd.compiles, hd.quiet]
    · intro _; show (provided true [provided true [_, _]]).compiles = _; simp [provided, Special.scalar, Verdict.good, hd.found, hd.compiles, hd.quiet]
    · intro _
      exact (C122_destroy (.weakPtr t) h).compiles
  | unexpected e ih =>
    have := ih h
    intro op
    show (unexpected (ops e) op).found = true → (unexpected (ops e) op).compiles = true
    rw [unexpected_ops]
    cases op
    · intro h; cases h
    · exact this _
    · simp only
      split
      · exact this _
      · exact this _
    · exact this _
    · simp only
      split
      · exact this _
      · exact this _
    · exact this _
  | expected t e iht ihe =>
    obtain ⟨h1, h2, h3, h4⟩ := h
    have dt := C122_destroy t h1
    have de := C122_destroy e h2
    have ht := iht h1
    have he := ihe h2
    unfold Spec.copied at h3 h4
    simp only [Bool.and_eq_true] at h3 h4
    have a1 := ht .copy h3.1.1
    have a2 := ht .move h3.1.2
    have a3 := he .copy h4.1.1
    have a4 := he .move h4.1.2
    have b1 : (ops t .copy).found = true := h3.1.1
    have b2 : (ops t .move).found = true := h3.1.2
    have b3 : (ops e .copy).found = true := h4.1.1
    have b4 : (ops e .move).found = true := h4.1.2
    intro op
    show (expected _ _ op).found = true → (expected _ _ op).compiles = true
    rw [expected_ops]
    cases op <;> intro h
    · cases h
    all_goals
      simp only [provided, unexpected_ops, List.all_cons, List.all_nil, dt.found, dt.compiles, de.found, de.compiles, a1, a2, a3, a4,
        b1, b2, b3, b4, if_true]
      rfl
  | _ => intro op; cases op <;> intro h <;> first | rfl | cases h

example : Spec.Usable (.expected (.sharedPtr .file) .string) := by
  exact ⟨trivial, trivial, by decide, by decide⟩

/-- C122 fails: `Expected` always claims to be copyable, but copying compiles only if both of its types can be copied; the
assignments of a plain pointer to `UniquePtr` and `SharedPtr` are found, but never compile. -/
theorem C122_compiles_fails (t e : Ops) :
    able (expected t e) .copy = true ∧ able (expected t e) .copyAssign = true ∧
    ((expected t e .copy).compiles = true ↔
      ((t .copy).found = true ∧ (t .copy).compiles = true) ∧ (e .copy).found = true ∧ (e .copy).compiles = true) ∧
    able (expected (uniquePtr t) e) .copy = true ∧ (expected (uniquePtr t) e .copy).compiles = false ∧
    assignPointer.found = true ∧ assignPointer.compiles = false := by
  refine ⟨rfl, rfl, ?_, rfl, ?_, rfl, rfl⟩
  · rw [expected_ops]
    simp only [provided, unexpected_ops, List.all_cons, List.all_nil, Bool.and_eq_true, Bool.and_true]
  · rw [expected_ops]
    rfl

/-- No type in it is a `StringBuilder`, a `JsonData` or a `JsonDocument`, and where `Expected` asks for an assignment that does not
throw the construction does not throw either. -/
def Spec.Careful : Typ → Prop
  | .stringBuilder | .jsonData | .jsonDocument => False
  | .ptr t | .uniquePtr t | .sharedPtr t | .weakPtr t | .unexpected t => Spec.Careful t
  | .expected t e => Spec.Careful t ∧ Spec.Careful e ∧
    (nothrow (ops t) .moveAssign = true → nothrow (ops t) .move = true) ∧
    (nothrow (ops e) .moveAssign = true → nothrow (ops e) .move = true)
  | _ => True

/-- C122: if a trait says that an operation does not throw, nothing is thrown in it, so that `std::terminate` is not called. -/
theorem C122_nothrow_partial (t : Typ) (h : Spec.Usable t) (hc : Spec.Careful t) : Spec.KeepsQuiet (ops t) := by
  induction t with
  | user o => exact h.quiet
  | stringBuilder => exact hc.elim
  | jsonData => exact hc.elim
  | jsonDocument => exact hc.elim
  | ptr t => intro op; cases op <;> intro _ <;> rfl
  | uniquePtr t ih =>
    have hd := C122_destroy t h
    intro op
    cases op
    · intro _; rfl
    · intro h; cases h
    · intro _; rfl
    · intro h; cases h
    · intro _; show (provided true [_, _]).quiet = _; simp [provided, Special.scalar, Verdict.good, hd.found, hd.compiles, hd.quiet]
    · intro _; show (provided true [_]).quiet = _; simp [provided, Special.scalar, Verdict.good, hd.found, hd.compiles, hd.quiet]
  | sharedPtr t ih =>
    have hd := C122_destroy t h
    intro op
    cases op
    · intro _; rfl
    · intro _; rfl
    · intro _; rfl
    · intro h; cases h
    · intro _; show (provided true [_, _]).quiet = _; simp [provided, Special.scalar, Verdict.good, hd.found, hd.compiles, hd.quiet]
    · intro _; show (provided true [_]).quiet = _; simp [provided, Special.scalar, Verdict.good, hd.found, hd.compiles, hd.quiet]
  | weakPtr t ih =>
    have hd := C122_destroy t h
    intro op
    cases op
    · intro _; rfl
    · intro _; rfl
    · intro _; rfl
    · intro h; cases h
    · intro _; show (provided true [provided true [_, _]]).quiet = _; simp [provided, Special.scalar, Verdict.good, hd.found, hd.compiles, hd.quiet]
    · intro _
      exact (C122_destroy (.weakPtr t) h).quiet
  | unexpected e ih =>
    have := ih h hc
    intro op
    show ((unexpected (ops e) op).found && (unexpected (ops e) op).promised) = true → (unexpected (ops e) op).quiet = true
    rw [unexpected_ops]
    cases op
    · intro h; cases h
    · exact this _
    · simp only
      split
      · exact this _
      · exact this _
    · exact this _
    · simp only
      split
      · exact this _
      · exact this _
    · exact this _
  | expected t e iht ihe =>
    obtain ⟨h1, h2, h3, h4⟩ := h
    obtain ⟨c1, c2, c3, c4⟩ := hc
    have dt := C122_destroy t h1
    have de := C122_destroy e h2
    have ht := iht h1 c1
    have he := ihe h2 c2
    unfold Spec.copied at h4
    simp only [Bool.and_eq_true] at h4
    have b4 : (ops e .move).found = true := h4.1.2
    have key : nothrow (ops t) .move = true → nothrow (ops e) .move = true →
        (ops t .move).quiet = true ∧ (unexpected (ops e) .move).quiet = true := by
      intro k1 k2
      refine ⟨ht _ k1, ?_⟩
      rw [unexpected_ops]
      simp only [b4, if_true]
      exact he _ k2
    intro op
    show ((expected _ _ op).found && (expected _ _ op).promised) = true → (expected _ _ op).quiet = true
    rw [expected_ops]
    cases op <;> intro h
    · cases h
    · cases h
    · simp only [provided, Bool.true_and, Bool.and_eq_true] at h
      obtain ⟨k1, k2⟩ := key (Bool.and_eq_true_iff.mpr h.1) (Bool.and_eq_true_iff.mpr h.2)
      simp only [provided, List.all_cons, List.all_nil, k1, k2]
      rfl
    · cases h
    · simp only [provided, Bool.true_and, Bool.and_eq_true] at h
      obtain ⟨k1, k2⟩ := key (c3 (Bool.and_eq_true_iff.mpr h.1)) (c4 (Bool.and_eq_true_iff.mpr h.2))
      have de' : (unexpected (ops e) .destroy).quiet = true := by rw [unexpected_ops]; exact de.quiet
      simp only [provided, List.all_cons, List.all_nil, k1, k2, dt.quiet, de']
      rfl
    · have de' : (unexpected (ops e) .destroy).quiet = true := by rw [unexpected_ops]; exact de.quiet
      simp only [provided, List.all_cons, List.all_nil, dt.quiet, de']
      rfl
  | _ => intro op; cases op <;> intro h <;> first | rfl | cases h

example : Spec.Careful (.expected (.uniquePtr .bigFloat) .string) := ⟨trivial, trivial, fun _ => rfl, fun _ => rfl⟩

/-- C122 fails: these operations are said not to throw, but what they do may throw, and then the program ends. Moving a
`StringBuilder` moves a stream; moving a `JsonData`, and with it a document, moves a `std::deque`, which needs memory; and assigning
to an `Expected` constructs, although only the assignment of the types was asked not to throw. -/
theorem C122_nothrow_fails (t e : Ops) (h1 : nothrow t .moveAssign = true) (h2 : nothrow e .moveAssign = true)
    (h3 : (t .move).quiet = false) :
    (nothrow stringBuilder .move = true ∧ (stringBuilder .move).quiet = false) ∧
    (nothrow jsonData .move = true ∧ (jsonData .move).quiet = false) ∧
    (nothrow jsonDocument .moveAssign = true ∧ (jsonDocument .moveAssign).quiet = false) ∧
    (nothrow (expected t e) .moveAssign = true ∧ (expected t e .moveAssign).quiet = false) := by
  refine ⟨⟨rfl, rfl⟩, ⟨rfl, rfl⟩, ⟨rfl, rfl⟩, ?_⟩
  unfold nothrow at *
  rw [expected_ops]
  simp only [provided, h1, h2, List.all_cons, List.all_nil, h3]
  simp

/-- C122: what each of the library's types can do. Owners of one object can only be moved, pointers that share can be copied, texts and
numbers can be copied and moved without an exception. -/
theorem C122_abilities (t : Typ) (h : Spec.Usable t) :
    ([.copy, .move, .copyAssign, .moveAssign].map (able (ops (.uniquePtr t))) = [false, true, false, true]) ∧
    ([.copy, .move, .copyAssign, .moveAssign].map (able (ops (.sharedPtr t))) = [true, true, true, true]) ∧
    ([.copy, .move, .copyAssign, .moveAssign].map (able (ops (.weakPtr t))) = [true, true, true, true]) ∧
    ([.copy, .move, .copyAssign, .moveAssign].map (able (ops (.ptr t))) = [true, true, true, true]) ∧
    (∀ u ∈ [Typ.uniquePtr t, .sharedPtr t, .weakPtr t, .char, .string, .bigInteger, .bigFloat],
      nothrow (ops u) .move = true ∧ nothrow (ops u) .moveAssign = true ∧
      (ops u .move).quiet = true ∧ (ops u .moveAssign).quiet = true) := by
  have hd := C122_destroy t h
  refine ⟨rfl, rfl, rfl, rfl, ?_⟩
  intro u hu
  simp only [List.mem_cons, List.not_mem_nil, or_false] at hu
  rcases hu with rfl | rfl | rfl | rfl | rfl | rfl | rfl
  · refine ⟨rfl, rfl, rfl, ?_⟩; show (provided true [_, _]).quiet = _; simp [provided, Special.scalar, Verdict.good, hd.found, hd.compiles, hd.quiet]
  · refine ⟨rfl, rfl, rfl, ?_⟩; show (provided true [_, _]).quiet = _; simp [provided, Special.scalar, Verdict.good, hd.found, hd.compiles, hd.quiet]
  · refine ⟨rfl, rfl, rfl, ?_⟩; show (provided true [provided true [_, _]]).quiet = _; simp [provided, Special.scalar, Verdict.good, hd.found, hd.compiles, hd.quiet]
  · exact ⟨rfl, rfl, rfl, rfl⟩
  · exact ⟨rfl, rfl, rfl, rfl⟩
  · exact ⟨rfl, rfl, rfl, rfl⟩
  · exact ⟨rfl, rfl, rfl, rfl⟩

/-- The type is no `StringBuilder` and no `File`, and no `Unexpected` of one. -/
def Spec.assigned : Typ → Bool
  | .stringBuilder | .file => false
  | .unexpected e => Spec.assigned e
  | .user o => able o .copyAssign
  | _ => true

/-- C122: a type of the library that can be copied can be assigned, except `StringBuilder` and `File`. -/
theorem C122_regular_partial (t : Typ) (h : Spec.Usable t) (ha : Spec.assigned t = true) (hc : able (ops t) .copy = true) :
    able (ops t) .copyAssign = true ∧ able (ops t) .moveAssign = true := by
  induction t with
  | user o => exact ⟨ha, h.moveAssign ha⟩
  | stringBuilder => cases ha
  | file => cases ha
  | unexpected e ih =>
    show (unexpected _ _).found = true ∧ (unexpected _ _).found = true
    have hc : (unexpected (ops e) .copy).found = true := hc
    rw [unexpected_ops] at hc
    rw [unexpected_ops, unexpected_ops]
    have := ih h ha hc
    refine ⟨this.1, ?_⟩
    simp only
    have h2 : (ops e .moveAssign).found = true := this.2
    rw [if_pos h2]
    exact h2
  | uniquePtr t ih => cases hc
  | _ => exact ⟨rfl, rfl⟩

/-- C122 fails: a `StringBuilder` and a `File` can be copied and moved, but not assigned. Moving a `File` copies it, which may
throw. -/
theorem C122_regular_fails :
    ([.copy, .move, .copyAssign, .moveAssign].map (able stringBuilder) = [true, true, false, false]) ∧
    ([.copy, .move, .copyAssign, .moveAssign].map (able file) = [true, true, false, false]) ∧
    file .move = file .copy ∧ nothrow file .move = false :=
  ⟨rfl, rfl, rfl, rfl⟩

/-- The operations in the order of the tables below. -/
def Spec.allOps : List Op := [.default, .copy, .move, .copyAssign, .moveAssign, .destroy]

/-- Yes or no for each operation. -/
def Spec.row (p : Op → Bool) : List UInt8 := Spec.allOps.map fun op => if p op then 0x59 else 0x2D

/-- C122: which operations of each class exist and which are `noexcept`: default, copy, move, copy assignment, move assignment,
destruction. -/
theorem C122_table (t : Typ) :
    [Typ.char, .string, .stringBuilder, .file, .bigInteger, .bigFloat, .jsonData, .jsonDocument, .testCase, .ptr t, .uniquePtr t,
      .sharedPtr t, .weakPtr t].map (fun u => (Spec.row (able (ops u)), Spec.row fun op => op != .destroy && nothrow (ops u) op)) =
    [(b!"YYYYYY", b!"Y-Y-Y-"),
     (b!"YYYYYY", b!"Y-Y-Y-"),
     (b!"YYY--Y", b!"--Y---"),
     (b!"YYY--Y", b!"------"),
     (b!"YYYYYY", b!"Y-Y-Y-"),
     (b!"YYYYYY", b!"Y-Y-Y-"),
     (b!"YYYYYY", b!"--Y-Y-"),
     (b!"YYYYYY", b!"--Y-Y-"),
     (b!"-YYYYY", b!"------"),
     (b!"YYYYYY", b!"Y-----"),
     (b!"Y-Y-YY", b!"Y-Y-Y-"),
     (b!"YYYYYY", b!"Y-Y-Y-"),
     (b!"YYYYYY", b!"--Y-Y-")] := by
  rfl

/-- C122: the rules of the standard that the table rests on, for every class. A class that declares a way to copy or move, or a
destructor, has no implicit moves and uses its copies instead; one that declares a move and no copy cannot be copied; one that
declares a constructor and no default constructor has none. -/
theorem C122_rules (c : Class) :
    (c.decl .move = .absent → ((c.decl .copy).declared = true ∨ (c.decl .copyAssign).declared = true ∨
      (c.decl .moveAssign).declared = true ∨ (c.decl .destroy).declared = true) → opsOf c .move = opsOf c .copy) ∧
    (c.decl .moveAssign = .absent → ((c.decl .copy).declared = true ∨ (c.decl .copyAssign).declared = true ∨
      (c.decl .move).declared = true ∨ (c.decl .destroy).declared = true) → opsOf c .moveAssign = opsOf c .copyAssign) ∧
    (c.decl .copy = .absent → ((c.decl .move).declared = true ∨ (c.decl .moveAssign).declared = true) → opsOf c .copy = .none) ∧
    (c.decl .copyAssign = .absent → ((c.decl .move).declared = true ∨ (c.decl .moveAssign).declared = true) →
      opsOf c .copyAssign = .none) ∧
    (c.decl .default = .absent → (c.constructors = true ∨ (c.decl .copy).declared = true ∨ (c.decl .move).declared = true) →
      opsOf c .default = .none) ∧
    (∀ op, c.decl op = .deleted → opsOf c op = .none) ∧ (∀ op, c.decl op = .defaulted → opsOf c op = generated c op) := by
  refine ⟨?_, ?_, ?_, ?_, ?_, ?_, ?_⟩
  · intro h hd
    simp only [opsOf, declaredAs, h]
    rw [if_pos]
    rcases hd with h | h | h | h <;> simp [h]
  · intro h hd
    simp only [opsOf, declaredAs, h]
    rw [if_pos]
    rcases hd with h | h | h | h <;> simp [h]
  · intro h hd
    simp only [opsOf, opsOf.copying, declaredAs, h]
    rw [if_pos]
    rcases hd with h | h <;> simp [h]
  · intro h hd
    simp only [opsOf, opsOf.assigning, declaredAs, h]
    rw [if_pos]
    rcases hd with h | h <;> simp [h]
  · intro h hd
    simp only [opsOf, declaredAs, h]
    rw [if_pos]
    rcases hd with h | h | h <;> simp [h]
  · intro op h
    cases op <;> simp [opsOf, opsOf.copying, opsOf.assigning, declaredAs, h]
  · intro op h
    cases op <;> simp [opsOf, opsOf.copying, opsOf.assigning, declaredAs, h]

/-! ## C133: trivial types -/

/-- A value of the type owns no memory, file or object. -/
def Spec.ownsNothing : Typ → Bool
  | .user o => triviallyCopyable o
  | .scalar => true
  | .ptr _ => true
  | .unexpected e => Spec.ownsNothing e
  | .expected t e => Spec.ownsNothing t && Spec.ownsNothing e
  | _ => false

/-- The type is not made with `Ptr` or `Expected` outermost or in `Unexpected`. -/
def Spec.plain : Typ → Bool
  | .ptr _ | .expected _ _ => false
  | .unexpected e => Spec.plain e
  | _ => true

theorem Special.unexpected_copyable (e : Ops) : triviallyCopyable (unexpected e) = true ↔ triviallyCopyable e = true := by
  unfold triviallyCopyable trivially
  simp only [unexpected_ops, List.all_cons, List.all_nil, List.any_cons, List.any_nil]
  generalize e .copy = a
  generalize e .move = b
  generalize e .copyAssign = c
  generalize e .moveAssign = d
  generalize e .destroy = f
  cases h1 : a.found <;> cases h2 : b.found <;> cases h3 : c.found <;> cases h4 : d.found <;>
    simp [h1, h2, h3, h4] <;> cases a.trivial <;> cases c.trivial <;> simp

/-- C133: bytes of a value are copied by `std::memcpy` only for types that own nothing: no type that owns something is trivially
copyable. -/
theorem C133_safe (t : Typ) (h : triviallyCopyable (ops t) = true) : Spec.ownsNothing t = true := by
  induction t with
  | user o => exact h
  | scalar => rfl
  | ptr t => rfl
  | unexpected e ih => exact ih ((unexpected_copyable _).mp h)
  | expected t e => cases h
  | uniquePtr t => cases h
  | sharedPtr t => cases h
  | weakPtr t =>
    exfalso
    have : trivially (weakPtr (ops t)) .destroy = false := by
      show ((generated _ _).found && (generated _ _).trivial) = false
      rw [single _ (sharedPtr (ops t)) rfl rfl]
      rfl
    unfold triviallyCopyable at h
    change (trivially (weakPtr (ops t)) .destroy && _ && _) = true at h
    rw [this] at h
    cases h
  | _ => cases h

/-- C133: a type that owns nothing is trivially copyable. Partial: C133_fails is about `Ptr` and `Expected`. -/
theorem C133_partial (t : Typ) (hp : Spec.plain t = true) (h : Spec.ownsNothing t = true) : triviallyCopyable (ops t) = true := by
  induction t with
  | user o => exact h
  | scalar => rfl
  | ptr t => cases hp
  | expected t e => cases hp
  | unexpected e ih => exact (unexpected_copyable _).mpr (ih hp h)
  | _ => cases h

example : Spec.plain (.unexpected (.unexpected .scalar)) = true ∧ Spec.ownsNothing (.unexpected (.unexpected .scalar)) = true := ⟨rfl, rfl⟩

/-- C133 is false: a `Ptr`, which is nothing but a pointer, and an `Expected`, whatever it holds, are not trivially copyable: they
write out the copies that the compiler would have generated. A `Ptr` is at least destroyed trivially; an `Expected` of two numbers is not. -/
theorem C133_fails (t e : Typ) :
    triviallyCopyable (ops (.ptr t)) = false ∧ Spec.row (trivially (ops (.ptr t))) = b!"-----Y" ∧
    triviallyCopyable (ops (.expected t e)) = false ∧ trivially (ops (.expected t e)) .destroy = false ∧
    Spec.ownsNothing (.ptr t) = true ∧ Spec.ownsNothing (.expected .scalar .scalar) = true := ⟨rfl, rfl, rfl, rfl, rfl, rfl⟩

/-- C133: no class of the library is trivial (`IsTrivial`), and apart from those of `Unexpected` and the destructor of `Ptr` none of its
operations is. -/
theorem C133_none (t e : Typ) (op : Op) :
    (∀ u ∈ [Typ.char, .string, .stringBuilder, .file, .bigInteger, .bigFloat, .jsonData, .jsonDocument, .testCase, .uniquePtr t,
      .sharedPtr t, .expected t e], trivially (ops u) op = false) ∧ isTrivial (ops (.unexpected t)) = false ∧
    isTrivial (ops (.ptr t)) = false := by
  refine ⟨?_, ?_, rfl⟩
  · intro u hu
    simp only [List.mem_cons, List.not_mem_nil, or_false] at hu
    rcases hu with rfl | rfl | rfl | rfl | rfl | rfl | rfl | rfl | rfl | rfl | rfl | rfl <;> cases op <;> rfl
  · unfold isTrivial
    have : trivially (ops (.unexpected t)) .default = false := rfl
    rw [this, Bool.and_false]

end Caitlyn
