import Verif.Proofs.Classes

/-! # C158: the traits of classes, and owning pointers to base classes -/

namespace Caitlyn
open Classes Spec.Hier Hier

/-- C158: what the traits say, in terms of the subobjects of an object of the class. `HasVirtualDestructor`: some class among them
declares its destructor virtual. `IsPolymorphic`: some class among them declares something virtual. `IsEmpty`: none has data members or
declares anything virtual. `IsAbstract`: some class among them declares a pure function that no class on the way to it declares. -/
theorem C158_traits (c : Cls) :
    (hasVirtualDestructor c = true ↔ ∃ p d, classAt c p = some d ∧ OwnVirtualDestructor d) ∧
    (isPolymorphic c = true ↔ ∃ p d, classAt c p = some d ∧ OwnVirtual d) ∧
    (isEmpty c = true ↔ ∀ p d, classAt c p = some d → d.fields = [] ∧ ¬ OwnVirtual d) ∧
    (isAbstract c = true ↔ ∃ n p d, classAt c p = some d ∧ DeclaresPure n d ∧
      ∀ q r e, p = q ++ r → r ≠ [] → classAt c q = some e → ¬ Declares n e) := by
  refine ⟨virtualDestructor_iff c, polymorphic_iff c, empty_iff c, ?_⟩
  have : isAbstract c = true ↔ ∃ n, n ∈ pures c := by
    unfold isAbstract
    cases pures c with
    | nil => simp
    | cons n l => simp only [List.isEmpty_cons, Bool.not_false, true_iff]; exact ⟨n, by simp⟩
  rw [this]
  exact ⟨fun ⟨n, h⟩ => ⟨n, (pures_iff n c).mp h⟩, fun ⟨n, h⟩ => ⟨n, (pures_iff n c).mpr h⟩⟩

/-- C158: how the traits depend on each other, and on those of the bases: what has a virtual destructor or is abstract is polymorphic;
what is polymorphic is neither empty nor of standard layout; virtual destructors and virtual functions are inherited; the bases of an
empty class are empty. -/
theorem C158_relations (b d : Cls) :
    (hasVirtualDestructor d = true → isPolymorphic d = true) ∧ (isAbstract d = true → isPolymorphic d = true) ∧
    (isPolymorphic d = true → isEmpty d = false ∧ isStandardLayout d = false) ∧
    (baseOf b d = true → (hasVirtualDestructor b = true → hasVirtualDestructor d = true) ∧
      (isPolymorphic b = true → isPolymorphic d = true) ∧ (isEmpty d = true → isEmpty b = true)) := by
  obtain ⟨h1, h2, h3, h4⟩ := C158_traits d
  obtain ⟨g1, g2, g3, _⟩ := C158_traits b
  refine ⟨fun h => ?_, fun h => ?_, fun h => ⟨?_, ?_⟩, fun h => ⟨fun hb => ?_, fun hb => ?_, fun hd => ?_⟩⟩
  · obtain ⟨p, e, hp, he⟩ := h1.mp h
    refine h2.mpr ⟨p, e, hp, ?_⟩
    cases e
    exact .inl he
  · obtain ⟨n, p, e, hp, he, _⟩ := h4.mp h
    refine h2.mpr ⟨p, e, hp, ?_⟩
    cases e
    obtain ⟨f, hf, _, hk⟩ := he
    exact .inr ⟨f, hf, by rw [hk]; decide⟩
  · obtain ⟨p, e, hp, he⟩ := h2.mp h
    rw [Bool.eq_false_iff]
    exact fun hem => (h3.mp hem p e hp).2 he
  · simp [isStandardLayout, h]
  all_goals obtain ⟨p, hp⟩ := (baseOf_iff b d).mp h
  · obtain ⟨q, e, hq, he⟩ := g1.mp hb
    exact h1.mpr ⟨p ++ q, e, by rw [classAt_append, hp]; exact hq, he⟩
  · obtain ⟨q, e, hq, he⟩ := g2.mp hb
    exact h2.mpr ⟨p ++ q, e, by rw [classAt_append, hp]; exact hq, he⟩
  · exact g3.mpr fun q e hq => h3.mp hd (p ++ q) e (by rw [classAt_append, hp]; exact hq)

/-- C158: `IsStandardLayout` holds exactly if nothing is virtual, no class among the subobjects has both public and other data members, at
most one of the subobjects has data members, and no class occurs twice. -/
theorem C158_layout (c : Cls) : isStandardLayout c = true ↔
    isPolymorphic c = false ∧
    (∀ p d, classAt c p = some d → (∀ x ∈ d.fields, x = true) ∨ ∀ x ∈ d.fields, x = false) ∧
    (∀ p q d e, classAt c p = some d → classAt c q = some e → d.fields ≠ [] → e.fields ≠ [] → p = q) ∧
    ∀ p q d, classAt c p = some d → classAt c q = some d → p = q := by
  unfold isStandardLayout
  rw [← spots_classes c, Bool.and_eq_true, Bool.and_eq_true, Bool.and_eq_true, decide_eq_true_iff, decide_eq_true_iff,
    at_most_one _ _ (spots_once c), nodup_snd _ (spots_once c), and_assoc, and_assoc, Bool.not_eq_true']
  refine and_congr Iff.rfl (and_congr ?_ (and_congr ?_ ?_))
  · rw [List.all_eq_true]
    constructor
    · intro h p d hp
      have := h d (List.mem_map.mpr ⟨(p, d), (mem_spots c p d).mpr hp, rfl⟩)
      simpa [List.all_eq_true] using this
    · intro h d hd
      obtain ⟨⟨p, d⟩, hm, rfl⟩ := List.mem_map.mp hd
      simpa [List.all_eq_true] using h p d ((mem_spots c p d).mp hm)
  · constructor
    · intro h p q d e hp hq hd he
      exact h _ ((mem_spots c p d).mpr hp) _ ((mem_spots c q e).mpr hq) (by simpa using hd) (by simpa using he)
    · rintro h ⟨p, d⟩ hp ⟨q, e⟩ hq hd he
      exact h p q d e ((mem_spots c p d).mp hp) ((mem_spots c q e).mp hq) (by simpa using hd) (by simpa using he)
  · constructor
    · intro h p q d hp hq
      exact h _ ((mem_spots c p d).mpr hp) _ ((mem_spots c q d).mpr hq) rfl
    · rintro h ⟨p, d⟩ hp ⟨q, e⟩ hq rfl
      exact h p q d ((mem_spots c p d).mp hp) ((mem_spots c q d).mp hq)

/-- C158: `BaseOf` says whether there is a subobject of the class; it is a partial order on the classes. -/
theorem C158_base (a b c : Cls) :
    (baseOf a b = true ↔ ∃ p, classAt b p = some a) ∧ baseOf a a = true ∧
    (baseOf a b = true → baseOf b c = true → baseOf a c = true) ∧ (baseOf a b = true → baseOf b a = true → a = b) := by
  simp only [baseOf_iff]
  refine ⟨trivial, ⟨[], classAt_nil a⟩, ?_, ?_⟩
  · rintro ⟨p, hp⟩ ⟨q, hq⟩
    exact ⟨q ++ p, by rw [classAt_append, hq]; exact hp⟩
  · rintro ⟨p, hp⟩ ⟨q, hq⟩
    have h1 := classAt_size b p a hp
    have h2 := classAt_size a q b hq
    cases p with
    | nil =>
      rw [classAt_nil] at hp
      exact (Option.some.inj hp).symm
    | cons i p => have := h1.2 (by simp); omega

/-- C158: `Convertible<D*, B*>` holds exactly if there is one subobject of class `B` and all steps on the way to it are public; the
conversion gives its place. -/
theorem C158_convertible (b d : Cls) (p : List Nat) :
    upcast d b = some p ↔ classAt d p = some b ∧ Public d p ∧ ∀ q, classAt d q = some b → q = p := upcast_iff d b p

/-- C158, exactly: programs with variables of type `UniquePtr<B>` that own objects of classes derived from `B`. If every object that is let
go of is of class `B`, or `HasVirtualDestructor<B>()`, then each of these is destroyed when its owner lets go of it, wholly: the destructor
of each subobject runs once, that of a class before those of its bases, those of later bases before those of earlier ones. Otherwise
the behaviour is undefined. -/
theorem C158_owner (b : Cls) (ops : List Op) (o : Owners) (hc : ∀ op ∈ ops, op.compiles b)
    (hs : Owners.run ops ⟨[], [], 0⟩ = some o) :
    if Deletable b o then
      ∃ s, run b ops ⟨[], [], 0⟩ = .ok s ∧ s.slots.map (Option.map fun x => (x.id, x.cls)) = o.slots ∧
        s.log.map Prod.fst = o.gone.map Prod.fst ∧ ∀ i l, (i, l) ∈ s.log → ∃ d, (i, d) ∈ o.gone ∧ Wholly d l
    else run b ops ⟨[], [], 0⟩ = .error .ub := by
  have h := run_sim b ops ⟨[], [], 0⟩ o hs hc (fun _ h => by cases h) (fun _ h => by cases h)
  by_cases hd : Deletable b o
  · rw [if_pos hd] at h ⊢
    refine ⟨_, h, ?_, ?_, fun i l hm => ?_⟩
    · simp [conc, Function.comp_def]
    · simp [conc, Function.comp_def]
    · obtain ⟨x, hx, e⟩ := List.mem_map.mp hm
      injection e with e1 e2
      subst e1 e2
      exact ⟨x.2, hx, wholly x.2⟩
  · rw [if_neg hd] at h ⊢
    exact h

/-- C158: `TEST_F` compiles exactly if `Run` is the only pure function of the fixture, and the test's object ends wholly. -/
theorem C158_fixture (name : Nat) (fixture : Cls) :
    (fixtureCompiles name fixture = true ↔ ∀ n ∈ pures fixture, n = 0) ∧
      Wholly (fixtureClass name fixture) (fixtureEnds name fixture) := by
  refine ⟨?_, wholly _⟩
  have h : pures (fixtureClass name fixture) = (pures fixture).filter fun n => !decide (0 = n) := by
    simp [fixtureClass, pures, puresOf, declares]
  rw [fixtureCompiles, isAbstract, h, Bool.not_not, List.isEmpty_iff, List.filter_eq_nil_iff]
  simp only [Bool.not_eq_true', decide_eq_false_iff_not, Decidable.not_not]
  exact ⟨fun h n hn => (h n hn).symm, fun h n hn => (h n hn).symm⟩

/-- C158: `new D` can be given for a `B*` exactly if no pure function of `D` is left and there is one subobject of class `B`, reached
by public steps; the pointer is to it. -/
theorem C158_new (b d : Cls) (p : List Nat) :
    argument b d = some p ↔ isAbstract d = false ∧ classAt d p = some b ∧ Public d p ∧ ∀ q, classAt d q = some b → q = p := by
  rw [← C158_convertible]
  unfold argument
  cases isAbstract d <;> simp

/-- C158: the class of a test with a fixture has the fixture as its only base, publicly, and nothing else that is virtual or takes room:
a pointer to it is one to the fixture, and the traits are those of the fixture. -/
theorem C158_fixture_class (name : Nat) (fixture : Cls) :
    upcast (fixtureClass name fixture) fixture = some [0] ∧
    hasVirtualDestructor (fixtureClass name fixture) = hasVirtualDestructor fixture ∧
    isPolymorphic (fixtureClass name fixture) = isPolymorphic fixture ∧
    isEmpty (fixtureClass name fixture) = isEmpty fixture := by
  refine ⟨?_, by simp [fixtureClass, hasVirtualDestructor, anyVirtualDestructor],
    by simp [fixtureClass, isPolymorphic, anyPolymorphic], by simp [fixtureClass, isEmpty, allEmpty]⟩
  rw [C158_convertible]
  have hp : ∀ q, classAt (fixtureClass name fixture) q = some fixture → q = [0] := by
    rintro (_ | ⟨_ | i, q⟩) h
    · have := congrArg sizeOf (Option.some.inj h)
      simp [fixtureClass] at this
      omega
    · have := classAt_self fixture q (by simpa [fixtureClass, classAt, classAtOf] using h)
      rw [this]
    · simp [fixtureClass, classAt, classAtOf] at h
  refine ⟨by simp [fixtureClass, classAt, classAtOf, classAt_nil], ?_, hp⟩
  simp [fixtureClass, Public, PublicOf]

/-- A class with a virtual destructor, a pure function and a data member; one derived from it; one derived from the latter and from an empty
class. -/
def Hier.shape : Cls := .mk 1 true [⟨7, .pure⟩] [true] .nil
def Hier.circle : Cls := .mk 2 false [⟨7, .plain⟩] [] (.cons true Hier.shape .nil)
def Hier.disc : Cls := .mk 3 false [] [false] (.cons true Hier.circle (.cons false (.mk 4 false [] [] .nil) .nil))

example : isAbstract Hier.shape = true ∧ isAbstract Hier.disc = false ∧ hasVirtualDestructor Hier.disc = true ∧
    upcast Hier.disc Hier.shape = some [0, 0] ∧ upcast Hier.disc (.mk 4 false [] [] .nil) = none ∧
    baseOf (.mk 4 false [] [] .nil) Hier.disc = true ∧ destroyed Hier.disc = [[], [1], [0], [0, 0]] := by decide

example : isStandardLayout (.mk 5 false [] [] (.cons true (.mk 6 false [] [true, true] .nil) .nil)) = true ∧
    isStandardLayout (.mk 5 false [] [true] (.cons true (.mk 6 false [] [true] .nil) .nil)) = false ∧
    isStandardLayout (.mk 6 false [] [true, false] .nil) = false := by decide

/-- `UniquePtr<Shape> x{new Disc}; x.Reset(new Circle);` and the end of the scope. -/
example : ∃ s, run Hier.shape [.make Hier.disc, .reset 0 Hier.circle, .leave] ⟨[], [], 0⟩ = .ok s ∧
    s.log = [(0, [[], [1], [0], [0, 0]]), (1, [[], [0]])] := ⟨_, rfl, rfl⟩

/-- Without a virtual destructor the end of the variable is undefined. -/
example : run (.mk 1 false [] [] .nil) [.make (.mk 2 false [] [] (.cons true (.mk 1 false [] [] .nil) .nil)), .leave] ⟨[], [], 0⟩ =
    .error .ub := rfl

example : fixtureCompiles 9 Hier.shape = false ∧ fixtureCompiles 9 Hier.disc = true := by decide

end Caitlyn
