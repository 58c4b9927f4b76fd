import Verif.Proofs.Declared
import Verif.Spec.Headers
import Verif.Props.Headers

/-! # C135: every header can be compiled by itself and in every language standard -/

namespace Caitlyn
open Headers

/-- The names of headers that are found: all of them where the case of letters does not count, otherwise those of the internal
headers. -/
def Spec.Found (ignoreCase : Bool) (names : List Name) : Prop :=
  ignoreCase = true ∨ ∀ p ∈ names, ∃ f, p = .exact f ∧ Spec.internal f = true

theorem Headers.found_ok {ic : Bool} {names : List Name} (h : Spec.Found ic names) : ∃ tu, translate ic names = .ok tu ∧
    (∀ pre f post, tu.out = pre ++ f :: post → ∀ q ∈ includes f, ∃ g, lookup ic q = some g ∧ g ∈ pre) ∧
    (∀ p ∈ names, ∃ h, lookup ic p = some h ∧ ((guard h).isSome → h ∈ tu.out) ∧
      (guard h = none → ∀ q ∈ includes h, ∃ g, lookup ic q = some g ∧ g ∈ tu.out)) ∧
    ((∀ p ∈ names, lookup ic p ≠ some .Testing_Types_TestFailMessage) → Good tu) := by
  rcases h with rfl | h
  · obtain ⟨tu, h1, h2, h3⟩ := translate_ok sound_all names (fun _ _ => trivial)
    exact ⟨tu, h1, h2.order, h3, fun hn => translate_good sound_all names (fun _ _ => trivial) hn tu h1⟩
  · cases ic with
    | true =>
      obtain ⟨tu, h1, h2, h3⟩ := translate_ok sound_all names (fun _ _ => trivial)
      exact ⟨tu, h1, h2.order, h3, fun hn => translate_good sound_all names (fun _ _ => trivial) hn tu h1⟩
    | false =>
      obtain ⟨tu, h1, h2, h3⟩ := translate_ok sound_internal names h
      exact ⟨tu, h1, h2.order, h3, fun hn => translate_good sound_internal names h hn tu h1⟩

/-- Everything that a body uses is included, except in TestFailMessage.h. -/
theorem Headers.uses_reached (f g : File) (h : g ∈ uses f) :
    g ∈ reach 8 f ∨ f = .Testing_Types_TestFailMessage ∧ g = .Core_String_String := by
  have : ((uses f).all fun g => decide (g ∈ reach 8 f) || f == .Testing_Types_TestFailMessage && g == .Core_String_String) = true := by
    cases f <;> decide +kernel
  have := List.all_eq_true.mp this g h
  simpa using this

theorem Headers.specialises_iff (c : Bool) (f : File) : specialises c f = false ↔ (c = true → f ≠ .Core_Traits_Types_Primary) := by
  cases c <;> simp [specialises]

/-- C135, exactly: a source file that includes any headers in any order is compiled if and only if TestFailMessage.h, if it is
included, comes after String.h, and Primary.h is not included where the standard is C++20 or later. -/
theorem C135_compiles_iff (ignoreCase cxx20 : Bool) (names : List Name) (h : Spec.Found ignoreCase names) :
    ∃ tu, translate ignoreCase names = .ok tu ∧
      (tu.compile cxx20 = .ok () ↔ (cxx20 = true → .Core_Traits_Types_Primary ∉ tu.out) ∧
        ∀ pre post, tu.out = pre ++ .Testing_Types_TestFailMessage :: post → .Core_String_String ∈ pre) := by
  obtain ⟨tu, h1, h2, h3, -⟩ := found_ok h
  refine ⟨tu, h1, ?_⟩
  rw [Tu.compile, compileFrom_ok]
  constructor
  · intro hc
    refine ⟨fun e hm => ?_, fun pre post e => ?_⟩
    · obtain ⟨a, b, hab⟩ := List.append_of_mem hm
      exact (specialises_iff _ _).mp (hc a _ b hab).1 e rfl
    · rcases (hc pre _ post e).2 .Core_String_String (by decide +kernel) with h | h
      · cases h
      · exact h
  · rintro ⟨ha, hb⟩ pre f post e
    refine ⟨(specialises_iff _ _).mpr fun hc hf => ha hc (by rw [e, hf]; simp), fun g hg => .inr ?_⟩
    rcases uses_reached f g hg with h | ⟨rfl, rfl⟩
    · exact reach_before h2 8 f pre post e g h
    · exact hb pre post e

/-- C135. Partial: before C++20, a source file that includes any headers in any order is compiled, and so is every header by itself.
Missing: TestFailMessage.h may not be included by its own name (`C135_alone_fails`), and standards from C++20 on
(`C135_cxx20_fails`). -/
theorem C135_any_order_partial (ignoreCase : Bool) (names : List Name) (h : Spec.Found ignoreCase names)
    (hn : ∀ p ∈ names, lookup ignoreCase p ≠ some .Testing_Types_TestFailMessage) :
    ∃ tu, translate ignoreCase names = .ok tu ∧ tu.compile false = .ok () := by
  obtain ⟨tu, h1, h2⟩ := C135_compiles_iff ignoreCase false names h
  obtain ⟨tu', h1', -, -, h4⟩ := found_ok h
  rw [h1] at h1'; cases h1'
  exact ⟨tu, h1, h2.mpr ⟨by simp, h4 hn⟩⟩

/-- C135 is false as stated: a source file that includes TestFailMessage.h first is rejected in every standard, because it uses
`String` without including String.h. -/
theorem C135_alone_fails (ignoreCase cxx20 : Bool) (names : List Name)
    (h : Spec.Found ignoreCase (.exact .Testing_Types_TestFailMessage :: names)) :
    ∃ tu, translate ignoreCase (.exact .Testing_Types_TestFailMessage :: names) = .ok tu ∧
      tu.compile cxx20 = .error (.undeclared .Testing_Types_TestFailMessage .Core_String_String) := by
  obtain ⟨tu, h1, -⟩ := found_ok h
  refine ⟨tu, h1, ?_⟩
  have hr : read ignoreCase 200 {} (.exact .Testing_Types_TestFailMessage) =
      .ok ⟨[.Caitlyn_Types, .Caitlyn_Namespace, .Caitlyn_Config, .Base, .Testing_Types_TestFailMessage],
        [.Caitlyn_Namespace, .Caitlyn_Config, .Caitlyn_Types, .Base, .Testing_Types_TestFailMessage]⟩ := by
    cases ignoreCase <;> rfl
  rw [translate, List.foldlM_cons, hr] at h1
  obtain ⟨rest, hrest⟩ := out_list (out_one ignoreCase 200) _ _ _ h1
  rw [Tu.compile, ← hrest]
  exact compileFrom_append _ _ _ _ _ (by cases cxx20 <;> rfl)

/-- The headers that include Types/Primary.h, directly or through others. -/
def Spec.broken : List File := [
  .Core_Traits_Constraints_Primary, .Core_String_String, .Core_String_StringBuilder, .Core_String_Utility, .Core_String,
  .Core_Error_Unexpected, .Core_Traits_Constraints, .Core_Traits_Types, .Core_Traits, .Core_Error_Expected, .Core_Error,
  .Core_File_File, .Core_File, .Core_IO_Stream, .Core_IO, .Numeric_Types_BigInteger, .Numeric_Types_BigFloat,
  .Numeric_Types, .Serializing_Json_Types_JsonData, .Serializing_Json_Types_JsonParser, .Serializing_Json_Types_Json,
  .Serializing_Json_Types, .Serializing_Json, .Testing_Types_TestCase, .Testing_Types_TestRegistry, .Testing_Types,
  .Testing_Macro_Assert, .Testing_Macro_TestFixture, .Testing_Macro_Test, .Testing_Macro, .PublicCaitlyn, .PublicError,
  .PublicFile, .PublicIO, .PublicNumeric, .PublicSerializing, .PublicString, .PublicTesting, .PublicTraits]

theorem Headers.broken_of_reaches {f g : File} (h : Spec.Reaches f g) : g = .Core_Traits_Types_Primary ∨ g ∈ Spec.broken → f ∈ Spec.broken := by
  induction h with
  | @direct f g p hp hl =>
    intro hg
    have : ((includes f).all fun p => (lookup true p).all fun g =>
        !(g == .Core_Traits_Types_Primary || decide (g ∈ Spec.broken)) || decide (f ∈ Spec.broken)) = true := by
      cases f <;> decide +kernel
    have := List.all_eq_true.mp this p hp
    rw [hl] at this
    simp only [Option.all_some] at this
    rcases hg with rfl | hg
    · simpa using this
    · simpa [hg] using this
  | through _ _ ih1 ih2 => exact fun hg => ih1 (.inr (ih2 hg))

theorem Headers.reaches_of_broken : ∀ (n : Nat) (f : File), f.ctorIdx < n → f ∈ Spec.broken → Spec.Reaches f .Core_Traits_Types_Primary
  | 0, _, h, _ => absurd h (by omega)
  | n + 1, f, h, hf => by
    have : (!decide (f ∈ Spec.broken) || (includes f).any fun p => (lookup true p).any fun g =>
        (g == .Core_Traits_Types_Primary || decide (g ∈ Spec.broken)) && decide (g.ctorIdx < f.ctorIdx)) = true := by
      cases f <;> decide +kernel
    simp only [hf, decide_true, Bool.not_true, Bool.false_or] at this
    obtain ⟨p, hp, hq⟩ := List.any_eq_true.mp this
    cases hl : lookup true p with
    | none => rw [hl] at hq; cases hq
    | some g =>
      rw [hl] at hq
      simp only [Option.any_some, Bool.and_eq_true, Bool.or_eq_true, decide_eq_true_eq] at hq
      rcases hq.1 with h1 | h1
      · have : g = .Core_Traits_Types_Primary := by simpa using h1
        subst this
        exact .direct hp hl
      · exact .through (.direct hp hl) (reaches_of_broken n g (by omega) h1)

/-- C135: the list is that of the headers that include Primary.h; they are more than half of the headers for users. -/
theorem C135_broken (f : File) : (f ∈ Spec.broken ↔ Spec.Reaches f .Core_Traits_Types_Primary) ∧
    (f ∈ Spec.forUsers → (f ∉ Spec.broken ↔ f ∈ [.PublicAlgorithms, .PublicChar, .PublicCollections, .PublicDateTime, .PublicMemory,
      .PublicSystem, .PublicThreading, .PublicUtility])) :=
  ⟨⟨reaches_of_broken _ f (Nat.lt_succ_self _), fun h => broken_of_reaches h (.inl rfl)⟩, by cases f <;> decide +kernel⟩

/-- C135, from C++20 on: a source file that does not name TestFailMessage.h is compiled if and only if it includes neither Primary.h
nor a header that includes it. -/
theorem C135_cxx20_partial (ignoreCase : Bool) (names : List Name) (h : Spec.Found ignoreCase names)
    (hn : ∀ p ∈ names, lookup ignoreCase p ≠ some .Testing_Types_TestFailMessage) :
    ∃ tu, translate ignoreCase names = .ok tu ∧ (tu.compile true = .ok () ↔
      ∀ p ∈ names, ∀ f, lookup ignoreCase p = some f → f ≠ .Core_Traits_Types_Primary ∧ ¬ Spec.Reaches f .Core_Traits_Types_Primary) := by
  obtain ⟨tu, h1, h2⟩ := C135_compiles_iff ignoreCase true names h
  obtain ⟨tu', h1', ho, h3, h4⟩ := found_ok h
  rw [h1] at h1'; cases h1'
  refine ⟨tu, h1, h2.trans ?_⟩
  constructor
  · rintro ⟨ha, -⟩ p hp f hl
    obtain ⟨f', hl', hm, hm'⟩ := h3 p hp
    rw [hl] at hl'; cases hl'
    refine ⟨?_, fun hr => ha rfl ?_⟩
    · rintro rfl
      exact ha rfl (hm rfl)
    · cases hg : guard f with
      | some g => exact reaches_mem ho hr (hm (by rw [hg]; rfl))
      | none => exact reaches_mem_of_includes ho hr (hm' hg)
  · intro hp
    refine ⟨fun _ hm => ?_, h4 hn⟩
    rcases read_list (read_one ignoreCase 200) _ _ _ h1 _ hm with h5 | ⟨p, hpm, f, hl, h5⟩
    · cases h5
    · obtain ⟨a, b⟩ := hp p hpm f hl
      rcases h5 with rfl | h5
      · exact a rfl
      · exact b h5

/-- C135 is false as stated: from C++20 on, a source file that includes `<Caitlyn/String>` or another of these headers is rejected. -/
theorem C135_cxx20_fails (f : File) (hf : f ∈ Spec.broken) (names : List Name) (hm : .exact f ∈ names) :
    ∃ tu, translate true names = .ok tu ∧ tu.compile true ≠ .ok () := by
  obtain ⟨tu, h1, h2⟩ := C135_compiles_iff true true names (.inl rfl)
  obtain ⟨tu', h1', ho, h3, h4⟩ := found_ok (ic := true) (names := names) (.inl rfl)
  rw [h1] at h1'; cases h1'
  refine ⟨tu, h1, fun hc => (h2.mp hc).1 rfl ?_⟩
  obtain ⟨f', hl', hm, hm'⟩ := h3 _ hm
  cases hl'
  have hr := (C135_broken f).1.mp hf
  cases hg : guard f with
  | some g => exact reaches_mem ho hr (hm (by rw [hg]; rfl))
  | none => exact reaches_mem_of_includes ho hr (hm' hg)

example : ∃ tu, translate true [.exact .PublicString, .exact .PublicMemory] = .ok tu ∧ tu.compile true ≠ .ok () :=
  C135_cxx20_fails .PublicString (by decide +kernel) _ (by simp)

example : ∃ tu, translate true [.exact .PublicTesting, .exact .Testing_Types_TestFailMessage, .exact .PublicCaitlyn] = .ok tu ∧
    tu.compile false = .ok () := by
  obtain ⟨tu, h, h'⟩ := C135_compiles_iff true false [.exact .PublicTesting, .exact .Testing_Types_TestFailMessage, .exact .PublicCaitlyn] (.inl rfl)
  have : ((translate true [.exact .PublicTesting, .exact .Testing_Types_TestFailMessage, .exact .PublicCaitlyn]).toOption.map fun tu =>
      (tu.compile false).toOption) = some (some ()) := by decide +kernel
  rw [h] at this
  cases hc : tu.compile false with
  | ok u => exact ⟨tu, h, hc⟩
  | error x => simp [Except.toOption, hc] at this

/-- C135: the macros of a header that has been included can be expanded. Partial: not `JSON_STRING` (`C135_macro_fails`). -/
theorem C135_macros_partial (ignoreCase : Bool) (names : List Name) (h : Spec.Found ignoreCase names) :
    ∃ tu, translate ignoreCase names = .ok tu ∧ ∀ f ∈ tu.out, f ≠ .Serializing_Json_Defs → ∀ g ∈ expands f, g ∈ tu.out := by
  obtain ⟨tu, h1, ho, -, -⟩ := found_ok h
  refine ⟨tu, h1, fun f hf hne g hg => ?_⟩
  have : ((expands f).all fun g => decide (g ∈ reach 8 f) || f == .Serializing_Json_Defs) = true := by
    cases f <;> decide +kernel
  have := List.all_eq_true.mp this g hg
  simp only [Bool.or_eq_true, decide_eq_true_eq, beq_iff_eq, hne, or_false] at this
  obtain ⟨a, b, hab⟩ := List.append_of_mem hf
  have := reach_before ho 8 f a b hab g this
  rw [hab]
  exact List.mem_append_left _ this

/-- C135 is false as stated: Json/Defs.h by itself declares `JSON_STRING`, but not `MakeDocument`, to which it expands. -/
theorem C135_macro_fails : ∃ tu, translate false [.exact .Serializing_Json_Defs] = .ok tu ∧ .Serializing_Json_Defs ∈ tu.out ∧
    .Serializing_Json_Types_Json ∈ expands .Serializing_Json_Defs ∧ .Serializing_Json_Types_Json ∉ tu.out :=
  ⟨⟨[.Serializing_Json_Defs], [.Serializing_Json_Defs]⟩, rfl, by decide, by decide, by decide⟩

end Caitlyn
