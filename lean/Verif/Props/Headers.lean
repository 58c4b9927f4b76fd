import Verif.Proofs.Headers

/-! # C119, C120: the headers can be included, and programs of several translation units link -/

namespace Caitlyn
open Headers

/-- The headers for users. -/
def Spec.forUsers : List File := [.PublicAlgorithms, .PublicCaitlyn, .PublicChar, .PublicCollections, .PublicDateTime, .PublicError,
  .PublicFile, .PublicIO, .PublicMemory, .PublicNumeric, .PublicSerializing, .PublicString, .PublicSystem, .PublicTesting,
  .PublicThreading, .PublicTraits, .PublicUtility]

/-- The headers other than those for users, `__Caitlyn.h` and Application.h. -/
def Spec.internal (f : File) : Bool := f ∉ Spec.forUsers && f != .Caitlyn && f != .Caitlyn_Application

theorem Headers.guard_eq {f g : File} (h : guard f = some g) : g = f := by
  unfold guard at h
  split at h
  all_goals first | exact (Option.some.inj h).symm | exact absurd h (by simp)

theorem Headers.sound_internal : Sound false (fun p => ∃ f, p = .exact f ∧ Spec.internal f = true) File.ctorIdx := by
  refine ⟨?_, fun p q h g x _ _ _ _ h1 h2 => by rw [← guard_eq h1, ← guard_eq h2]⟩
  rintro p ⟨f, rfl, hf⟩
  refine ⟨f, rfl, by cases f <;> decide, ?_⟩
  have : (includes f).all (fun q => match q with
      | .exact g => Spec.internal g && decide (g.ctorIdx < f.ctorIdx) && (guard g).isSome
      | .lowered _ => false) = true := by
    cases f <;> first | decide | (revert hf; decide)
  intro q hq
  have := List.all_eq_true.mp this q hq
  cases q with
  | lowered g => simp at this
  | exact g =>
    simp only [Bool.and_eq_true, decide_eq_true_eq] at this
    exact ⟨⟨g, rfl, this.1.1⟩, g, rfl, this.1.2, this.2⟩

theorem Headers.sound_all : Sound true (fun _ => True) File.ctorIdx := by
  refine ⟨?_, fun p q h g x _ _ _ _ h1 h2 => by rw [← guard_eq h1, ← guard_eq h2]⟩
  intro p _
  obtain ⟨f, hf⟩ : ∃ f, lookup true p = some f := by cases p <;> exact ⟨_, rfl⟩
  refine ⟨f, hf, by cases f <;> decide, ?_⟩
  have : (includes f).all (fun q => (lookup true q).any fun g => decide (g.ctorIdx < f.ctorIdx) && (guard g).isSome) = true := by
    cases f <;> decide
  intro q hq
  have := List.all_eq_true.mp this q hq
  cases hl : lookup true q with
  | none => rw [hl] at this; simp at this
  | some g =>
    rw [hl] at this
    simp only [Option.any_some, Bool.and_eq_true, decide_eq_true_eq] at this
    exact ⟨trivial, g, rfl, this.1, this.2⟩

/-! ## C119 -/

/-- C119, where the file system ignores the case of letters: a source file may include any headers in any order and any number of
times. Each header that is included is then read exactly once, and after all headers that it includes. -/
theorem C119_any_order (names : List Name) : ∃ tu, translate true names = .ok tu ∧ tu.out.Nodup ∧
    (∀ pre f post, tu.out = pre ++ f :: post → ∀ q ∈ includes f, ∃ g, lookup true q = some g ∧ g ∈ pre) ∧
    ∀ f, Name.exact f ∈ names → f ∉ Spec.forUsers → f ∈ tu.out := by
  obtain ⟨tu, h1, h2, h3⟩ := translate_ok sound_all names (fun _ _ => trivial)
  refine ⟨tu, h1, h2.nodup, h2.order, fun f hf hu => ?_⟩
  obtain ⟨g, e, m, -⟩ := h3 _ hf
  cases e
  exact m (by revert hu; cases f <;> decide)

/-- C119, also where the case of letters counts: the same for the internal headers. -/
theorem C119_internal_partial (names : List File) (h : ∀ f ∈ names, Spec.internal f = true) :
    ∃ tu, translate false (names.map .exact) = .ok tu ∧ tu.out.Nodup ∧
    (∀ pre f post, tu.out = pre ++ f :: post → ∀ q ∈ includes f, ∃ g, lookup false q = some g ∧ g ∈ pre) ∧
    ∀ f ∈ names, f ∈ tu.out := by
  obtain ⟨tu, h1, h2, h3⟩ := translate_ok sound_internal (names.map .exact) (fun p hp => by
    obtain ⟨f, hf, rfl⟩ := List.mem_map.mp hp
    exact ⟨f, rfl, h f hf⟩)
  refine ⟨tu, h1, h2.nodup, h2.order, fun f hf => ?_⟩
  obtain ⟨g, e, m, -⟩ := h3 (.exact f) (List.mem_map.mpr ⟨f, hf, rfl⟩)
  cases e
  have := h f hf
  exact m (by revert this; cases f <;> decide)

example : Spec.internal .Core_String_String = true ∧
    (translate false [.exact .Core_Char, .exact .Base, .exact .Core_Char]).toOption.map Tu.out =
      some [.Caitlyn_Namespace, .Caitlyn_Config, .Caitlyn_Types, .Base, .Core_Char_Defs, .Core_Char_Char, .Core_Char_Utility, .Core_Char] := by
  decide +kernel

/-- C119 fails where the case of letters counts, as under Linux: no header for users can be included, because `__Caitlyn.h` includes
"caitlyn/__caitlyn/application.h". -/
theorem C119_public_fails (f : File) (hf : f ∈ Spec.forUsers) (names : List Name) :
    translate false (.exact f :: names) = .error (.missing (.lowered .Caitlyn_Application)) := by
  have hr : (match read false 200 {} (.exact f) with
      | .ok _ => none
      | .error e => some e) = some (.missing (.lowered .Caitlyn_Application)) := by
    revert hf
    cases f <;> first | (intro _; decide +kernel) | (intro h; exact absurd h (by decide))
  have : read false 200 {} (.exact f) = .error (.missing (.lowered .Caitlyn_Application)) := by
    split at hr
    · exact absurd hr (by simp)
    · rename_i e he
      rw [he, Option.some.inj hr]
  unfold translate
  rw [List.foldlM_cons, this]
  rfl

/-! ## C120 -/

theorem Headers.translateAll_defines {ic : Bool} : ∀ (program : List (List Name)),
    (∀ names ∈ program, ∃ tu, translate ic names = .ok tu ∧ tu.defines = []) →
    ∃ tus, translateAll ic program = .ok tus ∧ tus.flatMap Tu.defines = []
  | [], _ => ⟨[], rfl, rfl⟩
  | names :: rest, h => by
    obtain ⟨tu, h1, h2⟩ := h names (by simp)
    obtain ⟨tus, h3, h4⟩ := translateAll_defines rest (fun n hn => h n (by simp [hn]))
    refine ⟨tu :: tus, ?_, ?_⟩
    · rw [translateAll, h1, h3]; rfl
    · rw [List.flatMap_cons, h2, h4]; rfl

/-- C120: a program of any number of translation units that include internal headers links: nothing is defined twice. -/
theorem C120_internal_partial (program : List (List File)) (h : ∀ names ∈ program, ∀ f ∈ names, Spec.internal f = true) :
    build false (program.map fun names => names.map .exact) = .linked := by
  obtain ⟨tus, h1, h2⟩ := translateAll_defines (ic := false) (program.map fun names => names.map .exact) (by
    intro ns hn
    obtain ⟨names, hm, rfl⟩ := List.mem_map.mp hn
    obtain ⟨tu, h1, h2, -⟩ := translate_ok sound_internal (names.map .exact) (fun p hp => by
      obtain ⟨f, hf, rfl⟩ := List.mem_map.mp hp
      exact ⟨f, rfl, h names hm f hf⟩)
    refine ⟨tu, h1, ?_⟩
    unfold Tu.defines
    rw [List.flatMap_eq_nil_iff]
    intro f hf
    obtain ⟨⟨p, ⟨g, rfl, hg⟩, hl⟩, -⟩ := h2.files f hf
    cases hl
    revert hg
    cases f <;> first | (intro _; rfl) | (intro h; exact absurd h (by decide)))
  unfold build
  rw [h1]
  simp only
  rw [h2]
  rfl

theorem Headers.public_application (f : File) (hf : f ∈ Spec.forUsers) (tu : Tu) (names : List Name)
    (hm : Name.exact f ∈ names) (ht : translate true names = .ok tu) : .Caitlyn_Application ∈ tu.out := by
  obtain ⟨tu', h1, h2, h3⟩ := translate_ok sound_all names (fun _ _ => trivial)
  rw [ht] at h1; cases h1
  obtain ⟨g, e, -, m⟩ := h3 _ hm
  cases e
  have hg : guard f = none ∧ .exact .Caitlyn ∈ includes f := by
    revert hf
    cases f <;> first | (intro _; decide) | (intro h; exact absurd h (by decide))
  obtain ⟨g, e, hc⟩ := m hg.1 _ hg.2
  cases e
  obtain ⟨pre, post, hpp⟩ := List.append_of_mem hc
  obtain ⟨g, e, ha⟩ := h2.order pre _ post hpp (.lowered .Caitlyn_Application) (by decide)
  cases e
  rw [hpp]
  exact List.mem_append_left _ ha

/-- C120 fails where the file system ignores case and the headers for users can be included: a program of which two translation units
include one of them does not link, because Application.h defines its static members in each. -/
theorem C120_fails (f g : File) (hf : f ∈ Spec.forUsers) (hg : g ∈ Spec.forUsers) (a b : List Name) (pre mid post : List (List Name))
    (ha : .exact f ∈ a) (hb : .exact g ∈ b) : build true (pre ++ a :: mid ++ b :: post) = .twice := by
  have hall : ∀ program : List (List Name), ∃ tus, translateAll true program = .ok tus ∧
      tus.map some = program.map fun names => (translate true names).toOption := by
    intro program
    induction program with
    | nil => exact ⟨[], rfl, rfl⟩
    | cons names rest ih =>
      obtain ⟨tu, h1, -⟩ := C119_any_order names
      obtain ⟨tus, h2, h3⟩ := ih
      refine ⟨tu :: tus, ?_, ?_⟩
      · rw [translateAll, h1, h2]; rfl
      · rw [List.map_cons, List.map_cons, h1, h3]; rfl
  obtain ⟨tus, h1, h2⟩ := hall (pre ++ a :: mid ++ b :: post)
  obtain ⟨ta, ea, -⟩ := C119_any_order a
  obtain ⟨tb, eb, -⟩ := C119_any_order b
  have ia := public_application f hf ta a ha ea
  have ib := public_application g hg tb b hb eb
  unfold build
  rw [h1]
  simp only
  rw [if_neg]
  intro hn
  rw [List.append_assoc, List.map_append, List.cons_append, List.map_cons, List.map_append, List.map_cons, ea, eb] at h2
  obtain ⟨l1, l2, rfl, -, h2⟩ := List.map_eq_append_iff.mp h2
  obtain ⟨x, l3, rfl, hx, h2⟩ := List.map_eq_cons_iff.mp h2
  obtain ⟨l4, l5, rfl, -, h2⟩ := List.map_eq_append_iff.mp h2
  obtain ⟨y, l6, rfl, hy, -⟩ := List.map_eq_cons_iff.mp h2
  cases hx
  cases hy
  have da : "Application::application_" ∈ ta.defines := List.mem_flatMap.mpr ⟨_, ia, by decide⟩
  have db : "Application::application_" ∈ tb.defines := List.mem_flatMap.mpr ⟨_, ib, by decide⟩
  rw [List.flatMap_append, List.flatMap_cons, List.flatMap_append, List.flatMap_cons] at hn
  have hn := (List.nodup_append.mp (List.nodup_append.mp hn).2.1).2.2 _ da _
    (List.mem_append_right _ (List.mem_append_left _ db))
  exact hn rfl

example : build true [[.exact .PublicString], [.exact .Core_String]] = .linked ∧
    build true [[.exact .PublicString], [.exact .PublicFile]] = .twice := by
  exact ⟨by decide +kernel, C120_fails .PublicString .PublicFile (by decide) (by decide) _ _ [] [] [] (by simp) (by simp)⟩

end Caitlyn
