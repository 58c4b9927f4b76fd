import Verif.Spec.Config

/-!
# C117, C118: configuration and basic types

A target has one of finitely many forms, and the theorems are proved by going through all of them.
-/

namespace Caitlyn
open Config Spec.Platform

/-- A property of targets that holds for every one of them. -/
theorem Spec.Platform.all_targets (P : Target → Bool)
    (h : ∀ a ∈ [Arch.x86, .x64, .arm, .arm64], ∀ o ∈ [Os.linux, .apple, .windows, .android],
      ∀ c ∈ [Tool.gcc, .clang, .mingw, .msvc, .clangCl, .icc], ∀ s ∈ [true, false], ∀ th ∈ [true, false],
      P ⟨a, o, c, s, th⟩ = true) (t : Target) : P t = true := by
  obtain ⟨a, o, c, s, th⟩ := t
  exact h a (by cases a <;> simp) o (by cases o <;> simp) c (by cases c <;> simp) s (by cases s <;> simp) th (by cases th <;> simp)

/-! ## C117 -/

/-- C117: the headers are accepted on every target: none of the `#error`s is met. -/
theorem C117_accepted (t : Target) (h : exists? t = true) : ∃ c, configure (predefined t) = some c := by
  have := all_targets (fun t => !exists? t || (configure (predefined t)).isSome) (by decide +kernel) t
  simp only [h, Bool.not_true, Bool.false_or] at this
  exact Option.isSome_iff_exists.mp this

/-- C117: the processor is recognised, except ARM processors of 64 bits with pointers of that size outside Windows, and so are its
bits on every target. -/
theorem C117_arch_partial (t : Target) (h : exists? t = true) (c : Config) (hc : configure (predefined t) = some c) :
    (t.arch ≠ .arm64 ∨ t.os = .windows ∨ t.short = true → c.arch = t.arch) ∧ c.bits = if wide t.arch then 64 else 32 := by
  have := all_targets (fun t => !exists? t || (configure (predefined t)).any fun c =>
    (!(t.arch != .arm64 || t.os == .windows || t.short) || c.arch == t.arch) && c.bits == if wide t.arch then 64 else 32)
    (by decide +kernel) t
  rw [h, hc] at this
  simp only [Bool.not_true, Bool.false_or, Option.any_some, Bool.and_eq_true, beq_iff_eq, Bool.or_eq_true, Bool.not_eq_true',
    Bool.or_eq_false_iff, bne_iff_ne, bne_eq_false_iff_eq, beq_eq_false_iff_ne] at this
  refine ⟨fun hx => this.1.resolve_left ?_, this.2⟩
  rintro ⟨⟨h1, h2⟩, h3⟩
  rcases hx with hx | hx | hx
  · exact hx h1
  · exact h2 hx
  · rw [h3] at hx; cases hx

example : exists? ⟨.x64, .linux, .gcc, false, false⟩ = true ∧
    configure (predefined ⟨.x64, .linux, .gcc, false, false⟩) = some ⟨.x64, 64, .linux, true, some 64, .gcc⟩ := by decide

/-- C117 fails: ARM processors of 64 bits under Linux, Android and Apple's systems are taken for x86-64, because `__LP64__` is asked
for first. -/
theorem C117_arch_fails (t : Target) (h : exists? t = true) (ha : t.arch = .arm64) (ho : t.os ≠ .windows) (hs : t.short = false)
    (c : Config) (hc : configure (predefined t) = some c) : c.arch = .x64 := by
  have := all_targets (fun t => !(exists? t && t.arch == .arm64 && t.os != .windows && !t.short) ||
    (configure (predefined t)).any fun c => c.arch == .x64) (by decide +kernel) t
  rw [h, hc, ha, hs] at this
  have ho' : (t.os != .windows) = true := by simpa using ho
  rw [ho'] at this
  simpa using this

/-- C117: the system is recognised unless it is Android. -/
theorem C117_os_partial (t : Target) (h : exists? t = true) (ho : t.os ≠ .android) (c : Config)
    (hc : configure (predefined t) = some c) : c.os = t.os := by
  have := all_targets (fun t => !(exists? t && t.os != .android) || (configure (predefined t)).any fun c => c.os == t.os)
    (by decide +kernel) t
  have ho' : (t.os != .android) = true := by simpa using ho
  rw [h, hc, ho'] at this
  simpa using this

/-- C117 fails for Android: its compilers define `__linux__`, which is asked for first, and `GetSystemName` returns "Linux". -/
theorem C117_os_fails (t : Target) (h : exists? t = true) (ho : t.os = .android) (c : Config)
    (hc : configure (predefined t) = some c) : c.os = .linux ∧ systemName c.os = b!"Linux" := by
  have := all_targets (fun t => !(exists? t && t.os == .android) || (configure (predefined t)).any fun c => c.os == .linux)
    (by decide +kernel) t
  rw [h, hc, ho] at this
  have hl : c.os = .linux := by simpa using this
  exact ⟨hl, by rw [hl]; rfl⟩

/-- C117: the compiler is recognised unless it is Intel's. -/
theorem C117_compiler_partial (t : Target) (h : exists? t = true) (ho : t.tool ≠ .icc) (c : Config)
    (hc : configure (predefined t) = some c) : c.compiler = named t.tool := by
  have := all_targets (fun t => !(exists? t && t.tool != .icc) || (configure (predefined t)).any fun c => c.compiler == named t.tool)
    (by decide +kernel) t
  have ho' : (t.tool != .icc) = true := by simpa using ho
  rw [h, hc, ho'] at this
  simpa using this

/-- C117 fails for Intel's compiler, which is taken for the one whose interface it has. -/
theorem C117_compiler_fails (t : Target) (h : exists? t = true) (ho : t.tool = .icc) (c : Config)
    (hc : configure (predefined t) = some c) : c.compiler = if t.os = .windows then .msvc else .gcc := by
  have := all_targets (fun t => !(exists? t && t.tool == .icc) ||
    (configure (predefined t)).any fun c => c.compiler == if t.os = .windows then .msvc else .gcc) (by decide +kernel) t
  rw [h, hc, ho] at this
  simpa using this

/-- C117: on every target but Android `GetSystemName` returns the name of the system, and but for Intel's compiler `GetCompilerInfo`
the name and version of the compiler. -/
theorem C117_info_partial (t : Target) (h : exists? t = true) (v : Versions) (c : Config) (hc : configure (predefined t) = some c) :
    (t.os ≠ .android → systemName c.os = shown t.os) ∧
    (t.tool ≠ .icc → compilerVersion v c.compiler = some (introduced v t.tool)) := by
  constructor
  · intro ho
    rw [C117_os_partial t h ho c hc]
    cases t.os <;> rfl
  · intro ht
    rw [C117_compiler_partial t h ht c hc]
    cases hx : t.tool <;> first | rfl | exact absurd hx ht

/-- C117: every macro that Config.h asks for counts: if it is the only one defined, it decides what it stands for. -/
theorem C117_each_macro (m : Macro) : arch (· == m) = archOf m ∧ os (· == m) = osOf m ∧ compiler (· == m) = compilerOf m := by
  cases m <;> decide

/-- C117: Apple's systems need two macros, MinGW one of two besides GCC's. -/
theorem C117_two_macros : os (fun m => m == .apple || m == .mach) = some .apple ∧
    compiler (fun m => m == .gnuc || m == .mingw32) = some .mingw ∧ compiler (fun m => m == .gnuc || m == .mingw64) = some .mingw := by
  decide

/-- C117: the standard is read from the macro that has it: Microsoft's compiler, and Intel's on Windows, keep `__cplusplus` at the
value of C++98 and give the standard in `_MSVC_LANG`, which the others need not have. -/
theorem C117_standard_macro (t : Target) (h : exists? t = true) (c : Config) (hc : configure (predefined t) = some c)
    (s : Standard) (other : Nat) :
    (if t.tool = .msvc ∨ (t.tool = .icc ∧ t.os = .windows) then standard c.compiler Standard.cxx98.value s.value
      else standard c.compiler s.value other) = s.value := by
  have hm := all_targets (fun t => !exists? t || (configure (predefined t)).any fun c =>
    (c.compiler == .msvc) == (t.tool == .msvc || (t.tool == .icc && t.os == .windows))) (by decide +kernel) t
  rw [h, hc] at hm
  simp only [Bool.not_true, Bool.false_or, Option.any_some, beq_iff_eq] at hm
  unfold standard
  by_cases hx : t.tool = .msvc ∨ (t.tool = .icc ∧ t.os = .windows)
  · rw [if_pos hx]
    have : (c.compiler == .msvc) = true := by rw [hm]; simpa using hx
    rw [if_pos (by simpa using this)]
  · rw [if_neg hx]
    have : (c.compiler == .msvc) = false := by
      rw [hm]
      rw [← Bool.not_eq_true]
      simpa using hx
    rw [if_neg (by simpa using this)]

/-- C117: every macro `__CAITLYN_HAS_CXX..` is 1 exactly if the program is translated by that standard or a later one. -/
theorem C117_standard (s : Standard) :
    has s.value = ⟨decide (1 ≤ s.index), decide (2 ≤ s.index), decide (3 ≤ s.index), decide (4 ≤ s.index), decide (5 ≤ s.index)⟩ := by
  cases s <;> decide

/-- C117: also for the values between, which compilers have for a standard to come: a macro is 1 exactly if the value is at least that
of the standard, except that 202300 and 202301 count as C++23 already. -/
theorem C117_between_partial (n : Nat) :
    ((has n).cxx11 = true ↔ Standard.cxx11.value ≤ n) ∧ ((has n).cxx14 = true ↔ Standard.cxx14.value ≤ n) ∧
    ((has n).cxx17 = true ↔ Standard.cxx17.value ≤ n) ∧ ((has n).cxx20 = true ↔ Standard.cxx20.value ≤ n) ∧
    ((has n).cxx23 = true ↔ Standard.cxx23.value ≤ n ∨ n = 202300 ∨ n = 202301) := by
  simp only [has, Standard.value, decide_eq_true_eq]
  exact ⟨trivial, trivial, trivial, trivial, by omega⟩

/-- C117: the macros are consistent for every value of `__cplusplus`: what a standard has, the earlier ones have. -/
theorem C117_monotone (n : Nat) :
    ((has n).cxx23 = true → (has n).cxx20 = true) ∧ ((has n).cxx20 = true → (has n).cxx17 = true) ∧
    ((has n).cxx17 = true → (has n).cxx14 = true) ∧ ((has n).cxx14 = true → (has n).cxx11 = true) := by
  simp only [has, decide_eq_true_eq]; omega

/-- C117: `GetCaitlynInfo` returns the version of the library. -/
theorem C117_version : version = (b!"1", b!"0", b!"0") ∧ caitlynInfo = b!"Caitlyn 1.0.0" := by decide

/-- C117 fails for the version of a later release: the last number is that of the minor version again. -/
theorem C117_version_fails (major minor patch : List UInt8) :
    versionText major minor patch = b!"Caitlyn " ++ major ++ b!"." ++ minor ++ b!"." ++ patch ↔ minor = patch := by
  unfold versionText
  exact ⟨List.append_cancel_left, fun h => by rw [h]⟩

example : versionText b!"1" b!"2" b!"3" = b!"Caitlyn 1.2.2" := by decide

/-! ## C118 -/

/-- C118: the integer types have the bits and the sign that their names say, on every target and for every standard. -/
theorem C118_widths (t : Target) (h : exists? t = true) (c : Config) (hc : configure (predefined t) = some c) (s : Has) (n : Name)
    (w : Nat) (sign : Bool) (hn : promised n = some (w, sign)) :
    bitsOf t (typeOf c s n) = some w ∧ hasSign (typeOf c s n) = some sign := by
  have hl := all_targets (fun t => !exists? t || (configure (predefined t)).any fun c => longIs64 c == lp64 t)
    (by decide +kernel) t
  rw [h, hc] at hl
  have hl : longIs64 c = lp64 t := by simpa using hl
  cases n <;> simp only [promised, reduceCtorEq] at hn <;>
    (injection hn with hn; injection hn with h1 h2; subst h1; subst h2; simp only [typeOf, hl]) <;>
    first
      | (cases lp64 t <;> exact ⟨rfl, rfl⟩)
      | (cases hp : lp64 t <;> simp [bitsOf, hasSign, hp])

/-- C118: what every name of Types.h stands for, on every target and for every standard. -/
theorem C118_types (t : Target) (h : exists? t = true) (c : Config) (hc : configure (predefined t) = some c) (s : Standard) (n : Name) :
    typeOf c (has s.value) n = meant (lp64 t) (decide (4 ≤ s.index)) n := by
  have hl := all_targets (fun t => !exists? t || (configure (predefined t)).any fun c => longIs64 c == lp64 t)
    (by decide +kernel) t
  rw [h, hc] at hl
  have hl : longIs64 c = lp64 t := by simpa using hl
  have h20 : (has s.value).cxx20 = decide (4 ≤ s.index) := by rw [C117_standard]
  cases n <;> simp only [typeOf, meant, hl, h20]

/-- C118: `SizeType`, `SSizeType` and `PtrDiff` have the bits of a pointer. -/
theorem C118_size (t : Target) (c : Config) (s : Has) : bitsOf t (typeOf c s .SizeType) = some (pointerBits t) ∧
    bitsOf t (typeOf c s .SSizeType) = some (pointerBits t) ∧ bitsOf t (typeOf c s .PtrDiff) = some (pointerBits t) :=
  ⟨rfl, rfl, rfl⟩

/-- C118: `IntPtr` and `UIntPtr` have the bits of a pointer exactly where pointers have 64 bits. -/
theorem C118_pointers_partial (t : Target) (h : exists? t = true) (c : Config) (hc : configure (predefined t) = some c) (s : Has) :
    (bitsOf t (typeOf c s .IntPtr) = some (pointerBits t) ↔ pointerBits t = 64) ∧
    (bitsOf t (typeOf c s .UIntPtr) = some (pointerBits t) ↔ pointerBits t = 64) := by
  have hl := all_targets (fun t => !exists? t || (configure (predefined t)).any fun c => longIs64 c == lp64 t)
    (by decide +kernel) t
  rw [h, hc] at hl
  have hl : longIs64 c = lp64 t := by simpa using hl
  simp only [typeOf, hl]
  cases hp : lp64 t <;> simp [bitsOf, hp, eq_comm]

/-- C118 fails where pointers have 32 bits: `IntPtr` has 64. -/
theorem C118_pointers_fails (s : Has) : ∃ c, configure (predefined ⟨.arm, .linux, .gcc, false, false⟩) = some c ∧
    bitsOf ⟨.arm, .linux, .gcc, false, false⟩ (typeOf c s .IntPtr) = some 64 ∧
    pointerBits ⟨.arm, .linux, .gcc, false, false⟩ = 32 := ⟨_, rfl, rfl, rfl⟩

/-- C118: `Int64` is `std::int64_t` except on Apple's systems. -/
theorem C118_same_partial (t : Target) (h : exists? t = true) (ho : t.os ≠ .apple) (c : Config)
    (hc : configure (predefined t) = some c) (s : Has) : typeOf c s .Int64 = stdInt64 t := by
  have hl := all_targets (fun t => !exists? t || (configure (predefined t)).any fun c => longIs64 c == lp64 t)
    (by decide +kernel) t
  rw [h, hc] at hl
  have hl : longIs64 c = lp64 t := by simpa using hl
  simp only [typeOf, hl, stdInt64]
  cases hp : lp64 t <;> simp [ho]

/-- C118 fails on Apple's systems of 64 bits: `Int64` is `long`, `std::int64_t` is `long long`, two types that overload differently. -/
theorem C118_same_fails (s : Has) : ∃ c, configure (predefined ⟨.arm64, .apple, .clang, false, false⟩) = some c ∧
    typeOf c s .Int64 = .long ∧ stdInt64 ⟨.arm64, .apple, .clang, false, false⟩ = .llong := ⟨_, rfl, rfl, rfl⟩

end Caitlyn
