import Verif.Model.Registry

/-!
# Model of the macros `TEST` and `TEST_F` (__Testing/Macro/Test.h, __Testing/Macro/TestFixture.h)

A program is a list of translation units, a translation unit a list of tests. Bodies are numbers. Not modelled: other
declarations of the program, and C++ allowing a class and a function of the same name in one scope (the model forbids it).
-/

namespace Caitlyn.TestDecl

/-- A use of one of the macros, followed by a body: `TEST(suite, case) { body }` or `TEST_F(fixture, case) { body }`. -/
inductive Decl where
  | test (suite case : Str) (body : Nat)
  | testF (fixture case : Str) (body : Nat)
  deriving DecidableEq

/-- The first macro argument: `TestSuiteName` (Test.h:23), `Fixture` (TestFixture.h:23). -/
def Decl.suite : Decl → Str
  | .test s _ _ => s
  | .testF f _ _ => f

/-- The second macro argument. -/
def Decl.case : Decl → Str
  | .test _ c _ => c
  | .testF _ c _ => c

/-- The body that follows the macro. -/
def Decl.body : Decl → Nat
  | .test _ _ b => b
  | .testF _ _ b => b

/-- `a##_##b`. -/
def paste (a b : Str) : Str := a ++ c!"_" ++ b

/-- The names that a use of the macro declares in its translation unit, at global scope or in the unnamed namespace: the
function, the registrar class and its instance (Test.h:24-36); the class derived from the fixture, the registrar class and its
instance (TestFixture.h:24-39). -/
def Decl.names : Decl → List Str
  | .test s c _ => [paste s c, paste (paste s c) c!"Registrar", paste (paste (paste s c) c!"Registrar") c!"Instance"]
  | .testF _ c _ => [paste c c!"Fixture", paste c c!"Registrar", paste (paste c c!"Registrar") c!"Instance"]

/-- The function with external linkage that a use of the macro defines: `S_C` (Test.h:37) or `C_Fixture::Run`
(TestFixture.h:40). -/
inductive Symbol where
  | function (name : Str)
  | run (cls : Str)
  deriving DecidableEq

/-- The symbol whose definition the macro ends with. -/
def Decl.symbol : Decl → Symbol
  | .test s c _ => .function (paste s c)
  | .testF _ c _ => .run (paste c c!"Fixture")

/-- The program can be built: no name declared twice in a translation unit, no symbol defined twice in the program. -/
def Builds (p : List (List Decl)) : Prop :=
  (∀ tu ∈ p, (tu.flatMap Decl.names).Nodup) ∧ (p.flatten.map Decl.symbol).Nodup

/-- The body that the linker finds for a symbol. -/
def resolve (p : List (List Decl)) (s : Symbol) : Option Nat := (p.flatten.find? fun d => d.symbol = s).map Decl.body

/-- The constructor of a registrar (Test.h:29-33, TestFixture.h:31-35): the names are stringised, `AddTest` takes `String`s. -/
def register (p : List (List Decl)) (d : Decl) (st : Registry.State) : Res Registry.State := do
  let suite ← Str.ofStdString (Str.str d.suite)
  let name ← Str.ofStdString (Str.str d.case)
  match resolve p d.symbol with
  | some body => .ok (Registry.addTest suite name body st)
  | none => .error .ub

/-- The dynamic initialisation: the registrars in some order. -/
def initialise (p : List (List Decl)) (order : List Decl) : Res Registry.State := order.foldlM (fun st d => register p d st) {}

/-- The orders of the dynamic initialisation of global variables: in order of definition inside a translation unit,
indeterminate otherwise. -/
inductive InitOrder : List (List Decl) → List Decl → Prop where
  | done (p) : (∀ tu ∈ p, tu = []) → InitOrder p []
  | step (before d tu after order) : InitOrder (before ++ tu :: after) order →
      InitOrder (before ++ (d :: tu) :: after) (d :: order)

/-- A fixture over a state `γ` of the program: the constructor, the destructor (which does not throw). -/
structure Fixture (γ σ : Type) where
  construct : γ → Except Registry.Outcome σ × γ
  destroy : σ → γ → γ

/-- The function registered by `TEST_F`: `TestCaseName##_Fixture().Run()` (TestFixture.h:34). The temporary is destroyed after the
call, also if it throws; if the constructor throws there is neither a call nor a destructor. -/
def runFixture {γ σ : Type} (f : Fixture γ σ) (body : σ → γ → Registry.Outcome × σ × γ) (g : γ) : Registry.Outcome × γ :=
  match f.construct g with
  | (.error o, g) => (o, g)
  | (.ok x, g) => let (o, x, g) := body x g; (o, f.destroy x g)

end Caitlyn.TestDecl
