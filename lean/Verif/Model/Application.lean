import Verif.Basic

/-!
# Model of `Application` (__Caitlyn/Application.h)

The state is that of the single static object. Not modelled: the information texts and allocation failure.
-/

namespace Caitlyn.App

/-- `initialized_` and `args_` (Application.h:118-126), which `GetArgs` returns (Application.h:58-61); the arguments are given by their bytes. -/
structure State where
  initialized : Bool := false
  args : List (List UInt8) := []
  deriving DecidableEq

/-- The copy of one argument (Application.h:94-96): `strlen` and `strcpy` read up to the NUL byte; `mem` is
the readable memory at the pointer. -/
def copyArg (mem : List UInt8) : Res (List UInt8) :=
  if (0 : UInt8) ∈ mem then .ok (mem.takeWhile (· != 0)) else .error .ub

/-- The loop of `SetArgs` (Application.h:92-98) for `n` arguments. -/
def copyArgs : Nat → List (List UInt8) → Res (List (List UInt8))
  | 0, _ => .ok []
  | _ + 1, [] => .error .ub
  | n + 1, mem :: argv => do
    let a ← copyArg mem
    let as ← copyArgs n argv
    return a :: as

/-- `SetArgs` (Application.h:87-100). -/
def setArgs (argc : Int) (argv : List (List UInt8)) (st : State) : Res State :=
  if argc > 0 then do
    let as ← copyArgs argc.toNat argv
    return { st with args := st.args ++ as }
  else .ok st

/-- A call: `Initialise()` (Application.h:34-43) or `Initialize(argc, argv)` (45-56). -/
inductive Call where
  | initialise
  | initialize (argc : Int) (argv : List (List UInt8))

/-- The outcome of a call and the state after it (unchanged by an exception thrown before any update). -/
def call (st : State) : Call → Res Unit × State
  | .initialise =>
    if st.initialized then (.error .runtimeError, st) else (.ok (), { st with initialized := true })
  | .initialize argc argv =>
    if st.initialized then (.error .runtimeError, st)
    else
      match setArgs argc argv st with
      | .error e => (.error e, st)
      | .ok st => (.ok (), { st with initialized := true })

/-- The outcomes of a sequence of calls and the final state. -/
def run : State → List Call → List (Res Unit) × State
  | st, [] => ([], st)
  | st, c :: cs =>
    let (r, st) := call st c
    let (rs, st) := run st cs
    (r :: rs, st)

end Caitlyn.App
