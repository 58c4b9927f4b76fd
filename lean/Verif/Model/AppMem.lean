import Verif.Model.Application

/-!
# Model of `Application::Initialize` when memory may run out (__Caitlyn/Application.h)

As in `Verif/Model/JsonMem.lean`, the steps that may allocate are numbered in the order in which they are tried, and `fails i`
says that step `i` throws `std::bad_alloc`. Adding an element is such a step only if the vector has no reserved place for it.
The arguments are given by their bytes before the NUL.
-/

namespace Caitlyn.AppMem

/-- The single object (Application.h:118-125): additionally the places reserved in `args_`, the steps tried so far and the number
of `char` arrays in memory that were made for arguments. -/
structure State where
  initialized : Bool := false
  args : List (List UInt8) := []
  reserved : Nat := 0
  tries : Nat := 0
  blocks : Nat := 0
  deriving DecidableEq

/-- `args_.emplace_back(arg_copy)` (Application.h:96). -/
def emplace (fails : Nat → Bool) (a : List UInt8) (st : State) : Bool × State :=
  if st.args.length < st.reserved then (true, { st with args := st.args ++ [a] })
  else if fails st.tries then (false, { st with tries := st.tries + 1 })
  else (true, { st with args := st.args ++ [a], tries := st.tries + 1 })

/-- The loop of `SetArgs` (Application.h:92-97). -/
def copies (fails : Nat → Bool) : List (List UInt8) → State → Bool × State
  | [], st => (true, st)
  | a :: as, st =>
    if fails st.tries then (false, { st with tries := st.tries + 1 })
    else
      match emplace fails a { st with tries := st.tries + 1, blocks := st.blocks + 1 } with
      | (false, st) => (false, st)
      | (true, st) => copies fails as st

/-- `SetArgs` (Application.h:87-99): `args_.reserve(argc)`, then the loop. -/
def setArgs (fails : Nat → Bool) (argv : List (List UInt8)) (st : State) : Bool × State :=
  if argv = [] then (true, st)
  else if fails st.tries then (false, { st with tries := st.tries + 1 })
  else copies fails argv { st with tries := st.tries + 1, reserved := max st.reserved argv.length }

/-- `Initialize(argc, argv)` (Application.h:45-56). -/
def start (fails : Nat → Bool) (argv : List (List UInt8)) (st : State) : Res Unit × State :=
  if st.initialized then (.error .runtimeError, st)
  else
    match setArgs fails argv st with
    | (false, st) => (.error .memory, st)
    | (true, st) => (.ok (), { st with initialized := true })

/-- A program that calls `Initialize` again and again. -/
def run (fails : Nat → Bool) : List (List (List UInt8)) → State → List (Res Unit) × State
  | [], st => ([], st)
  | c :: cs, st =>
    let (r, st) := start fails c st
    let (rs, st) := run fails cs st
    (r :: rs, st)

/-- The `char` arrays that `~Application` releases (Application.h:101-107), which is never called. -/
def destroyed (st : State) : Nat := st.args.length

end Caitlyn.AppMem
