import Verif.Model.Application

/-!
# `Application::Initialise` and `Initialize` in several threads and during static initialisation (__Caitlyn/Application.h)

Every thread makes one call. Its steps are the check of `initialized_` (Application.h:36, 47), one step for each argument copied
and added to `args_` (92-97), and the assignment to `initialized_` (41, 53). The steps of the threads are interleaved in any order;
that is the best case, because neither `initialized_` nor `args_` is atomic or protected. Adding an element is taken to be one
step. Not modelled: allocation failure (Verif/Model/AppMem.lean) and threads that synchronise outside the library.
-/

namespace Caitlyn.AppThreads

/-- Where a thread is in its call; the argument is what is still to be copied. -/
inductive Pc where
  /-- before the check -/
  | start (argv : List (List UInt8))
  /-- after the check -/
  | copying (argv : List (List UInt8))
  /-- the call has returned `application_` -/
  | returned
  /-- the call has thrown `std::runtime_error` -/
  | threw
  deriving DecidableEq

/-- What a step does to the shared variables. -/
inductive Event where
  /-- thread `t` reads `initialized_` -/
  | check (t : Nat)
  /-- thread `t` adds an argument to `args_` -/
  | push (t : Nat) (arg : List UInt8)
  /-- thread `t` writes `initialized_` -/
  | mark (t : Nat)
  deriving DecidableEq

/-- The static object, the threads, and what has happened, oldest first. `args` says for each argument which thread added it. -/
structure State where
  initialized : Bool
  args : List (Nat × List UInt8)
  pc : Nat → Pc
  trace : List Event

/-- Another place for thread `t`. -/
def move (pc : Nat → Pc) (t : Nat) (p : Pc) : Nat → Pc := fun u => if u = t then p else pc u

/-- Thread `t` makes a step of `Initialize` (Application.h:45-56, 87-99); `Initialise` (34-43) is the same without arguments. -/
def tick (s : State) (t : Nat) : State :=
  match s.pc t with
  | .start argv =>
    { s with pc := move s.pc t (if s.initialized then .threw else .copying argv), trace := s.trace ++ [.check t] }
  | .copying (a :: argv) =>
    { s with pc := move s.pc t (.copying argv), args := s.args ++ [(t, a)], trace := s.trace ++ [.push t a] }
  | .copying [] => { s with pc := move s.pc t .returned, initialized := true, trace := s.trace ++ [.mark t] }
  | _ => s

/-- The threads run as the schedule says. -/
def run : State → List Nat → State
  | s, [] => s
  | s, t :: ts => run (tick s t) ts

/-- Thread `t` is going to call with the arguments `argv t`. -/
def begin (argv : Nat → List (List UInt8)) : State := ⟨false, [], fun t => .start (argv t), []⟩

/-- The static object before and after `application_ = new Application()` (Application.h:129): that is a dynamic initialisation,
until which `application_` is null; `initialized_ = false` (130) is a constant one. -/
structure Static where
  constructed : Bool := false
  app : App.State := {}
  deriving DecidableEq

/-- What happens in a program, also before `main`. -/
inductive Action where
  /-- the initialisation of `application_` -/
  | construct
  | call (c : App.Call)

/-- The result of a call: whether the pointer returned is not null. -/
def act (s : Static) : Action → Option (Res Bool) × Static
  | .construct => (none, { s with constructed := true })
  | .call c =>
    if s.constructed then
      match App.call s.app c with
      | (.ok _, app) => (some (.ok true), { s with app := app })
      | (.error e, app) => (some (.error e), { s with app := app })
    else if s.app.initialized then (some (.error .runtimeError), s)
    else
      match c with
      | .initialise => (some (.ok false), { s with app := { s.app with initialized := true } })
      | .initialize _ _ => (some (.error .ub), s)

/-- The results of the calls. -/
def acts : Static → List Action → List (Res Bool) × Static
  | s, [] => ([], s)
  | s, a :: as =>
    let (r, s) := act s a
    let (rs, s) := acts s as
    (r.toList ++ rs, s)

end Caitlyn.AppThreads
