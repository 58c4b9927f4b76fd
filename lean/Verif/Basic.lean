/-!
# Outcomes of C++ calls

Common vocabulary of the model: a C++ call either returns a value or ends with an `Err`.
-/

namespace Caitlyn

/-- How a modelled C++ call can end other than by returning.
The first group are the exception classes thrown (directly or through the standard
library) by the code in /repo.  `ub` stands for undefined behaviour (out-of-bounds access,
null or dangling pointer use, signed overflow).  `fuel` means that a loop was still
running after the number of iterations granted by the model; it is never a C++ outcome. -/
inductive Err where
  /-- `std::invalid_argument` -/
  | invalidArgument
  /-- `std::out_of_range` -/
  | outOfRange
  /-- `std::runtime_error` -/
  | runtimeError
  /-- `std::logic_error` -/
  | logicError
  /-- `String::Formatter::FormatError` (String.h:703) -/
  | formatError
  /-- `std::length_error` or `std::bad_alloc`: more elements than a container can hold -/
  | memory
  /-- undefined behaviour -/
  | ub
  /-- loop not finished within the given number of iterations -/
  | fuel
  deriving DecidableEq, Repr

/-- Result of a C++ call. -/
abbrev Res (α : Type u) := Except Err α

instance [DecidableEq α] : DecidableEq (Res α)
  | .ok a, .ok b => if h : a = b then .isTrue (by rw [h]) else .isFalse (by intro h'; injection h'; contradiction)
  | .error a, .error b => if h : a = b then .isTrue (by rw [h]) else .isFalse (by intro h'; injection h'; contradiction)
  | .ok _, .error _ => .isFalse (by intro h; injection h)
  | .error _, .ok _ => .isFalse (by intro h; injection h)

/-- `static_cast<size_t>(-1)` on a 64-bit platform (`String::NPosition`, String.h:559). -/
def npos : Nat := 18446744073709551615

/-- Number of values of `size_t` (64-bit platform). -/
def twoPow64 : Nat := 18446744073709551616

/-- `size_t` addition (wraps around). -/
def wadd (a b : Nat) : Nat := (a + b) % twoPow64

/-- `size_t` subtraction (wraps around). -/
def wsub (a b : Nat) : Nat := (a + (twoPow64 - b % twoPow64)) % twoPow64

/-- Access to `std::vector` element (`operator[]`): out of bounds is undefined behaviour. -/
def vecGet (v : List α) (i : Nat) : Res α :=
  match v[i]? with
  | some a => .ok a
  | none => .error .ub

end Caitlyn
