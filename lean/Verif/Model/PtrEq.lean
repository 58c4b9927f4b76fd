import Verif.Model.Ptr

/-!
# Comparisons of pointers, `Get` and `lock` (UniquePointer.h, SharedPointer.h, WeakPointer.h, RawPointer.h)

The identities of objects stand for their addresses: two objects that are alive have different addresses. The address of a
deleted object may be used again, so comparisons with a pointer to one are not modelled.
-/

namespace Caitlyn

namespace Unique

/-- `x.Get()` (UniquePointer.h:91-94). -/
def get (p : Option Nat) : Option Nat := p

/-- `x == y` (UniquePointer.h:97-100). -/
def eq (p q : Option Nat) : Bool := decide (p = q)

/-- `x != y` (UniquePointer.h:102-105). -/
def ne (p q : Option Nat) : Bool := decide (p ≠ q)

/-- `x == nullptr` (UniquePointer.h:107-110). -/
def eqNull (p : Option Nat) : Bool := decide (p = none)

/-- `x != nullptr` (UniquePointer.h:112-115). -/
def neNull (p : Option Nat) : Bool := decide (p ≠ none)

end Unique

namespace Shared

/-- `x.Get()` (SharedPointer.h:115-118). -/
def get (p : Ptr) : Option Nat := p.data

/-- `x == y` (SharedPointer.h:121-124, WeakPointer.h:90-93). -/
def eq (p q : Ptr) : Bool := decide (p.data = q.data)

/-- `x != y` (SharedPointer.h:126-129, WeakPointer.h:95-98). -/
def ne (p q : Ptr) : Bool := decide (p.data ≠ q.data)

/-- `x == nullptr` (SharedPointer.h:131-134, WeakPointer.h:100-103). -/
def eqNull (p : Ptr) : Bool := decide (p.data = none)

/-- `x != nullptr` (SharedPointer.h:136-139, WeakPointer.h:105-108). -/
def neNull (p : Ptr) : Bool := decide (p.data ≠ none)

/-- `y.lock()` of a `WeakPtr` that holds `p` (WeakPointer.h:111-118): the counters and the `SharedPtr` returned. -/
def lock (cs : List (Option Nat)) (p : Ptr) : Res (List (Option Nat) × Ptr) :=
  if eqNull p || (get p).isNone then .ok (cs, {})
  else do
    let cs ← fetchAdd cs p.count
    return (cs, p)

end Shared

namespace Raw

/-- `x.Get()` (RawPointer.h:79-82). -/
def get (p : Option Nat) : Option Nat := p

/-- `x == y` (RawPointer.h:85-88). -/
def eq (p q : Option Nat) : Bool := decide (p = q)

/-- `x != y` (RawPointer.h:90-93). -/
def ne (p q : Option Nat) : Bool := decide (p ≠ q)

/-- `x == nullptr` (RawPointer.h:95-98). -/
def eqNull (p : Option Nat) : Bool := decide (p = none)

/-- `x != nullptr` (RawPointer.h:100-103). -/
def neNull (p : Option Nat) : Bool := decide (p ≠ none)

end Raw
end Caitlyn
