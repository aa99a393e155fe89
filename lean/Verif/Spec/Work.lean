import Verif.Brass.Par

/-!
# What a call of `Code::read` does to the shared error record, access by access
-/

namespace Verif.Brass.Spec

open Verif

/-- One access to `ERRORS`: a read and the value found, or a write and the value written. -/
inductive Access where
  | read (v : Option DecodeError)
  | write (v : Option DecodeError)
deriving DecidableEq

/-- The accesses to `ERRORS` of a call that no other thread interrupts, in order; `e` is the value of `ERRORS` at the beginning. -/
def trace {α : Type} : Tree α → Option DecodeError → List Access
  | .done _, _ => []
  | .get k, e => .read e :: trace (k e) e
  | .set v t, _ => .write v :: trace t v

end Verif.Brass.Spec
