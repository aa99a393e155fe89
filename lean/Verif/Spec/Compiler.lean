import Verif.Brass.Compiler

/-!
# Vocabulary of the property on globals (C56)
-/

namespace Verif.Brass.Spec

open Verif Verif.Brass

/-- The globals that `init` can handle. -/
def SimpleGlobals (c : Code) : Prop := ∀ i, i < c.nglobals → ∃ t, c.globals[i]? = some t ∧ (t.kind = .HVOID ∨ t.kind = .HUI8)

/-- The name of the data object of a global. -/
def globalName (i : Nat) : String := "$global" ++ toString i

/-- The globals of kind `HUI8`, among the first `n`. -/
def byteGlobals (c : Code) (n : Nat) : List Nat := (List.range n).filter fun i => decide (c.globals[i]?.map ValueType.kind = some TypeKind.HUI8)

end Verif.Brass.Spec
