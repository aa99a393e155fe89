import Verif.Spec.Compiler
import Verif.Spec.Hash
import Verif.Brass.Reinit

/-!
# Vocabulary for repeated initialisation (C106)
-/

namespace Verif.Brass.Spec

open Verif Verif.Brass

/-- Global `i` can be handled. -/
def simpleAt (c : Code) (i : Nat) : Bool :=
  match c.globals[i]? with
  | some t => t.kind = .HVOID || t.kind = .HUI8
  | none => false

/-- The number of globals before the first one that cannot be handled. -/
def handled (c : Code) : Nat := ((List.range c.nglobals).takeWhile (simpleAt c)).length

/-- The data objects for the globals: one for each of kind `HUI8` that is reached. -/
def dataOf (c : Code) : List (String × Bool) := (byteGlobals c (handled c)).map fun i => (globalName i, true)

/-- The loads for the globals. -/
def loadsOf (c : Code) : List GlobalLoad := (byteGlobals c (handled c)).zipIdx.map fun x => ⟨x.2, wrapped x.1⟩

/-- The hash of the module, if it can be computed. -/
def hashOf (c : Code) : Option CodeHash :=
  match CodeHash.alloc c with
  | .ret h => some h
  | .panic => none

/-- The call gets as far as the globals. -/
def reaches (c : Code) : InitCall → Bool
  | .init true => (hashOf c).isSome
  | _ => true

/-- The call is for hot reload. -/
def isHot : InitCall → Bool
  | .init true => true
  | _ => false

end Verif.Brass.Spec
