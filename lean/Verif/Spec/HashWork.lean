import Verif.Brass.HashWork
import Verif.Spec.CodeHash
import Verif.Spec.Size

/-!
# What `CodeHash::alloc` compares and copies

For C109.
-/

namespace Verif.Brass.Spec

open Verif.Brass

/-- The comparisons of types: the entry of the table, and the type that is searched for. -/
def comparisons (l : List HashStep) : List (ValueType × ValueType) := l.filterMap fun | .compare v t => some (v, t) | _ => none

/-- The copies of tables. -/
def tableClones (l : List HashStep) : List HashStep := l.filter fun | .compare _ _ => false | _ => true

/-- Objects, structs and enums, which have a global. -/
def hasGlobal (t : ValueType) : Bool := t.kind == .HOBJ || t.kind == .HSTRUCT || t.kind == .HENUM

/-- The types that are searched for: the components of each type; the abstract types of globals; the objects, structs and enums; the types of
all globals. -/
def searched (c : Code) : List ValueType :=
  (c.types.take c.ntypes).flatMap hashedRefs ++ (c.globals.take c.nglobals).filter (fun t => t.kind == .HABSTRACT) ++
  (c.types.take c.ntypes).filter hasGlobal ++ c.globals.take c.nglobals

/-- The comparisons of a search for a type that is found: with the entries in front of it, and with itself. -/
def search (types : List ValueType) (t : ValueType) : List (ValueType × ValueType) :=
  (types.takeWhile (fun v => decide (v ≠ t)) ++ [t]).map fun v => (v, t)

/-- The copies of tables for a module. -/
def clonesFor (c : Code) : List HashStep :=
  [.copyModule] ++ List.replicate c.nfunctions (.copyFunctions c.nfunctions) ++ List.replicate c.nnatives (.copyNatives c.nnatives) ++
  List.replicate c.ntypes (.copyTypes (2 * c.ntypes)) ++ List.replicate c.nglobals (.copyGlobals (2 * c.nglobals)) ++
  List.replicate c.ntypes (.copyTypes (2 * c.ntypes))

end Verif.Brass.Spec
