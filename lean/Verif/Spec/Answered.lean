import Verif.Spec.Elab
import Verif.Spec.Text

/-!
# The module that a file is read as

For C112.  The names in types are looked up through the cache of `get_ustring`, one after the other in the order of the file;
`answered` (`Spec/Text.lean`) says which strings these lookups return.
-/

namespace Verif.Brass.Spec

open Verif Verif.Brass

def RField.renamed (f : RField) (n : Nat) : RField := { f with name := n }

def RProto.renamed (f : RProto) (n : Nat) : RProto := { f with name := n }

def RConstruct.renamed (c : RConstruct) (n : Nat) : RConstruct := { c with name := n }

/-- The type with the names `ns` instead of its own (`RType.names`), in the order of the file. -/
def RType.renamed (t : RType) (ns : List Nat) : RType :=
  match t with
  | .obj s name super global fields protos bindings =>
      .obj s (ns.headD name) super global ((fields.zip (ns.drop 1)).map fun x => x.1.renamed x.2)
        ((protos.zip (ns.drop (1 + fields.length))).map fun x => x.1.renamed x.2) bindings
  | .virt fields => .virt ((fields.zip ns).map fun x => x.1.renamed x.2)
  | .abstract name => .abstract (ns.headD name)
  | .enum name global constructs => .enum (ns.headD name) global ((constructs.zip (ns.drop 1)).map fun x => x.1.renamed x.2)
  | t => t

/-- The types with the names `ns` instead of their own, in the order of the file. -/
def renameTypes : List RType → List Nat → List RType
  | [], _ => []
  | t :: ts, ns => t.renamed (ns.take t.names.length) :: renameTypes ts (ns.drop t.names.length)

/-- The module that differs from `m` in that each name in a type is the string that is found for it. -/
def RModule.asAnswered (m : RModule) : RModule :=
  { m with types := renameTypes m.types (answered m.strings.length (fun _ => none) (m.types.flatMap RType.names)) }

/-- Each name in a type is found: the string that the lookups return for it has the same text. -/
def RModule.NamesFound (m : RModule) : Prop :=
  (answered m.strings.length (fun _ => none) (m.types.flatMap RType.names)).map (fun i => m.strings[i]?) =
    (m.types.flatMap RType.names).map fun i => m.strings[i]?

/-- A module that brass reads correctly (C113): it is readable, and each name in a type is found. -/
structure RModule.Right (m : RModule) : Prop extends m.Readable where
  found : m.NamesFound

/-- The names in a decoded type, in the order of the file. -/
def namesIn (t : ValueType) : List Str :=
  match t.union with
  | .obj name _ fields _ _ _ protos _ _ _ => name :: (fields.map (·.name) ++ protos.map (·.name))
  | .virt _ fields => fields.map (·.name)
  | .enum name _ constructs _ => name :: constructs.map (·.name)
  | _ => t.absName.toList

end Verif.Brass.Spec
