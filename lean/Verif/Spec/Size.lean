import Verif.Spec.Text

/-!
# The size of decoded modules

`ValueType` owns the types it refers to (`Box`, `Vec`), so a type that is referred to twice is stored twice.
-/

namespace Verif.Brass.Spec

open Verif.Brass

mutual
/-- Number of `ValueType` values that make up a type: itself and, for each reference, the type referred to. -/
def nodes : ValueType → Nat
  | ⟨u, _, t, _⟩ => 1 + nodesU u + nodesOpt t
/-- … in the union of a type. -/
def nodesU : ValueTypeU → Nat
  | .func args _ ret => nodesList args + nodes ret
  | .obj _ sup fields _ _ _ _ _ _ _ => nodes sup + nodesFields fields
  | .virt _ fields => nodesFields fields
  | .enum _ _ constructs _ => nodesConstructs constructs
  | .ref t => nodes t
  | .abstract _ => 0
  | .null => 0
  | .void => 0
/-- … in an optional type. -/
def nodesOpt : Option ValueType → Nat
  | none => 0
  | some t => nodes t
/-- … in a list of types. -/
def nodesList : List ValueType → Nat
  | [] => 0
  | t :: l => nodes t + nodesList l
/-- … in a list of fields. -/
def nodesFields : List ObjField → Nat
  | [] => 0
  | ⟨_, _, t⟩ :: l => nodes t + nodesFields l
/-- … in a list of constructs. -/
def nodesConstructs : List EnumConstruct → Nat
  | [] => 0
  | ⟨_, _, ts, _, _, _⟩ :: l => nodesList ts + nodesConstructs l
end

/-- A list of types, each of which refers to the next one. -/
def IsNest : List ValueType → Prop
  | [] => True
  | [_] => True
  | t :: r :: l => r ∈ t.refs ∧ IsNest (r :: l)

/-- Number of entries of a function: registers, instructions, further operands, debug words. -/
def functionEntries (f : HLFunction) : Nat :=
  f.regs.length + f.ops.length + (f.ops.map fun o => o.extra.length).sum + f.debug.length

/-- Number of entries of all tables of a module, without the cache of strings. -/
def entries (c : Code) : Nat :=
  c.types.length + c.ints.length + c.floats.length + c.strings.length + c.bytes.length + c.bytesPos.length +
  c.debugfiles.length + c.globals.length + c.natives.length + c.functions.length + (c.functions.map functionEntries).sum +
  c.constants.length + (c.constants.map fun k => k.fields.length).sum

/-- A file with one type (`HVOID`), that declares `n` strings (`k` are the bytes of `n`) in an empty blob. -/
def emptyStrings (k : List UInt8) : List UInt8 := [0x48, 0x4C, 0x42, 2, 0, 0, 0] ++ k ++ [1, 0, 0, 0, 0, 0, 0, 0, 0, 0, 0]

end Verif.Brass.Spec
