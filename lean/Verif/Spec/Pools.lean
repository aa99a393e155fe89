import Verif.Spec.Elab
import Verif.Spec.Alloc

/-!
# Modules with other numbers for their strings and integers

For C111.  `π.str i` is the new number of string `i`, `π.int i` that of integer constant `i`.
-/

namespace Verif.Brass.Spec

/-- New numbers for strings and integer constants. -/
structure Pools where
  str : Nat → Nat
  int : Nat → Nat

variable (π : Pools)

def RField.repool (f : RField) : RField := { f with name := π.str f.name }
def RProto.repool (f : RProto) : RProto := { f with name := π.str f.name }
def RConstruct.repool (k : RConstruct) : RConstruct := { k with name := π.str k.name }

/-- The same type; the strings that are its names have other numbers. -/
def RType.repool : RType → RType
  | .prim k => .prim k
  | .func m args ret => .func m args ret
  | .obj s name super global fields protos bindings =>
    .obj s (π.str name) super global (fields.map (RField.repool π)) (protos.map (RProto.repool π)) bindings
  | .ref t => .ref t
  | .virt fields => .virt (fields.map (RField.repool π))
  | .abstract name => .abstract (π.str name)
  | .enum name global constructs => .enum (π.str name) global (constructs.map (RConstruct.repool π))
  | .null t => .null t
  | .packed t => .packed t

/-- Instructions with the number of an integer (`OInt`) or of a string (`OString`, and the field names of `ODynGet` and `ODynSet`).
(`OBytes` refers to the table of bytes.) -/
def Instr.repool : Instr → Instr
  | .plain .OInt [dst, i] => .plain .OInt [dst, (π.int i.toNat : Nat)]
  | .plain .OString [dst, i] => .plain .OString [dst, (π.str i.toNat : Nat)]
  | .plain .ODynGet [dst, obj, i] => .plain .ODynGet [dst, obj, (π.str i.toNat : Nat)]
  | .plain .ODynSet [obj, i, src] => .plain .ODynSet [obj, (π.str i.toNat : Nat), src]
  | i => i

def RNative.repool (n : RNative) : RNative := { n with lib := π.str n.lib, name := π.str n.name }

/-- Assignments start with the name of a variable. -/
def RFunction.repool (f : RFunction) : RFunction :=
  { f with ops := f.ops.map (Instr.repool π), assigns := f.assigns.map fun a => (π.str a.1, a.2) }

/-- A value of a field of type `t` of a constant object: the number of an integer, of a string, or something else. -/
def poolNumber (t : ValueType) (x : Nat) : Nat :=
  match t.kind with
  | .HI32 => π.int x
  | .HBYTES => π.str x
  | _ => x

/-- The fields of a constant of type `g`. -/
def poolNumbers (g : Option ValueType) (xs : List Nat) : List Nat :=
  match g.bind objectFields with
  | some ts => xs.mapIdx fun k x => match ts[k]? with
    | some t => poolNumber π t x
    | none => x
  | none => xs

/-- A constant of module `m`. -/
def RConstant.repool (m : RModule) (k : RConstant) : RConstant :=
  { k with fields := poolNumbers π (m.globals[k.global]?.map (tref m.typeTable)) k.fields }

/-- `m'` is `m` with the strings and integers in another order, and possibly more of them. -/
structure Repooled (m m' : RModule) : Prop where
  strings : ∀ (i : Nat) s, m.strings[i]? = some s → m'.strings[π.str i]? = some s
  ints : ∀ (i : Nat) v, m.ints[i]? = some v → m'.ints[π.int i]? = some v
  rest : m' = { m with
    strings := m'.strings
    ints := m'.ints
    types := m.types.map (RType.repool π)
    natives := m.natives.map (RNative.repool π)
    functions := m.functions.map (RFunction.repool π)
    constants := m.constants.map (RConstant.repool π m) }

/-- An operand that is a number. -/
def operand (f : Nat → Nat) (p : Option Int) : Option Int := p.map fun i => ((f i.toNat : Nat) : Int)

/-- The decoded instruction. -/
def repoolOp (o : Opcode) : Opcode :=
  match o.op with
  | .OInt => { o with p2 := operand π.int o.p2 }
  | .OString => { o with p2 := operand π.str o.p2 }
  | .ODynGet => { o with p3 := operand π.str o.p3 }
  | .ODynSet => { o with p2 := operand π.str o.p2 }
  | _ => o

/-- The decoded function. -/
def repoolFun (f : HLFunction) : HLFunction := { f with ops := f.ops.map (repoolOp π) }

/-- The decoded constant. -/
def repoolConstant (c : Code) (k : Constant) : Constant := { k with fields := poolNumbers π c.globals[k.global]? k.fields }

end Verif.Brass.Spec
