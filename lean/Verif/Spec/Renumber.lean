import Verif.Spec.Elab
import Verif.Spec.Alloc

/-!
# Modules with other numbers for their types

For C110.  `σ i` is the new number of type `i`.
-/

namespace Verif.Brass.Spec

def RField.renumber (σ : Nat → Nat) (f : RField) : RField := { f with type := σ f.type }

def RConstruct.renumber (σ : Nat → Nat) (k : RConstruct) : RConstruct := { k with params := k.params.map σ }

/-- The same type; the types it refers to have other numbers. -/
def RType.renumber (σ : Nat → Nat) : RType → RType
  | .prim k => .prim k
  | .func m args ret => .func m (args.map σ) (σ ret)
  | .obj s name super global fields protos bindings => .obj s name (super.map σ) global (fields.map (RField.renumber σ)) protos bindings
  | .ref t => .ref (σ t)
  | .virt fields => .virt (fields.map (RField.renumber σ))
  | .abstract name => .abstract name
  | .enum name global constructs => .enum name global (constructs.map (RConstruct.renumber σ))
  | .null t => .null (σ t)
  | .packed t => .packed (σ t)

/-- The only instruction with the number of a type is `OType`: its second operand. -/
def Instr.renumber (σ : Nat → Nat) : Instr → Instr
  | .plain .OType [dst, t] => .plain .OType [dst, (σ t.toNat : Nat)]
  | i => i

def RNative.renumber (σ : Nat → Nat) (n : RNative) : RNative := { n with type := σ n.type }

def RFunction.renumber (σ : Nat → Nat) (f : RFunction) : RFunction :=
  { f with type := σ f.type, regs := f.regs.map σ, ops := f.ops.map (Instr.renumber σ) }

/-- Types only refer to types in front of them. -/
def RModule.RefersBack (m : RModule) : Prop := ∀ (i : Nat) t, m.types[i]? = some t → ∀ j ∈ t.refs, j < i

/-- `m'` contains `m`: types may have been added anywhere, and strings, globals, natives and functions (or anything else) behind those of `m`. -/
structure Extends (σ : Nat → Nat) (m m' : RModule) : Prop where
  debug : m'.hasDebug = m.hasDebug
  strings : m.strings <+: m'.strings
  types : ∀ (i : Nat) t, m.types[i]? = some t → m'.types[σ i]? = some (t.renumber σ)
  globals : m.globals.map σ <+: m'.globals
  natives : m.natives.map (RNative.renumber σ) <+: m'.natives
  functions : m.functions.map (RFunction.renumber σ) <+: m'.functions

/-- `m'` is `m` with the types in another order (every number below `m.types.length` is the new number of a type). -/
structure Renumbered (σ : Nat → Nat) (m m' : RModule) : Prop where
  types : ∀ (i : Nat) t, m.types[i]? = some t → m'.types[σ i]? = some (t.renumber σ)
  ntypes : m'.types.length = m.types.length
  onto : ∀ j, j < m.types.length → ∃ i, i < m.types.length ∧ σ i = j
  rest : m' = { m with
    types := m'.types
    globals := m.globals.map σ
    natives := m.natives.map (RNative.renumber σ)
    functions := m.functions.map (RFunction.renumber σ) }

/-- The decoded instruction; the operand of `OType` is a number of a type. -/
def renumberOp (σ : Nat → Nat) (o : Opcode) : Opcode := if o.op = .OType then { o with p2 := o.p2.map fun t => ((σ t.toNat : Nat) : Int) } else o

/-- The decoded function. -/
def renumberFun (σ : Nat → Nat) (f : HLFunction) : HLFunction := { f with ops := f.ops.map (renumberOp σ) }

/-- The operands of `OType` are numbers of declared types (the reader does not check it). -/
def TypeOperands (c : Code) (f : HLFunction) : Prop := ∀ o ∈ f.ops, o.op = .OType → ∃ k : Nat, k < c.ntypes ∧ o.p2 = some (k : Int)

/-- Declared types that belong to the same global are equal. -/
def OneTypePerGlobal (c : Code) : Prop := ∀ (i j : Nat) t t' g, i < c.ntypes → j < c.ntypes → c.types[i]? = some t → c.types[j]? = some t' →
  globalOf t = some g → globalOf t' = some g → t = t'

end Verif.Brass.Spec
