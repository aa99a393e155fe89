import Verif.Brass.CodeHash
import Verif.Spec.Base

/-!
# Vocabulary of the properties on hashes (C46-C55)
-/

namespace Verif.Brass.Spec

open Verif Verif.Brass

/-- A 32-bit signed integer. -/
def IsI32 (v : Int) : Prop := -2 ^ 31 ≤ v ∧ v < 2 ^ 31

/-- Instructions whose second operand refers to a constant pool, a type or a function. -/
def secondRefers : List Op :=
  [.OInt, .OFloat, .OString, .OType, .OCall0, .OCall1, .OCall2, .OCall3, .OCall4, .OCallN, .OStaticClosure, .OInstanceClosure, .ODynSet]

/-- Instructions whose second operand refers to a function. -/
def secondCalls : List Op := [.OCall0, .OCall1, .OCall2, .OCall3, .OCall4, .OCallN, .OStaticClosure, .OInstanceClosure]

/-- Instructions with a variable number of operands, counted by the third one. -/
def thirdCounts : List Op := [.OCallN, .OCallClosure, .OCallMethod, .OCallThis, .OMakeEnum]

/-- The number of operands after the third one. -/
def extraOperands (o : Opcode) : Nat :=
  match o.op with
  | .OCall2 | .OEnumField => 1
  | .OCall3 => 2
  | .OCall4 => 3
  | .OCallN | .OCallClosure | .OCallMethod | .OCallThis | .OMakeEnum => (o.p3.getD 0).toNat
  | .OSwitch => (o.p2.getD 0).toNat
  | _ => 0

/-- The text at position `i` of the string pool, `i` being an operand (an `i32`). -/
def textAt (c : Code) (p : Option Int) : Option Str := p.bind fun i => if 0 ≤ i ∧ i < 2 ^ 31 then c.strings[i.toNat]? else none

/-- The integer constant an operand refers to. -/
def intAt (c : Code) (p : Option Int) : Option Int := p.bind fun i => if 0 ≤ i then c.ints[i.toNat]? else none

/-- The type an operand refers to. -/
def typeAt (c : Code) (p : Option Int) : Option ValueType := p.bind fun i => if 0 ≤ i then c.types[i.toNat]? else none

/-- The entry of a type in the table of type hashes: that of the first type equal to it. -/
def TypeEntry (s : CodeHash) (t : ValueType) (x : UInt32) : Prop :=
  ∃ i : Nat, s.code.types[i]? = some t ∧ (∀ j : Nat, j < i → s.code.types[j]? ≠ some t) ∧ s.typeHashes[i]? = some x

/-- Two types have the same entry in the tables of type hashes, or none of them has one. -/
def SameEntry (s s' : CodeHash) (t t' : ValueType) : Prop := ∀ x, TypeEntry s' t' x ↔ TypeEntry s t x

/-- The current hash of the function an operand refers to. -/
def calleeHashAt (s : CodeHash) (p : Option Int) : Option UInt32 :=
  p.bind fun i => if 0 ≤ i then (s.functionsIndexes[i.toNat]?).bind fun j =>
    if 0 ≤ j ∧ j < 2 ^ 31 then s.functionsHashes[j.toNat]? else none else none

/-- What an operand refers to is defined and the same in both modules. -/
def SameRef {α : Type} (a b : Option α) : Prop := ∃ x, a = some x ∧ b = some x

/-- The instruction `o` of a function of the module hashed by `s` and the instruction `o'` of a function of the module hashed
by `s'` do the same: the operands are equal, but references may be renumbered as long as what they refer to is the same. -/
def SameInstr (s s' : CodeHash) (o o' : Opcode) : Prop :=
  o'.op = o.op ∧ o'.p1 = o.p1 ∧
  match o.op with
  | .OInt => SameRef (intAt s.code o.p2) (intAt s'.code o'.p2)
  | .OString => SameRef (textAt s.code o.p2) (textAt s'.code o'.p2)
  | .OType => ∃ t t', typeAt s.code o.p2 = some t ∧ typeAt s'.code o'.p2 = some t' ∧ SameEntry s s' t t'
  | .ODynGet => o'.p2 = o.p2 ∧ SameRef (textAt s.code o.p3) (textAt s'.code o'.p3)
  | .ODynSet => o'.p3 = o.p3 ∧ SameRef (textAt s.code o.p2) (textAt s'.code o'.p2)
  | .OCall0 | .OCall1 | .OCall2 | .OCall3 | .OCall4 | .OCallN | .OStaticClosure | .OInstanceClosure =>
    o'.p3 = o.p3 ∧ o'.extra = o.extra ∧ SameRef (calleeHashAt s o.p2) (calleeHashAt s' o'.p2)
  | .OFloat => o'.p2 = o.p2 ∧ s'.code.floats = s.code.floats
  | _ => o'.p2 = o.p2 ∧ o'.p3 = o.p3 ∧ o'.extra = o.extra

/-- Two functions with the same registers and the same instructions, up to renumbering. -/
structure SameFun (s s' : CodeHash) (f f' : HLFunction) : Prop where
  nregs : f'.nregs = f.nregs
  nops : f'.nops = f.nops
  regs : ∀ i, i < f.nregs → ∃ t t', f.regs[i]? = some t ∧ f'.regs[i]? = some t' ∧ SameEntry s s' t t'
  ops : ∀ i, i < f.nops → ∃ o o', f.ops[i]? = some o ∧ f'.ops[i]? = some o' ∧ SameInstr s s' o o'

/-! ## Types -/

/-- Kinds of types with components; the other kinds are primitive. -/
def composite : List TypeKind :=
  [.HFUN, .HMETHOD, .HOBJ, .HSTRUCT, .HREF, .HNULL, .HVIRTUAL, .HENUM, .HABSTRACT, .HPACKED]

/-- The contents of a type are those of its kind, and the counts are the lengths of the lists. -/
def WellFormed (t : ValueType) : Prop :=
  match t.kind with
  | .HFUN | .HMETHOD => ∃ args ret, t.union = .func args args.length ret ∧ t.absName = none ∧ t.tparam = none
  | .HOBJ | .HSTRUCT => ∃ name sup fields proto bindings, ∃ nb g : Nat,
      t.union = .obj name sup fields fields.length proto.length nb proto bindings [(g : Int)] none ∧ bindings.length = 2 * nb ∧
      g < 2 ^ 31 ∧ t.absName = none ∧ t.tparam = none
  | .HREF | .HNULL | .HPACKED => ∃ p, t.tparam = some p ∧ t.union = .null ∧ t.absName = none
  | .HVIRTUAL => ∃ fields, t.union = .virt fields.length fields ∧ t.absName = none ∧ t.tparam = none
  | .HENUM => ∃ name constructs, ∃ g : Nat, t.union = .enum name constructs.length constructs [(g : Int)] ∧
      (∀ c ∈ constructs, c.nparams = c.params.length) ∧ g < 2 ^ 31 ∧ t.absName = none ∧ t.tparam = none
  | .HABSTRACT => ∃ n, t.absName = some n ∧ t.union = .null ∧ t.tparam = none
  | _ => t.union = .null ∧ t.absName = none ∧ t.tparam = none

/-- An operand that fits in 32 bits. -/
def IsOperand (p : Option Int) : Prop := ∃ x, p = some x ∧ IsI32 x

/-- A decoded instruction has the operands of its opcode (`hlShape`): up to three in `p1`, `p2`, `p3`, the others in `extra`
(followed by as many zeros, see C39). -/
def WellFormedOp (o : Opcode) : Prop :=
  (∀ x ∈ o.extra, IsI32 x) ∧
  match hlShape o.op with
  | .args 0 => o.p1 = none ∧ o.p2 = none ∧ o.p3 = none ∧ o.extra = []
  | .args 1 => IsOperand o.p1 ∧ o.p2 = none ∧ o.p3 = none ∧ o.extra = []
  | .args 2 => IsOperand o.p1 ∧ IsOperand o.p2 ∧ o.p3 = none ∧ o.extra = []
  | .args 3 => IsOperand o.p1 ∧ IsOperand o.p2 ∧ IsOperand o.p3 ∧ o.extra = []
  | .args 4 => IsOperand o.p1 ∧ IsOperand o.p2 ∧ IsOperand o.p3 ∧ o.extra.length = 1
  | .args n => IsOperand o.p1 ∧ IsOperand o.p2 ∧ IsOperand o.p3 ∧ o.extra.length = 2 * (n - 3)
  | .call => IsOperand o.p1 ∧ IsOperand o.p2 ∧ ∃ k : Nat, k < 256 ∧ o.p3 = some (k : Int) ∧ o.extra.length = 2 * k
  | .switch => IsOperand o.p1 ∧ (∃ k : Nat, k < 2 ^ 31 ∧ o.p2 = some (k : Int) ∧ o.extra.length = 2 * k) ∧ IsOperand o.p3

/-- A decoded function: counts are lengths, instructions are well formed, there are two debug words per instruction if the
module has debug information, and the owner is not known. -/
structure WellFormedFun (hasdebug : Nat) (f : HLFunction) : Prop where
  regs : f.regs.length = f.nregs
  ops : f.ops.length = f.nops
  shape : ∀ o ∈ f.ops, WellFormedOp o
  debug : f.debug.length = if hasdebug = 0 then 0 else 2 * f.nops
  rf : f.rf = 0
  obj : f.obj = none
  field : f.field = none
  findex : f.findex < 2 ^ 31

/-- Types that agree in what one level of hashing looks at: kind, names, counts; components are related by `R`.
Super type, methods, bindings, global and run-time data are free. -/
inductive Alike (R : ValueType → ValueType → Prop) : ValueType → ValueType → Prop where
  | func (k : TypeKind) (hk : k = .HFUN ∨ k = .HMETHOD) (args args' : List ValueType) (nargs : Nat) (ret ret' : ValueType)
      (a a' : Option Str) (p p' : Option ValueType)
      (hargs : ∀ i, i < nargs → Option.Rel R args[i]? args'[i]?) (hret : R ret ret') :
      Alike R ⟨.func args nargs ret, a, p, k⟩ ⟨.func args' nargs ret', a', p', k⟩
  | obj (k : TypeKind) (hk : k = .HOBJ ∨ k = .HSTRUCT) (name : Str) (sup sup' : ValueType) (fields fields' : List ObjField)
      (nfields nproto nb nb' : Nat) (proto proto' : List ObjProto) (b b' : List Nat) (g g' : List Int) (rt rt' : Option Unit)
      (a a' : Option Str) (p p' : Option ValueType)
      (hfields : ∀ i, i < nfields → Option.Rel (fun x y => x.hashedName = y.hashedName ∧ R x.t y.t) fields[i]? fields'[i]?) :
      Alike R ⟨.obj name sup fields nfields nproto nb proto b g rt, a, p, k⟩ ⟨.obj name sup' fields' nfields nproto nb' proto' b' g' rt', a', p', k⟩
  | ref (k : TypeKind) (hk : k = .HREF ∨ k = .HNULL) (u u' : ValueTypeU) (a a' : Option Str) (p p' : Option ValueType)
      (hp : Option.Rel R p p') : Alike R ⟨u, a, p, k⟩ ⟨u', a', p', k⟩
  | virt (nfields : Nat) (fields fields' : List ObjField) (a a' : Option Str) (p p' : Option ValueType)
      (hfields : ∀ i, i < nfields → Option.Rel (fun x y => x.hashedName = y.hashedName ∧ R x.t y.t) fields[i]? fields'[i]?) :
      Alike R ⟨.virt nfields fields, a, p, .HVIRTUAL⟩ ⟨.virt nfields fields', a', p', .HVIRTUAL⟩
  | enum (name : Str) (n : Nat) (cs cs' : List EnumConstruct) (g g' : List Int) (a a' : Option Str) (p p' : Option ValueType)
      (hcs : ∀ i, i < n → Option.Rel (fun x y => x.name = y.name ∧ x.nparams = y.nparams ∧
        ∀ j, j < x.nparams → Option.Rel R x.params[j]? y.params[j]?) cs[i]? cs'[i]?) :
      Alike R ⟨.enum name n cs g, a, p, .HENUM⟩ ⟨.enum name n cs' g', a', p', .HENUM⟩
  | abs (n : Option Str) (u u' : ValueTypeU) (p p' : Option ValueType) : Alike R ⟨u, n, p, .HABSTRACT⟩ ⟨u', n, p', .HABSTRACT⟩
  | prim (k : TypeKind) (hk : k ∉ composite) (u u' : ValueTypeU) (a a' : Option Str) (p p' : Option ValueType) :
      Alike R ⟨u, a, p, k⟩ ⟨u', a', p', k⟩

end Verif.Brass.Spec
