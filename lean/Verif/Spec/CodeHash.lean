import Verif.Spec.Hash

/-!
# Vocabulary of the properties on `CodeHash` (C50-C53, C55, C59)
-/

namespace Verif.Brass.Spec

open Verif Verif.Brass

/-- The call does not panic. -/
def Returns {α : Type} (x : Rust α) : Prop := ∃ a, x = .ret a

/-- The components of a type that the recursive type hash reads: arguments and result of a function, fields of an object,
the parameter of a reference, the parameters of the constructs of an enum (but not the fields of a virtual type, the super type
or the parameter of a packed type). -/
def hashedRefs (t : ValueType) : List ValueType :=
  match t.kind, t.union with
  | .HFUN, .func args _ ret => args ++ [ret]
  | .HMETHOD, .func args _ ret => args ++ [ret]
  | .HOBJ, .obj _ _ fields _ _ _ _ _ _ _ => fields.map ObjField.t
  | .HSTRUCT, .obj _ _ fields _ _ _ _ _ _ _ => fields.map ObjField.t
  | .HENUM, .enum _ _ constructs _ => constructs.flatMap EnumConstruct.params
  | .HREF, _ => t.tparam.toList
  | .HNULL, _ => t.tparam.toList
  | _, _ => []

/-- The global (plus 1) that an object, struct or enum type belongs to. -/
def globalOf (t : ValueType) : Option Int :=
  match t.kind, t.union with
  | .HOBJ, .obj _ _ _ _ _ _ _ _ g _ => g[0]?
  | .HSTRUCT, .obj _ _ _ _ _ _ _ _ g _ => g[0]?
  | .HENUM, .enum _ _ _ g => g[0]?
  | _, _ => none

/-- The types of the fields, if the type has the contents of an object. -/
def objectFields (t : ValueType) : Option (List ValueType) :=
  match t.union with
  | .obj _ _ fields _ _ _ _ _ _ _ => some (fields.map ObjField.t)
  | _ => none

/-- `f` is the function in which `alloc` looks for enum constructors: the last one with the index of the entry point, or, if
there is none, the first function. -/
def BootFunction (c : Code) (f : HLFunction) : Prop :=
  (∃ i : Nat, c.functions[i]? = some f ∧ f.findex = c.entrypoint ∧ ∀ (j : Nat) g, i < j → c.functions[j]? = some g → g.findex ≠ c.entrypoint) ∨
  ((∀ g ∈ c.functions, g.findex ≠ c.entrypoint) ∧ c.functions[0]? = some f)

/-- Instruction `i` of the boot function takes an element of an array of enum values, as far as `alloc` can tell: it looks at
*global* `i`, at the instruction two before and at the one three before. -/
def enumSet (c : Code) (f : HLFunction) (i : Nat) : Prop :=
  (∃ o, f.ops[i]? = some o ∧ o.op = .OSetGlobal) ∧ (∃ g, c.globals[i]? = some g ∧ g.kind = .HENUM) ∧
  (∃ a, f.ops[i - 2]? = some a ∧ a.op = .OGetArray) ∧ (∃ b, f.ops[i - 3]? = some b ∧ b.op = .OInt)

/-- What a decoded file must satisfy for its hash to be computable. -/
structure Hashable (c : Code) : Prop where
  /-- the indexes of functions and natives are below their number -/
  functionIndex : ∀ f ∈ c.functions, f.findex < c.nfunctions + c.nnatives
  nativeIndex : ∀ n ∈ c.natives, n.findex < c.nfunctions + c.nnatives
  /-- no declared type has a component that was a forward reference (the decoder replaced it by the default type) -/
  noForward : ∀ i t, i < c.ntypes → c.types[i]? = some t → noType ∉ hashedRefs t
  /-- every object, struct and enum type belongs to a declared global -/
  typeGlobals : ∀ i t g, i < c.ntypes → c.types[i]? = some t → globalOf t = some g → 1 ≤ g ∧ g ≤ c.nglobals
  /-- every constant belongs to a declared global; if that has an object type, there are enough fields, and integer and bytes
  fields refer to existing pool entries -/
  constantGlobal : ∀ k ∈ c.constants, k.global < c.nglobals
  constantFields : ∀ k ∈ c.constants, ∀ (g : ValueType) (ts : List ValueType), c.globals[k.global]? = some g → objectFields g = some ts →
    ∀ (j x : Nat), k.fields[j]? = some x → ∃ t : ValueType, ts[j]? = some t ∧ (t.kind = .HI32 → x < c.ints.length) ∧ (t.kind = .HBYTES → x < c.strings.length)
  /-- there is a function, and the entry point is not a native -/
  entry : c.entrypoint < c.nfunctions + c.nnatives ∧ 0 < c.nfunctions ∧ ∀ n ∈ c.natives, n.findex ≠ c.entrypoint
  /-- no `OSetGlobal` at a position from `2 * nglobals` on in the boot function -/
  bootShort : ∀ f, BootFunction c f → ∀ (i : Nat) (o : Opcode), 4 ≤ i → f.ops[i]? = some o → o.op = .OSetGlobal → i < 2 * c.nglobals
  /-- the supposed enum constructors are those of existing globals and integers -/
  bootEnums : ∀ f, BootFunction c f → ∀ (i : Nat) (o b : Opcode), 4 ≤ i → enumSet c f i → f.ops[i]? = some o → f.ops[i - 3]? = some b →
    (∃ x : Int, b.p2 = some x ∧ 0 ≤ x ∧ x < c.ints.length) ∧ (∃ x : Int, o.p1 = some x ∧ 0 ≤ x ∧ x < c.nglobals)

/-- No two functions or natives have the same index. -/
def DistinctIndexes (c : Code) : Prop := (c.functions.map HLFunction.findex ++ c.natives.map Native.findex).Nodup

/-- Nothing but its position and its type determines the signature of global `i`: its type is not abstract, it is not the global
of a type, of a constant or of an enum value set in the boot function. -/
structure Unsourced (c : Code) (i : Nat) : Prop where
  notAbstract : ∀ t, c.globals[i]? = some t → t.kind ≠ .HABSTRACT
  notOfType : ∀ (j : Nat) t, j < c.ntypes → c.types[j]? = some t → globalOf t ≠ some ((i : Int) + 1)
  notOfConstant : ∀ k ∈ c.constants, k.global ≠ i
  notOfBoot : ∀ f, BootFunction c f → ∀ (n : Nat) (o : Opcode), 4 ≤ n → enumSet c f n → f.ops[n]? = some o → o.p1 ≠ some (i : Int)

end Verif.Brass.Spec
