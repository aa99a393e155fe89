import Verif.Spec.Module

/-!
# What brass should make of a module

The `Code` a user expects for an `RModule`, with brass's documented deviations: forward type references become the default
type, the tables of types and globals are followed by as many default entries, and argument lists are padded with zeros.
-/

namespace Verif.Brass.Spec

/-- A type reference, when the types `prev` are known: a later type is not known yet and becomes the default type. -/
def tref (prev : List ValueType) (j : Nat) : ValueType := prev[j]?.getD noType

/-- A string reference. -/
def sref (strs : List Text) (j : Nat) : Str := utf8 (strs[j]?.getD [])

def RField.decoded (strs : List Text) (prev : List ValueType) (f : RField) : ObjField :=
  { name := sref strs f.name, hashedName := crc (sref strs f.name), t := tref prev f.type }

def RProto.decoded (strs : List Text) (f : RProto) : ObjProto :=
  { name := sref strs f.name, hashedName := crc (sref strs f.name), findex := f.findex, pindex := f.pindex }

def RConstruct.decoded (strs : List Text) (prev : List ValueType) (c : RConstruct) : EnumConstruct :=
  { name := sref strs c.name, nparams := c.params.length, params := c.params.map (tref prev), size := 0, hasptr := false, offsets := [] }

/-- The super type of an object; without one, the default type. -/
def superRef (prev : List ValueType) : Option Nat → ValueType
  | none => noType
  | some j => tref prev j

/-- A type that consists of its kind. -/
def ofKind (k : TypeKind) : ValueType := { noType with kind := k }

/-- The type, when the types `prev` are known. -/
def RType.decoded (strs : List Text) (prev : List ValueType) (t : RType) : ValueType :=
  match t with
  | .prim _ => ofKind t.kind
  | .func _ args ret => { ofKind t.kind with union := .func (args.map (tref prev)) args.length (tref prev ret) }
  | .obj _ name super global fields protos bindings => { ofKind t.kind with
      union := .obj (sref strs name) (superRef prev super)
        (fields.map (RField.decoded strs prev)) fields.length protos.length bindings.length (protos.map (RProto.decoded strs))
        (bindings.flatMap fun b => [b.1, b.2]) [(global : Int)] none }
  | .ref j => { ofKind t.kind with tparam := some (tref prev j) }
  | .virt fields => { ofKind t.kind with union := .virt fields.length (fields.map (RField.decoded strs prev)) }
  | .abstract name => { ofKind t.kind with absName := some (sref strs name) }
  | .enum name global constructs => { ofKind t.kind with
      union := .enum (sref strs name) constructs.length (constructs.map (RConstruct.decoded strs prev)) [(global : Int)] }
  | .null j => { ofKind t.kind with tparam := some (tref prev j) }
  | .packed j => { ofKind t.kind with tparam := some (tref prev j) }

/-- The types, one after the other; `prev` are those before. -/
def decodeTypes (strs : List Text) (prev : List ValueType) : List RType → List ValueType
  | [] => prev
  | t :: ts => decodeTypes strs (prev ++ [t.decoded strs prev]) ts

/-- The types of a module. -/
def RModule.typeTable (m : RModule) : List ValueType := decodeTypes m.strings [] m.types

def RNative.decoded (m : RModule) (n : RNative) : Native :=
  { lib := sref m.strings n.lib, name := sref m.strings n.name, t := tref m.typeTable n.type, findex := n.findex }

def RFunction.decoded (m : RModule) (f : RFunction) : HLFunction :=
  { t := tref m.typeTable f.type, findex := f.findex, nregs := f.regs.length, nops := f.ops.length, rf := 0,
    regs := f.regs.map (tref m.typeTable), ops := f.ops.map Instr.decoded,
    debug := if m.hasDebug then (dbgMeaning (-1) 0 f.debug).flatMap fun w => [w.1, w.2] else [], obj := none, field := none }

def RConstant.decoded (c : RConstant) : Constant := { global := c.global, nfields := c.fields.length, fields := c.fields }

/-- The code of a module, up to the cache of looked up strings. -/
def RModule.decoded (m : RModule) : Code where
  version := m.version
  entrypoint := m.entrypoint
  hasdebug := if m.hasDebug then 1 else 0
  nints := m.ints.length
  ints := m.ints
  nfloats := m.floats.length
  floats := m.floats
  nstrings := m.strings.length
  strings := m.strings.map utf8
  stringsLens := m.strings.map fun s => (utf8 s).length
  ustrings := []
  nbytes := m.bytesPos.length
  bytes := m.bytes
  bytesPos := m.bytesPos
  ndebugfiles := m.debugFiles.length
  debugfiles := m.debugFiles.map utf8
  debugfilesLens := []
  ntypes := m.types.length
  types := m.typeTable ++ List.replicate m.types.length noType
  nglobals := m.globals.length
  globals := m.globals.map (tref m.typeTable) ++ List.replicate m.globals.length noType
  nnatives := m.natives.length
  natives := m.natives.map (RNative.decoded m)
  nfunctions := m.functions.length
  functions := m.functions.map (RFunction.decoded m)
  nconstants := m.constants.length
  constants := m.constants.map RConstant.decoded

/-! ## Which modules -/

/-- Strings looked up (through the cache) by a type, in the order of the file. -/
def RType.names : RType → List Nat
  | .obj _ name _ _ fields protos _ => name :: (fields.map RField.name ++ protos.map RProto.name)
  | .virt fields => fields.map RField.name
  | .abstract name => [name]
  | .enum name _ constructs => name :: constructs.map RConstruct.name
  | _ => []

/-- Types referred to by a type. -/
def RType.refs : RType → List Nat
  | .func _ args ret => args ++ [ret]
  | .obj _ _ super _ fields _ _ => super.toList ++ fields.map RField.type
  | .ref t => [t]
  | .virt fields => fields.map RField.type
  | .enum _ _ constructs => constructs.flatMap RConstruct.params
  | .null t => [t]
  | .packed t => [t]
  | _ => []

/-- The numbers of a type, other than references, are small. -/
def RType.Small : RType → Prop
  | .prim k => k ∈ primKinds
  | .func _ args _ => args.length < 256
  | .obj _ _ _ global fields protos bindings => global < 0x2000 ∧ fields.length < 0x2000 ∧ protos.length < 0x2000 ∧
      bindings.length < 0x2000 ∧ (∀ f ∈ protos, f.findex < 0x2000 ∧ f.pindex.natAbs < 0x2000) ∧ ∀ b ∈ bindings, b.1 < 0x2000 ∧ b.2 < 0x2000
  | .virt fields => fields.length < 0x2000
  | .enum _ global constructs => global < 0x2000 ∧ constructs.length < 0x2000 ∧ ∀ c ∈ constructs, c.params.length < 0x2000
  | _ => True

/-- Every lookup is of a string looked up before (`seen`), or of one beyond all those looked up before. -/
def InOrder (seen : List Nat) : List Nat → Prop
  | [] => True
  | j :: l => (j ∈ seen ∨ ∀ i ∈ seen, i < j) ∧ InOrder (seen ++ [j]) l

instance instDecidableInOrder : (seen l : List Nat) → Decidable (InOrder seen l)
  | _, [] => isTrue trivial
  | seen, j :: l => by
    unfold InOrder
    have := instDecidableInOrder (seen ++ [j]) l
    infer_instance

/-- The forms of debug items that brass reads like HashLink. -/
def DbgItem.Supported : DbgItem → Prop
  | .run count _ => count = 0
  | .abs line => line < 256
  | _ => True

instance (i : DbgItem) : Decidable i.Supported := by cases i <;> (unfold DbgItem.Supported; infer_instance)

/-- The item belongs to at least one instruction. -/
def DbgItem.emits : DbgItem → Bool
  | .file _ => false
  | .run count _ => count != 0
  | _ => true

/-- A debug stream for `nops` instructions that refers to `nfiles` files: the fields fit, the files exist, it describes
`nops` instructions and nothing follows the last of them. -/
def DbgStream (nops nfiles : Nat) (items : List DbgItem) : Prop :=
  (∀ i ∈ items, i.Ok) ∧ (∀ i ∈ items, ∀ f, i = .file f → f < nfiles) ∧ (dbgMeaning (-1) 0 items).length = nops ∧
  (∀ i, items.getLast? = some i → i.emits = true)

/-- A function of a module that brass reads correctly. -/
structure RFunction.Good (m : RModule) (f : RFunction) : Prop where
  type : f.type < m.types.length
  findex : f.findex < 0x2000
  nregs : f.regs.length < 0x2000
  regs : ∀ t ∈ f.regs, t < m.types.length
  nops : f.ops.length < 0x2000
  ops : ∀ o ∈ f.ops, o.Ok
  debug : m.hasDebug = true → DbgStream f.ops.length m.debugFiles.length f.debug ∧ (∀ i ∈ f.debug, i.Supported) ∧ f.debug.length < 2 ^ 24
  assigns : f.assigns.length < 0x2000 ∧ ∀ a ∈ f.assigns, a.1 < 0x2000 ∧ a.2.natAbs < 0x2000

/-- A module that brass reads correctly but for the names in types: a version it supports, all references in range, numbers
below `0x2000` and debug streams without runs and without absolute lines beyond 255. -/
structure RModule.Readable (m : RModule) : Prop where
  version : 2 ≤ m.version ∧ m.version ≤ 5
  bytes : m.version < 5 → m.bytes = [] ∧ m.bytesPos = []
  noConstants : m.version < 4 → m.constants = []
  noDebug : m.hasDebug = false → m.debugFiles = []
  entrypoint : m.entrypoint < 0x2000
  nints : m.ints.length < 0x2000
  ints : ∀ v ∈ m.ints, -2 ^ 31 ≤ v ∧ v < 2 ^ 31
  nfloats : m.floats.length < 0x2000
  floats : ∀ v ∈ m.floats, v < 2 ^ 64
  nstrings : m.strings.length < 0x2000
  strings : ∀ s ∈ m.strings, (utf8 s).length < 0x2000
  nbytes : m.bytes.length < 2 ^ 31 ∧ m.bytesPos.length < 0x2000
  bytesPos : ∀ v ∈ m.bytesPos, v < 0x2000
  ndebugFiles : m.debugFiles.length < 0x2000
  debugFiles : ∀ s ∈ m.debugFiles, (utf8 s).length < 0x2000
  ntypes : m.types.length < 0x2000
  types : ∀ t ∈ m.types, t.Small ∧ (∀ j ∈ t.refs, j < m.types.length) ∧ ∀ j ∈ t.names, j < m.strings.length
  nglobals : m.globals.length < 0x2000
  globals : ∀ t ∈ m.globals, t < m.types.length
  nnatives : m.natives.length < 0x2000
  natives : ∀ n ∈ m.natives, n.lib < m.strings.length ∧ n.name < m.strings.length ∧ n.type < m.types.length ∧ n.findex < 0x2000
  nfunctions : m.functions.length < 0x2000
  functions : ∀ f ∈ m.functions, f.Good m
  nconstants : m.constants.length < 0x2000
  constants : ∀ c ∈ m.constants, c.global < 0x2000 ∧ c.fields.length < 0x2000 ∧ ∀ f ∈ c.fields, f < 0x2000

/-- A module that brass reads correctly: also the names in types are looked up in order. -/
structure RModule.Good (m : RModule) : Prop extends m.Readable where
  order : InOrder [] (m.types.flatMap RType.names)

/-- The module declares debug info, or a type, global, native, function or constant (otherwise `Code::read` returns the
empty code, see C44). -/
def RModule.NotBare (m : RModule) : Prop :=
  m.hasDebug = true ∨ m.types ≠ [] ∨ m.globals ≠ [] ∨ m.natives ≠ [] ∨ m.functions ≠ [] ∨ m.constants ≠ []

/-- The instruction described by a decoded opcode, read with HashLink's operand layout. -/
def instrOf (o : Opcode) : Instr :=
  match hlShape o.op with
  | .args n => .plain o.op ([o.p1, o.p2, o.p3].filterMap id ++ o.extra.take (n - 3))
  | .call => .call o.op (o.p1.getD 0) (o.p2.getD 0) (o.extra.take (o.p3.getD 0).toNat)
  | .switch => .switch (o.p1.getD 0).toNat ((o.extra.take (o.p2.getD 0).toNat).map Int.toNat) (o.p3.getD 0).toNat

end Verif.Brass.Spec
