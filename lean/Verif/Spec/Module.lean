import Verif.Spec.Encode
import Verif.Spec.Base

/-!
# HashLink modules and their serialisation

Written from the HashLink compiler (`genhl.ml`: `write_code`, `write_debug_infos`) and `opcodes.h`, not from brass.
References to strings, types, functions, … are indexes, as in the file.  `encode` is the serialisation.
-/

namespace Verif.Brass.Spec

/-- The strings one after the other, each followed by a zero byte. -/
def blob (ss : List Text) : List UInt8 := ss.flatMap fun s => utf8 s ++ [0]

/-- A string table: size of the blob (4 bytes), the blob, the sizes of the strings. -/
def hlStrings (ss : List Text) : List UInt8 :=
  leBytesSigned 4 (blob ss).length ++ blob ss ++ ss.flatMap fun s => hlIndex (utf8 s).length

/-! ## Types -/

/-- A field: name (string index) and type (type index). -/
structure RField where
  name : Nat
  type : Nat

/-- A method: name, function index, slot in the virtual table (or -1). -/
structure RProto where
  name : Nat
  findex : Nat
  pindex : Int

/-- An enum construct: name and parameter types. -/
structure RConstruct where
  name : Nat
  params : List Nat

/-- A type. -/
inductive RType where
  | prim (k : TypeKind)
  | func (method : Bool) (args : List Nat) (ret : Nat)
  | obj (struct : Bool) (name : Nat) (super : Option Nat) (global : Nat) (fields : List RField) (protos : List RProto)
      (bindings : List (Nat × Nat))
  | ref (t : Nat)
  | virt (fields : List RField)
  | abstract (name : Nat)
  | enum (name : Nat) (global : Nat) (constructs : List RConstruct)
  | null (t : Nat)
  | packed (t : Nat)

/-- Kinds that consist of the kind byte alone. -/
def primKinds : List TypeKind :=
  [.HVOID, .HUI8, .HUI16, .HI32, .HI64, .HF32, .HF64, .HBOOL, .HBYTES, .HDYN, .HARRAY, .HTYPE, .HDYNOBJ]

/-- The kind of a type. -/
def RType.kind : RType → TypeKind
  | .prim k => k
  | .func m _ _ => if m then .HMETHOD else .HFUN
  | .obj s _ _ _ _ _ _ => if s then .HSTRUCT else .HOBJ
  | .ref _ => .HREF
  | .virt _ => .HVIRTUAL
  | .abstract _ => .HABSTRACT
  | .enum _ _ _ => .HENUM
  | .null _ => .HNULL
  | .packed _ => .HPACKED

/-- An index. -/
def ix (n : Nat) : List UInt8 := hlIndex (n : Int)

def RField.encode (f : RField) : List UInt8 := ix f.name ++ ix f.type
def RProto.encode (f : RProto) : List UInt8 := ix f.name ++ ix f.findex ++ hlIndex f.pindex
def RConstruct.encode (c : RConstruct) : List UInt8 := ix c.name ++ ix c.params.length ++ c.params.flatMap ix

/-- The super type of an object; -1 stands for none. -/
def superIx : Option Nat → List UInt8
  | none => hlIndex (-1)
  | some t => ix t

/-- A type after its kind byte. -/
def RType.encodeBody : RType → List UInt8
  | .prim _ => []
  | .func _ args ret => [UInt8.ofNat args.length] ++ args.flatMap ix ++ ix ret
  | .obj _ name super global fields protos bindings =>
    ix name ++ superIx super ++ ix global ++ ix fields.length ++ ix protos.length ++
    ix bindings.length ++ fields.flatMap RField.encode ++ protos.flatMap RProto.encode ++
    bindings.flatMap fun b => ix b.1 ++ ix b.2
  | .ref t => ix t
  | .virt fields => ix fields.length ++ fields.flatMap RField.encode
  | .abstract name => ix name
  | .enum name global constructs => ix name ++ ix global ++ ix constructs.length ++ constructs.flatMap RConstruct.encode
  | .null t => ix t
  | .packed t => ix t

def RType.encode (t : RType) : List UInt8 := UInt8.ofNat (kindNumber t.kind) :: t.encodeBody

/-! ## Instructions -/

/-- An instruction. -/
inductive Instr where
  | plain (op : Op) (args : List Int)
  | call (op : Op) (dst fn : Int) (args : List Int)
  | switch (reg : Nat) (targets : List Nat) (end_ : Nat)

/-- The operands have the layout of the opcode, and fit the short index forms. -/
def Instr.Ok : Instr → Prop
  | .plain op args => op ≠ .OLast ∧ hlShape op = .args args.length ∧ ∀ a ∈ args, a.natAbs < 0x2000
  | .call op dst fn args => hlShape op = .call ∧ args.length < 256 ∧ dst.natAbs < 0x2000 ∧ fn.natAbs < 0x2000 ∧ ∀ a ∈ args, a.natAbs < 0x2000
  | .switch reg targets end_ => reg < 0x2000 ∧ targets.length < 0x2000 ∧ end_ < 0x2000 ∧ ∀ a ∈ targets, a < 0x2000

def Instr.encode : Instr → List UInt8
  | .plain op args => [UInt8.ofNat (opNumber op)] ++ args.flatMap hlIndex
  | .call op dst fn args => [UInt8.ofNat (opNumber op)] ++ hlIndex dst ++ hlIndex fn ++ [UInt8.ofNat args.length] ++ args.flatMap hlIndex
  | .switch reg targets end_ => [UInt8.ofNat (opNumber .OSwitch)] ++ ix reg ++ ix targets.length ++ targets.flatMap ix ++ ix end_

/-- The operands after the third one, as brass keeps them: lists built by inserting into a list of zeros keep the zeros
(for more than four fixed operands and for argument lists). -/
def padded (l : List Int) : List Int := l ++ List.replicate l.length 0

/-- What brass decodes an instruction to. -/
def Instr.decoded : Instr → Opcode
  | .plain op args => { op := op, p1 := args[0]?, p2 := args[1]?, p3 := args[2]?,
                        extra := if args.length ≤ 4 then args.drop 3 else padded (args.drop 3) }
  | .call op dst fn args => { op := op, p1 := some dst, p2 := some fn, p3 := some (args.length : Int), extra := padded args }
  | .switch reg targets end_ => { op := .OSwitch, p1 := some (reg : Int), p2 := some (targets.length : Int), p3 := some (end_ : Int),
                                  extra := padded (targets.map fun (t : Nat) => (t : Int)) }

/-! ## Debug information -/

/-- An item of a debug stream (`write_debug_infos`). -/
inductive DbgItem where
  /-- the following instructions are in file `f` -/
  | file (f : Nat)
  /-- `count` instructions at the current line, then move the line by `delta` -/
  | run (count delta : Nat)
  /-- move the line by `delta`, one instruction there -/
  | step (delta : Nat)
  /-- move to line `line`, one instruction there -/
  | abs (line : Nat)
  deriving DecidableEq

/-- The fields fit the item. -/
def DbgItem.Ok : DbgItem → Prop
  | .file f => f < 0x8000
  | .run count delta => count < 16 ∧ delta < 4
  | .step delta => delta < 32
  | .abs line => line < 0x200000

instance (i : DbgItem) : Decidable i.Ok := by cases i <;> (unfold DbgItem.Ok; infer_instance)

def DbgItem.encode : DbgItem → List UInt8
  | .file f => [UInt8.ofNat (f / 256 * 2 + 1), UInt8.ofNat (f % 256)]
  | .run count delta => [UInt8.ofNat (delta * 64 + count * 4 + 2)]
  | .step delta => [UInt8.ofNat (delta * 8 + 4)]
  | .abs line => [UInt8.ofNat (line % 32 * 8), UInt8.ofNat (line / 32 % 256), UInt8.ofNat (line / 8192)]

/-- The meaning of a stream, when the current file and line are `f` and `l`: file and line of each instruction. -/
def dbgMeaning : Int → Int → List DbgItem → List (Int × Int)
  | _, _, [] => []
  | _, l, .file f :: r => dbgMeaning (f : Int) l r
  | f, l, .run count delta :: r => List.replicate count (f, l) ++ dbgMeaning f (l + delta) r
  | f, l, .step delta :: r => (f, l + delta) :: dbgMeaning f (l + delta) r
  | f, _, .abs line :: r => (f, (line : Int)) :: dbgMeaning f (line : Int) r

/-! ## Modules -/

structure RFunction where
  type : Nat
  findex : Nat
  regs : List Nat
  ops : List Instr
  debug : List DbgItem
  assigns : List (Nat × Int)

structure RNative where
  lib : Nat
  name : Nat
  type : Nat
  findex : Nat

structure RConstant where
  global : Nat
  fields : List Nat

structure RModule where
  version : Nat
  hasDebug : Bool
  entrypoint : Nat
  ints : List Int
  floats : List Nat
  strings : List Text
  bytes : List UInt8
  bytesPos : List Nat
  debugFiles : List Text
  types : List RType
  globals : List Nat
  natives : List RNative
  functions : List RFunction
  constants : List RConstant

def RFunction.encode (m : RModule) (f : RFunction) : List UInt8 :=
  ix f.type ++ ix f.findex ++ ix f.regs.length ++ ix f.ops.length ++ f.regs.flatMap ix ++ f.ops.flatMap Instr.encode ++
  (if m.hasDebug then
    f.debug.flatMap DbgItem.encode ++
    (if 3 ≤ m.version then ix f.assigns.length ++ f.assigns.flatMap fun a => ix a.1 ++ hlIndex a.2 else [])
   else [])

def RNative.encode (n : RNative) : List UInt8 := ix n.lib ++ ix n.name ++ ix n.type ++ ix n.findex

def RConstant.encode (c : RConstant) : List UInt8 := ix c.global ++ ix c.fields.length ++ c.fields.flatMap ix

/-- Counts of the header. -/
def RModule.counts (m : RModule) : List UInt8 :=
  ix (if m.hasDebug then 1 else 0) ++ ix m.ints.length ++ ix m.floats.length ++ ix m.strings.length ++
  (if 5 ≤ m.version then ix m.bytesPos.length else []) ++ ix m.types.length ++ ix m.globals.length ++ ix m.natives.length ++
  ix m.functions.length ++ (if 4 ≤ m.version then ix m.constants.length else []) ++ ix m.entrypoint

/-- The serialisation of a module. -/
def RModule.encode (m : RModule) : List UInt8 :=
  [0x48, 0x4C, 0x42, UInt8.ofNat m.version] ++ m.counts ++
  m.ints.flatMap (leBytesSigned 4) ++ m.floats.flatMap (leBytes 8) ++ hlStrings m.strings ++
  (if 5 ≤ m.version then leBytesSigned 4 m.bytes.length ++ m.bytes ++ m.bytesPos.flatMap ix else []) ++
  (if m.hasDebug then ix m.debugFiles.length ++ hlStrings m.debugFiles else []) ++
  m.types.flatMap RType.encode ++ m.globals.flatMap ix ++ m.natives.flatMap RNative.encode ++
  m.functions.flatMap (RFunction.encode m) ++ (if 4 ≤ m.version then m.constants.flatMap RConstant.encode else [])

end Verif.Brass.Spec
