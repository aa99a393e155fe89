import Verif.Brass.Print
import Verif.Spec.Base

/-!
# What the printed lines look like

`println!("{:?}", f)` (code.rs:768) writes a function with the `Debug` implementations that the compiler derives for the types of
`types.rs` and `op.rs`; `println!("Found version …")` (code.rs:623) writes numbers into a fixed text.

As in `core::fmt`, this is done in two steps: a value becomes a tree (`debug_struct`, `debug_tuple`, `debug_list`), and the tree
becomes a text.  `pr` says which characters are printable and do not extend a grapheme; it is a table in the standard library, and
nothing here depends on what is in it.
-/

namespace Verif.Brass

open Verif Verif.Brass.Spec

/-- `t!"abc"` is `['a', 'b', 'c']`. -/
macro:max "t!" s:str : term => do
  let cs : List Char := s.getString.toList
  let es : Array (Lean.TSyntax `term) := (cs.map fun ch => (⟨Lean.Syntax.mkCharLit ch⟩ : Lean.TSyntax `term)).toArray
  `([$es,*])

/-! ## `core::fmt` -/

mutual
/-- What `Debug::fmt` tells the formatter. -/
inductive Dbg where
  /-- `write_str`: a number, `true`, `false`, the name of a variant or a structure without data -/
  | atom (s : Text)
  /-- `impl Debug for str` -/
  | str (s : Text)
  /-- `debug_tuple` with one field -/
  | tuple (name : Text) (value : Dbg)
  /-- `debug_struct` -/
  | struct (name : Text) (fields : List DbgField)
  /-- `debug_list` -/
  | list (items : List Dbg)
/-- `DebugStruct::field` -/
structure DbgField where
  name : Text
  value : Dbg
end

/-- `Display for u32`, `usize`, … -/
def decNat (n : Nat) : Text := Nat.toDigits 10 n

/-- `Display for i32`, `isize` -/
def decInt : Int → Text
  | .ofNat n => decNat n
  | .negSucc n => '-' :: decNat (n + 1)

/-- `char::escape_debug_ext` as `impl Debug for str` uses it: no escape for the single quote. -/
def escape (pr : Char → Bool) (ch : Char) : Text :=
  if ch = '\x00' then ['\\', '0']
  else if ch = '\t' then ['\\', 't']
  else if ch = '\r' then ['\\', 'r']
  else if ch = '\n' then ['\\', 'n']
  else if ch = '\\' then ['\\', '\\']
  else if ch = '"' then ['\\', '"']
  else if pr ch then [ch]
  else ['\\', 'u', '{'] ++ Nat.toDigits 16 ch.toNat ++ ['}']

mutual
/-- The text of `{:?}` (not `{:#?}`). -/
def Dbg.text (pr : Char → Bool) : Dbg → Text
  | .atom s => s
  | .str s => ['"'] ++ s.flatMap (escape pr) ++ ['"']
  | .tuple name value => name ++ ['('] ++ value.text pr ++ [')']
  | .struct name [] => name
  | .struct name (f :: fs) => name ++ t!" { " ++ f.text pr ++ restFields pr fs ++ t!" }"
  | .list [] => t!"[]"
  | .list (v :: l) => ['['] ++ v.text pr ++ restItems pr l ++ [']']
/-- A field. -/
def DbgField.text (pr : Char → Bool) : DbgField → Text
  | ⟨name, value⟩ => name ++ t!": " ++ value.text pr
/-- The fields after the first one. -/
def restFields (pr : Char → Bool) : List DbgField → Text
  | [] => []
  | f :: fs => t!", " ++ f.text pr ++ restFields pr fs
/-- The items after the first one. -/
def restItems (pr : Char → Bool) : List Dbg → Text
  | [] => []
  | v :: l => t!", " ++ v.text pr ++ restItems pr l
end

/-! ## The derived implementations -/

open Classical in
/-- The text of a `String`: `Str` holds the bytes of its encoding. -/
noncomputable def textOf (s : Str) : Text := if h : ∃ t, s = utf8 t then h.choose else []

/-- A number without sign. -/
def dbgNat (n : Nat) : Dbg := .atom (decNat n)

/-- A number with sign. -/
def dbgInt (n : Int) : Dbg := .atom (decInt n)

/-- `impl Debug for bool` -/
def dbgBool (b : Bool) : Dbg := .atom (if b then t!"true" else t!"false")

/-- `impl Debug for String` -/
noncomputable def dbgStr (s : Str) : Dbg := .str (textOf s)

/-- `impl Debug for Option` -/
def dbgOpt {α : Type} (f : α → Dbg) : Option α → Dbg
  | none => .atom t!"None"
  | some a => .tuple t!"Some" (f a)

/-- The names of the variants of `TypeKind` (types.rs:31-55). -/
def kindNames : List Text := [
  t!"HVOID", t!"HUI8", t!"HUI16", t!"HI32", t!"HI64", t!"HF32", t!"HF64", t!"HBOOL", t!"HBYTES", t!"HDYN", t!"HFUN",
  t!"HOBJ", t!"HARRAY", t!"HTYPE", t!"HREF", t!"HVIRTUAL", t!"HDYNOBJ", t!"HABSTRACT", t!"HENUM", t!"HNULL", t!"HMETHOD",
  t!"HSTRUCT", t!"HPACKED", t!"HLAST"]

/-- derived `Debug for TypeKind` (types.rs:27) -/
def TypeKind.dbg (k : TypeKind) : Dbg := .atom (kindNames.getD k.toNat [])

/-- The names of the variants of `Op` (op.rs:21-134). -/
def opNames : List Text := [
  t!"OMov", t!"OInt", t!"OFloat", t!"OBool", t!"OBytes", t!"OString", t!"ONull",
  t!"OAdd", t!"OSub", t!"OMul", t!"OSDiv", t!"OUDiv", t!"OSMod", t!"OUMod",
  t!"OShl", t!"OSShr", t!"OUShr", t!"OAnd", t!"OOr", t!"OXor", t!"ONeg",
  t!"ONot", t!"OIncr", t!"ODecr", t!"OCall0", t!"OCall1", t!"OCall2", t!"OCall3",
  t!"OCall4", t!"OCallN", t!"OCallMethod", t!"OCallThis", t!"OCallClosure", t!"OStaticClosure", t!"OInstanceClosure",
  t!"OVirtualClosure", t!"OGetGlobal", t!"OSetGlobal", t!"OField", t!"OSetField", t!"OGetThis", t!"OSetThis",
  t!"ODynGet", t!"ODynSet", t!"OJTrue", t!"OJFalse", t!"OJNull", t!"OJNotNull", t!"OJSLt",
  t!"OJSGte", t!"OJSGt", t!"OJSLte", t!"OJULt", t!"OJUGte", t!"OJNotLt", t!"OJNotGte",
  t!"OJEq", t!"OJNotEq", t!"OJAlways", t!"OToDyn", t!"OToSFloat", t!"OToUFloat", t!"OToInt",
  t!"OSafeCast", t!"OUnsafeCast", t!"OToVirtual", t!"OLabel", t!"ORet", t!"OThrow", t!"ORethrow",
  t!"OSwitch", t!"ONullCheck", t!"OTrap", t!"OEndTrap", t!"OGetI8", t!"OGetI16", t!"OGetMem",
  t!"OGetArray", t!"OSetI8", t!"OSetI16", t!"OSetMem", t!"OSetArray", t!"ONew", t!"OArraySize",
  t!"OType", t!"OGetType", t!"OGetTID", t!"ORef", t!"OUnref", t!"OSetref", t!"OMakeEnum",
  t!"OEnumAlloc", t!"OEnumIndex", t!"OEnumField", t!"OSetEnumField", t!"OAssert", t!"ORefData", t!"ORefOffset",
  t!"ONop", t!"OLast"]

/-- derived `Debug for Op` (op.rs:18) -/
def Op.dbg (o : Op) : Dbg := .atom (opNames.getD o.toNat [])

/-- derived `Debug for Opcode` (op.rs:144) -/
def Opcode.dbg (o : Opcode) : Dbg :=
  .struct t!"Opcode" [⟨t!"op", o.op.dbg⟩, ⟨t!"p1", dbgOpt dbgInt o.p1⟩, ⟨t!"p2", dbgOpt dbgInt o.p2⟩, ⟨t!"p3", dbgOpt dbgInt o.p3⟩,
    ⟨t!"extra", .list (o.extra.map dbgInt)⟩]

/-- derived `Debug for ObjProto` (types.rs:216) -/
noncomputable def ObjProto.dbg (f : ObjProto) : Dbg :=
  .struct t!"ObjProto" [⟨t!"name", dbgStr f.name⟩, ⟨t!"hashed_name", dbgNat f.hashedName.toNat⟩, ⟨t!"findex", dbgNat f.findex⟩,
    ⟨t!"pindex", dbgInt f.pindex⟩]

mutual
/-- derived `Debug for ValueType` (types.rs:96) -/
noncomputable def ValueType.dbg : ValueType → Dbg
  | ⟨u, a, t, k⟩ =>
    .struct t!"ValueType" [⟨t!"union", u.dbg⟩, ⟨t!"abs_name", dbgOpt dbgStr a⟩, ⟨t!"tparam", dbgType? t⟩, ⟨t!"kind", k.dbg⟩]
/-- derived `Debug for ValueTypeU` (types.rs:60) -/
noncomputable def ValueTypeU.dbg : ValueTypeU → Dbg
  | .func args nargs ret => .struct t!"FuncType" [⟨t!"args", .list (dbgTypes args)⟩, ⟨t!"nargs", dbgNat nargs⟩, ⟨t!"ret", ret.dbg⟩]
  | .obj name superType fields nfields nproto nbindings proto bindings globalValue rt =>
    .struct t!"ObjType" [⟨t!"name", dbgStr name⟩, ⟨t!"super_type", superType.dbg⟩, ⟨t!"fields", .list (dbgFields fields)⟩,
      ⟨t!"nfields", dbgNat nfields⟩, ⟨t!"nproto", dbgNat nproto⟩, ⟨t!"nbindings", dbgNat nbindings⟩,
      ⟨t!"proto", .list (proto.map ObjProto.dbg)⟩, ⟨t!"bindings", .list (bindings.map dbgNat)⟩,
      ⟨t!"global_value", .list (globalValue.map dbgInt)⟩, ⟨t!"rt", dbgOpt (fun _ => .atom t!"RuntimeObj") rt⟩]
  | .virt nfields fields => .struct t!"VirtualType" [⟨t!"nfields", dbgNat nfields⟩, ⟨t!"fields", .list (dbgFields fields)⟩]
  | .enum name nconstructs constructs globalValue =>
    .struct t!"EnumType" [⟨t!"name", dbgStr name⟩, ⟨t!"nconstructs", dbgNat nconstructs⟩, ⟨t!"constructs", .list (dbgConstructs constructs)⟩,
      ⟨t!"global_value", .list (globalValue.map dbgInt)⟩]
  | .ref t => .tuple t!"Ref" t.dbg
  | .abstract name => .tuple t!"Abstract" (dbgStr name)
  | .null => .atom t!"Null"
  | .void => .atom t!"Void"
/-- derived `Debug for ObjField` (types.rs:209) -/
noncomputable def ObjField.dbg : ObjField → Dbg
  | ⟨name, hashedName, t⟩ => .struct t!"ObjField" [⟨t!"name", dbgStr name⟩, ⟨t!"hashed_name", dbgNat hashedName.toNat⟩, ⟨t!"t", t.dbg⟩]
/-- derived `Debug for EnumConstruct` (types.rs:225) -/
noncomputable def EnumConstruct.dbg : EnumConstruct → Dbg
  | ⟨name, nparams, params, size, hasptr, offsets⟩ =>
    .struct t!"EnumConstruct" [⟨t!"name", dbgStr name⟩, ⟨t!"nparams", dbgNat nparams⟩, ⟨t!"params", .list (dbgTypes params)⟩,
      ⟨t!"size", dbgNat size⟩, ⟨t!"hasptr", dbgBool hasptr⟩, ⟨t!"offsets", .list (offsets.map dbgInt)⟩]
/-- `Debug for Option<Box<ValueType>>` -/
noncomputable def dbgType? : Option ValueType → Dbg
  | none => .atom t!"None"
  | some t => .tuple t!"Some" t.dbg
/-- `Debug for Vec<ValueType>` -/
noncomputable def dbgTypes : List ValueType → List Dbg
  | [] => []
  | t :: l => t.dbg :: dbgTypes l
/-- `Debug for Vec<ObjField>` -/
noncomputable def dbgFields : List ObjField → List Dbg
  | [] => []
  | t :: l => t.dbg :: dbgFields l
/-- `Debug for Vec<EnumConstruct>` -/
noncomputable def dbgConstructs : List EnumConstruct → List Dbg
  | [] => []
  | t :: l => t.dbg :: dbgConstructs l
end

mutual
/-- derived `Debug for HLFunction` (types.rs:240) -/
noncomputable def HLFunction.dbg : HLFunction → Dbg
  | ⟨t, findex, nregs, nops, rf, regs, ops, debug, obj, field⟩ =>
    .struct t!"HLFunction" [⟨t!"t", t.dbg⟩, ⟨t!"findex", dbgNat findex⟩, ⟨t!"nregs", dbgNat nregs⟩, ⟨t!"nops", dbgNat nops⟩,
      ⟨t!"rf", dbgNat rf.toNat⟩, ⟨t!"regs", .list (dbgTypes regs)⟩, ⟨t!"ops", .list (ops.map Opcode.dbg)⟩, ⟨t!"debug", .list (debug.map dbgInt)⟩,
      ⟨t!"obj", dbgOpt ValueTypeU.dbg obj⟩, ⟨t!"field", dbgField? field⟩]
/-- `Debug for Option<FuncField>` (derived: types.rs:255) -/
noncomputable def dbgField? : Option FuncField → Dbg
  | none => .atom t!"None"
  | some ⟨name, rf⟩ => .tuple t!"Some" (.struct t!"FuncField" [⟨t!"name", dbgStr name⟩, ⟨t!"rf", dbgFunction? rf⟩])
/-- `Debug for Option<Box<HLFunction>>` -/
noncomputable def dbgFunction? : Option HLFunction → Dbg
  | none => .atom t!"None"
  | some f => .tuple t!"Some" f.dbg
end

/-! ## The output -/

/-- The text of a line: code.rs:623-629 with `HLVERSION = 0x010C00` (code.rs:28) and `max_version = 5` (code.rs:610), code.rs:768 -/
noncomputable def Line.text (pr : Char → Bool) : Line → Text
  | .version v => t!"Found version " ++ decNat v ++ t!" while HL " ++ decNat (0x010C00 >>> 16) ++ t!"." ++ decNat ((0x010C00 >>> 8) &&& 0xFF) ++
      t!" supports up to " ++ decNat 5
  | .function f => f.dbg.text pr

/-- The text that `Code::read(buf)` writes to standard output when `ERRORS` holds `e`: every line ends with a newline. -/
noncomputable def stdout (pr : Char → Bool) (p : Profile) (e : Option DecodeError) (buf : List UInt8) : Text :=
  (printed p e buf).flatMap fun l => l.text pr ++ ['\n']

end Verif.Brass
