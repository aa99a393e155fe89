import Verif.Brass.Types
import Verif.Spec.Base

/-!
# The text of a function, as templates

For C107.  `pr` says which characters are printable; `dec` makes a string of the bytes of a Rust `String`.
-/

namespace Verif.Brass.Spec

open Verif.Brass

/-- Concatenation. -/
@[irreducible] def cat (a b : String) : String := a ++ b

@[inherit_doc] infixr:67 " ⋅ " => cat

/-- `dec` makes a string of its UTF-8 bytes. -/
def Decodes (dec : Str → String) : Prop := ∀ t : Text, dec (utf8 t) = String.ofList t

/-- `a, b, c` -/
def commas : List String → String
  | [] => ""
  | [a] => a
  | a :: b :: l => a ⋅ ", " ⋅ commas (b :: l)

/-- `[a, b, c]` -/
def brackets (l : List String) : String := "[" ⋅ commas l ⋅ "]"

/-- `None`, `Some(a)` -/
def optionText : Option String → String
  | none => "None"
  | some a => "Some(" ⋅ a ⋅ ")"

/-- A character between quotes. -/
def escapedChar (pr : Char → Bool) (c : Char) : String :=
  match c with
  | '\x00' => "\\0"
  | '\t' => "\\t"
  | '\n' => "\\n"
  | '\r' => "\\r"
  | '"' => "\\\""
  | '\\' => "\\\\"
  | c => if pr c then String.ofList [c] else "\\u{" ++ String.ofList (Nat.toDigits 16 c.toNat) ++ "}"

/-- Characters between quotes. -/
def escapedChars (pr : Char → Bool) : List Char → String
  | [] => ""
  | c :: l => escapedChar pr c ++ escapedChars pr l

/-- A string in quotes. -/
def inQuotes (pr : Char → Bool) (s : String) : String := "\"" ++ escapedChars pr s.toList ++ "\""

/-- The name of a kind. -/
def kindName : TypeKind → String
  | .HVOID => "HVOID" | .HUI8 => "HUI8" | .HUI16 => "HUI16" | .HI32 => "HI32" | .HI64 => "HI64" | .HF32 => "HF32" | .HF64 => "HF64" | .HBOOL => "HBOOL"
  | .HBYTES => "HBYTES" | .HDYN => "HDYN" | .HFUN => "HFUN" | .HOBJ => "HOBJ" | .HARRAY => "HARRAY" | .HTYPE => "HTYPE" | .HREF => "HREF" | .HVIRTUAL => "HVIRTUAL"
  | .HDYNOBJ => "HDYNOBJ" | .HABSTRACT => "HABSTRACT" | .HENUM => "HENUM" | .HNULL => "HNULL" | .HMETHOD => "HMETHOD" | .HSTRUCT => "HSTRUCT" | .HPACKED => "HPACKED" | .HLAST => "HLAST"

/-- The name of an opcode. -/
def opName : Op → String
  | .OMov => "OMov" | .OInt => "OInt" | .OFloat => "OFloat" | .OBool => "OBool" | .OBytes => "OBytes" | .OString => "OString"
  | .ONull => "ONull" | .OAdd => "OAdd" | .OSub => "OSub" | .OMul => "OMul" | .OSDiv => "OSDiv" | .OUDiv => "OUDiv"
  | .OSMod => "OSMod" | .OUMod => "OUMod" | .OShl => "OShl" | .OSShr => "OSShr" | .OUShr => "OUShr" | .OAnd => "OAnd"
  | .OOr => "OOr" | .OXor => "OXor" | .ONeg => "ONeg" | .ONot => "ONot" | .OIncr => "OIncr" | .ODecr => "ODecr"
  | .OCall0 => "OCall0" | .OCall1 => "OCall1" | .OCall2 => "OCall2" | .OCall3 => "OCall3" | .OCall4 => "OCall4" | .OCallN => "OCallN"
  | .OCallMethod => "OCallMethod" | .OCallThis => "OCallThis" | .OCallClosure => "OCallClosure" | .OStaticClosure => "OStaticClosure" | .OInstanceClosure => "OInstanceClosure" | .OVirtualClosure => "OVirtualClosure"
  | .OGetGlobal => "OGetGlobal" | .OSetGlobal => "OSetGlobal" | .OField => "OField" | .OSetField => "OSetField" | .OGetThis => "OGetThis" | .OSetThis => "OSetThis"
  | .ODynGet => "ODynGet" | .ODynSet => "ODynSet" | .OJTrue => "OJTrue" | .OJFalse => "OJFalse" | .OJNull => "OJNull" | .OJNotNull => "OJNotNull"
  | .OJSLt => "OJSLt" | .OJSGte => "OJSGte" | .OJSGt => "OJSGt" | .OJSLte => "OJSLte" | .OJULt => "OJULt" | .OJUGte => "OJUGte"
  | .OJNotLt => "OJNotLt" | .OJNotGte => "OJNotGte" | .OJEq => "OJEq" | .OJNotEq => "OJNotEq" | .OJAlways => "OJAlways" | .OToDyn => "OToDyn"
  | .OToSFloat => "OToSFloat" | .OToUFloat => "OToUFloat" | .OToInt => "OToInt" | .OSafeCast => "OSafeCast" | .OUnsafeCast => "OUnsafeCast" | .OToVirtual => "OToVirtual"
  | .OLabel => "OLabel" | .ORet => "ORet" | .OThrow => "OThrow" | .ORethrow => "ORethrow" | .OSwitch => "OSwitch" | .ONullCheck => "ONullCheck"
  | .OTrap => "OTrap" | .OEndTrap => "OEndTrap" | .OGetI8 => "OGetI8" | .OGetI16 => "OGetI16" | .OGetMem => "OGetMem" | .OGetArray => "OGetArray"
  | .OSetI8 => "OSetI8" | .OSetI16 => "OSetI16" | .OSetMem => "OSetMem" | .OSetArray => "OSetArray" | .ONew => "ONew" | .OArraySize => "OArraySize"
  | .OType => "OType" | .OGetType => "OGetType" | .OGetTID => "OGetTID" | .ORef => "ORef" | .OUnref => "OUnref" | .OSetref => "OSetref"
  | .OMakeEnum => "OMakeEnum" | .OEnumAlloc => "OEnumAlloc" | .OEnumIndex => "OEnumIndex" | .OEnumField => "OEnumField" | .OSetEnumField => "OSetEnumField" | .OAssert => "OAssert"
  | .ORefData => "ORefData" | .ORefOffset => "ORefOffset" | .ONop => "ONop" | .OLast => "OLast"

/-- The text of an instruction. -/
def showOpcode (o : Opcode) : String :=
  "Opcode { op: " ⋅ opName o.op ⋅ ", p1: " ⋅ optionText (o.p1.map toString) ⋅ ", p2: " ⋅ optionText (o.p2.map toString) ⋅
  ", p3: " ⋅ optionText (o.p3.map toString) ⋅ ", extra: " ⋅ brackets (o.extra.map toString) ⋅ " }"

section
variable (pr : Char → Bool) (dec : Str → String)

/-- The text of a method. -/
def showProto (f : ObjProto) : String :=
  "ObjProto { name: " ⋅ inQuotes pr (dec f.name) ⋅ ", hashed_name: " ⋅ toString f.hashedName.toNat ⋅ ", findex: " ⋅ toString f.findex ⋅
  ", pindex: " ⋅ toString f.pindex ⋅ " }"

mutual
/-- The text of a type. -/
def showType : ValueType → String
  | ⟨u, a, t, k⟩ =>
    "ValueType { union: " ⋅ showUnion u ⋅ ", abs_name: " ⋅ optionText (a.map fun s => inQuotes pr (dec s)) ⋅ ", tparam: " ⋅ showParam t ⋅
    ", kind: " ⋅ kindName k ⋅ " }"
/-- … of its union -/
def showUnion : ValueTypeU → String
  | .func args nargs ret =>
    "FuncType { args: " ⋅ brackets (showTypes args) ⋅ ", nargs: " ⋅ toString nargs ⋅ ", ret: " ⋅ showType ret ⋅ " }"
  | .obj name sup fields nfields nproto nbindings protos bindings globalValue rt =>
    "ObjType { name: " ⋅ inQuotes pr (dec name) ⋅ ", super_type: " ⋅ showType sup ⋅ ", fields: " ⋅ brackets (showFields fields) ⋅
    ", nfields: " ⋅ toString nfields ⋅ ", nproto: " ⋅ toString nproto ⋅ ", nbindings: " ⋅ toString nbindings ⋅
    ", proto: " ⋅ brackets (protos.map (showProto pr dec)) ⋅ ", bindings: " ⋅ brackets (bindings.map toString) ⋅
    ", global_value: " ⋅ brackets (globalValue.map toString) ⋅ ", rt: " ⋅ optionText (rt.map fun _ => "RuntimeObj") ⋅ " }"
  | .virt nfields fields => "VirtualType { nfields: " ⋅ toString nfields ⋅ ", fields: " ⋅ brackets (showFields fields) ⋅ " }"
  | .enum name nconstructs constructs globalValue =>
    "EnumType { name: " ⋅ inQuotes pr (dec name) ⋅ ", nconstructs: " ⋅ toString nconstructs ⋅ ", constructs: " ⋅
    brackets (showConstructs constructs) ⋅ ", global_value: " ⋅ brackets (globalValue.map toString) ⋅ " }"
  | .ref t => "Ref(" ⋅ showType t ⋅ ")"
  | .abstract name => "Abstract(" ⋅ inQuotes pr (dec name) ⋅ ")"
  | .null => "Null"
  | .void => "Void"
/-- … of the parameter of a type -/
def showParam : Option ValueType → String
  | none => "None"
  | some t => "Some(" ⋅ showType t ⋅ ")"
/-- … of several types -/
def showTypes : List ValueType → List String
  | [] => []
  | t :: l => showType t :: showTypes l
/-- … of several fields -/
def showFields : List ObjField → List String
  | [] => []
  | ⟨name, hash, t⟩ :: l =>
    ("ObjField { name: " ⋅ inQuotes pr (dec name) ⋅ ", hashed_name: " ⋅ toString hash.toNat ⋅ ", t: " ⋅ showType t ⋅ " }") :: showFields l
/-- … of several constructors -/
def showConstructs : List EnumConstruct → List String
  | [] => []
  | ⟨name, nparams, params, size, hasptr, offsets⟩ :: l =>
    ("EnumConstruct { name: " ⋅ inQuotes pr (dec name) ⋅ ", nparams: " ⋅ toString nparams ⋅ ", params: " ⋅ brackets (showTypes params) ⋅
      ", size: " ⋅ toString size ⋅ ", hasptr: " ⋅ (if hasptr then "true" else "false") ⋅ ", offsets: " ⋅ brackets (offsets.map toString) ⋅
      " }") :: showConstructs l
end

/-- The text of a function that has just been read (it belongs to no class yet). -/
def showFunction (f : HLFunction) : String :=
  "HLFunction { t: " ⋅ showType pr dec f.t ⋅ ", findex: " ⋅ toString f.findex ⋅ ", nregs: " ⋅ toString f.nregs ⋅ ", nops: " ⋅ toString f.nops ⋅
  ", rf: " ⋅ toString f.rf.toNat ⋅ ", regs: " ⋅ brackets (showTypes pr dec f.regs) ⋅ ", ops: " ⋅ brackets (f.ops.map showOpcode) ⋅
  ", debug: " ⋅ brackets (f.debug.map toString) ⋅ ", obj: None, field: None }"

end

end Verif.Brass.Spec
