import Verif.Brass.Op

/-!
# Model of `brass/src/types.rs`, `errors.rs`, `native.rs` and the `Code` structure of `code.rs`

Numeric representation: `usize`/`u32` values that only come from decoded non-negative `i32` are `Nat`; `i32`/`isize`
are `Int`; hashes (`u32`) are `UInt32`; `f64` values are their 64 bits; `String` is its list of UTF-8 bytes;
`Box` is transparent.
-/

namespace Verif.Brass

/-- `String`: its bytes. -/
abbrev Str := List UInt8

/-- errors.rs:2-17 `DecodeErrorKind` -/
inductive DecodeErrorKind where
  | invalidBytecodeHeader | unsupportedBytecodeVersion | noMoreData | invalidType | invalidTypeIndex | invalidOpcode
  | couldNotProcessOpcode | couldNotReadIndex | couldNotReadStringAtIndex | invalidStringIndex | invalidString
  | negativeIndex | invalidDebugFile | outsideRange
  deriving DecidableEq, Repr

/-- errors.rs:20-23 `DecodeError` (always built by `with_info`, so the position is present) -/
structure DecodeError where
  kind : DecodeErrorKind
  position : Nat
  deriving DecidableEq, Repr

/-- types.rs:30-57 `TypeKind`; constructors in the order of their discriminants. -/
inductive TypeKind where
  | HVOID | HUI8 | HUI16 | HI32 | HI64 | HF32 | HF64 | HBOOL | HBYTES | HDYN | HFUN | HOBJ | HARRAY | HTYPE | HREF
  | HVIRTUAL | HDYNOBJ | HABSTRACT | HENUM | HNULL | HMETHOD | HSTRUCT | HPACKED | HLAST
  deriving DecidableEq, Repr

/-- Discriminant of a kind, types.rs:31-55. -/
def TypeKind.toNat : TypeKind → Nat
  | .HVOID => 0 | .HUI8 => 1 | .HUI16 => 2 | .HI32 => 3 | .HI64 => 4 | .HF32 => 5 | .HF64 => 6 | .HBOOL => 7
  | .HBYTES => 8 | .HDYN => 9 | .HFUN => 10 | .HOBJ => 11 | .HARRAY => 12 | .HTYPE => 13 | .HREF => 14
  | .HVIRTUAL => 15 | .HDYNOBJ => 16 | .HABSTRACT => 17 | .HENUM => 18 | .HNULL => 19 | .HMETHOD => 20
  | .HSTRUCT => 21 | .HPACKED => 22 | .HLAST => 23

/-- `TypeKind::try_from(u8)` (derived by `num_enum`). -/
def TypeKind.ofNat? : Nat → Option TypeKind
  | 0 => some .HVOID | 1 => some .HUI8 | 2 => some .HUI16 | 3 => some .HI32 | 4 => some .HI64 | 5 => some .HF32
  | 6 => some .HF64 | 7 => some .HBOOL | 8 => some .HBYTES | 9 => some .HDYN | 10 => some .HFUN | 11 => some .HOBJ
  | 12 => some .HARRAY | 13 => some .HTYPE | 14 => some .HREF | 15 => some .HVIRTUAL | 16 => some .HDYNOBJ
  | 17 => some .HABSTRACT | 18 => some .HENUM | 19 => some .HNULL | 20 => some .HMETHOD | 21 => some .HSTRUCT
  | 22 => some .HPACKED | 23 => some .HLAST | _ => none

/-- types.rs:218-223 `ObjProto` -/
structure ObjProto where
  name : Str
  hashedName : UInt32
  findex : Nat
  pindex : Int
  deriving DecidableEq

mutual

/-- types.rs:97-102 `ValueType` -/
structure ValueType where
  union : ValueTypeU
  absName : Option Str
  tparam : Option ValueType
  kind : TypeKind

/-- types.rs:61-93 `ValueTypeU`.  `rt : Option<RuntimeObj>` is kept as a flag (`RuntimeObj` is an empty struct). -/
inductive ValueTypeU where
  | func (args : List ValueType) (nargs : Nat) (ret : ValueType)
  | obj (name : Str) (superType : ValueType) (fields : List ObjField) (nfields nproto nbindings : Nat)
      (proto : List ObjProto) (bindings : List Nat) (globalValue : List Int) (rt : Option Unit)
  | virt (nfields : Nat) (fields : List ObjField)
  | enum (name : Str) (nconstructs : Nat) (constructs : List EnumConstruct) (globalValue : List Int)
  | ref (t : ValueType)
  | abstract (name : Str)
  | null
  | void

/-- types.rs:211-215 `ObjField` -/
structure ObjField where
  name : Str
  hashedName : UInt32
  t : ValueType

/-- types.rs:227-234 `EnumConstruct` -/
structure EnumConstruct where
  name : Str
  nparams : Nat
  params : List ValueType
  size : Nat
  hasptr : Bool
  offsets : List Int

end

/-- types.rs:199-206 `ValueType::default` -/
def ValueType.default : ValueType := { union := .null, absName := none, tparam := none, kind := .HNULL }

/-! ## `#[derive(PartialEq)]` on types: structural equality -/

mutual
/-- derived `PartialEq for ValueType` (types.rs:95) -/
def ValueType.beq : ValueType → ValueType → Bool
  | ⟨u, a, t, k⟩, ⟨u', a', t', k'⟩ => u.beq u' && a == a' && beqOpt t t' && k == k'
/-- derived `PartialEq for ValueTypeU` (types.rs:59) -/
def ValueTypeU.beq : ValueTypeU → ValueTypeU → Bool
  | .func a n r, .func a' n' r' => beqTypes a a' && n == n' && r.beq r'
  | .obj n s f nf np nb p b g r, .obj n' s' f' nf' np' nb' p' b' g' r' =>
    n == n' && s.beq s' && beqFields f f' && nf == nf' && np == np' && nb == nb' && p == p' && b == b' && g == g' && r == r'
  | .virt n f, .virt n' f' => n == n' && beqFields f f'
  | .enum n k c g, .enum n' k' c' g' => n == n' && k == k' && beqConstructs c c' && g == g'
  | .ref t, .ref t' => t.beq t'
  | .abstract n, .abstract n' => n == n'
  | .null, .null => true
  | .void, .void => true
  | _, _ => false
/-- derived `PartialEq for ObjField` (types.rs:210) -/
def ObjField.beq : ObjField → ObjField → Bool
  | ⟨n, h, t⟩, ⟨n', h', t'⟩ => n == n' && h == h' && t.beq t'
/-- derived `PartialEq for EnumConstruct` (types.rs:226) -/
def EnumConstruct.beq : EnumConstruct → EnumConstruct → Bool
  | ⟨n, k, p, s, h, o⟩, ⟨n', k', p', s', h', o'⟩ => n == n' && k == k' && beqTypes p p' && s == s' && h == h' && o == o'
/-- `PartialEq for Option<Box<ValueType>>` -/
def beqOpt : Option ValueType → Option ValueType → Bool
  | none, none => true
  | some a, some b => a.beq b
  | _, _ => false
/-- `PartialEq for Vec<ValueType>` -/
def beqTypes : List ValueType → List ValueType → Bool
  | [], [] => true
  | a :: l, b :: l' => a.beq b && beqTypes l l'
  | _, _ => false
/-- `PartialEq for Vec<ObjField>` -/
def beqFields : List ObjField → List ObjField → Bool
  | [], [] => true
  | a :: l, b :: l' => a.beq b && beqFields l l'
  | _, _ => false
/-- `PartialEq for Vec<EnumConstruct>` -/
def beqConstructs : List EnumConstruct → List EnumConstruct → Bool
  | [], [] => true
  | a :: l, b :: l' => a.beq b && beqConstructs l l'
  | _, _ => false
end

mutual
theorem ValueType.beq_iff : ∀ a b : ValueType, a.beq b = true ↔ a = b
  | ⟨u, a, t, k⟩, ⟨u', a', t', k'⟩ => by
    simp [ValueType.beq, ValueTypeU.beq_iff u u', beqOpt_iff t t', and_assoc]
theorem ValueTypeU.beq_iff : ∀ a b : ValueTypeU, a.beq b = true ↔ a = b
  | .func a n r, b => by
    cases b <;> simp [ValueTypeU.beq, beqTypes_iff a, ValueType.beq_iff r, and_assoc]
  | .obj n s f nf np nb p b g r, b' => by
    cases b' <;> simp [ValueTypeU.beq, beqFields_iff f, ValueType.beq_iff s, and_assoc]
  | .virt n f, b => by cases b <;> simp [ValueTypeU.beq, beqFields_iff f]
  | .enum n k c g, b => by cases b <;> simp [ValueTypeU.beq, beqConstructs_iff c, and_assoc]
  | .ref t, b => by cases b <;> simp [ValueTypeU.beq, ValueType.beq_iff t]
  | .abstract n, b => by cases b <;> simp [ValueTypeU.beq]
  | .null, b => by cases b <;> simp [ValueTypeU.beq]
  | .void, b => by cases b <;> simp [ValueTypeU.beq]
theorem ObjField.beq_iff : ∀ a b : ObjField, a.beq b = true ↔ a = b
  | ⟨n, h, t⟩, ⟨n', h', t'⟩ => by simp [ObjField.beq, ValueType.beq_iff t t', and_assoc]
theorem EnumConstruct.beq_iff : ∀ a b : EnumConstruct, a.beq b = true ↔ a = b
  | ⟨n, k, p, s, h, o⟩, ⟨n', k', p', s', h', o'⟩ => by simp [EnumConstruct.beq, beqTypes_iff p p', and_assoc]
theorem beqOpt_iff : ∀ a b : Option ValueType, beqOpt a b = true ↔ a = b
  | none, b => by cases b <;> simp [beqOpt]
  | some a, b => by cases b <;> simp [beqOpt, ValueType.beq_iff a]
theorem beqTypes_iff : ∀ a b : List ValueType, beqTypes a b = true ↔ a = b
  | [], b => by cases b <;> simp [beqTypes]
  | a :: l, b => by cases b <;> simp [beqTypes, ValueType.beq_iff a, beqTypes_iff l]
theorem beqFields_iff : ∀ a b : List ObjField, beqFields a b = true ↔ a = b
  | [], b => by cases b <;> simp [beqFields]
  | a :: l, b => by cases b <;> simp [beqFields, ObjField.beq_iff a, beqFields_iff l]
theorem beqConstructs_iff : ∀ a b : List EnumConstruct, beqConstructs a b = true ↔ a = b
  | [], b => by cases b <;> simp [beqConstructs]
  | a :: l, b => by cases b <;> simp [beqConstructs, EnumConstruct.beq_iff a, beqConstructs_iff l]
end

/-- types.rs:59, 95, 209-227 `#[derive(PartialEq)]`: `==` of types as a decision procedure for equality -/
instance : DecidableEq ValueType := fun a b =>
  if h : a.beq b = true then isTrue ((ValueType.beq_iff a b).1 h) else isFalse fun e => h ((ValueType.beq_iff a b).2 e)

mutual

/-- types.rs:242-253 `HLFunction` -/
structure HLFunction where
  t : ValueType
  findex : Nat
  nregs : Nat
  nops : Nat
  rf : UInt32
  regs : List ValueType
  ops : List Opcode
  debug : List Int
  obj : Option ValueTypeU
  field : Option FuncField

/-- types.rs:257-260 `FuncField` -/
structure FuncField where
  name : Str
  rf : Option HLFunction

end

/-- types.rs:263-267 `Constant` -/
structure Constant where
  global : Nat
  nfields : Nat
  fields : List Nat
  deriving DecidableEq

/-- native.rs:5-10 `Native` -/
structure Native where
  lib : Str
  name : Str
  t : ValueType
  findex : Nat

/-- code.rs:52-80 `Code`; `floats` holds the bits of the `f64`s. -/
structure Code where
  types : List ValueType
  ntypes : Nat
  strings : List Str
  stringsLens : List Nat
  ustrings : List (Option Str)
  nstrings : Nat
  nints : Nat
  ints : List Int
  nfloats : Nat
  floats : List Nat
  nbytes : Nat
  nfunctions : Nat
  functions : List HLFunction
  nconstants : Nat
  constants : List Constant
  entrypoint : Nat
  nglobals : Nat
  globals : List ValueType
  nnatives : Nat
  natives : List Native
  hasdebug : Nat
  version : Nat
  bytes : List UInt8
  bytesPos : List Nat
  ndebugfiles : Nat
  debugfiles : List Str
  debugfilesLens : List Nat

/-- code.rs:83-113 `Code::new` -/
def Code.new : Code where
  types := []
  ntypes := 0
  strings := []
  stringsLens := []
  ustrings := []
  nstrings := 0
  nints := 0
  ints := []
  nfloats := 0
  floats := []
  nbytes := 0
  nfunctions := 0
  functions := []
  nconstants := 0
  constants := []
  entrypoint := 0
  nglobals := 0
  globals := []
  nnatives := 0
  natives := []
  hasdebug := 0
  version := 0
  bytes := []
  bytesPos := []
  ndebugfiles := 0
  debugfiles := []
  debugfilesLens := []

end Verif.Brass
