import Verif.Brass.Types
import Verif.Brass.Op
import Verif.Spec.Crc

/-!
# The tables and number formats the specifications are written in

Nothing here is taken from a function of the model: of `Brass/Types.lean` and `Brass/Op.lean` only the data types are used.
-/

namespace Verif.Brass.Spec

/-! ## Numbers -/

/-- The number with these bytes, lowest first. -/
def unsignedLE (bytes : List UInt8) : Nat := bytes.foldr (fun b n => b.toNat + 256 * n) 0

/-- A 32-bit word as a two's complement number. -/
def twos32 (n : Nat) : Int := if n < 2 ^ 31 then n else n - 2 ^ 32

/-- A number in 32 bits, two's complement. -/
def wrapped (n : Nat) : Int := (n + 2 ^ 31) % 2 ^ 32 - 2 ^ 31

/-- The number with these bits, lowest first. -/
def ofBits : List Bool → Nat
  | [] => 0
  | b :: l => b.toNat + 2 * ofBits l

/-- CRC-32 as a number. -/
def crc (bytes : List UInt8) : UInt32 := UInt32.ofNat (ofBits (Verif.Spec.crc32 bytes))

/-! ## Text -/

/-- A Unicode string. -/
abbrev Text := List Char

/-- UTF-8 -/
def utf8 (s : Text) : List UInt8 := s.flatMap String.utf8EncodeChar

/-- A prefix of the encoding of a character. -/
def StartsChar (k : List UInt8) : Prop := ∃ ch : Char, k <+: String.utf8EncodeChar ch

/-- What a program that must not fail reads from a byte string (Unicode 3.9, "substitution of maximal subparts"): characters,
and U+FFFD for every maximal piece that cannot be part of a character; such a piece is a prefix of an encoding, as long as
possible, or a single byte. -/
inductive Lossy : List UInt8 → Text → Prop where
  | done : Lossy [] []
  | char (ch : Char) (rest : List UInt8) (s : Text) : Lossy rest s → Lossy (String.utf8EncodeChar ch ++ rest) (ch :: s)
  | bad (k rest : List UInt8) (s : Text) : k ≠ [] → StartsChar k ∨ k.length = 1 →
      (∀ ch, ¬ String.utf8EncodeChar ch <+: k ++ rest) →
      (∀ k', k' <+: k ++ rest → k.length < k'.length → ¬ StartsChar k') →
      Lossy rest s → Lossy (k ++ rest) ('\uFFFD' :: s)

/-- The position `i` is not inside a character: it is the start, the end, or that of a byte which is not a continuation byte. -/
def Boundary (s : List UInt8) (i : Nat) : Prop :=
  i = 0 ∨ i = s.length ∨ ∃ b : UInt8, s[i]? = some b ∧ ¬ (0x80 ≤ b.toNat ∧ b.toNat < 0xC0)

/-! ## Opcodes and kinds of types -/

/-- The opcodes of HashLink in the order of `opcodes.h`: the number of an opcode is its position here. -/
def hlOps : List Op := [
  .OMov, .OInt, .OFloat, .OBool, .OBytes, .OString, .ONull,
  .OAdd, .OSub, .OMul, .OSDiv, .OUDiv, .OSMod, .OUMod, .OShl, .OSShr, .OUShr, .OAnd, .OOr, .OXor,
  .ONeg, .ONot, .OIncr, .ODecr,
  .OCall0, .OCall1, .OCall2, .OCall3, .OCall4, .OCallN, .OCallMethod, .OCallThis, .OCallClosure,
  .OStaticClosure, .OInstanceClosure, .OVirtualClosure,
  .OGetGlobal, .OSetGlobal, .OField, .OSetField, .OGetThis, .OSetThis, .ODynGet, .ODynSet,
  .OJTrue, .OJFalse, .OJNull, .OJNotNull, .OJSLt, .OJSGte, .OJSGt, .OJSLte, .OJULt, .OJUGte, .OJNotLt, .OJNotGte, .OJEq, .OJNotEq, .OJAlways,
  .OToDyn, .OToSFloat, .OToUFloat, .OToInt, .OSafeCast, .OUnsafeCast, .OToVirtual,
  .OLabel, .ORet, .OThrow, .ORethrow, .OSwitch, .ONullCheck, .OTrap, .OEndTrap,
  .OGetI8, .OGetI16, .OGetMem, .OGetArray, .OSetI8, .OSetI16, .OSetMem, .OSetArray,
  .ONew, .OArraySize, .OType, .OGetType, .OGetTID,
  .ORef, .OUnref, .OSetref,
  .OMakeEnum, .OEnumAlloc, .OEnumIndex, .OEnumField, .OSetEnumField,
  .OAssert, .ORefData, .ORefOffset, .ONop]

/-- The number of an opcode. -/
def opNumber (o : Op) : Nat := hlOps.idxOf o

/-- The kinds of types of HashLink in the order of `hl_type_kind` in `hl.h`: the number of a kind is its position here. -/
def hlKinds : List TypeKind := [
  .HVOID, .HUI8, .HUI16, .HI32, .HI64, .HF32, .HF64, .HBOOL, .HBYTES, .HDYN, .HFUN, .HOBJ, .HARRAY, .HTYPE, .HREF, .HVIRTUAL,
  .HDYNOBJ, .HABSTRACT, .HENUM, .HNULL, .HMETHOD, .HSTRUCT, .HPACKED]

/-- The number of a kind. -/
def kindNumber (k : TypeKind) : Nat := hlKinds.idxOf k

/-- Layout of the operands of an instruction. -/
inductive Shape where
  /-- a fixed number of operands -/
  | args (n : Nat)
  /-- result, function and a list of at most 255 arguments -/
  | call
  /-- register, jump table, end -/
  | switch
  deriving DecidableEq

/-- `opcodes.h` -/
def hlShape : Op → Shape
  | .OLabel | .OAssert | .ONop | .OLast => .args 0
  | .ONull | .OIncr | .ODecr | .OJAlways | .ORet | .OThrow | .ORethrow | .ONullCheck | .OEndTrap | .ONew => .args 1
  | .OMov | .OInt | .OFloat | .OBool | .OBytes | .OString | .ONeg | .ONot | .OCall0 | .OStaticClosure | .OGetGlobal
  | .OSetGlobal | .OGetThis | .OSetThis | .OJTrue | .OJFalse | .OJNull | .OJNotNull | .OToDyn | .OToSFloat | .OToUFloat
  | .OToInt | .OSafeCast | .OUnsafeCast | .OToVirtual | .OTrap | .OArraySize | .OType | .OGetType | .OGetTID | .ORef
  | .OUnref | .OSetref | .OEnumAlloc | .OEnumIndex | .ORefData => .args 2
  | .OAdd | .OSub | .OMul | .OSDiv | .OUDiv | .OSMod | .OUMod | .OShl | .OSShr | .OUShr | .OAnd | .OOr | .OXor | .OCall1
  | .OInstanceClosure | .OVirtualClosure | .OField | .OSetField | .ODynGet | .ODynSet | .OJSLt | .OJSGte | .OJSGt | .OJSLte
  | .OJULt | .OJUGte | .OJNotLt | .OJNotGte | .OJEq | .OJNotEq | .OGetI8 | .OGetI16 | .OGetMem | .OGetArray | .OSetI8
  | .OSetI16 | .OSetMem | .OSetArray | .OSetEnumField | .ORefOffset => .args 3
  | .OCall2 | .OEnumField => .args 4
  | .OCall3 => .args 5
  | .OCall4 => .args 6
  | .OCallN | .OCallMethod | .OCallThis | .OCallClosure | .OMakeEnum => .call
  | .OSwitch => .switch

/-- The number of operands, -1 if it varies. -/
def Shape.arity : Shape → Int
  | .args n => n
  | .call | .switch => -1

/-! ## Empty values -/

/-- What stands in a table for a type that has not been read. -/
def noType : ValueType := { union := .null, absName := none, tparam := none, kind := .HNULL }

/-- An instruction without operands. -/
def bare (op : Op) : Opcode := { op := op, p1 := none, p2 := none, p3 := none, extra := [] }

/-- The empty module. -/
def noCode : Code where
  types := []
  ntypes := 0
  strings := []
  stringsLens := []
  ustrings := []
  nstrings := 0
  nints := 0
  ints := []
  nfloats := 0
  floats := []
  nbytes := 0
  nfunctions := 0
  functions := []
  nconstants := 0
  constants := []
  entrypoint := 0
  nglobals := 0
  globals := []
  nnatives := 0
  natives := []
  hasdebug := 0
  version := 0
  bytes := []
  bytesPos := []
  ndebugfiles := 0
  debugfiles := []
  debugfilesLens := []

end Verif.Brass.Spec
