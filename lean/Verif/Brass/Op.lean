/-!
# Model of `brass/src/op.rs`
-/

namespace Verif.Brass

/-- op.rs:20-135 `Op`; constructors in the order of their discriminants. -/
inductive Op where
  | OMov | OInt | OFloat | OBool | OBytes | OString | ONull | OAdd
  | OSub | OMul | OSDiv | OUDiv | OSMod | OUMod | OShl | OSShr
  | OUShr | OAnd | OOr | OXor | ONeg | ONot | OIncr | ODecr
  | OCall0 | OCall1 | OCall2 | OCall3 | OCall4 | OCallN | OCallMethod | OCallThis
  | OCallClosure | OStaticClosure | OInstanceClosure | OVirtualClosure | OGetGlobal | OSetGlobal | OField | OSetField
  | OGetThis | OSetThis | ODynGet | ODynSet | OJTrue | OJFalse | OJNull | OJNotNull
  | OJSLt | OJSGte | OJSGt | OJSLte | OJULt | OJUGte | OJNotLt | OJNotGte
  | OJEq | OJNotEq | OJAlways | OToDyn | OToSFloat | OToUFloat | OToInt | OSafeCast
  | OUnsafeCast | OToVirtual | OLabel | ORet | OThrow | ORethrow | OSwitch | ONullCheck
  | OTrap | OEndTrap | OGetI8 | OGetI16 | OGetMem | OGetArray | OSetI8 | OSetI16
  | OSetMem | OSetArray | ONew | OArraySize | OType | OGetType | OGetTID | ORef
  | OUnref | OSetref | OMakeEnum | OEnumAlloc | OEnumIndex | OEnumField | OSetEnumField | OAssert
  | ORefData | ORefOffset | ONop | OLast
  deriving DecidableEq, Repr

/-- The discriminant (`op as u8`), as written in op.rs:21-134. -/
def Op.toNat : Op → Nat
  | .OMov => 0 | .OInt => 1 | .OFloat => 2 | .OBool => 3
  | .OBytes => 4 | .OString => 5 | .ONull => 6 | .OAdd => 7
  | .OSub => 8 | .OMul => 9 | .OSDiv => 10 | .OUDiv => 11
  | .OSMod => 12 | .OUMod => 13 | .OShl => 14 | .OSShr => 15
  | .OUShr => 16 | .OAnd => 17 | .OOr => 18 | .OXor => 19
  | .ONeg => 20 | .ONot => 21 | .OIncr => 22 | .ODecr => 23
  | .OCall0 => 24 | .OCall1 => 25 | .OCall2 => 26 | .OCall3 => 27
  | .OCall4 => 28 | .OCallN => 29 | .OCallMethod => 30 | .OCallThis => 31
  | .OCallClosure => 32 | .OStaticClosure => 33 | .OInstanceClosure => 34 | .OVirtualClosure => 35
  | .OGetGlobal => 36 | .OSetGlobal => 37 | .OField => 38 | .OSetField => 39
  | .OGetThis => 40 | .OSetThis => 41 | .ODynGet => 42 | .ODynSet => 43
  | .OJTrue => 44 | .OJFalse => 45 | .OJNull => 46 | .OJNotNull => 47
  | .OJSLt => 48 | .OJSGte => 49 | .OJSGt => 50 | .OJSLte => 51
  | .OJULt => 52 | .OJUGte => 53 | .OJNotLt => 54 | .OJNotGte => 55
  | .OJEq => 56 | .OJNotEq => 57 | .OJAlways => 58 | .OToDyn => 59
  | .OToSFloat => 60 | .OToUFloat => 61 | .OToInt => 62 | .OSafeCast => 63
  | .OUnsafeCast => 64 | .OToVirtual => 65 | .OLabel => 66 | .ORet => 67
  | .OThrow => 68 | .ORethrow => 69 | .OSwitch => 70 | .ONullCheck => 71
  | .OTrap => 72 | .OEndTrap => 73 | .OGetI8 => 74 | .OGetI16 => 75
  | .OGetMem => 76 | .OGetArray => 77 | .OSetI8 => 78 | .OSetI16 => 79
  | .OSetMem => 80 | .OSetArray => 81 | .ONew => 82 | .OArraySize => 83
  | .OType => 84 | .OGetType => 85 | .OGetTID => 86 | .ORef => 87
  | .OUnref => 88 | .OSetref => 89 | .OMakeEnum => 90 | .OEnumAlloc => 91
  | .OEnumIndex => 92 | .OEnumField => 93 | .OSetEnumField => 94 | .OAssert => 95
  | .ORefData => 96 | .ORefOffset => 97 | .ONop => 98 | .OLast => 99

/-- `Op::try_from(u8)` (derived by `num_enum`). -/
def Op.ofNat? : Nat → Option Op
  | 0 => some .OMov | 1 => some .OInt | 2 => some .OFloat | 3 => some .OBool
  | 4 => some .OBytes | 5 => some .OString | 6 => some .ONull | 7 => some .OAdd
  | 8 => some .OSub | 9 => some .OMul | 10 => some .OSDiv | 11 => some .OUDiv
  | 12 => some .OSMod | 13 => some .OUMod | 14 => some .OShl | 15 => some .OSShr
  | 16 => some .OUShr | 17 => some .OAnd | 18 => some .OOr | 19 => some .OXor
  | 20 => some .ONeg | 21 => some .ONot | 22 => some .OIncr | 23 => some .ODecr
  | 24 => some .OCall0 | 25 => some .OCall1 | 26 => some .OCall2 | 27 => some .OCall3
  | 28 => some .OCall4 | 29 => some .OCallN | 30 => some .OCallMethod | 31 => some .OCallThis
  | 32 => some .OCallClosure | 33 => some .OStaticClosure | 34 => some .OInstanceClosure | 35 => some .OVirtualClosure
  | 36 => some .OGetGlobal | 37 => some .OSetGlobal | 38 => some .OField | 39 => some .OSetField
  | 40 => some .OGetThis | 41 => some .OSetThis | 42 => some .ODynGet | 43 => some .ODynSet
  | 44 => some .OJTrue | 45 => some .OJFalse | 46 => some .OJNull | 47 => some .OJNotNull
  | 48 => some .OJSLt | 49 => some .OJSGte | 50 => some .OJSGt | 51 => some .OJSLte
  | 52 => some .OJULt | 53 => some .OJUGte | 54 => some .OJNotLt | 55 => some .OJNotGte
  | 56 => some .OJEq | 57 => some .OJNotEq | 58 => some .OJAlways | 59 => some .OToDyn
  | 60 => some .OToSFloat | 61 => some .OToUFloat | 62 => some .OToInt | 63 => some .OSafeCast
  | 64 => some .OUnsafeCast | 65 => some .OToVirtual | 66 => some .OLabel | 67 => some .ORet
  | 68 => some .OThrow | 69 => some .ORethrow | 70 => some .OSwitch | 71 => some .ONullCheck
  | 72 => some .OTrap | 73 => some .OEndTrap | 74 => some .OGetI8 | 75 => some .OGetI16
  | 76 => some .OGetMem | 77 => some .OGetArray | 78 => some .OSetI8 | 79 => some .OSetI16
  | 80 => some .OSetMem | 81 => some .OSetArray | 82 => some .ONew | 83 => some .OArraySize
  | 84 => some .OType | 85 => some .OGetType | 86 => some .OGetTID | 87 => some .ORef
  | 88 => some .OUnref | 89 => some .OSetref | 90 => some .OMakeEnum | 91 => some .OEnumAlloc
  | 92 => some .OEnumIndex | 93 => some .OEnumField | 94 => some .OSetEnumField | 95 => some .OAssert
  | 96 => some .ORefData | 97 => some .ORefOffset | 98 => some .ONop | 99 => some .OLast
  | _ => none

/-- op.rs:137-142 `OP_NARGS`: `List` of the 100 entries. -/
def OP_NARGS : List Int := [
  2, 2, 2, 2, 2, 2, 1, 3, 3, 3, 3, 3, 3, 3, 3, 3, 3, 3, 3, 3,
  2, 2, 1, 1, 2, 3, 4, 5, 6, -1, -1, -1, -1, 2, 3, 3, 2, 2, 3, 3,
  2, 2, 3, 3, 2, 2, 2, 2, 3, 3, 3, 3, 3, 3, 3, 3, 3, 3, 1, 2,
  2, 2, 2, 2, 2, 2, 0, 1, 1, 1, -1, 1, 2, 1, 3, 3, 3, 3, 3, 3,
  3, 3, 1, 2, 2, 2, 2, 2, 2, 2, -1, 2, 2, 4, 3, 0, 2, 3, 0, 0]

/-- op.rs:146-152 `Opcode`; operands are `i32`, `extra` is a `Vec<isize>`. -/
structure Opcode where
  op : Op
  p1 : Option Int
  p2 : Option Int
  p3 : Option Int
  extra : List Int
  deriving DecidableEq, Repr

/-- op.rs:155-163 `Opcode::default` -/
def Opcode.default : Opcode := { op := .ONop, p1 := none, p2 := none, p3 := none, extra := [] }

end Verif.Brass
