import Verif.Spec.Report
import Verif.Spec.Module

/-!
# Specification: which numbers of the natives and of a function are wrong (C87)
-/

namespace Verif.Brass.Spec

open Verif Verif.Brass

/-- What is wrong with the number `i`, if it is the `j`-th one of the natives: each native consists of two strings, a type and
a number. -/
def nativeFault (c : Code) (j : Nat) (i : Int) : Option DecodeErrorKind :=
  if j % 4 < 2 then if 0 ≤ i ∧ i < c.nstrings then none else some .invalidStringIndex
  else if j % 4 = 2 then if 0 ≤ i ∧ i < c.ntypes then none else some .invalidTypeIndex
  else if i < 0 then some .negativeIndex else none

/-- What is wrong with the number `i`, if it is the `j`-th one of a function (before its instructions): the type, the number of the function,
the numbers of registers and of instructions, and the types of the registers. -/
def functionFault (c : Code) (j : Nat) (i : Int) : Option DecodeErrorKind :=
  if j = 1 ∨ j = 2 ∨ j = 3 then if i < 0 then some .negativeIndex else none
  else if 0 ≤ i ∧ i < c.ntypes then none else some .invalidTypeIndex

/-- The serialisation of a module up to its types. -/
def beforeTypes (m : RModule) : List UInt8 :=
  [0x48, 0x4C, 0x42, UInt8.ofNat m.version] ++ m.counts ++
  m.ints.flatMap (leBytesSigned 4) ++ m.floats.flatMap (leBytes 8) ++ hlStrings m.strings ++
  (if 5 ≤ m.version then leBytesSigned 4 m.bytes.length ++ m.bytes ++ m.bytesPos.flatMap ix else []) ++
  (if m.hasDebug then ix m.debugFiles.length ++ hlStrings m.debugFiles else [])

/-- The bytes of a type, or a byte in the place of a type. -/
def typeOrKind : RType ⊕ UInt8 → List UInt8
  | .inl t => t.encode
  | .inr v => [v]

/-- The bytes of a function before its instructions. -/
def functionHead (f : RFunction) : List UInt8 := ix f.type ++ ix f.findex ++ ix f.regs.length ++ ix f.ops.length ++ f.regs.flatMap ix

/-- The bytes of an instruction, or a byte in the place of an instruction. -/
def instrOrByte : Instr ⊕ UInt8 → List UInt8
  | .inl i => i.encode
  | .inr v => [v]

/-- What is wrong with an item of the debug information of a function with `nops` instructions, after items for `n` instructions, if there are
`nfiles` debug files: the file does not exist, or there are not so many instructions left.  (Runs are not counted, see C42.) -/
def debugFault (nfiles nops n : Nat) : DbgItem → Option DecodeErrorKind
  | .file f => if nfiles ≤ f then some .invalidDebugFile else none
  | .run count _ => if nops < n + count then some .outsideRange else none
  | _ => none

/-- The items that are for one instruction. -/
def oneInstr : DbgItem → Bool
  | .step _ => true
  | .abs _ => true
  | _ => false

end Verif.Brass.Spec
