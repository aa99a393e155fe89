import Verif.Spec.Grammar

/-!
# What an error says about a file (C86)

`Fault file e` says that the error `e` is *true* of the bytes of `file`: at the position it names there is something of
the kind it names.  Nothing here depends on how the decoder works; positions count the bytes up to the end of the
offending item, or up to the place where bytes are missing.
-/

namespace Verif.Brass.Spec

open Verif Verif.Brass G

/-- Magic, version and counts. -/
def headerG : G Code := do
  magicG
  let v ← versionG
  countsG v

/-- A file up to the end of its string table. -/
def upToStringsG : G Code := do
  let c ← headerG
  poolsG c

/-- A file up to the end of its debug file names, which are the last thing before the types. -/
def upToTypesG : G Code := do
  let c ← upToStringsG
  let c ← bytesSectionG c
  debugFilesG c

/-- `k` is a phrase of `g` with value `c` (at the beginning of a file). -/
def Opens (g : G Code) (k : List UInt8) (c : Code) : Prop := ∃ c', g noCode k c c'

/-- The bytes `w` cannot stand in a file with the counts of `c`, for the given reason. -/
inductive BadItem (c : Code) : List UInt8 → DecodeErrorKind → Prop where
  /-- A type index that is out of range. -/
  | typeIndex (w : List UInt8) (i : Int) : IdxBytes w i → i < 0 ∨ c.ntypes ≤ i → BadItem c w .invalidTypeIndex
  /-- A string index that is out of range; in a file without types, any string index. -/
  | stringIndex (w : List UInt8) (i : Int) : IdxBytes w i → i < 0 ∨ c.nstrings ≤ i ∨ c.ntypes = 0 →
      BadItem c w .invalidStringIndex
  /-- A byte that is not the kind of a type. -/
  | typeKind (b : UInt8) : 23 ≤ b.toNat → c.ntypes ≠ 0 → BadItem c [b] .invalidType
  /-- A byte that is not an instruction. -/
  | opcode (b : UInt8) : 99 ≤ b.toNat → c.nfunctions ≠ 0 → BadItem c [b] .invalidOpcode
  /-- A switch to a debug file that is out of range. -/
  | debugFile (b b' : UInt8) : b.toNat % 2 = 1 → c.ndebugfiles ≤ b.toNat / 2 * 256 + b'.toNat → c.hasdebug ≠ 0 →
      BadItem c [b, b'] .invalidDebugFile
  /-- A run of debug positions that has at least two instructions too many. -/
  | debugRange (b : UInt8) : b.toNat % 4 = 2 → 2 ≤ b.toNat / 4 % 16 → c.hasdebug ≠ 0 → BadItem c [b] .outsideRange

/-- The error is true of the file. -/
inductive Fault (file : List UInt8) : DecodeError → Prop where
  /-- The byte before the position is the first one that differs from `HLB`. -/
  | header (pre rest : List UInt8) (b b' : UInt8) : file = pre ++ b :: rest → pre ++ [b'] <+: [0x48, 0x4C, 0x42] →
      b ≠ b' → Fault file ⟨.invalidBytecodeHeader, pre.length + 1⟩
  /-- The byte before the position is the version, and it is not 2, 3, 4 or 5. -/
  | version (b : UInt8) (rest : List UInt8) : file = [0x48, 0x4C, 0x42, b] ++ rest → b.toNat < 2 ∨ 5 < b.toNat →
      Fault file ⟨.unsupportedBytecodeVersion, 4⟩
  /-- The file ends before its version. -/
  | noVersion : file = [0x48, 0x4C, 0x42] → Fault file ⟨.noMoreData, 3⟩
  /-- The file ends in the middle of its integers. -/
  | noInt (k m r : List UInt8) (c : Code) (i : Nat) : Opens headerG k c → file = k ++ m ++ r → i < c.nints →
      m.length = 4 * i → r.length < 4 → Fault file ⟨.noMoreData, (k ++ m).length⟩
  /-- The file ends in the middle of its floats. -/
  | noFloat (k m r : List UInt8) (c : Code) (i : Nat) : Opens headerG k c → file = k ++ m ++ r → i < c.nfloats →
      m.length = 4 * c.nints + 8 * i → r.length < 8 → Fault file ⟨.noMoreData, (k ++ m).length⟩
  /-- The file ends before or in the size of its byte table. -/
  | noSize (k r : List UInt8) (c : Code) : Opens upToStringsG k c → file = k ++ r → 5 ≤ c.version → r.length < 4 →
      Fault file ⟨.noMoreData, k.length⟩
  /-- The file ends before or in its byte table. -/
  | noBytes (k w r : List UInt8) (c : Code) : Opens upToStringsG k c → file = k ++ w ++ r → 5 ≤ c.version →
      w.length = 4 → 0 ≤ twos32 (unsignedLE w) → (r.length : Int) < twos32 (unsignedLE w) →
      Fault file ⟨.noMoreData, (k ++ w).length⟩
  /-- A negative index, after the version, ends at the position. -/
  | negative (m w r : List UInt8) (i : Int) : file = m ++ w ++ r → IdxBytes w i → i < 0 → 4 ≤ m.length →
      Fault file ⟨.negativeIndex, (m ++ w).length⟩
  /-- A bad item, after the debug file names, ends at the position. -/
  | item (k m w r : List UInt8) (c : Code) (kind : DecodeErrorKind) : Opens upToTypesG k c → file = k ++ m ++ w ++ r →
      BadItem c w kind → Fault file ⟨kind, (k ++ m ++ w).length⟩

end Verif.Brass.Spec
