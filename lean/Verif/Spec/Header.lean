import Verif.Brass.Decoder
import Verif.Spec.Grammar

/-!
# The header of a bytecode file
-/

namespace Verif.Brass.Spec

/-- What the header says. -/
structure Header where
  version : Nat
  flags : Nat
  nints : Nat
  nfloats : Nat
  nstrings : Nat
  nbytes : Nat
  ntypes : Nat
  nglobals : Nat
  nnatives : Nat
  nfunctions : Nat
  nconstants : Nat
  entrypoint : Nat

/-- The numbers after the version, in the order of the file; the number of byte constants is present from version 5 on,
the number of constants from version 4 on. -/
def Header.words (h : Header) : List Nat :=
  [h.flags, h.nints, h.nfloats, h.nstrings] ++ (if 5 ≤ h.version then [h.nbytes] else []) ++
  [h.ntypes, h.nglobals, h.nnatives, h.nfunctions] ++ (if 4 ≤ h.version then [h.nconstants] else []) ++ [h.entrypoint]

/-- `k` is a sequence of indexes with the values `ns`. -/
inductive IdxSeq : List Nat → List UInt8 → Prop where
  | nil : IdxSeq [] []
  | cons (n : Nat) (ns : List Nat) (k k' : List UInt8) : IdxBytes k (n : Int) → IdxSeq ns k' → IdxSeq (n :: ns) (k ++ k')

/-- `k` are the bytes of the header `h`; absent counts are 0. -/
def HeaderBytes (h : Header) (k : List UInt8) : Prop :=
  2 ≤ h.version ∧ h.version ≤ 5 ∧ (h.version < 5 → h.nbytes = 0) ∧ (h.version < 4 → h.nconstants = 0) ∧
  ∃ k', k = 0x48 :: 0x4C :: 0x42 :: UInt8.ofNat h.version :: k' ∧ IdxSeq h.words k'

/-- A file that declares no debug info and no types, globals, natives, functions or constants. -/
def Header.Bare (h : Header) : Prop :=
  h.flags % 2 = 0 ∧ h.ntypes = 0 ∧ h.nglobals = 0 ∧ h.nnatives = 0 ∧ h.nfunctions = 0 ∧ h.nconstants = 0

instance (h : Header) : Decidable h.Bare := by unfold Header.Bare; infer_instance

end Verif.Brass.Spec
