import Verif.Spec.Report

/-!
# Files of an unknown version, and beginnings of files

For C104.
-/

namespace Verif.Brass.Spec

open Verif Verif.Brass

/-- The file says that it is of a version that `Code::read` does not know. -/
def UnknownVersion (buf : List UInt8) (v : UInt8) : Prop :=
  ∃ rest, buf = 0x48 :: 0x4C :: 0x42 :: v :: rest ∧ (v.toNat < 2 ∨ 5 < v.toNat)

/-- A file up to the end of its function `i`, without the debug information of that function. -/
def upToFunctionG (p : Profile) (i : Nat) : G HLFunction := do
  let c ← upToFunctionsG
  G.guard (i < c.nfunctions)
  let c ← G.loop (functionsStepG p) 0 i c
  G.setCode c
  functionG

/-- `file` reaches at least to the end of function `i`, which is `f` (its debug information need not be there). -/
def ReachesFunction (p : Profile) (file : List UInt8) (i : Nat) (f : HLFunction) : Prop :=
  ∃ k c, k <+: file ∧ upToFunctionG p i noCode k f c

end Verif.Brass.Spec
