import Verif.Spec.Preimage

/-!
# The result of `CodeHash::alloc` (C88)
-/

namespace Verif.Brass.Spec

open Verif Verif.Brass

/-- A native with index `x` is at position `i` of the natives. -/
def NativeAt (c : Code) (x i : Nat) : Prop := ∃ n, c.natives[i]? = some n ∧ n.findex = x

/-- A function with index `x` is at position `i` of the functions. -/
def FunctionAt (c : Code) (x i : Nat) : Prop := ∃ f, c.functions[i]? = some f ∧ f.findex = x

/-- The entry of index `x` in the table of functions: that of the last native with this index (its position after the functions,
in 32 bits); if there is none, the position of the last function with it; if there is none, 0. -/
inductive IndexEntry (c : Code) (x : Nat) : Int → Prop where
  | native (i : Nat) : Last (NativeAt c x) i → IndexEntry c x (wrapped (c.nfunctions + i))
  | function (i : Nat) : (∀ j, ¬ NativeAt c x j) → Last (FunctionAt c x) i → IndexEntry c x i
  | unused : (∀ j, ¬ NativeAt c x j) → (∀ j, ¬ FunctionAt c x j) → IndexEntry c x 0

/-- `ch` is what `alloc` makes of an accepted file `c`. -/
structure Allocated (c : Code) (ch : CodeHash) : Prop where
  hashable : Hashable c
  code : ch.code = c
  /-- the hashes of the declared types, followed by as many zeros -/
  types : ch.typeHashes = (c.types.take c.ntypes).map tableHash ++ List.replicate c.ntypes 0
  /-- one signature for each global -/
  globalCount : ch.globalsSigns.length = c.nglobals
  globals : ∀ i t, i < c.nglobals → c.globals[i]? = some t → ∃ f x, BootFunction c f ∧ GlobalSource c f i x ∧ ch.globalsSigns[i]? = some (x ^^^ typeSign t)
  /-- one entry for each function and each native -/
  indexCount : ch.functionsIndexes.length = c.nfunctions + c.nnatives
  indexes : ∀ x, x < c.nfunctions + c.nnatives → ∃ y, IndexEntry c x y ∧ ch.functionsIndexes[x]? = some y
  /-- no signatures and hashes of functions yet -/
  functions : ch.functionsSigns = [] ∧ ch.functionsHashes = []

end Verif.Brass.Spec
