import Verif.Spec.Preimage

/-!
# What a panicking `finalize` leaves behind (C102)
-/

namespace Verif.Brass.Spec

open Verif.Brass

/-- `x` is the signature of function `i`. -/
def FunctionSign (s : CodeHash) (i : Nat) (x : UInt32) : Prop :=
  ∃ f items b, s.code.functions[i]? = some f ∧ SignItems f items ∧ ItemsBytes s items b ∧ x = crc b

/-- `x` is the signature of native `i`. -/
def NativeSign (s : CodeHash) (i : Nat) (x : UInt32) : Prop :=
  ∃ n b, s.code.natives[i]? = some n ∧ ItemsBytes s (nativeItems n) b ∧ x = crc b

/-- `x` is the hash of function `i`, if the hashes of the functions are `hashes`. -/
def FunctionHash (s : CodeHash) (hashes : List UInt32) (i : Nat) (x : UInt32) : Prop :=
  ∃ f b, s.code.functions[i]? = some f ∧ ItemsBytes { s with functionsHashes := hashes } (funItems f) b ∧ x = crc b

/-- `finalize`, called in state `s`, has panicked and left `t`: everything is done up to a function or native that has no signature,
or a function that has no hash. -/
inductive Unfinished (s t : CodeHash) : Prop
  /-- the next function has no signature; the old hashes are still there -/
  | functions (signs : List UInt32) (short : signs.length < s.code.nfunctions) (done : ∀ i x, signs[i]? = some x → FunctionSign s i x)
      (stop : ∀ x, ¬ FunctionSign s signs.length x)
      (left : t = { s with functionsSigns := signs ++ List.replicate (s.code.nfunctions + s.code.nnatives - signs.length) 0 })
  /-- the next native has no signature; the old hashes are still there -/
  | natives (signs nats : List UInt32) (all : signs.length = s.code.nfunctions) (done : ∀ i x, signs[i]? = some x → FunctionSign s i x)
      (short : nats.length < s.code.nnatives) (done' : ∀ i x, nats[i]? = some x → NativeSign s i x) (stop : ∀ x, ¬ NativeSign s nats.length x)
      (left : t = { s with functionsSigns := nats ++ (signs ++ List.replicate s.code.nnatives 0).drop nats.length })
  /-- the next function has no hash -/
  | hashes (signs nats hashes : List UInt32) (all : signs.length = s.code.nfunctions) (done : ∀ i x, signs[i]? = some x → FunctionSign s i x)
      (all' : nats.length = s.code.nnatives) (done' : ∀ i x, nats[i]? = some x → NativeSign s i x) (short : hashes.length < s.code.nfunctions)
      (done'' : ∀ i x, hashes[i]? = some x → FunctionHash s (hashes.take i ++ List.replicate (s.code.nfunctions - i) 0) i x)
      (stop : ∀ x, ¬ FunctionHash s (hashes ++ List.replicate (s.code.nfunctions - hashes.length) 0) hashes.length x)
      (left : t = { s with functionsSigns := nats ++ (signs ++ List.replicate s.code.nnatives 0).drop s.code.nnatives,
                           functionsHashes := hashes ++ List.replicate (s.code.nfunctions - hashes.length) 0 })

end Verif.Brass.Spec
