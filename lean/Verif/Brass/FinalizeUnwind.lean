import Verif.Brass.CodeHash

/-!
# `finalize` once more, with what it leaves behind when it panics

`finalize` changes the `CodeHash` in place.  A caller that catches the panic sees the tables as they are at that moment.
-/

namespace Verif.Brass

open Verif

/-- `for i in a..a+n { f(i, &mut b) }`, where `f` changes `b` only if it does not panic; `false` if an iteration panics. -/
def keep {β : Type} (f : Nat → β → Rust β) : (a n : Nat) → β → β × Bool
  | _, 0, b => (b, true)
  | a, n + 1, b =>
    match f a b with
    | .panic => (b, false)
    | .ret b' => keep f (a + 1) n b'

namespace CodeHash

/-- code_hash.rs:464-465: the signature is computed before the table is changed. -/
def signFunctionAt (i : Nat) (s : CodeHash) : Rust CodeHash := do
  let v ← s.signFunction i s.functionsSigns
  pure { s with functionsSigns := v }

/-- code_hash.rs:468-469 -/
def signNativeAt (i : Nat) (s : CodeHash) : Rust CodeHash := do
  let v ← s.signNative i s.functionsSigns
  pure { s with functionsSigns := v }

/-- code_hash.rs:460-477 `finalize`: the state it leaves behind, and whether it has returned. -/
def finalizeUnwind (s : CodeHash) : CodeHash × Bool :=
  match keep signFunctionAt 0 s.code.nfunctions { s with functionsSigns := List.replicate (s.code.nfunctions + s.code.nnatives) 0 } with
  | (s, false) => (s, false)
  | (s, true) =>
    match keep signNativeAt 0 s.code.nnatives s with
    | (s, false) => (s, false)
    | (s, true) => keep hashFunction 0 s.code.nfunctions { s with functionsHashes := List.replicate s.code.nfunctions 0 }

end CodeHash

end Verif.Brass
