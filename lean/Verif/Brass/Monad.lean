import Verif.Rust
import Verif.Brass.Types

/-!
# The decoding monad

`Decoder` (decoder.rs:9-13) plus the process-wide `static mut ERRORS` (code.rs:29) form the state.  A Rust function
returning `Result<T, DecodeError>` becomes `M T`: it returns `Ok`, returns `Err`, or panics.
-/

namespace Verif.Brass

open Verif

/-- decoder.rs:9-13 `Decoder` (`buf`: what is left of the input), and `ERRORS` (code.rs:29). -/
structure St where
  buf : List UInt8
  pos : Nat
  code : Code
  errors : Option DecodeError

/-- Outcome of a decoding function. -/
inductive Out (α : Type) where
  | ok (a : α) (s : St)
  | err (e : DecodeError) (s : St)
  | panic

/-- A decoding function. -/
def M (α : Type) := St → Out α

namespace M

/-- `Ok(a)` -/
protected def pure {α : Type} (a : α) : M α := fun s => .ok a s

/-- `let a = x?; f(a)` -/
protected def bind {α β : Type} (x : M α) (f : α → M β) : M β := fun s =>
  match x s with
  | .ok a s => f a s
  | .err e s => .err e s
  | .panic => .panic

/-- The `do` notation for sequences of Rust statements (a `?` or a panic ends the sequence); no code of its own. -/
instance : Monad M where
  pure := M.pure
  bind := M.bind

/-- `panic!`, a failing `unwrap`, an index out of range … -/
def panic {α : Type} : M α := fun _ => .panic

/-- `Err(e)` -/
def fail {α : Type} (e : DecodeError) : M α := fun s => .err e s

/-- `decoder.code` -/
def getCode : M Code := fun s => .ok s.code s

/-- `ERRORS` -/
def getErrors : M (Option DecodeError) := fun s => .ok s.errors s

/-- `&decoder.buf[..n]`: panics if the buffer is shorter. -/
def peek (n : Nat) : M (List UInt8) := fun s =>
  if n ≤ s.buf.length then .ok (s.buf.take n) s else .panic

/-- `decoder.code = c` -/
def setCode (c : Code) : M Unit := fun s => .ok () { s with code := c }

/-- `x.unwrap()` on a `Result` -/
def unwrap {α : Type} (x : M α) : M α := fun s =>
  match x s with
  | .ok a s => .ok a s
  | .err _ _ => .panic
  | .panic => .panic

/-- `unwrap()` on an `Option` -/
def unwrapOpt {α : Type} : Option α → M α
  | some a => M.pure a
  | none => M.panic

/-- `Err(DecodeError::with_info(kind, decoder.file_position))` -/
def failAt {α : Type} (k : DecodeErrorKind) : M α := fun s => .err { kind := k, position := s.pos } s

/-- `ERRORS = Some(DecodeError::with_info(kind, decoder.file_position))` -/
def setError (k : DecodeErrorKind) : M Unit := fun s =>
  .ok () { s with errors := some { kind := k, position := s.pos } }

/-- code.rs:590-596 `Code::map_err`: record the error unless one is recorded already. -/
def recordError (e : DecodeError) (s : St) : St :=
  match s.errors with
  | none => { s with errors := some e }
  | some _ => s

/-- `Code::map_err(DecodeError::with_info(kind, decoder.file_position))` -/
def mapErrAt (k : DecodeErrorKind) : M Unit := fun s =>
  .ok () (recordError { kind := k, position := s.pos } s)

/-- `if let Ok(a) = x.map_err(Code::map_err) { … }`: an error is recorded and skipped. -/
def okOrRecord {α : Type} (x : M α) : M (Option α) := fun s =>
  match x s with
  | .ok a s => .ok (some a) s
  | .err e s => .ok none (recordError e s)
  | .panic => .panic

/-- code.rs:598-605 `Code::check_error()?` -/
def checkError : M Unit := fun s =>
  match s.errors with
  | some e => .err e s
  | none => .ok () s

/-- `v.insert(i, x)`: panics if `i > v.len()`. -/
def insertAt {α : Type} (v : List α) (i : Nat) (x : α) : M (List α) :=
  if i ≤ v.length then M.pure (v.insertIdx i x) else M.panic

/-- `for i in a..a+n { b = f(i, b) }` -/
def forRange {β : Type} (f : Nat → β → M β) : (a n : Nat) → β → M β
  | _, 0, b => M.pure b
  | a, n + 1, b => M.bind (f a b) (fun b => forRange f (a + 1) n b)

/-- `while cond(x) { x = body(x) }` for a body that reads at least one byte in every round.  If it did not, the real
loop could run forever; the model reports a panic then.  `debugBody_consumes` shows that this does not happen. -/
def whileReading {β : Type} (cond : β → Bool) (body : β → M β) (b : β) (s : St) : Out β :=
  if cond b then
    match body b s with
    | .ok b' s' => if s'.buf.length < s.buf.length then whileReading cond body b' s' else .panic
    | .err e s' => .err e s'
    | .panic => .panic
  else .ok b s
termination_by s.buf.length

end M

end Verif.Brass
