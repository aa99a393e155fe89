import Verif.Rust
import Verif.Brass.Types

/-!
# A finer model of the decoding functions: accesses to `ERRORS` one by one

In `Verif/Brass/Monad.lean` a decoding function is a state transformer: nothing happens between two accesses to the
process-wide `static mut ERRORS` (code.rs:29), and a panic ends everything.  Here a decoding function is a program that
emits its reads and writes of `ERRORS` one at a time, everything else (the `Decoder`) being private to the running call.
Calls can then be interleaved arbitrarily with other threads, and the value of `ERRORS` after a panic is known.

`Verif/Brass/ParCode.lean` models code.rs in this style, `Verif/Brass/ParSim.lean` proves that running such a program
alone gives exactly the model of `Verif/Brass/Code.lean`.

Simplification: an access to `ERRORS` is atomic and immediately visible to all threads (in Rust, unsynchronised accesses
are undefined behaviour).
-/

namespace Verif.Brass

open Verif

/-- decoder.rs:9-13 `Decoder`: the state private to one call of `Code::read`. -/
structure Dec where
  buf : List UInt8
  pos : Nat
  code : Code

/-- How a decoding function ends: `Ok`, `Err` or a panic. -/
inductive Res (α : Type) where
  | ok (a : α) (d : Dec)
  | err (e : DecodeError) (d : Dec)
  | panic

/-- A running decoding function: it has ended, or it is about to read or to write `ERRORS`. -/
inductive Tree (α : Type) where
  | done (r : Res α)
  | get (k : Option DecodeError → Tree α)
  | set (v : Option DecodeError) (t : Tree α)

namespace Tree

/-- Continue with `k` when `t` has ended. -/
def andThen {α β : Type} : Tree α → (Res α → Tree β) → Tree β
  | .done r, k => k r
  | .get g, k => .get fun v => (g v).andThen k
  | .set v t, k => .set v (t.andThen k)

/-- Run `t` without interruption: how it ends, and the final value of `ERRORS` (also after a panic). -/
def run {α : Type} : Tree α → Option DecodeError → Res α × Option DecodeError
  | .done r, e => (r, e)
  | .get k, e => (k e).run e
  | .set v t, _ => t.run v

end Tree

/-- A decoding function, started with the given decoder. -/
def P (α : Type) := Dec → Tree α

namespace P

/-- `Ok(a)` -/
protected def pure {α : Type} (a : α) : P α := fun d => .done (.ok a d)

/-- `let a = x?; f(a)` -/
protected def bind {α β : Type} (x : P α) (f : α → P β) : P β := fun d =>
  (x d).andThen fun r => match r with
    | .ok a d => f a d
    | .err e d => .done (.err e d)
    | .panic => .done .panic

/-- The `do` notation for sequences of Rust statements (a `?` or a panic ends the sequence); no code of its own. -/
instance : Monad P where
  pure := P.pure
  bind := P.bind

/-- `panic!`, a failing `unwrap`, an index out of range … -/
def panic {α : Type} : P α := fun _ => .done .panic

/-- `decoder.code` -/
def getCode : P Code := fun d => .done (.ok d.code d)

/-- `decoder.code = c` -/
def setCode (c : Code) : P Unit := fun d => .done (.ok () { d with code := c })

/-- read `ERRORS` -/
def getErrors : P (Option DecodeError) := fun d => .get fun v => .done (.ok v d)

/-- `&decoder.buf[..n]`: panics if the buffer is shorter. -/
def peek (n : Nat) : P (List UInt8) := fun d =>
  if n ≤ d.buf.length then .done (.ok (d.buf.take n) d) else .done .panic

/-- `x.unwrap()` on a `Result` -/
def unwrap {α : Type} (x : P α) : P α := fun d =>
  (x d).andThen fun r => match r with
    | .ok a d => .done (.ok a d)
    | .err _ _ => .done .panic
    | .panic => .done .panic

/-- `unwrap()` on an `Option` -/
def unwrapOpt {α : Type} : Option α → P α
  | some a => P.pure a
  | none => P.panic

/-- `Err(DecodeError::with_info(kind, decoder.file_position))` -/
def failAt {α : Type} (k : DecodeErrorKind) : P α := fun d => .done (.err { kind := k, position := d.pos } d)

/-- `ERRORS = Some(DecodeError::with_info(kind, decoder.file_position))` -/
def setError (k : DecodeErrorKind) : P Unit := fun d =>
  .set (some { kind := k, position := d.pos }) (.done (.ok () d))

/-- code.rs:590-596 `Code::map_err`: read `ERRORS`, and write it if it was `None`; then end with `r`. -/
def recordError {α : Type} (e : DecodeError) (r : Res α) : Tree α :=
  .get fun v => match v with
    | none => .set (some e) (.done r)
    | some _ => .done r

/-- `Code::map_err(DecodeError::with_info(kind, decoder.file_position))` -/
def mapErrAt (k : DecodeErrorKind) : P Unit := fun d => recordError { kind := k, position := d.pos } (.ok () d)

/-- `if let Ok(a) = x.map_err(Code::map_err) { … }` -/
def okOrRecord {α : Type} (x : P α) : P (Option α) := fun d =>
  (x d).andThen fun r => match r with
    | .ok a d => .done (.ok (some a) d)
    | .err e d => recordError e (.ok none d)
    | .panic => .done .panic

/-- `x.map_err(Code::map_err).unwrap()`: an `Err` is recorded in `ERRORS`, then `unwrap` panics. -/
def unwrapRecord {α : Type} (x : P α) : P α := fun d =>
  (x d).andThen fun r => match r with
    | .ok a d => .done (.ok a d)
    | .err e _ => recordError e .panic
    | .panic => .done .panic

/-- code.rs:598-605 `Code::check_error()?` -/
def checkError : P Unit := fun d => .get fun v => match v with
  | some e => .done (.err e d)
  | none => .done (.ok () d)

/-- `v.insert(i, x)`: panics if `i > v.len()`. -/
def insertAt {α : Type} (v : List α) (i : Nat) (x : α) : P (List α) :=
  if i ≤ v.length then P.pure (v.insertIdx i x) else P.panic

/-- `for i in a..a+n { b = f(i, b) }` -/
def forRange {β : Type} (f : Nat → β → P β) : (a n : Nat) → β → P β
  | _, 0, b => P.pure b
  | a, n + 1, b => P.bind (f a b) (fun b => forRange f (a + 1) n b)

/-- `while cond(x) { x = body(x) }` for a body that reads at least one byte in every round, with `fuel` more than the
number of remaining bytes: see `M.whileReading`. -/
def whileFuel {β : Type} (cond : β → Bool) (body : β → P β) : Nat → β → P β
  | 0, _ => P.panic
  | n + 1, b => fun d =>
    if cond b then
      (body b d).andThen fun r => match r with
        | .ok b' d' => if d'.buf.length < d.buf.length then whileFuel cond body n b' d' else .done .panic
        | .err e d' => .done (.err e d')
        | .panic => .done .panic
    else .done (.ok b d)

/-- `while cond(x) { x = body(x) }` -/
def whileReading {β : Type} (cond : β → Bool) (body : β → P β) (b : β) : P β := fun d =>
  whileFuel cond body (d.buf.length + 1) b d

end P

end Verif.Brass
