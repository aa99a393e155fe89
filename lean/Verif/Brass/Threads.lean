import Verif.Brass.ParCode

/-!
# A process in which several threads call `Code::read`

Each thread reads a list of files one after the other and catches panics (`catch_unwind`, or one test of a test binary
after the other); a thread that ends at its first panic is one that is not scheduled any more.  All threads share
`static mut ERRORS` (code.rs:29).
-/

namespace Verif.Brass

open Verif

/-- What the caller of `Code::read` (code.rs:607) observes. -/
inductive Answer where
  | ok (c : Code)
  | err (e : DecodeError)
  | panic

/-- The result of a finished call, without the decoder, which is dropped. -/
def Res.answer : Res Code → Answer
  | .ok c _ => .ok c
  | .err e _ => .err e
  | .panic => .panic

/-- One thread: the files still to be read, the file being read and the state of that call, and the files read with the
answers received. -/
structure Thread where
  todo : List (List UInt8)
  cur : Option (List UInt8 × Tree Code)
  answers : List (List UInt8 × Answer)

/-- The process: the value of `ERRORS` (code.rs:29) and the threads. -/
structure Process where
  errors : Option DecodeError
  threads : List Thread

/-- One step of a thread when `ERRORS` is `e`: begin the next call of `Code::read`, access `ERRORS` once, or return from
the call.  Result: the new value of `ERRORS` and the new thread. -/
def Thread.step (p : Profile) (e : Option DecodeError) (t : Thread) : Option DecodeError × Thread :=
  match t.cur with
  | none =>
    match t.todo with
    | [] => (e, t)
    | b :: r => (e, { t with todo := r, cur := some (b, Par.read p b) })
  | some (b, .done r) => (e, { t with cur := none, answers := t.answers ++ [(b, r.answer)] })
  | some (b, .get k) => (e, { t with cur := some (b, k e) })
  | some (b, .set v u) => (v, { t with cur := some (b, u) })

/-- One step of thread number `i`. -/
def Process.step (p : Profile) (s : Process) (i : Nat) : Process :=
  match s.threads[i]? with
  | none => s
  | some t => { errors := (t.step p s.errors).1, threads := s.threads.set i (t.step p s.errors).2 }

/-- Run a schedule: the list of the threads that make the next step. -/
def Process.run (p : Profile) (s : Process) (schedule : List Nat) : Process := schedule.foldl (Process.step p) s

/-- Threads that have not begun yet; `files` says which files each of them will read. -/
def Process.start (e : Option DecodeError) (files : List (List (List UInt8))) : Process :=
  { errors := e, threads := files.map fun fs => { todo := fs, cur := none, answers := [] } }

/-- One thread alone: the answers to a sequence of calls of `Code::read`, panics being caught, and the final value of
`ERRORS`. -/
def history (p : Profile) : Option DecodeError → List (List UInt8) → List Answer × Option DecodeError
  | e, [] => ([], e)
  | e, b :: r =>
    let x := (Par.read p b).run e
    let y := history p x.2 r
    (x.1.answer :: y.1, y.2)

end Verif.Brass
