import Verif.Spec.Reentrant
import Verif.Spec.Placement

/-!
# What the calls in one heap lead to, whatever happens in the others (C103)

The abstract allocator of `Spec/Placement.lean` for the programs of `Spec/Reentrant.lean`.  Each heap has its own; it is told what the
system has answered to the requests of this heap, and nothing about the other heaps.
-/

namespace Verif.Immix.Spec

open Verif Verif.Immix

/-- A call of `alloc` or `alloc_array`: in which heap, the sizes of header and object, whether its header constructor is reached (and
with which space), and what the system answered when it was asked for a block during the call. -/
structure Call where
  heap : Nat
  headerSize : Nat
  size : Nat
  entered : Entered
  answers : List (Option Nat)

/-- The call that is made when an object of `n` bytes is allocated in heap `k`. -/
def Nested.call (p : Profile) (sys : Sys) (s : Nested) (k n : Nat) : List Call :=
  match s.get k with
  | none => []
  | some h =>
    match allocEnter p sys h.headerSize h.bl s.w n with
    | .panic => []
    | .ret (e, _, w) =>
      [⟨k, h.headerSize, n, e, (List.range (w.calls - s.w.calls)).map fun i => sys.alloc (s.w.calls + i) 32768 32768⟩]

/-- The call made by an operation, if it makes one. -/
def Nested.callOf (p : Profile) (sys : Sys) (s : Nested) : NOp → List Call
  | .alloc k object => s.call p sys k object.length
  | .allocArray k n => s.call p sys k n
  | _ => []

/-- The states a program can reach (as `NestedPossible`), with all calls made so far. -/
inductive Logged (p : Profile) (sys : Sys) : List Call → Nested → Prop
  | start (mem : Mem) : Logged p sys [] (Nested.init mem)
  | op {log : List Call} {s s' : Nested} (o : NOp) : Logged p sys log s → Honest sys s.w → o.Sized → s.step p sys o = .ret s' →
      Logged p sys (log ++ s.callOf p sys o) s'
  | environment {log : List Call} {s : Nested} (mem : Mem) (calls : Nat) : Logged p sys log s → s.w.calls ≤ calls →
      (∀ x, s.w.isLive x → ∀ a, x.1 ≤ a → a < x.1 + x.2 → mem a = s.w.mem a) →
      Logged p sys log { s with w := { s.w with mem := mem, calls := calls } }

/-- The calls in heap `k`. -/
def callsIn (k : Nat) (log : List Call) : List Call := log.filter fun c => c.heap == k

/-- What the system answered during some calls. -/
def answersTo (calls : List Call) : List (Option Nat) := calls.flatMap fun c => c.answers

/-- A list of answers as a function of the number of the question. -/
def inOrder (l : List (Option Nat)) (i : Nat) : Option Nat := (l[i]?).join

/-- What a call with `total` bytes for header and object leads to: if the rounding of the size overflows, a panic (with overflow
checks); otherwise the space, or the error, of the abstract allocator. -/
def Placement.enter (answer : Nat → Option Nat) (p : Profile) (P : Placement) (total : Nat) : Entered × Placement :=
  if 2 ^ 64 ≤ total + 7 ∧ p = .dev then (.panicked, P)
  else match P.put answer (roundUp total) with
    | (.ok a, P) => (.calls a (classOf (roundUp total)), P)
    | (.error e, P) => (.err e, P)

/-- A sequence of calls, each given by the number of bytes for header and object. -/
def Placement.enterAll (answer : Nat → Option Nat) (p : Profile) (P : Placement) : List Nat → List Entered × Placement
  | [] => ([], P)
  | total :: rest =>
    let r := P.enter answer p total
    let t := Placement.enterAll answer p r.2 rest
    (r.1 :: t.1, t.2)

/-- What the abstract allocator does for some calls: it sees the sizes and the answers of the system. -/
def asAlone (p : Profile) (calls : List Call) : List Entered × Placement :=
  Placement.init.enterAll (inOrder (answersTo calls)) p (calls.map fun c => c.headerSize + c.size)

/-- Pointer and size of the object for which a call has found space. -/
def Call.slot (c : Call) : Option (Nat × Nat) :=
  match c.entered with
  | .calls space _ => some (space + c.headerSize, c.size)
  | _ => none

end Verif.Immix.Spec
