import Verif.Immix.BlockApi
import Verif.Spec.Heap

/-!
# Programs that use `Block` directly

The client owns a list of `Block` values.  The system allocator may reuse memory that was returned to it.
-/

namespace Verif.Immix

open Verif Spec

/-- The state: the world, and the `Block` values the client owns. -/
structure Blocks where
  w : World
  owned : List Block

/-- What a client can do with the safe functions. -/
inductive BlockOp where
  /-- `Block::new(size)`; the block is kept if there is one -/
  | new (size : Nat)
  /-- drop the `i`-th owned block -/
  | drop (i : Nat)
  /-- call `into_mut_ptr` on the `i`-th owned block -/
  | intoMutPtr (i : Nat)

/-- The next state. -/
def Blocks.step (sys : Sys) (s : Blocks) : BlockOp → Blocks
  | .new size =>
    match Block.new sys s.w size with
    | (.ok b, w) => { w := w, owned := s.owned ++ [b] }
    | (.error _, w) => { w := w, owned := s.owned }
  | .drop i =>
    match s.owned[i]? with
    | some b => { w := b.drop s.w, owned := s.owned.eraseIdx i }
    | none => s
  | .intoMutPtr i =>
    match s.owned[i]? with
    | some b => { w := (b.intoMutPtr s.w).2, owned := s.owned.eraseIdx i }
    | none => s

/-- A program, from a state in which nothing is allocated. -/
def Blocks.run (sys : Sys) (mem : Mem) (ops : List BlockOp) : Blocks :=
  ops.foldl (Blocks.step sys) { w := { mem := mem, calls := 0, obtained := [], freed := [] }, owned := [] }

/-- Pointer and size of a block. -/
def Block.region (b : Block) : Nat × Nat := (b.ptr, b.size)

/-- The block `x` (pointer and size) is allocated: it was obtained from the system more often than returned to it. -/
def World.isLive (w : World) (x : Nat × Nat) : Prop := w.freed.count x < w.obtained.count x

/-- Contract of the system allocator in the course of a program: whenever it returns memory, that memory is aligned as
requested, not at address 0, and overlaps no memory that is live at that moment.  (It may reuse freed memory.) -/
def AllocatorOK (sys : Sys) (mem : Mem) (ops : List BlockOp) : Prop :=
  ∀ before size after, ops = before ++ .new size :: after → ∀ q,
    sys.alloc (Blocks.run sys mem before).w.calls size size = some q →
      0 < q ∧ size ∣ q ∧ ∀ x, (Blocks.run sys mem before).w.isLive x → DisjointRange q size x.1 x.2

end Verif.Immix
