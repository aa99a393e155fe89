import Verif.Spec.Hole

/-!
# Collecting a block and using it again (C95)

A collector that wants to use a block again resets its marks, marks lines for the objects that survive, and sets cursor and
limit to the place from which holes are to be searched (bumpblock.rs:121, "block is recycled").
-/

namespace Verif.Immix.Spec

open Verif Verif.Immix

/-- An object `(address, size)` in a block at `q` is covered by the marks: each of its bytes lies in a marked line or in the
line behind a marked line. -/
def Covered (m : BlockMeta) (q : Nat) (o : Nat × Nat) : Prop :=
  ∀ a, o.1 ≤ a → a < o.1 + o.2 → LineMarked m ((a - q) / 128) ∨ (128 ≤ a - q ∧ LineMarked m ((a - q) / 128 - 1))

/-- The life of a block: `b` is its state and `live` are the objects in it that have not been given up. -/
inductive Life (p : Profile) : BumpBlock → List (Nat × Nat) → Prop where
  /-- A new block is empty. -/
  | new (sys : Sys) (w w' : World) (b : BumpBlock) : BumpBlock.new sys w = (.ok b, w') → Life p b []
  /-- A request for an object of `n` bytes is answered. -/
  | alloc (b b' : BumpBlock) (live : List (Nat × Nat)) (n a : Nat) : Life p b live → 1 ≤ n → n < 2 ^ 63 →
      b.innerAlloc p n = .ret (some a, b') → Life p b' (live ++ [(a, n)])
  /-- A request is refused. -/
  | refused (b b' : BumpBlock) (live : List (Nat × Nat)) (n : Nat) : Life p b live → n < 2 ^ 63 →
      b.innerAlloc p n = .ret (none, b') → Life p b' live
  /-- A collection: some objects survive, the collector calls `mark_line`, `mark_block` and `reset` as it likes, as long as the survivors
  are covered at the end, and the block is recycled from offset `start` on; if that is in line 0 this line is marked too. -/
  | collect (b : BumpBlock) (live survivors : List (Nat × Nat)) (ops : List MarkOp) (m : BlockMeta) (start : Nat) : Life p b live →
      survivors.Sublist live → runMarks b.info ops = .ret m → (∀ o ∈ survivors, Covered m b.block.ptr o) → start ≤ 32768 →
      (LineMarked m 0 ∨ 128 ≤ start) → Life p { b with info := m, cursor := start, limit := start } survivors

end Verif.Immix.Spec
