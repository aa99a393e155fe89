import Verif.Immix.BumpBlock

/-!
# Specification vocabulary for line marks and holes (C13-C17, C22)

Independent of the search loop: which lines may be reused, and what the first hole is.
-/

namespace Verif.Immix.Spec

open Verif Verif.Immix

/-- Line `j` of a block is marked. -/
def LineMarked (m : BlockMeta) (j : Nat) : Prop := m.lineMark.toList[j]? = some true

/-- Line `j` exists (a block has 256 lines) and is not marked. -/
def LineFree (m : BlockMeta) (j : Nat) : Prop := j < 256 ∧ ¬ LineMarked m j

/-- Line `j` may be reused by a search that starts at line `s`: it is free, not before `s`, and the line before it was
seen to be free as well (an object beginning in a marked line may spill into the line after it, which is not marked
itself: "conservative marking", blockmeta.rs:60-67).  Line 0 has no line before it. -/
def Usable (m : BlockMeta) (s j : Nat) : Prop :=
  s ≤ j ∧ LineFree m j ∧ (j = 0 ∨ (s < j ∧ LineFree m (j - 1)))

/-- `[a, b)` are the lines of the first hole at or after line `s`: `a` is the lowest usable line, all lines of the hole
are free and the hole is followed by a marked line or the end of the block. -/
structure FirstHole (m : BlockMeta) (s a b : Nat) : Prop where
  usable : Usable m s a
  first : ∀ j, Usable m s j → a ≤ j
  nonempty : a < b
  free : ∀ j, a ≤ j → j < b → LineFree m j
  maximal : b = 256 ∨ LineMarked m b

/-- There is room for `size` bytes in usable lines of a search starting at line `s`. -/
def RoomFor (m : BlockMeta) (s size : Nat) : Prop :=
  ∃ a b, a < b ∧ b ≤ 256 ∧ (∀ j, a ≤ j → j < b → Usable m s j) ∧ size ≤ (b - a) * 128

/-- Lines `[a, b)` are one of the holes left after line `s`: a maximal run of usable lines. -/
structure HoleAt (m : BlockMeta) (s a b : Nat) : Prop where
  nonempty : a < b
  usable : ∀ j, a ≤ j → j < b → Usable m s j
  left : a = 0 ∨ ¬ Usable m s (a - 1)
  right : ¬ Usable m s b

/-- The holes of a block that lie behind its current one. -/
def HoleAhead (b : BumpBlock) (lo hi : Nat) : Prop := HoleAt b.info (b.limit / 128) lo hi

/-- A hole of lines `[lo, hi)` has room for `n` bytes. -/
def Fits (n lo hi : Nat) : Prop := n ≤ (hi - lo) * 128

/-- The block with its free window set to the bytes `[cursor, limit)`. -/
def window (b : BumpBlock) (cursor limit : Nat) : BumpBlock := { b with cursor := cursor, limit := limit }

/-- Next-fit placement of `n` bytes in a block: the answer and the block afterwards. -/
inductive NextFit (b : BumpBlock) (n : Nat) : Option Nat → BumpBlock → Prop where
  /-- The rest of the current hole suffices: the next bytes. -/
  | current : b.cursor + n ≤ b.limit → NextFit b n (some (b.block.ptr + b.cursor)) (window b (b.cursor + n) b.limit)
  /-- Otherwise: the start of the first hole behind it that has room. -/
  | hole (lo hi : Nat) : b.limit < b.cursor + n → HoleAhead b lo hi → Fits n lo hi →
      (∀ lo' hi', HoleAhead b lo' hi' → lo' < lo → ¬ Fits n lo' hi') →
      NextFit b n (some (b.block.ptr + lo * 128)) (window b (lo * 128 + n) (hi * 128))
  /-- No hole has room: refused, and the block moves on to its last hole, giving up the current one and all between. -/
  | last (lo hi : Nat) : b.limit < b.cursor + n → HoleAhead b lo hi → (∀ lo' hi', HoleAhead b lo' hi' → lo' ≤ lo) →
      (∀ lo' hi', HoleAhead b lo' hi' → ¬ Fits n lo' hi') → NextFit b n none (window b (lo * 128) (hi * 128))
  /-- There is no further hole: refused, nothing changes. -/
  | full : b.limit < b.cursor + n → (∀ lo' hi', ¬ HoleAhead b lo' hi') → NextFit b n none b

/-- A sequence of requests to one block; the answers in order and the final block. -/
def allocSeq (p : Profile) (b : BumpBlock) : List Nat → Rust (List (Option Nat) × BumpBlock)
  | [] => .ret ([], b)
  | n :: ns => do
    let (r, b) ← b.innerAlloc p n
    let (rs, b) ← allocSeq p b ns
    .ret (r :: rs, b)

/-- The regions `(address, size)` handed out by a sequence of requests. -/
def regions : (sizes : List Nat) → (answers : List (Option Nat)) → List (Nat × Nat)
  | n :: ns, some a :: rs => (a, n) :: regions ns rs
  | _ :: ns, none :: rs => regions ns rs
  | _, _ => []

/-- First-come first-served bump allocation of an area of `cap` bytes of which `used` are taken: each request that still
fits gets the next bytes, each other request is refused. -/
def greedy (base cap : Nat) : (used : Nat) → List Nat → List (Option Nat)
  | _, [] => []
  | used, n :: ns =>
    if used + n ≤ cap then some (base + used) :: greedy base cap (used + n) ns
    else none :: greedy base cap used ns

/-- A recycled block: some lines are marked and `limit` is set to `cursor` (bumpblock.rs:121, "block is recycled"). -/
structure Recycled (b : BumpBlock) : Prop where
  limit : b.limit = b.cursor
  inBlock : b.cursor ≤ 32768

/-- What a client can do with line marks. -/
inductive MarkOp where
  | markLine (i : Nat)
  | markBlock
  | reset

/-- A sequence of mark operations. -/
def runMarks (m : BlockMeta) : List MarkOp → Rust BlockMeta
  | [] => .ret m
  | .markLine i :: ops => do
    let m ← m.markLine i
    runMarks m ops
  | .markBlock :: ops => runMarks m.markBlock ops
  | .reset :: ops => runMarks m.reset ops

/-- Line `i` was marked in `ops` after the last reset. -/
def MarkedSince (i : Nat) : List MarkOp → Prop
  | [] => False
  | .markLine j :: ops => (j = i ∧ MarkOp.reset ∉ ops) ∨ MarkedSince i ops
  | .markBlock :: ops => MarkedSince i ops
  | .reset :: ops => MarkedSince i ops

/-- The block was marked in `ops` after the last reset. -/
def BlockMarkedSince (ops : List MarkOp) : Prop := ∃ a b, ops = a ++ MarkOp.markBlock :: b ∧ MarkOp.reset ∉ b

/-- Shape of a block between calls of `inner_alloc` (`new`, recycling and `inner_alloc` keep it). -/
structure HoleOK (b : BumpBlock) : Prop where
  le : b.cursor ≤ b.limit
  lim : b.limit ≤ 32768

end Verif.Immix.Spec
