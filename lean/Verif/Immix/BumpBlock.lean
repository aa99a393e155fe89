import Verif.Immix.BlockMeta

/-!
# Model of `stickyimmix/src/bumpblock.rs`
-/

namespace Verif.Immix

open Verif

/-- bumpblock.rs:25-30 `BumpBlock`.  `metaPtr` is the address of the boxed metadata (`&*block.meta`). -/
structure BumpBlock where
  cursor : Nat
  limit : Nat
  block : Block
  info : BlockMeta
  metaPtr : Nat

/-- bumpblock.rs:52-56 `BumpBlock::write` (unchecked): write the bytes of a value at `offset` in the block. -/
def BumpBlock.write (m : Mem) (b : BumpBlock) (bytes : List UInt8) (offset : Nat) : Mem :=
  writeBytes m (b.block.ptr + offset) bytes

/-- bumpblock.rs:36-48 `BumpBlock::new` -/
def BumpBlock.new (sys : Sys) (w : World) : Except AllocError BumpBlock × World :=
  match Block.new sys w BLOCK_SIZE with
  | (.error e, w) => (.error (allocErrorOfBlockError e), w)
  | (.ok blk, w) =>
    let b : BumpBlock := {
      cursor := FIRST_OBJECT_OFFSET
      limit := BLOCK_SIZE
      block := blk
      info := BlockMeta.new
      metaPtr := sys.metaAddr w.calls }
    -- lines 44-45: write the metadata pointer at offset 0
    (.ok b, { w with mem := BumpBlock.write w.mem b (leBytes WORD b.metaPtr) 0, boxed := w.boxed ++ [b.metaPtr] })

/-- bumpblock.rs:61-79 `inner_alloc`; `some a` is the address handed out. -/
def BumpBlock.innerAlloc (p : Profile) (b : BumpBlock) (allocSize : Nat) : Rust (Option Nat × BumpBlock) :=
  match usizeAdd p b.cursor allocSize with
  | .panic => .panic
  | .ret nextBump =>
    if nextBump > b.limit then
      if b.limit < BLOCK_SIZE then
        match _h : b.info.findNextAvailableHole b.limit with
        | .panic => .panic
        | .ret none => .ret (none, b)
        | .ret (some hole) =>
          BumpBlock.innerAlloc p { b with cursor := hole.1, limit := hole.2 } allocSize
      else .ret (none, b)
    else .ret (some (b.block.ptr + b.cursor), { b with cursor := nextBump })
termination_by BLOCK_SIZE - b.limit
decreasing_by
  have := findNextAvailableHole_limit (c := hole.1) (l := hole.2) _h
  omega

/-- bumpblock.rs:83-85 `current_hole_size`: `limit - cursor` (an underflow panics in `dev`, wraps in `release`;
`cursor ≤ limit` always holds, see C114). -/
def BumpBlock.currentHoleSize (p : Profile) (b : BumpBlock) : Rust Nat :=
  if b.cursor ≤ b.limit then .ret (b.limit - b.cursor)
  else match p with
    | .dev => .panic
    | .release => .ret (b.limit + 2 ^ 64 - b.cursor)

/-- `Drop` glue of `BumpBlock`: the fields are dropped in declaration order, first the `Block`, then the boxed metadata. -/
def BumpBlock.drop (w : World) (b : BumpBlock) : World :=
  let w := Block.drop w b.block
  { w with unboxed := w.unboxed ++ [b.metaPtr] }

end Verif.Immix
