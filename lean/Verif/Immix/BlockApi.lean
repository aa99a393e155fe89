import Verif.Immix.Basic

/-!
# The rest of `stickyimmix/src/blockalloc.rs`
-/

namespace Verif.Immix

/-- blockalloc.rs:67-69 `Block::size` -/
def Block.sizeOf (b : Block) : Nat := b.size

/-- blockalloc.rs:72-74 `Block::from_raw_parts` (the pointer is a `NonNull<u8>`, represented by its address) -/
def Block.fromRawParts (ptr size : Nat) : Block := { ptr := ptr, size := size }

/-- blockalloc.rs:78-80 `Block::as_ptr` -/
def Block.asPtr (b : Block) : Nat := b.ptr

end Verif.Immix
