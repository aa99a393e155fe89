import Verif.Rust

/-!
# Model of the crate `stickyimmix`

Every definition cites the Rust lines it models (paths relative to `crates/stickyimmix/src`).
Addresses and sizes are `Nat`; additions that could overflow `usize` go through `usizeAdd`.
-/

namespace Verif.Immix

open Verif

/-! ## constants.rs -/

/-- `size_of::<usize>()` on a 64-bit target (constants.rs:20, allocator.rs:134). -/
@[irreducible] def WORD : Nat := 8
/-- constants.rs:4 -/
@[irreducible] def BLOCK_SIZE_BITS : Nat := 15
/-- constants.rs:5 -/
@[irreducible] def BLOCK_SIZE : Nat := 1 <<< BLOCK_SIZE_BITS
/-- constants.rs:7 `!(BLOCK_SIZE - 1)` -/
@[irreducible] def BLOCK_PTR_MASK : Nat := 2 ^ 64 - 1 - (BLOCK_SIZE - 1)
/-- constants.rs:10 -/
@[irreducible] def LINE_SIZE_BITS : Nat := 7
/-- constants.rs:11 -/
@[irreducible] def LINE_SIZE : Nat := 1 <<< LINE_SIZE_BITS
/-- constants.rs:12 -/
@[irreducible] def LINE_COUNT : Nat := BLOCK_SIZE / LINE_SIZE
/-- constants.rs:15 `u32::MAX as usize` -/
@[irreducible] def MAX_ALLOC_SIZE : Nat := 2 ^ 32 - 1
/-- constants.rs:20 -/
@[irreducible] def FIRST_OBJECT_OFFSET : Nat := WORD * 2
/-- constants.rs:21 -/
@[irreducible] def BLOCK_CAPACITY : Nat := BLOCK_SIZE - FIRST_OBJECT_OFFSET
/-- constants.rs:24 -/
@[irreducible] def SMALL_OBJECT_MIN : Nat := 1
/-- constants.rs:25 -/
@[irreducible] def SMALL_OBJECT_MAX : Nat := LINE_SIZE
/-- constants.rs:26 -/
@[irreducible] def MEDIUM_OBJECT_MIN : Nat := SMALL_OBJECT_MAX + 1
/-- constants.rs:27 -/
@[irreducible] def MEDIUM_OBJECT_MAX : Nat := BLOCK_CAPACITY
/-- constants.rs:28 -/
@[irreducible] def LARGE_OBJECT_MIN : Nat := MEDIUM_OBJECT_MAX + 1
/-- constants.rs:29 -/
@[irreducible] def LARGE_OBJECT_MAX : Nat := MAX_ALLOC_SIZE

/-! Values of the constants (they are irreducible so that tactics do not evaluate them). -/

theorem WORD_eq : WORD = 8 := by unfold WORD; rfl
theorem BLOCK_SIZE_eq : BLOCK_SIZE = 32768 := by unfold BLOCK_SIZE BLOCK_SIZE_BITS; rfl
theorem LINE_SIZE_eq : LINE_SIZE = 128 := by unfold LINE_SIZE LINE_SIZE_BITS; rfl
theorem LINE_COUNT_eq : LINE_COUNT = 256 := by unfold LINE_COUNT; rw [BLOCK_SIZE_eq, LINE_SIZE_eq]
theorem MAX_ALLOC_SIZE_eq : MAX_ALLOC_SIZE = 4294967295 := by unfold MAX_ALLOC_SIZE; rfl
theorem FIRST_OBJECT_OFFSET_eq : FIRST_OBJECT_OFFSET = 16 := by unfold FIRST_OBJECT_OFFSET; rw [WORD_eq]
theorem BLOCK_CAPACITY_eq : BLOCK_CAPACITY = 32752 := by
  unfold BLOCK_CAPACITY; rw [BLOCK_SIZE_eq, FIRST_OBJECT_OFFSET_eq]
theorem SMALL_OBJECT_MIN_eq : SMALL_OBJECT_MIN = 1 := by unfold SMALL_OBJECT_MIN; rfl
theorem SMALL_OBJECT_MAX_eq : SMALL_OBJECT_MAX = 128 := by unfold SMALL_OBJECT_MAX; rw [LINE_SIZE_eq]
theorem MEDIUM_OBJECT_MIN_eq : MEDIUM_OBJECT_MIN = 129 := by unfold MEDIUM_OBJECT_MIN; rw [SMALL_OBJECT_MAX_eq]
theorem MEDIUM_OBJECT_MAX_eq : MEDIUM_OBJECT_MAX = 32752 := by unfold MEDIUM_OBJECT_MAX; rw [BLOCK_CAPACITY_eq]
theorem LARGE_OBJECT_MIN_eq : LARGE_OBJECT_MIN = 32753 := by unfold LARGE_OBJECT_MIN; rw [MEDIUM_OBJECT_MAX_eq]
theorem LARGE_OBJECT_MAX_eq : LARGE_OBJECT_MAX = 4294967295 := by unfold LARGE_OBJECT_MAX; rw [MAX_ALLOC_SIZE_eq]

/-! ## allocator.rs -/

/-- allocator.rs:10-16 `AllocError` -/
inductive AllocError where
  | badRequest
  | oom
  deriving DecidableEq, Repr

/-- allocator.rs:52-56 `SizeClass` -/
inductive SizeClass where
  | small
  | medium
  | large
  deriving DecidableEq, Repr

/-- allocator.rs:76-80 `Mark` -/
inductive Mark where
  | allocated
  | unmarked
  | marked
  deriving DecidableEq, Repr

/-- allocator.rs:59-66 `SizeClass::get_for_size` -/
def getForSize (objectSize : Nat) : Except AllocError SizeClass :=
  if SMALL_OBJECT_MIN ≤ objectSize ∧ objectSize ≤ SMALL_OBJECT_MAX then .ok .small
  else if MEDIUM_OBJECT_MIN ≤ objectSize ∧ objectSize ≤ MEDIUM_OBJECT_MAX then .ok .medium
  else if LARGE_OBJECT_MIN ≤ objectSize ∧ objectSize ≤ LARGE_OBJECT_MAX then .ok .large
  else .error .badRequest

/-- allocator.rs:133-136 `alloc_size_of`: `(object_size + (align - 1)) & !(align - 1)` on 64 bits. -/
def allocSizeOf (p : Profile) (objectSize : Nat) : Rust Nat := do
  let s ← usizeAdd p objectSize (WORD - 1)
  .ret (s &&& (2 ^ 64 - 1 - (WORD - 1)))

/-! ## The system allocator (`std::alloc`) and memory -/

/-- Memory: one byte per address, arbitrary initial contents. -/
abbrev Mem := Nat → UInt8

/-- `ptr::write` of the bytes of a value: overwrite `bytes.length` bytes from `addr` on. -/
def writeBytes (m : Mem) (addr : Nat) (bytes : List UInt8) : Mem := fun a =>
  if addr ≤ a then (bytes[a - addr]?).getD (m a) else m a

/-- The bytes at `addr .. addr + n`. -/
def readBytes (m : Mem) (addr n : Nat) : List UInt8 := (List.range n).map fun i => m (addr + i)

/-- Little-endian bytes of a machine word (`to_le_bytes`; x86-64/aarch64 memory layout). -/
def leBytes : Nat → Nat → List UInt8
  | 0, _ => []
  | n + 1, v => UInt8.ofNat (v % 256) :: leBytes n (v / 256)

/-- Behaviour of the environment: the answer of the `i`-th call of `std::alloc::alloc` with a given size and
alignment (`none` = null pointer), and the address of the `i`-th `Box<BlockMeta>`. -/
structure Sys where
  alloc : Nat → (size align : Nat) → Option Nat
  metaAddr : Nat → Nat

/-- `std::alloc::Layout` -/
structure Layout where
  size : Nat
  align : Nat
  deriving DecidableEq, Repr

/-- The part of the world the heap acts on: memory, number of calls made to the system allocator so far,
the log of blocks obtained and returned as `(pointer, size)`, the log of the metadata boxes allocated and freed, as their
addresses, and the log of the successful calls of `std::alloc::alloc` and of the calls of `dealloc`, as pointer and `Layout`. -/
structure World where
  mem : Mem
  calls : Nat
  obtained : List (Nat × Nat)
  freed : List (Nat × Nat)
  boxed : List Nat := []
  unboxed : List Nat := []
  allocs : List (Nat × Layout) := []
  deallocs : List (Nat × Layout) := []

/-! ## blockalloc.rs -/

/-- blockalloc.rs:29-35 `BlockError` -/
inductive BlockError where
  | badRequest
  | oom
  deriving DecidableEq, Repr

/-- blockalloc.rs:40-43 `Block` -/
structure Block where
  ptr : Nat
  size : Nat
  deriving DecidableEq, Repr

/-- `usize::is_power_of_two` (std): exactly one bit set; written with the usual bit trick. -/
def isPowerOfTwo (n : Nat) : Bool := n != 0 && (n &&& (n - 1)) == 0

/-- blockalloc.rs:96-107 `internal::alloc_block` -/
def allocBlock (sys : Sys) (w : World) (size : Nat) : Except BlockError Nat × World :=
  let layout : Layout := { size := size, align := size }
  match sys.alloc w.calls layout.size layout.align with
  | none => (.error .oom, { w with calls := w.calls + 1 })
  | some p => (.ok p, { w with calls := w.calls + 1, obtained := w.obtained ++ [(p, size)], allocs := w.allocs ++ [(p, layout)] })

/-- blockalloc.rs:111-117 `internal::dealloc_block` -/
def deallocBlock (w : World) (ptr size : Nat) : World :=
  let layout : Layout := { size := size, align := size }
  { w with freed := w.freed ++ [(ptr, size)], deallocs := w.deallocs ++ [(ptr, layout)] }

/-- blockalloc.rs:49-58 `Block::new` -/
def Block.new (sys : Sys) (w : World) (size : Nat) : Except BlockError Block × World :=
  if isPowerOfTwo size then
    match allocBlock sys w size with
    | (.ok p, w) => (.ok { ptr := p, size := size }, w)
    | (.error e, w) => (.error e, w)
  else (.error .badRequest, w)

/-- blockalloc.rs:84-88 `impl Drop for Block` -/
def Block.drop (w : World) (b : Block) : World := deallocBlock w b.ptr b.size

/-- blockalloc.rs:62-64 `Block::into_mut_ptr`: `self` is taken by value, the (Copy) pointer is read out and
`self` is dropped at the end of the function, which runs `Drop for Block`. -/
def Block.intoMutPtr (w : World) (b : Block) : Nat × World := (b.ptr, Block.drop w b)

/-- bumpblock.rs:9-16 `impl From<BlockError> for AllocError` -/
def allocErrorOfBlockError : BlockError → AllocError
  | .badRequest => .badRequest
  | .oom => .oom

end Verif.Immix
