import Verif.Immix.BumpBlock

/-!
# Model of `stickyimmix/src/heap.rs`
-/

namespace Verif.Immix

open Verif

/-- heap.rs:21-25 `BlockList` -/
structure BlockList where
  head : Option BumpBlock
  overflow : Option BumpBlock
  rest : List BumpBlock

/-- heap.rs:29-35 `BlockList::new`, heap.rs:94-99 `StickyImmixHeap::new` (the heap is just its block list) -/
def BlockList.new : BlockList := { head := none, overflow := none, rest := [] }

/-- Result of a heap call: a value or an `AllocError`, with the new block list and world. -/
abbrev HeapOut (α : Type) := Except AllocError α × BlockList × World

/-- heap.rs:40-79 `BlockList::overflow_alloc` -/
def BlockList.overflowAlloc (p : Profile) (sys : Sys) (bl : BlockList) (w : World) (allocSize : Nat) : Rust (HeapOut Nat) :=
  -- line 41: assert!
  if ¬ allocSize ≤ BLOCK_CAPACITY then .panic
  else match bl.overflow with
    | some ov => do
      let (r, ov) ← ov.innerAlloc p allocSize
      match r with
      | some space => .ret (.ok space, { bl with overflow := some ov }, w)
      | none =>
        -- lines 53-57: `BumpBlock::new()?` is evaluated before `replace`
        match BumpBlock.new sys w with
        | (.error e, w) => .ret (.error e, { bl with overflow := some ov }, w)
        | (.ok fresh, w) => do
          let (r, fresh) ← fresh.innerAlloc p allocSize
          let space ← Rust.unwrap r
          .ret (.ok space, { bl with overflow := some fresh, rest := bl.rest ++ [ov] }, w)
    | none =>
      match BumpBlock.new sys w with
      | (.error e, w) => .ret (.error e, bl, w)
      | (.ok fresh, w) => do
        let (r, fresh) ← fresh.innerAlloc p allocSize
        let space ← Rust.unwrap r
        .ret (.ok space, { bl with overflow := some fresh }, w)

/-- heap.rs:121 `size_class == SizeClass::Medium && alloc_size > head.current_hole_size()`: `&&` evaluates
`current_hole_size` only for medium objects. -/
def usesOverflow (p : Profile) (head : BumpBlock) (allocSize : Nat) (cls : SizeClass) : Rust Bool :=
  if cls = .medium then do
    let hole ← head.currentHoleSize p
    .ret (decide (allocSize > hole))
  else .ret false

/-- heap.rs:104-158 `StickyImmixHeap::find_space` -/
def findSpace (p : Profile) (sys : Sys) (bl : BlockList) (w : World) (allocSize : Nat) (cls : SizeClass) : Rust (HeapOut Nat) :=
  -- lines 112-115
  if cls = .large then .ret (.error .badRequest, bl, w)
  else match bl.head with
    | some head => do
      let useOverflow ← usesOverflow p head allocSize cls
      if useOverflow then bl.overflowAlloc p sys w allocSize
      else do
        let (r, head) ← head.innerAlloc p allocSize
        match r with
        | some space => .ret (.ok space, { bl with head := some head }, w)
        | none =>
          match BumpBlock.new sys w with
          | (.error e, w) => .ret (.error e, { bl with head := some head }, w)
          | (.ok fresh, w) => do
            let (r, fresh) ← fresh.innerAlloc p allocSize
            let space ← Rust.unwrap r
            .ret (.ok space, { bl with head := some fresh, rest := bl.rest ++ [head] }, w)
    | none =>
      match BumpBlock.new sys w with
      | (.error e, w) => .ret (.error e, bl, w)
      | (.ok fresh, w) => do
        let (r, fresh) ← fresh.innerAlloc p allocSize
        let space ← Rust.unwrap r
        .ret (.ok space, { bl with head := some fresh }, w)

/-- The client's header type `H: AllocHeader` (allocator.rs:99-123): its size and the bytes that its constructors
produce.  `new` takes the object type's `TYPE_ID` (as a number). -/
structure HeaderType where
  size : Nat
  new : (typeId : Nat) → (size : Nat) → SizeClass → Mark → List UInt8
  newArray : (size : Nat) → SizeClass → Mark → List UInt8
  new_length : ∀ t s c m, (new t s c m).length = size
  newArray_length : ∀ s c m, (newArray s c m).length = size

/-- `x as u32` (truncating cast; `ArraySize = u32`, allocator.rs:70) -/
def asU32 (n : Nat) : Nat := n % 2 ^ 32

/-- heap.rs:167-199 `StickyImmixHeap::alloc`; `object` is the byte representation of the value,
so `size_of::<T>() = object.length`. -/
def alloc (p : Profile) (sys : Sys) (H : HeaderType) (bl : BlockList) (w : World) (typeId : Nat)
    (object : List UInt8) : Rust (HeapOut Nat) := do
  let totalSize ← usizeAdd p H.size object.length
  let allocSize ← allocSizeOf p totalSize
  match getForSize allocSize with
  | .error e => .ret (.error e, bl, w)
  | .ok cls => do
    let (r, bl, w) ← findSpace p sys bl w allocSize cls
    match r with
    | .error e => .ret (.error e, bl, w)
    | .ok space =>
      let header := H.new typeId (asU32 object.length) cls .allocated
      let mem := writeBytes w.mem space header
      let objectSpace := space + H.size
      let mem := writeBytes mem objectSpace object
      .ret (.ok objectSpace, bl, { w with mem := mem })

/-- heap.rs:205-239 `StickyImmixHeap::alloc_array`; `sizeBytes : u32` -/
def allocArray (p : Profile) (sys : Sys) (H : HeaderType) (bl : BlockList) (w : World) (sizeBytes : Nat) : Rust (HeapOut Nat) := do
  let totalSize ← usizeAdd p H.size sizeBytes
  let allocSize ← allocSizeOf p totalSize
  match getForSize allocSize with
  | .error e => .ret (.error e, bl, w)
  | .ok cls => do
    let (r, bl, w) ← findSpace p sys bl w allocSize cls
    match r with
    | .error e => .ret (.error e, bl, w)
    | .ok space =>
      let header := H.newArray sizeBytes cls .allocated
      let mem := writeBytes w.mem space header
      let arraySpace := space + H.size
      -- lines 231-235: zero the array byte by byte
      let mem := writeBytes mem arraySpace (List.replicate sizeBytes 0)
      .ret (.ok arraySpace, bl, { w with mem := mem })

/-- heap.rs:244-246 `get_header`: `(object as *mut H).offset(-1)` -/
def getHeader (H : HeaderType) (object : Nat) : Nat := object - H.size

/-- heap.rs:251-253 `get_object`: `(header as *mut H).offset(1)` -/
def getObject (H : HeaderType) (header : Nat) : Nat := header + H.size

/-- Drop glue of `StickyImmixHeap`: the fields of `BlockList` are dropped in declaration order
(`head`, `overflow`, `rest` front to back). -/
def BlockList.drop (w : World) (bl : BlockList) : World :=
  let w := match bl.head with | some b => b.drop w | none => w
  let w := match bl.overflow with | some b => b.drop w | none => w
  bl.rest.foldl BumpBlock.drop w

end Verif.Immix
