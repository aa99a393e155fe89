import Verif.Immix.Heap

/-!
# Specification vocabulary for the heap properties (C01-C10, C19, C21)

Independent of the allocator's algorithms: what a client of `StickyImmixHeap` can do and observe, the contract of
the system allocator, and the abstract contents of the objects.
-/

namespace Verif.Immix

/-- All blocks owned by a heap. -/
def BlockList.all (bl : BlockList) : List BumpBlock := bl.head.toList ++ bl.overflow.toList ++ bl.rest

end Verif.Immix

namespace Verif.Immix.Spec

open Verif Verif.Immix

/-- Ranges `[a, a+n)` and `[b, b+m)` do not overlap. -/
def DisjointRange (a n b m : Nat) : Prop := a + n ≤ b ∨ b + m ≤ a

/-- Contract of `std::alloc::alloc` (trusted): a returned block is not null, aligned as requested, inside the address
space (its end is at most `usize::MAX`), and does not overlap a block returned by another call (no block is returned to the system before the heap is
dropped, see C19). -/
structure SysOK (sys : Sys) : Prop where
  nonnull : ∀ i s a q, sys.alloc i s a = some q → 0 < q
  aligned : ∀ i s a q, sys.alloc i s a = some q → a ∣ q
  inSpace : ∀ i s a q, sys.alloc i s a = some q → q + s < 2 ^ 64
  disjoint : ∀ i j s a t b q r, i ≠ j → sys.alloc i s a = some q → sys.alloc j t b = some r → DisjointRange q s r t

/-- The machine word at address `a` (little-endian, as on x86-64). -/
def wordAt (m : Mem) (a : Nat) : Nat :=
  (m a).toNat + 256 * (m (a + 1)).toNat + 256 ^ 2 * (m (a + 2)).toNat + 256 ^ 3 * (m (a + 3)).toNat +
  256 ^ 4 * (m (a + 4)).toNat + 256 ^ 5 * (m (a + 5)).toNat + 256 ^ 6 * (m (a + 6)).toNat + 256 ^ 7 * (m (a + 7)).toNat

/-- The least multiple of 8 that is `≥ n`. -/
def roundUp (n : Nat) : Nat := (n + 7) / 8 * 8

/-- What a client may do: allocate a value, allocate an array, or overwrite bytes of the `k`-th object allocated. -/
inductive Op where
  | alloc (typeId : Nat) (object : List UInt8)
  | allocArray (sizeBytes : Nat)
  | store (k off : Nat) (bytes : List UInt8)

/-- What happened: successful allocations with the pointer returned, failed ones, and stores. -/
inductive Ev where
  | allocated (typeId : Nat) (object : List UInt8) (ptr : Nat)
  | allocatedArray (sizeBytes ptr : Nat)
  | failed (e : AllocError)
  | stored (k off : Nat) (bytes : List UInt8)

/-- An object the client knows about: pointer and size in bytes, and how its header was created
(`some typeId` for a value, `none` for an array). -/
structure Obj where
  ptr : Nat
  size : Nat
  typeId : Option Nat

/-- The objects allocated in a history, in order. -/
def objs : List Ev → List Obj
  | [] => []
  | .allocated t o q :: r => { ptr := q, size := o.length, typeId := some t } :: objs r
  | .allocatedArray n q :: r => { ptr := q, size := n, typeId := none } :: objs r
  | _ :: r => objs r

/-- Overwrite part of a byte list. -/
def overwrite (old : List UInt8) (off : Nat) (bytes : List UInt8) : List UInt8 :=
  old.take off ++ bytes ++ old.drop (off + bytes.length)

/-- One event acts on the abstract contents (one byte list per object): an allocation appends the initial contents,
a store overwrites part of one object. -/
def applyEv (c : List (List UInt8)) : Ev → List (List UInt8)
  | .allocated _ o _ => c ++ [o]
  | .allocatedArray n _ => c ++ [List.replicate n 0]
  | .failed _ => c
  | .stored k off bytes => c.modify k (fun old => overwrite old off bytes)

/-- The abstract contents after a history. -/
def contents (log : List Ev) : List (List UInt8) := log.foldl applyEv []

/-- A client program running against the heap. -/
structure Machine where
  bl : BlockList
  w : World
  log : List Ev

/-- A fresh heap over arbitrary memory. -/
def Machine.init (mem : Mem) : Machine :=
  { bl := BlockList.new, w := { mem := mem, calls := 0, obtained := [], freed := [] }, log := [] }

/-- One client operation.  Stores outside the bounds of the object are not performed (the client's obligation). -/
def Machine.step (p : Profile) (sys : Sys) (H : HeaderType) (m : Machine) : Op → Rust Machine
  | .alloc t o => do
    let (r, bl, w) ← Immix.alloc p sys H m.bl m.w t o
    match r with
    | .ok q => .ret { bl := bl, w := w, log := m.log ++ [.allocated t o q] }
    | .error e => .ret { bl := bl, w := w, log := m.log ++ [.failed e] }
  | .allocArray n => do
    let (r, bl, w) ← Immix.allocArray p sys H m.bl m.w n
    match r with
    | .ok q => .ret { bl := bl, w := w, log := m.log ++ [.allocatedArray n q] }
    | .error e => .ret { bl := bl, w := w, log := m.log ++ [.failed e] }
  | .store k off bytes =>
    match (objs m.log)[k]? with
    | some o =>
      if off + bytes.length ≤ o.size then
        .ret { m with w := { m.w with mem := writeBytes m.w.mem (o.ptr + off) bytes },
                      log := m.log ++ [.stored k off bytes] }
      else .ret m
    | none => .ret m

/-- A whole client program. -/
def Machine.run (p : Profile) (sys : Sys) (H : HeaderType) (m : Machine) : List Op → Rust Machine
  | [] => .ret m
  | op :: ops => do
    let m ← m.step p sys H op
    m.run p sys H ops

/-- Start address of everything that belongs to an object: its header comes first. -/
def Obj.start (H : HeaderType) (o : Obj) : Nat := o.ptr - H.size

/-- Number of bytes reserved for an object: header plus object, rounded up to whole words. -/
def Obj.extent (H : HeaderType) (o : Obj) : Nat := roundUp (H.size + o.size)

/-- Size class of a total size in bytes, as documented in allocator.rs:46-49 and constants.rs. -/
def classOf (n : Nat) : SizeClass := if n ≤ 128 then .small else if n ≤ 32752 then .medium else .large

/-- The header bytes the client's header type produces for an object. -/
def Obj.header (H : HeaderType) (o : Obj) : List UInt8 :=
  match o.typeId with
  | some t => H.new t o.size (classOf (roundUp (H.size + o.size))) .allocated
  | none => H.newArray o.size (classOf (roundUp (H.size + o.size))) .allocated

/-- Rust's own guarantee on sizes: `size_of::<T>() ≤ isize::MAX`, and `ArraySize = u32`. -/
def Op.Sized : Op → Prop
  | .alloc _ o => o.length < 2 ^ 63
  | .allocArray n => n < 2 ^ 32
  | .store _ _ _ => True

/-- Header + object + 7 fits in `usize`. -/
def Op.Fits (H : HeaderType) : Op → Prop
  | .alloc _ o => H.size + o.length + 7 < 2 ^ 64
  | .allocArray n => H.size + n + 7 < 2 ^ 64
  | .store _ _ _ => True

/-- State `m` is reached by the client program `ops` on a new heap. -/
def Reaches (p : Profile) (sys : Sys) (H : HeaderType) (mem : Mem) (ops : List Op) (m : Machine) : Prop :=
  (∀ op ∈ ops, op.Sized) ∧ (Machine.init mem).run p sys H ops = .ret m

/-- Outcome of an allocation request of `n` bytes: `result` is what the call returned. -/
def ExactAcceptance (sys : Sys) (m : Machine) (r : Nat) (result : Rust (HeapOut Nat)) : Prop :=
  if r = 0 ∨ 32752 < r then result = .ret (.error .badRequest, m.bl, m.w)
  else (∃ q bl' w', result = .ret (.ok q, bl', w')) ∨
       (∃ w', result = .ret (.error .oom, m.bl, w') ∧ sys.alloc m.w.calls 32768 32768 = none)

/-- What an error leaves behind: everything is as before, except that for OOM the environment has been asked once more. -/
def Unchanged (e : AllocError) (bl : BlockList) (w : World) (bl' : BlockList) (w' : World) : Prop :=
  bl' = bl ∧ (match e with
    | .badRequest => w' = w
    | .oom => w' = { w with calls := w.calls + 1 })

/-- The block small objects go to is replaced by another one. -/
def Retires (bl bl' : BlockList) (b : BumpBlock) : Prop :=
  bl.head = some b ∧ ∀ c, bl'.head = some c → c.block ≠ b.block

end Verif.Immix.Spec
