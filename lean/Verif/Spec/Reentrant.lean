import Verif.Immix.Reentrant
import Verif.Spec.Heaps

/-!
# Programs whose header constructors use the heaps (C101)

As in `Spec/Heaps.lean`, but a call of `alloc` or `alloc_array` takes some time: between its two halves the header constructor runs,
which may do anything the program may do, begin further calls included.
-/

namespace Verif.Immix.Spec

open Verif Verif.Immix

/-- Space for an object: the pointer to the object, its size, and, once the constructor has returned, the bytes that should be in its
header and in the object itself. -/
structure Slot where
  ptr : Nat
  size : Nat
  contents : Option (List UInt8 × List UInt8)

/-- A heap: size of its header type, blocks, and the space given to objects, in the order in which it was taken. -/
structure RHeap where
  headerSize : Nat
  bl : BlockList
  slots : List Slot

/-- A call whose header constructor is running: the heap and the number of the space taken there, what `find_space` returned, the
size and size class that the constructor was given, and the bytes to be stored behind the header. -/
structure Running where
  heap : Nat
  slot : Nat
  space : Nat
  size : Nat
  cls : SizeClass
  body : List UInt8

/-- The state of the program: its heaps (`none`: dropped), the world, and the calls whose constructors are running, the innermost
first. -/
structure Nested where
  heaps : List (Option RHeap)
  w : World
  calls : List Running

/-- At first there is no heap. -/
def Nested.init (mem : Mem) : Nested :=
  { heaps := [], w := { mem := mem, calls := 0, obtained := [], freed := [] }, calls := [] }

/-- The heap with number `k`, if it exists and has not been dropped. -/
def Nested.get (s : Nested) (k : Nat) : Option RHeap := (s.heaps[k]?).join

/-- What the program, or the innermost constructor that is running, may do. -/
inductive NOp where
  | newHeap (headerSize : Nat)
  | dropHeap (k : Nat)
  /-- `alloc` is called in heap `k` -/
  | alloc (k : Nat) (object : List UInt8)
  /-- `alloc_array` is called in heap `k` -/
  | allocArray (k sizeBytes : Nat)
  /-- the innermost constructor returns this header -/
  | returns (header : List UInt8)
  /-- the innermost constructor panics, or a panic passes through it -/
  | panics
  | store (k i off : Nat) (bytes : List UInt8)
  | storeHeader (k i : Nat) (bytes : List UInt8)

/-- Rust's own guarantee on sizes (`size_of::<T>() ≤ isize::MAX`, `ArraySize = u32`). -/
def NOp.Sized : NOp → Prop
  | .newHeap n => n < 2 ^ 63
  | .alloc _ o => o.length < 2 ^ 63
  | .allocArray _ n => n < 2 ^ 32
  | _ => True

/-- A call begins. -/
def Nested.begin (p : Profile) (sys : Sys) (s : Nested) (k : Nat) (body : List UInt8) : Rust Nested :=
  match s.get k with
  | none => .ret s
  | some h => do
    let (e, bl, w) ← allocEnter p sys h.headerSize h.bl s.w body.length
    match e with
    | .calls space cls => .ret {
        heaps := s.heaps.set k (some { h with bl := bl, slots := h.slots ++ [{ ptr := space + h.headerSize, size := body.length, contents := none }] })
        w := w
        calls := { heap := k, slot := h.slots.length, space := space, size := asU32 body.length, cls := cls, body := body } :: s.calls }
    | _ => .ret { s with heaps := s.heaps.set k (some { h with bl := bl }), w := w }

/-- What an operation does.  Operations on heaps or objects that do not exist, headers of a wrong size and stores that do not fit do
nothing.  A heap in use by a running call is borrowed and cannot be dropped; the pointer to an object is known to the program only
when the call has returned it. -/
def Nested.step (p : Profile) (sys : Sys) (s : Nested) : NOp → Rust Nested
  | .newHeap n => .ret { s with heaps := s.heaps ++ [some { headerSize := n, bl := BlockList.new, slots := [] }] }
  | .dropHeap k =>
    if s.calls.any (·.heap == k) then .ret s
    else
      match s.get k with
      | none => .ret s
      | some h => .ret { s with heaps := s.heaps.set k none, w := h.bl.drop s.w }
  | .alloc k object => s.begin p sys k object
  | .allocArray k n => s.begin p sys k (List.replicate n 0)
  | .returns header =>
    match s.calls with
    | [] => .ret s
    | c :: calls =>
      match s.get c.heap with
      | none => .panic
      | some h =>
        if header.length = h.headerSize then
          let (ptr, w) := allocLeave h.headerSize s.w c.space header c.body
          .ret {
            heaps := s.heaps.set c.heap (some { h with slots := h.slots.set c.slot { ptr := ptr, size := c.body.length, contents := some (header, c.body) } })
            w := w
            calls := calls }
        else .ret s
  | .panics =>
    match s.calls with
    | [] => .ret s
    | _ :: calls => .ret { s with calls := calls }
  | .store k i off bytes =>
    match s.get k with
    | none => .ret s
    | some h =>
      match h.slots[i]? with
      | some { ptr, size, contents := some (hd, data) } =>
        if off + bytes.length ≤ size then
          .ret { s with
            heaps := s.heaps.set k (some { h with slots := h.slots.set i { ptr := ptr, size := size, contents := some (hd, overwrite data off bytes) } })
            w := { s.w with mem := writeBytes s.w.mem (ptr + off) bytes } }
        else .ret s
      | _ => .ret s
  | .storeHeader k i bytes =>
    match s.get k with
    | none => .ret s
    | some h =>
      match h.slots[i]? with
      | some { ptr, size, contents := some (_, data) } =>
        if bytes.length = h.headerSize then
          .ret { s with
            heaps := s.heaps.set k (some { h with slots := h.slots.set i { ptr := ptr, size := size, contents := some (bytes, data) } })
            w := { s.w with mem := writeBytes s.w.mem (ptr - h.headerSize) bytes } }
        else .ret s
      | _ => .ret s

/-- The states a program can reach, with the rest of the process as in `Possible`. -/
inductive NestedPossible (p : Profile) (sys : Sys) : Nested → Prop
  | start (mem : Mem) : NestedPossible p sys (Nested.init mem)
  | op {s s' : Nested} (o : NOp) : NestedPossible p sys s → Honest sys s.w → o.Sized → s.step p sys o = .ret s' → NestedPossible p sys s'
  | environment {s : Nested} (mem : Mem) (calls : Nat) : NestedPossible p sys s → s.w.calls ≤ calls →
      (∀ x, s.w.isLive x → ∀ a, x.1 ≤ a → a < x.1 + x.2 → mem a = s.w.mem a) →
      NestedPossible p sys { s with w := { s.w with mem := mem, calls := calls } }

/-- Start and length of all that belongs to the space for an object: header, object and padding. -/
def RHeap.range (h : RHeap) (o : Slot) : Nat × Nat := (o.ptr - h.headerSize, roundUp (h.headerSize + o.size))

end Verif.Immix.Spec
