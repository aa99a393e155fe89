import Verif.Immix.Unwind
import Verif.Spec.Heap
import Verif.Spec.Blocks

/-!
# Programs with several heaps (C77-C80)

A program creates heaps (each with its own header type), allocates in them, writes to the objects and their headers, drops heaps
in any order, and catches panics of its header constructors.  In between, the rest of the process may use the system allocator
and write to all memory that does not belong to the heaps; the system allocator may reuse the memory of dropped heaps.
-/

namespace Verif.Immix.Spec

open Verif Verif.Immix

/-- What the client knows of an object: the pointer it was given, its size, and the bytes that should be in its header and in
the object itself. -/
structure Entry where
  ptr : Nat
  size : Nat
  header : List UInt8
  data : List UInt8

/-- A heap and its objects, in the order of their allocation. -/
structure HeapState where
  H : HeaderType
  bl : BlockList
  objs : List Entry

/-- The state of the program: its heaps (`none`: dropped), the world, the outcome of every call of `alloc` so far, and the
numbers of those calls whose argument has been destroyed, in the order of their destruction. -/
structure Heaps where
  heaps : List (Option HeapState)
  w : World
  outcomes : List Outcome
  destroyed : List Nat

/-- At first there is no heap. -/
def Heaps.init (mem : Mem) : Heaps :=
  { heaps := [], w := { mem := mem, calls := 0, obtained := [], freed := [] }, outcomes := [], destroyed := [] }

/-- What the program may do; `k` is the number of a heap, `i` that of an object in it. -/
inductive HOp where
  | newHeap (H : HeaderType)
  | dropHeap (k : Nat)
  | alloc (k typeId : Nat) (object : List UInt8) (ctorPanics : Bool)
  | allocArray (k sizeBytes : Nat) (ctorPanics : Bool)
  | store (k i off : Nat) (bytes : List UInt8)
  | storeHeader (k i : Nat) (bytes : List UInt8)

/-- Rust's own guarantee on sizes (`size_of::<T>() ≤ isize::MAX`, `ArraySize = u32`). -/
def HOp.Sized : HOp → Prop
  | .newHeap H => H.size < 2 ^ 63
  | .alloc _ _ o _ => o.length < 2 ^ 63
  | .allocArray _ n _ => n < 2 ^ 32
  | _ => True

/-- The heap with number `k`, if it exists and has not been dropped. -/
def Heaps.get (s : Heaps) (k : Nat) : Option HeapState := (s.heaps[k]?).join

/-- What an operation does.  Operations on heaps or objects that do not exist, and stores that do not fit, do nothing. -/
def Heaps.step (p : Profile) (sys : Sys) (s : Heaps) : HOp → Rust Heaps
  | .newHeap H => .ret { s with heaps := s.heaps ++ [some { H := H, bl := BlockList.new, objs := [] }] }
  | .dropHeap k =>
    match s.get k with
    | none => .ret s
    | some h => .ret { s with heaps := s.heaps.set k none, w := h.bl.drop s.w }
  | .alloc k t o ctorPanics =>
    match s.get k with
    | none => .ret s
    | some h => do
      let c ← allocUnwind p sys h.H h.bl s.w t o ctorPanics
      let objs := match c.outcome with
        | .ok q => h.objs ++ [⟨q, o.length, h.H.new t o.length (classOf (roundUp (h.H.size + o.length))) .allocated, o⟩]
        | _ => h.objs
      .ret { heaps := s.heaps.set k (some { h with bl := c.bl, objs := objs }), w := c.w, outcomes := s.outcomes ++ [c.outcome],
             destroyed := if c.destroyed then s.destroyed ++ [s.outcomes.length] else s.destroyed }
  | .allocArray k n ctorPanics =>
    match s.get k with
    | none => .ret s
    | some h => do
      let c ← allocArrayUnwind p sys h.H h.bl s.w n ctorPanics
      let objs := match c.outcome with
        | .ok q => h.objs ++ [⟨q, n, h.H.newArray n (classOf (roundUp (h.H.size + n))) .allocated, List.replicate n 0⟩]
        | _ => h.objs
      .ret { s with heaps := s.heaps.set k (some { h with bl := c.bl, objs := objs }), w := c.w }
  | .store k i off bytes =>
    match s.get k with
    | none => .ret s
    | some h =>
      match h.objs[i]? with
      | none => .ret s
      | some o =>
        if off + bytes.length ≤ o.size then
          .ret { s with
            heaps := s.heaps.set k (some { h with objs := h.objs.set i { o with data := overwrite o.data off bytes } })
            w := { s.w with mem := writeBytes s.w.mem (o.ptr + off) bytes } }
        else .ret s
  | .storeHeader k i bytes =>
    match s.get k with
    | none => .ret s
    | some h =>
      match h.objs[i]? with
      | none => .ret s
      | some o =>
        if bytes.length = h.H.size then
          .ret { s with
            heaps := s.heaps.set k (some { h with objs := h.objs.set i { o with header := bytes } })
            w := { s.w with mem := writeBytes s.w.mem (getHeader h.H o.ptr) bytes } }
        else .ret s

/-- Contract of the system allocator at a moment: if it returns memory, that memory is not at address 0, aligned as requested,
inside the address space (its end is at most `usize::MAX`), and overlaps no memory that is live at that moment. -/
def Honest (sys : Sys) (w : World) : Prop :=
  ∀ size align q, sys.alloc w.calls size align = some q →
    0 < q ∧ align ∣ q ∧ q + size < 2 ^ 64 ∧ ∀ x, w.isLive x → DisjointRange q size x.1 x.2

/-- The states a program can reach. -/
inductive Possible (p : Profile) (sys : Sys) : Heaps → Prop
  | start (mem : Mem) : Possible p sys (Heaps.init mem)
  /-- an operation of the program -/
  | op {s s' : Heaps} (o : HOp) : Possible p sys s → Honest sys s.w → o.Sized → s.step p sys o = .ret s' → Possible p sys s'
  /-- the rest of the process: it may change all memory outside of the blocks that are live, and use the system allocator -/
  | environment {s : Heaps} (mem : Mem) (calls : Nat) : Possible p sys s → s.w.calls ≤ calls →
      (∀ x, s.w.isLive x → ∀ a, x.1 ≤ a → a < x.1 + x.2 → mem a = s.w.mem a) →
      Possible p sys { s with w := { s.w with mem := mem, calls := calls } }

/-- Start and length of all that belongs to an object: header, object and padding. -/
def HeapState.range (h : HeapState) (o : Entry) : Nat × Nat := (o.ptr - h.H.size, roundUp (h.H.size + o.size))

end Verif.Immix.Spec
