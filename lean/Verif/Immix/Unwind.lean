import Verif.Immix.Heap

/-!
# `alloc` and `alloc_array` with panics that the caller catches, and the fate of the value passed in

The same functions of heap.rs as in `Heap.lean`, with two things added: the state in which a panic leaves the heap (the client's
header constructor may panic, and so may the addition of the sizes), and whether the destructor of the argument `object` runs.
A panic inside `find_space` stays a panic of the model; it is shown not to happen.
-/

namespace Verif.Immix

open Verif

/-- What a caller that catches panics observes. -/
inductive Outcome where
  | ok (ptr : Nat)
  | err (e : AllocError)
  | panicked
  deriving DecidableEq, Repr

/-- The end of a call: what the caller observes, whether the destructor of the argument has been run, and the new state. -/
structure CallEnd where
  outcome : Outcome
  destroyed : Bool
  bl : BlockList
  w : World

/-- heap.rs:167-199 `StickyImmixHeap::alloc`; `ctorPanics` says whether `Self::Header::new` panics (line 184).
`object` is a local variable until it is moved by `write` in line 194: it is destroyed by every exit before that line. -/
def allocUnwind (p : Profile) (sys : Sys) (H : HeaderType) (bl : BlockList) (w : World) (typeId : Nat) (object : List UInt8)
    (ctorPanics : Bool) : Rust CallEnd :=
  -- lines 172-177: overflow of an addition panics in the `dev` profile
  match (do let totalSize ← usizeAdd p H.size object.length; allocSizeOf p totalSize : Rust Nat) with
  | .panic => .ret ⟨.panicked, true, bl, w⟩
  | .ret allocSize =>
    match getForSize allocSize with
    | .error e => .ret ⟨.err e, true, bl, w⟩
    | .ok cls => do
      let (r, bl, w) ← findSpace p sys bl w allocSize cls
      match r with
      | .error e => .ret ⟨.err e, true, bl, w⟩
      | .ok space =>
        if ctorPanics then .ret ⟨.panicked, true, bl, w⟩
        else
          let header := H.new typeId (asU32 object.length) cls .allocated
          let mem := writeBytes w.mem space header
          let objectSpace := space + H.size
          let mem := writeBytes mem objectSpace object
          .ret ⟨.ok objectSpace, false, bl, { w with mem := mem }⟩

/-- heap.rs:205-239 `StickyImmixHeap::alloc_array`; `ctorPanics` says whether `Self::Header::new_array` panics (line 218).
There is no argument with a destructor. -/
def allocArrayUnwind (p : Profile) (sys : Sys) (H : HeaderType) (bl : BlockList) (w : World) (sizeBytes : Nat)
    (ctorPanics : Bool) : Rust CallEnd :=
  match (do let totalSize ← usizeAdd p H.size sizeBytes; allocSizeOf p totalSize : Rust Nat) with
  | .panic => .ret ⟨.panicked, false, bl, w⟩
  | .ret allocSize =>
    match getForSize allocSize with
    | .error e => .ret ⟨.err e, false, bl, w⟩
    | .ok cls => do
      let (r, bl, w) ← findSpace p sys bl w allocSize cls
      match r with
      | .error e => .ret ⟨.err e, false, bl, w⟩
      | .ok space =>
        if ctorPanics then .ret ⟨.panicked, false, bl, w⟩
        else
          let header := H.newArray sizeBytes cls .allocated
          let mem := writeBytes w.mem space header
          let arraySpace := space + H.size
          let mem := writeBytes mem arraySpace (List.replicate sizeBytes 0)
          .ret ⟨.ok arraySpace, false, bl, { w with mem := mem }⟩

/-- What `Heap.lean` says of the same call: a panic, or an answer with the new state. -/
def CallEnd.plain (c : CallEnd) : Rust (HeapOut Nat) :=
  match c.outcome with
  | .ok q => .ret (.ok q, c.bl, c.w)
  | .err e => .ret (.error e, c.bl, c.w)
  | .panicked => .panic

/-- If the constructor does not panic this is `alloc`. -/
theorem allocUnwind_plain (p : Profile) (sys : Sys) (H : HeaderType) (bl : BlockList) (w : World) (t : Nat) (o : List UInt8) :
    (do let c ← allocUnwind p sys H bl w t o false; c.plain) = alloc p sys H bl w t o := by
  unfold allocUnwind alloc
  cases h1 : usizeAdd p H.size o.length with
  | panic => rfl
  | ret total =>
    simp only [Rust.bind_ret]
    cases h2 : allocSizeOf p total with
    | panic => rfl
    | ret size =>
      simp only [Rust.bind_ret]
      cases getForSize size with
      | error e => rfl
      | ok cls =>
        simp only
        cases findSpace p sys bl w size cls with
        | panic => rfl
        | ret r =>
          obtain ⟨r, bl', w'⟩ := r
          cases r <;> rfl

/-- If the constructor does not panic this is `alloc_array`. -/
theorem allocArrayUnwind_plain (p : Profile) (sys : Sys) (H : HeaderType) (bl : BlockList) (w : World) (n : Nat) :
    (do let c ← allocArrayUnwind p sys H bl w n false; c.plain) = allocArray p sys H bl w n := by
  unfold allocArrayUnwind allocArray
  cases h1 : usizeAdd p H.size n with
  | panic => rfl
  | ret total =>
    simp only [Rust.bind_ret]
    cases h2 : allocSizeOf p total with
    | panic => rfl
    | ret size =>
      simp only [Rust.bind_ret]
      cases getForSize size with
      | error e => rfl
      | ok cls =>
        simp only
        cases findSpace p sys bl w size cls with
        | panic => rfl
        | ret r =>
          obtain ⟨r, bl', w'⟩ := r
          cases r <;> rfl

end Verif.Immix
