import Verif.Immix.Unwind

/-!
# `alloc` and `alloc_array` in two halves

The header constructors `H::new` and `H::new_array` are client code, called in the middle of heap.rs:167-199 and 205-239, when no
reference to the block list is held.  They may use the heap themselves.  So the functions are cut in two: what they do before the
constructor is called, and what they do when it has returned.
-/

namespace Verif.Immix

open Verif

/-- How the first half of a call ends. -/
inductive Entered where
  /-- the sizes overflow (`dev` profile) -/
  | panicked
  /-- the call returns `Err` -/
  | err (e : AllocError)
  /-- the constructor is called; `space` is what `find_space` has returned -/
  | calls (space : Nat) (cls : SizeClass)
  deriving DecidableEq, Repr

/-- heap.rs:172-181 (`alloc`) and 207-215 (`alloc_array`): up to the call of the constructor, for an object of `n` bytes. -/
def allocEnter (p : Profile) (sys : Sys) (headerSize : Nat) (bl : BlockList) (w : World) (n : Nat) : Rust (Entered × BlockList × World) :=
  match (do let totalSize ← usizeAdd p headerSize n; allocSizeOf p totalSize : Rust Nat) with
  | .panic => .ret (.panicked, bl, w)
  | .ret allocSize =>
    match getForSize allocSize with
    | .error e => .ret (.err e, bl, w)
    | .ok cls => do
      let (r, bl, w) ← findSpace p sys bl w allocSize cls
      match r with
      | .error e => .ret (.err e, bl, w)
      | .ok space => .ret (.calls space cls, bl, w)

/-- heap.rs:186-198 (`alloc`) and 220-238 (`alloc_array`): after the constructor has returned `header`.  `body` are the bytes of the
object, or zeros for an array.  The result is the pointer returned. -/
def allocLeave (headerSize : Nat) (w : World) (space : Nat) (header body : List UInt8) : Nat × World :=
  (space + headerSize, { w with mem := writeBytes (writeBytes w.mem space header) (space + headerSize) body })

/-- A call of `alloc` whose constructor does nothing but return or panic. -/
def allocHalves (p : Profile) (sys : Sys) (H : HeaderType) (bl : BlockList) (w : World) (typeId : Nat) (object : List UInt8)
    (ctorPanics : Bool) : Rust CallEnd := do
  let (e, bl, w) ← allocEnter p sys H.size bl w object.length
  match e with
  | .panicked => .ret ⟨.panicked, true, bl, w⟩
  | .err e => .ret ⟨.err e, true, bl, w⟩
  | .calls space cls =>
    if ctorPanics then .ret ⟨.panicked, true, bl, w⟩
    else
      let (q, w) := allocLeave H.size w space (H.new typeId (asU32 object.length) cls .allocated) object
      .ret ⟨.ok q, false, bl, w⟩

/-- A call of `alloc_array` whose constructor does nothing but return or panic. -/
def allocArrayHalves (p : Profile) (sys : Sys) (H : HeaderType) (bl : BlockList) (w : World) (n : Nat) (ctorPanics : Bool) : Rust CallEnd := do
  let (e, bl, w) ← allocEnter p sys H.size bl w n
  match e with
  | .panicked => .ret ⟨.panicked, false, bl, w⟩
  | .err e => .ret ⟨.err e, false, bl, w⟩
  | .calls space cls =>
    if ctorPanics then .ret ⟨.panicked, false, bl, w⟩
    else
      let (q, w) := allocLeave H.size w space (H.newArray n cls .allocated) (List.replicate n 0)
      .ret ⟨.ok q, false, bl, w⟩

theorem allocHalves_eq (p : Profile) (sys : Sys) (H : HeaderType) (bl : BlockList) (w : World) (t : Nat) (o : List UInt8) (b : Bool) :
    allocHalves p sys H bl w t o b = allocUnwind p sys H bl w t o b := by
  unfold allocHalves allocUnwind allocEnter
  cases (do let totalSize ← usizeAdd p H.size o.length; allocSizeOf p totalSize : Rust Nat) with
  | panic => rfl
  | ret size =>
    simp only
    cases getForSize size with
    | error e => rfl
    | ok cls =>
      simp only
      cases findSpace p sys bl w size cls with
      | panic => rfl
      | ret r =>
        obtain ⟨r, bl', w'⟩ := r
        cases r <;> rfl

theorem allocArrayHalves_eq (p : Profile) (sys : Sys) (H : HeaderType) (bl : BlockList) (w : World) (n : Nat) (b : Bool) :
    allocArrayHalves p sys H bl w n b = allocArrayUnwind p sys H bl w n b := by
  unfold allocArrayHalves allocArrayUnwind allocEnter
  cases (do let totalSize ← usizeAdd p H.size n; allocSizeOf p totalSize : Rust Nat) with
  | panic => rfl
  | ret size =>
    simp only
    cases getForSize size with
    | error e => rfl
    | ok cls =>
      simp only
      cases findSpace p sys bl w size cls with
      | panic => rfl
      | ret r =>
        obtain ⟨r, bl', w'⟩ := r
        cases r <;> rfl

end Verif.Immix
