import Verif.Immix.Basic

/-!
# Model of `stickyimmix/src/rawptr.rs`

`as_ref` and `as_mut_ref` (rawptr.rs:35-45) only change the type of the pointer; what is read or written through them is
`readBytes`/`writeBytes` at the address.
-/

namespace Verif.Immix

/-- rawptr.rs:7-9 `RawPtr<T>`: the address in the `NonNull<T>` -/
structure RawPtr where
  ptr : Nat
  deriving Repr

/-- rawptr.rs:14-18 `RawPtr::new`: `NonNull::new_unchecked`, whose contract is that the pointer is not null -/
def RawPtr.new (ptr : Nat) : RawPtr := { ptr := ptr }

/-- rawptr.rs:21-23 `RawPtr::as_ptr` -/
def RawPtr.asPtr (r : RawPtr) : Nat := r.ptr

/-- rawptr.rs:25-27 `RawPtr::as_word` -/
def RawPtr.asWord (r : RawPtr) : Nat := r.ptr

/-- rawptr.rs:29-31 `RawPtr::as_untyped` -/
def RawPtr.asUntyped (r : RawPtr) : Nat := r.ptr

/-- rawptr.rs:48-52 `RawPtr::clone` -/
def RawPtr.clone (r : RawPtr) : RawPtr := { ptr := r.ptr }

/-- rawptr.rs:56-60 `impl PartialEq for RawPtr<T>` -/
def RawPtr.eq (r r' : RawPtr) : Bool := r.ptr == r'.ptr

end Verif.Immix
