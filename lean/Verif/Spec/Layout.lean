import Verif.Immix.Basic

/-!
# The contract of `std::alloc` (C81)
-/

namespace Verif.Immix.Spec

open Verif.Immix

/-- What `Layout::from_size_align_unchecked` and `std::alloc::alloc` require: the alignment is a power of two, the size rounded up
to a multiple of the alignment is at most `isize::MAX`, and the size is not 0. -/
def ValidRequest (l : Layout) : Prop :=
  (∃ k, l.align = 2 ^ k) ∧ (∃ n, l.size ≤ n * l.align ∧ n * l.align ≤ 2 ^ 63 - 1) ∧ 0 < l.size

/-- Two system allocators that answer all permitted requests in the same way.  (What happens at other requests is undefined.) -/
def SameIfValid (sys sys' : Sys) : Prop :=
  (∀ i size align, ValidRequest { size := size, align := align } → sys.alloc i size align = sys'.alloc i size align) ∧
  ∀ i, sys.metaAddr i = sys'.metaAddr i

end Verif.Immix.Spec
