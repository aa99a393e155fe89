import Verif.Spec.Layout
import Verif.Immix.Layout
import Verif.Props.Heaps
import Verif.Props.Blocks

/-!
# The calls of the system allocator keep its contract, with one exception (C81)
-/

namespace Verif.Immix

open Verif Spec

/-- **C81** `dealloc` is only called for memory obtained from `alloc`, with the `Layout` it was obtained with, and not more often
than it was obtained; when all heaps are dropped, for all memory obtained. -/
theorem c81_heap_same_layout {p : Profile} {sys : Sys} {s : Heaps} (h : Possible p sys s) :
    (∀ x, s.w.deallocs.count x ≤ s.w.allocs.count x) ∧ ((∀ k, s.get k = none) → s.w.deallocs.Perm s.w.allocs) := by
  obtain ⟨h1, h2⟩ := h.layouts
  obtain ⟨_, _, h4⟩ := c78_freed_once h
  rw [h1, h2]
  refine ⟨fun x => ?_, fun hn => (h4 hn).1.map _⟩
  have := (h.inv.perm.map fun x : Nat × Nat => (x.1, ({ size := x.2, align := x.2 } : Layout))).count_eq x
  rw [List.map_append, List.count_append] at this
  omega

/-- **C19** The same for one heap: nothing is deallocated while it lives, dropping it deallocates everything, with the size and the
alignment with which it was allocated, which are those of a block. -/
theorem c19_layouts {p : Profile} {sys : Sys} {H : HeaderType} {mem : Mem} {ops : List Op} {m : Machine} (hS : SysOK sys)
    (hH : H.size < 2 ^ 63) (h : Reaches p sys H mem ops m) :
    m.w.deallocs = [] ∧ (m.bl.drop m.w).deallocs.Perm m.w.allocs ∧ ∀ x ∈ m.w.allocs, x.2 = { size := 32768, align := 32768 } := by
  have hl : m.w.LayoutsMatch := by
    have := Machine.run_layouts (p := p) (sys := sys) (H := H) ops (m := Machine.init mem) ⟨rfl, rfl⟩
    rw [h.2] at this
    exact this
  obtain ⟨h1, h2, _, h4⟩ := c19_freed_exactly_once hS hH h
  have hd := BlockList.drop_layouts hl m.bl
  refine ⟨by rw [hl.2, h1]; rfl, ?_, ?_⟩
  · rw [hd.2, hl.1]; exact h2.map _
  · rw [hl.1]
    intro x hx
    obtain ⟨y, hy, rfl⟩ := List.mem_map.1 hx
    rw [h4 y hy]

/-- **C81** The same for programs that use `Block`, also with sizes that are not permitted: what was allocated is what was
deallocated plus what the client owns. -/
theorem c81_block_same_layout (sys : Sys) (mem : Mem) (ops : List BlockOp) :
    ((Blocks.run sys mem ops).w.deallocs ++ (Blocks.run sys mem ops).owned.map fun b : Block => (b.ptr, Layout.mk b.size b.size)).Perm
      (Blocks.run sys mem ops).w.allocs := by
  have hl : (Blocks.run sys mem ops).w.LayoutsMatch := by
    induction ops using snocInduction with
    | h0 => exact ⟨rfl, rfl⟩
    | h1 l op ih =>
      rw [Blocks.run_snoc]
      cases op with
      | new size =>
        have := Block.new_layouts (sys := sys) ih size
        revert this
        simp only [Blocks.step]
        cases Block.new sys (Blocks.run sys mem l).w size with
        | mk r w' => cases r <;> exact id
      | drop i =>
        simp only [Blocks.step]
        split
        · exact Block.drop_layouts ih _
        · exact ih
      | intoMutPtr i =>
        simp only [Blocks.step]
        split
        · exact Block.drop_layouts ih _
        · exact ih
  have := (c75_ownership sys mem ops).map fun x : Nat × Nat => (x.1, ({ size := x.2, align := x.2 } : Layout))
  rw [hl.1, hl.2]
  rw [List.map_append, List.map_map] at this
  exact this

theorem valid_pow {k : Nat} (h : k ≤ 62) : ValidRequest { size := 2 ^ k, align := 2 ^ k } := by
  refine ⟨⟨k, rfl⟩, ⟨1, by simp, ?_⟩, Nat.pos_of_ne_zero (by simp)⟩
  have := Nat.pow_le_pow_right (n := 2) (by omega) h
  simp only [Nat.one_mul]
  omega

theorem bumpBlock_new_same {sys sys' : Sys} (h : SameIfValid sys sys') : BumpBlock.new sys = BumpBlock.new sys' := by
  funext w
  have h1 := h.1 w.calls 32768 32768 (valid_pow (k := 15) (by omega))
  rw [blockNew_eq, blockNew_eq, h1, h.2]

theorem findSpace_same {sys sys' : Sys} (h : SameIfValid sys sys') (p : Profile) (bl : BlockList) (w : World) (n : Nat) (cls : SizeClass) :
    findSpace p sys bl w n cls = findSpace p sys' bl w n cls := by
  unfold findSpace BlockList.overflowAlloc
  rw [bumpBlock_new_same h]

/-- **C81** A heap makes only permitted requests: whatever the system allocator does at other requests does not matter. -/
theorem c81_heap_requests {sys sys' : Sys} (h : SameIfValid sys sys') (p : Profile) (s : Heaps) (o : HOp) :
    s.step p sys o = s.step p sys' o := by
  cases o <;> simp only [Heaps.step, allocUnwind, allocArrayUnwind, findSpace_same h]

/-- **C81** `Block::new` makes only permitted requests exactly if it is not called with 2^63. -/
theorem c81_block_requests (size : Nat) (hs : size < 2 ^ 64) :
    (∀ sys sys' w, SameIfValid sys sys' → Block.new sys w size = Block.new sys' w size) ↔ size ≠ 2 ^ 63 := by
  constructor
  · rintro h rfl
    let a : Sys := { alloc := fun _ s _ => if s = 2 ^ 63 then some (2 ^ 63) else none, metaAddr := fun _ => 0 }
    let b : Sys := { alloc := fun _ _ _ => none, metaAddr := fun _ => 0 }
    have := h a b { mem := fun _ => 0, calls := 0, obtained := [], freed := [] } ?_
    · have hp : isPowerOfTwo (2 ^ 63) = true := by decide
      have := congrArg (fun x => x.1.toOption.isSome) this
      simp [Block.new, hp, allocBlock, a, b, Except.toOption] at this
    · refine ⟨?_, fun _ => rfl⟩
      rintro i s al ⟨_, ⟨n, h1, h2⟩, _⟩
      have : s ≠ 2 ^ 63 := by simp only at h1 h2; omega
      simp [a, b, this]
  · intro hne sys sys' w h
    unfold Block.new allocBlock
    split
    · rename_i hp
      obtain ⟨k, rfl⟩ := (isPowerOfTwo_iff size).1 hp
      have hk : k < 64 := (Nat.pow_lt_pow_iff_right (by omega)).1 hs
      have hk' : k ≠ 63 := by rintro rfl; exact hne rfl
      simp only
      rw [h.1 _ _ _ (valid_pow (by omega))]
    · rfl

/-! ## Examples -/

/-- In the program of C77 memory is deallocated with the layout it was allocated with. -/
example : (runHeaps (Heaps.init fun _ => 77) exampleHeaps).map (fun s => (s.w.deallocs, s.w.allocs.length)) =
    some ([(32768, ⟨32768, 32768⟩)], 5) := by decide +kernel

/-- Two different system allocators that answer permitted requests in the same way. -/
example : SameIfValid exampleSys { exampleSys with alloc := fun i s a => if s = 0 then some 8 else exampleSys.alloc i s a } := by
  refine ⟨?_, fun _ => rfl⟩
  rintro i s a ⟨_, _, h⟩
  have : s ≠ 0 := Nat.ne_of_gt h
  simp [this]

end Verif.Immix
