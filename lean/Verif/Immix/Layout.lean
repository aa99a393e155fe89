import Verif.Spec.Heaps
import Verif.Immix.HeapLemmas

/-!
# The layouts passed to the system allocator

Lemmas on the logs of `std::alloc::alloc` and `dealloc`, and on the requests made.
-/

namespace Verif.Immix

open Verif Spec

/-- The layouts of the logs are those of blocks whose alignment is their size. -/
def World.LayoutsMatch (w : World) : Prop :=
  w.allocs = w.obtained.map (fun x => (x.1, { size := x.2, align := x.2 })) ∧
  w.deallocs = w.freed.map (fun x => (x.1, { size := x.2, align := x.2 }))

theorem World.LayoutsMatch.mem {w : World} (h : w.LayoutsMatch) (mem : Mem) (calls : Nat) :
    World.LayoutsMatch { w with mem := mem, calls := calls } := h

theorem Block.new_layouts {sys : Sys} {w : World} (h : w.LayoutsMatch) (size : Nat) : (Block.new sys w size).2.LayoutsMatch := by
  unfold Block.new allocBlock
  split
  · simp only
    cases sys.alloc w.calls size size with
    | none => exact h
    | some q => exact ⟨by simp [h.1], h.2⟩
  · exact h

theorem Block.drop_layouts {w : World} (h : w.LayoutsMatch) (b : Block) : (b.drop w).LayoutsMatch :=
  ⟨h.1, by simp [Block.drop, deallocBlock, h.2]⟩

theorem BumpBlock.new_layouts {sys : Sys} {w : World} (h : w.LayoutsMatch) : (BumpBlock.new sys w).2.LayoutsMatch := by
  have := Block.new_layouts (sys := sys) h BLOCK_SIZE
  unfold BumpBlock.new
  revert this
  cases Block.new sys w BLOCK_SIZE with
  | mk r w' => cases r <;> exact id

theorem BumpBlock.drop_layouts {w : World} (h : w.LayoutsMatch) (b : BumpBlock) : (b.drop w).LayoutsMatch :=
  Block.drop_layouts h b.block

theorem BlockList.drop_layouts {w : World} (h : w.LayoutsMatch) (bl : BlockList) : (bl.drop w).LayoutsMatch := by
  have hrest : ∀ (l : List BumpBlock) (w : World), w.LayoutsMatch → (l.foldl BumpBlock.drop w).LayoutsMatch := by
    intro l
    induction l with
    | nil => exact fun _ h => h
    | cons b l ih => exact fun w h => ih _ (b.drop_layouts h)
  unfold BlockList.drop
  refine hrest _ _ ?_
  cases bl.head <;> cases bl.overflow <;> first | exact h | exact BumpBlock.drop_layouts h _ | exact BumpBlock.drop_layouts (BumpBlock.drop_layouts h _) _

/-- `P` holds of the value returned, if any. -/
def Returns {α : Type} (P : α → Prop) : Rust α → Prop
  | .ret a => P a
  | .panic => True

theorem Returns.bind {α β : Type} {P : β → Prop} {x : Rust α} {f : α → Rust β} (h : ∀ a, x = .ret a → Returns P (f a)) :
    Returns P (x >>= f) := by
  cases x with
  | panic => trivial
  | ret a => exact h a rfl

theorem Returns.newBlock {α : Type} {P : α → Prop} {sys : Sys} {w : World} (h : w.LayoutsMatch)
    {f : AllocError → World → Rust α} {g : BumpBlock → World → Rust α} (hf : ∀ e w, w.LayoutsMatch → Returns P (f e w))
    (hg : ∀ b w, w.LayoutsMatch → Returns P (g b w)) :
    Returns P (match BumpBlock.new sys w with
      | (.error e, w) => f e w
      | (.ok b, w) => g b w) := by
  have := BumpBlock.new_layouts (sys := sys) h
  revert this
  cases BumpBlock.new sys w with
  | mk r w' =>
    cases r with
    | error e => exact hf e w'
    | ok b => exact hg b w'

theorem overflowAlloc_layouts {p : Profile} {sys : Sys} {bl : BlockList} {w : World} {n : Nat} (h : w.LayoutsMatch) :
    Returns (fun r => r.2.2.LayoutsMatch) (bl.overflowAlloc p sys w n) := by
  unfold BlockList.overflowAlloc
  split
  · trivial
  · split
    · refine Returns.bind fun a _ => ?_
      obtain ⟨r, b⟩ := a
      cases r with
      | some _ => exact h
      | none =>
        refine Returns.newBlock h (fun _ _ h => h) fun b w h => ?_
        exact Returns.bind fun _ _ => Returns.bind fun _ _ => h
    · refine Returns.newBlock h (fun _ _ h => h) fun b w h => ?_
      exact Returns.bind fun _ _ => Returns.bind fun _ _ => h

theorem findSpace_layouts {p : Profile} {sys : Sys} {bl : BlockList} {w : World} {n : Nat} {cls : SizeClass} (h : w.LayoutsMatch) :
    Returns (fun r => r.2.2.LayoutsMatch) (findSpace p sys bl w n cls) := by
  unfold findSpace
  split
  · exact h
  · split
    · refine Returns.bind fun a _ => ?_
      split
      · exact overflowAlloc_layouts h
      · refine Returns.bind fun a _ => ?_
        obtain ⟨r, b⟩ := a
        cases r with
        | some _ => exact h
        | none =>
          refine Returns.newBlock h (fun _ _ h => h) fun b w h => ?_
          exact Returns.bind fun _ _ => Returns.bind fun _ _ => h
    · refine Returns.newBlock h (fun _ _ h => h) fun b w h => ?_
      exact Returns.bind fun _ _ => Returns.bind fun _ _ => h

theorem alloc_layouts {p : Profile} {sys : Sys} {H : HeaderType} {bl : BlockList} {w : World} {t : Nat} {o : List UInt8}
    (h : w.LayoutsMatch) : Returns (fun r => r.2.2.LayoutsMatch) (alloc p sys H bl w t o) := by
  unfold alloc
  refine Returns.bind fun total _ => Returns.bind fun n _ => ?_
  split
  · exact h
  · rename_i cls _
    refine Returns.bind fun a ha => ?_
    have := findSpace_layouts (p := p) (sys := sys) (bl := bl) (w := w) (n := n) (cls := cls) h
    rw [ha] at this
    obtain ⟨r, bl', w'⟩ := a
    cases r <;> exact this

theorem allocArray_layouts {p : Profile} {sys : Sys} {H : HeaderType} {bl : BlockList} {w : World} {m : Nat}
    (h : w.LayoutsMatch) : Returns (fun r => r.2.2.LayoutsMatch) (allocArray p sys H bl w m) := by
  unfold allocArray
  refine Returns.bind fun total _ => Returns.bind fun n _ => ?_
  split
  · exact h
  · rename_i cls _
    refine Returns.bind fun a ha => ?_
    have := findSpace_layouts (p := p) (sys := sys) (bl := bl) (w := w) (n := n) (cls := cls) h
    rw [ha] at this
    obtain ⟨r, bl', w'⟩ := a
    cases r <;> exact this

theorem Machine.run_layouts {p : Profile} {sys : Sys} {H : HeaderType} (ops : List Op) {m : Machine} (h : m.w.LayoutsMatch) :
    Returns (fun r => r.w.LayoutsMatch) (m.run p sys H ops) := by
  induction ops generalizing m with
  | nil => exact h
  | cons o ops ih =>
    refine Returns.bind fun m' hm' => ih ?_
    cases o with
    | alloc t o =>
      simp only [Machine.step] at hm'
      cases e : alloc p sys H m.bl m.w t o with
      | panic => rw [e] at hm'; cases hm'
      | ret a =>
        have := alloc_layouts (p := p) (sys := sys) (H := H) (bl := m.bl) (w := m.w) (t := t) (o := o) h
        rw [e] at hm' this
        obtain ⟨r, bl', w'⟩ := a
        cases r <;> cases hm' <;> exact this
    | allocArray n =>
      simp only [Machine.step] at hm'
      cases e : allocArray p sys H m.bl m.w n with
      | panic => rw [e] at hm'; cases hm'
      | ret a =>
        have := allocArray_layouts (p := p) (sys := sys) (H := H) (bl := m.bl) (w := m.w) (m := n) h
        rw [e] at hm' this
        obtain ⟨r, bl', w'⟩ := a
        cases r <;> cases hm' <;> exact this
    | store k off bytes =>
      simp only [Machine.step] at hm'
      split at hm'
      · split at hm' <;> cases hm' <;> exact h
      · cases hm'; exact h

theorem allocUnwind_layouts {p : Profile} {sys : Sys} {H : HeaderType} {bl : BlockList} {w : World} {t : Nat} {o : List UInt8}
    {c : Bool} (h : w.LayoutsMatch) : Returns (fun r => r.w.LayoutsMatch) (allocUnwind p sys H bl w t o c) := by
  unfold allocUnwind
  split
  · exact h
  · split
    · exact h
    · refine Returns.bind fun a ha => ?_
      rename_i n _ _ cls _
      have := findSpace_layouts (p := p) (sys := sys) (bl := bl) (w := w) (n := n) (cls := cls) h
      rw [ha] at this
      obtain ⟨r, bl', w'⟩ := a
      cases r with
      | error _ => exact this
      | ok space =>
        simp only
        split <;> exact this

theorem allocArrayUnwind_layouts {p : Profile} {sys : Sys} {H : HeaderType} {bl : BlockList} {w : World} {n : Nat}
    {c : Bool} (h : w.LayoutsMatch) : Returns (fun r => r.w.LayoutsMatch) (allocArrayUnwind p sys H bl w n c) := by
  unfold allocArrayUnwind
  split
  · exact h
  · split
    · exact h
    · refine Returns.bind fun a ha => ?_
      rename_i n _ _ cls _
      have := findSpace_layouts (p := p) (sys := sys) (bl := bl) (w := w) (n := n) (cls := cls) h
      rw [ha] at this
      obtain ⟨r, bl', w'⟩ := a
      cases r with
      | error _ => exact this
      | ok space =>
        simp only
        split <;> exact this

theorem Heaps.step_layouts {p : Profile} {sys : Sys} {s : Heaps} (o : HOp) (h : s.w.LayoutsMatch) :
    Returns (fun r => r.w.LayoutsMatch) (s.step p sys o) := by
  cases o with
  | newHeap H => exact h
  | dropHeap k =>
    simp only [Heaps.step]
    split
    · exact h
    · exact BlockList.drop_layouts h _
  | alloc k t o c =>
    simp only [Heaps.step]
    split
    · exact h
    · rename_i g _
      refine Returns.bind fun a ha => ?_
      have := allocUnwind_layouts (p := p) (sys := sys) (H := g.H) (bl := g.bl) (w := s.w) (t := t) (o := o) (c := c) h
      rw [ha] at this
      exact this
  | allocArray k n c =>
    simp only [Heaps.step]
    split
    · exact h
    · rename_i g _
      refine Returns.bind fun a ha => ?_
      have := allocArrayUnwind_layouts (p := p) (sys := sys) (H := g.H) (bl := g.bl) (w := s.w) (n := n) (c := c) h
      rw [ha] at this
      exact this
  | store k i off bytes =>
    simp only [Heaps.step]
    split
    · exact h
    · split
      · exact h
      · split <;> exact h
  | storeHeader k i bytes =>
    simp only [Heaps.step]
    split
    · exact h
    · split
      · exact h
      · split <;> exact h

theorem Spec.Possible.layouts {p : Profile} {sys : Sys} {s : Heaps} (h : Possible p sys s) : s.w.LayoutsMatch := by
  induction h with
  | start mem => exact ⟨rfl, rfl⟩
  | op o _ _ _ hs ih =>
    have := Heaps.step_layouts (p := p) (sys := sys) o ih
    rw [hs] at this
    exact this
  | environment mem calls _ _ _ ih => exact ih

end Verif.Immix
