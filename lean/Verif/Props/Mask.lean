import Verif.Props.Heaps

/-!
# C96: from an object to the metadata of its block
-/

namespace Verif.Immix

open Verif Verif.Immix.Spec

theorem and_block_mask (x : Nat) (hx : x < 2 ^ 64) : x &&& BLOCK_PTR_MASK = x / 32768 * 32768 := by
  have h1 : BLOCK_PTR_MASK = (2 ^ 49 - 1) <<< 15 := by unfold BLOCK_PTR_MASK; rw [BLOCK_SIZE_eq]; decide
  have h2 : x / 32768 * 32768 = (x >>> 15) <<< 15 := by
    rw [Nat.shiftRight_eq_div_pow, Nat.shiftLeft_eq]
  rw [h1, h2]
  apply Nat.eq_of_testBit_eq
  intro i
  simp only [Nat.testBit_and, Nat.testBit_shiftLeft, Nat.testBit_shiftRight, Nat.testBit_two_pow_sub_one]
  by_cases hi : 15 ≤ i
  · have e : 15 + (i - 15) = i := by omega
    rw [e]
    by_cases hb : i - 15 < 49
    · simp [hi, hb]
    · have : x.testBit i = false := Nat.testBit_lt_two_pow (Nat.lt_of_lt_of_le hx (Nat.pow_le_pow_right (by decide) (by omega)))
      simp [this]
  · simp [hi]

section
variable {p : Profile} {sys : Sys} {s : Heaps}

/-- The block of an object. -/
theorem block_of (h : Possible p sys s) {k : Nat} {g : HeapState} (hk : s.get k = some g) {o : Entry} (ho : o ∈ g.objs) :
    ∃ b ∈ g.bl.all, b.block.ptr + 16 ≤ o.ptr - g.H.size ∧ o.ptr - g.H.size + roundUp (g.H.size + o.size) ≤ b.block.ptr + 32768 ∧
      g.H.size ≤ o.ptr ∧ 32768 ∣ b.block.ptr ∧ 0 < b.block.ptr ∧ b.block.ptr + 32768 < 2 ^ 64 := by
  have hI := h.inv
  obtain ⟨h0, b, hb, h1, h2⟩ := (hI.each g (mem_of_get hk)).inBlock o ho
  have hok := (hI.each g (mem_of_get hk)).core.ok b hb
  have hle := hok.cur_le
  have hlive := hI.live.2 (mem_allKeys (mem_of_get hk) hb)
  have hmem : (b.block.ptr, b.block.size) ∈ s.w.obtained := List.count_pos_iff.1 (by unfold World.isLive at hlive; omega)
  obtain ⟨h3, h4⟩ := hI.space _ hmem
  rw [hok.size] at h4
  simp only [HeapState.range] at h1 h2
  exact ⟨b, hb, h1, by omega, h0, hok.aligned, h3, h4⟩

/-- **C96** The address of any byte of an object or of its header, masked with `BLOCK_PTR_MASK`, is the address of the block that
contains the object; there the address of the block's metadata is stored, and this metadata has not been freed. -/
theorem c96_metadata_found (h : Possible p sys s) {k : Nat} {g : HeapState} (hk : s.get k = some g) :
    ∀ o ∈ g.objs, ∃ b ∈ g.bl.all, b.block.ptr + 16 ≤ (g.range o).1 ∧ (g.range o).1 + (g.range o).2 ≤ b.block.ptr + 32768 ∧
      ∀ a, o.ptr - g.H.size ≤ a → a < o.ptr + o.size → a &&& BLOCK_PTR_MASK = b.block.ptr ∧
        wordAt s.w.mem (a &&& BLOCK_PTR_MASK) = b.metaPtr % 2 ^ 64 ∧ s.w.unboxed.count b.metaPtr < s.w.boxed.count b.metaPtr := by
  intro o ho
  obtain ⟨b, hb, h1, h2, h3, ⟨c, h4⟩, h5, h6⟩ := block_of h hk ho
  refine ⟨b, hb, h1, h2, fun a ha1 ha2 => ?_⟩
  have hr := roundUp_ge (g.H.size + o.size)
  have e : a &&& BLOCK_PTR_MASK = b.block.ptr := by
    rw [and_block_mask a (by omega)]; omega
  rw [e]
  exact ⟨rfl, c78_metadata h hk b hb⟩

/-- **C96** For an empty object (whose pointer is the end of its header) this holds exactly if the pointer is not a multiple of the
block size; otherwise the pointer is the end of the block, and masking does not change it. -/
theorem c96_empty_object (h : Possible p sys s) {k : Nat} {g : HeapState} (hk : s.get k = some g) {o : Entry} (ho : o ∈ g.objs)
    (h0 : o.size = 0) :
    ∃ b ∈ g.bl.all, b.block.ptr + 16 ≤ (g.range o).1 ∧ (g.range o).1 + (g.range o).2 ≤ b.block.ptr + 32768 ∧
      (o.ptr &&& BLOCK_PTR_MASK = b.block.ptr ↔ ¬ 32768 ∣ o.ptr) ∧
      (32768 ∣ o.ptr → o.ptr = b.block.ptr + 32768 ∧ o.ptr &&& BLOCK_PTR_MASK = o.ptr) := by
  obtain ⟨b, hb, h1, h2, h3, ⟨c, h4⟩, h5, h6⟩ := block_of h hk ho
  have hr := roundUp_ge (g.H.size + o.size)
  refine ⟨b, hb, h1, h2, ?_, ?_⟩
  · rw [and_block_mask _ (by omega)]; omega
  · intro hd
    rw [and_block_mask _ (by omega)]; omega

end

/-- Two heaps; the first fills its block exactly, with an empty object at the end. -/
def emptyAtEnd : List HOp :=
  [.newHeap exampleHeader, .newHeap exampleHeader, .allocArray 0 32736 false, .alloc 0 1 [] false, .alloc 1 2 [5] false]

/-- **C96** The exception occurs: there is a program in which the pointer of an empty object of one heap, masked, is the address of a block
of another heap. -/
theorem c96_other_heap : ∃ s, Possible .dev reuseSys s ∧ ∃ g g' o b, s.get 0 = some g ∧ s.get 1 = some g' ∧ o ∈ g.objs ∧ o.size = 0 ∧
    b ∈ g'.bl.all ∧ o.ptr &&& BLOCK_PTR_MASK = b.block.ptr := by
  have hs : ∀ o ∈ emptyAtEnd, o.Sized := by
    intro o ho
    simp only [emptyAtEnd, List.mem_cons, List.not_mem_nil, or_false] at ho
    have h1 : exampleHeader.size < 2 ^ 63 := by decide
    rcases ho with rfl | rfl | rfl | rfl | rfl
    all_goals simp only [HOp.Sized, List.length_cons, List.length_nil]
    all_goals first | with_reducible exact h1 | omega
  have hv : (runHeaps (Heaps.init fun _ => 77) emptyAtEnd).map (fun s =>
      ((s.get 0).map (fun g => g.objs.map fun o => (o.ptr, o.size)), (s.get 1).map (fun g => g.bl.all.map fun b => b.block.ptr))) =
      some (some [(32792, 32736), (65536, 0)], some [65536]) := by decide +kernel
  cases hr : runHeaps (Heaps.init fun _ => 77) emptyAtEnd with
  | none => rw [hr] at hv; cases hv
  | some s =>
    rw [hr] at hv
    simp only [Option.map_some, Option.some.injEq, Prod.mk.injEq] at hv
    obtain ⟨h1, h2⟩ := hv
    cases e1 : s.get 0 with
    | none => rw [e1] at h1; cases h1
    | some g =>
      cases e2 : s.get 1 with
      | none => rw [e2] at h2; cases h2
      | some g' =>
        rw [e1] at h1
        rw [e2] at h2
        simp only [Option.map_some, Option.some.injEq] at h1 h2
        have m1 : (65536, 0) ∈ g.objs.map fun o => (o.ptr, o.size) := by rw [h1]; simp
        have m2 : 65536 ∈ g'.bl.all.map fun b => b.block.ptr := by rw [h2]; simp
        obtain ⟨o, ho, eo⟩ := List.mem_map.1 m1
        obtain ⟨b, hb, eb⟩ := List.mem_map.1 m2
        simp only [Prod.mk.injEq] at eo
        refine ⟨s, runHeaps_possible hs (.start _) hr, g, g', o, b, e1, e2, ho, eo.2, hb, ?_⟩
        rw [eo.1, eb, and_block_mask _ (by omega)]

end Verif.Immix
