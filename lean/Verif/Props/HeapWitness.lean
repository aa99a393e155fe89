import Verif.Props.Mask
import Verif.Props.Layout

/-!
# Concrete cases of the theorems about the heap
-/

namespace Verif.Immix

open Verif Verif.Immix.Spec

theorem exampleOps_fine : (∀ op ∈ exampleOps, op.Sized) ∧ (∀ op ∈ exampleOps, op.Fits exampleHeader) := by
  simp [exampleOps, Op.Sized, Op.Fits, exampleHeader]

theorem exampleHeader_size : exampleHeader.size < 2 ^ 63 := by decide

/-- Memory full of 77. -/
def exampleMem : Mem := fun _ => 77

/-- C08: the program `exampleOps` runs to its end, in both profiles. -/
theorem exampleOps_reaches (p : Profile) : ∃ m, Reaches p exampleSys exampleHeader exampleMem exampleOps m :=
  c08_no_panic p exampleSys_ok exampleHeader_size exampleMem exampleOps exampleOps_fine.1 exampleOps_fine.2

/-- The state a concrete program ends in, with a property of it that is checked by running the program. -/
theorem reached {p : Profile} {sys : Sys} {H : HeaderType} {ops : List Op} {f : Machine → Bool} (hs : ∀ op ∈ ops, op.Sized)
    (h : (match (Machine.init exampleMem).run p sys H ops with
      | .ret m => f m
      | .panic => false) = true) : ∃ m, Reaches p sys H exampleMem ops m ∧ f m = true := by
  split at h
  · exact ⟨_, ⟨hs, by assumption⟩, h⟩
  · cases h

/-- C01, C02, C03, C05, C06, C10, C19 on the final state of `exampleOps`: four objects in two blocks; the program has
overwritten the last two bytes of the first one. -/
example : ∃ m, Reaches .dev exampleSys exampleHeader exampleMem exampleOps m ∧ (objs m.log).map (·.ptr) = [32792, 32808, 65560, 33816] ∧
    ((objs m.log).Pairwise fun o o' => DisjointRange (o.start exampleHeader) (o.extent exampleHeader) (o'.start exampleHeader) (o'.extent exampleHeader)) ∧
    (∀ o ∈ objs m.log, ∃ q, (q, 32768) ∈ m.w.obtained ∧ q + 16 ≤ o.start exampleHeader ∧ o.start exampleHeader + o.extent exampleHeader ≤ q + 32768) ∧
    ((objs m.log).map (fun o => readBytes m.w.mem o.ptr o.size))[0]? = some [1, 9, 9] ∧
    (∀ o ∈ objs m.log, getObject exampleHeader (getHeader exampleHeader o.ptr) = o.ptr ∧ o.ptr % 8 = 0) ∧
    readBytes m.w.mem 32784 8 = [7, 3, 0, 1, 0, 0, 0, 0] ∧
    (m.bl.drop m.w).freed.Perm [(32768, 32768), (65536, 32768)] := by
  obtain ⟨m, h, hv⟩ := reached (p := .dev) (sys := exampleSys) (H := exampleHeader) (f := fun m => decide ((objs m.log).map (·.ptr) = [32792, 32808, 65560, 33816] ∧
    m.w.obtained = [(32768, 32768), (65536, 32768)] ∧ (contents m.log)[0]? = some [1, 9, 9] ∧
    (m.log.any fun e => match e with | .allocated t o q => decide (t = 7 ∧ o = [1, 2, 3] ∧ q = 32792) | _ => false) = true))
    exampleOps_fine.1 (by decide +kernel)
  obtain ⟨a1, a2, a3, a4⟩ := of_decide_eq_true hv
  have hmem : Ev.allocated 7 [1, 2, 3] 32792 ∈ m.log := by
    obtain ⟨e, he, h1⟩ := List.any_eq_true.1 a4
    cases e with
    | allocated t o q =>
      obtain ⟨rfl, rfl, rfl⟩ := of_decide_eq_true h1
      exact he
    | _ => cases h1
  refine ⟨m, h, a1, c01_allocations_disjoint exampleSys_ok exampleHeader_size h, ?_, ?_, ?_, ?_, ?_⟩
  · intro o ho
    obtain ⟨_, q, h1, _, _, h2, h3⟩ := c02_inside_block exampleSys_ok exampleHeader_size h o ho
    exact ⟨q, h1, h2, h3⟩
  · rw [c03_contents exampleSys_ok exampleHeader_size h, a3]
  · intro o ho
    exact ⟨(c05_header_object_inverse exampleSys_ok exampleHeader_size h o ho).1, (c10_alignment exampleSys_ok exampleHeader_size h o ho).2.2 rfl⟩
  · exact ((c06_header_exact exampleSys_ok exampleHeader_size h).1 7 [1, 2, 3] 32792 hmem).1
  · rw [← a2]; exact (c19_freed_exactly_once exampleSys_ok exampleHeader_size h).2.1

/-- What an allocation returned. -/
def okAt (r : Rust (HeapOut Nat)) : Option Nat :=
  match r with
  | .ret (.ok q, _, _) => some q
  | _ => none

/-- Which error an allocation returned. -/
def errAt (r : Rust (HeapOut Nat)) : Option AllocError :=
  match r with
  | .ret (.error e, _, _) => some e
  | _ => none

theorem okAt_iff {r : Rust (HeapOut Nat)} {q : Nat} (h : okAt r = some q) : ∃ bl w, r = .ret (.ok q, bl, w) := by
  unfold okAt at h
  split at h
  · cases h; exact ⟨_, _, rfl⟩
  · cases h

theorem errAt_iff {r : Rust (HeapOut Nat)} {e : AllocError} (h : errAt r = some e) : ∃ bl w, r = .ret (.error e, bl, w) := by
  unfold errAt at h
  split at h
  · cases h; exact ⟨_, _, rfl⟩
  · cases h

/-- C04: an array of 100 bytes after the program, in memory that was full of 77. -/
example : ∃ m q bl w, Reaches .dev exampleSys exampleHeader exampleMem exampleOps m ∧
    allocArray .dev exampleSys exampleHeader m.bl m.w 100 = .ret (.ok q, bl, w) ∧ m.w.mem q = 77 ∧ ∀ i, i < 100 → w.mem (q + i) = 0 := by
  obtain ⟨m, h, hv⟩ := reached (p := .dev) (sys := exampleSys) (H := exampleHeader)
    (f := fun m => decide (okAt (allocArray .dev exampleSys exampleHeader m.bl m.w 100) = some 33832 ∧ m.w.mem 33832 = 77)) exampleOps_fine.1 (by decide +kernel)
  obtain ⟨a1, a2⟩ := of_decide_eq_true hv
  obtain ⟨bl, w, e⟩ := okAt_iff a1
  exact ⟨m, _, bl, w, h, e, a2, c04_array_zeroed exampleSys_ok exampleHeader_size h 100 _ (by decide) e⟩

/-- A system allocator that has only one block. -/
def oneBlock : Sys := { exampleSys with alloc := fun i s a => if s = 32768 ∧ a = 32768 ∧ i < 1 then some 32768 else none }

theorem oneBlock_ok : SysOK oneBlock where
  nonnull i s a q h := by unfold oneBlock at h; simp only [] at h; split at h <;> simp at h; omega
  aligned i s a q h := by
    unfold oneBlock at h; simp only [] at h; split at h <;> simp at h
    rename_i hc; rw [hc.2.1, ← h]; exact ⟨1, rfl⟩
  inSpace i s a q h := by unfold oneBlock at h; simp only [] at h; split at h <;> simp at h; omega
  disjoint i j s a t b q r hij h1 h2 := by
    unfold oneBlock at h1 h2; simp only [] at h1 h2
    split at h1 <;> simp at h1
    split at h2 <;> simp at h2
    omega

/-- C07, C09: with the block full, a small object, a medium object and an array are refused with `OOM`, an array of 40000 bytes
with `BadRequest`; blocks, memory and bookkeeping are as before. -/
example : ∃ m, Reaches .dev oneBlock exampleHeader exampleMem [.allocArray 32740] m ∧
    (∃ bl w, alloc .dev oneBlock exampleHeader m.bl m.w 1 [1, 2] = .ret (.error .oom, bl, w) ∧ Unchanged .oom m.bl m.w bl w) ∧
    (∃ bl w, allocArray .dev oneBlock exampleHeader m.bl m.w 500 = .ret (.error .oom, bl, w) ∧ Unchanged .oom m.bl m.w bl w) ∧
    (∃ bl w, allocArray .dev oneBlock exampleHeader m.bl m.w 40000 = .ret (.error .badRequest, bl, w) ∧ Unchanged .badRequest m.bl m.w bl w) ∧
    ExactAcceptance oneBlock m 16 (alloc .dev oneBlock exampleHeader m.bl m.w 1 [1, 2]) ∧
    ExactAcceptance oneBlock m 512 (allocArray .dev oneBlock exampleHeader m.bl m.w 500) := by
  obtain ⟨m, h, hv⟩ := reached (p := .dev) (sys := oneBlock) (H := exampleHeader) (ops := [.allocArray 32740])
    (f := fun m => decide (errAt (alloc .dev oneBlock exampleHeader m.bl m.w 1 [1, 2]) = some .oom ∧
      errAt (allocArray .dev oneBlock exampleHeader m.bl m.w 500) = some .oom ∧
      errAt (allocArray .dev oneBlock exampleHeader m.bl m.w 40000) = some .badRequest))
    (by simp [Op.Sized]) (by decide +kernel)
  obtain ⟨a1, a2, a3⟩ := of_decide_eq_true hv
  obtain ⟨bl1, w1, e1⟩ := errAt_iff a1
  obtain ⟨bl2, w2, e2⟩ := errAt_iff a2
  obtain ⟨bl3, w3, e3⟩ := errAt_iff a3
  exact ⟨m, h, ⟨bl1, w1, e1, c09_failed_alloc oneBlock_ok exampleHeader_size h 1 [1, 2] (by decide) e1⟩,
    ⟨bl2, w2, e2, c09_failed_alloc_array oneBlock_ok exampleHeader_size h 500 (by decide) e2⟩,
    ⟨bl3, w3, e3, c09_failed_alloc_array oneBlock_ok exampleHeader_size h 40000 (by decide) e3⟩,
    c07_alloc_acceptance oneBlock_ok exampleHeader_size h 1 [1, 2] (by decide) (by decide),
    c07_alloc_array_acceptance oneBlock_ok exampleHeader_size h 500 (by decide) (by decide)⟩

/-- A header of nearly half the address space. -/
def hugeHeader : HeaderType where
  size := 2 ^ 63 - 1
  new _ _ _ _ := List.replicate (2 ^ 63 - 1) 0
  newArray _ _ _ := List.replicate (2 ^ 63 - 1) 0
  new_length _ _ _ _ := List.length_replicate
  newArray_length _ _ _ := List.length_replicate

/-- C07: with a header and an object of nearly half the address space the rounding overflows. -/
example : ∃ m m', Reaches .dev exampleSys hugeHeader exampleMem [] m ∧ Reaches .release exampleSys hugeHeader exampleMem [] m' ∧
    alloc .dev exampleSys hugeHeader m.bl m.w 1 (List.replicate (2 ^ 63 - 1) 0) = .panic ∧
    alloc .release exampleSys hugeHeader m'.bl m'.w 1 (List.replicate (2 ^ 63 - 1) 0) = .ret (.error .badRequest, m'.bl, m'.w) := by
  have hH : hugeHeader.size < 2 ^ 63 := by decide
  have ho : (List.replicate (2 ^ 63 - 1) (0 : UInt8)).length < 2 ^ 63 := by rw [List.length_replicate]; decide
  have hf : ¬ hugeHeader.size + (List.replicate (2 ^ 63 - 1) (0 : UInt8)).length + 7 < 2 ^ 64 := by rw [List.length_replicate]; decide
  have r : ∀ p, Reaches p exampleSys hugeHeader exampleMem [] (Machine.init exampleMem) := fun p => ⟨fun _ h => (List.not_mem_nil h).elim, rfl⟩
  exact ⟨_, _, r _, r _, c07_alloc_overflow exampleSys_ok hH (r .dev) 1 _ ho hf, c07_alloc_overflow exampleSys_ok hH (r .release) 1 _ ho hf⟩

/-- C77: on an empty heap an allocation takes a block, and so it does if the header's constructor panics; with a huge header the
addition of the sizes panics in a build with overflow checks. -/
example : (∃ c c' q, allocUnwind .dev exampleSys exampleHeader BlockList.new (Machine.init exampleMem).w 1 [1, 2] false = .ret c ∧ c.outcome = .ok q ∧
      allocUnwind .dev exampleSys exampleHeader BlockList.new (Machine.init exampleMem).w 1 [1, 2] true = .ret c' ∧ c'.outcome = .panicked ∧ c'.bl = c.bl ∧ c.bl ≠ BlockList.new) ∧
    (∀ o : List UInt8, o.length = 2 ^ 63 - 1 → ∃ c, allocUnwind .dev exampleSys hugeHeader BlockList.new (Machine.init exampleMem).w 1 o false = .ret c ∧ c.outcome = .panicked) := by
  constructor
  · have hv : (match allocUnwind .dev exampleSys exampleHeader BlockList.new (Machine.init exampleMem).w 1 [1, 2] false with
      | .ret c => (match c.outcome with | .ok _ => c.bl.head.isSome | _ => false)
      | _ => false) = true := by decide +kernel
    split at hv
    · rename_i c e
      split at hv
      · rename_i q eq
        obtain ⟨c', e', hbl, -, -, hok, -⟩ := c77_constructor_panics _ _ _ _ _ _ _ _ e
        refine ⟨c, c', q, e, eq, e', (hok q eq).1, hbl, fun hn => ?_⟩
        rw [hn] at hv; cases hv
      · cases hv
    · cases hv
  · intro o ho
    have hs : 2 ^ 64 ≤ hugeHeader.size + o.length + 7 := by rw [ho]; decide
    cases h : allocUnwind .dev exampleSys hugeHeader BlockList.new (Machine.init exampleMem).w 1 o false with
    | ret c => exact ⟨c, rfl, (c77_panics_iff _ _ _ _ _ _ _ _ h).2 ⟨rfl, hs⟩⟩
    | panic =>
      exfalso
      have h1 := (size_panics .dev hugeHeader.size o.length).2 ⟨rfl, hs⟩
      unfold allocUnwind at h
      rw [h1] at h
      cases h

/-- C21: a small array that does not fit retires the current block, of which 64 bytes are lost. -/
example : ∃ m q bl w b, Reaches .dev exampleSys exampleHeader exampleMem [.allocArray 32680] m ∧
    allocArray .dev exampleSys exampleHeader m.bl m.w 100 = .ret (.ok q, bl, w) ∧ Retires m.bl bl b ∧ b.cursor = 32704 ∧
    classOf (roundUp (exampleHeader.size + 100)) = .small ∧ 32768 - b.cursor < 128 ∧ b ∈ bl.rest := by
  obtain ⟨m, h, hv⟩ := reached (p := .dev) (sys := exampleSys) (H := exampleHeader) (ops := [.allocArray 32680])
    (f := fun m => match allocArray .dev exampleSys exampleHeader m.bl m.w 100, m.bl.head with
      | .ret (.ok q, bl, w), some b => decide (b.cursor = 32704 ∧ b.block = ⟨32768, 32768⟩ ∧ bl.head.map (·.block) = some ⟨65536, 32768⟩)
      | _, _ => false)
    (by simp [Op.Sized]) (by decide +kernel)
  split at hv
  · rename_i q bl w b e eb
    obtain ⟨a1, a2, a3⟩ := of_decide_eq_true hv
    have hr : Retires m.bl bl b := by
      refine ⟨eb, fun c hc => ?_⟩
      rw [hc] at a3
      rw [a2, show c.block = _ from Option.some.inj a3]; decide
    exact ⟨m, q, bl, w, b, h, e, hr, a1, c21_retire_waste_array exampleSys_ok exampleHeader_size h 100 (by decide) e hr⟩
  · cases hv

/-- C77, C78, C80, C81, C96 on the state `exampleHeaps` ends in: five heaps, of which one has been dropped and its block been
handed out again. -/
example : ∃ s g o, runHeaps (Heaps.init exampleMem) exampleHeaps = some s ∧ Possible .dev reuseSys s ∧ s.get 1 = some g ∧ g.objs[1]? = some o ∧
    o.ptr = 65564 ∧ o.size = 32700 ∧
    (∃ b ∈ g.bl.all, ∀ a, o.ptr - g.H.size ≤ a → a < o.ptr + o.size → a &&& BLOCK_PTR_MASK = b.block.ptr) ∧
    (∀ x, s.w.deallocs.count x ≤ s.w.allocs.count x) ∧
    readBytes s.w.mem o.ptr o.size = o.data := by
  have h : (match runHeaps (Heaps.init exampleMem) exampleHeaps with
    | some s => (match s.get 1 with
      | some g => (match g.objs[1]? with
        | some o => decide (o.ptr = 65564 ∧ o.size = 32700)
        | none => false)
      | none => false)
    | none => false) = true := by decide +kernel
  split at h
  · rename_i s e
    split at h
    · rename_i g eg
      split at h
      · rename_i o eo
        obtain ⟨a1, a2⟩ := of_decide_eq_true h
        have hp : Possible .dev reuseSys s := runHeaps_possible exampleHeaps_sized (.start _) e
        obtain ⟨b, hb, _, _, hm⟩ := c96_metadata_found hp eg o (List.mem_of_getElem? eo)
        exact ⟨s, g, o, e, hp, eg, eo, a1, a2, ⟨b, hb, fun a h1 h2 => (hm a h1 h2).1⟩, (c81_heap_same_layout hp).1,
          (c77_contents hp eg o (List.mem_of_getElem? eo)).1⟩
      · cases h
    · cases h
  · cases h

end Verif.Immix
