import Verif.Immix.HeapInv

/-!
# Properties of `StickyImmixHeap` (C01-C12, C18-C21, C57)

Every theorem about histories ranges over: the build profile `p`, the behaviour `sys` of the system allocator (any
behaviour allowed by its contract `SysOK`, including refusing blocks at any time), the header type `H`, the initial
contents `mem` of memory, and the client program `ops` (any list of allocations and in-bounds stores).
-/

namespace Verif.Immix

open Verif Verif.Immix.Spec

theorem Spec.Reaches.inv {p : Profile} {sys : Sys} {H : HeaderType} {mem : Mem} {ops : List Op} {m : Machine}
    (hS : SysOK sys) (hH : H.size < 2 ^ 63) (h : Reaches p sys H mem ops m) : Inv sys H m :=
  inv_run hS hH ops (inv_init sys H mem) h.1 h.2

section
variable {p : Profile} {sys : Sys} {H : HeaderType} {mem : Mem} {ops : List Op} {m : Machine}

/-- **C01** The ranges `[start, start+extent)` (header, object and padding) of any two allocations are disjoint. -/
theorem c01_allocations_disjoint (hS : SysOK sys) (hH : H.size < 2 ^ 63) (h : Reaches p sys H mem ops m) :
    (objs m.log).Pairwise fun o o' => DisjointRange (o.start H) (o.extent H) (o'.start H) (o'.extent H) :=
  (h.inv hS hH).disj

/-- **C02** Every allocation lies in one block that was obtained from the system allocator (answer to a call with size
and alignment 32768) and has not been returned, at offset ≥ 16. -/
theorem c02_inside_block (hS : SysOK sys) (hH : H.size < 2 ^ 63) (h : Reaches p sys H mem ops m) :
    ∀ o ∈ objs m.log, H.size ≤ o.ptr ∧ ∃ q, (q, 32768) ∈ m.w.obtained ∧ (q, 32768) ∉ m.w.freed ∧
      (∃ i, i < m.w.calls ∧ sys.alloc i 32768 32768 = some q) ∧
      q + 16 ≤ o.start H ∧ o.start H + o.extent H ≤ q + 32768 := by
  intro o ho
  have hI := h.inv hS hH
  obtain ⟨h1, b, hb, h2, h3⟩ := hI.inBlock o ho
  have hok := hI.blocks.ok b hb
  have := hok.cur_le
  refine ⟨h1, b.block.ptr, ?_, by simp [hI.blocks.freed], hI.blocks.answered b hb, h2, by omega⟩
  have := hI.blocks.perm.mem_iff.1 (List.mem_map_of_mem hb)
  rw [hok.size] at this
  exact this

/-- The word that is written as bytes. -/
theorem wordAt_of_bytes {m : Mem} {a v : Nat} (h : readBytes m a 8 = leBytes 8 v) : wordAt m a = v % 2 ^ 64 := by
  simp only [readBytes, leBytes, List.range, List.range.loop, List.map_cons, List.map_nil, List.cons.injEq, and_true, Nat.add_zero] at h
  obtain ⟨h0, h1, h2, h3, h4, h5, h6, h7⟩ := h
  unfold wordAt
  rw [h0, h1, h2, h3, h4, h5, h6, h7]
  simp only [UInt8.toNat_ofNat', Nat.div_div_eq_div_mul]
  omega

/-- **C02** The first word of every block obtained still holds the address of that block's metadata, which has been
allocated and not been freed. -/
theorem c02_metadata_word_intact (hS : SysOK sys) (hH : H.size < 2 ^ 63) (h : Reaches p sys H mem ops m) :
    ∀ b ∈ m.bl.all, wordAt m.w.mem b.block.ptr = b.metaPtr % 2 ^ 64 ∧ b.metaPtr ∈ m.w.boxed ∧ b.metaPtr ∉ m.w.unboxed :=
  fun b hb => ⟨wordAt_of_bytes ((h.inv hS hH).blocks.metaw b hb), (h.inv hS hH).blocks.boxes.mem_iff.1 (List.mem_map_of_mem hb), by
    simp [(h.inv hS hH).blocks.unboxed]⟩

/-- **C02** The blocks owned by the heap are exactly the blocks obtained from the system. -/
theorem c02_blocks_owned (hS : SysOK sys) (hH : H.size < 2 ^ 63) (h : Reaches p sys H mem ops m) :
    (m.bl.all.map fun b => (b.block.ptr, b.block.size)).Perm m.w.obtained :=
  (h.inv hS hH).blocks.perm

/-- **C03** Reading every object gives its abstract contents: the initial bytes as modified by the stores of the client
to that object and by nothing else. -/
theorem c03_contents (hS : SysOK sys) (hH : H.size < 2 ^ 63) (h : Reaches p sys H mem ops m) :
    (objs m.log).map (fun o => readBytes m.w.mem o.ptr o.size) = contents m.log :=
  (h.inv hS hH).data.symm

/-- **C03** The header bytes of every object are the ones created at its allocation. -/
theorem c03_headers (hS : SysOK sys) (hH : H.size < 2 ^ 63) (h : Reaches p sys H mem ops m) :
    ∀ o ∈ objs m.log, readBytes m.w.mem (o.ptr - H.size) H.size = o.header H :=
  (h.inv hS hH).hdr

/-- One more operation after a history. -/
theorem Spec.Reaches.snoc {op : Op} {m' : Machine} (h : Reaches p sys H mem ops m) (hop : op.Sized)
    (hs : m.step p sys H op = .ret m') : Reaches p sys H mem (ops ++ [op]) m' := by
  refine ⟨fun o ho => ?_, ?_⟩
  · rcases List.mem_append.1 ho with ho | ho
    · exact h.1 o ho
    · rw [List.mem_singleton.1 ho]; exact hop
  · have : ∀ (l : List Op) (a : Machine), a.run p sys H l = .ret m → a.run p sys H (l ++ [op]) = .ret m' := by
      intro l
      induction l with
      | nil => intro a ha; simp only [Machine.run, Rust.ret.injEq] at ha; subst ha; simp [Machine.run, hs]
      | cons o l ih =>
        intro a ha
        simp only [Machine.run, List.cons_append] at ha ⊢
        cases e : a.step p sys H o with
        | panic => rw [e] at ha; simp at ha
        | ret a' => rw [e] at ha; simp only [Rust.bind_ret] at ha ⊢; exact ih a' ha
    exact this ops _ h.2

/-- **C04** `alloc_array(n)` after any history gives `n` zero bytes. -/
theorem c04_array_zeroed (hS : SysOK sys) (hH : H.size < 2 ^ 63) (h : Reaches p sys H mem ops m) (n q : Nat)
    (hn : n < 2 ^ 32) {bl' : BlockList} {w' : World} (ha : allocArray p sys H m.bl m.w n = .ret (.ok q, bl', w')) :
    ∀ i, i < n → w'.mem (q + i) = 0 := by
  have hs : m.step p sys H (.allocArray n) = .ret { bl := bl', w := w', log := m.log ++ [.allocatedArray n q] } := by
    simp [Machine.step, ha]
  have hI := (h.snoc (op := .allocArray n) (by simpa [Op.Sized] using hn) hs).inv hS hH
  have hd := hI.data
  simp only [contents, List.foldl_append, List.foldl_cons, List.foldl_nil, applyEv, objs_append, objs, List.map_append,
    List.map_cons, List.map_nil] at hd
  have hlen : (m.log.foldl applyEv []).length = ((objs m.log).map fun o => readBytes w'.mem o.ptr o.size).length := by
    have := contents_length m.log
    unfold contents at this
    rw [this]; simp
  have hr := (List.append_inj hd hlen).2
  simp only [List.cons.injEq, and_true] at hr
  intro i hi
  have : (readBytes w'.mem q n)[i]? = (List.replicate n (0 : UInt8))[i]? := by rw [hr]
  simpa [readBytes, hi] using this

/-- **C05** `get_header` and `get_object` are inverse on every object, and `get_header` is the address where that
object's own header is. -/
theorem c05_header_object_inverse (hS : SysOK sys) (hH : H.size < 2 ^ 63) (h : Reaches p sys H mem ops m) :
    ∀ o ∈ objs m.log, getObject H (getHeader H o.ptr) = o.ptr ∧ getHeader H o.ptr = o.start H ∧
      getHeader H (getObject H (o.start H)) = o.start H ∧
      readBytes m.w.mem (getHeader H o.ptr) H.size = o.header H := by
  intro o ho
  have hI := h.inv hS hH
  have h1 := (hI.inBlock o ho).1
  refine ⟨?_, rfl, ?_, hI.hdr o ho⟩
  · unfold getObject getHeader; omega
  · unfold getObject getHeader; omega

/-- **C06** The header of a value or array found through its pointer was built from its exact size, the size class of
the rounded total size and `Mark::Allocated`. -/
theorem c06_header_exact (hS : SysOK sys) (hH : H.size < 2 ^ 63) (h : Reaches p sys H mem ops m) :
    (∀ t obj q, Ev.allocated t obj q ∈ m.log → readBytes m.w.mem (getHeader H q) H.size =
      H.new t obj.length (classOf (roundUp (H.size + obj.length))) .allocated ∧ obj.length < 2 ^ 32) ∧
    (∀ n q, Ev.allocatedArray n q ∈ m.log → readBytes m.w.mem (getHeader H q) H.size =
      H.newArray n (classOf (roundUp (H.size + n))) .allocated) := by
  have hI := h.inv hS hH
  constructor
  · intro t obj q hm
    have ho : ({ ptr := q, size := obj.length, typeId := some t } : Obj) ∈ objs m.log := by
      have : ∀ l : List Ev, Ev.allocated t obj q ∈ l → ({ ptr := q, size := obj.length, typeId := some t } : Obj) ∈ objs l := by
        intro l
        induction l with
        | nil => simp
        | cons e l ih =>
          intro hm
          rcases List.mem_cons.1 hm with rfl | hm'
          · simp [objs]
          · have := ih hm'
            cases e <;> simp [objs, this]
      exact this _ hm
    refine ⟨hI.hdr _ ho, ?_⟩
    have := (hI.sized _ ho).2
    have := roundUp_ge (H.size + obj.length)
    simp only [Obj.extent] at *
    omega
  · intro n q hm
    have ho : ({ ptr := q, size := n, typeId := none } : Obj) ∈ objs m.log := by
      have : ∀ l : List Ev, Ev.allocatedArray n q ∈ l → ({ ptr := q, size := n, typeId := none } : Obj) ∈ objs l := by
        intro l
        induction l with
        | nil => simp
        | cons e l ih =>
          intro hm
          rcases List.mem_cons.1 hm with rfl | hm'
          · simp [objs]
          · have := ih hm'
            cases e <;> simp [objs, this]
      exact this _ hm
    exact hI.hdr _ ho

theorem allocCore_acceptance (size : Nat) (header : SizeClass → List UInt8) (body : List UInt8)
    (hI : Inv sys H m) (hH : H.size < 2 ^ 63) (hs : size < 2 ^ 63) (hf : H.size + size + 7 < 2 ^ 64) :
    ExactAcceptance sys m (roundUp (H.size + size)) (allocCore p sys H m.bl m.w size header body) := by
  unfold ExactAcceptance
  rcases allocCore_spec p sys H m.bl m.w size header body hI.blocks hH hs with
    ⟨hn, _⟩ | ⟨_, hb, e⟩ | ⟨h1, h2, h3, e⟩ | ⟨h1, h2, s, bl', w', _, _, e⟩
  · exact absurd hf hn
  · rw [if_pos hb]; exact e
  · rw [if_neg (by omega)]; right; exact ⟨_, e, h3⟩
  · rw [if_neg (by omega)]; left; exact ⟨_, _, _, e⟩

/-- **C07** `alloc` answers `BadRequest` exactly when the rounded total is 0 or exceeds 32752; else it succeeds, or
answers `OOM` and then the system allocator refused a block. -/
theorem c07_alloc_acceptance (hS : SysOK sys) (hH : H.size < 2 ^ 63) (h : Reaches p sys H mem ops m) (t : Nat)
    (o : List UInt8) (ho : o.length < 2 ^ 63) (hf : H.size + o.length + 7 < 2 ^ 64) :
    ExactAcceptance sys m (roundUp (H.size + o.length)) (alloc p sys H m.bl m.w t o) := by
  rw [alloc_eq_core]; exact allocCore_acceptance _ _ _ (h.inv hS hH) hH ho hf

/-- **C07** the same for `alloc_array`. -/
theorem c07_alloc_array_acceptance (hS : SysOK sys) (hH : H.size < 2 ^ 63) (h : Reaches p sys H mem ops m) (n : Nat)
    (hn : n < 2 ^ 32) (hf : H.size + n + 7 < 2 ^ 64) :
    ExactAcceptance sys m (roundUp (H.size + n)) (allocArray p sys H m.bl m.w n) := by
  rw [allocArray_eq_core]; exact allocCore_acceptance _ _ _ (h.inv hS hH) hH (by omega) hf

/-- **C07** sizes so large that header + object + 7 overflows `usize`: a panic with overflow checks, else refused. -/
theorem c07_alloc_overflow (hS : SysOK sys) (hH : H.size < 2 ^ 63) (h : Reaches p sys H mem ops m) (t : Nat)
    (o : List UInt8) (ho : o.length < 2 ^ 63) (hf : ¬ H.size + o.length + 7 < 2 ^ 64) :
    alloc p sys H m.bl m.w t o =
      match p with | .dev => .panic | .release => .ret (.error .badRequest, m.bl, m.w) := by
  rw [alloc_eq_core]
  rcases allocCore_spec p sys H m.bl m.w o.length (fun c => H.new t (asU32 o.length) c .allocated) o
    (h.inv hS hH).blocks hH ho with
    ⟨_, e⟩ | ⟨hb, _⟩ | ⟨h1, h2, _⟩ | ⟨h1, h2, _⟩
  · exact e
  · exact absurd hb hf
  · have := roundUp_ge (H.size + o.length); omega
  · have := roundUp_ge (H.size + o.length); omega

theorem step_no_panic (op : Op) (hI : Inv sys H m) (hH : H.size < 2 ^ 63) (hop : op.Sized) (hf : op.Fits H) :
    ∃ m', m.step p sys H op = .ret m' := by
  cases op with
  | alloc t o =>
    simp only [Machine.step, alloc_eq_core]
    simp only [Op.Sized, Op.Fits] at hop hf
    have := allocCore_acceptance (p := p) o.length (fun c => H.new t (asU32 o.length) c .allocated) o hI hH hop hf
    unfold ExactAcceptance at this
    split at this
    · rw [this]; exact ⟨_, rfl⟩
    · rcases this with ⟨q, bl', w', e⟩ | ⟨w', e, _⟩ <;> rw [e] <;> exact ⟨_, rfl⟩
  | allocArray n =>
    simp only [Machine.step, allocArray_eq_core]
    simp only [Op.Sized, Op.Fits] at hop hf
    have := allocCore_acceptance (p := p) n (fun c => H.newArray n c .allocated) (List.replicate n 0) hI hH (by omega) hf
    unfold ExactAcceptance at this
    split at this
    · rw [this]; exact ⟨_, rfl⟩
    · rcases this with ⟨q, bl', w', e⟩ | ⟨w', e, _⟩ <;> rw [e] <;> exact ⟨_, rfl⟩
  | store k off bytes =>
    simp only [Machine.step]
    split
    · split <;> exact ⟨_, rfl⟩
    · exact ⟨_, rfl⟩

/-- **C08** No client program makes the heap panic. -/
theorem c08_no_panic (p : Profile) (hS : SysOK sys) (hH : H.size < 2 ^ 63) (mem : Mem) (ops : List Op)
    (hop : ∀ op ∈ ops, op.Sized) (hf : ∀ op ∈ ops, op.Fits H) : ∃ m, Reaches p sys H mem ops m := by
  have : ∀ (ops : List Op) (m : Machine), Inv sys H m → (∀ op ∈ ops, op.Sized) → (∀ op ∈ ops, op.Fits H) →
      ∃ m', m.run p sys H ops = .ret m' := by
    intro ops
    induction ops with
    | nil => intro m _ _ _; exact ⟨m, rfl⟩
    | cons op ops ih =>
      intro m hI h1 h2
      obtain ⟨m1, e⟩ := step_no_panic (p := p) op hI hH (h1 op (by simp)) (h2 op (by simp))
      obtain ⟨m2, e2⟩ := ih m1 (inv_step hS hH hI (h1 op (by simp)) e) (fun o ho => h1 o (by simp [ho]))
        (fun o ho => h2 o (by simp [ho]))
      exact ⟨m2, by simp [Machine.run, e, e2]⟩
  obtain ⟨m, e⟩ := this ops _ (inv_init sys H mem) hop hf
  exact ⟨m, hop, e⟩

/-- **C09** A failed `alloc` changes nothing. -/
theorem c09_failed_alloc (hS : SysOK sys) (hH : H.size < 2 ^ 63) (h : Reaches p sys H mem ops m) (t : Nat)
    (o : List UInt8) (ho : o.length < 2 ^ 63) {e : AllocError} {bl' : BlockList} {w' : World}
    (hr : alloc p sys H m.bl m.w t o = .ret (.error e, bl', w')) : Unchanged e m.bl m.w bl' w' := by
  rw [alloc_eq_core] at hr
  rcases allocCore_spec p sys H m.bl m.w o.length (fun c => H.new t (asU32 o.length) c .allocated) o
    (h.inv hS hH).blocks hH ho with
    ⟨_, e'⟩ | ⟨_, _, e'⟩ | ⟨_, _, _, e'⟩ | ⟨_, _, _, _, _, _, _, e'⟩ <;> rw [e'] at hr
  · cases p <;> simp at hr
    obtain ⟨rfl, rfl, rfl⟩ := hr; exact ⟨rfl, rfl⟩
  · simp at hr; obtain ⟨rfl, rfl, rfl⟩ := hr; exact ⟨rfl, rfl⟩
  · simp at hr; obtain ⟨rfl, rfl, rfl⟩ := hr; exact ⟨rfl, rfl⟩
  · simp at hr

/-- **C09** A failed `alloc_array` changes nothing. -/
theorem c09_failed_alloc_array (hS : SysOK sys) (hH : H.size < 2 ^ 63) (h : Reaches p sys H mem ops m) (n : Nat)
    (hn : n < 2 ^ 32) {e : AllocError} {bl' : BlockList} {w' : World}
    (hr : allocArray p sys H m.bl m.w n = .ret (.error e, bl', w')) : Unchanged e m.bl m.w bl' w' := by
  rw [allocArray_eq_core] at hr
  rcases allocCore_spec p sys H m.bl m.w n (fun c => H.newArray n c .allocated) (List.replicate n 0)
    (h.inv hS hH).blocks hH (by omega) with
    ⟨_, e'⟩ | ⟨_, _, e'⟩ | ⟨_, _, _, e'⟩ | ⟨_, _, _, _, _, _, _, e'⟩ <;> rw [e'] at hr
  · cases p <;> simp at hr
    obtain ⟨rfl, rfl, rfl⟩ := hr; exact ⟨rfl, rfl⟩
  · simp at hr; obtain ⟨rfl, rfl, rfl⟩ := hr; exact ⟨rfl, rfl⟩
  · simp at hr; obtain ⟨rfl, rfl, rfl⟩ := hr; exact ⟨rfl, rfl⟩
  · simp at hr

/-- **C10** Header addresses are word aligned, and a returned pointer is misaligned by exactly the header size modulo 8:
it is word aligned if and only if the size of the header type is a multiple of 8. -/
theorem c10_alignment (hS : SysOK sys) (hH : H.size < 2 ^ 63) (h : Reaches p sys H mem ops m) :
    ∀ o ∈ objs m.log, getHeader H o.ptr % 8 = 0 ∧ (o.ptr % 8 = 0 ↔ H.size % 8 = 0) := by
  intro o ho
  have hI := h.inv hS hH
  have h1 := (hI.inBlock o ho).1
  have h2 := hI.aligned o ho
  have : getHeader H o.ptr = o.start H := rfl
  rw [this]
  unfold Obj.start at *
  omega

/-- **C11** `alloc_size_of(n)` is the least multiple of 8 that is at least `n`. -/
theorem c11_rounding (n : Nat) (h : n ≤ 2 ^ 64 - 1 - 7) :
    ∃ r, allocSizeOf p n = .ret r ∧ 8 ∣ r ∧ n ≤ r ∧ ∀ k, 8 ∣ k → n ≤ k → r ≤ k := by
  refine ⟨_, allocSizeOf_fits p n (by omega), ?_, roundUp_ge n, ?_⟩
  · have := roundUp_mod n; omega
  · intro k hk hn; unfold roundUp; omega

/-- **C11** above `usize::MAX - 7` it panics with overflow checks and gives 0, an invalid request, without. -/
theorem c11_rounding_overflow (n : Nat) (h1 : n < 2 ^ 64) (h2 : 2 ^ 64 - 1 - 7 < n) :
    allocSizeOf p n = (match p with | .dev => .panic | .release => .ret 0) ∧ getForSize 0 = .error .badRequest := by
  refine ⟨?_, ?_⟩
  · rw [allocSizeOf_overflow _ _ (by omega) (by omega)]
    try cases p <;> rfl
  · rw [getForSize_eq]; rfl

/-- **C12** The size classes partition the sizes. -/
theorem c12_size_classes (n : Nat) :
    (getForSize n = .ok .small ↔ 1 ≤ n ∧ n ≤ 128) ∧ (getForSize n = .ok .medium ↔ 129 ≤ n ∧ n ≤ 32752) ∧
    (getForSize n = .ok .large ↔ 32753 ≤ n ∧ n ≤ 2 ^ 32 - 1) ∧
    (getForSize n = .error .badRequest ↔ n = 0 ∨ 2 ^ 32 - 1 < n) ∧ getForSize n ≠ .error .oom := by
  rw [getForSize_eq]
  by_cases h1 : 1 ≤ n ∧ n ≤ 128
  · rw [if_pos h1]; simp; omega
  · rw [if_neg h1]
    by_cases h2 : 129 ≤ n ∧ n ≤ 32752
    · rw [if_pos h2]; simp; omega
    · rw [if_neg h2]
      by_cases h3 : 32753 ≤ n ∧ n ≤ 4294967295
      · rw [if_pos h3]; simp; omega
      · rw [if_neg h3]; simp; omega

/-- **C19** While the heap lives nothing is returned to the system; dropping it returns exactly the blocks obtained,
each once, with the size (= alignment) of its allocation. -/
theorem c19_freed_exactly_once (hS : SysOK sys) (hH : H.size < 2 ^ 63) (h : Reaches p sys H mem ops m) :
    m.w.freed = [] ∧ (m.bl.drop m.w).freed.Perm m.w.obtained ∧ m.w.obtained.Nodup ∧
      ∀ x ∈ m.w.obtained, x.2 = 32768 := by
  have hI := h.inv hS hH
  have hdrop : (m.bl.drop m.w).freed = m.bl.all.map fun b => (b.block.ptr, b.block.size) := by
    have hrest : ∀ (l : List BumpBlock) (w : World), (l.foldl BumpBlock.drop w).freed =
        w.freed ++ l.map fun b => (b.block.ptr, b.block.size) := by
      intro l
      induction l with
      | nil => simp
      | cons b l ih => intro w; rw [List.foldl_cons, ih]; simp [BumpBlock.drop, Block.drop, deallocBlock]
    unfold BlockList.drop BlockList.all
    simp only [hrest]
    cases m.bl.head <;> cases m.bl.overflow <;>
      simp [BumpBlock.drop, Block.drop, deallocBlock, hI.blocks.freed]
  refine ⟨hI.blocks.freed, ?_, ?_, ?_⟩
  · rw [hdrop]; exact hI.blocks.perm
  · refine (hI.blocks.perm.nodup_iff).1 ?_
    unfold List.Nodup
    rw [List.pairwise_map]
    refine hI.blocks.disj.imp ?_
    intro a b hd e
    simp only [Prod.mk.injEq] at e
    unfold BlockDisjoint DisjointRange at hd
    omega
  · intro x hx
    obtain ⟨b, hb, rfl⟩ := List.mem_map.1 (hI.blocks.perm.mem_iff.2 hx)
    exact (hI.blocks.ok b hb).size

/-- **C19** The same for the boxes of the blocks' metadata: none is freed while the heap lives, and dropping the heap frees
exactly the boxes allocated. -/
theorem c19_metadata_boxes (hS : SysOK sys) (hH : H.size < 2 ^ 63) (h : Reaches p sys H mem ops m) :
    m.w.unboxed = [] ∧ (m.bl.drop m.w).unboxed.Perm m.w.boxed ∧ m.w.boxed.length = m.w.obtained.length := by
  have hI := h.inv hS hH
  have hdrop : (m.bl.drop m.w).unboxed = m.bl.all.map fun b => b.metaPtr := by
    have hrest : ∀ (l : List BumpBlock) (w : World), (l.foldl BumpBlock.drop w).unboxed =
        w.unboxed ++ l.map fun b => b.metaPtr := by
      intro l
      induction l with
      | nil => simp
      | cons b l ih => intro w; rw [List.foldl_cons, ih]; simp [BumpBlock.drop, Block.drop, deallocBlock]
    unfold BlockList.drop BlockList.all
    simp only [hrest]
    cases m.bl.head <;> cases m.bl.overflow <;>
      simp [BumpBlock.drop, Block.drop, deallocBlock, hI.blocks.unboxed]
  refine ⟨hI.blocks.unboxed, hdrop ▸ hI.blocks.boxes, ?_⟩
  rw [← hI.blocks.boxes.length_eq, ← hI.blocks.perm.length_eq]
  simp

/-- **C57** The used part of every block is tiled by objects: every byte from offset 16 up to the block's bump cursor
belongs to exactly one object (no leak inside a block). -/
theorem c57_blocks_packed (hS : SysOK sys) (hH : H.size < 2 ^ 63) (h : Reaches p sys H mem ops m) :
    ∀ b ∈ m.bl.all, 16 ≤ b.cursor ∧ b.cursor ≤ 32768 ∧
      ∀ a, b.block.ptr + 16 ≤ a → a < b.block.ptr + b.cursor →
        ∃ o ∈ objs m.log, (o.start H ≤ a ∧ a < o.start H + o.extent H) ∧
          ∀ o' ∈ objs m.log, o'.start H ≤ a → a < o'.start H + o'.extent H → o' = o := by
  intro b hb
  have hI := h.inv hS hH
  refine ⟨(hI.blocks.ok b hb).cur_ge, (hI.blocks.ok b hb).cur_le, ?_⟩
  intro a h1 h2
  obtain ⟨o, ho, h3⟩ := hI.packed b hb a h1 h2
  refine ⟨o, ho, h3, ?_⟩
  intro o' ho' h4 h5
  have hpw := List.pairwise_iff_getElem.1 hI.disj
  obtain ⟨i, hi, rfl⟩ := List.getElem_of_mem ho
  obtain ⟨j, hj, rfl⟩ := List.getElem_of_mem ho'
  rcases Nat.lt_trichotomy i j with hlt | heq | hlt
  · have := hpw i j hi hj hlt
    unfold ObjDisjoint DisjointRange at this
    omega
  · subst heq; rfl
  · have := hpw j i hj hi hlt
    unfold ObjDisjoint DisjointRange at this
    omega

theorem allocCore_retire {size : Nat} {header : SizeClass → List UInt8} {body : List UInt8} (hI : Inv sys H m)
    (hH : H.size < 2 ^ 63) (hs : size < 2 ^ 63) {q : Nat} {bl' : BlockList} {w' : World} {b : BumpBlock}
    (hr : allocCore p sys H m.bl m.w size header body = .ret (.ok q, bl', w')) (hret : Retires m.bl bl' b) :
    classOf (roundUp (H.size + size)) = .small ∧ 32768 - b.cursor < 128 ∧ b ∈ bl'.rest := by
  rcases allocCore_spec p sys H m.bl m.w size header body hI.blocks hH hs with
    ⟨_, e'⟩ | ⟨_, _, e'⟩ | ⟨_, _, _, e'⟩ | ⟨h1, h2, space, bl2, w2, hG, hR, e'⟩ <;> rw [e'] at hr
  · cases p <;> simp at hr
  · simp at hr
  · simp at hr
  · simp at hr
    obtain ⟨_, rfl, _⟩ := hr
    cases hR with
    | same _ _ _ hh => exact absurd rfl (hret.2 b (by rw [hh]; exact hret.1))
    | bumped b' h3 h4 _ =>
      have : b' = b := by rw [hret.1] at h3; exact (Option.some.inj h3).symm
      subst this
      have := hret.2 _ h4
      exact absurd rfl this
    | first f h3 h4 => rw [hret.1] at h3; cases h3
    | retired b' f h3 h4 hs hfull hrest =>
      have : b' = b := by rw [hret.1] at h3; exact (Option.some.inj h3).symm
      subst this
      refine ⟨by simp [classOf, hs], ?_, by simp [hrest]⟩
      have := roundUp_mod (H.size + size)
      have := (hI.blocks.ok b' (by simp [BlockList.all, hret.1])).cur_al
      omega

/-- **C21** When an allocation retires the current block `b`, the object is small, fewer than 128 bytes of `b` are
unused (every byte below its cursor belongs to an object, C57), and `b` is kept among the heap's blocks.
In particular a medium object never retires the current block. -/
theorem c21_retire_waste (hS : SysOK sys) (hH : H.size < 2 ^ 63) (h : Reaches p sys H mem ops m) (t : Nat)
    (o : List UInt8) (ho : o.length < 2 ^ 63) {q : Nat} {bl' : BlockList} {w' : World} {b : BumpBlock}
    (hr : alloc p sys H m.bl m.w t o = .ret (.ok q, bl', w')) (hret : Retires m.bl bl' b) :
    classOf (roundUp (H.size + o.length)) = .small ∧ 32768 - b.cursor < 128 ∧ b ∈ bl'.rest := by
  rw [alloc_eq_core] at hr
  exact allocCore_retire (h.inv hS hH) hH ho hr hret

/-- **C21** the same for arrays. -/
theorem c21_retire_waste_array (hS : SysOK sys) (hH : H.size < 2 ^ 63) (h : Reaches p sys H mem ops m) (n : Nat)
    (hn : n < 2 ^ 32) {q : Nat} {bl' : BlockList} {w' : World} {b : BumpBlock}
    (hr : allocArray p sys H m.bl m.w n = .ret (.ok q, bl', w')) (hret : Retires m.bl bl' b) :
    classOf (roundUp (H.size + n)) = .small ∧ 32768 - b.cursor < 128 ∧ b ∈ bl'.rest := by
  rw [allocArray_eq_core] at hr
  exact allocCore_retire (h.inv hS hH) hH (by omega) hr hret

theorem allocCore_overflow {size : Nat} {header : SizeClass → List UInt8} {body : List UInt8} (hI : Inv sys H m)
    (hH : H.size < 2 ^ 63) (hs : size < 2 ^ 63) {q : Nat} {bl' : BlockList} {w' : World} {b : BumpBlock}
    (hr : allocCore p sys H m.bl m.w size header body = .ret (.ok q, bl', w')) (hm : classOf (roundUp (H.size + size)) = .medium)
    (hb : m.bl.head = some b) (hfull : 32768 - b.cursor < roundUp (H.size + size)) :
    bl'.head = some b ∧ ∃ ov, bl'.overflow = some ov ∧ ov.block.ptr + 16 ≤ q - H.size ∧
      q - H.size + roundUp (H.size + size) ≤ ov.block.ptr + 32768 := by
  have hcl := (hI.blocks.ok b (by simp [BlockList.all, hb])).cur_le
  rcases allocCore_spec p sys H m.bl m.w size header body hI.blocks hH hs with
    ⟨_, e'⟩ | ⟨_, _, e'⟩ | ⟨_, _, _, e'⟩ | ⟨h1, h2, space, bl2, w2, hG, hR, e'⟩ <;> rw [e'] at hr
  · cases p <;> simp at hr
  · simp at hr
  · simp at hr
  · simp at hr
    obtain ⟨rfl, rfl, _⟩ := hr
    cases hR with
    | same b' ov h1 h hs ho h2 h3 h4 => exact ⟨by rw [h, hb], ov, ho, by omega, by omega⟩
    | bumped b' h3 h4 hfit =>
      have : b' = b := by rw [hb] at h3; exact (Option.some.inj h3).symm
      subst this
      omega
    | first f h3 h4 => rw [hb] at h3; cases h3
    | retired b' f h3 h4 hs hfull hrest => simp [classOf, hs] at hm

/-- **C21** A medium object that does not fit into the current block goes to an overflow block, and the current block stays as it is. -/
theorem c21_medium_overflow (hS : SysOK sys) (hH : H.size < 2 ^ 63) (h : Reaches p sys H mem ops m) (t : Nat)
    (o : List UInt8) (ho : o.length < 2 ^ 63) {q : Nat} {bl' : BlockList} {w' : World} {b : BumpBlock}
    (hr : alloc p sys H m.bl m.w t o = .ret (.ok q, bl', w')) (hm : classOf (roundUp (H.size + o.length)) = .medium)
    (hb : m.bl.head = some b) (hfull : 32768 - b.cursor < roundUp (H.size + o.length)) :
    bl'.head = some b ∧ ∃ ov, bl'.overflow = some ov ∧ ov.block.ptr + 16 ≤ q - H.size ∧
      q - H.size + roundUp (H.size + o.length) ≤ ov.block.ptr + 32768 := by
  rw [alloc_eq_core] at hr
  exact allocCore_overflow (h.inv hS hH) hH ho hr hm hb hfull

/-- **C21** the same for arrays. -/
theorem c21_medium_overflow_array (hS : SysOK sys) (hH : H.size < 2 ^ 63) (h : Reaches p sys H mem ops m) (n : Nat)
    (hn : n < 2 ^ 32) {q : Nat} {bl' : BlockList} {w' : World} {b : BumpBlock}
    (hr : allocArray p sys H m.bl m.w n = .ret (.ok q, bl', w')) (hm : classOf (roundUp (H.size + n)) = .medium)
    (hb : m.bl.head = some b) (hfull : 32768 - b.cursor < roundUp (H.size + n)) :
    bl'.head = some b ∧ ∃ ov, bl'.overflow = some ov ∧ ov.block.ptr + 16 ≤ q - H.size ∧
      q - H.size + roundUp (H.size + n) ≤ ov.block.ptr + 32768 := by
  rw [allocArray_eq_core] at hr
  exact allocCore_overflow (h.inv hS hH) hH (by omega) hr hm hb hfull

/-- **C21** A medium array never retires the current block. -/
theorem c21_medium_array_never_retires (hS : SysOK sys) (hH : H.size < 2 ^ 63) (h : Reaches p sys H mem ops m) (n : Nat)
    (hn : n < 2 ^ 32) {q : Nat} {bl' : BlockList} {w' : World}
    (hr : allocArray p sys H m.bl m.w n = .ret (.ok q, bl', w')) (hm : classOf (roundUp (H.size + n)) = .medium)
    (b : BumpBlock) : ¬ Retires m.bl bl' b := by
  intro hret
  have := (c21_retire_waste_array hS hH h n hn hr hret).1
  rw [hm] at this
  cases this

/-- **C21** A medium object never retires the current block. -/
theorem c21_medium_never_retires (hS : SysOK sys) (hH : H.size < 2 ^ 63) (h : Reaches p sys H mem ops m) (t : Nat)
    (o : List UInt8) (ho : o.length < 2 ^ 63) {q : Nat} {bl' : BlockList} {w' : World}
    (hr : alloc p sys H m.bl m.w t o = .ret (.ok q, bl', w')) (hm : classOf (roundUp (H.size + o.length)) = .medium)
    (b : BumpBlock) : ¬ Retires m.bl bl' b := by
  intro hret
  have := (c21_retire_waste hS hH h t o ho hr hret).1
  rw [hm] at this
  cases this

end

theorem isPowerOfTwo_iff (n : Nat) : isPowerOfTwo n = true ↔ ∃ k, n = 2 ^ k := by
  unfold isPowerOfTwo
  simp only [Bool.and_eq_true, bne_iff_ne, beq_iff_eq]
  induction n using Nat.strongRecOn with
  | ind n ih =>
    rcases Nat.mod_two_eq_zero_or_one n with h | h
    · by_cases h0 : n = 0
      · subst h0
        constructor
        · intro h; exact absurd rfl h.1
        · rintro ⟨k, hk⟩; have := Nat.two_pow_pos k; omega
      · have hlt : n / 2 < n := by omega
        have key : n &&& (n - 1) = 2 * (n / 2 &&& (n / 2 - 1)) := by
          have h1 : (n &&& (n - 1)) / 2 = n / 2 &&& (n / 2 - 1) := by
            rw [Nat.and_div_two]
            congr 1
            omega
          have h2 : (n &&& (n - 1)) % 2 = 0 := by
            have := Nat.and_mod_two_pow (a := n) (b := n - 1) (n := 1)
            simp only [Nat.pow_one] at this
            rw [this, h]
            simp
          omega
        have := ih (n / 2) hlt
        constructor
        · rintro ⟨_, hz⟩
          obtain ⟨k, hk⟩ := this.1 ⟨by omega, by omega⟩
          exact ⟨k + 1, by rw [Nat.pow_succ]; omega⟩
        · rintro ⟨k, hk⟩
          cases k with
          | zero => simp at hk; omega
          | succ k =>
            have := (this.2 ⟨k, by rw [Nat.pow_succ] at hk; omega⟩).2
            exact ⟨h0, by omega⟩
    · have key : (n &&& (n - 1)) = n - 1 := by
        have h1 : (n &&& (n - 1)) / 2 = n / 2 := by
          rw [Nat.and_div_two]
          have : (n - 1) / 2 = n / 2 := by omega
          rw [this, Nat.and_self]
        have h2 : (n &&& (n - 1)) % 2 = 0 := by
          have := Nat.and_mod_two_pow (a := n) (b := n - 1) (n := 1)
          simp only [Nat.pow_one] at this
          have h3 : (n - 1) % 2 = 0 := by omega
          rw [this, h3]
          simp
        omega
      rw [key]
      constructor
      · rintro ⟨_, hz⟩; exact ⟨0, by simp; omega⟩
      · rintro ⟨k, hk⟩
        cases k with
        | zero => simp at hk; omega
        | succ k => rw [Nat.pow_succ] at hk; omega

/-- **C18** `Block::new(size)`: `BadRequest` exactly if `size` is not a power of two (and then the system is not even
asked); otherwise the system's answer: a block with all address bits below `size` clear, or OOM. -/
theorem c18_block_new (sys : Sys) (hS : SysOK sys) (w : World) (size : Nat) :
    ((∃ k, size = 2 ^ k) →
      (∃ q w', Block.new sys w size = (.ok { ptr := q, size := size }, w') ∧ q &&& (size - 1) = 0 ∧
        w'.obtained = w.obtained ++ [(q, size)]) ∨
      ((Block.new sys w size).1 = .error .oom ∧ sys.alloc w.calls size size = none)) ∧
    ((¬ ∃ k, size = 2 ^ k) → Block.new sys w size = (.error .badRequest, w)) := by
  have hp : isPowerOfTwo size = true ↔ ∃ k, size = 2 ^ k := isPowerOfTwo_iff size
  constructor
  · intro hk
    unfold Block.new allocBlock
    rw [if_pos (hp.2 hk)]
    simp only
    cases hq : sys.alloc w.calls size size with
    | none => right; exact ⟨rfl, rfl⟩
    | some q =>
      left
      refine ⟨q, _, rfl, ?_, rfl⟩
      obtain ⟨k, rfl⟩ := hk
      have := hS.aligned _ _ _ _ hq
      rw [Nat.and_two_pow_sub_one_eq_mod]
      exact Nat.mod_eq_zero_of_dvd this
  · intro hk
    unfold Block.new
    rw [if_neg (by rw [hp]; exact hk)]

/-- **C20** (refutation) `Block::into_mut_ptr` runs `Drop for Block` on `self`: the pointer it returns has just been
returned to the system allocator, for every block. -/
theorem c20_into_mut_ptr_dangles (w : World) (b : Block) :
    (b.intoMutPtr w).1 = b.ptr ∧ (b.ptr, b.size) ∈ (b.intoMutPtr w).2.freed := by
  simp [Block.intoMutPtr, Block.drop, deallocBlock]

/-! ## The hypotheses are met: a concrete system allocator and a concrete client program -/

/-- A system allocator with room for 1000 blocks. -/
def exampleSys : Sys where
  alloc i s a := if s = 32768 ∧ a = 32768 ∧ i < 1000 then some ((i + 1) * 32768) else none
  metaAddr i := 1000000000 + i * 512

theorem exampleSys_ok : SysOK exampleSys where
  nonnull i s a q h := by unfold exampleSys at h; simp only [] at h; split at h <;> simp at h; omega
  aligned i s a q h := by
    unfold exampleSys at h; simp only [] at h; split at h <;> simp at h
    rename_i hc; rw [hc.2.1, ← h]; exact ⟨i + 1, Nat.mul_comm _ _⟩
  inSpace i s a q h := by unfold exampleSys at h; simp only [] at h; split at h <;> simp at h; omega
  disjoint i j s a t b q r hij h1 h2 := by
    unfold exampleSys at h1 h2; simp only [] at h1 h2
    split at h1 <;> simp at h1
    split at h2 <;> simp at h2
    unfold DisjointRange; omega

/-- An 8-byte header: type id, size (2 bytes), class. -/
def exampleHeader : HeaderType where
  size := 8
  new t s c _ := [UInt8.ofNat t, UInt8.ofNat s, UInt8.ofNat (s / 256), (match c with | .small => 1 | .medium => 2 | .large => 3), 0, 0, 0, 0]
  newArray s c _ := [255, UInt8.ofNat s, UInt8.ofNat (s / 256), (match c with | .small => 1 | .medium => 2 | .large => 3), 0, 0, 0, 0]
  new_length _ _ _ _ := rfl
  newArray_length _ _ _ := rfl

/-- A program that allocates small and medium objects, writes to one, uses the overflow block and is refused once. -/
def exampleOps : List Op :=
  [.alloc 7 [1, 2, 3], .allocArray 1000, .store 0 1 [9, 9], .allocArray 32000, .allocArray 40000, .alloc 8 [5]]

example : (∀ op ∈ exampleOps, op.Sized) ∧ (∀ op ∈ exampleOps, op.Fits exampleHeader) := by
  simp [exampleOps, Op.Sized, Op.Fits, exampleHeader]

/-- The pointers of the objects the program allocates, and its failures. -/
def exampleView : Option (List Nat × Nat) :=
  match (Machine.init (fun _ => 77)).run .dev exampleSys exampleHeader exampleOps with
  | .ret m => some ((objs m.log).map (·.ptr), m.w.obtained.length)
  | .panic => none

/-- The program runs: two objects and an array in the first block, one big array in the overflow block. -/
example : exampleView = some ([32792, 32808, 65560, 33816], 2) := by decide +kernel

/-- A program whose last allocation retires the first block (hypotheses of C21). -/
example : (match (Machine.init (fun _ => 77)).run .dev exampleSys exampleHeader [.allocArray 32680] with
    | .ret m => (match alloc .dev exampleSys exampleHeader m.bl m.w 1 (List.replicate 100 0) with
      | .ret (.ok _, bl', _) => (m.bl.head.map fun b => (b.block.ptr, b.cursor), bl'.head.map fun b => (b.block.ptr, b.cursor))
      | _ => (none, none))
    | .panic => (none, none)) = (some (32768, 32704), some (65536, 128)) := by decide +kernel

/-- A medium object that does not fit: the current block keeps its cursor, the object lies in the overflow block (C21). -/
example : (match (Machine.init (fun _ => 77)).run .dev exampleSys exampleHeader [.allocArray 32000] with
    | .ret m => (match alloc .dev exampleSys exampleHeader m.bl m.w 1 (List.replicate 900 0) with
      | .ret (.ok q, bl', _) => (m.bl.head.map (·.cursor), bl'.head.map (·.cursor), bl'.overflow.map fun b => (b.block.ptr, b.cursor), q)
      | _ => (none, none, none, 0))
    | .panic => (none, none, none, 0)) = (some 32024, some 32024, some (65536, 928), 65560) := by decide +kernel

/-- A 4-byte header. -/
def smallHeader : HeaderType where
  size := 4
  new t _ _ _ := [UInt8.ofNat t, 0, 0, 0]
  newArray _ _ _ := [255, 0, 0, 0]
  new_length _ _ _ _ := rfl
  newArray_length _ _ _ := rfl

/-- With a 4-byte header every returned pointer is misaligned (C10). -/
example : (match (Machine.init (fun _ => 77)).run .dev exampleSys smallHeader [.alloc 3 (List.replicate 8 1)] with
    | .ret m => (objs m.log).map fun o => (o.ptr % 8)
    | .panic => []) = [4] := by decide +kernel

end Verif.Immix
