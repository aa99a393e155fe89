import Verif.Immix.HeapsInv
import Verif.Immix.RawPtr
import Verif.Props.Heap

/-!
# Several heaps, caught panics, dropped heaps, reused memory (C77-C80)

Every theorem ranges over the build profile `p`, the behaviour `sys` of the system allocator (with the contract `Honest` at every
moment it is used; it may refuse blocks and reuse returned memory) and every history of operations and of the rest of the process.
-/

namespace Verif.Immix

open Verif Spec

section
variable {p : Profile} {sys : Sys} {s : Heaps}

theorem Spec.Possible.owns_disjoint (h : Possible p sys s) {k l : Nat} {g g' : HeapState} (hk : s.get k = some g) (hl : s.get l = some g')
    (hne : k ≠ l) {b b' : BumpBlock} (hb : b ∈ g.bl.all) (hb' : b' ∈ g'.bl.all) : DisjointRange b.block.ptr 32768 b'.block.ptr 32768 := by
  have hd := h.inv.disj
  obtain ⟨l1, l2, e, hlen, _⟩ := heaps_split hk
  rw [e, allKeys_append, allKeys_cons, List.pairwise_append, List.pairwise_append] at hd
  obtain ⟨_, ⟨_, _, hd2⟩, hd3⟩ := hd
  have hbk := List.mem_map_of_mem (f := fun b : BumpBlock => (b.block.ptr, b.block.size)) hb
  have hl' : (s.heaps[l]?).join = some g' := hl
  rw [e] at hl'
  have hj : ∀ x : Option (Option HeapState), x.join = some g' → x = some (some g') := by
    intro x hx
    cases x with
    | none => cases hx
    | some y => simp at hx; rw [hx]
  have hl'' := hj _ hl'
  rcases Nat.lt_or_gt_of_ne hne with hlt | hlt
  · have : some g' ∈ l2 := by
      rw [List.getElem?_append_right (by omega)] at hl''
      obtain ⟨d, hd⟩ : ∃ d, l - l1.length = d + 1 := ⟨l - l1.length - 1, by omega⟩
      rw [hd, List.getElem?_cons_succ] at hl''
      exact List.mem_of_getElem? hl''
    exact hd2 _ hbk _ (mem_allKeys this hb')
  · have : some g' ∈ l1 := by
      rw [List.getElem?_append_left (by omega)] at hl''
      exact List.mem_of_getElem? hl''
    exact (hd3 _ (mem_allKeys this hb') _ (List.mem_append.2 (.inl hbk))).elim Or.inr Or.inl

/-- **C77** Header, object and padding of any two objects of heaps that have not been dropped are disjoint, whether the objects
belong to the same heap or not. -/
theorem c77_disjoint (h : Possible p sys s) {k l i j : Nat} {g g' : HeapState} {o o' : Entry} (hk : s.get k = some g)
    (hl : s.get l = some g') (hi : g.objs[i]? = some o) (hj : g'.objs[j]? = some o') (hne : (k, i) ≠ (l, j)) :
    DisjointRange (g.range o).1 (g.range o).2 (g'.range o').1 (g'.range o').2 := by
  have hI := h.inv
  have ho := List.mem_of_getElem? hi
  have ho' := List.mem_of_getElem? hj
  by_cases e : k = l
  · subst e
    rw [hk] at hl
    cases hl
    have hij : i ≠ j := fun e => hne (by rw [e])
    have hpw := List.pairwise_iff_getElem.1 (hI.each g (mem_of_get hk)).disj
    obtain ⟨h1, h2⟩ := List.getElem?_eq_some_iff.1 hi
    obtain ⟨h3, h4⟩ := List.getElem?_eq_some_iff.1 hj
    rcases Nat.lt_or_gt_of_ne hij with hlt | hlt
    · have := hpw i j h1 h3 hlt
      rw [h2, h4] at this
      exact this
    · have := hpw j i h3 h1 hlt
      rw [h2, h4] at this
      exact this.elim Or.inr Or.inl
  · obtain ⟨_, b, hb, h1, h2⟩ := (hI.each g (mem_of_get hk)).inBlock o ho
    obtain ⟨_, b', hb', h3, h4⟩ := (hI.each g' (mem_of_get hl)).inBlock o' ho'
    have := h.owns_disjoint hk hl e hb hb'
    have := ((hI.each g (mem_of_get hk)).core.ok b hb).cur_le
    have := ((hI.each g' (mem_of_get hl)).core.ok b' hb').cur_le
    unfold DisjointRange at *
    omega

/-- **C77** Reading an object or its header gives the bytes put there by its allocation and the client's writes to it, whatever
happened to other objects, in other heaps and in the rest of the process. -/
theorem c77_contents (h : Possible p sys s) {k : Nat} {g : HeapState} (hk : s.get k = some g) :
    ∀ o ∈ g.objs, readBytes s.w.mem o.ptr o.size = o.data ∧ readBytes s.w.mem (getHeader g.H o.ptr) g.H.size = o.header :=
  fun o ho => ⟨(h.inv.each g (mem_of_get hk)).data o ho, (h.inv.each g (mem_of_get hk)).hdr o ho⟩

/-- **C77** Every object of a heap that has not been dropped lies in a block that is live, behind the word for the metadata. -/
theorem c77_in_live_block (h : Possible p sys s) {k : Nat} {g : HeapState} (hk : s.get k = some g) :
    ∀ o ∈ g.objs, ∃ q, s.w.isLive (q, 32768) ∧ q + 16 ≤ (g.range o).1 ∧ (g.range o).1 + (g.range o).2 ≤ q + 32768 := by
  intro o ho
  have hI := h.inv
  obtain ⟨_, b, hb, h1, h2⟩ := (hI.each g (mem_of_get hk)).inBlock o ho
  have hok := (hI.each g (mem_of_get hk)).core.ok b hb
  have := hok.cur_le
  refine ⟨b.block.ptr, ?_, h1, by omega⟩
  have := hI.live.2 (mem_allKeys (mem_of_get hk) hb)
  rw [hok.size] at this
  exact this

/-- **C77** No operation fails inside the heap: the only panics are those of the client's header constructors and of the addition
of sizes, and these are outcomes of the operation. -/
theorem c77_steps (h : Possible p sys s) (hH : Honest sys s.w) (o : HOp) (ho : o.Sized) : ∃ s', s.step p sys o = .ret s' := by
  obtain ⟨s', e, _⟩ := h.inv.step (p := p) hH o ho
  exact ⟨s', e⟩

theorem size_panics (p : Profile) (a b : Nat) :
    (do let totalSize ← usizeAdd p a b; allocSizeOf p totalSize : Rust Nat) = .panic ↔ p = .dev ∧ 2 ^ 64 ≤ a + b + 7 := by
  unfold usizeAdd allocSizeOf usizeAdd
  cases p with
  | dev =>
    by_cases h1 : a + b < 2 ^ 64
    · rw [if_pos h1]
      by_cases h2 : a + b + (WORD - 1) < 2 ^ 64
      · simp only [Rust.bind_ret, if_pos h2]
        have : WORD = 8 := by unfold WORD; rfl
        constructor
        · intro h; cases h
        · rintro ⟨-, h⟩; omega
      · simp only [Rust.bind_ret, if_neg h2]
        have : WORD = 8 := by unfold WORD; rfl
        exact ⟨fun _ => ⟨by trivial, by omega⟩, fun _ => rfl⟩
    · rw [if_neg h1]
      exact ⟨fun _ => ⟨rfl, by omega⟩, fun _ => rfl⟩
  | release =>
    constructor
    · intro h
      split at h <;> simp only [Rust.bind_ret] at h <;> split at h <;> cases h
    · rintro ⟨h, -⟩; cases h

/-- **C77** A call whose constructor does not panic panics exactly if overflow checks are on and rounding up the size of header
and object overflows. -/
theorem c77_panics_iff (p : Profile) (sys : Sys) (H : HeaderType) (bl : BlockList) (w : World) (t : Nat) (o : List UInt8) (c : CallEnd)
    (h : allocUnwind p sys H bl w t o false = .ret c) :
    c.outcome = .panicked ↔ p = .dev ∧ 2 ^ 64 ≤ H.size + o.length + 7 := by
  rw [← size_panics]
  unfold allocUnwind at h
  split at h
  · next h1 => cases h; simp [h1]
  · next size h1 =>
    rw [h1]
    split at h
    · cases h; simp
    · cases h3 : findSpace p sys bl w size _ with
      | panic => rw [h3] at h; cases h
      | ret r =>
        rw [h3] at h
        obtain ⟨r, bl', w'⟩ := r
        cases r <;> cases h <;> simp

/-- **C77** The same for arrays; so with a header of less than `2^63` bytes they never do. -/
theorem c77_array_panics_iff (p : Profile) (sys : Sys) (H : HeaderType) (bl : BlockList) (w : World) (n : Nat) (c : CallEnd)
    (h : allocArrayUnwind p sys H bl w n false = .ret c) :
    (c.outcome = .panicked ↔ p = .dev ∧ 2 ^ 64 ≤ H.size + n + 7) ∧ (H.size < 2 ^ 63 → n < 2 ^ 32 → c.outcome ≠ .panicked) := by
  have key : c.outcome = .panicked ↔ p = .dev ∧ 2 ^ 64 ≤ H.size + n + 7 := by
    rw [← size_panics]
    unfold allocArrayUnwind at h
    split at h
    · next h1 => cases h; simp [h1]
    · next size h1 =>
      rw [h1]
      split at h
      · cases h; simp
      · cases h3 : findSpace p sys bl w size _ with
        | panic => rw [h3] at h; cases h
        | ret r =>
          rw [h3] at h
          obtain ⟨r, bl', w'⟩ := r
          cases r <;> cases h <;> simp
  refine ⟨key, fun h1 h2 h3 => ?_⟩
  have := (key.1 h3).2
  omega

/-- **C77** A call whose constructor panics does to the heap what the same call does without the panic: it takes the same blocks
and the same space (so that the answers to all later calls are the same), but nothing is written to the header and the object. -/
theorem c77_constructor_panics (p : Profile) (sys : Sys) (H : HeaderType) (bl : BlockList) (w : World) (t : Nat) (o : List UInt8) (c : CallEnd)
    (h : allocUnwind p sys H bl w t o false = .ret c) :
    ∃ c', allocUnwind p sys H bl w t o true = .ret c' ∧ c'.bl = c.bl ∧ c'.destroyed = true ∧ { c'.w with mem := c.w.mem } = c.w ∧
      (∀ q, c.outcome = .ok q → c'.outcome = .panicked ∧ ∀ a, a + H.size < q ∨ q + o.length ≤ a → c'.w.mem a = c.w.mem a) ∧
      ((∀ q, c.outcome ≠ .ok q) → c'.outcome = c.outcome ∧ c'.w = c.w) := by
  unfold allocUnwind at h ⊢
  cases h1 : (do let totalSize ← usizeAdd p H.size o.length; allocSizeOf p totalSize : Rust Nat) with
  | panic =>
    rw [h1] at h
    cases h
    exact ⟨_, rfl, rfl, rfl, rfl, by simp, by simp⟩
  | ret size =>
    rw [h1] at h
    simp only at h ⊢
    cases h2 : getForSize size with
    | error e =>
      rw [h2] at h
      cases h
      exact ⟨_, rfl, rfl, rfl, rfl, by simp, by simp⟩
    | ok cls =>
      rw [h2] at h
      simp only at h ⊢
      cases h3 : findSpace p sys bl w size cls with
      | panic => rw [h3] at h; cases h
      | ret r =>
        rw [h3] at h
        obtain ⟨r, bl', w'⟩ := r
        cases r with
        | error e =>
          cases h
          exact ⟨_, rfl, rfl, rfl, rfl, by simp, by simp⟩
        | ok space =>
          cases h
          refine ⟨_, rfl, rfl, rfl, rfl, ?_, fun hn => absurd rfl (hn _)⟩
          intro q hq
          cases hq
          refine ⟨rfl, fun a ha => ?_⟩
          show w'.mem a = writeBytes (writeBytes w'.mem space _) (space + H.size) o a
          rw [writeBytes_outside _ _ _ _ (by omega), writeBytes_outside _ _ _ _ (by rw [H.new_length]; omega)]

/-- **C77** The same for arrays. -/
theorem c77_array_constructor_panics (p : Profile) (sys : Sys) (H : HeaderType) (bl : BlockList) (w : World) (n : Nat) (c : CallEnd)
    (h : allocArrayUnwind p sys H bl w n false = .ret c) :
    ∃ c', allocArrayUnwind p sys H bl w n true = .ret c' ∧ c'.bl = c.bl ∧ { c'.w with mem := c.w.mem } = c.w ∧
      (∀ q, c.outcome = .ok q → c'.outcome = .panicked ∧ ∀ a, a + H.size < q ∨ q + n ≤ a → c'.w.mem a = c.w.mem a) ∧
      ((∀ q, c.outcome ≠ .ok q) → c'.outcome = c.outcome ∧ c'.w = c.w) := by
  unfold allocArrayUnwind at h ⊢
  cases h1 : (do let totalSize ← usizeAdd p H.size n; allocSizeOf p totalSize : Rust Nat) with
  | panic =>
    rw [h1] at h
    cases h
    exact ⟨_, rfl, rfl, rfl, by simp, by simp⟩
  | ret size =>
    rw [h1] at h
    simp only at h ⊢
    cases h2 : getForSize size with
    | error e =>
      rw [h2] at h
      cases h
      exact ⟨_, rfl, rfl, rfl, by simp, by simp⟩
    | ok cls =>
      rw [h2] at h
      simp only at h ⊢
      cases h3 : findSpace p sys bl w size cls with
      | panic => rw [h3] at h; cases h
      | ret r =>
        rw [h3] at h
        obtain ⟨r, bl', w'⟩ := r
        cases r with
        | error e =>
          cases h
          exact ⟨_, rfl, rfl, rfl, by simp, by simp⟩
        | ok space =>
          cases h
          refine ⟨_, rfl, rfl, rfl, ?_, fun hn => absurd rfl (hn _)⟩
          intro q hq
          cases hq
          refine ⟨rfl, fun a ha => ?_⟩
          show w'.mem a = writeBytes (writeBytes w'.mem space _) (space + H.size) _ a
          rw [writeBytes_outside _ _ _ _ (by rw [List.length_replicate]; omega), writeBytes_outside _ _ _ _ (by rw [H.newArray_length]; omega)]

theorem grant_mem {sys : Sys} {bl bl' : BlockList} {w w' : World} {n space : Nat} (h : Grant sys bl w n space bl' w') (hb : ∀ b ∈ bl.all, BlockOK b) :
    (∀ a, w'.mem a ≠ w.mem a → ∃ q, w'.obtained = w.obtained ++ [(q, 32768)] ∧ q ≤ a ∧ a < q + 8) ∧
    ∀ a, space ≤ a → w'.mem a ≠ w.mem a → space + n ≤ a := by
  cases h with
  | reuse b others h1 h2 hfit hs hw =>
    subst hw
    exact ⟨fun a ha => absurd rfl ha, fun a _ ha => absurd rfl ha⟩
  | fresh f hnew hcur h2 hs =>
    rw [blockNew_eq] at hnew
    cases hq : sys.alloc w.calls 32768 32768 with
    | none => rw [hq] at hnew; simp at hnew
    | some q =>
      rw [hq] at hnew
      simp only [Prod.mk.injEq, Except.ok.injEq] at hnew
      obtain ⟨rfl, rfl⟩ := hnew
      have key : ∀ a, writeBytes w.mem q (leBytes 8 (sys.metaAddr (w.calls + 1))) a ≠ w.mem a → q ≤ a ∧ a < q + 8 := by
        intro a ha
        refine Classical.byContradiction fun hn => ha (writeBytes_outside _ _ _ _ ?_)
        rw [show (leBytes 8 (sys.metaAddr (w.calls + 1))).length = 8 from by simp [leBytes]]
        omega
      refine ⟨fun a ha => ⟨q, rfl, key a ha⟩, fun a h1 ha => ?_⟩
      have := key a ha
      simp only at hs
      omega

theorem unwindCore_panicked (p : Profile) (sys : Sys) (H : HeaderType) (bl : BlockList) (w : World) (size : Nat)
    (header : SizeClass → List UInt8) (body : List UInt8) (d : Bool) (hok : ∀ b ∈ bl.all, BlockOK b)
    (hH : H.size < 2 ^ 63) (hsz : size < 2 ^ 63) {c c' : CallEnd} (h : unwindCore p sys H bl w size header body true d = .ret c)
    (h' : unwindCore p sys H bl w size header body false d = .ret c') :
    (∀ a, c.w.mem a ≠ w.mem a → ∃ q, c.w.obtained = w.obtained ++ [(q, 32768)] ∧ q ≤ a ∧ a < q + 8) ∧
    ∀ q, c'.outcome = .ok q → ∀ a, q ≤ a + H.size → a < q + size → c.w.mem a = w.mem a := by
  rcases unwindCore_both p sys H bl w size header body d hok hH hsz with ⟨out, calls, hb, e⟩ | ⟨h0, h1, space, bl', w', hg, e⟩
  · have e1 := e true
    rw [h] at e1
    cases e1
    exact ⟨fun a ha => absurd rfl ha, fun q _ a _ _ => rfl⟩
  · have e1 := e true
    have e2 := e false
    rw [h] at e1
    rw [h'] at e2
    cases e1
    cases e2
    obtain ⟨g1, g2⟩ := grant_mem hg hok
    refine ⟨g1, fun q hq a ha1 ha2 => Classical.byContradiction fun hn => ?_⟩
    have hq : space + H.size = q := by cases hq; rfl
    have := g2 a (by omega) hn
    have := roundUp_ge (H.size + size)
    omega

/-- **C77** A call whose constructor panics writes nothing but the metadata word of the block it may have obtained; in particular
nothing where the header and the object would have been. -/
theorem c77_constructor_writes (h : Possible p sys s) {k : Nat} {g : HeapState} (hk : s.get k = some g) (t : Nat) (o : List UInt8)
    (ho : o.length < 2 ^ 63) {c c' : CallEnd} (hc : allocUnwind p sys g.H g.bl s.w t o true = .ret c)
    (hc' : allocUnwind p sys g.H g.bl s.w t o false = .ret c') :
    (∀ a, c.w.mem a ≠ s.w.mem a → ∃ q, c.w.obtained = s.w.obtained ++ [(q, 32768)] ∧ q ≤ a ∧ a < q + 8) ∧
    ∀ q, c'.outcome = .ok q → ∀ a, q ≤ a + g.H.size → a < q + o.length → c.w.mem a = s.w.mem a := by
  have hI := h.inv.each g (mem_of_get hk)
  rw [allocUnwind_eq] at hc hc'
  exact unwindCore_panicked p sys g.H g.bl s.w o.length _ o true hI.core.ok hI.hsize ho hc hc'

/-- **C77** The same for arrays. -/
theorem c77_array_constructor_writes (h : Possible p sys s) {k : Nat} {g : HeapState} (hk : s.get k = some g) (n : Nat)
    (hn : n < 2 ^ 32) {c c' : CallEnd} (hc : allocArrayUnwind p sys g.H g.bl s.w n true = .ret c)
    (hc' : allocArrayUnwind p sys g.H g.bl s.w n false = .ret c') :
    (∀ a, c.w.mem a ≠ s.w.mem a → ∃ q, c.w.obtained = s.w.obtained ++ [(q, 32768)] ∧ q ≤ a ∧ a < q + 8) ∧
    ∀ q, c'.outcome = .ok q → ∀ a, q ≤ a + g.H.size → a < q + n → c.w.mem a = s.w.mem a := by
  have hI := h.inv.each g (mem_of_get hk)
  rw [allocArrayUnwind_eq] at hc hc'
  exact unwindCore_panicked p sys g.H g.bl s.w n _ _ false hI.core.ok hI.hsize (by omega) hc hc'

/-- **C78** A block is live exactly as long as a heap that has not been dropped owns it. -/
theorem c78_live_iff (h : Possible p sys s) (x : Nat × Nat) :
    s.w.isLive x ↔ ∃ k g, s.get k = some g ∧ ∃ b ∈ g.bl.all, (b.block.ptr, b.block.size) = x := by
  rw [h.inv.live]
  constructor
  · intro hx
    obtain ⟨g, hg, hy⟩ := List.mem_flatMap.1 hx
    cases g with
    | none => simp at hy
    | some g =>
      obtain ⟨k, hk, e⟩ := List.getElem_of_mem hg
      obtain ⟨b, hb, rfl⟩ := List.mem_map.1 hy
      exact ⟨k, g, by simp [Heaps.get, hk, e], b, hb, rfl⟩
  · rintro ⟨k, g, hk, b, hb, rfl⟩
    exact mem_allKeys (mem_of_get hk) hb

/-- **C78** No block and no metadata box is returned more often than it was obtained; when all heaps are dropped, everything has
been returned. -/
theorem c78_freed_once (h : Possible p sys s) :
    (∀ x, s.w.freed.count x ≤ s.w.obtained.count x) ∧ (∀ x, s.w.unboxed.count x ≤ s.w.boxed.count x) ∧
    ((∀ k, s.get k = none) → s.w.freed.Perm s.w.obtained ∧ s.w.unboxed.Perm s.w.boxed) := by
  have hI := h.inv
  refine ⟨fun x => ?_, fun x => ?_, fun hn => ?_⟩
  · rw [← hI.perm.count_eq x, List.count_append]; omega
  · rw [← hI.boxes.count_eq x, List.count_append]; omega
  · have : ∀ y ∈ s.heaps, y = none := by
      intro y hy
      cases y with
      | none => rfl
      | some g =>
        obtain ⟨k, hk, e⟩ := List.getElem_of_mem hy
        have := hn k
        simp [Heaps.get, hk, e] at this
    have h1 : allKeys s.heaps = [] := by
      unfold allKeys
      rw [List.flatMap_eq_nil_iff]
      intro y hy; rw [this y hy]; rfl
    have h2 : allMetas s.heaps = [] := by
      unfold allMetas
      rw [List.flatMap_eq_nil_iff]
      intro y hy; rw [this y hy]; rfl
    have h3 := hI.perm
    have h4 := hI.boxes
    rw [h1, List.append_nil] at h3
    rw [h2, List.append_nil] at h4
    exact ⟨h3, h4⟩

/-- **C78** The first word of each block of a heap holds the address of the block's metadata, and that box is not freed. -/
theorem c78_metadata (h : Possible p sys s) {k : Nat} {g : HeapState} (hk : s.get k = some g) :
    ∀ b ∈ g.bl.all, wordAt s.w.mem b.block.ptr = b.metaPtr % 2 ^ 64 ∧ s.w.unboxed.count b.metaPtr < s.w.boxed.count b.metaPtr := by
  intro b hb
  refine ⟨wordAt_of_bytes ((h.inv.each g (mem_of_get hk)).core.metaw b hb), ?_⟩
  rw [← h.inv.boxes.count_eq, List.count_append]
  have : 0 < (allMetas s.heaps).count b.metaPtr :=
    List.count_pos_iff.2 (List.mem_flatMap.2 ⟨_, mem_of_get hk, List.mem_map_of_mem (f := fun b : BumpBlock => b.metaPtr) hb⟩)
  omega

/-- **C79** The argument of a call of `alloc` is destroyed (once) exactly if the call does not return a pointer.  No value that
was put into a heap is ever destroyed, not even when the heap is dropped. -/
theorem c79_destroyed (h : Possible p sys s) :
    s.destroyed.Nodup ∧ ∀ i, i ∈ s.destroyed ↔ ∃ o, s.outcomes[i]? = some o ∧ ∀ q, o ≠ .ok q := by
  induction h with
  | start mem => simp [Heaps.init]
  | environment mem calls _ _ _ ih => exact ih
  | @op s s' o hp hH ho hs ih =>
    cases o with
    | newHeap H => cases hs; exact ih
    | dropHeap k =>
      simp only [Heaps.step] at hs
      split at hs <;> cases hs <;> exact ih
    | store k i off bytes =>
      simp only [Heaps.step] at hs
      split at hs
      · cases hs; exact ih
      · split at hs
        · cases hs; exact ih
        · split at hs <;> cases hs <;> exact ih
    | storeHeader k i bytes =>
      simp only [Heaps.step] at hs
      split at hs
      · cases hs; exact ih
      · split at hs
        · cases hs; exact ih
        · split at hs <;> cases hs <;> exact ih
    | allocArray k n c =>
      simp only [Heaps.step] at hs
      split at hs
      · cases hs; exact ih
      · rename_i g hg
        cases e : allocArrayUnwind p sys g.H g.bl s.w n c with
        | panic => rw [e] at hs; cases hs
        | ret r => rw [e] at hs; cases hs; exact ih
    | alloc k t o c =>
      simp only [Heaps.step] at hs
      split at hs
      · cases hs; exact ih
      · rename_i g hg
        have hm := mem_of_get hg
        obtain ⟨e, h1, _, h3, _⟩ := unwindCore_after (p := p) (hp.inv.each g hm) (hp.inv.fresh hH hm) o.length
          (fun c => g.H.new t (asU32 o.length) c .allocated) o c true ho (fun _ => g.H.new_length _ _ _ _) rfl
        rw [allocUnwind_eq, h1, Rust.bind_ret] at hs
        cases hs
        simp only
        have hlt : ∀ i ∈ s.destroyed, i < s.outcomes.length := by
          intro i hi
          obtain ⟨x, hx, _⟩ := (ih.2 i).1 hi
          exact (List.getElem?_eq_some_iff.1 hx).1
        have key : ∀ i x, (s.outcomes ++ [e.outcome])[i]? = some x ↔ s.outcomes[i]? = some x ∨ (i = s.outcomes.length ∧ x = e.outcome) := by
          intro i x
          rcases Nat.lt_trichotomy i s.outcomes.length with hlt | heq | hgt
          · rw [List.getElem?_append_left hlt]
            constructor
            · exact Or.inl
            · rintro (h | ⟨h, _⟩)
              · exact h
              · omega
          · subst heq
            simp [eq_comm]
          · rw [List.getElem?_eq_none (by simp; omega), List.getElem?_eq_none (by omega)]
            simp; omega
        have hd : e.destroyed = true ↔ ∀ q, e.outcome ≠ .ok q := by
          rw [h3]
          cases e.outcome <;> simp
        by_cases hb : e.destroyed = true
        · rw [if_pos hb]
          refine ⟨?_, ?_⟩
          · rw [List.nodup_append]
            refine ⟨ih.1, by simp, ?_⟩
            intro a ha b hb
            cases List.mem_singleton.1 hb
            exact Nat.ne_of_lt (hlt a ha)
          · intro i
            rw [List.mem_append, ih.2 i, List.mem_singleton]
            constructor
            · rintro (⟨x, hx, hn⟩ | rfl)
              · exact ⟨x, (key i x).2 (.inl hx), hn⟩
              · exact ⟨e.outcome, (key _ _).2 (.inr ⟨rfl, rfl⟩), hd.1 hb⟩
            · rintro ⟨x, hx, hn⟩
              rcases (key i x).1 hx with h | ⟨h, _⟩
              · exact .inl ⟨x, h, hn⟩
              · exact .inr h
        · rw [if_neg hb]
          refine ⟨ih.1, ?_⟩
          intro i
          rw [ih.2 i]
          constructor
          · rintro ⟨x, hx, hn⟩
            exact ⟨x, (key i x).2 (.inl hx), hn⟩
          · rintro ⟨x, hx, hn⟩
            rcases (key i x).1 hx with h | ⟨_, rfl⟩
            · exact ⟨x, h, hn⟩
            · exact absurd (hd.2 hn) hb

/-- **C79** With constructors that do not panic, `alloc` is as in C01-C09: this model adds only what happens to the argument. -/
theorem c79_same_alloc (p : Profile) (sys : Sys) (H : HeaderType) (bl : BlockList) (w : World) (t : Nat) (o : List UInt8) (n : Nat) :
    (do let c ← allocUnwind p sys H bl w t o false; c.plain) = alloc p sys H bl w t o ∧
    (do let c ← allocArrayUnwind p sys H bl w n false; c.plain) = allocArray p sys H bl w n :=
  ⟨allocUnwind_plain p sys H bl w t o, allocArrayUnwind_plain p sys H bl w n⟩

/-- **C80** The pointer of every object is a number that fits in a word, and all conversions of the `RawPtr` and of its copies give the
address at which the object is. -/
theorem c80_same_address (h : Possible p sys s) {k : Nat} {g : HeapState} (hk : s.get k = some g) {o : Entry} (ho : o ∈ g.objs) :
    let r := RawPtr.new o.ptr
    r.asWord < 2 ^ 64 ∧ readBytes s.w.mem r.asPtr o.size = o.data ∧ readBytes s.w.mem (getHeader g.H r.asUntyped) g.H.size = o.header ∧
    r.asWord = r.asPtr ∧ r.clone.asPtr = r.asPtr ∧ r.clone.asWord = r.asPtr ∧ r.clone.asUntyped = r.asUntyped ∧ r.eq r.clone = true := by
  have hI := h.inv
  obtain ⟨h0, b, hb, h1, h2⟩ := (hI.each g (mem_of_get hk)).inBlock o ho
  have hok := (hI.each g (mem_of_get hk)).core.ok b hb
  have hle := hok.cur_le
  have hlive := hI.live.2 (mem_allKeys (mem_of_get hk) hb)
  have hmem : (b.block.ptr, b.block.size) ∈ s.w.obtained := List.count_pos_iff.1 (by unfold World.isLive at hlive; omega)
  have h4 := (hI.space _ hmem).2
  simp only [hok.size] at h4
  have hb2 := (range_bounds h0).2
  obtain ⟨c1, c2⟩ := c77_contents h hk o ho
  exact ⟨by simp only [RawPtr.asWord, RawPtr.new]; omega, c1, c2, rfl, rfl, rfl, rfl, by simp [RawPtr.eq, RawPtr.clone, RawPtr.new]⟩

/-- **C80** A `RawPtr` to an object is not null (the requirement of `NonNull::new_unchecked`), and two of them are equal exactly
if they point to the same object of the same heap: also for objects of size 0, and for heaps with different headers. -/
theorem c80_pointers_identify (h : Possible p sys s) {k l i j : Nat} {g g' : HeapState}
    {o o' : Entry} (hk : s.get k = some g) (hl : s.get l = some g') (hi : g.objs[i]? = some o) (hj : g'.objs[j]? = some o') :
    (RawPtr.new o.ptr).asWord ≠ 0 ∧ ((RawPtr.new o.ptr).eq (RawPtr.new o'.ptr) = true ↔ (k, i) = (l, j)) := by
  have hI := h.inv
  have ho := List.mem_of_getElem? hi
  have ho' := List.mem_of_getElem? hj
  obtain ⟨e1, b, hb, h1, h2⟩ := (hI.each g (mem_of_get hk)).inBlock o ho
  obtain ⟨e2, b', hb', h3, h4⟩ := (hI.each g' (mem_of_get hl)).inBlock o' ho'
  have h5 := (range_bounds e1).1
  have h6 := (range_bounds e2).1
  have h7 := (range_bounds e1).2
  have h8 := (range_bounds e2).2
  refine ⟨by simp only [RawPtr.asWord, RawPtr.new]; omega, ?_⟩
  simp only [RawPtr.eq, RawPtr.new, beq_iff_eq]
  constructor
  · intro e
    apply Classical.byContradiction
    intro hne
    by_cases ekl : k = l
    · subst ekl
      have hd := c77_disjoint h hk hl hi hj hne
      rw [hk] at hl
      cases hl
      have h9 := ((hI.each g (mem_of_get hk)).sized o ho).1
      have h10 := ((hI.each g (mem_of_get hk)).sized o' ho').1
      unfold DisjointRange at hd
      omega
    · have hd := h.owns_disjoint hk hl ekl hb hb'
      have := ((hI.each g (mem_of_get hk)).core.ok b hb).cur_le
      have := ((hI.each g' (mem_of_get hl)).core.ok b' hb').cur_le
      unfold DisjointRange at hd
      omega
  · intro e
    cases e
    rw [hk] at hl
    cases hl
    rw [hi] at hj
    cases hj
    rfl

end

/-! ## The hypotheses are met: two heaps with different headers, a caught panic, a dropped heap, reused memory -/

/-- A system allocator that hands out four places in turn, again and again. -/
def reuseSys : Sys where
  alloc i s a := if s = 32768 ∧ a = 32768 then some ((i % 4 + 1) * 32768) else none
  metaAddr i := 1000000000 + i * 512

/-- Is the next place free? -/
def placeFree (w : World) : Bool :=
  w.obtained.all fun x => w.freed.count x == w.obtained.count x || (x.2 == 32768 && (x.1 != (w.calls % 4 + 1) * 32768) && x.1 % 32768 == 0)

theorem reuseSys_honest {w : World} (h : placeFree w = true) : Honest reuseSys w := by
  intro size align q hq
  unfold reuseSys at hq
  simp only at hq
  split at hq
  · rename_i hc
    obtain ⟨rfl, rfl⟩ := hc
    cases hq
    refine ⟨by omega, ⟨_, Nat.mul_comm _ _⟩, by omega, ?_⟩
    intro x hx
    have hc : w.freed.count x < w.obtained.count x := hx
    have hm : x ∈ w.obtained := List.count_pos_iff.1 (by omega)
    have := List.all_eq_true.1 h x hm
    simp at this
    unfold DisjointRange
    rcases this with h1 | ⟨⟨h1, h2⟩, h3⟩
    · omega
    · omega
  · cases hq

/-- Run a program; `none` if the place the system allocator would hand out next is not free, or at a panic. -/
def runHeaps (s : Heaps) : List HOp → Option Heaps
  | [] => some s
  | o :: ops =>
    if placeFree s.w then
      match s.step .dev reuseSys o with
      | .ret s' => runHeaps s' ops
      | .panic => none
    else none

theorem runHeaps_possible {ops : List HOp} (hs : ∀ o ∈ ops, o.Sized) {s s' : Heaps} (h : Possible .dev reuseSys s)
    (e : runHeaps s ops = some s') : Possible .dev reuseSys s' := by
  induction ops generalizing s with
  | nil => cases e; exact h
  | cons o ops ih =>
    simp only [runHeaps] at e
    split at e
    · rename_i hf
      split at e
      · rename_i s1 hs1
        exact ih (fun o ho => hs o (List.mem_cons_of_mem _ ho)) (.op o h (reuseSys_honest hf) (hs o (List.mem_cons_self ..)) hs1) e
      · cases e
    · cases e

/-- A value too big for a block. -/
def bigValue : List UInt8 := List.replicate 40000 1

/-- Two heaps with different headers, a constructor that panics, a request that is refused, a dropped heap, and a heap that gets
the memory of the dropped one. -/
def exampleHeaps : List HOp :=
  [.newHeap exampleHeader, .newHeap smallHeader, .alloc 0 7 [1, 2, 3] false, .alloc 1 8 [4, 5] false, .alloc 0 9 [6] true,
   .alloc 0 9 [7] false, .store 0 0 1 [9], .storeHeader 1 0 [1, 2, 3, 4], .allocArray 1 40000 false,
   .alloc 1 3 bigValue false, .allocArray 1 32700 false, .dropHeap 0, .newHeap exampleHeader, .alloc 2 5 [] false,
   .alloc 0 5 [1] false, .newHeap smallHeader, .allocArray 3 100 true, .alloc 3 2 [8] false, .newHeap exampleHeader, .alloc 4 1 [3] false]

/-- What can be seen of the heaps in the final state: pointer, size and first byte of each object (nothing if dropped). -/
def objectsView (s : Heaps) : List (List (List Nat)) :=
  s.heaps.map fun h => (h.map fun h => h.objs.map fun o => o.ptr :: o.size :: (o.data.take 1).map UInt8.toNat).getD []

theorem exampleHeaps_sized : ∀ o ∈ exampleHeaps, o.Sized := by
  intro o ho
  simp only [exampleHeaps, List.mem_cons, List.not_mem_nil, or_false] at ho
  have h1 : exampleHeader.size < 2 ^ 63 := by decide
  have h2 : smallHeader.size < 2 ^ 63 := by decide
  have h3 : bigValue.length < 2 ^ 63 := by rw [bigValue, List.length_replicate]; omega
  rcases ho with rfl | rfl | rfl | rfl | rfl | rfl | rfl | rfl | rfl | rfl | rfl | rfl | rfl | rfl | rfl | rfl | rfl | rfl | rfl | rfl
  all_goals simp only [HOp.Sized, List.length_cons, List.length_nil]
  all_goals first | with_reducible exact h1 | with_reducible exact h2 | with_reducible exact h3 | omega

example : (runHeaps (Heaps.init fun _ => 77) exampleHeaps).map objectsView =
    some [[], [[65556, 2, 4], [65564, 32700, 0]], [[98328, 0]], [[131196, 1, 8]], [[32792, 1, 3]]] := by decide +kernel

example : (runHeaps (Heaps.init fun _ => 77) exampleHeaps).map (·.outcomes) =
    some [.ok 32792, .ok 65556, .panicked, .ok 32824, .err .badRequest, .ok 98328, .ok 131196, .ok 32792] := by decide +kernel

example : (runHeaps (Heaps.init fun _ => 77) exampleHeaps).map (fun s => (s.destroyed, s.w.obtained, s.w.freed)) =
    some ([2, 4], [(32768, 32768), (65536, 32768), (98304, 32768), (131072, 32768), (32768, 32768)], [(32768, 32768)]) := by
  decide +kernel

/-- ... so this state is one of those the theorems speak of. -/
example : ∃ s, runHeaps (Heaps.init fun _ => 77) exampleHeaps = some s ∧ Possible .dev reuseSys s := by
  have h : (runHeaps (Heaps.init fun _ => 77) exampleHeaps).isSome = true := by decide +kernel
  obtain ⟨s, e⟩ := Option.isSome_iff_exists.1 h
  exact ⟨s, e, runHeaps_possible exampleHeaps_sized (.start _) e⟩

end Verif.Immix
