import Verif.Immix.HeapLemmas

/-!
# Invariant of client programs running against the heap
-/

namespace Verif.Immix

open Verif Verif.Immix.Spec

/-- Ranges of two objects do not overlap. -/
def ObjDisjoint (H : HeaderType) (o o' : Obj) : Prop :=
  DisjointRange (o.start H) (o.extent H) (o'.start H) (o'.extent H)

/-- Ranges of two blocks do not overlap. -/
def BlockDisjoint (b b' : BumpBlock) : Prop := DisjointRange b.block.ptr 32768 b'.block.ptr 32768

theorem BlockDisjoint.symm {b b' : BumpBlock} (h : BlockDisjoint b b') : BlockDisjoint b' b := h.elim Or.inr Or.inl

/-- The part of the invariant about blocks. -/
structure BlocksInv (sys : Sys) (bl : BlockList) (w : World) : Prop where
  ok : ∀ b ∈ bl.all, BlockOK b
  answered : ∀ b ∈ bl.all, ∃ i, i < w.calls ∧ sys.alloc i 32768 32768 = some b.block.ptr
  disj : bl.all.Pairwise BlockDisjoint
  perm : (bl.all.map fun b => (b.block.ptr, b.block.size)).Perm w.obtained
  freed : w.freed = []
  metaw : ∀ b ∈ bl.all, readBytes w.mem b.block.ptr 8 = leBytes 8 b.metaPtr
  boxes : (bl.all.map fun b => b.metaPtr).Perm w.boxed
  unboxed : w.unboxed = []

/-- The range `[a, a+n)` lies in the used part of a block of the heap. -/
def InBlock (bl : BlockList) (a n : Nat) : Prop :=
  ∃ b ∈ bl.all, b.block.ptr + 16 ≤ a ∧ a + n ≤ b.block.ptr + b.cursor

theorem grant_spec {sys : Sys} {bl bl' : BlockList} {w w' : World} {size space : Nat} (hS : SysOK sys)
    (hI : BlocksInv sys bl w) (hG : Grant sys bl w size space bl' w') (hn : size ≤ 32752) (h8 : size % 8 = 0) :
    BlocksInv sys bl' w' ∧
    (∀ a n, InBlock bl a n → InBlock bl' a n ∧ DisjointRange a n space size ∧
      ∀ x, a ≤ x → x < a + n → w'.mem x = w.mem x) ∧
    InBlock bl' space size ∧ space % 8 = 0 ∧
    (∀ b ∈ bl'.all, DisjointRange b.block.ptr 16 space size) ∧
    (∀ b' ∈ bl'.all, ∀ a, b'.block.ptr + 16 ≤ a → a < b'.block.ptr + b'.cursor → (space ≤ a ∧ a < space + size) ∨
      ∃ b ∈ bl.all, b.block.ptr + 16 ≤ a ∧ a < b.block.ptr + b.cursor) := by
  cases hG with
  | reuse b others h1 h2 hfit hs hw =>
    subst hw
    have hmem : ∀ x, x ∈ bl.all ↔ x = b ∨ x ∈ others := by
      intro x; rw [h1.mem_iff]; simp
    have hmem' : ∀ x, x ∈ bl'.all ↔ x = { b with cursor := b.cursor + size } ∨ x ∈ others := by
      intro x; rw [h2.mem_iff]; simp
    have hbok := hI.ok b ((hmem b).2 (Or.inl rfl))
    have hd : (b :: others).Pairwise BlockDisjoint := (h1.pairwise_iff (fun h => h.symm)).1 hI.disj
    have hd2 := List.pairwise_cons.1 hd
    have hInOther : ∀ c ∈ others, c ∈ bl.all := fun c hc => (hmem c).2 (Or.inr hc)
    have hge := hbok.cur_ge
    have hnew : ({ b with cursor := b.cursor + size } : BumpBlock) ∈ bl'.all := (hmem' _).2 (Or.inl rfl)
    refine ⟨⟨?_, ?_, ?_, ?_, hI.freed, ?_, (h2.map _).trans ((h1.map _).symm.trans hI.boxes), hI.unboxed⟩, ?_, ?_, ?_, ?_, ?_⟩
    · intro c hc
      rcases (hmem' c).1 hc with rfl | hc
      · have := hbok.cur_al
        exact ⟨by simp only []; omega, hfit, by simp only []; omega, hbok.limit, hbok.size, hbok.aligned⟩
      · exact hI.ok c (hInOther c hc)
    · intro c hc
      rcases (hmem' c).1 hc with rfl | hc
      · exact hI.answered b ((hmem b).2 (Or.inl rfl))
      · exact hI.answered c (hInOther c hc)
    · refine (h2.pairwise_iff (fun h => BlockDisjoint.symm h)).2 ?_
      exact List.pairwise_cons.2 ⟨fun c hc => hd2.1 c hc, hd2.2⟩
    · refine List.Perm.trans (h2.map _) ?_
      refine List.Perm.trans ?_ hI.perm
      exact List.Perm.symm (h1.map _)
    · intro c hc
      rcases (hmem' c).1 hc with rfl | hc
      · exact hI.metaw b ((hmem b).2 (Or.inl rfl))
      · exact hI.metaw c (hInOther c hc)
    · rintro a n ⟨c, hc, ha, hb⟩
      rcases (hmem c).1 hc with rfl | hc'
      · refine ⟨⟨_, hnew, ha, by simp only []; omega⟩, Or.inl (by omega), fun _ _ _ => rfl⟩
      · refine ⟨⟨c, (hmem' c).2 (Or.inr hc'), ha, hb⟩, ?_, fun _ _ _ => rfl⟩
        have hcok := (hI.ok c hc).cur_le
        have := hd2.1 c hc'
        unfold BlockDisjoint DisjointRange at this
        unfold DisjointRange
        omega
    · exact ⟨_, hnew, by simp only [hs]; omega, by simp only [hs]; omega⟩
    · have := hbok.cur_al
      have := hbok.aligned
      omega
    · intro c hc
      unfold DisjointRange
      rcases (hmem' c).1 hc with rfl | hc'
      · simp only []; omega
      · have := hd2.1 c hc'
        unfold BlockDisjoint DisjointRange at this
        omega
    · intro c hc a h1a h2a
      rcases (hmem' c).1 hc with rfl | hc'
      · simp only [] at h1a h2a
        by_cases h : a < b.block.ptr + b.cursor
        · right; exact ⟨b, (hmem b).2 (Or.inl rfl), h1a, h⟩
        · left; omega
      · right; exact ⟨c, hInOther c hc', h1a, h2a⟩
  | fresh f hnew hcur h2 hs =>
    rw [blockNew_eq] at hnew
    cases hq : sys.alloc w.calls 32768 32768 with
    | none => rw [hq] at hnew; simp at hnew
    | some q =>
      rw [hq] at hnew
      simp only [Prod.mk.injEq, Except.ok.injEq] at hnew
      obtain ⟨hf, hw⟩ := hnew
      subst hf
      subst hw
      simp only [] at hs h2
      have hmem' : ∀ x, x ∈ bl'.all ↔ x = (BumpBlock.mk (16 + size) 32768 { ptr := q, size := 32768 } BlockMeta.new
          (sys.metaAddr (w.calls + 1))) ∨ x ∈ bl.all := by
        intro x; rw [h2.mem_iff, List.mem_cons]
      have hin : ∀ c ∈ bl.all, DisjointRange c.block.ptr 32768 q 32768 := by
        intro c hc
        obtain ⟨i, hi, he⟩ := hI.answered c hc
        exact hS.disjoint i w.calls 32768 32768 32768 32768 _ _ (by omega) he hq
      have hal : 32768 ∣ q := hS.aligned _ _ _ _ hq
      have hl8 : (leBytes 8 (sys.metaAddr (w.calls + 1))).length = 8 := leBytes_length _ _
      have hnewm := (hmem' _).2 (Or.inl rfl)
      refine ⟨⟨?_, ?_, ?_, ?_, hI.freed, ?_, ?_, hI.unboxed⟩, ?_, ?_, ?_, ?_, ?_⟩
      · intro c hc
        rcases (hmem' c).1 hc with rfl | hc
        · exact ⟨by simp only []; omega, by simp only []; omega, by simp only []; omega, rfl, rfl, hal⟩
        · exact hI.ok c hc
      · intro c hc
        rcases (hmem' c).1 hc with rfl | hc
        · exact ⟨w.calls, by simp, hq⟩
        · obtain ⟨i, hi, he⟩ := hI.answered c hc
          exact ⟨i, by simp only []; omega, he⟩
      · refine (h2.pairwise_iff (fun h => BlockDisjoint.symm h)).2 ?_
        refine List.pairwise_cons.2 ⟨fun c hc => ?_, hI.disj⟩
        exact (hin c hc).elim Or.inr Or.inl
      · refine List.Perm.trans (h2.map _) ?_
        simp only [List.map_cons]
        refine List.Perm.trans (List.Perm.cons _ hI.perm) ?_
        exact (List.perm_append_comm (l₁ := [(q, 32768)]) (l₂ := w.obtained))
      · intro c hc
        rcases (hmem' c).1 hc with rfl | hc
        · have := readBytes_write_same w.mem q (leBytes 8 (sys.metaAddr (w.calls + 1)))
          rw [hl8] at this
          exact this
        · simp only []
          rw [readBytes_write_disjoint]
          · exact hI.metaw c hc
          · have := hin c hc
            unfold DisjointRange at this
            omega
      · refine List.Perm.trans (h2.map _) ?_
        simp only [List.map_cons]
        refine List.Perm.trans (List.Perm.cons _ hI.boxes) ?_
        exact (List.perm_append_comm (l₁ := [sys.metaAddr (w.calls + 1)]) (l₂ := w.boxed))
      · rintro a n ⟨c, hc, ha, hb⟩
        have hcok := (hI.ok c hc).cur_le
        have hdis := hin c hc
        unfold DisjointRange at hdis
        refine ⟨⟨c, (hmem' c).2 (Or.inr hc), ha, hb⟩, ?_, ?_⟩
        · unfold DisjointRange; omega
        · intro x hx1 hx2
          exact writeBytes_outside _ _ _ _ (by omega)
      · exact ⟨_, hnewm, by simp only [hs]; omega, by simp only [hs]; omega⟩
      · omega
      · intro c hc
        unfold DisjointRange
        rcases (hmem' c).1 hc with rfl | hc
        · simp only []; omega
        · have := hin c hc
          unfold DisjointRange at this
          omega
      · intro c hc a h1a h2a
        rcases (hmem' c).1 hc with rfl | hc'
        · simp only [] at h1a h2a
          left; omega
        · right; exact ⟨c, hc', h1a, h2a⟩

/-- The invariant of a client program. -/
structure Inv (sys : Sys) (H : HeaderType) (m : Machine) : Prop where
  blocks : BlocksInv sys m.bl m.w
  inBlock : ∀ o ∈ objs m.log, H.size ≤ o.ptr ∧ InBlock m.bl (o.start H) (o.extent H)
  aligned : ∀ o ∈ objs m.log, o.start H % 8 = 0
  sized : ∀ o ∈ objs m.log, 1 ≤ o.extent H ∧ o.extent H ≤ 32752
  disj : (objs m.log).Pairwise (ObjDisjoint H)
  data : contents m.log = (objs m.log).map fun o => readBytes m.w.mem o.ptr o.size
  hdr : ∀ o ∈ objs m.log, readBytes m.w.mem (o.start H) H.size = o.header H
  packed : ∀ b ∈ m.bl.all, ∀ a, b.block.ptr + 16 ≤ a → a < b.block.ptr + b.cursor →
    ∃ o ∈ objs m.log, o.start H ≤ a ∧ a < o.start H + o.extent H

theorem inv_init (sys : Sys) (H : HeaderType) (mem : Mem) : Inv sys H (Machine.init mem) := by
  refine ⟨⟨?_, ?_, ?_, ?_, rfl, ?_, ?_, rfl⟩, ?_, ?_, ?_, ?_, ?_, ?_, ?_⟩ <;>
    simp [Machine.init, BlockList.new, BlockList.all, objs, contents]

theorem objs_append (l l' : List Ev) : objs (l ++ l') = objs l ++ objs l' := by
  induction l with
  | nil => rfl
  | cons e l ih => cases e <;> simp [objs, ih]

theorem roundUp_ge (n : Nat) : n ≤ roundUp n := by unfold roundUp; omega
theorem roundUp_mod (n : Nat) : roundUp n % 8 = 0 := by unfold roundUp; omega

/-- The extent of an object is its header, its bytes and padding. -/
theorem Obj.bounds {H : HeaderType} {o : Obj} (h : H.size ≤ o.ptr) :
    o.start H + H.size = o.ptr ∧ o.ptr + o.size ≤ o.start H + o.extent H := by
  have := roundUp_ge (H.size + o.size)
  unfold Obj.start Obj.extent
  omega

/-- What both allocation functions do once the total size is known. -/
def allocCore (p : Profile) (sys : Sys) (H : HeaderType) (bl : BlockList) (w : World) (size : Nat)
    (header : SizeClass → List UInt8) (body : List UInt8) : Rust (HeapOut Nat) := do
  let totalSize ← usizeAdd p H.size size
  let allocSize ← allocSizeOf p totalSize
  match getForSize allocSize with
  | .error e => .ret (.error e, bl, w)
  | .ok cls => do
    let (r, bl, w) ← findSpace p sys bl w allocSize cls
    match r with
    | .error e => .ret (.error e, bl, w)
    | .ok space =>
      .ret (.ok (space + H.size), bl, { w with mem := writeBytes (writeBytes w.mem space (header cls)) (space + H.size) body })

theorem alloc_eq_core (p : Profile) (sys : Sys) (H : HeaderType) (bl : BlockList) (w : World) (t : Nat) (o : List UInt8) :
    alloc p sys H bl w t o = allocCore p sys H bl w o.length (fun c => H.new t (asU32 o.length) c .allocated) o := rfl

theorem allocArray_eq_core (p : Profile) (sys : Sys) (H : HeaderType) (bl : BlockList) (w : World) (n : Nat) :
    allocArray p sys H bl w n = allocCore p sys H bl w n (fun c => H.newArray n c .allocated) (List.replicate n 0) := rfl

/-- Complete description of an allocation request in a heap satisfying the block invariant. -/
theorem allocCore_spec (p : Profile) (sys : Sys) (H : HeaderType) (bl : BlockList) (w : World) (size : Nat)
    (header : SizeClass → List UInt8) (body : List UInt8) (hI : BlocksInv sys bl w)
    (hH : H.size < 2 ^ 63) (hsz : size < 2 ^ 63) :
    (¬ H.size + size + 7 < 2 ^ 64 ∧ allocCore p sys H bl w size header body =
      match p with | .dev => .panic | .release => .ret (.error .badRequest, bl, w)) ∨
    (H.size + size + 7 < 2 ^ 64 ∧ (roundUp (H.size + size) = 0 ∨ 32752 < roundUp (H.size + size)) ∧
      allocCore p sys H bl w size header body = .ret (.error .badRequest, bl, w)) ∨
    (1 ≤ roundUp (H.size + size) ∧ roundUp (H.size + size) ≤ 32752 ∧ sys.alloc w.calls 32768 32768 = none ∧
      allocCore p sys H bl w size header body = .ret (.error .oom, bl, { w with calls := w.calls + 1 })) ∨
    (1 ≤ roundUp (H.size + size) ∧ roundUp (H.size + size) ≤ 32752 ∧ ∃ space bl' w',
      Grant sys bl w (roundUp (H.size + size)) space bl' w' ∧ HeadRule (roundUp (H.size + size)) space bl bl' ∧
      allocCore p sys H bl w size header body = .ret (.ok (space + H.size), bl',
        { w' with mem := writeBytes (writeBytes w'.mem space (header (classOf (roundUp (H.size + size))))) (space + H.size) body })) := by
  unfold allocCore
  rw [usizeAdd_small _ _ _ (by omega), Rust.bind_ret]
  by_cases hov : H.size + size + 7 < 2 ^ 64
  · rw [allocSizeOf_fits _ _ hov, Rust.bind_ret]
    generalize hr : roundUp (H.size + size) = r
    by_cases hbad : r = 0 ∨ 32752 < r
    · right; left
      refine ⟨hov, hbad, ?_⟩
      rw [getForSize_eq]
      rw [if_neg (by omega), if_neg (by omega)]
      by_cases hlg : 32753 ≤ r ∧ r ≤ 4294967295
      · rw [if_pos hlg]; simp [findSpace]
      · rw [if_neg hlg]
    · right; right
      have hcls : getForSize r = .ok (classOf r) := by
        rw [getForSize_eq]
        unfold classOf
        by_cases h : r ≤ 128
        · rw [if_pos (by omega), if_pos h]
        · rw [if_neg (by omega), if_pos (by omega), if_neg h, if_pos (by omega)]
      rw [hcls]
      simp only []
      have hc : classOf r = .small ∧ r ≤ 128 ∨ classOf r = .medium := by
        unfold classOf
        by_cases h : r ≤ 128
        · left; simp [h]
        · right; rw [if_neg h, if_pos (by omega)]
      rcases findSpace_spec p sys bl w r (classOf r) hI.ok (by omega) hc with ⟨space, bl', w', h1, h2, h3⟩ | ⟨h1, h2⟩
      · right
        refine ⟨by omega, by omega, space, bl', w', h2, h3, ?_⟩
        rw [h1]; rfl
      · left
        refine ⟨by omega, by omega, h2, ?_⟩
        rw [h1]; rfl
  · left
    refine ⟨hov, ?_⟩
    rw [allocSizeOf_overflow _ _ (by omega) hov]
    cases p with
    | dev => rfl
    | release =>
      simp only [Rust.bind_ret]
      rw [getForSize_eq]
      rfl

/-- A failed allocation leaves the invariant. -/
theorem inv_failed {sys : Sys} {H : HeaderType} {m : Machine} (hI : Inv sys H m) (calls : Nat) (hc : m.w.calls ≤ calls)
    (e : AllocError) :
    Inv sys H { bl := m.bl, w := { m.w with calls := calls }, log := m.log ++ [.failed e] } := by
  have ho : objs (m.log ++ [.failed e]) = objs m.log := by rw [objs_append]; simp [objs]
  refine ⟨⟨hI.blocks.ok, ?_, hI.blocks.disj, hI.blocks.perm, hI.blocks.freed, hI.blocks.metaw,
    hI.blocks.boxes, hI.blocks.unboxed⟩, ?_, ?_, ?_, ?_, ?_, ?_, ?_⟩
  · intro b hb
    obtain ⟨i, hi, h⟩ := hI.blocks.answered b hb
    exact ⟨i, Nat.lt_of_lt_of_le hi hc, h⟩
  all_goals simp only [ho]
  · exact hI.inBlock
  · exact hI.aligned
  · exact hI.sized
  · exact hI.disj
  · have : contents (m.log ++ [.failed e]) = contents m.log := by simp [contents, applyEv]
    rw [this]; exact hI.data
  · exact hI.hdr
  · exact hI.packed

/-- A successful allocation keeps the invariant. -/
theorem inv_granted {sys : Sys} {H : HeaderType} {m : Machine} (hS : SysOK sys) (hI : Inv sys H m)
    {bl' : BlockList} {w' : World} {space : Nat} (o : Obj) (body : List UInt8) (ev : Ev)
    (hlo : 1 ≤ roundUp (H.size + o.size)) (hhi : roundUp (H.size + o.size) ≤ 32752)
    (hG : Grant sys m.bl m.w (roundUp (H.size + o.size)) space bl' w')
    (hp : o.ptr = space + H.size) (hb : body.length = o.size) (hhl : (o.header H).length = H.size)
    (hev : objs [ev] = [o]) (hap : ∀ c, applyEv c ev = c ++ [body]) :
    Inv sys H { bl := bl', w := { w' with mem := writeBytes (writeBytes w'.mem space (o.header H)) (space + H.size) body },
                log := m.log ++ [ev] } := by
  obtain ⟨g1, g2, g3, g4, g5, g6⟩ := grant_spec hS hI.blocks hG hhi (roundUp_mod _)
  have hge := roundUp_ge (H.size + o.size)
  have hstart : o.start H = space := by unfold Obj.start; omega
  have hext : o.extent H = roundUp (H.size + o.size) := rfl
  -- the new memory agrees with `w'.mem` outside the new region
  have hout : ∀ x, x < space ∨ space + roundUp (H.size + o.size) ≤ x →
      writeBytes (writeBytes w'.mem space (o.header H)) (space + H.size) body x = w'.mem x := by
    intro x hx
    rw [writeBytes_outside _ _ _ _ (by omega), writeBytes_outside _ _ _ _ (by omega)]
  have hobjs : objs (m.log ++ [ev]) = objs m.log ++ [o] := by rw [objs_append, hev]
  have hold : ∀ o' ∈ objs m.log, ∀ x, o'.start H ≤ x → x < o'.start H + o'.extent H →
      writeBytes (writeBytes w'.mem space (o.header H)) (space + H.size) body x = m.w.mem x := by
    intro o' ho' x h1 h2
    obtain ⟨_, hb2⟩ := hI.inBlock o' ho'
    obtain ⟨_, hd, hm⟩ := g2 _ _ hb2
    unfold DisjointRange at hd
    rw [hout x (by omega), hm x h1 h2]
  refine ⟨⟨g1.ok, g1.answered, g1.disj, g1.perm, g1.freed, ?_, g1.boxes, g1.unboxed⟩, ?_, ?_, ?_, ?_, ?_, ?_, ?_⟩
  · intro b hbm
    have hd := g5 b hbm
    unfold DisjointRange at hd
    rw [readBytes_congr (m := w'.mem)]
    · exact g1.metaw b hbm
    · intro x h1 h2
      exact hout x (by omega)
  all_goals simp only [hobjs]
  · intro o' ho'
    rcases List.mem_append.1 ho' with h | h
    · exact ⟨(hI.inBlock o' h).1, (g2 _ _ (hI.inBlock o' h).2).1⟩
    · simp at h; subst h
      refine ⟨by omega, ?_⟩
      rw [hstart]; exact g3
  · intro o' ho'
    rcases List.mem_append.1 ho' with h | h
    · exact hI.aligned o' h
    · simp at h; subst h
      rw [hstart]; exact g4
  · intro o' ho'
    rcases List.mem_append.1 ho' with h | h
    · exact hI.sized o' h
    · simp at h; subst h
      exact ⟨hlo, hhi⟩
  · rw [List.pairwise_append]
    refine ⟨hI.disj, by simp, ?_⟩
    intro o' ho' o'' ho''
    simp at ho''; subst ho''
    unfold ObjDisjoint
    rw [hstart]
    exact (g2 _ _ (hI.inBlock o' ho').2).2.1
  · have hc : contents (m.log ++ [ev]) = contents m.log ++ [body] := by
      unfold contents; rw [List.foldl_append]; simp [hap]
    rw [hc, hI.data]
    simp only [List.map_append, List.map_cons, List.map_nil]
    congr 1
    · apply List.map_congr_left
      intro o' ho'
      have hbd := Obj.bounds (hI.inBlock o' ho').1
      exact (readBytes_congr (fun x h1 h2 => hold o' ho' x (by omega) (by omega))).symm
    · rw [hp, ← hb, readBytes_write_same]
  · intro o' ho'
    rcases List.mem_append.1 ho' with h | h
    · have hbd := Obj.bounds (hI.inBlock o' h).1
      rw [readBytes_congr (fun x h1 h2 => hold o' h x (by omega) (by omega))]
      exact hI.hdr o' h
    · rw [List.mem_singleton.1 h]
      rw [hstart, readBytes_write_disjoint _ _ _ _ _ (Or.inl (by omega))]
      have := readBytes_write_same w'.mem space (o.header H)
      rw [hhl] at this
      exact this
  · intro b hb a h1 h2
    rcases g6 b hb a h1 h2 with h | ⟨c, hc, h3, h4⟩
    · exact ⟨o, by simp, by rw [hstart, hext]; exact h⟩
    · obtain ⟨o', ho', h⟩ := hI.packed c hc a h3 h4
      exact ⟨o', by simp [ho'], h⟩

theorem contents_length (l : List Ev) : (contents l).length = (objs l).length := by
  have : ∀ c : List (List UInt8), (l.foldl applyEv c).length = c.length + (objs l).length := by
    induction l with
    | nil => simp [objs]
    | cons e l ih =>
      intro c
      rw [List.foldl_cons, ih]
      cases e <;> simp [applyEv, objs] <;> omega
  simpa [contents] using this []

/-- A store through a returned pointer keeps the invariant. -/
theorem inv_store {sys : Sys} {H : HeaderType} {m : Machine} (hI : Inv sys H m) (k off : Nat) (bytes : List UInt8) (o : Obj)
    (ho : (objs m.log)[k]? = some o) (hfit : off + bytes.length ≤ o.size) :
    Inv sys H { m with w := { m.w with mem := writeBytes m.w.mem (o.ptr + off) bytes },
                       log := m.log ++ [.stored k off bytes] } := by
  obtain ⟨hk, hget⟩ := List.getElem?_eq_some_iff.1 ho
  have hmem : o ∈ objs m.log := hget ▸ List.getElem_mem hk
  have hobjs : objs (m.log ++ [.stored k off bytes]) = objs m.log := by rw [objs_append]; simp [objs]
  obtain ⟨hHp, b, hb, hb1, hb2⟩ := hI.inBlock o hmem
  have hbd := Obj.bounds hHp
  have hcl := (hI.blocks.ok b hb).cur_le
  refine ⟨⟨hI.blocks.ok, hI.blocks.answered, hI.blocks.disj, hI.blocks.perm, hI.blocks.freed, ?_,
    hI.blocks.boxes, hI.blocks.unboxed⟩, ?_, ?_, ?_, ?_, ?_, ?_, ?_⟩
  · intro c hc
    simp only []
    rw [readBytes_write_disjoint]
    · exact hI.blocks.metaw c hc
    · by_cases e : c = b
      · subst e; omega
      · have hcb : BlockDisjoint c b := by
          have hpw := hI.blocks.disj
          have := List.pairwise_iff_getElem.1 hpw
          obtain ⟨i, hi, rfl⟩ := List.getElem_of_mem hc
          obtain ⟨j, hj, rfl⟩ := List.getElem_of_mem hb
          rcases Nat.lt_trichotomy i j with h | h | h
          · exact this i j hi hj h
          · subst h; exact absurd rfl e
          · exact (this j i hj hi h).symm
        unfold BlockDisjoint DisjointRange at hcb
        omega
  all_goals simp only [hobjs]
  · exact hI.inBlock
  · exact hI.aligned
  · exact hI.sized
  · exact hI.disj
  · have hc : contents (m.log ++ [.stored k off bytes]) = (contents m.log).modify k (fun old => overwrite old off bytes) := by
      simp [contents, applyEv]
    rw [hc, hI.data]
    apply List.ext_getElem
    · simp
    · intro i h1 h2
      simp only [List.getElem_modify, List.getElem_map]
      simp only [List.length_map] at h2
      by_cases e : k = i
      · subst e
        simp only [if_true]
        rw [hget, readBytes_write_sub _ _ _ _ _ hfit]
      · simp only [e, if_false]
        have hmi : (objs m.log)[i] ∈ objs m.log := List.getElem_mem h2
        obtain ⟨hHi, _⟩ := hI.inBlock _ hmi
        have hbi := Obj.bounds hHi
        have hpw := List.pairwise_iff_getElem.1 hI.disj
        have hdis : ObjDisjoint H o (objs m.log)[i] ∨ ObjDisjoint H (objs m.log)[i] o := by
          rcases Nat.lt_trichotomy k i with h | h | h
          · left; rw [← hget]; exact hpw k i hk h2 h
          · exact absurd h e
          · right; rw [← hget]; exact hpw i k h2 hk h
        unfold ObjDisjoint DisjointRange at hdis
        rw [readBytes_write_disjoint]
        omega
  · intro o' ho'
    obtain ⟨hHi, _⟩ := hI.inBlock _ ho'
    have hbi := Obj.bounds hHi
    rw [readBytes_write_disjoint]
    · exact hI.hdr o' ho'
    · obtain ⟨i, h2, rfl⟩ := List.getElem_of_mem ho'
      by_cases e : k = i
      · subst e; rw [hget] at hbi ⊢; omega
      · have hpw := List.pairwise_iff_getElem.1 hI.disj
        have hdis : ObjDisjoint H o (objs m.log)[i] ∨ ObjDisjoint H (objs m.log)[i] o := by
          rcases Nat.lt_trichotomy k i with h | h | h
          · left; rw [← hget]; exact hpw k i hk h2 h
          · exact absurd h e
          · right; rw [← hget]; exact hpw i k h2 hk h
        unfold ObjDisjoint DisjointRange at hdis
        omega
  · exact hI.packed

/-- One step of a client program keeps the invariant. -/
theorem inv_step {p : Profile} {sys : Sys} {H : HeaderType} {m m' : Machine} {op : Op} (hS : SysOK sys) (hH : H.size < 2 ^ 63)
    (hI : Inv sys H m) (hop : op.Sized) (h : m.step p sys H op = .ret m') : Inv sys H m' := by
  cases op with
  | alloc t o =>
    simp only [Machine.step, alloc_eq_core] at h
    simp only [Op.Sized] at hop
    rcases allocCore_spec p sys H m.bl m.w o.length (fun c => H.new t (asU32 o.length) c .allocated) o hI.blocks hH hop with
      ⟨_, e⟩ | ⟨_, _, e⟩ | ⟨_, _, _, e⟩ | ⟨h1, h2, space, bl', w', hG, _, e⟩
    · rw [e] at h
      cases p with
      | dev => simp at h
      | release =>
        simp at h; subst h
        exact inv_failed hI m.w.calls (Nat.le_refl _) _
    · rw [e] at h; simp at h; subst h
      exact inv_failed hI m.w.calls (Nat.le_refl _) _
    · rw [e] at h; simp at h; subst h
      exact inv_failed hI _ (Nat.le_succ _) _
    · rw [e] at h; simp at h; subst h
      have hasu : asU32 o.length = o.length := by
        have := roundUp_ge (H.size + o.length)
        unfold asU32; omega
      rw [hasu]
      exact inv_granted hS hI { ptr := space + H.size, size := o.length, typeId := some t } o _ h1 h2 hG rfl rfl
        (H.new_length _ _ _ _) rfl (fun _ => rfl)
  | allocArray n =>
    simp only [Machine.step, allocArray_eq_core] at h
    simp only [Op.Sized] at hop
    rcases allocCore_spec p sys H m.bl m.w n (fun c => H.newArray n c .allocated) (List.replicate n 0) hI.blocks hH (by omega) with
      ⟨_, e⟩ | ⟨_, _, e⟩ | ⟨_, _, _, e⟩ | ⟨h1, h2, space, bl', w', hG, _, e⟩
    · rw [e] at h
      cases p with
      | dev => simp at h
      | release =>
        simp at h; subst h
        exact inv_failed hI m.w.calls (Nat.le_refl _) _
    · rw [e] at h; simp at h; subst h
      exact inv_failed hI m.w.calls (Nat.le_refl _) _
    · rw [e] at h; simp at h; subst h
      exact inv_failed hI _ (Nat.le_succ _) _
    · rw [e] at h; simp at h; subst h
      exact inv_granted hS hI { ptr := space + H.size, size := n, typeId := none } (List.replicate n 0) _ h1 h2 hG rfl
        (by simp) (H.newArray_length _ _ _) rfl (fun _ => rfl)
  | store k off bytes =>
    simp only [Machine.step] at h
    split at h
    · rename_i o ho
      split at h
      · simp at h; subst h
        exact inv_store hI k off bytes o ho (by assumption)
      · simp at h; subst h; exact hI
    · simp at h; subst h; exact hI

/-- Every state reached by a client program satisfies the invariant. -/
theorem inv_run {p : Profile} {sys : Sys} {H : HeaderType} (hS : SysOK sys) (hH : H.size < 2 ^ 63) (ops : List Op)
    {m m' : Machine} (hI : Inv sys H m) (hop : ∀ op ∈ ops, op.Sized) (h : m.run p sys H ops = .ret m') : Inv sys H m' := by
  induction ops generalizing m with
  | nil => simp [Machine.run] at h; subst h; exact hI
  | cons op ops ih =>
    simp only [Machine.run] at h
    cases hs : m.step p sys H op with
    | panic => rw [hs] at h; simp at h
    | ret m1 =>
      rw [hs] at h
      simp only [Rust.bind_ret] at h
      exact ih (inv_step hS hH hI (hop op (by simp)) hs) (fun o ho => hop o (by simp [ho])) h

end Verif.Immix
