import Verif.Immix.HeapInv
import Verif.Spec.Heaps

/-!
# Invariant of programs with several heaps
-/

namespace Verif.Immix

open Verif Verif.Immix.Spec

/-- Pointer and size of the blocks of a heap. -/
def BlockList.keys (bl : BlockList) : List (Nat × Nat) := bl.all.map fun b => (b.block.ptr, b.block.size)
/-- Addresses of the metadata of the blocks of a heap. -/
def BlockList.metas (bl : BlockList) : List Nat := bl.all.map fun b => b.metaPtr

/-- What is known of the blocks of a heap. -/
structure CoreInv (bl : BlockList) (mem : Mem) : Prop where
  ok : ∀ b ∈ bl.all, BlockOK b
  disj : bl.all.Pairwise BlockDisjoint
  metaw : ∀ b ∈ bl.all, readBytes mem b.block.ptr 8 = leBytes 8 b.metaPtr

/-- Address `a` lies in a block of the heap. -/
def BlockList.owns (bl : BlockList) (a : Nat) : Prop := ∃ b ∈ bl.all, b.block.ptr ≤ a ∧ a < b.block.ptr + 32768

/-- How the logs of the world change with the blocks of a heap: not at all, or by one new block. -/
inductive Change (sys : Sys) (bl : BlockList) (w : World) (bl' : BlockList) (w' : World) : Prop
  | same (hk : bl'.keys.Perm bl.keys) (hm : bl'.metas.Perm bl.metas) (ho : w'.obtained = w.obtained) (hb : w'.boxed = w.boxed)
  | new (q x : Nat) (hq : sys.alloc w.calls 32768 32768 = some q) (hk : bl'.keys.Perm ((q, 32768) :: bl.keys))
      (hm : bl'.metas.Perm (x :: bl.metas)) (ho : w'.obtained = w.obtained ++ [(q, 32768)]) (hb : w'.boxed = w.boxed ++ [x])

/-- What the system allocator promises a heap: a new block is aligned and overlaps none of the heap's blocks. -/
def Fresh (sys : Sys) (bl : BlockList) (w : World) : Prop :=
  ∀ q, sys.alloc w.calls 32768 32768 = some q → 32768 ∣ q ∧ ∀ b ∈ bl.all, DisjointRange b.block.ptr 32768 q 32768

theorem grant_core {sys : Sys} {bl bl' : BlockList} {w w' : World} {size space : Nat} (hF : Fresh sys bl w)
    (hI : CoreInv bl w.mem) (hG : Grant sys bl w size space bl' w') (hn : size ≤ 32752) (h8 : size % 8 = 0) :
    CoreInv bl' w'.mem ∧
    (∀ a n, InBlock bl a n → InBlock bl' a n ∧ DisjointRange a n space size ∧
      ∀ x, a ≤ x → x < a + n → w'.mem x = w.mem x) ∧
    InBlock bl' space size ∧ space % 8 = 0 ∧
    (∀ b ∈ bl'.all, DisjointRange b.block.ptr 16 space size) ∧
    (∀ a, ¬ bl'.owns a → w'.mem a = w.mem a) ∧
    Change sys bl w bl' w' ∧ w'.freed = w.freed ∧ w'.unboxed = w.unboxed := by
  cases hG with
  | reuse b others h1 h2 hfit hs hw =>
    subst hw
    have hmem : ∀ x, x ∈ bl.all ↔ x = b ∨ x ∈ others := by
      intro x; rw [h1.mem_iff]; simp
    have hmem' : ∀ x, x ∈ bl'.all ↔ x = { b with cursor := b.cursor + size } ∨ x ∈ others := by
      intro x; rw [h2.mem_iff]; simp
    have hbok := hI.ok b ((hmem b).2 (Or.inl rfl))
    have hd : (b :: others).Pairwise BlockDisjoint := (h1.pairwise_iff (fun h => h.symm)).1 hI.disj
    have hd2 := List.pairwise_cons.1 hd
    have hInOther : ∀ c ∈ others, c ∈ bl.all := fun c hc => (hmem c).2 (Or.inr hc)
    have hge := hbok.cur_ge
    have hnew : ({ b with cursor := b.cursor + size } : BumpBlock) ∈ bl'.all := (hmem' _).2 (Or.inl rfl)
    refine ⟨⟨?_, ?_, ?_⟩, ?_, ?_, ?_, ?_, fun _ _ => rfl, .same ?_ ?_ rfl rfl, rfl, rfl⟩
    · intro c hc
      rcases (hmem' c).1 hc with rfl | hc
      · have := hbok.cur_al
        exact ⟨by simp only []; omega, hfit, by simp only []; omega, hbok.limit, hbok.size, hbok.aligned⟩
      · exact hI.ok c (hInOther c hc)
    · refine (h2.pairwise_iff (fun h => BlockDisjoint.symm h)).2 ?_
      exact List.pairwise_cons.2 ⟨fun c hc => hd2.1 c hc, hd2.2⟩
    · intro c hc
      rcases (hmem' c).1 hc with rfl | hc
      · exact hI.metaw b ((hmem b).2 (Or.inl rfl))
      · exact hI.metaw c (hInOther c hc)
    · rintro a n ⟨c, hc, ha, hb⟩
      rcases (hmem c).1 hc with rfl | hc'
      · refine ⟨⟨_, hnew, ha, by simp only []; omega⟩, Or.inl (by omega), fun _ _ _ => rfl⟩
      · refine ⟨⟨c, (hmem' c).2 (Or.inr hc'), ha, hb⟩, ?_, fun _ _ _ => rfl⟩
        have hcok := (hI.ok c hc).cur_le
        have := hd2.1 c hc'
        unfold BlockDisjoint DisjointRange at this
        unfold DisjointRange
        omega
    · exact ⟨_, hnew, by simp only [hs]; omega, by simp only [hs]; omega⟩
    · have := hbok.cur_al
      have := hbok.aligned
      omega
    · intro c hc
      unfold DisjointRange
      rcases (hmem' c).1 hc with rfl | hc'
      · simp only []; omega
      · have := hd2.1 c hc'
        unfold BlockDisjoint DisjointRange at this
        omega
    · exact (h2.map _).trans (h1.map fun b => (b.block.ptr, b.block.size)).symm
    · exact (h2.map _).trans (h1.map fun b => b.metaPtr).symm
  | fresh f hnew hcur h2 hs =>
    rw [blockNew_eq] at hnew
    cases hq : sys.alloc w.calls 32768 32768 with
    | none => rw [hq] at hnew; simp at hnew
    | some q =>
      rw [hq] at hnew
      simp only [Prod.mk.injEq, Except.ok.injEq] at hnew
      obtain ⟨hf, hw⟩ := hnew
      subst hf
      subst hw
      simp only [] at hs h2
      have hmem' : ∀ x, x ∈ bl'.all ↔ x = (BumpBlock.mk (16 + size) 32768 { ptr := q, size := 32768 } BlockMeta.new
          (sys.metaAddr (w.calls + 1))) ∨ x ∈ bl.all := by
        intro x; rw [h2.mem_iff, List.mem_cons]
      obtain ⟨hal, hin⟩ := hF q hq
      have hl8 : (leBytes 8 (sys.metaAddr (w.calls + 1))).length = 8 := leBytes_length _ _
      have hnewm := (hmem' _).2 (Or.inl rfl)
      refine ⟨⟨?_, ?_, ?_⟩, ?_, ?_, ?_, ?_, ?_, .new q _ hq ?_ ?_ rfl rfl, rfl, rfl⟩
      · intro c hc
        rcases (hmem' c).1 hc with rfl | hc
        · exact ⟨by simp only []; omega, by simp only []; omega, by simp only []; omega, rfl, rfl, hal⟩
        · exact hI.ok c hc
      · refine (h2.pairwise_iff (fun h => BlockDisjoint.symm h)).2 ?_
        refine List.pairwise_cons.2 ⟨fun c hc => ?_, hI.disj⟩
        exact (hin c hc).elim Or.inr Or.inl
      · intro c hc
        rcases (hmem' c).1 hc with rfl | hc
        · have := readBytes_write_same w.mem q (leBytes 8 (sys.metaAddr (w.calls + 1)))
          rw [hl8] at this
          exact this
        · simp only []
          rw [readBytes_write_disjoint]
          · exact hI.metaw c hc
          · have := hin c hc
            unfold DisjointRange at this
            omega
      · rintro a n ⟨c, hc, ha, hb⟩
        have hcok := (hI.ok c hc).cur_le
        have hdis := hin c hc
        unfold DisjointRange at hdis
        refine ⟨⟨c, (hmem' c).2 (Or.inr hc), ha, hb⟩, ?_, ?_⟩
        · unfold DisjointRange; omega
        · intro x hx1 hx2
          exact writeBytes_outside _ _ _ _ (by omega)
      · exact ⟨_, hnewm, by simp only [hs]; omega, by simp only [hs]; omega⟩
      · omega
      · intro c hc
        unfold DisjointRange
        rcases (hmem' c).1 hc with rfl | hc
        · simp only []; omega
        · have := hin c hc
          unfold DisjointRange at this
          omega
      · intro a ha
        refine writeBytes_outside _ _ _ _ ?_
        have : ¬ (q ≤ a ∧ a < q + 32768) := fun h => ha ⟨_, hnewm, h⟩
        omega
      · exact h2.map _
      · exact h2.map _

/-! ## One heap -/

/-- What both functions of `Unwind.lean` do; `d` says whether there is an argument to destroy. -/
def unwindCore (p : Profile) (sys : Sys) (H : HeaderType) (bl : BlockList) (w : World) (size : Nat)
    (header : SizeClass → List UInt8) (body : List UInt8) (ctorPanics d : Bool) : Rust CallEnd :=
  match (do let totalSize ← usizeAdd p H.size size; allocSizeOf p totalSize : Rust Nat) with
  | .panic => .ret ⟨.panicked, d, bl, w⟩
  | .ret allocSize =>
    match getForSize allocSize with
    | .error e => .ret ⟨.err e, d, bl, w⟩
    | .ok cls => do
      let (r, bl, w) ← findSpace p sys bl w allocSize cls
      match r with
      | .error e => .ret ⟨.err e, d, bl, w⟩
      | .ok space =>
        if ctorPanics then .ret ⟨.panicked, d, bl, w⟩
        else .ret ⟨.ok (space + H.size), false, bl,
          { w with mem := writeBytes (writeBytes w.mem space (header cls)) (space + H.size) body }⟩

theorem allocUnwind_eq (p : Profile) (sys : Sys) (H : HeaderType) (bl : BlockList) (w : World) (t : Nat) (o : List UInt8) (c : Bool) :
    allocUnwind p sys H bl w t o c = unwindCore p sys H bl w o.length (fun c => H.new t (asU32 o.length) c .allocated) o c true := rfl

theorem allocArrayUnwind_eq (p : Profile) (sys : Sys) (H : HeaderType) (bl : BlockList) (w : World) (n : Nat) (c : Bool) :
    allocArrayUnwind p sys H bl w n c = unwindCore p sys H bl w n (fun c => H.newArray n c .allocated) (List.replicate n 0) c false := rfl

/-- An outcome that is not a pointer. -/
def Outcome.bad : Outcome → Prop
  | .ok _ => False
  | _ => True

theorem unwindCore_both (p : Profile) (sys : Sys) (H : HeaderType) (bl : BlockList) (w : World) (size : Nat)
    (header : SizeClass → List UInt8) (body : List UInt8) (d : Bool) (hok : ∀ b ∈ bl.all, BlockOK b)
    (hH : H.size < 2 ^ 63) (hsz : size < 2 ^ 63) :
    (∃ out calls, out.bad ∧ ∀ c, unwindCore p sys H bl w size header body c d = .ret ⟨out, d, bl, { w with calls := calls }⟩) ∨
    (1 ≤ roundUp (H.size + size) ∧ roundUp (H.size + size) ≤ 32752 ∧ ∃ space bl' w',
      Grant sys bl w (roundUp (H.size + size)) space bl' w' ∧
      ∀ c, unwindCore p sys H bl w size header body c d = .ret (if c then ⟨.panicked, d, bl', w'⟩ else ⟨.ok (space + H.size), false, bl',
        { w' with mem := writeBytes (writeBytes w'.mem space (header (classOf (roundUp (H.size + size))))) (space + H.size) body }⟩)) := by
  by_cases hov : H.size + size + 7 < 2 ^ 64
  · generalize hr : roundUp (H.size + size) = r
    by_cases hbad : r = 0 ∨ 32752 < r
    · left
      refine ⟨.err .badRequest, w.calls, trivial, fun c => ?_⟩
      unfold unwindCore
      rw [usizeAdd_small _ _ _ (by omega), Rust.bind_ret, allocSizeOf_fits _ _ hov]
      simp only [hr]
      rw [getForSize_eq]
      rw [if_neg (by omega), if_neg (by omega)]
      by_cases hlg : 32753 ≤ r ∧ r ≤ 4294967295
      · rw [if_pos hlg]; simp [findSpace]
      · rw [if_neg hlg]
    · have hcls : getForSize r = .ok (classOf r) := by
        rw [getForSize_eq]
        unfold classOf
        by_cases h : r ≤ 128
        · rw [if_pos (by omega), if_pos h]
        · rw [if_neg (by omega), if_pos (by omega), if_neg h, if_pos (by omega)]
      have hc : classOf r = .small ∧ r ≤ 128 ∨ classOf r = .medium := by
        unfold classOf
        by_cases h : r ≤ 128
        · left; simp [h]
        · right; rw [if_neg h, if_pos (by omega)]
      rcases findSpace_spec p sys bl w r (classOf r) hok (by omega) hc with ⟨space, bl', w', h1, h2, h3⟩ | ⟨h1, h2⟩
      · right
        refine ⟨by omega, by omega, space, bl', w', h2, fun c => ?_⟩
        unfold unwindCore
        rw [usizeAdd_small _ _ _ (by omega), Rust.bind_ret, allocSizeOf_fits _ _ hov]
        simp only [hr, hcls]
        rw [h1]; cases c <;> rfl
      · left
        refine ⟨.err .oom, w.calls + 1, trivial, fun c => ?_⟩
        unfold unwindCore
        rw [usizeAdd_small _ _ _ (by omega), Rust.bind_ret, allocSizeOf_fits _ _ hov]
        simp only [hr, hcls]
        rw [h1]; rfl
  · left
    cases p with
    | dev =>
      refine ⟨.panicked, w.calls, trivial, fun c => ?_⟩
      unfold unwindCore
      rw [usizeAdd_small _ _ _ (by omega), Rust.bind_ret, allocSizeOf_overflow _ _ (by omega) hov]
    | release =>
      refine ⟨.err .badRequest, w.calls, trivial, fun c => ?_⟩
      unfold unwindCore
      rw [usizeAdd_small _ _ _ (by omega), Rust.bind_ret, allocSizeOf_overflow _ _ (by omega) hov]
      simp only
      rw [getForSize_eq]
      rfl

theorem unwindCore_spec (p : Profile) (sys : Sys) (H : HeaderType) (bl : BlockList) (w : World) (size : Nat)
    (header : SizeClass → List UInt8) (body : List UInt8) (c d : Bool) (hok : ∀ b ∈ bl.all, BlockOK b)
    (hH : H.size < 2 ^ 63) (hsz : size < 2 ^ 63) :
    (∃ out calls, out.bad ∧ unwindCore p sys H bl w size header body c d = .ret ⟨out, d, bl, { w with calls := calls }⟩) ∨
    (1 ≤ roundUp (H.size + size) ∧ roundUp (H.size + size) ≤ 32752 ∧ ∃ space bl' w',
      Grant sys bl w (roundUp (H.size + size)) space bl' w' ∧
      unwindCore p sys H bl w size header body c d = .ret (if c then ⟨.panicked, d, bl', w'⟩ else ⟨.ok (space + H.size), false, bl',
        { w' with mem := writeBytes (writeBytes w'.mem space (header (classOf (roundUp (H.size + size))))) (space + H.size) body }⟩)) := by
  rcases unwindCore_both p sys H bl w size header body d hok hH hsz with ⟨out, calls, h1, h2⟩ | ⟨h1, h2, space, bl', w', h3, h4⟩
  · exact .inl ⟨out, calls, h1, h2 c⟩
  · exact .inr ⟨h1, h2, space, bl', w', h3, h4 c⟩

/-- The invariant of one heap. -/
structure HInv (mem : Mem) (h : HeapState) : Prop where
  hsize : h.H.size < 2 ^ 63
  core : CoreInv h.bl mem
  inBlock : ∀ o ∈ h.objs, h.H.size ≤ o.ptr ∧ InBlock h.bl (h.range o).1 (h.range o).2
  aligned : ∀ o ∈ h.objs, (h.range o).1 % 8 = 0
  sized : ∀ o ∈ h.objs, 1 ≤ (h.range o).2 ∧ (h.range o).2 ≤ 32752
  disj : h.objs.Pairwise fun o o' => DisjointRange (h.range o).1 (h.range o).2 (h.range o').1 (h.range o').2
  data : ∀ o ∈ h.objs, readBytes mem o.ptr o.size = o.data
  hdr : ∀ o ∈ h.objs, readBytes mem (o.ptr - h.H.size) h.H.size = o.header

theorem range_bounds {h : HeapState} {o : Entry} (hp : h.H.size ≤ o.ptr) :
    (h.range o).1 + h.H.size = o.ptr ∧ o.ptr + o.size ≤ (h.range o).1 + (h.range o).2 := by
  have := roundUp_ge (h.H.size + o.size)
  unfold HeapState.range
  simp only
  omega

/-- The range of an object is owned by its heap. -/
theorem HInv.owned {mem : Mem} {h : HeapState} (hI : HInv mem h) {o : Entry} (ho : o ∈ h.objs) {a : Nat}
    (h1 : (h.range o).1 ≤ a) (h2 : a < (h.range o).1 + (h.range o).2) : h.bl.owns a := by
  obtain ⟨_, b, hb, h3, h4⟩ := hI.inBlock o ho
  have := (hI.core.ok b hb).cur_le
  exact ⟨b, hb, by omega, by omega⟩

/-- Memory outside of its blocks does not matter for a heap. -/
theorem HInv.frame {mem mem' : Mem} {h : HeapState} (hI : HInv mem h) (hm : ∀ a, h.bl.owns a → mem' a = mem a) : HInv mem' h := by
  refine ⟨hI.hsize, ⟨hI.core.ok, hI.core.disj, ?_⟩, hI.inBlock, hI.aligned, hI.sized, hI.disj, ?_, ?_⟩
  · intro b hb
    rw [← hI.core.metaw b hb]
    exact readBytes_congr fun a h1 h2 => hm a ⟨b, hb, by omega, by omega⟩
  · intro o ho
    rw [← hI.data o ho]
    have := range_bounds (hI.inBlock o ho).1
    exact readBytes_congr fun a h1 h2 => hm a (hI.owned ho (by omega) (by omega))
  · intro o ho
    rw [← hI.hdr o ho]
    have := range_bounds (hI.inBlock o ho).1
    exact readBytes_congr fun a h1 h2 => hm a (hI.owned ho (by omega) (by omega))

/-- What a call leaves behind. -/
structure After (sys : Sys) (h : HeapState) (w : World) (h' : HeapState) (w' : World) : Prop where
  inv : HInv w'.mem h'
  frame : ∀ a, ¬ h'.bl.owns a → w'.mem a = w.mem a
  change : Change sys h.bl w h'.bl w'
  freed : w'.freed = w.freed
  unboxed : w'.unboxed = w.unboxed

theorem After.refl {sys : Sys} {h : HeapState} {w : World} (hI : HInv w.mem h) (calls : Nat) :
    After sys h w h { w with calls := calls } :=
  ⟨hI, fun _ _ => rfl, .same (.refl _) (.refl _) rfl rfl, rfl, rfl⟩

/-- Space is found but nothing is written to it. -/
theorem After.lost {sys : Sys} {h : HeapState} {w w' : World} {bl' : BlockList} {size space : Nat} (hI : HInv w.mem h)
    (hF : Fresh sys h.bl w) (hG : Grant sys h.bl w size space bl' w') (hn : size ≤ 32752) (h8 : size % 8 = 0) :
    After sys h w { h with bl := bl' } w' := by
  obtain ⟨g1, g2, g3, g4, g5, g6, g7, g8, g9⟩ := grant_core hF hI.core hG hn h8
  refine ⟨⟨hI.hsize, g1, ?_, hI.aligned, hI.sized, hI.disj, ?_, ?_⟩, g6, g7, g8, g9⟩
  · intro o ho
    exact ⟨(hI.inBlock o ho).1, (g2 _ _ (hI.inBlock o ho).2).1⟩
  · intro o ho
    rw [← hI.data o ho]
    have := range_bounds (hI.inBlock o ho).1
    exact readBytes_congr fun a h1 h2 => (g2 _ _ (hI.inBlock o ho).2).2.2 a (by omega) (by omega)
  · intro o ho
    rw [← hI.hdr o ho]
    have := range_bounds (hI.inBlock o ho).1
    exact readBytes_congr fun a h1 h2 => (g2 _ _ (hI.inBlock o ho).2).2.2 a (by simp only at h1; omega) (by simp only at h1 h2; omega)

/-- An object is placed. -/
theorem After.placed {sys : Sys} {h : HeapState} {w w' : World} {bl' : BlockList} {space : Nat} (hI : HInv w.mem h)
    (hF : Fresh sys h.bl w) (o : Entry) (hhl : o.header.length = h.H.size) (hdl : o.data.length = o.size)
    (hG : Grant sys h.bl w (roundUp (h.H.size + o.size)) space bl' w')
    (h1 : 1 ≤ roundUp (h.H.size + o.size)) (hn : roundUp (h.H.size + o.size) ≤ 32752) (hp : o.ptr = space + h.H.size) :
    After sys h w { h with bl := bl', objs := h.objs ++ [o] }
      { w' with mem := writeBytes (writeBytes w'.mem space o.header) (space + h.H.size) o.data } := by
  obtain ⟨g1, g2, g3, g4, g5, g6, g7, g8, g9⟩ := grant_core hF hI.core hG hn (roundUp_mod _)
  have hge := roundUp_ge (h.H.size + o.size)
  have hr1 : (h.range o).1 = space := by unfold HeapState.range; simp only; omega
  have hr2 : (h.range o).2 = roundUp (h.H.size + o.size) := rfl
  have hout : ∀ x, x < space ∨ space + roundUp (h.H.size + o.size) ≤ x →
      writeBytes (writeBytes w'.mem space o.header) (space + h.H.size) o.data x = w'.mem x := by
    intro x hx
    rw [writeBytes_outside _ _ _ _ (by omega), writeBytes_outside _ _ _ _ (by omega)]
  have hold : ∀ o' ∈ h.objs, ∀ x, (h.range o').1 ≤ x → x < (h.range o').1 + (h.range o').2 →
      writeBytes (writeBytes w'.mem space o.header) (space + h.H.size) o.data x = w.mem x := by
    intro o' ho' x h1 h2
    obtain ⟨_, hb2⟩ := hI.inBlock o' ho'
    obtain ⟨_, hd, hm⟩ := g2 _ _ hb2
    unfold DisjointRange at hd
    rw [hout x (by omega), hm x h1 h2]
  refine ⟨⟨hI.hsize, ⟨g1.ok, g1.disj, ?_⟩, ?_, ?_, ?_, ?_, ?_, ?_⟩, ?_, ?_, g8, g9⟩
  · intro b hbm
    have hd := g5 b hbm
    unfold DisjointRange at hd
    rw [readBytes_congr (m := w'.mem)]
    · exact g1.metaw b hbm
    · intro x h1 h2
      exact hout x (by omega)
  · intro o' ho'
    rcases List.mem_append.1 ho' with ho | ho
    · exact ⟨(hI.inBlock o' ho).1, (g2 _ _ (hI.inBlock o' ho).2).1⟩
    · cases List.mem_singleton.1 ho
      exact ⟨by simp only; omega, by
        have e : (HeapState.range { h with bl := bl', objs := h.objs ++ [o] } o) = (space, roundUp (h.H.size + o.size)) := by
          unfold HeapState.range; simp only [Prod.mk.injEq, and_true]; omega
        rw [e]; exact g3⟩
  · intro o' ho'
    rcases List.mem_append.1 ho' with ho | ho
    · exact hI.aligned o' ho
    · cases List.mem_singleton.1 ho
      exact (congrArg (· % 8) hr1).trans g4
  · intro o' ho'
    rcases List.mem_append.1 ho' with ho | ho
    · exact hI.sized o' ho
    · cases List.mem_singleton.1 ho
      exact ⟨h1, hn⟩
  · rw [List.pairwise_append]
    refine ⟨hI.disj, List.pairwise_singleton _ _, ?_⟩
    intro o' ho' o'' ho''
    cases List.mem_singleton.1 ho''
    have := (g2 _ _ (hI.inBlock o' ho').2).2.1
    rw [← hr1] at this
    exact this
  · intro o' ho'
    rcases List.mem_append.1 ho' with ho | ho
    · have hbd := range_bounds (hI.inBlock o' ho).1
      rw [← hI.data o' ho]
      exact readBytes_congr fun x h1 h2 => hold o' ho x (by omega) (by omega)
    · cases List.mem_singleton.1 ho
      rw [hp, ← hdl, readBytes_write_same]
  · intro o' ho'
    rcases List.mem_append.1 ho' with ho | ho
    · have hbd := range_bounds (hI.inBlock o' ho).1
      rw [← hI.hdr o' ho]
      exact readBytes_congr fun x h1 h2 => hold o' ho x (by simp only at h1; omega) (by simp only at h1 h2; omega)
    · cases List.mem_singleton.1 ho
      have e : o.ptr - h.H.size = space := by omega
      simp only [e]
      rw [readBytes_write_disjoint _ _ _ _ _ (Or.inl (by omega))]
      have := readBytes_write_same w'.mem space o.header
      rw [hhl] at this
      exact this
  · intro a ha
    refine (hout a ?_).trans (g6 a ha)
    · obtain ⟨b, hb, hb1, hb2⟩ := g3
      have := (g1.ok b hb).cur_le
      have : ¬ (b.block.ptr ≤ a ∧ a < b.block.ptr + 32768) := fun h => ha ⟨b, hb, h⟩
      omega
  · cases g7 with
    | same hk hm ho hb => exact .same hk hm ho hb
    | new q x hq hk hm ho hb => exact .new q x hq hk hm ho hb

/-- The client writes to an object or its header. -/
theorem After.write {sys : Sys} {h : HeapState} {w : World} (hI : HInv w.mem h) {i : Nat} {o o' : Entry} (hi : h.objs[i]? = some o)
    (hp : o'.ptr = o.ptr) (hsz : o'.size = o.size) {addr : Nat} {bytes : List UInt8}
    (h1 : (h.range o).1 ≤ addr) (h2 : addr + bytes.length ≤ (h.range o).1 + (h.range o).2)
    (hd : readBytes (writeBytes w.mem addr bytes) o.ptr o.size = o'.data)
    (hh : readBytes (writeBytes w.mem addr bytes) (o.ptr - h.H.size) h.H.size = o'.header) :
    After sys h w { h with objs := h.objs.set i o' } { w with mem := writeBytes w.mem addr bytes } := by
  obtain ⟨hil, hget⟩ := List.getElem?_eq_some_iff.1 hi
  have hmem : o ∈ h.objs := hget ▸ List.getElem_mem hil
  have hrange : ∀ (l : List Entry) (x : Entry), HeapState.range { h with objs := l } x = h.range x := fun _ _ => rfl
  have hro : h.range o' = h.range o := by unfold HeapState.range; rw [hp, hsz]
  obtain ⟨hHp, b, hb, hb1, hb2⟩ := hI.inBlock o hmem
  have hcl := (hI.core.ok b hb).cur_le
  -- members of the new list
  have hcase : ∀ x ∈ h.objs.set i o', x = o' ∨ (x ∈ h.objs ∧ DisjointRange (h.range o).1 (h.range o).2 (h.range x).1 (h.range x).2) := by
    intro x hx
    obtain ⟨j, hj, rfl⟩ := List.getElem_of_mem hx
    rw [List.getElem_set]
    by_cases e : i = j
    · left; simp [e]
    · right
      simp only [e, if_false]
      rw [List.length_set] at hj
      refine ⟨List.getElem_mem hj, ?_⟩
      have hpw := List.pairwise_iff_getElem.1 hI.disj
      rw [← hget]
      rcases Nat.lt_or_gt_of_ne e with hlt | hlt
      · exact hpw i j hil hj hlt
      · exact (hpw j i hj hil hlt).elim Or.inr Or.inl
  refine ⟨⟨hI.hsize, ⟨hI.core.ok, hI.core.disj, ?_⟩, ?_, ?_, ?_, ?_, ?_, ?_⟩, ?_, .same (.refl _) (.refl _) rfl rfl, rfl, rfl⟩
  · intro c hc
    simp only []
    rw [readBytes_write_disjoint]
    · exact hI.core.metaw c hc
    · by_cases e : c = b
      · subst e; omega
      · have hcb : BlockDisjoint c b := by
          have := List.pairwise_iff_getElem.1 hI.core.disj
          obtain ⟨i, hi, rfl⟩ := List.getElem_of_mem hc
          obtain ⟨j, hj, rfl⟩ := List.getElem_of_mem hb
          rcases Nat.lt_trichotomy i j with h | h | h
          · exact this i j hi hj h
          · subst h; exact absurd rfl e
          · exact (this j i hj hi h).symm
        unfold BlockDisjoint DisjointRange at hcb
        omega
  · intro x hx
    rw [hrange]
    rcases hcase x hx with rfl | ⟨hx, _⟩
    · rw [hro, hp]; exact hI.inBlock o hmem
    · exact hI.inBlock x hx
  · intro x hx
    rw [hrange]
    rcases hcase x hx with rfl | ⟨hx, _⟩
    · rw [hro]; exact hI.aligned o hmem
    · exact hI.aligned x hx
  · intro x hx
    rw [hrange]
    rcases hcase x hx with rfl | ⟨hx, _⟩
    · rw [hro]; exact hI.sized o hmem
    · exact hI.sized x hx
  · simp only [hrange]
    rw [List.pairwise_iff_getElem]
    intro j k hj hk hlt
    rw [List.length_set] at hj hk
    have := List.pairwise_iff_getElem.1 hI.disj j k hj hk hlt
    have hr : ∀ j (hj : j < h.objs.length), h.range ((h.objs.set i o')[j]'(by rw [List.length_set]; exact hj)) = h.range h.objs[j] := by
      intro j hj
      rw [List.getElem_set]
      by_cases e : i = j
      · subst e; rw [if_pos rfl, hro, hget]
      · rw [if_neg e]
    rw [hr j hj, hr k hk]
    exact this
  · intro x hx
    rcases hcase x hx with rfl | ⟨hx, hdis⟩
    · rw [hp, hsz]; exact hd
    · rw [← hI.data x hx]
      have := range_bounds (hI.inBlock x hx).1
      unfold DisjointRange at hdis
      exact readBytes_write_disjoint _ _ _ _ _ (by omega)
  · intro x hx
    rcases hcase x hx with rfl | ⟨hx, hdis⟩
    · rw [hp]; exact hh
    · rw [← hI.hdr x hx]
      have := range_bounds (hI.inBlock x hx).1
      unfold DisjointRange at hdis
      exact readBytes_write_disjoint _ _ _ _ _ (by simp only; omega)
  · intro a ha
    refine writeBytes_outside _ _ _ _ ?_
    have : ¬ (b.block.ptr ≤ a ∧ a < b.block.ptr + 32768) := fun h => ha ⟨b, hb, h⟩
    omega

/-! ## All heaps -/

/-- Pointer and size of the blocks of all heaps. -/
def allKeys (l : List (Option HeapState)) : List (Nat × Nat) := l.flatMap fun h => (h.map fun h => h.bl.keys).getD []
/-- Addresses of the metadata of all blocks. -/
def allMetas (l : List (Option HeapState)) : List Nat := l.flatMap fun h => (h.map fun h => h.bl.metas).getD []

theorem heaps_split {l : List (Option HeapState)} {k : Nat} {h : HeapState} (hk : (l[k]?).join = some h) :
    ∃ l1 l2, l = l1 ++ some h :: l2 ∧ l1.length = k ∧ ∀ y, l.set k y = l1 ++ y :: l2 := by
  induction l generalizing k with
  | nil => simp at hk
  | cons x l ih =>
    cases k with
    | zero =>
      simp at hk
      subst hk
      exact ⟨[], l, rfl, rfl, fun _ => rfl⟩
    | succ k =>
      obtain ⟨l1, l2, h1, h2, h3⟩ := ih (k := k) (by simpa using hk)
      exact ⟨x :: l1, l2, by rw [h1]; rfl, by simp [h2], fun y => by simp [h3]⟩

theorem allKeys_append (l1 l2 : List (Option HeapState)) : allKeys (l1 ++ l2) = allKeys l1 ++ allKeys l2 := by
  simp [allKeys]
theorem allMetas_append (l1 l2 : List (Option HeapState)) : allMetas (l1 ++ l2) = allMetas l1 ++ allMetas l2 := by
  simp [allMetas]
theorem allKeys_cons (h : HeapState) (l : List (Option HeapState)) : allKeys (some h :: l) = h.bl.keys ++ allKeys l := by
  simp [allKeys]
theorem allMetas_cons (h : HeapState) (l : List (Option HeapState)) : allMetas (some h :: l) = h.bl.metas ++ allMetas l := by
  simp [allMetas]
theorem allKeys_none (l : List (Option HeapState)) : allKeys (none :: l) = allKeys l := by simp [allKeys]
theorem allMetas_none (l : List (Option HeapState)) : allMetas (none :: l) = allMetas l := by simp [allMetas]

theorem mem_allKeys {l : List (Option HeapState)} {h : HeapState} (hl : some h ∈ l) {b : BumpBlock} (hb : b ∈ h.bl.all) :
    (b.block.ptr, b.block.size) ∈ allKeys l :=
  List.mem_flatMap.2 ⟨_, hl, List.mem_map_of_mem (f := fun b : BumpBlock => (b.block.ptr, b.block.size)) hb⟩

/-- Two blocks do not overlap. -/
def KeyDisjoint (x y : Nat × Nat) : Prop := DisjointRange x.1 32768 y.1 32768

theorem KeyDisjoint.symm {x y : Nat × Nat} (h : KeyDisjoint x y) : KeyDisjoint y x := h.elim Or.inr Or.inl

/-- The invariant of a program with several heaps. -/
structure MInv (s : Heaps) : Prop where
  each : ∀ h, some h ∈ s.heaps → HInv s.w.mem h
  disj : (allKeys s.heaps).Pairwise KeyDisjoint
  perm : (s.w.freed ++ allKeys s.heaps).Perm s.w.obtained
  boxes : (s.w.unboxed ++ allMetas s.heaps).Perm s.w.boxed
  space : ∀ x ∈ s.w.obtained, 0 < x.1 ∧ x.1 + x.2 < 2 ^ 64

theorem MInv.live {s : Heaps} (hI : MInv s) {x : Nat × Nat} : s.w.isLive x ↔ x ∈ allKeys s.heaps := by
  have h := hI.perm.count_eq x
  rw [List.count_append] at h
  unfold World.isLive
  rw [← List.count_pos_iff]
  omega

theorem mem_of_get {s : Heaps} {k : Nat} {h : HeapState} (hk : s.get k = some h) : some h ∈ s.heaps := by
  obtain ⟨l1, l2, e, _⟩ := heaps_split hk
  rw [e]; simp

/-- What the contract of the system allocator means for one heap. -/
theorem MInv.fresh {sys : Sys} {s : Heaps} (hI : MInv s) (hH : Honest sys s.w) {h : HeapState} (hm : some h ∈ s.heaps) :
    Fresh sys h.bl s.w := by
  intro q hq
  obtain ⟨_, h2, _, h4⟩ := hH _ _ _ hq
  refine ⟨h2, fun b hb => ?_⟩
  have := h4 _ (hI.live.2 (mem_allKeys hm hb))
  rw [((hI.each h hm).core.ok b hb).size] at this
  exact this.elim Or.inr Or.inl

/-- A call on one heap keeps the invariant of all. -/
theorem MInv.update {sys : Sys} {s : Heaps} (hI : MInv s) (hH : Honest sys s.w) {k : Nat} {h h' : HeapState} {w' : World}
    (hk : s.get k = some h) (hA : After sys h s.w h' w') (outcomes : List Outcome) (destroyed : List Nat) :
    MInv { heaps := s.heaps.set k (some h'), w := w', outcomes := outcomes, destroyed := destroyed } := by
  obtain ⟨l1, l2, e, _, hset⟩ := heaps_split hk
  have hm := mem_of_get hk
  have hkeys : allKeys s.heaps = allKeys l1 ++ (h.bl.keys ++ allKeys l2) := by rw [e, allKeys_append, allKeys_cons]
  have hmetas : allMetas s.heaps = allMetas l1 ++ (h.bl.metas ++ allMetas l2) := by rw [e, allMetas_append, allMetas_cons]
  have hkeys' : allKeys (s.heaps.set k (some h')) = allKeys l1 ++ (h'.bl.keys ++ allKeys l2) := by
    rw [hset, allKeys_append, allKeys_cons]
  have hmetas' : allMetas (s.heaps.set k (some h')) = allMetas l1 ++ (h'.bl.metas ++ allMetas l2) := by
    rw [hset, allMetas_append, allMetas_cons]
  have hdisj : (allKeys (s.heaps.set k (some h'))).Pairwise KeyDisjoint := by
    cases hA.change with
    | same hkp _ _ _ =>
      have : (allKeys (s.heaps.set k (some h'))).Perm (allKeys s.heaps) := by
        rw [hkeys, hkeys']
        exact (hkp.append_right _).append_left _
      exact (this.pairwise_iff (fun h => KeyDisjoint.symm h)).2 hI.disj
    | new q x hq hkp _ _ _ =>
      have : (allKeys (s.heaps.set k (some h'))).Perm ((q, 32768) :: allKeys s.heaps) := by
        rw [hkeys, hkeys']
        refine ((hkp.append_right _).append_left _).trans ?_
        exact List.perm_middle
      refine (this.pairwise_iff (fun h => KeyDisjoint.symm h)).2 (List.pairwise_cons.2 ⟨?_, hI.disj⟩)
      intro y hy
      have h4 := (hH _ _ _ hq).2.2.2 y (hI.live.2 hy)
      have hy2 : y.2 = 32768 := by
        obtain ⟨g, hg, hyg⟩ := List.mem_flatMap.1 hy
        cases g with
        | none => simp at hyg
        | some g =>
          obtain ⟨b, hb, rfl⟩ := List.mem_map.1 hyg
          exact ((hI.each g hg).core.ok b hb).size
      rw [hy2] at h4
      exact h4
  refine ⟨?_, hdisj, ?_, ?_, fun x hx => ?_⟩
  rotate_right
  · cases hA.change with
    | same _ _ ho _ => exact hI.space x (ho ▸ hx)
    | new q y hq _ _ ho _ =>
      simp only [ho] at hx
      rcases List.mem_append.1 hx with hx | hx
      · exact hI.space x hx
      · rw [List.mem_singleton.1 hx]
        have := hH _ _ _ hq
        exact ⟨this.1, this.2.2.1⟩
  · intro g hg
    simp only at hg
    have hcase : g = h' ∨ (some g ∈ s.heaps ∧ ∀ a, g.bl.owns a → ¬ h'.bl.owns a) := by
      rw [hkeys', List.pairwise_append] at hdisj
      obtain ⟨_, hd2, hd3⟩ := hdisj
      rw [List.pairwise_append] at hd2
      obtain ⟨_, _, hd4⟩ := hd2
      rw [hset] at hg
      rcases List.mem_append.1 hg with hg | hg
      · right
        refine ⟨by rw [e]; simp [hg], ?_⟩
        rintro a ⟨b, hb, h1, h2⟩ ⟨b', hb', h3, h4⟩
        have := hd3 _ (mem_allKeys hg hb) _ (List.mem_append.2 (.inl
          (List.mem_map_of_mem (f := fun b : BumpBlock => (b.block.ptr, b.block.size)) hb')))
        unfold KeyDisjoint DisjointRange at this
        simp only at this
        omega
      · rcases List.mem_cons.1 hg with hg | hg
        · left; exact Option.some.inj hg
        · right
          refine ⟨by rw [e]; simp [hg], ?_⟩
          rintro a ⟨b, hb, h1, h2⟩ ⟨b', hb', h3, h4⟩
          have := hd4 _ (List.mem_map_of_mem (f := fun b : BumpBlock => (b.block.ptr, b.block.size)) hb') _ (mem_allKeys hg hb)
          unfold KeyDisjoint DisjointRange at this
          simp only at this
          omega
    rcases hcase with rfl | ⟨hg, hno⟩
    · exact hA.inv
    · exact (hI.each g hg).frame fun a ha => hA.frame a (hno a ha)
  · show (w'.freed ++ allKeys (s.heaps.set k (some h'))).Perm w'.obtained
    rw [hA.freed, hkeys']
    have h0 := hI.perm
    rw [hkeys] at h0
    cases hA.change with
    | same hkp _ ho _ =>
      rw [ho]
      exact (((hkp.append_right _).append_left _).append_left _).trans h0
    | new q x hq hkp _ ho _ =>
      rw [ho]
      refine (((hkp.append_right _).append_left _).append_left _).trans ?_
      refine (List.Perm.append_left _ List.perm_middle).trans ?_
      refine List.perm_middle.trans ?_
      refine (List.Perm.cons _ h0).trans ?_
      exact (List.perm_append_comm (l₁ := [(q, 32768)]))
  · show (w'.unboxed ++ allMetas (s.heaps.set k (some h'))).Perm w'.boxed
    rw [hA.unboxed, hmetas']
    have h0 := hI.boxes
    rw [hmetas] at h0
    cases hA.change with
    | same _ hmp _ hb =>
      rw [hb]
      exact (((hmp.append_right _).append_left _).append_left _).trans h0
    | new q x hq _ hmp _ hb =>
      rw [hb]
      refine (((hmp.append_right _).append_left _).append_left _).trans ?_
      refine (List.Perm.append_left _ List.perm_middle).trans ?_
      refine List.perm_middle.trans ?_
      refine (List.Perm.cons _ h0).trans ?_
      exact (List.perm_append_comm (l₁ := [x]))

theorem drop_freed (bl : BlockList) (w : World) : (bl.drop w).freed.Perm (w.freed ++ bl.keys) ∧
    (bl.drop w).unboxed.Perm (w.unboxed ++ bl.metas) ∧ (bl.drop w).obtained = w.obtained ∧ (bl.drop w).boxed = w.boxed ∧
    (bl.drop w).mem = w.mem ∧ (bl.drop w).calls = w.calls := by
  have hrest : ∀ (l : List BumpBlock) (w : World), l.foldl BumpBlock.drop w =
      { w with freed := w.freed ++ l.map (fun b => (b.block.ptr, b.block.size)), unboxed := w.unboxed ++ l.map (fun b => b.metaPtr),
               deallocs := w.deallocs ++ l.map fun b => (b.block.ptr, ⟨b.block.size, b.block.size⟩) } := by
    intro l
    induction l with
    | nil => simp
    | cons b l ih => intro w; rw [List.foldl_cons, ih]; simp [BumpBlock.drop, Block.drop, deallocBlock]
  unfold BlockList.drop BlockList.keys BlockList.metas BlockList.all
  simp only [hrest]
  cases bl.head <;> cases bl.overflow <;>
    simp [BumpBlock.drop, Block.drop, deallocBlock]

theorem MInv.dropHeap {s : Heaps} (hI : MInv s) {k : Nat} {h : HeapState} (hk : s.get k = some h) :
    MInv { s with heaps := s.heaps.set k none, w := h.bl.drop s.w } := by
  obtain ⟨l1, l2, e, _, hset⟩ := heaps_split hk
  obtain ⟨d1, d2, d3, d4, d5, d6⟩ := drop_freed h.bl s.w
  have hkeys : allKeys s.heaps = allKeys l1 ++ (h.bl.keys ++ allKeys l2) := by rw [e, allKeys_append, allKeys_cons]
  have hmetas : allMetas s.heaps = allMetas l1 ++ (h.bl.metas ++ allMetas l2) := by rw [e, allMetas_append, allMetas_cons]
  have hkeys' : allKeys (s.heaps.set k none) = allKeys l1 ++ allKeys l2 := by
    rw [hset, allKeys_append, allKeys_none]
  have hmetas' : allMetas (s.heaps.set k none) = allMetas l1 ++ allMetas l2 := by
    rw [hset, allMetas_append, allMetas_none]
  refine ⟨?_, ?_, ?_, ?_, by simp only [d3]; exact hI.space⟩
  · intro g hg
    simp only [d5]
    refine hI.each g ?_
    simp only [hset] at hg
    rw [e]
    rcases List.mem_append.1 hg with hg | hg
    · simp [hg]
    · rcases List.mem_cons.1 hg with hg | hg
      · cases hg
      · simp [hg]
  · have := hI.disj
    simp only [hkeys'] 
    rw [hkeys] at this
    refine this.sublist (List.Sublist.append_left ?_ _)
    exact List.sublist_append_right _ _
  · simp only [d3, hkeys']
    have h0 := hI.perm
    rw [hkeys] at h0
    refine (d1.append_right _).trans (List.Perm.trans ?_ h0)
    rw [List.append_assoc]
    refine List.Perm.append_left _ ?_
    rw [← List.append_assoc, ← List.append_assoc]
    exact List.perm_append_comm.append_right _
  · simp only [d4, hmetas']
    have h0 := hI.boxes
    rw [hmetas] at h0
    refine (d2.append_right _).trans (List.Perm.trans ?_ h0)
    rw [List.append_assoc]
    refine List.Perm.append_left _ ?_
    rw [← List.append_assoc, ← List.append_assoc]
    exact List.perm_append_comm.append_right _

theorem MInv.newHeap {s : Heaps} (hI : MInv s) (H : HeaderType) (hH : H.size < 2 ^ 63) :
    MInv { s with heaps := s.heaps ++ [some { H := H, bl := BlockList.new, objs := [] }] } := by
  have hk : allKeys (s.heaps ++ [some { H := H, bl := BlockList.new, objs := [] }]) = allKeys s.heaps := by
    rw [allKeys_append]; simp [allKeys, BlockList.keys, BlockList.all, BlockList.new]
  have hm : allMetas (s.heaps ++ [some { H := H, bl := BlockList.new, objs := [] }]) = allMetas s.heaps := by
    rw [allMetas_append]; simp [allMetas, BlockList.metas, BlockList.all, BlockList.new]
  refine ⟨?_, ?_, ?_, ?_, hI.space⟩
  · intro g hg
    rcases List.mem_append.1 hg with hg | hg
    · exact hI.each g hg
    · cases List.mem_singleton.1 hg
      refine ⟨hH, ⟨?_, ?_, ?_⟩, ?_, ?_, ?_, ?_, ?_, ?_⟩ <;> simp [BlockList.all, BlockList.new]
  · simp only [hk]; exact hI.disj
  · simp only [hk]; exact hI.perm
  · simp only [hm]; exact hI.boxes

/-- What a call of `alloc` or `alloc_array` leaves behind. -/
theorem unwindCore_after {p : Profile} {sys : Sys} {h : HeapState} {w : World} (hI : HInv w.mem h) (hF : Fresh sys h.bl w)
    (size : Nat) (header : SizeClass → List UInt8) (body : List UInt8) (c d : Bool) (hsz : size < 2 ^ 63)
    (hhl : ∀ cls, (header cls).length = h.H.size) (hbl : body.length = size) :
    ∃ e, unwindCore p sys h.H h.bl w size header body c d = .ret e ∧
      After sys h w { h with bl := e.bl, objs := (match e.outcome with
        | .ok q => h.objs ++ [⟨q, size, header (classOf (roundUp (h.H.size + size))), body⟩]
        | _ => h.objs) } e.w ∧
      e.destroyed = (match e.outcome with | .ok _ => false | _ => d) ∧
      (∀ q, e.outcome = .ok q → roundUp (h.H.size + size) ≤ 32752) := by
  rcases unwindCore_spec p sys h.H h.bl w size header body c d hI.core.ok hI.hsize hsz with
    ⟨out, calls, hb, he⟩ | ⟨h1, h2, space, bl', w', hG, he⟩
  · rw [he]
    refine ⟨_, rfl, ?_, ?_, ?_⟩
    · cases out with
      | ok q => exact hb.elim
      | err e => exact After.refl hI calls
      | panicked => exact After.refl hI calls
    · cases out with
      | ok q => exact hb.elim
      | err e => rfl
      | panicked => rfl
    · cases out with
      | ok q => exact hb.elim
      | err e => intro q hq; cases hq
      | panicked => intro q hq; cases hq
  · rw [he]
    cases c with
    | true =>
      refine ⟨_, rfl, ?_, rfl, fun q hq => by cases hq⟩
      exact After.lost hI hF hG h2 (roundUp_mod _)
    | false =>
      refine ⟨_, rfl, ?_, rfl, fun q hq => h2⟩
      exact After.placed hI hF ⟨space + h.H.size, size, header (classOf (roundUp (h.H.size + size))), body⟩ (hhl _) hbl hG h1 h2 rfl

/-- One operation keeps the invariant, and does not panic. -/
theorem MInv.step {p : Profile} {sys : Sys} {s : Heaps} (hI : MInv s) (hH : Honest sys s.w) (o : HOp) (ho : o.Sized) :
    ∃ s', s.step p sys o = .ret s' ∧ MInv s' := by
  cases o with
  | newHeap H => exact ⟨_, rfl, hI.newHeap H ho⟩
  | dropHeap k =>
    simp only [Heaps.step]
    cases hk : s.get k with
    | none => exact ⟨s, rfl, hI⟩
    | some h => exact ⟨_, rfl, hI.dropHeap hk⟩
  | alloc k t o c =>
    simp only [Heaps.step]
    cases hk : s.get k with
    | none => exact ⟨s, rfl, hI⟩
    | some h =>
      simp only [HOp.Sized] at ho
      have hm := mem_of_get hk
      obtain ⟨e, h1, h2, _, h4⟩ := unwindCore_after (p := p) (hI.each h hm) (hI.fresh hH hm) o.length
        (fun c => h.H.new t (asU32 o.length) c .allocated) o c true ho (fun _ => h.H.new_length _ _ _ _) rfl
      simp only [allocUnwind_eq, h1, Rust.bind_ret]
      refine ⟨_, rfl, ?_⟩
      refine hI.update hH hk ?_ _ _
      cases he : e.outcome with
      | ok q =>
        rw [he] at h2
        have := h4 q he
        have := roundUp_ge (h.H.size + o.length)
        have e1 : asU32 o.length = o.length := by unfold asU32; omega
        simp only [e1] at h2
        exact h2
      | err x => rw [he] at h2; exact h2
      | panicked => rw [he] at h2; exact h2
  | allocArray k n c =>
    simp only [Heaps.step]
    cases hk : s.get k with
    | none => exact ⟨s, rfl, hI⟩
    | some h =>
      simp only [HOp.Sized] at ho
      have hm := mem_of_get hk
      obtain ⟨e, h1, h2, _, h4⟩ := unwindCore_after (p := p) (hI.each h hm) (hI.fresh hH hm) n
        (fun c => h.H.newArray n c .allocated) (List.replicate n 0) c false (by omega) (fun _ => h.H.newArray_length _ _ _) (by simp)
      simp only [allocArrayUnwind_eq, h1, Rust.bind_ret]
      refine ⟨_, rfl, ?_⟩
      refine hI.update hH hk ?_ _ _
      cases he : e.outcome with
      | ok q => rw [he] at h2; exact h2
      | err x => rw [he] at h2; exact h2
      | panicked => rw [he] at h2; exact h2
  | store k i off bytes =>
    simp only [Heaps.step]
    cases hk : s.get k with
    | none => exact ⟨s, rfl, hI⟩
    | some h =>
      simp only
      cases hi : h.objs[i]? with
      | none => exact ⟨s, rfl, hI⟩
      | some o =>
        simp only
        by_cases hf : off + bytes.length ≤ o.size
        · rw [if_pos hf]
          refine ⟨_, rfl, ?_⟩
          have hHI := hI.each h (mem_of_get hk)
          have hmem : o ∈ h.objs := by
            obtain ⟨h1, h2⟩ := List.getElem?_eq_some_iff.1 hi
            exact h2 ▸ List.getElem_mem h1
          have hbd := range_bounds (hHI.inBlock o hmem).1
          refine hI.update hH hk (After.write (o' := ⟨o.ptr, o.size, o.header, overwrite o.data off bytes⟩) (addr := o.ptr + off) (bytes := bytes) hHI hi rfl rfl (by omega) (by omega) ?_ ?_) _ _
          · rw [readBytes_write_sub _ _ _ _ _ hf, hHI.data o hmem]
          · rw [readBytes_write_disjoint _ _ _ _ _ (by have := (hHI.inBlock o hmem).1; omega)]
            exact hHI.hdr o hmem
        · rw [if_neg hf]; exact ⟨s, rfl, hI⟩
  | storeHeader k i bytes =>
    simp only [Heaps.step]
    cases hk : s.get k with
    | none => exact ⟨s, rfl, hI⟩
    | some h =>
      simp only
      cases hi : h.objs[i]? with
      | none => exact ⟨s, rfl, hI⟩
      | some o =>
        simp only
        by_cases hf : bytes.length = h.H.size
        · rw [if_pos hf]
          refine ⟨_, rfl, ?_⟩
          have hHI := hI.each h (mem_of_get hk)
          have hmem : o ∈ h.objs := by
            obtain ⟨h1, h2⟩ := List.getElem?_eq_some_iff.1 hi
            exact h2 ▸ List.getElem_mem h1
          have hHp := (hHI.inBlock o hmem).1
          have hbd := range_bounds hHp
          have hr1 : (h.range o).1 = getHeader h.H o.ptr := rfl
          have hg : getHeader h.H o.ptr = o.ptr - h.H.size := rfl
          refine hI.update hH hk (After.write (o' := ⟨o.ptr, o.size, bytes, o.data⟩) (addr := getHeader h.H o.ptr) (bytes := bytes) hHI hi rfl rfl (by omega) (by omega) ?_ ?_) _ _
          · rw [readBytes_write_disjoint _ _ _ _ _ (by omega)]
            exact hHI.data o hmem
          · rw [hg, ← hf]
            exact readBytes_write_same _ _ _
        · rw [if_neg hf]; exact ⟨s, rfl, hI⟩

/-- Every possible state satisfies the invariant. -/
theorem Spec.Possible.inv {p : Profile} {sys : Sys} {s : Heaps} (h : Possible p sys s) : MInv s := by
  induction h with
  | start mem =>
    refine ⟨?_, ?_, ?_, ?_, ?_⟩ <;> simp [Heaps.init, allKeys, allMetas]
  | op o _ hH ho hs ih =>
    obtain ⟨s1, e, h⟩ := ih.step (p := p) hH o ho
    rw [e] at hs
    cases hs
    exact h
  | environment mem calls _ _ hm ih =>
    refine ⟨fun g hg => (ih.each g hg).frame ?_, ih.disj, ih.perm, ih.boxes, ih.space⟩
    rintro a ⟨b, hb, h1, h2⟩
    have hsz := ((ih.each g hg).core.ok b hb).size
    exact hm _ (ih.live.2 (mem_allKeys hg hb)) a h1 (by simp only [hsz]; omega)

end Verif.Immix
