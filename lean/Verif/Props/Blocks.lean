import Verif.Spec.Blocks
import Verif.Props.Heap

/-!
# `Block` values own their memory (C75), and `into_mut_ptr` cannot be undone (C76)
-/

namespace Verif.Immix

open Verif Spec

section
variable {sys : Sys} {mem : Mem} {ops : List BlockOp}

theorem perm_eraseIdx {α : Type} {l : List α} {i : Nat} {a : α} (h : l[i]? = some a) : (a :: l.eraseIdx i).Perm l := by
  induction l generalizing i with
  | nil => cases h
  | cons b r ih =>
    cases i with
    | zero => cases h; exact .refl _
    | succ i => exact (List.Perm.swap _ _ _).trans ((ih h).cons b)

/-- What `Block::new` does to the state. -/
theorem Blocks.step_new (s : Blocks) (size : Nat) :
    (isPowerOfTwo size = true ∧ ∃ q, sys.alloc s.w.calls size size = some q ∧ s.step sys (.new size) =
      { w := { s.w with calls := s.w.calls + 1, obtained := s.w.obtained ++ [(q, size)], allocs := s.w.allocs ++ [(q, ⟨size, size⟩)] }, owned := s.owned ++ [⟨q, size⟩] }) ∨
    ((s.step sys (.new size)).owned = s.owned ∧ (s.step sys (.new size)).w.freed = s.w.freed ∧
      (s.step sys (.new size)).w.obtained = s.w.obtained) := by
  cases hp : isPowerOfTwo size with
  | false => right; simp [Blocks.step, Block.new, hp]
  | true =>
    cases hq : sys.alloc s.w.calls size size with
    | none => right; simp [Blocks.step, Block.new, hp, allocBlock, hq]
    | some q => left; exact ⟨rfl, q, rfl, by simp [Blocks.step, Block.new, hp, allocBlock, hq]⟩

theorem Blocks.step_owned (s : Blocks) (op : BlockOp) (h : (s.w.freed ++ s.owned.map Block.region).Perm s.w.obtained) :
    ((s.step sys op).w.freed ++ (s.step sys op).owned.map Block.region).Perm (s.step sys op).w.obtained := by
  cases op with
  | new size =>
    rcases Blocks.step_new (sys := sys) s size with ⟨_, q, _, he⟩ | ⟨h1, h2, h3⟩
    · rw [he]
      simp only [List.map_append, List.map_cons, List.map_nil, Block.region]
      rw [← List.append_assoc]
      exact h.append_right _
    · rw [h1, h2, h3]; exact h
  | drop i =>
    simp only [Blocks.step]
    cases hi : s.owned[i]? with
    | none => exact h
    | some b =>
      simp only [Block.drop, deallocBlock, List.append_assoc]
      refine List.Perm.trans (List.Perm.append_left _ ?_) h
      exact (perm_eraseIdx hi).map Block.region
  | intoMutPtr i =>
    simp only [Blocks.step]
    cases hi : s.owned[i]? with
    | none => exact h
    | some b =>
      simp only [Block.intoMutPtr, Block.drop, deallocBlock, List.append_assoc]
      refine List.Perm.trans (List.Perm.append_left _ ?_) h
      exact (perm_eraseIdx hi).map Block.region

theorem Blocks.run_snoc (ops : List BlockOp) (op : BlockOp) :
    Blocks.run sys mem (ops ++ [op]) = (Blocks.run sys mem ops).step sys op := by
  unfold Blocks.run
  rw [List.foldl_append]
  rfl

/-- Induction from the end. -/
theorem snocInduction {α : Type} {P : List α → Prop} (h0 : P []) (h1 : ∀ l a, P l → P (l ++ [a])) (l : List α) : P l := by
  have : ∀ l : List α, P l.reverse := by
    intro l
    induction l with
    | nil => exact h0
    | cons a l ih => rw [List.reverse_cons]; exact h1 _ _ ih
  simpa using this l.reverse

theorem Blocks.run_owned (ops : List BlockOp) :
    ((Blocks.run sys mem ops).w.freed ++ (Blocks.run sys mem ops).owned.map Block.region).Perm (Blocks.run sys mem ops).w.obtained := by
  induction ops using snocInduction with
  | h0 => exact .refl _
  | h1 l a ih => rw [Blocks.run_snoc]; exact Blocks.step_owned _ _ ih

/-- A block is live exactly if the client owns it. -/
theorem Blocks.live_iff (ops : List BlockOp) (x : Nat × Nat) :
    (Blocks.run sys mem ops).w.isLive x ↔ ∃ b ∈ (Blocks.run sys mem ops).owned, b.region = x := by
  have h := (Blocks.run_owned (sys := sys) (mem := mem) ops).count_eq x
  rw [List.count_append] at h
  unfold World.isLive
  rw [← List.mem_map, ← List.count_pos_iff]
  omega

/-- **C75** For every program: what was obtained from the system is what was returned to it plus what the client owns.
So nothing is returned twice, nothing leaks, and after the last drop everything is returned. -/
theorem c75_ownership (sys : Sys) (mem : Mem) (ops : List BlockOp) :
    ((Blocks.run sys mem ops).w.freed ++ (Blocks.run sys mem ops).owned.map Block.region).Perm (Blocks.run sys mem ops).w.obtained :=
  Blocks.run_owned ops

theorem AllocatorOK.prefix {sys : Sys} {mem : Mem} {ops : List BlockOp} {op : BlockOp} (h : AllocatorOK sys mem (ops ++ [op])) :
    AllocatorOK sys mem ops := by
  intro before size after he q hq
  exact h before size (after ++ [op]) (by rw [he]; simp) q hq

/-- What is known of the owned blocks. -/
def Blocks.Owns (l : List Block) : Prop :=
  (∀ b ∈ l, (∃ k, b.size = 2 ^ k) ∧ 0 < b.ptr ∧ b.size ∣ b.ptr) ∧
  l.Pairwise fun a b => DisjointRange a.ptr a.size b.ptr b.size

theorem Blocks.Owns.eraseIdx {l : List Block} (h : Blocks.Owns l) (i : Nat) : Blocks.Owns (l.eraseIdx i) :=
  ⟨fun b hb => h.1 b (List.mem_of_mem_eraseIdx hb), h.2.sublist (List.eraseIdx_sublist l i)⟩

theorem Blocks.run_owns (ops : List BlockOp) (h : AllocatorOK sys mem ops) : Blocks.Owns (Blocks.run sys mem ops).owned := by
  induction ops using snocInduction with
  | h0 => exact ⟨by simp [Blocks.run], by simp [Blocks.run]⟩
  | h1 l op ih =>
    have ih := ih h.prefix
    have hl := Blocks.live_iff (sys := sys) (mem := mem) l
    rw [Blocks.run_snoc]
    cases op with
    | new size =>
      have hq := h l size [] rfl
      rcases Blocks.step_new (sys := sys) (Blocks.run sys mem l) size with ⟨hp, q, ha, he⟩ | ⟨h1, _, _⟩
      · rw [he]
        obtain ⟨h1, h2, h3⟩ := hq q ha
        refine ⟨?_, ?_⟩
        · intro b hb
          rcases List.mem_append.1 hb with hb | hb
          · exact ih.1 b hb
          · cases List.mem_singleton.1 hb
            exact ⟨(isPowerOfTwo_iff size).1 hp, h1, h2⟩
        · rw [List.pairwise_append]
          refine ⟨ih.2, List.pairwise_singleton _ _, ?_⟩
          intro a ha b hb
          cases List.mem_singleton.1 hb
          exact (h3 a.region ((hl _).2 ⟨a, ha, rfl⟩)).symm
      · rw [h1]; exact ih
    | drop i =>
      simp only [Blocks.step]
      split
      · exact ih.eraseIdx i
      · exact ih
    | intoMutPtr i =>
      simp only [Blocks.step]
      split
      · exact ih.eraseIdx i
      · exact ih

/-- **C75** For every program and every system allocator that keeps its contract: the memory of an owned block, from
`as_ptr()` on for `size()` bytes, is allocated; the size is a power of two and the address a multiple of it; and the
memory of different blocks does not overlap. -/
theorem c75_memory (sys : Sys) (mem : Mem) (ops : List BlockOp) (h : AllocatorOK sys mem ops) :
    (∀ b ∈ (Blocks.run sys mem ops).owned, (Blocks.run sys mem ops).w.isLive (b.asPtr, b.sizeOf) ∧
      (∃ k, b.sizeOf = 2 ^ k) ∧ 0 < b.asPtr ∧ b.asPtr % b.sizeOf = 0) ∧
    (Blocks.run sys mem ops).owned.Pairwise fun a b => DisjointRange a.asPtr a.sizeOf b.asPtr b.sizeOf := by
  obtain ⟨h1, h2⟩ := Blocks.run_owns ops h
  refine ⟨fun b hb => ⟨(Blocks.live_iff ops _).2 ⟨b, hb, rfl⟩, (h1 b hb).1, (h1 b hb).2.1, Nat.mod_eq_zero_of_dvd (h1 b hb).2.2⟩, h2⟩

/-- No other owned block overlaps block `i`. -/
theorem Blocks.Owns.others {l : List Block} (h : Blocks.Owns l) {i : Nat} {b : Block} (hi : l[i]? = some b) :
    ∀ a ∈ l.eraseIdx i, DisjointRange a.ptr a.size b.ptr b.size := by
  intro a ha
  have h1 : (b :: l.eraseIdx i).Pairwise fun a b => DisjointRange a.ptr a.size b.ptr b.size :=
    ((perm_eraseIdx hi).pairwise_iff (fun h => h.symm)).2 h.2
  exact (List.rel_of_pairwise_cons h1 ha).symm

/-- **C20** After any program, call `into_mut_ptr` on any owned block: the pointer it returns is the address of that
block, which has been returned to the system, and it points into no memory that is still allocated. -/
theorem c20_points_nowhere (sys : Sys) (mem : Mem) (ops : List BlockOp) (h : AllocatorOK sys mem ops) (i : Nat) (b : Block)
    (hi : (Blocks.run sys mem ops).owned[i]? = some b) (x : Nat × Nat)
    (hx : (Blocks.run sys mem (ops ++ [.intoMutPtr i])).w.isLive x) :
    (b.intoMutPtr (Blocks.run sys mem ops).w).1 = b.asPtr ∧ ¬ (x.1 ≤ b.asPtr ∧ b.asPtr < x.1 + x.2) := by
  refine ⟨rfl, ?_⟩
  obtain ⟨a, ha, rfl⟩ := (Blocks.live_iff _ x).1 hx
  rw [Blocks.run_snoc] at ha
  simp only [Blocks.step, hi] at ha
  have h1 := (Blocks.run_owns ops h).others hi a ha
  obtain ⟨k, hk⟩ := ((Blocks.run_owns ops h).1 b (List.mem_of_getElem? hi)).1
  have h2 : 0 < b.size := hk ▸ Nat.pos_of_ne_zero (by simp)
  unfold DisjointRange at h1
  unfold Block.region Block.asPtr
  simp only
  omega

/-- **C76** After any program: take the pointer out of any owned block with `into_mut_ptr`, rebuild the block with
`from_raw_parts` from that pointer and the block's size, and let it go out of scope: the block is returned to the system
more often than it was obtained. -/
theorem c76_double_free (sys : Sys) (mem : Mem) (ops : List BlockOp) (h : AllocatorOK sys mem ops) (i : Nat) (b : Block)
    (hi : (Blocks.run sys mem ops).owned[i]? = some b) :
    let p := (b.intoMutPtr (Blocks.run sys mem ops).w).1
    let w := (b.intoMutPtr (Blocks.run sys mem ops).w).2
    let w' := (Block.fromRawParts p b.sizeOf).drop w
    w'.obtained.count (p, b.sizeOf) < w'.freed.count (p, b.sizeOf) := by
  have h1 := (Blocks.run_owned (sys := sys) (mem := mem) ops).count_eq (b.ptr, b.size)
  have h2 := ((perm_eraseIdx hi).map Block.region).count_eq (b.ptr, b.size)
  have h3 : (List.map Block.region ((Blocks.run sys mem ops).owned.eraseIdx i)).count (b.ptr, b.size) = 0 := by
    rw [List.count_eq_zero]
    intro hm
    obtain ⟨a, ha, he⟩ := List.mem_map.1 hm
    have h4 := (Blocks.run_owns ops h).others hi a ha
    obtain ⟨k, hk⟩ := ((Blocks.run_owns ops h).1 b (List.mem_of_getElem? hi)).1
    have h5 : 0 < b.size := hk ▸ Nat.pos_of_ne_zero (by simp)
    simp only [Block.region, Prod.mk.injEq] at he
    rw [he.1, he.2] at h4
    unfold DisjointRange at h4
    omega
  simp only [List.map_cons, List.count_cons, Block.region, beq_self_eq_true, if_true] at h2
  rw [List.count_append] at h1
  simp only [Block.intoMutPtr, Block.drop, deallocBlock, Block.fromRawParts, Block.sizeOf, List.count_append,
    List.count_cons, List.count_nil, beq_self_eq_true, if_true]
  omega

end

/-! ## The hypotheses are met -/

/-- A system allocator that hands out blocks of 4096 bytes and, from the third call on, the same one again and again. -/
def reusingSys : Sys where
  alloc i s a := if s = 4096 ∧ a = 4096 then some ((min i 2 + 1) * 4096) else none
  metaAddr _ := 0

theorem append_snoc_cases {α : Type} {l before after : List α} {a x : α} (h : l ++ [a] = before ++ x :: after) :
    (before = l ∧ x = a) ∨ ∃ after', l = before ++ x :: after' := by
  rcases List.eq_nil_or_concat after with rfl | ⟨r, y, rfl⟩
  · left
    have := List.append_inj' h rfl
    exact ⟨this.1.symm, by simpa using this.2.symm⟩
  · right
    refine ⟨r, ?_⟩
    have : l ++ [a] = (before ++ x :: r) ++ [y] := by rw [h]; simp
    exact (List.append_inj' this rfl).1

theorem AllocatorOK.nil (sys : Sys) (mem : Mem) : AllocatorOK sys mem [] := by
  intro before size after h
  simp at h

theorem AllocatorOK.new {sys : Sys} {mem : Mem} {l : List BlockOp} (h : AllocatorOK sys mem l) (size : Nat)
    (hq : ∀ q, sys.alloc (Blocks.run sys mem l).w.calls size size = some q →
      0 < q ∧ size ∣ q ∧ ∀ b ∈ (Blocks.run sys mem l).owned, DisjointRange q size b.ptr b.size) :
    AllocatorOK sys mem (l ++ [.new size]) := by
  intro before size' after he q hq'
  rcases append_snoc_cases he with ⟨rfl, hs⟩ | ⟨after', he⟩
  · cases hs
    obtain ⟨h1, h2, h3⟩ := hq q hq'
    refine ⟨h1, h2, fun x hx => ?_⟩
    obtain ⟨b, hb, rfl⟩ := (Blocks.live_iff _ x).1 hx
    exact h3 b hb
  · exact h before size' after' he q hq'

theorem AllocatorOK.other {sys : Sys} {mem : Mem} {l : List BlockOp} (h : AllocatorOK sys mem l) (op : BlockOp)
    (hop : ∀ size, op ≠ .new size) : AllocatorOK sys mem (l ++ [op]) := by
  intro before size' after he q hq'
  rcases append_snoc_cases he with ⟨_, hs⟩ | ⟨after', he⟩
  · exact absurd hs.symm (hop size')
  · exact h before size' after' he q hq'

/-- C20, C75, C76: three blocks, the third of which is given up with `into_mut_ptr`; its memory is then reused. -/
example : let ops := [BlockOp.new 4096, .new 4096, .new 999, .new 4096, .intoMutPtr 2, .new 4096]
    AllocatorOK reusingSys (fun _ => 0) ops ∧
    (Blocks.run reusingSys (fun _ => 0) ops).owned = [⟨4096, 4096⟩, ⟨8192, 4096⟩, ⟨12288, 4096⟩] ∧
    (Blocks.run reusingSys (fun _ => 0) ops).w.freed = [(12288, 4096)] ∧
    (Blocks.run reusingSys (fun _ => 0) ops).w.obtained = [(4096, 4096), (8192, 4096), (12288, 4096), (12288, 4096)] := by
  refine ⟨?_, by decide, by decide, by decide⟩
  have key : ∀ (l : List BlockOp) (size : Nat) (c : Nat) (o : List Block), (Blocks.run reusingSys (fun _ => 0) l).w.calls = c →
      (Blocks.run reusingSys (fun _ => 0) l).owned = o → AllocatorOK reusingSys (fun _ => 0) l →
      (∀ b ∈ o, DisjointRange ((min c 2 + 1) * 4096) 4096 b.ptr b.size) → AllocatorOK reusingSys (fun _ => 0) (l ++ [.new size]) := by
    intro l size c o hc ho h hd
    refine h.new size fun q hq => ?_
    rw [hc] at hq
    unfold reusingSys at hq
    simp only at hq
    split at hq
    · next hs =>
      cases hq
      rw [ho, hs.1]
      exact ⟨by omega, Nat.dvd_mul_left _ _, hd⟩
    · cases hq
  have h1 := key [] 4096 0 [] rfl rfl (AllocatorOK.nil _ _) (by simp)
  have h2 := key _ 4096 1 [⟨4096, 4096⟩] (by decide) (by decide) h1 (by simp [DisjointRange])
  have h3 := key _ 999 2 [⟨4096, 4096⟩, ⟨8192, 4096⟩] (by decide) (by decide) h2 (by simp [DisjointRange])
  have h4 := key _ 4096 2 [⟨4096, 4096⟩, ⟨8192, 4096⟩] (by decide) (by decide) h3 (by simp [DisjointRange])
  have h5 := h4.other (.intoMutPtr 2) (by intro s h; cases h)
  exact key _ 4096 3 [⟨4096, 4096⟩, ⟨8192, 4096⟩] (by decide) (by decide) h5 (by simp [DisjointRange])

end Verif.Immix
