import Verif.Immix.Lemmas

/-!
# The heap invariant and its preservation
-/

namespace Verif.Immix

open Verif Verif.Immix.Spec

/-- Shape of a block that the heap allocates into (never recycled: `limit` is the block size). -/
structure BlockOK (b : BumpBlock) : Prop where
  cur_ge : 16 ≤ b.cursor
  cur_le : b.cursor ≤ 32768
  cur_al : b.cursor % 8 = 0
  limit : b.limit = 32768
  size : b.block.size = 32768
  aligned : 32768 ∣ b.block.ptr

theorem usizeAdd_small (p : Profile) (a b : Nat) (h : a + b < 2 ^ 64) : usizeAdd p a b = .ret (a + b) := by
  unfold usizeAdd; rw [if_pos h]

theorem innerAlloc_std (p : Profile) (b : BumpBlock) (n : Nat) (hl : b.limit = 32768) (hc : b.cursor ≤ 32768)
    (hn : n ≤ 32768) :
    b.innerAlloc p n = .ret (if b.cursor + n ≤ 32768 then (some (b.block.ptr + b.cursor), { b with cursor := b.cursor + n })
      else (none, b)) := by
  rw [BumpBlock.innerAlloc.eq_def, usizeAdd_small _ _ _ (by omega)]
  simp only [hl, BLOCK_SIZE_eq, Nat.lt_irrefl, if_false]
  by_cases h : b.cursor + n ≤ 32768
  · rw [if_neg (by omega), if_pos h]
  · rw [if_pos (by omega), if_neg h]

theorem blockNew_eq (sys : Sys) (w : World) : BumpBlock.new sys w =
    match sys.alloc w.calls 32768 32768 with
    | none => (.error .oom, { w with calls := w.calls + 1 })
    | some q =>
      (.ok { cursor := 16, limit := 32768, block := { ptr := q, size := 32768 }, info := BlockMeta.new,
             metaPtr := sys.metaAddr (w.calls + 1) },
       { w with calls := w.calls + 1, obtained := w.obtained ++ [(q, 32768)],
                mem := writeBytes w.mem q (leBytes 8 (sys.metaAddr (w.calls + 1))),
                boxed := w.boxed ++ [sys.metaAddr (w.calls + 1)],
                allocs := w.allocs ++ [(q, { size := 32768, align := 32768 })] }) := by
  have hp : isPowerOfTwo 32768 = true := by decide
  unfold BumpBlock.new Block.new allocBlock
  rw [BLOCK_SIZE_eq, FIRST_OBJECT_OFFSET_eq, WORD_eq, hp]
  simp only [if_true]
  cases h : sys.alloc w.calls 32768 32768 with
  | none => rfl
  | some q => simp [BumpBlock.write]

/-- How `find_space` obtains `size` bytes at `space`: from a block the heap already has, or from a new one. -/
inductive Grant (sys : Sys) (bl : BlockList) (w : World) (size space : Nat) (bl' : BlockList) (w' : World) : Prop
  | reuse (b : BumpBlock) (others : List BumpBlock) (h1 : bl.all.Perm (b :: others))
      (h2 : bl'.all.Perm ({ b with cursor := b.cursor + size } :: others)) (hfit : b.cursor + size ≤ 32768)
      (hs : space = b.block.ptr + b.cursor) (hw : w' = w)
  | fresh (f : BumpBlock) (hnew : BumpBlock.new sys w = (.ok f, w')) (hcur : f.cursor = 16)
      (h2 : bl'.all.Perm ({ f with cursor := 16 + size } :: bl.all)) (hs : space = f.block.ptr + 16)

theorem overflowAlloc_spec (p : Profile) (sys : Sys) (bl : BlockList) (w : World) (size : Nat)
    (hb : ∀ b ∈ bl.all, BlockOK b) (hn : size ≤ 32752) :
    (∃ space bl' w', bl.overflowAlloc p sys w size = .ret (.ok space, bl', w') ∧ Grant sys bl w size space bl' w' ∧
        bl'.head = bl.head ∧ ∃ ov, bl'.overflow = some ov ∧ ov.block.ptr + 16 ≤ space ∧ space + size = ov.block.ptr + ov.cursor ∧ ov.cursor ≤ 32768) ∨
    (bl.overflowAlloc p sys w size = .ret (.error .oom, bl, { w with calls := w.calls + 1 }) ∧
      sys.alloc w.calls 32768 32768 = none) := by
  unfold BlockList.overflowAlloc
  rw [BLOCK_CAPACITY_eq]
  simp only [hn, not_true_eq_false, if_false]
  cases ho : bl.overflow with
  | some ov =>
    have hov : BlockOK ov := hb ov (by simp [BlockList.all, ho])
    simp only [innerAlloc_std p ov size hov.limit hov.cur_le (by omega), Rust.bind_ret]
    by_cases hfit : ov.cursor + size ≤ 32768
    · left
      simp only [hfit, if_true]
      refine ⟨_, _, _, rfl, ?_, rfl, _, rfl, by first | (have := hov.cur_ge; simp only []; omega) | (simp only []; omega), by simp only []; omega, by simp only []; omega⟩
      refine Grant.reuse ov (bl.head.toList ++ bl.rest) ?_ ?_ hfit rfl rfl
      · simp only [BlockList.all, ho, Option.toList]
        simp
      · simp only [BlockList.all, Option.toList]
        simp
    · simp only [hfit, if_false]
      rw [blockNew_eq]
      cases hq : sys.alloc w.calls 32768 32768 with
      | none => right; simp [← ho]
      | some q =>
        left
        simp only []
        rw [innerAlloc_std _ _ _ rfl (by simp) (by omega)]
        have h16 : 16 + size ≤ 32768 := by omega
        simp only [h16, if_true, Rust.bind_ret, Rust.unwrap_some]
        refine ⟨_, _, _, rfl, ?_, rfl, _, rfl, by first | (have := hov.cur_ge; simp only []; omega) | (simp only []; omega), by simp only []; omega, by simp only []; omega⟩
        refine Grant.fresh _ (by rw [blockNew_eq, hq]) rfl ?_ rfl
        simp only [BlockList.all, ho, Option.toList, ← List.append_assoc]
        have : ∀ x : BumpBlock, (bl.head.toList ++ [x] ++ bl.rest ++ [ov]).Perm
            (x :: (bl.head.toList ++ [ov] ++ bl.rest)) := by
          intro x
          refine List.Perm.trans ?_ (List.perm_append_comm (l₁ := bl.head.toList ++ [ov] ++ bl.rest) (l₂ := [_]))
          simp only [List.append_assoc]
          refine List.Perm.append_left _ ?_
          simp only [← List.append_assoc]
          refine List.Perm.trans (List.perm_append_comm) ?_
          simp only [List.append_assoc]
          refine List.Perm.append_left _ ?_
          exact List.perm_append_comm
        exact this _
  | none =>
    rw [blockNew_eq]
    cases hq : sys.alloc w.calls 32768 32768 with
    | none => right; simp
    | some q =>
      left
      simp only []
      rw [innerAlloc_std _ _ _ rfl (by simp) (by omega)]
      have h16 : 16 + size ≤ 32768 := by omega
      simp only [h16, if_true, Rust.bind_ret, Rust.unwrap_some]
      refine ⟨_, _, _, rfl, ?_, rfl, _, rfl, by first | (have := hov.cur_ge; simp only []; omega) | (simp only []; omega), by simp only []; omega, by simp only []; omega⟩
      refine Grant.fresh _ (by rw [blockNew_eq, hq]) rfl ?_ rfl
      simp only [BlockList.all, ho, Option.toList, List.append_nil]
      simp

/-- What may happen to the block small objects are allocated into. -/
inductive HeadRule (size space : Nat) (bl bl' : BlockList) : Prop
  | same (b ov : BumpBlock) (h1 : bl.head = some b) (h : bl'.head = bl.head) (hs : 32768 < b.cursor + size) (ho : bl'.overflow = some ov)
      (h2 : ov.block.ptr + 16 ≤ space) (h3 : space + size = ov.block.ptr + ov.cursor) (h4 : ov.cursor ≤ 32768)
  | bumped (b : BumpBlock) (h1 : bl.head = some b) (h2 : bl'.head = some { b with cursor := b.cursor + size })
      (hfit : b.cursor + size ≤ 32768)
  | first (f : BumpBlock) (h1 : bl.head = none) (h2 : bl'.head = some f)
  | retired (b f : BumpBlock) (h1 : bl.head = some b) (h2 : bl'.head = some f) (hs : size ≤ 128)
      (hfull : 32768 < b.cursor + size) (hr : bl'.rest = bl.rest ++ [b])

theorem findSpace_spec (p : Profile) (sys : Sys) (bl : BlockList) (w : World) (size : Nat) (cls : SizeClass)
    (hb : ∀ b ∈ bl.all, BlockOK b) (hn : size ≤ 32752) (hc : cls = .small ∧ size ≤ 128 ∨ cls = .medium) :
    (∃ space bl' w', findSpace p sys bl w size cls = .ret (.ok space, bl', w') ∧ Grant sys bl w size space bl' w' ∧
        HeadRule size space bl bl') ∨
    (findSpace p sys bl w size cls = .ret (.error .oom, bl, { w with calls := w.calls + 1 }) ∧
      sys.alloc w.calls 32768 32768 = none) := by
  unfold findSpace
  have hlg : cls ≠ .large := by rcases hc with ⟨h, _⟩ | h <;> simp [h]
  rw [if_neg hlg]
  cases hh : bl.head with
  | some head =>
    have hok : BlockOK head := hb head (by simp [BlockList.all, hh])
    -- the `useOverflow` decision
    have hdec : usesOverflow p head size cls = Rust.ret (decide (cls = .medium ∧ 32768 < head.cursor + size)) := by
      have hcl := hok.cur_le
      unfold usesOverflow BumpBlock.currentHoleSize
      by_cases hm : cls = .medium
      · have : (size > 32768 - head.cursor) ↔ 32768 < head.cursor + size := by omega
        rw [if_pos hm, hok.limit, if_pos hcl]
        simp only [Rust.bind_ret, hm, true_and, this]
      · simp [hm]
    simp only []
    rw [hdec, Rust.bind_ret]
    by_cases hov : cls = .medium ∧ 32768 < head.cursor + size
    · simp only [hov, and_self, decide_true, if_true]
      rcases overflowAlloc_spec p sys bl w size hb hn with ⟨s, bl', w', h1, h2, h3, ov, h4, h5, h6, h7⟩ | h
      · left; exact ⟨s, bl', w', h1, h2, .same head ov hh h3 hov.2 h4 h5 h6 h7⟩
      · right; exact h
    · rw [decide_eq_false hov]
      simp only [Bool.false_eq_true, if_false]
      simp only [innerAlloc_std p head size hok.limit hok.cur_le (by omega), Rust.bind_ret]
      by_cases hfit : head.cursor + size ≤ 32768
      · left
        simp only [hfit, if_true]
        refine ⟨_, _, _, rfl, ?_, .bumped head hh rfl hfit⟩
        refine Grant.reuse head (bl.overflow.toList ++ bl.rest) ?_ ?_ hfit rfl rfl
        · simp [BlockList.all, hh]
        · simp [BlockList.all]
      · simp only [hfit, if_false]
        rw [blockNew_eq]
        cases hq : sys.alloc w.calls 32768 32768 with
        | none => right; simp [← hh]
        | some q =>
          left
          simp only []
          rw [innerAlloc_std _ _ _ rfl (by simp) (by omega)]
          have h16 : 16 + size ≤ 32768 := by omega
          simp only [h16, if_true, Rust.bind_ret, Rust.unwrap_some]
          have hsm : size ≤ 128 := by
            rcases hc with ⟨_, h⟩ | h
            · exact h
            · exact absurd ⟨h, by omega⟩ hov
          refine ⟨_, _, _, rfl, ?_, .retired head _ hh rfl hsm (by omega) rfl⟩
          refine Grant.fresh _ (by rw [blockNew_eq, hq]) rfl ?_ rfl
          simp only [BlockList.all, hh, Option.toList]
          simp only [List.cons_append, List.nil_append]
          refine List.Perm.cons _ ?_
          rw [← List.append_assoc]
          exact (List.perm_append_comm (l₁ := bl.overflow.toList ++ bl.rest) (l₂ := [head]))
  | none =>
    simp only []
    rw [blockNew_eq]
    cases hq : sys.alloc w.calls 32768 32768 with
    | none => right; simp
    | some q =>
      left
      simp only []
      rw [innerAlloc_std _ _ _ rfl (by simp) (by omega)]
      have h16 : 16 + size ≤ 32768 := by omega
      simp only [h16, if_true, Rust.bind_ret, Rust.unwrap_some]
      refine ⟨_, _, _, rfl, ?_, .first _ hh rfl⟩
      refine Grant.fresh _ (by rw [blockNew_eq, hq]) rfl ?_ rfl
      simp [BlockList.all, hh]

end Verif.Immix
