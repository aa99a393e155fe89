import Verif.Immix.Scan
import Verif.Props.Heap
import Verif.Props.Hole

/-!
# C115: the line marks that allocation looks at

The log of `allocSeqL`, `innerAllocL` and `findNextAvailableHoleL` lists the lines whose mark is read, in order.
-/

namespace Verif.Immix

open Verif Verif.Immix.Spec

/-- **C115** The functions with the log are the functions of the model: same answers, same block, same panics. -/
theorem c115_same (p : Profile) (b : BumpBlock) (sizes : List Nat) :
    (allocSeqL p b sizes = .panic ∧ allocSeq p b sizes = .panic) ∨
    ∃ x l, allocSeqL p b sizes = .ret (x, l) ∧ allocSeq p b sizes = .ret x := by
  induction sizes generalizing b with
  | nil => exact .inr ⟨_, _, rfl, rfl⟩
  | cons n ns ih =>
    rcases innerAllocL_eq p b n with ⟨h1, h2⟩ | ⟨⟨r, b'⟩, l, h1, h2⟩
    · exact .inl ⟨by simp only [allocSeqL, h1]; rfl, by simp only [allocSeq, h2]; rfl⟩
    · rcases ih b' with ⟨k1, k2⟩ | ⟨⟨rs, b''⟩, l', k1, k2⟩
      · exact .inl ⟨by simp only [allocSeqL, h1, Rust.bind_ret, k1]; rfl, by simp only [allocSeq, h2, Rust.bind_ret, k2]; rfl⟩
      · exact .inr ⟨_, _, by simp only [allocSeqL, h1, Rust.bind_ret, k1]; rfl, by simp only [allocSeq, h2, Rust.bind_ret, k2]⟩

/-- **C115** One search for a hole, from any place of a block, reads the marks from there on in order, each once: up to the marked line that
ends the hole if there is one, and all of them otherwise. -/
theorem c115_search (m : BlockMeta) (at_ : Nat) (h : at_ ≤ 32768) :
    ∃ r l, m.findNextAvailableHoleL at_ = .ret (r, l) ∧ m.findNextAvailableHole at_ = .ret r ∧
      (r = none → l = List.range' (at_ / 128) (256 - at_ / 128)) ∧
      ∀ c k, r = some (c, k) → ∃ e, k = e * 128 ∧ l = List.range' (at_ / 128) (min (e + 1) 256 - at_ / 128) := by
  obtain ⟨r, l, h1, h2, hR, h3⟩ := findNextAvailableHoleL_spec m at_ h
  refine ⟨r, l, h1, h2, fun hr => by subst hr; exact h3, fun c k hr => ?_⟩
  subst hr
  obtain ⟨a, e, -, e2, -⟩ := hR
  rw [LINE_SIZE_eq] at e2
  subst e2
  refine ⟨e, rfl, ?_⟩
  rw [h3]
  simp only [Nat.mul_div_cancel _ (by decide : 0 < 128)]

/-- **C115** A request that fits into the current hole reads no mark at all. -/
theorem c115_fits (p : Profile) (b : BumpBlock) (n k : Nat) (hb : HoleOK b) (hk : b.currentHoleSize p = .ret k) (hn : n ≤ k) :
    ∃ x, b.innerAllocL p n = .ret (x, []) := by
  have hle := hb.le
  have hlim := hb.lim
  unfold BumpBlock.currentHoleSize at hk
  rw [if_pos hle] at hk
  cases hk
  obtain ⟨r, b', l, h1, -, h2, -⟩ := innerAllocL_bound p b n hb (by omega)
  exact ⟨(r, b'), by rw [h1, h2 hn]⟩

theorem allocSeqL_bound (p : Profile) (sizes : List Nat) (b : BumpBlock) (hb : HoleOK b) (hs : ∀ n ∈ sizes, n < 2 ^ 63) :
    ∃ rs b' l, allocSeqL p b sizes = .ret ((rs, b'), l) ∧ 3 * l.length + stillLooks b' ≤ stillLooks b + 768 * rs.count none ∧
      ∀ j, l.count j + stillSeen b' j ≤ stillSeen b j + rs.count none := by
  induction sizes generalizing b with
  | nil => exact ⟨[], b, [], rfl, by simp, by simp⟩
  | cons n ns ih =>
    obtain ⟨r, b1, l, h1, h2, -, h3, h4⟩ := innerAllocL_bound p b n hb (hs n (by simp))
    obtain ⟨rs, b2, l', k1, k2, k3⟩ := ih b1 h2 (fun m hm => hs m (by simp [hm]))
    have hc : (r :: rs).count none = rs.count none + (if r = none then 1 else 0) := by
      rw [List.count_cons]
      cases r <;> simp
    refine ⟨r :: rs, b2, l ++ l', by simp only [allocSeqL, h1, Rust.bind_ret, k1], ?_, fun j => ?_⟩
    · rw [List.length_append, hc]; omega
    · have := h4 j
      have := k3 j
      rw [List.count_append, hc]; omega

/-- **C115** Any sequence of requests to a block, recycled or not and marked in any way: all of them together read at most 341 marks, and each
mark at most twice, if none is refused; each refused request adds at most one look at each mark. -/
theorem c115_total (p : Profile) (b : BumpBlock) (sizes : List Nat) (hb : HoleOK b) (hs : ∀ n ∈ sizes, n < 2 ^ 63) :
    ∃ rs b' l, allocSeqL p b sizes = .ret ((rs, b'), l) ∧ l.length ≤ 341 + 256 * rs.count none ∧
      ∀ j, l.count j ≤ 2 + rs.count none := by
  obtain ⟨rs, b', l, h1, h2, h3⟩ := allocSeqL_bound p sizes b hb hs
  refine ⟨rs, b', l, h1, ?_, fun j => ?_⟩
  · have hb' : stillLooks b ≤ 1023 := by
      unfold stillLooks
      split
      · omega
      · split <;> omega
    omega
  · have := h3 j
    have : stillSeen b j ≤ 2 := by
      unfold stillSeen
      repeat' split
      all_goals omega
    omega

/-- **C115** The heap never looks at a line mark: no request to any of its blocks, after any history of calls, reads one, and no request to a
new block either. -/
theorem c115_heap {sys : Sys} {H : HeaderType} {mem : Mem} {ops : List Op} {m : Machine} (p : Profile) (hS : SysOK sys) (hH : H.size < 2 ^ 63) (h : Reaches p sys H mem ops m) :
    (∀ b ∈ m.bl.all, ∀ n, n < 2 ^ 63 → ∃ x, b.innerAllocL p n = .ret (x, [])) ∧
    ∀ w b w', BumpBlock.new sys w = (.ok b, w') → ∀ n, n < 2 ^ 63 → ∃ x, b.innerAllocL p n = .ret (x, []) := by
  have key : ∀ b : BumpBlock, b.cursor ≤ 32768 → b.limit = 32768 → ∀ n, n < 2 ^ 63 → ∃ x, b.innerAllocL p n = .ret (x, []) := by
    intro b h1 h2 n hn
    rw [BumpBlock.innerAllocL.eq_def, usizeAdd_small _ _ _ (by omega)]
    simp only [BLOCK_SIZE_eq, h2, Nat.lt_irrefl, if_false]
    split
    · exact ⟨_, rfl⟩
    · exact ⟨_, rfl⟩
  constructor
  · intro b hb
    have := (h.inv hS hH).blocks.ok b hb
    exact key b this.cur_le this.limit
  · intro w b w' hb
    obtain ⟨h1, h2, h3, h4⟩ := c17_new_block hb
    have := h1.le
    exact key b (by omega) (by omega)

/-! ## The bounds are attained -/

/-- A recycled block in which line 0 is free and then every third line is marked. -/
def everyThird : BumpBlock where
  cursor := 0
  limit := 0
  block := { ptr := 32768, size := 32768 }
  info := { lineMark := Vector.ofFn (fun i => decide (i.val % 3 = 1)), blockMark := false }
  metaPtr := 0

/-- 86 requests of one line each are answered, and 341 marks are read. -/
example : HoleOK everyThird ∧ (match allocSeqL .dev everyThird (List.replicate 86 128) with
    | .ret ((rs, _), l) => rs.all (·.isSome) && l.length == 341 && l.count 4 == 2
    | .panic => false) = true := ⟨⟨Nat.le_refl _, by decide⟩, by decide +kernel⟩

/-- In a block in which all lines are marked each request reads all marks, and is refused. -/
example : (match allocSeqL .dev { everyThird with info := { lineMark := Vector.ofFn (fun _ => true), blockMark := false } } [8, 8] with
    | .ret ((rs, _), l) => rs == [none, none] && l == List.range 256 ++ List.range 256
    | .panic => false) = true := by decide +kernel

end Verif.Immix
