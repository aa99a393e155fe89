import Verif.Immix.HoleLemmas
import Verif.Immix.HeapLemmas

/-!
# Properties of line marks, holes and recycled blocks (C13-C17, C22)
-/

namespace Verif.Immix

open Verif Verif.Immix.Spec

/-- **C13/C14** The exact result of `find_next_available_hole(p)`: it panics if `p` is more than a line past the block;
otherwise it returns the byte bounds of the first hole at or after the line of `p`, and `None` exactly if no usable line
is left. -/
theorem c14_first_hole (m : BlockMeta) (at_ : Nat) :
    (256 < at_ / 128 → m.findNextAvailableHole at_ = .panic) ∧
    (at_ / 128 ≤ 256 → (∃ j, Usable m (at_ / 128) j) →
      ∃ a b, FirstHole m (at_ / 128) a b ∧ m.findNextAvailableHole at_ = .ret (some (a * 128, b * 128))) ∧
    (at_ / 128 ≤ 256 → (¬ ∃ j, Usable m (at_ / 128) j) → m.findNextAvailableHole at_ = .ret none) := by
  refine ⟨?_, ?_, ?_⟩
  · intro h
    unfold BlockMeta.findNextAvailableHole
    simp only [LINE_SIZE_eq, LINE_COUNT_eq]
    rw [if_pos (by omega)]
  · rintro h ⟨j, hj⟩
    obtain ⟨r, hr, hR⟩ := findNextAvailableHole_spec m at_ h
    cases r with
    | none => exact absurd hj (hR j)
    | some cl =>
      obtain ⟨a, b, e1, e2, hF⟩ := hR
      refine ⟨a, b, hF, ?_⟩
      rw [hr]
      rw [LINE_SIZE_eq] at e1 e2
      rw [← e1, ← e2]
  · rintro h hn
    obtain ⟨r, hr, hR⟩ := findNextAvailableHole_spec m at_ h
    cases r with
    | none => exact hr
    | some cl =>
      obtain ⟨a, b, e1, e2, hF⟩ := hR
      exact absurd ⟨a, hF.usable⟩ hn

/-- **C13** A hole that is found: bounds are line boundaries inside the block, not before the line of `p`, no byte of
it lies in a marked line, and the line before it is free too unless the hole starts the block. -/
theorem c13_hole_is_free (m : BlockMeta) (at_ c l : Nat) (h : m.findNextAvailableHole at_ = .ret (some (c, l))) :
    c < l ∧ l ≤ 32768 ∧ 128 ∣ c ∧ 128 ∣ l ∧ at_ / 128 * 128 ≤ c ∧
    (∀ x, c ≤ x → x < l → ¬ LineMarked m (x / 128)) ∧
    (c = 0 ∨ (at_ / 128 * 128 ≤ c - 128 ∧ 128 ≤ c ∧ ¬ LineMarked m (c / 128 - 1))) := by
  by_cases hp : at_ / 128 ≤ 256
  · obtain ⟨r, hr, hR⟩ := findNextAvailableHole_spec m at_ hp
    rw [hr] at h
    simp only [Rust.ret.injEq] at h
    subst h
    obtain ⟨a, b, e1, e2, hF⟩ := hR
    rw [LINE_SIZE_eq] at e1 e2
    subst e1 e2
    have hb : b ≤ 256 := by
      have := (hF.free (b - 1) (by have := hF.nonempty; omega) (by have := hF.nonempty; omega)).1
      have := hF.nonempty
      omega
    have hne := hF.nonempty
    have hu := hF.usable.1
    refine ⟨by omega, by omega, ⟨a, Nat.mul_comm _ _⟩, ⟨b, Nat.mul_comm _ _⟩, by omega, ?_, ?_⟩
    · intro x h1 h2
      exact (hF.free (x / 128) (by omega) (by omega)).2
    · rcases hF.usable.2.2 with h0 | ⟨h1, h2⟩
      · left; omega
      · right
        refine ⟨by omega, by omega, ?_⟩
        have : a * 128 / 128 = a := by omega
        rw [this]; exact h2.2
  · unfold BlockMeta.findNextAvailableHole at h
    simp only [LINE_SIZE_eq, LINE_COUNT_eq] at h
    rw [if_pos (by omega)] at h
    cases h

/-- All bytes of `[c, l)` lie in free lines after free lines. -/
def FreeBytes (m : BlockMeta) (c l : Nat) : Prop :=
  ∀ x, c ≤ x → x < l → LineFree m (x / 128) ∧ (x / 128 = 0 ∨ LineFree m (x / 128 - 1))

theorem recycled_holeOK {b : BumpBlock} (h : Recycled b) : HoleOK b :=
  ⟨by rw [h.limit]; exact Nat.le_refl _, by rw [h.limit]; exact h.inBlock⟩

/-- Lines usable for the search after a hole are the lines usable before, minus the hole. -/
theorem usable_next {m : BlockMeta} {s a b : Nat} (hF : FirstHole m s a b) (j : Nat) :
    Usable m b j ↔ Usable m s j ∧ b ≤ j := by
  have hs := hF.usable.1
  have hne := hF.nonempty
  constructor
  · rintro ⟨h1, h2, h3⟩
    exact ⟨⟨by omega, h2, h3.imp id (fun h => ⟨by omega, h.2⟩)⟩, h1⟩
  · rintro ⟨⟨h1, h2, h3⟩, h4⟩
    refine ⟨h4, h2, ?_⟩
    rcases h3 with h3 | ⟨h3, h5⟩
    · omega
    · right
      refine ⟨?_, h5⟩
      by_cases e : j = b
      · subst e
        rcases hF.maximal with hm | hm
        · have := h2.1; omega
        · exact absurd hm h2.2
      · omega

/-- Complete description of one `inner_alloc`. -/
theorem innerAlloc_spec (p : Profile) (b : BumpBlock) (n : Nat) (hb : HoleOK b) (hn : n < 2 ^ 63) :
    ∃ r b', b.innerAlloc p n = .ret (r, b') ∧ HoleOK b' ∧ b'.block = b.block ∧ b'.info = b.info ∧
      (b'.limit < 128 → b'.limit = b.limit ∧ (r = none → b'.cursor = b.cursor)) ∧
      (b.limit < 128 ∨ b.cursor ≤ b'.cursor) ∧
      (FreeBytes b.info b.cursor b.limit → FreeBytes b.info b'.cursor b'.limit) ∧
      (match r with
       | some a => ∃ off, a = b.block.ptr + off ∧ b'.cursor = off + n ∧
          ((off = b.cursor ∧ b'.limit = b.limit ∧ b.cursor + n ≤ b.limit) ∨
           (b.limit / 128 * 128 ≤ off ∧ b.limit < b.cursor + n ∧ RoomFor b.info (b.limit / 128) n ∧
            (b.limit < 128 ∨ b.limit ≤ off) ∧ 128 ≤ b'.limit)) ∧
          (FreeBytes b.info b.cursor b.limit → FreeBytes b.info off (off + n))
       | none => b.limit < b.cursor + n ∧ ¬ RoomFor b.info (b.limit / 128) n) := by
  induction hk : 32768 - b.limit using Nat.strongRecOn generalizing b with
  | ind k ih =>
    have hle := hb.le
    have hlim := hb.lim
    rw [BumpBlock.innerAlloc.eq_def, usizeAdd_small _ _ _ (by omega)]
    simp only [BLOCK_SIZE_eq]
    by_cases hfit : b.cursor + n > b.limit
    · rw [if_pos hfit]
      by_cases hlt : b.limit < 32768
      · rw [if_pos hlt]
        obtain ⟨r, hr, hR⟩ := findNextAvailableHole_spec b.info b.limit (by omega)
        cases r with
        | none =>
          split
          · rename_i h; rw [hr] at h; cases h
          · refine ⟨none, b, rfl, hb, rfl, rfl, fun _ => ⟨rfl, fun _ => rfl⟩, Or.inr (Nat.le_refl _), id, by omega, ?_⟩
            rintro ⟨a, c, h1, h2, h3, h4⟩
            exact hR a (h3 a (Nat.le_refl _) h1)
          · rename_i hole h; rw [hr] at h; simp at h
        | some cl =>
          obtain ⟨c, l⟩ := cl
          obtain ⟨a, e, e1, e2, hF⟩ := hR
          rw [LINE_SIZE_eq] at e1 e2
          have hne := hF.nonempty
          have hsa := hF.usable.1
          have he : e ≤ 256 := by
            have := (hF.free (e - 1) (by omega) (by omega)).1
            omega
          split
          · rename_i h; rw [hr] at h; cases h
          · rename_i h; rw [hr] at h; cases h
          · rename_i hole h
            rw [hr] at h
            simp only [Rust.ret.injEq, Option.some.injEq] at h
            subst h
            simp only []
            have husable : ∀ j, a ≤ j → j < e → Usable b.info (b.limit / 128) j := by
              intro j h1 h2
              refine ⟨by omega, hF.free j h1 h2, ?_⟩
              by_cases hj : j = a
              · subst hj; exact hF.usable.2.2
              · right
                exact ⟨by omega, hF.free (j - 1) (by omega) (by omega)⟩
            have hok' : HoleOK { b with cursor := c, limit := l } := ⟨by simp only []; omega, by simp only []; omega⟩
            have hfree' : FreeBytes b.info c l := by
              intro x h1 h2
              have hx := husable (x / 128) (by omega) (by omega)
              exact ⟨hx.2.1, hx.2.2.imp id (fun h => h.2)⟩
            have hoff : b.limit < 128 ∨ b.limit ≤ c := by
              rcases hF.usable.2.2 with h | ⟨h, _⟩
              · left; omega
              · right; omega
            obtain ⟨r, b', h1, h2, h3, h4, h5, h6, hfr, h7⟩ := ih (32768 - l) (by omega) { b with cursor := c, limit := l } hok' rfl
            refine ⟨r, b', h1, h2, h3, h4, ?_, ?_, fun _ => hfr hfree', ?_⟩
            · intro hlt'
              have := (h5 hlt').1
              simp only [] at this
              omega
            · simp only [] at h6
              rcases hoff with h | h
              · exact Or.inl h
              · right; omega
            · have hle128 : l / 128 = e := by omega
              simp only [hle128] at h7
              cases r with
              | some ad =>
                simp only [] at h7
                obtain ⟨off, g1, g2, g3, g4⟩ := h7
                refine ⟨off, g1, g2, Or.inr ?_, fun _ => g4 hfree'⟩
                rcases g3 with ⟨g5, g6, g7⟩ | ⟨g5, g6, g7, g8, g9⟩
                · refine ⟨by omega, hfit, ⟨a, e, hne, he, husable, by omega⟩, by omega, by omega⟩
                · refine ⟨by omega, hfit, ?_, by omega, g9⟩
                  obtain ⟨a', e', k1, k2, k3, k4⟩ := g7
                  exact ⟨a', e', k1, k2, fun j hj1 hj2 => ((usable_next hF j).1 (k3 j hj1 hj2)).1, k4⟩
              | none =>
                simp only [] at h7
                refine ⟨hfit, ?_⟩
                rintro ⟨a', e', k1, k2, k3, k4⟩
                have ha' := hF.first a' (k3 a' (Nat.le_refl _) k1)
                by_cases hae : a' < e
                · -- the room is inside the first hole
                  have : e' ≤ e := by
                    refine Nat.le_of_not_lt fun hlt' => ?_
                    have hee := (k3 e (by omega) hlt').2.1
                    rcases hF.maximal with hm | hm
                    · have := hee.1; omega
                    · exact hee.2 hm
                  omega
                · exact h7.2 ⟨a', e', k1, k2, fun j hj1 hj2 => (usable_next hF j).2 ⟨k3 j hj1 hj2, by omega⟩, k4⟩
      · rw [if_neg hlt]
        refine ⟨none, b, rfl, hb, rfl, rfl, fun _ => ⟨rfl, fun _ => rfl⟩, Or.inr (Nat.le_refl _), id, by omega, ?_⟩
        rintro ⟨a, c, h1, h2, h3, h4⟩
        have := (h3 a (Nat.le_refl _) h1).1
        omega
    · rw [if_neg hfit]
      refine ⟨_, _, rfl, ⟨by simp only []; omega, hlim⟩, rfl, rfl, ?_, Or.inr (by simp only []; omega), ?_, b.cursor, rfl,
        rfl, Or.inl ⟨rfl, rfl, by omega⟩, ?_⟩
      · intro _; exact ⟨rfl, fun h => by cases h⟩
      · intro hf x h1 h2; exact hf x (by simp only [] at h1; omega) h2
      · intro hf x h1 h2; exact hf x h1 (by omega)

/-- **C17** `inner_alloc` always returns; it refuses exactly if the request fits neither in the rest of the current hole
nor in any run of usable lines after it; and the block stays in shape (`HoleOK` holds for new blocks and recycled blocks,
`c17_new_block`, so it holds always). -/
theorem c17_refused_iff_full (p : Profile) (b : BumpBlock) (n : Nat) (hb : HoleOK b) (hn : n < 2 ^ 63) :
    ∃ r b', b.innerAlloc p n = .ret (r, b') ∧ HoleOK b' ∧
      (r = none ↔ b.limit < b.cursor + n ∧ ¬ RoomFor b.info (b.limit / 128) n) := by
  obtain ⟨r, b', h1, h2, h3, h4, h5, h6, h7, h8⟩ := innerAlloc_spec p b n hb hn
  refine ⟨r, b', h1, h2, ?_⟩
  cases r with
  | none => exact ⟨fun _ => h8, fun _ => rfl⟩
  | some a =>
    simp only [] at h8
    obtain ⟨off, _, _, h9, _⟩ := h8
    constructor
    · intro h; cases h
    · rintro ⟨k1, k2⟩
      rcases h9 with ⟨_, _, h9⟩ | ⟨_, _, h9, _⟩
      · omega
      · exact absurd h9 k2

/-- **C17** a new block is in shape, empty, and its whole capacity is one hole. -/
theorem c17_new_block {sys : Sys} {w w' : World} {b : BumpBlock} (h : BumpBlock.new sys w = (.ok b, w')) :
    HoleOK b ∧ b.cursor = 16 ∧ b.limit = 32768 ∧ ∀ j, ¬ LineMarked b.info j := by
  rw [blockNew_eq] at h
  cases hq : sys.alloc w.calls 32768 32768 with
  | none => rw [hq] at h; simp at h
  | some q =>
    rw [hq] at h
    simp only [Prod.mk.injEq, Except.ok.injEq] at h
    obtain ⟨rfl, _⟩ := h
    refine ⟨⟨by simp, by simp⟩, rfl, rfl, ?_⟩
    intro j
    simp only [LineMarked, BlockMeta.new]
    by_cases hj : j < LINE_COUNT <;> simp [hj]

/-- **C17** A block that is not recycled serves any sequence of requests first come first served: each request gets the
next bytes as long as the block's 32768 bytes suffice, and is refused exactly if they do not. -/
theorem c17_bump_greedy (p : Profile) (b : BumpBlock) (sizes : List Nat) (hl : b.limit = 32768) (hc : 16 ≤ b.cursor)
    (hc2 : b.cursor ≤ 32768) (hs : ∀ n ∈ sizes, n < 2 ^ 63) :
    ∃ b', allocSeq p b sizes = .ret (greedy (b.block.ptr + 16) 32752 (b.cursor - 16) sizes, b') := by
  induction sizes generalizing b with
  | nil => exact ⟨b, rfl⟩
  | cons n ns ih =>
    have hn := hs n (by simp)
    have hone : b.innerAlloc p n = .ret (if b.cursor + n ≤ 32768 then (some (b.block.ptr + b.cursor), { b with cursor := b.cursor + n })
        else (none, b)) := by
      rw [BumpBlock.innerAlloc.eq_def, usizeAdd_small _ _ _ (by omega)]
      simp only [hl, BLOCK_SIZE_eq, Nat.lt_irrefl, if_false]
      by_cases h : b.cursor + n ≤ 32768
      · rw [if_neg (by omega), if_pos h]
      · rw [if_pos (by omega), if_neg h]
    simp only [allocSeq, hone, Rust.bind_ret, greedy]
    by_cases h : b.cursor + n ≤ 32768
    · obtain ⟨b', hb'⟩ := ih { b with cursor := b.cursor + n } hl (by simp only []; omega) h (fun k hk => hs k (by simp [hk]))
      rw [if_pos h, if_pos (by omega)]
      simp only [hb', Rust.bind_ret]
      refine ⟨b', ?_⟩
      have e1 : b.cursor + n - 16 = b.cursor - 16 + n := by omega
      have e2 : b.block.ptr + 16 + (b.cursor - 16) = b.block.ptr + b.cursor := by omega
      rw [e1, e2]
    · obtain ⟨b', hb'⟩ := ih b hl hc hc2 (fun k hk => hs k (by simp [hk]))
      rw [if_neg h, if_neg (by omega)]
      simp only [hb', Rust.bind_ret]
      exact ⟨b', rfl⟩

/-- State of a recycled block while it serves requests: the regions handed out so far end at or before the cursor. -/
structure SeqInv (b : BumpBlock) (done : List (Nat × Nat)) : Prop where
  ok : HoleOK b
  free : FreeBytes b.info b.cursor b.limit
  early : b.limit < 128 → b.cursor = b.limit ∧ done = []
  before : ∀ r ∈ done, r.1 + r.2 ≤ b.block.ptr + b.cursor

theorem allocSeq_spec (p : Profile) (sizes : List Nat) (b : BumpBlock) (done : List (Nat × Nat)) (h : SeqInv b done)
    (hs : ∀ n ∈ sizes, 1 ≤ n ∧ n < 2 ^ 63) :
    ∃ rs b', allocSeq p b sizes = .ret (rs, b') ∧
      (regions sizes rs).Pairwise (fun r r' => DisjointRange r.1 r.2 r'.1 r'.2) ∧
      (∀ r ∈ regions sizes rs, (∀ d ∈ done, DisjointRange d.1 d.2 r.1 r.2) ∧ 1 ≤ r.2 ∧
        ∃ off, r.1 = b.block.ptr + off ∧ off + r.2 ≤ 32768 ∧ (b.limit < 128 ∨ b.cursor ≤ off) ∧
          FreeBytes b.info off (off + r.2)) := by
  induction sizes generalizing b done with
  | nil => exact ⟨[], b, rfl, by simp [regions], by simp [regions]⟩
  | cons n ns ih =>
    obtain ⟨hn1, hn2⟩ := hs n (by simp)
    obtain ⟨r, b1, h1, h2, h3, h4, h5, h6, h7, h8⟩ := innerAlloc_spec p b n h.ok hn2
    have hns : ∀ k ∈ ns, 1 ≤ k ∧ k < 2 ^ 63 := fun k hk => hs k (by simp [hk])
    cases r with
    | none =>
      have hinv : SeqInv b1 done := by
        refine ⟨h2, by rw [h4]; exact h7 h.free, ?_, ?_⟩
        · intro hl
          obtain ⟨e1, e2⟩ := h5 hl
          have := h.early (by omega)
          exact ⟨by rw [e1, e2 rfl]; exact this.1, this.2⟩
        · intro d hd
          rw [h3]
          rcases h6 with h6 | h6
          · rw [(h.early h6).2] at hd; cases hd
          · have := h.before d hd; omega
      obtain ⟨rs, b2, g1, g2, g3⟩ := ih b1 done hinv hns
      refine ⟨none :: rs, b2, by simp [allocSeq, h1, g1], g2, ?_⟩
      intro r hr
      obtain ⟨k1, k0, off, k2, k3, k4, k5⟩ := g3 r hr
      refine ⟨k1, k0, off, by rw [← h3]; exact k2, k3, ?_, by rw [← h4]; exact k5⟩
      rcases k4 with k4 | k4
      · left; have := (h5 k4).1; omega
      · rcases h6 with h6 | h6
        · exact Or.inl h6
        · right; omega
    | some a =>
      obtain ⟨off, e1, e2, e3, e4⟩ := h8
      have hoff : b.limit < 128 ∨ b.cursor ≤ off := by
        rcases e3 with ⟨k, _⟩ | ⟨_, _, _, k⟩
        · right; omega
        · have := h.ok.le; have := k.1; omega
      have hle := h2.le
      have hlim := h2.lim
      have hdone : ∀ d ∈ done, DisjointRange d.1 d.2 a n := by
        intro d hd
        rcases hoff with k | k
        · rw [(h.early k).2] at hd; cases hd
        · have := h.before d hd
          unfold DisjointRange; omega
      have hinv : SeqInv b1 (done ++ [(a, n)]) := by
        refine ⟨h2, by rw [h4]; exact h7 h.free, ?_, ?_⟩
        · intro hl
          exfalso
          have := (h5 hl).1
          have := (h.early (by omega)).1
          rcases e3 with ⟨_, _, k⟩ | ⟨_, _, _, _, k⟩ <;> omega
        · intro d hd
          rw [h3]
          rcases List.mem_append.1 hd with hd | hd
          · rcases hoff with k | k
            · rw [(h.early k).2] at hd; cases hd
            · have := h.before d hd; omega
          · rw [List.mem_singleton.1 hd]; simp only []; omega
      obtain ⟨rs, b2, g1, g2, g3⟩ := ih b1 _ hinv hns
      refine ⟨some a :: rs, b2, by simp [allocSeq, h1, g1], ?_, ?_⟩
      · simp only [regions]
        refine List.pairwise_cons.2 ⟨?_, g2⟩
        intro r hr
        exact (g3 r hr).1 (a, n) (by simp)
      · intro r hr
        simp only [regions] at hr
        rcases List.mem_cons.1 hr with rfl | hr
        · exact ⟨hdone, hn1, off, e1, by simp only []; omega, hoff, e4 h.free⟩
        · obtain ⟨k1, k0, off', k2, k3, k4, k5⟩ := g3 r hr
          refine ⟨fun d hd => k1 d (by simp [hd]), k0, off', by rw [← h3]; exact k2, k3, ?_, by rw [← h4]; exact k5⟩
          rcases k4 with k4 | k4
          · left; have := (h5 k4).1; omega
          · rcases hoff with h6 | h6
            · exact Or.inl h6
            · right; omega

/-- **C15** On a recycled block with any marks, every region handed out by any sequence of requests lies in the block,
all its bytes lie in unmarked lines, no byte lies in a line following a marked line, and the regions are pairwise
disjoint. -/
theorem c15_recycled_regions (p : Profile) (b : BumpBlock) (sizes : List Nat) (hb : Recycled b)
    (hs : ∀ n ∈ sizes, 1 ≤ n ∧ n < 2 ^ 63) :
    ∃ rs b', allocSeq p b sizes = .ret (rs, b') ∧
      (regions sizes rs).Pairwise (fun r r' => DisjointRange r.1 r.2 r'.1 r'.2) ∧
      ∀ r ∈ regions sizes rs, b.block.ptr ≤ r.1 ∧ r.1 + r.2 ≤ b.block.ptr + 32768 ∧
        ∀ a, r.1 ≤ a → a < r.1 + r.2 →
          ¬ LineMarked b.info ((a - b.block.ptr) / 128) ∧
          ((a - b.block.ptr) / 128 = 0 ∨ ¬ LineMarked b.info ((a - b.block.ptr) / 128 - 1)) := by
  have hinv : SeqInv b [] := ⟨recycled_holeOK hb, fun x h1 h2 => by rw [hb.limit] at h2; omega,
    fun _ => ⟨hb.limit.symm, rfl⟩, by simp⟩
  obtain ⟨rs, b', h1, h2, h3⟩ := allocSeq_spec p sizes b [] hinv hs
  refine ⟨rs, b', h1, h2, ?_⟩
  intro r hr
  obtain ⟨_, _, off, k1, k2, _, k4⟩ := h3 r hr
  refine ⟨by omega, by omega, ?_⟩
  intro a ha1 ha2
  have := k4 (a - b.block.ptr) (by omega) (by omega)
  exact ⟨this.1.2, this.2.imp id (fun h => h.2)⟩

/-- **C16** (when it holds) If line 0 is marked, or the block was recycled with its cursor beyond line 0, no region
handed out touches the first 16 bytes of the block. -/
theorem c16_metadata_word_kept (p : Profile) (b : BumpBlock) (sizes : List Nat) (hb : Recycled b)
    (hs : ∀ n ∈ sizes, 1 ≤ n ∧ n < 2 ^ 63) (h0 : LineMarked b.info 0 ∨ 128 ≤ b.cursor) :
    ∃ rs b', allocSeq p b sizes = .ret (rs, b') ∧
      ∀ r ∈ regions sizes rs, DisjointRange b.block.ptr 16 r.1 r.2 := by
  have hinv : SeqInv b [] := ⟨recycled_holeOK hb, fun x h1 h2 => by rw [hb.limit] at h2; omega,
    fun _ => ⟨hb.limit.symm, rfl⟩, by simp⟩
  obtain ⟨rs, b', h1, h2, h3⟩ := allocSeq_spec p sizes b [] hinv hs
  refine ⟨rs, b', h1, ?_⟩
  intro r hr
  obtain ⟨_, hr1, off, k1, k2, k3, k4⟩ := h3 r hr
  have hl := hb.limit
  rcases h0 with h0 | h0
  · have := k4 off (Nat.le_refl _) (by omega)
    by_cases e : off / 128 = 0
    · rw [e] at this; exact absurd h0 this.1.2
    · left; omega
  · left; omega

/-- **C16** (refutation) If line 0 of a recycled block is not marked (its cursor being in line 0, as in
bumpblock.rs:121), the very first request of up to 128 bytes is answered with the block's own start address, where the
pointer to the block's metadata is stored. -/
theorem c16_metadata_word_handed_out (p : Profile) (b : BumpBlock) (n : Nat) (hb : Recycled b) (hc : b.cursor < 128)
    (h0 : ¬ LineMarked b.info 0) (hn1 : 1 ≤ n) (hn2 : n ≤ 128) :
    ∃ b', b.innerAlloc p n = .ret (some b.block.ptr, b') := by
  have hl := hb.limit
  have hz : b.limit / 128 = 0 := by omega
  have hu : Usable b.info 0 0 := ⟨Nat.le_refl _, ⟨by omega, h0⟩, Or.inl rfl⟩
  obtain ⟨a, e, hF, hr⟩ := (c14_first_hole b.info b.limit).2.1 (by omega) ⟨0, by rw [hz]; exact hu⟩
  rw [hz] at hF
  have ha : a = 0 := by have := hF.first 0 hu; omega
  subst ha
  have hne := hF.nonempty
  rw [BumpBlock.innerAlloc.eq_def, usizeAdd_small _ _ _ (by omega)]
  simp only [BLOCK_SIZE_eq]
  rw [if_pos (by omega), if_pos (by omega)]
  split
  · rename_i h; rw [hr] at h; cases h
  · rename_i h; rw [hr] at h; cases h
  · rename_i hole h
    rw [hr] at h
    simp only [Rust.ret.injEq, Option.some.injEq] at h
    subst h
    rw [BumpBlock.innerAlloc.eq_def, usizeAdd_small _ _ _ (by simp only []; omega)]
    simp only []
    rw [if_neg (by omega)]
    exact ⟨BumpBlock.mk (0 * 128 + n) (e * 128) b.block b.info b.metaPtr, by simp⟩

/-- **C16** (exact) On a recycled block, whatever the sequence of requests, no region handed out touches the first 16 bytes
of the block, which hold the pointer to its metadata, if and only if line 0 is marked or the block was recycled with its
cursor beyond line 0. -/
theorem c16_metadata_word_kept_iff (p : Profile) (b : BumpBlock) (hb : Recycled b) :
    (∀ sizes : List Nat, (∀ n ∈ sizes, 1 ≤ n ∧ n < 2 ^ 63) →
      ∃ rs b', allocSeq p b sizes = .ret (rs, b') ∧
        ∀ r ∈ regions sizes rs, DisjointRange b.block.ptr 16 r.1 r.2) ↔
    (LineMarked b.info 0 ∨ 128 ≤ b.cursor) := by
  constructor
  · intro h
    refine Classical.byContradiction fun hn => ?_
    have h0 : ¬ LineMarked b.info 0 := fun x => hn (Or.inl x)
    have hc : b.cursor < 128 := by
      have : ¬ 128 ≤ b.cursor := fun x => hn (Or.inr x)
      omega
    obtain ⟨b1, e1⟩ := c16_metadata_word_handed_out p b 8 hb hc h0 (by omega) (by omega)
    obtain ⟨rs, b', e, hr⟩ := h [8] (by simp)
    have e2 : allocSeq p b [8] = .ret ([some b.block.ptr], b1) := by
      simp only [allocSeq, e1]
      rfl
    rw [e2] at e
    cases e
    have := hr (b.block.ptr, 8) (by simp [regions])
    simp only [DisjointRange] at this
    omega
  · intro h0 sizes hs
    exact c16_metadata_word_kept p b sizes hb hs h0

/-- **C22** After any sequence of `mark_line`, `mark_block` and `reset` on new metadata, line `i` is marked exactly if it
was marked since the last reset; the sequence panics exactly if it marks a line `≥ 256`. -/
theorem c22_marks_are_a_set (ops : List MarkOp) :
    (runMarks BlockMeta.new ops = .panic ↔ ∃ j, 256 ≤ j ∧ MarkOp.markLine j ∈ ops) ∧
    ∀ m, runMarks BlockMeta.new ops = .ret m → ∀ i, (LineMarked m i ↔ MarkedSince i ops) ∧
      (LineMarked m i ↔ m.lineIter[i]? = some true) := by
  have hnew : ∀ i, ¬ LineMarked BlockMeta.new i := by
    intro j
    simp only [LineMarked, BlockMeta.new]
    by_cases hj : j < LINE_COUNT <;> simp [hj]
  have hreset : ∀ (m : BlockMeta) i, ¬ LineMarked m.reset i := by
    intro m j
    simp only [LineMarked, BlockMeta.reset]
    by_cases hj : j < LINE_COUNT <;> simp [hj]
  have hmark : ∀ (m m' : BlockMeta) j i, m.markLine j = .ret m' → (LineMarked m' i ↔ j = i ∨ LineMarked m i) := by
    intro m m' j i h
    unfold BlockMeta.markLine at h
    split at h
    · simp only [Rust.ret.injEq] at h
      subst h
      simp only [LineMarked, Vector.toList_set]
      rename_i hj
      by_cases e : j = i
      · subst e
        rw [List.getElem?_set_self (by simpa using hj)]; simp
      · rw [List.getElem?_set_ne e]; simp [e]
    · cases h
  have key : ∀ (ops : List MarkOp) (m : BlockMeta),
      (runMarks m ops = .panic ↔ ∃ j, 256 ≤ j ∧ MarkOp.markLine j ∈ ops) ∧
      ∀ m', runMarks m ops = .ret m' → ∀ i, (LineMarked m' i ↔ MarkedSince i ops ∨ (MarkOp.reset ∉ ops ∧ LineMarked m i)) := by
    intro ops
    induction ops with
    | nil => intro m; simp [runMarks, MarkedSince]
    | cons op ops ih =>
      intro m
      cases op with
      | markLine j =>
        simp only [runMarks]
        by_cases hj : j < 256
        · have hm : ∃ m1, m.markLine j = .ret m1 := by
            unfold BlockMeta.markLine; rw [dif_pos (by rw [LINE_COUNT_eq]; exact hj)]; exact ⟨_, rfl⟩
          obtain ⟨m1, hm⟩ := hm
          rw [hm, Rust.bind_ret]
          refine ⟨?_, ?_⟩
          · rw [(ih m1).1]
            constructor
            · rintro ⟨k, hk, hmem⟩; exact ⟨k, hk, by simp [hmem]⟩
            · rintro ⟨k, hk, hmem⟩
              refine ⟨k, hk, ?_⟩
              rcases List.mem_cons.1 hmem with h | h
              · simp only [MarkOp.markLine.injEq] at h; omega
              · exact h
          · intro m' hm' i
            rw [(ih m1).2 m' hm' i, hmark m m1 j i hm]
            simp only [MarkedSince, List.mem_cons, reduceCtorEq, false_or]
            by_cases hr : MarkOp.reset ∈ ops <;> simp [hr, or_assoc, or_comm, or_left_comm]
        · have hm : m.markLine j = .panic := by
            unfold BlockMeta.markLine; rw [dif_neg (by rw [LINE_COUNT_eq]; exact hj)]
          rw [hm]
          simp only [Rust.bind_panic, true_iff]
          exact ⟨⟨j, by omega, by simp⟩, fun m' h => by cases h⟩
      | markBlock =>
        simp only [runMarks]
        have hb : ∀ i, LineMarked m.markBlock i ↔ LineMarked m i := fun i => Iff.rfl
        refine ⟨?_, ?_⟩
        · rw [(ih m.markBlock).1]; simp
        · intro m' hm' i
          rw [(ih m.markBlock).2 m' hm' i, hb]
          simp [MarkedSince]
      | reset =>
        simp only [runMarks]
        refine ⟨?_, ?_⟩
        · rw [(ih m.reset).1]; simp
        · intro m' hm' i
          rw [(ih m.reset).2 m' hm' i]
          simp [MarkedSince, hreset m i]
  refine ⟨(key ops BlockMeta.new).1, ?_⟩
  intro m hm i
  refine ⟨?_, Iff.rfl⟩
  rw [(key ops BlockMeta.new).2 m hm i]
  simp [hnew i]

/-- **C22** The block mark (stored, but read by no function of the crate) is set exactly if `mark_block` was called since the last
reset. -/
theorem c22_block_mark (ops : List MarkOp) (m : BlockMeta) (h : runMarks BlockMeta.new ops = .ret m) :
    m.blockMark = true ↔ BlockMarkedSince ops := by
  have hline : ∀ (m m1 : BlockMeta) j, m.markLine j = .ret m1 → m1.blockMark = m.blockMark := by
    intro m m1 j h
    unfold BlockMeta.markLine at h
    split at h
    · cases h; rfl
    · cases h
  have hcons : ∀ (o : MarkOp) (ops : List MarkOp),
      BlockMarkedSince (o :: ops) ↔ (o = .markBlock ∧ MarkOp.reset ∉ ops) ∨ BlockMarkedSince ops := by
    intro o ops
    constructor
    · rintro ⟨a, b, e, hb⟩
      cases a with
      | nil => cases e; exact .inl ⟨rfl, hb⟩
      | cons x a => cases e; exact .inr ⟨a, b, rfl, hb⟩
    · rintro (⟨rfl, hb⟩ | ⟨a, b, rfl, hb⟩)
      · exact ⟨[], ops, rfl, hb⟩
      · exact ⟨o :: a, b, rfl, hb⟩
  have key : ∀ (ops : List MarkOp) (m m' : BlockMeta), runMarks m ops = .ret m' →
      (m'.blockMark = true ↔ BlockMarkedSince ops ∨ (MarkOp.reset ∉ ops ∧ m.blockMark = true)) := by
    intro ops
    induction ops with
    | nil => intro m m' h; cases h; simp [BlockMarkedSince]
    | cons op ops ih =>
      intro m m' h
      cases op with
      | markLine j =>
        simp only [runMarks] at h
        cases h1 : m.markLine j with
        | panic => rw [h1] at h; cases h
        | ret m1 =>
          rw [h1] at h
          rw [ih m1 m' h, hline m m1 j h1, hcons]
          simp
      | markBlock =>
        rw [ih m.markBlock m' h, hcons]
        by_cases hr : MarkOp.reset ∈ ops <;> simp [hr, BlockMeta.markBlock]
      | reset =>
        rw [ih m.reset m' h, hcons]
        simp [BlockMeta.reset]
  rw [key ops _ m h]
  simp [BlockMeta.new]

/-! ## The hypotheses are met -/

/-- The half-marked block of bumpblock.rs:109-128. -/
def halfBlock : BumpBlock where
  cursor := 16
  limit := 16
  block := { ptr := 32768, size := 32768 }
  info := { lineMark := Vector.ofFn (fun i => decide (i.val < 128)), blockMark := false }
  metaPtr := 0

example : Recycled halfBlock ∧ LineMarked halfBlock.info 0 := by
  refine ⟨⟨rfl, by decide⟩, ?_⟩
  unfold LineMarked; decide +kernel

/-- Its hole starts one line after the marked half and extends to the end of the block. -/
example : (match halfBlock.info.findNextAvailableHole 16 with | .ret r => r | .panic => none) = some (129 * 128, 256 * 128) := by
  decide +kernel

/-- A request is served from line 129 on. -/
example : (match allocSeq .dev halfBlock [8, 40000, 24] with | .ret (r, _) => r | .panic => []) =
    [some (32768 + 129 * 128), none, some (32768 + 129 * 128 + 8)] := by decide +kernel

/-- A recycled block with no marks: hypotheses of the refutation of C16. -/
def unmarkedBlock : BumpBlock := { halfBlock with info := BlockMeta.new }

example : Recycled unmarkedBlock ∧ ¬ LineMarked unmarkedBlock.info 0 := by
  refine ⟨⟨rfl, by decide⟩, ?_⟩
  unfold LineMarked; decide +kernel

example : runMarks BlockMeta.new [.markBlock, .reset, .markLine 3, .markBlock, .markLine 5] ≠ .panic ∧
    BlockMarkedSince [.markBlock, .reset, .markLine 3, .markBlock, .markLine 5] := by
  refine ⟨fun h => ?_, [.markBlock, .reset, .markLine 3], [.markLine 5], rfl, by simp⟩
  obtain ⟨j, h1, h2⟩ := (c22_marks_are_a_set _).1.1 h
  simp at h2
  omega

example : MarkedSince 3 [.markLine 3, .reset, .markLine 3, .markLine 5] ∧ ¬ MarkedSince 3 [.markLine 3, .reset] := by
  simp [MarkedSince]

end Verif.Immix
