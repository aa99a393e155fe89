import Verif.Spec.Collect
import Verif.Props.NextFit

/-!
# C95: objects whose lines are marked survive
-/

namespace Verif.Immix

open Verif Verif.Immix.Spec

/-- What holds of a block during its life. -/
structure LifeInv (b : BumpBlock) (live : List (Nat × Nat)) : Prop where
  ok : HoleOK b
  free : FreeBytes b.info b.cursor b.limit
  word : LineMarked b.info 0 ∨ 128 ≤ b.limit
  early : b.limit < 128 → b.cursor = b.limit
  late : 128 ≤ b.limit → 16 ≤ b.cursor
  objs : ∀ o ∈ live, b.block.ptr + 16 ≤ o.1 ∧ o.1 + o.2 ≤ b.block.ptr + 32768 ∧ 1 ≤ o.2 ∧
    (Covered b.info b.block.ptr o ∨ (128 ≤ b.limit ∧ o.1 + o.2 ≤ b.block.ptr + b.cursor))
  disj : live.Pairwise fun o o' => DisjointRange o.1 o.2 o'.1 o'.2

theorem covered_disjoint {m : BlockMeta} {q off n : Nat} {o : Nat × Nat} (h : Covered m q o) (hq : q ≤ o.1) (h1 : 1 ≤ o.2) (hn : 1 ≤ n)
    (hf : FreeBytes m off (off + n)) : DisjointRange o.1 o.2 (q + off) n := by
  refine Classical.byContradiction fun hd => ?_
  unfold DisjointRange at hd
  -- a common byte
  obtain ⟨a, ha1, ha2, ha3, ha4⟩ : ∃ a, o.1 ≤ a ∧ a < o.1 + o.2 ∧ q + off ≤ a ∧ a < q + off + n := by
    by_cases hc : o.1 ≤ q + off
    · exact ⟨q + off, by omega, by omega, by omega, by omega⟩
    · exact ⟨o.1, by omega, by omega, by omega, by omega⟩
  obtain ⟨⟨_, f1⟩, f2⟩ := hf (a - q) (by omega) (by omega)
  rcases h a ha1 ha2 with h3 | ⟨h3, h4⟩
  · exact f1 h3
  · rcases f2 with f2 | f2
    · omega
    · exact f2.2 h4

theorem life_inv {p : Profile} {b : BumpBlock} {live : List (Nat × Nat)} (h : Life p b live) : LifeInv b live := by
  induction h with
  | new sys w w' b hb =>
    obtain ⟨h1, h2, h3, h4⟩ := c17_new_block hb
    refine ⟨h1, ?_, .inr (by omega), by omega, by omega, by simp, .nil⟩
    intro x _ h5
    refine ⟨⟨by omega, h4 _⟩, .inr ⟨by omega, h4 _⟩⟩
  | alloc b b' live n a _ hn1 hn2 ha ih =>
    obtain ⟨r, b1, h1, h2, h3, h4, h5, h6, h7, h8⟩ := innerAlloc_spec p b n ih.ok hn2
    rw [ha] at h1
    injection h1 with h1
    injection h1 with h1 h1'
    subst h1 h1'
    obtain ⟨off, e1, e2, e3, e4⟩ := h8
    have hf := e4 ih.free
    have hle := h2.le
    have hlim := h2.lim
    have hoff : b.limit < 128 ∨ b.cursor ≤ off := by
      rcases e3 with ⟨k, _⟩ | ⟨_, _, _, k, _⟩
      · right; omega
      · have := ih.ok.le; omega
    have hl' : 128 ≤ b'.limit := by
      refine Classical.byContradiction fun hc => ?_
      have hc1 := (h5 (by omega)).1
      have hc2 := ih.early (by omega)
      rcases e3 with ⟨_, _, k⟩ | ⟨_, _, _, _, k⟩ <;> omega
    have h16 : 16 ≤ off := by
      by_cases hl : b.limit < 128
      · have hw := ih.word.resolve_right (by omega)
        have hx := (hf off (Nat.le_refl _) (by omega)).1
        by_cases e : off / 128 = 0
        · rw [e] at hx; exact absurd hw hx.2
        · omega
      · have := ih.late (by omega); omega
    refine ⟨h2, by rw [h4]; exact h7 ih.free, .inr hl', fun h => by omega, fun _ => by omega, ?_, ?_⟩
    · intro o ho
      rw [h3, h4]
      rcases List.mem_append.1 ho with ho | ho
      · obtain ⟨k1, k2, k3, k4⟩ := ih.objs o ho
        refine ⟨k1, k2, k3, k4.imp id fun ⟨k5, k6⟩ => ⟨hl', ?_⟩⟩
        have := h6.resolve_left (by omega)
        omega
      · rw [List.mem_singleton.1 ho]
        exact ⟨by simp only; omega, by simp only; omega, hn1, .inr ⟨hl', by simp only; omega⟩⟩
    · rw [List.pairwise_append]
      refine ⟨ih.disj, List.pairwise_singleton _ _, ?_⟩
      intro o ho o' ho'
      rw [List.mem_singleton.1 ho']
      obtain ⟨k1, k2, k3, k4⟩ := ih.objs o ho
      rcases k4 with k4 | ⟨k4, k5⟩
      · rw [e1]; exact covered_disjoint k4 (by omega) k3 hn1 hf
      · have := hoff.resolve_left (by omega)
        simp only [DisjointRange]; omega
  | refused b b' live n _ hn ha ih =>
    obtain ⟨r, b1, h1, h2, h3, h4, h5, h6, h7, h8⟩ := innerAlloc_spec p b n ih.ok hn
    rw [ha] at h1
    injection h1 with h1
    injection h1 with h1 h1'
    subst h1 h1'
    have hle := h2.le
    have hlim := h2.lim
    have hf : FreeBytes b'.info b'.cursor b'.limit := by rw [h4]; exact h7 ih.free
    have hlow : b.limit < 128 → 128 ≤ b'.limit → 16 ≤ b'.cursor := by
      intro hl hl'
      have hw := ih.word.resolve_right (by omega)
      by_cases e : b'.cursor < 128
      · have hx := (hf b'.cursor (Nat.le_refl _) (by omega)).1
        rw [h4, show b'.cursor / 128 = 0 by omega] at hx
        exact absurd hw hx.2
      · omega
    have hkeep : 128 ≤ b.limit → 128 ≤ b'.limit := by
      intro hl
      refine Classical.byContradiction fun hc => ?_
      have := (h5 (by omega)).1
      omega
    refine ⟨h2, hf, ?_, ?_, ?_, ?_, ih.disj⟩
    · rw [h4]
      exact ih.word.imp id hkeep
    · intro hl
      obtain ⟨e1, e2⟩ := h5 hl
      rw [e1, e2 rfl]
      exact ih.early (by omega)
    · intro hl
      by_cases hb : b.limit < 128
      · exact hlow hb hl
      · have := h6.resolve_left hb
        have := ih.late (by omega)
        omega
    · intro o ho
      rw [h3, h4]
      obtain ⟨k1, k2, k3, k4⟩ := ih.objs o ho
      refine ⟨k1, k2, k3, k4.imp id fun ⟨k5, k6⟩ => ⟨hkeep k5, ?_⟩⟩
      have := h6.resolve_left (by omega)
      omega
  | collect b live survivors ops m start _ hsub hm hcov hs h0 ih =>
    refine ⟨⟨Nat.le_refl _, hs⟩, fun x h1 h2 => by simp only at h1 h2; omega, h0, fun _ => rfl, fun h => by simp only at h ⊢; omega, ?_,
      ih.disj.sublist hsub⟩
    intro o ho
    obtain ⟨k1, k2, k3, _⟩ := ih.objs o (hsub.subset ho)
    exact ⟨k1, k2, k3, .inl (hcov o ho)⟩

/-- **C95** At any time in the life of a block, however often it is collected and used again, the objects that have not been given up are
disjoint and lie in the block, behind the metadata word. -/
theorem c95_survivors (p : Profile) (b : BumpBlock) (live : List (Nat × Nat)) (h : Life p b live) :
    (live.Pairwise fun o o' => DisjointRange o.1 o.2 o'.1 o'.2) ∧
    ∀ o ∈ live, b.block.ptr + 16 ≤ o.1 ∧ o.1 + o.2 ≤ b.block.ptr + 32768 :=
  ⟨(life_inv h).disj, fun o ho => ⟨((life_inv h).objs o ho).1, ((life_inv h).objs o ho).2.1⟩⟩

/-- **C95** No request in the life of a block panics. -/
theorem c95_no_panic (p : Profile) (b : BumpBlock) (live : List (Nat × Nat)) (h : Life p b live) (n : Nat) (hn : n < 2 ^ 63) :
    ∃ r b', b.innerAlloc p n = .ret (r, b') := by
  obtain ⟨r, b', h1, _⟩ := innerAlloc_spec p b n (life_inv h).ok hn
  exact ⟨r, b', h1⟩

/-- **C95** (how to cover objects) For an object of at most 128 bytes it suffices to mark the line in which it starts; for any object it
suffices to mark all its lines except the last. -/
theorem c95_rules (m : BlockMeta) (q a n : Nat) (hq : q ≤ a) :
    (n ≤ 128 → LineMarked m ((a - q) / 128) → Covered m q (a, n)) ∧
    ((∀ j, (a - q) / 128 ≤ j → (j + 1) * 128 ≤ a - q + n → LineMarked m j) → LineMarked m ((a - q) / 128) → Covered m q (a, n)) := by
  have key : (∀ j, (a - q) / 128 ≤ j → (j + 1) * 128 < a - q + n → LineMarked m j) → LineMarked m ((a - q) / 128) → Covered m q (a, n) := by
    intro h1 h2 x hx1 hx2
    simp only at hx1 hx2
    by_cases e : (x - q) / 128 = (a - q) / 128
    · left; rw [e]; exact h2
    · right
      have hlt : (a - q) / 128 < (x - q) / 128 := by
        have : (a - q) / 128 ≤ (x - q) / 128 := Nat.div_le_div_right (by omega)
        omega
      exact ⟨by omega, h1 _ (by omega) (by omega)⟩
  refine ⟨fun h1 h2 => key (fun j h3 h4 => ?_) h2, fun h1 h2 => key (fun j h3 h4 => h1 j h3 (by omega)) h2⟩
  rw [show j = (a - q) / 128 by omega]
  exact h2

theorem usable_zero {m : BlockMeta} {j : Nat} : Usable m 0 j ↔ LineFree m j ∧ (j = 0 ∨ LineFree m (j - 1)) := by
  constructor
  · rintro ⟨_, h2, h3⟩
    exact ⟨h2, h3.imp id And.right⟩
  · rintro ⟨h2, h3⟩
    refine ⟨Nat.zero_le _, h2, ?_⟩
    by_cases h : j = 0
    · exact .inl h
    · exact .inr ⟨by omega, h3.resolve_left h⟩

/-- Asking for lines, one at a time, gets every usable line in the end. -/
theorem line_handed_out (p : Profile) (j : Nat) : ∀ (k : Nat) (b : BumpBlock), 40000 - b.cursor = k → HoleOK b →
    (b.cursor = b.limit ∨ (128 ∣ b.cursor ∧ 128 ∣ b.limit)) →
    (b.cursor ≤ j * 128 ∧ j * 128 + 128 ≤ b.limit ∧ 128 ∣ b.cursor ∨ Usable b.info (b.limit / 128) j) →
    ∃ i rs b', allocSeq p b (List.replicate i 128) = .ret (rs, b') ∧ (b.block.ptr + j * 128, 128) ∈ regions (List.replicate i 128) rs := by
  intro k
  induction k using Nat.strongRecOn with
  | ind k ih =>
    intro b hk hb hal hj
    have hle := hb.le
    have hlim := hb.lim
    obtain ⟨r, b1, h1, h2⟩ := c92_next_fit p b 128 hb (by omega)
    obtain ⟨r', b1', h1', hok, hblk, hinf, hrest⟩ := innerAlloc_spec p b 128 hb (by omega)
    clear hrest
    rw [h1] at h1'
    injection h1' with h1'
    injection h1' with e1 e2
    subst e1 e2
    -- one more request
    have more : ∀ a, r = some a → (a = b.block.ptr + j * 128 ∨ ∃ i rs b', allocSeq p b1 (List.replicate i 128) = .ret (rs, b') ∧
        (b1.block.ptr + j * 128, 128) ∈ regions (List.replicate i 128) rs) →
        ∃ i rs b', allocSeq p b (List.replicate i 128) = .ret (rs, b') ∧ (b.block.ptr + j * 128, 128) ∈ regions (List.replicate i 128) rs := by
      rintro a rfl (rfl | ⟨i, rs, b', h3, h4⟩)
      · exact ⟨1, [some (b.block.ptr + j * 128)], b1, by simp [allocSeq, h1], by simp [regions, List.replicate]⟩
      · exact ⟨i + 1, some a :: rs, b', by simp [allocSeq, List.replicate_succ, h1, h3], by
          rw [hblk] at h4
          rw [List.replicate_succ, regions]; exact List.mem_cons_of_mem _ h4⟩
    have noFirst : (¬ (b.cursor ≤ j * 128 ∧ j * 128 + 128 ≤ b.limit)) → ∃ lo hi, FirstHole b.info (b.limit / 128) lo hi ∧ lo ≤ j := by
      intro hn
      have hu := hj.resolve_left fun h => hn ⟨h.1, h.2.1⟩
      obtain ⟨lo, hi, hF, _⟩ := (c14_first_hole b.info b.limit).2.1 (by omega) ⟨j, hu⟩
      exact ⟨lo, hi, hF, hF.first j hu⟩
    cases h2 with
    | current hfit =>
      refine more _ rfl ?_
      have hcur : 128 ∣ b.cursor ∧ 128 ∣ b.limit := hal.resolve_left fun h => Nat.not_succ_le_self b.limit (by rw [h] at hfit; omega)
      by_cases e : b.cursor = j * 128
      · left; rw [e]
      · right
        have hlt : 40000 - (b.cursor + 128) < k := by clear hj noFirst hal; omega
        refine ih (40000 - (b.cursor + 128)) hlt (window b (b.cursor + 128) b.limit) rfl hok (.inr ⟨?_, hcur.2⟩) ?_
        · exact Nat.dvd_add hcur.1 (Nat.dvd_refl _)
        · simp only [window]
          rcases hj with ⟨h3, h4, h5⟩ | h3
          · left; omega
          · right; exact h3
    | hole lo hi hnot hA hfits hfirst =>
      refine more _ rfl ?_
      have hn : ¬ (b.cursor ≤ j * 128 ∧ j * 128 + 128 ≤ b.limit) := by omega
      have hu := hj.resolve_left fun h => hn ⟨h.1, h.2.1⟩
      obtain ⟨a, c, hF, haj⟩ := noFirst hn
      have hFA := holeAt_first hF
      have hlo : lo < c := by
        refine Classical.byContradiction fun hc => ?_
        refine hfirst a c hFA (by have := hF.nonempty; omega) ?_
        have := hF.nonempty
        simp only [Fits]; omega
      obtain ⟨rfl, rfl⟩ := holeAt_only hF hA hlo
      have hne := hF.nonempty
      have hs := hF.usable
      by_cases e : lo = j
      · left; rw [e]
      · right
        have hcur : b.cursor < lo * 128 + 128 := by
          have := hs.1; omega
        have hhi : hi ≤ 256 := by
          have := (hF.free (hi - 1) (by omega) (by omega)).1; omega
        have hlt : 40000 - (lo * 128 + 128) < k := by clear hj noFirst hal; omega
        refine ih (40000 - (lo * 128 + 128)) hlt (window b (lo * 128 + 128) (hi * 128)) rfl hok (.inr ⟨?_, ?_⟩) ?_
        · simp only [window]; omega
        · simp only [window]; omega
        · simp only [window]
          by_cases hjh : j < hi
          · left; omega
          · right
            rw [show hi * 128 / 128 = hi by omega]
            exact (usable_next hF j).2 ⟨hu, by omega⟩
    | last lo hi hnot hA hlast hnofit =>
      exfalso
      obtain ⟨a, c, hF, _⟩ := noFirst (by omega)
      refine hnofit a c (holeAt_first hF) ?_
      have := hF.nonempty
      simp only [Fits]; omega
    | full hnot hno =>
      exfalso
      obtain ⟨a, c, hF, _⟩ := noFirst (by omega)
      exact hno a c (holeAt_first hF)

/-- **C95** The condition on the marks is exact: in a block recycled from its first line on, an object is safe from all later requests
if and only if it is covered. -/
theorem c95_exactly_covered (p : Profile) (b : BumpBlock) (hb : Recycled b) (hc : b.cursor < 128) (o : Nat × Nat) (h0 : b.block.ptr ≤ o.1)
    (h1 : 1 ≤ o.2) (h2 : o.1 + o.2 ≤ b.block.ptr + 32768) :
    (∀ sizes : List Nat, (∀ n ∈ sizes, 1 ≤ n ∧ n < 2 ^ 63) → ∃ rs b', allocSeq p b sizes = .ret (rs, b') ∧
      ∀ r ∈ regions sizes rs, DisjointRange o.1 o.2 r.1 r.2) ↔ Covered b.info b.block.ptr o := by
  have hl := hb.limit
  constructor
  · intro h a ha1 ha2
    refine Classical.byContradiction fun hn => ?_
    have hu : Usable b.info (b.limit / 128) ((a - b.block.ptr) / 128) := by
      rw [show b.limit / 128 = 0 by omega, usable_zero]
      refine ⟨⟨by omega, fun h => hn (.inl h)⟩, ?_⟩
      by_cases e : (a - b.block.ptr) / 128 = 0
      · exact .inl e
      · exact .inr ⟨by omega, fun h => hn (.inr ⟨by omega, h⟩)⟩
    obtain ⟨i, rs, b', h3, h4⟩ := line_handed_out p _ _ b rfl (recycled_holeOK hb) (.inl hl.symm) (.inr hu)
    obtain ⟨rs', b'', h5, h6⟩ := h (List.replicate i 128) (fun n hn => by rw [List.eq_of_mem_replicate hn]; omega)
    rw [h3] at h5
    injection h5 with h5
    injection h5 with h5 _
    subst h5
    have := h6 _ h4
    simp only [DisjointRange] at this
    omega
  · intro h sizes hs
    have hinv : SeqInv b [] := ⟨recycled_holeOK hb, fun x h1 h2 => by rw [hb.limit] at h2; omega,
      fun _ => ⟨hb.limit.symm, rfl⟩, by simp⟩
    obtain ⟨rs, b', g1, _, g3⟩ := allocSeq_spec p sizes b [] hinv hs
    refine ⟨rs, b', g1, fun r hr => ?_⟩
    obtain ⟨_, k0, off, k1, _, _, k2⟩ := g3 r hr
    rw [k1]
    exact covered_disjoint h h0 h1 k0 k2

/-- **C114** The size of the current hole, at any time in the life of a block: there are `k` bytes from some address `start` on such that a
request of at most `k` bytes is answered with `start`, and the hole is smaller by so much; a larger one, if it is answered, gets an address
behind these bytes, and they are lost: no later request gets them. -/
theorem c114_hole_size (p : Profile) (b : BumpBlock) (live : List (Nat × Nat)) (h : Life p b live) :
    ∃ k start, b.currentHoleSize p = .ret k ∧ b.block.ptr ≤ start ∧ start + k ≤ b.block.ptr + 32768 ∧
      ∀ n, n < 2 ^ 63 → ∃ r b', b.innerAlloc p n = .ret (r, b') ∧
        (n ≤ k → r = some start ∧ b'.currentHoleSize p = .ret (k - n)) ∧
        (k < n → ∀ a, r = some a → start + k ≤ a ∧ ∀ sizes : List Nat, (∀ m ∈ sizes, m < 2 ^ 63) →
          ∃ rs b'', allocSeq p b' sizes = .ret (rs, b'') ∧ ∀ x ∈ regions sizes rs, start + k ≤ x.1) := by
  have hI := life_inv h
  have hle := hI.ok.le
  have hlim := hI.ok.lim
  refine ⟨b.limit - b.cursor, b.block.ptr + b.cursor, by unfold BumpBlock.currentHoleSize; rw [if_pos hle], by omega, by omega, fun n hn => ?_⟩
  obtain ⟨r, b', h1, h2, h3, h4, h5, h6, h7, h8⟩ := innerAlloc_spec p b n hI.ok hn
  refine ⟨r, b', h1, fun hk => ?_, fun hk a ha => ?_⟩
  · cases r with
    | none => simp only at h8; omega
    | some a =>
      obtain ⟨off, e1, e2, e3, -⟩ := h8
      have e3 : off = b.cursor ∧ b'.limit = b.limit ∧ b.cursor + n ≤ b.limit := by
        rcases e3 with e3 | ⟨_, e3, _⟩
        · exact e3
        · omega
      refine ⟨by rw [e1, e3.1], ?_⟩
      unfold BumpBlock.currentHoleSize
      rw [if_pos h2.le, e3.2.1, e2, e3.1]
      congr 1
      omega
  · subst ha
    obtain ⟨off, e1, e2, e3, e4⟩ := h8
    have hf := (e4 hI.free off (Nat.le_refl _) (by omega)).1
    rcases e3 with e3 | ⟨e3, e5, e6, e7, e8⟩
    · omega
    · have hoff : b.limit ≤ off := by
        rcases e7 with e7 | e7
        · rcases hI.word with hw | hw
          · by_cases h0 : off < 128
            · rw [show off / 128 = 0 by omega] at hf
              exact absurd hw hf.2
            · omega
          · omega
        · exact e7
      refine ⟨by omega, fun sizes hs => ?_⟩
      obtain ⟨rs, b'', k1, k2⟩ := regions_above p sizes b' h2 e8 hs
      refine ⟨rs, b'', k1, fun x hx => ?_⟩
      have := k2 x hx
      rw [h3] at this
      omega

/-- **C114** In a new block the hole has 32752 bytes; in a block that has just been recycled it is empty. -/
theorem c114_new_and_recycled (p : Profile) : (∀ sys w w' b, BumpBlock.new sys w = (.ok b, w') → b.currentHoleSize p = .ret 32752) ∧
    ∀ b, Recycled b → b.currentHoleSize p = .ret 0 := by
  constructor
  · intro sys w w' b hb
    obtain ⟨h1, h2, h3, h4⟩ := c17_new_block hb
    unfold BumpBlock.currentHoleSize
    rw [if_pos h1.le, h2, h3]
  · intro b hb
    unfold BumpBlock.currentHoleSize
    rw [if_pos (by have := hb.limit; omega), hb.limit, Nat.sub_self]

/-! ## The hypotheses are met -/

deriving instance DecidableEq for Rust
deriving instance DecidableEq for BlockMeta
deriving instance DecidableEq for Block
deriving instance DecidableEq for BumpBlock

def demoSys : Sys where
  alloc i s a := if s = 32768 ∧ a = 32768 ∧ i < 1000 then some ((i + 1) * 32768) else none
  metaAddr i := 1000000000 + i * 512

def demoNew : BumpBlock where
  cursor := 16
  limit := 32768
  block := { ptr := 32768, size := 32768 }
  info := BlockMeta.new
  metaPtr := 1000000512

/-- The lines 0 and 1 are marked. -/
def demoMeta : BlockMeta := { lineMark := Vector.ofFn (fun i => decide (i.val < 2)), blockMark := false }

/-- A new block serves requests of 200 and 100 bytes; the first object dies, the second survives a collection that marks its first line
(and line 0); the block is recycled from its beginning, and the next request is served behind the survivor.  Then 32334 bytes of the current hole are left (C114). -/
example : ∃ b, Life .dev b [(32768 + 216, 100), (32768 + 384, 50)] ∧ b.currentHoleSize .dev = .ret 32334 := by
  have h0 : Life .dev demoNew [] := .new demoSys { mem := fun _ => 0, calls := 0, obtained := [], freed := [] } _ _ (Prod.ext (by rw [blockNew_eq]; rfl) rfl)
  have h1 : Life .dev { demoNew with cursor := 216 } ([] ++ [(32768 + 16, 200)]) :=
    .alloc _ _ _ 200 _ h0 (by decide) (by decide) (by decide +kernel)
  have h2 : Life .dev { demoNew with cursor := 316 } ([] ++ [(32768 + 16, 200)] ++ [(32768 + 216, 100)]) :=
    .alloc _ _ _ 100 _ h1 (by decide) (by decide) (by decide +kernel)
  have h3 : Life .dev { demoNew with info := demoMeta, cursor := 16, limit := 16 } [(32768 + 216, 100)] := by
    refine .collect { demoNew with cursor := 316 } _ [(32768 + 216, 100)] [.reset, .markLine 0, .markLine 1] demoMeta 16 h2 (by decide) (by decide +kernel) ?_ (by decide)
      (.inl (by unfold LineMarked; decide +kernel))
    intro o ho
    rw [List.mem_singleton.1 ho]
    exact (c95_rules demoMeta 32768 (32768 + 216) 100 (by decide)).1 (by decide) (by unfold LineMarked; decide +kernel)
  exact ⟨{ demoNew with info := demoMeta, cursor := 434, limit := 32768 }, .alloc _ _ _ 50 _ h3 (by decide) (by decide) (by decide +kernel), rfl⟩

/-- In the half-marked block an object at the end of the marked half is covered, even if it extends into the next line; one that
extends further is not. -/
example : Recycled halfBlock ∧ halfBlock.cursor < 128 ∧ Covered halfBlock.info 32768 (32768 + 16300, 200) ∧
    ¬ Covered halfBlock.info 32768 (32768 + 16300, 300) := by
  refine ⟨⟨rfl, by decide⟩, by decide, ?_, ?_⟩
  · refine (c95_rules halfBlock.info 32768 (32768 + 16300) 200 (by decide)).2 ?_ (by unfold LineMarked; decide +kernel)
    intro j h1 h2
    rw [show j = 127 by omega]
    unfold LineMarked; decide +kernel
  · intro h
    have := h (32768 + 16599) (by decide) (by decide)
    revert this
    unfold LineMarked; decide +kernel

end Verif.Immix
