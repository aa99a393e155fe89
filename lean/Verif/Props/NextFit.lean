import Verif.Props.Hole

/-!
# C92: where in a recycled block a request is placed
-/

namespace Verif.Immix

open Verif Verif.Immix.Spec

/-- The holes of a search are its first hole and the holes of the search behind it. -/
theorem holeAt_next {m : BlockMeta} {s a b : Nat} (hF : FirstHole m s a b) (lo hi : Nat) :
    HoleAt m b lo hi ↔ HoleAt m s lo hi ∧ b ≤ lo := by
  have hb : ¬ LineFree m b := by
    rintro ⟨h1, h2⟩
    rcases hF.maximal with h | h
    · omega
    · exact h2 h
  constructor
  · intro h
    have hlo := h.usable lo (Nat.le_refl _) h.nonempty
    have hne : lo ≠ b := fun e => hb (e ▸ hlo.2.1)
    have hge := hlo.1
    refine ⟨⟨h.nonempty, fun j h1 h2 => ((usable_next hF j).1 (h.usable j h1 h2)).1, ?_, ?_⟩, hge⟩
    · rcases h.left with h1 | h1
      · exact Or.inl h1
      · exact Or.inr fun hu => h1 ((usable_next hF _).2 ⟨hu, by omega⟩)
    · exact fun hu => h.right ((usable_next hF _).2 ⟨hu, by have := h.nonempty; omega⟩)
  · rintro ⟨h, hge⟩
    refine ⟨h.nonempty, fun j h1 h2 => (usable_next hF j).2 ⟨h.usable j h1 h2, by omega⟩, ?_, ?_⟩
    · rcases h.left with h1 | h1
      · exact Or.inl h1
      · exact Or.inr fun hu => h1 ((usable_next hF _).1 hu).1
    · exact fun hu => h.right ((usable_next hF _).1 hu).1

theorem holeAt_first {m : BlockMeta} {s a b : Nat} (hF : FirstHole m s a b) : HoleAt m s a b := by
  have hs := hF.usable.1
  refine ⟨hF.nonempty, ?_, ?_, ?_⟩
  · intro j h1 h2
    refine ⟨by omega, hF.free j h1 h2, ?_⟩
    by_cases hj : j = a
    · subst hj; exact hF.usable.2.2
    · exact Or.inr ⟨by omega, hF.free (j - 1) (by omega) (by omega)⟩
  · by_cases h : a = 0
    · exact Or.inl h
    · exact Or.inr fun hu => by have := hF.first _ hu; omega
  · rintro ⟨_, ⟨h1, h2⟩, _⟩
    rcases hF.maximal with h | h
    · omega
    · exact h2 h

/-- A hole of the search that does not start behind the first hole is the first hole. -/
theorem holeAt_only {m : BlockMeta} {s a b lo hi : Nat} (hF : FirstHole m s a b) (h : HoleAt m s lo hi) (hlt : lo < b) :
    lo = a ∧ hi = b := by
  have h0 := holeAt_first hF
  have h1 := hF.first lo (h.usable lo (Nat.le_refl _) h.nonempty)
  have hlo : lo = a := by
    refine Classical.byContradiction fun hne => ?_
    rcases h.left with h2 | h2
    · omega
    · exact h2 (h0.usable (lo - 1) (by omega) (by omega))
  subst hlo
  refine ⟨rfl, ?_⟩
  have h2 := h.nonempty
  have h3 := h0.nonempty
  rcases Nat.lt_trichotomy hi b with h4 | h4 | h4
  · exact absurd (h0.usable hi (by omega) h4) h.right
  · exact h4
  · exact absurd (h.usable b (by omega) h4) h0.right

theorem noHole {m : BlockMeta} {s : Nat} (h : ∀ j, ¬ Usable m s j) (lo hi : Nat) : ¬ HoleAt m s lo hi :=
  fun hh => h lo (hh.usable lo (Nat.le_refl _) hh.nonempty)

theorem nextFit_of_noOverflow (p : Profile) (b : BumpBlock) (n : Nat) (hb : HoleOK b) (h0 : b.cursor + n < 2 ^ 64)
    (hn : ∀ lo hi, HoleAhead b lo hi → lo * 128 + n < 2 ^ 64) :
    ∃ r b', b.innerAlloc p n = .ret (r, b') ∧ NextFit b n r b' := by
  induction hk : 32768 - b.limit using Nat.strongRecOn generalizing b with
  | ind k ih =>
    have hle := hb.le
    have hlim := hb.lim
    rw [BumpBlock.innerAlloc.eq_def, usizeAdd_small _ _ _ h0]
    simp only [BLOCK_SIZE_eq]
    by_cases hfit : b.cursor + n > b.limit
    · rw [if_pos hfit]
      by_cases hlt : b.limit < 32768
      · rw [if_pos hlt]
        obtain ⟨r, hr, hR⟩ := findNextAvailableHole_spec b.info b.limit (by omega)
        cases r with
        | none =>
          split
          · rename_i h; rw [hr] at h; cases h
          · exact ⟨none, b, rfl, .full hfit (noHole hR)⟩
          · rename_i hole h; rw [hr] at h; simp at h
        | some cl =>
          obtain ⟨c, l⟩ := cl
          obtain ⟨a, e, e1, e2, hF⟩ := hR
          rw [LINE_SIZE_eq] at e1 e2
          have hne := hF.nonempty
          have hsa := hF.usable.1
          have he : e ≤ 256 := by
            have := (hF.free (e - 1) (by omega) (by omega)).1
            omega
          split
          · rename_i h; rw [hr] at h; cases h
          · rename_i h; rw [hr] at h; cases h
          · rename_i hole h
            rw [hr] at h
            simp only [Rust.ret.injEq, Option.some.injEq] at h
            subst h
            simp only []
            have hok' : HoleOK { b with cursor := c, limit := l } := ⟨by simp only []; omega, by simp only []; omega⟩
            have hle128 : l / 128 = e := by omega
            have hnext : ∀ lo hi, HoleAhead { b with cursor := c, limit := l } lo hi ↔ HoleAhead b lo hi ∧ e ≤ lo := by
              intro lo hi
              simp only [HoleAhead, hle128]
              exact holeAt_next hF lo hi
            have hfst : HoleAhead b a e := holeAt_first hF
            have honly : ∀ lo hi, HoleAhead b lo hi → lo < e → lo = a ∧ hi = e := fun lo hi h hlt => holeAt_only hF h hlt
            obtain ⟨r, b', h1, h2⟩ := ih (32768 - l) (by omega) { b with cursor := c, limit := l } hok'
              (by have := hn a e hfst; simp only []; omega) (fun lo hi h => hn lo hi ((hnext lo hi).1 h).1) rfl
            refine ⟨r, b', h1, ?_⟩
            cases h2 with
            | current g1 =>
              simp only [] at g1
              subst e1 e2
              refine .hole a e hfit hfst (by unfold Fits; omega) ?_
              intro lo' hi' g2 g3
              have := (honly lo' hi' g2 (by omega)).1
              omega
            | hole lo hi g1 g2 g3 g4 =>
              simp only [] at g1
              have g5 := (hnext lo hi).1 g2
              refine .hole lo hi hfit g5.1 g3 ?_
              intro lo' hi' k1 k2
              by_cases hlo : lo' < e
              · obtain ⟨rfl, rfl⟩ := honly lo' hi' k1 hlo
                unfold Fits; omega
              · exact g4 lo' hi' ((hnext lo' hi').2 ⟨k1, by omega⟩) k2
            | last lo hi g1 g2 g3 g4 =>
              simp only [] at g1
              have g5 := (hnext lo hi).1 g2
              refine .last lo hi hfit g5.1 ?_ ?_
              · intro lo' hi' k1
                by_cases hlo : lo' < e
                · omega
                · exact g3 lo' hi' ((hnext lo' hi').2 ⟨k1, by omega⟩)
              · intro lo' hi' k1
                by_cases hlo : lo' < e
                · obtain ⟨rfl, rfl⟩ := honly lo' hi' k1 hlo
                  unfold Fits; omega
                · exact g4 lo' hi' ((hnext lo' hi').2 ⟨k1, by omega⟩)
            | full g1 g2 =>
              simp only [] at g1
              have hall : ∀ lo' hi', HoleAhead b lo' hi' → lo' = a ∧ hi' = e := by
                intro lo' hi' k1
                by_cases hlo : lo' < e
                · exact honly lo' hi' k1 hlo
                · exact absurd ((hnext lo' hi').2 ⟨k1, by omega⟩) (g2 lo' hi')
              subst e1 e2
              refine .last a e hfit hfst ?_ ?_
              · intro lo' hi' k1
                have := (hall lo' hi' k1).1
                omega
              · intro lo' hi' k1
                obtain ⟨rfl, rfl⟩ := hall lo' hi' k1
                unfold Fits; omega
      · rw [if_neg hlt]
        refine ⟨none, b, rfl, .full hfit (noHole ?_)⟩
        rintro j ⟨h1, h2, _⟩
        have := h2.1
        omega
    · rw [if_neg hfit]
      exact ⟨_, _, rfl, .current (by omega)⟩

theorem holeAhead_le {b : BumpBlock} {lo hi : Nat} (h : HoleAhead b lo hi) : lo < 256 := (h.usable lo (Nat.le_refl _) h.nonempty).2.1.1

/-- **C92** A request to a block, recycled or not, is placed by next fit: it takes the next bytes of the current hole if
they suffice, otherwise the start of the first hole behind it with enough room; a refused request leaves the block at its
last hole. -/
theorem c92_next_fit (p : Profile) (b : BumpBlock) (n : Nat) (hb : HoleOK b) (hn : n < 2 ^ 63) :
    ∃ r b', b.innerAlloc p n = .ret (r, b') ∧ NextFit b n r b' :=
  nextFit_of_noOverflow p b n hb (by have := hb.le; have := hb.lim; omega) (fun lo hi h => by have := holeAhead_le h; omega)

/-- **C92** Next fit determines the answer and the block: the description above leaves nothing open. -/
theorem c92_determined (b : BumpBlock) (n : Nat) (r₁ r₂ : Option Nat) (b₁ b₂ : BumpBlock) (h₁ : NextFit b n r₁ b₁)
    (h₂ : NextFit b n r₂ b₂) : r₁ = r₂ ∧ b₁ = b₂ := by
  have huniq : ∀ lo hi hi', HoleAhead b lo hi → HoleAhead b lo hi' → hi = hi' := by
    intro lo hi hi' h h'
    have n1 := h.nonempty
    have n2 := h'.nonempty
    rcases Nat.lt_trichotomy hi hi' with g | g | g
    · exact absurd (h'.usable hi (by omega) g) h.right
    · exact g
    · exact absurd (h.usable hi' (by omega) g) h'.right
  cases h₁ with
  | current g1 =>
    cases h₂ with
    | current k1 => exact ⟨rfl, rfl⟩
    | hole lo' hi' k1 => omega
    | last lo' hi' k1 => omega
    | full k1 => omega
  | hole lo hi g1 g2 g3 g4 =>
    cases h₂ with
    | current k1 => omega
    | hole lo' hi' k1 k2 k3 k4 =>
      have : lo = lo' := by
        rcases Nat.lt_trichotomy lo lo' with g | g | g
        · exact absurd g3 (k4 lo hi g2 g)
        · exact g
        · exact absurd k3 (g4 lo' hi' k2 g)
      subst this
      have := huniq lo hi hi' g2 k2
      subst this
      exact ⟨rfl, rfl⟩
    | last lo' hi' k1 k2 k3 k4 => exact absurd g3 (k4 lo hi g2)
    | full k1 k2 => exact absurd g2 (k2 lo hi)
  | last lo hi g1 g2 g3 g4 =>
    cases h₂ with
    | current k1 => omega
    | hole lo' hi' k1 k2 k3 k4 => exact absurd k3 (g4 lo' hi' k2)
    | last lo' hi' k1 k2 k3 k4 =>
      have a1 := g3 lo' hi' k2
      have a2 := k3 lo hi g2
      have : lo = lo' := by omega
      subst this
      have := huniq lo hi hi' g2 k2
      subst this
      exact ⟨rfl, rfl⟩
    | full k1 k2 => exact absurd g2 (k2 lo hi)
  | full g1 g2 =>
    cases h₂ with
    | current k1 => omega
    | hole lo' hi' k1 k2 => exact absurd k2 (g2 lo' hi')
    | last lo' hi' k1 k2 => exact absurd k2 (g2 lo' hi')
    | full k1 k2 => exact ⟨rfl, rfl⟩

theorem regions_above (p : Profile) (sizes : List Nat) (b : BumpBlock) (hb : HoleOK b) (h128 : 128 ≤ b.limit)
    (hs : ∀ n ∈ sizes, n < 2 ^ 63) :
    ∃ rs b', allocSeq p b sizes = .ret (rs, b') ∧ ∀ r ∈ regions sizes rs, b.block.ptr + b.cursor ≤ r.1 := by
  induction sizes generalizing b with
  | nil => exact ⟨[], b, rfl, by simp [regions]⟩
  | cons n ns ih =>
    obtain ⟨r, b1, h1, h2, h3, h4, h5, h6, h7, h8⟩ := innerAlloc_spec p b n hb (hs n (by simp))
    have hl1 : 128 ≤ b1.limit := by
      refine Nat.le_of_not_lt fun hlt => ?_
      have := (h5 hlt).1
      omega
    obtain ⟨rs, b2, k1, k2⟩ := ih b1 h2 hl1 (fun m hm => hs m (by simp [hm]))
    refine ⟨r :: rs, b2, ?_, ?_⟩
    · simp only [allocSeq, h1, Rust.bind_ret, k1]
    · have hcur : b.cursor ≤ b1.cursor := by omega
      intro x hx
      cases r with
      | none =>
        simp only [regions] at hx
        have := k2 x hx
        rw [h3] at this; omega
      | some a =>
        simp only [regions, List.mem_cons] at hx
        rcases hx with rfl | hx
        · simp only [] at h8
          obtain ⟨off, g1, g2, g3, g4⟩ := h8
          have := hb.le
          simp only [g1]
          omega
        · have := k2 x hx
          rw [h3] at this; omega

/-- **C92** What a refused request gives up is lost: after a refusal that moved the block to its last hole, no later
sequence of requests is ever answered with an address before that hole, however much room was left there. -/
theorem c92_given_up (p : Profile) (b b' : BumpBlock) (n : Nat) (lo hi : Nat) (sizes : List Nat) (hb : HoleOK b)
    (hn : n < 2 ^ 63) (hr : b.innerAlloc p n = .ret (none, b')) (hl : HoleAhead b lo hi) (hs : ∀ k ∈ sizes, k < 2 ^ 63) :
    ∃ rs b'', allocSeq p b' sizes = .ret (rs, b'') ∧ ∀ r ∈ regions sizes rs, b.block.ptr + lo * 128 ≤ r.1 := by
  obtain ⟨r, b1, h1, h2⟩ := c92_next_fit p b n hb hn
  obtain ⟨_, b2, e1, e2, _⟩ := innerAlloc_spec p b n hb hn
  rw [hr] at h1 e1
  cases h1
  cases e1
  cases h2 with
  | full g1 g2 => exact absurd hl (g2 lo hi)
  | last lo' hi' g1 g2 g3 g4 =>
    have hne := g2.nonempty
    obtain ⟨rs, b3, k1, k2⟩ := regions_above p sizes _ e2 (by simp only [window]; omega) hs
    refine ⟨rs, b3, k1, ?_⟩
    intro x hx
    have := k2 x hx
    have := g3 lo hi hl
    simp only [window] at *
    omega

/-! ## The hypotheses are met -/

/-- A recycled block in which only lines 3, 4, 9 and 10 are free. -/
def twoHoles : BumpBlock where
  cursor := 16
  limit := 16
  block := { ptr := 32768, size := 32768 }
  info := { lineMark := Vector.ofFn (fun i => !(decide (i.val = 3) || decide (i.val = 4) || decide (i.val = 9) || decide (i.val = 10))), blockMark := false }
  metaPtr := 0

example : Recycled twoHoles ∧ HoleOK twoHoles := ⟨⟨rfl, by decide⟩, recycled_holeOK ⟨rfl, by decide⟩⟩

/-- Requests that fit are placed in line 4, then in line 10. -/
example : (match allocSeq .dev twoHoles [100, 100, 28, 1] with | .ret (r, _) => r | .panic => []) =
    [some (32768 + 4 * 128), some (32768 + 10 * 128), some (32768 + 10 * 128 + 100), none] := by decide +kernel

/-- A refused request gives up line 4 for good: of the two free lines only line 10 can still be handed out. -/
example : (match allocSeq .dev twoHoles [129, 128, 128] with | .ret (r, _) => r | .panic => []) =
    [none, some (32768 + 10 * 128), none] := by decide +kernel

end Verif.Immix
