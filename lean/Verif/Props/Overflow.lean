import Verif.Props.NextFit

/-!
# C116: requests to a block whose end cannot be computed

`inner_alloc` computes `cursor + alloc_size` before it looks at the limit.
-/

namespace Verif.Immix

open Verif Verif.Immix.Spec

/-- **C116** The sum overflows in the current hole: a panic if overflow checks are on; otherwise the request is answered, and the cursor goes
back. -/
theorem c116_current (b : BumpBlock) (n : Nat) (hb : HoleOK b) (hn : n < 2 ^ 64) (h : 2 ^ 64 ≤ b.cursor + n) :
    b.innerAlloc .dev n = .panic ∧
    b.innerAlloc .release n = .ret (some (b.block.ptr + b.cursor), window b (b.cursor - (2 ^ 64 - n)) b.limit) := by
  have hle := hb.le
  have hlim := hb.lim
  constructor
  · rw [BumpBlock.innerAlloc.eq_def, usizeAdd, if_neg (by omega)]
  · rw [BumpBlock.innerAlloc.eq_def, usizeAdd, if_neg (by omega)]
    have e : (b.cursor + n) % 2 ^ 64 = b.cursor - (2 ^ 64 - n) := by omega
    simp only [e]
    rw [if_neg (by omega)]
    rfl

/-- **C116** It does not overflow there, but (first) in the hole of the lines `[lo, hi)` behind it: the same happens in that hole. -/
theorem c116_behind (b : BumpBlock) (n : Nat) (hb : HoleOK b) (hn : n < 2 ^ 64) (h : b.cursor + n < 2 ^ 64) (lo hi : Nat) (hl : HoleAhead b lo hi)
    (ho : 2 ^ 64 ≤ lo * 128 + n) (hf : ∀ lo' hi', HoleAhead b lo' hi' → lo' < lo → lo' * 128 + n < 2 ^ 64) :
    b.innerAlloc .dev n = .panic ∧
    b.innerAlloc .release n = .ret (some (b.block.ptr + lo * 128), window b (lo * 128 - (2 ^ 64 - n)) (hi * 128)) := by
  induction hk : 32768 - b.limit using Nat.strongRecOn generalizing b with
  | ind k ih =>
    have hle := hb.le
    have hlim := hb.lim
    have hlo := holeAhead_le hl
    have hlt : b.limit < 32768 := by
      have := (hl.usable lo (Nat.le_refl _) hl.nonempty).1
      omega
    obtain ⟨r, hr, hR⟩ := findNextAvailableHole_spec b.info b.limit (by omega)
    cases r with
    | none => exact absurd (hl.usable lo (Nat.le_refl _) hl.nonempty) (hR lo)
    | some cl =>
      obtain ⟨c, l⟩ := cl
      obtain ⟨a, e, e1, e2, hF⟩ := hR
      rw [LINE_SIZE_eq] at e1 e2
      have hne := hF.nonempty
      have hsa := hF.usable.1
      have he : e ≤ 256 := by
        have := (hF.free (e - 1) (by omega) (by omega)).1
        omega
      have hok' : HoleOK { b with cursor := c, limit := l } := ⟨by simp only []; omega, by simp only []; omega⟩
      have hnext : ∀ lo hi, HoleAhead { b with cursor := c, limit := l } lo hi ↔ HoleAhead b lo hi ∧ e ≤ lo := by
        intro lo hi
        simp only [HoleAhead, show l / 128 = e by omega]
        exact holeAt_next hF lo hi
      have step : ∀ p, b.innerAlloc p n = BumpBlock.innerAlloc p { b with cursor := c, limit := l } n := by
        intro p
        rw [BumpBlock.innerAlloc.eq_def, usizeAdd_small _ _ _ h]
        simp only [BLOCK_SIZE_eq]
        rw [if_pos (by omega), if_pos hlt]
        split <;> rename_i g <;> rw [hr] at g <;> cases g
        rfl
      rw [step, step]
      by_cases hlo' : lo < e
      · obtain ⟨rfl, rfl⟩ := holeAt_only hF hl hlo'
        subst e1 e2
        exact c116_current { b with cursor := lo * 128, limit := hi * 128 } n hok' hn ho
      · have hc : c + n < 2 ^ 64 := by
          have := hf a e (holeAt_first hF) (by omega)
          omega
        exact ih (32768 - l) (by omega) { b with cursor := c, limit := l } hok' hc ((hnext lo hi).2 ⟨hl, by omega⟩)
          (fun lo' hi' g => hf lo' hi' ((hnext lo' hi').1 g).1) rfl

/-- **C116** It overflows nowhere: the request is placed by next fit (C92), whatever its size. -/
theorem c116_otherwise (p : Profile) (b : BumpBlock) (n : Nat) (hb : HoleOK b) (h : b.cursor + n < 2 ^ 64)
    (hn : ∀ lo hi, HoleAhead b lo hi → lo * 128 + n < 2 ^ 64) :
    ∃ r b', b.innerAlloc p n = .ret (r, b') ∧ NextFit b n r b' := nextFit_of_noOverflow p b n hb h hn

/-- **C116** One of the three cases applies to every size. -/
theorem c116_cases (b : BumpBlock) (n : Nat) : 2 ^ 64 ≤ b.cursor + n ∨
    (b.cursor + n < 2 ^ 64 ∧ ∃ lo hi, HoleAhead b lo hi ∧ 2 ^ 64 ≤ lo * 128 + n ∧
      ∀ lo' hi', HoleAhead b lo' hi' → lo' < lo → lo' * 128 + n < 2 ^ 64) ∨
    (b.cursor + n < 2 ^ 64 ∧ ∀ lo hi, HoleAhead b lo hi → lo * 128 + n < 2 ^ 64) := by
  by_cases h : b.cursor + n < 2 ^ 64
  · refine .inr ?_
    by_cases hA : ∃ lo hi, HoleAhead b lo hi ∧ 2 ^ 64 ≤ lo * 128 + n
    · refine .inl ⟨h, ?_⟩
      obtain ⟨lo, hi, h1, h2⟩ := hA
      induction lo using Nat.strongRecOn generalizing hi with
      | ind lo ih =>
        by_cases hB : ∃ lo' hi', HoleAhead b lo' hi' ∧ lo' < lo ∧ 2 ^ 64 ≤ lo' * 128 + n
        · obtain ⟨lo', hi', g1, g2, g3⟩ := hB
          exact ih lo' g2 hi' g1 g3
        · refine ⟨lo, hi, h1, h2, fun lo' hi' g1 g2 => Nat.lt_of_not_le fun g3 => hB ⟨lo', hi', g1, g2, g3⟩⟩
    · exact .inr ⟨h, fun lo hi g => Nat.lt_of_not_le fun g2 => hA ⟨lo, hi, g, g2⟩⟩
  · exact .inl (by omega)

theorem innerAlloc_fits (p : Profile) (b : BumpBlock) (n : Nat) (h : b.cursor + n < 2 ^ 64) (hf : b.cursor + n ≤ b.limit) :
    b.innerAlloc p n = .ret (some (b.block.ptr + b.cursor), { b with cursor := b.cursor + n }) := by
  rw [BumpBlock.innerAlloc.eq_def, usizeAdd_small _ _ _ h]
  simp only
  rw [if_neg (by omega)]

/-- **C116** Without overflow checks memory is handed out twice: in any block, after a request of `2^64 - k` bytes the next `k` bytes that
are requested are the `k` bytes before the cursor. -/
theorem c116_overlap (b : BumpBlock) (k : Nat) (hb : HoleOK b) (h1 : 1 ≤ k) (hk : k ≤ b.cursor) :
    ∃ b', allocSeq .release b [2 ^ 64 - k, k] = .ret ([some (b.block.ptr + b.cursor), some (b.block.ptr + b.cursor - k)], b') := by
  have hle := hb.le
  have hlim := hb.lim
  have e := (c116_current b (2 ^ 64 - k) hb (by omega) (by omega)).2
  have e2 : b.cursor - (2 ^ 64 - (2 ^ 64 - k)) = b.cursor - k := by omega
  rw [e2] at e
  have e3 : (window b (b.cursor - k) b.limit).innerAlloc .release k =
      .ret (some (b.block.ptr + (b.cursor - k)), window b b.cursor b.limit) := by
    rw [innerAlloc_fits .release (window b (b.cursor - k) b.limit) k (by simp only [window]; omega) (by simp only [window]; omega)]
    simp only [window]
    rw [show b.cursor - k + k = b.cursor by omega]
  refine ⟨window b b.cursor b.limit, ?_⟩
  simp only [allocSeq, e, Rust.bind_ret, e3]
  rw [show b.block.ptr + (b.cursor - k) = b.block.ptr + b.cursor - k by omega]

/-! ## The hypotheses are met -/

/-- A new block hands out its first 100 bytes a second time. -/
example : (match allocSeq .release { cursor := 16, limit := 32768, block := { ptr := 32768, size := 32768 }, info := BlockMeta.new, metaPtr := 0 }
    [100, 2 ^ 64 - 100, 100] with | .ret (r, _) => r | .panic => []) = [some 32784, some 32884, some 32784] := by decide +kernel

/-- In `twoHoles` (C92) a request of `2^64 - 1000` bytes overflows neither in the current hole nor in line 4, but in line 10. -/
example : twoHoles.cursor + (2 ^ 64 - 1000) < 2 ^ 64 ∧ 4 * 128 + (2 ^ 64 - 1000) < 2 ^ 64 ∧
    twoHoles.innerAlloc .dev (2 ^ 64 - 1000) = .panic ∧
    (match twoHoles.innerAlloc .release (2 ^ 64 - 1000) with | .ret (r, b) => (r, b.cursor, b.limit) | .panic => (none, 0, 0)) =
      (some (32768 + 1280), 280, 1408) := by
  refine ⟨by decide, by decide, ?_, by decide +kernel⟩
  cases h : twoHoles.innerAlloc .dev (2 ^ 64 - 1000) with
  | panic => rfl
  | ret x =>
    have : (match twoHoles.innerAlloc .dev (2 ^ 64 - 1000) with | .ret _ => true | .panic => false) = false := by decide +kernel
    rw [h] at this
    cases this

end Verif.Immix
