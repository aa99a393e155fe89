import Verif.Immix.HoleLemmas
import Verif.Immix.HeapLemmas

/-!
# The line marks an allocation looks at

`holeLoop`, `find_next_available_hole` and `inner_alloc` once more, with a log: the numbers of the lines whose mark is read
(`marked` of the loop `for (index, marked) in self.line_mark[starting_line..].iter().enumerate()`), in order.
-/

namespace Verif.Immix

open Verif Verif.Immix.Spec

/-- blockmeta.rs:56-95, `holeLoop` with the log -/
def holeLoopL : (lines : List Bool) → (absIndex count : Nat) → (start : Option Nat) → (stop : Nat) → Option (Nat × Nat) × List Nat
  | [], _, _, _, _ => (none, [])
  | marked :: rest, absIndex, count, start, stop =>
    let count' := if !marked then count + 1 else count
    if !marked && (count' == 1 && decide (absIndex > 0)) then
      let (r, l) := holeLoopL rest (absIndex + 1) count' start stop
      (r, absIndex :: l)
    else
      let start' := if !marked then (if start.isNone then some absIndex else start) else start
      let stop' := if !marked then absIndex + 1 else stop
      match (if decide (count' > 0) && (marked || decide (stop' ≥ LINE_COUNT)) then start' else none) with
      | some s => (some (s * LINE_SIZE, stop' * LINE_SIZE), [absIndex])
      | none =>
        if marked then
          let (r, l) := holeLoopL rest (absIndex + 1) 0 none stop'
          (r, absIndex :: l)
        else
          let (r, l) := holeLoopL rest (absIndex + 1) count' start' stop'
          (r, absIndex :: l)

/-- blockmeta.rs:49-98 `find_next_available_hole` with the log -/
def BlockMeta.findNextAvailableHoleL (m : BlockMeta) (startingAt : Nat) : Rust (Option (Nat × Nat) × List Nat) :=
  let startingLine := startingAt / LINE_SIZE
  if startingLine > LINE_COUNT then .panic
  else .ret (holeLoopL (m.lineMark.toList.drop startingLine) startingLine 0 none 0)

theorem holeLoopL_fst (lines : List Bool) (i k : Nat) (st : Option Nat) (sp : Nat) :
    (holeLoopL lines i k st sp).1 = holeLoop lines i k st sp := by
  induction lines generalizing i k st sp with
  | nil => rfl
  | cons m r ih =>
    cases m
    · rw [holeLoopL, holeLoop]
      simp only [Bool.not_false, if_true, Bool.false_or, Bool.true_and, Bool.false_eq_true, if_false]
      by_cases h1 : (k + 1 == 1 && decide (i > 0)) = true
      · rw [if_pos h1, if_pos h1]; exact ih ..
      · rw [if_neg h1, if_neg h1]
        generalize (if (decide (k + 1 > 0) && decide (i + 1 ≥ LINE_COUNT)) = true then if st.isNone = true then some i else st else none) = d
        cases d
        · exact ih ..
        · rfl
    · rw [holeLoopL, holeLoop]
      simp only [Bool.not_true, if_true, Bool.true_or, Bool.false_and, Bool.false_eq_true, if_false]
      generalize (if (decide (k > 0) && true) = true then st else none) = d
      cases d
      · exact ih ..
      · rfl

theorem findNextAvailableHoleL_eq (m : BlockMeta) (s : Nat) :
    (m.findNextAvailableHoleL s = .panic ∧ m.findNextAvailableHole s = .panic) ∨
    ∃ r l, m.findNextAvailableHoleL s = .ret (r, l) ∧ m.findNextAvailableHole s = .ret r := by
  unfold BlockMeta.findNextAvailableHoleL BlockMeta.findNextAvailableHole
  simp only
  split
  · exact .inl ⟨rfl, rfl⟩
  · exact .inr ⟨_, _, rfl, by rw [holeLoopL_fst]⟩

/-- bumpblock.rs:61-79 `inner_alloc` with the log -/
def BumpBlock.innerAllocL (p : Profile) (b : BumpBlock) (allocSize : Nat) : Rust ((Option Nat × BumpBlock) × List Nat) :=
  match usizeAdd p b.cursor allocSize with
  | .panic => .panic
  | .ret nextBump =>
    if nextBump > b.limit then
      if b.limit < BLOCK_SIZE then
        match _h : b.info.findNextAvailableHoleL b.limit with
        | .panic => .panic
        | .ret (none, l) => .ret ((none, b), l)
        | .ret (some hole, l) =>
          match BumpBlock.innerAllocL p { b with cursor := hole.1, limit := hole.2 } allocSize with
          | .panic => .panic
          | .ret (x, l') => .ret (x, l ++ l')
      else .ret ((none, b), [])
    else .ret ((some (b.block.ptr + b.cursor), { b with cursor := nextBump }), [])
termination_by BLOCK_SIZE - b.limit
decreasing_by
  have h2 : b.info.findNextAvailableHole b.limit = .ret (some hole) := by
    rcases findNextAvailableHoleL_eq b.info b.limit with h | ⟨r, l', h1, h2⟩
    · rw [h.1] at _h; cases _h
    · rw [h1] at _h; cases _h; exact h2
  have := findNextAvailableHole_limit (c := hole.1) (l := hole.2) h2
  omega

/-- A sequence of requests to one block, with the log. -/
def allocSeqL (p : Profile) (b : BumpBlock) : List Nat → Rust ((List (Option Nat) × BumpBlock) × List Nat)
  | [] => .ret (([], b), [])
  | n :: ns => do
    let ((r, b), l) ← b.innerAllocL p n
    let ((rs, b), l') ← allocSeqL p b ns
    .ret ((r :: rs, b), l ++ l')

/-- Without the log it is `inner_alloc`. -/
theorem innerAllocL_eq (p : Profile) (b : BumpBlock) (n : Nat) :
    (b.innerAllocL p n = .panic ∧ b.innerAlloc p n = .panic) ∨
    ∃ x l, b.innerAllocL p n = .ret (x, l) ∧ b.innerAlloc p n = .ret x := by
  induction hk : BLOCK_SIZE - b.limit using Nat.strongRecOn generalizing b with
  | ind k ih =>
    rw [BumpBlock.innerAllocL.eq_def, BumpBlock.innerAlloc.eq_def]
    cases usizeAdd p b.cursor n with
    | panic => exact .inl ⟨rfl, rfl⟩
    | ret nb =>
      simp only
      by_cases h1 : nb > b.limit
      · rw [if_pos h1, if_pos h1]
        by_cases h2 : b.limit < BLOCK_SIZE
        · rw [if_pos h2, if_pos h2]
          rcases findNextAvailableHoleL_eq b.info b.limit with ⟨g1, g2⟩ | ⟨r, l, g1, g2⟩
          · refine .inl ⟨?_, ?_⟩
            · split <;> rename_i h <;> rw [g1] at h <;> cases h
              try rfl
            · split <;> rename_i h <;> rw [g2] at h <;> cases h
              try rfl
          · cases r with
            | none =>
              refine .inr ⟨(none, b), l, ?_, ?_⟩
              · split <;> rename_i h <;> rw [g1] at h <;> cases h
                try rfl
              · split <;> rename_i h <;> rw [g2] at h <;> cases h
                try rfl
            | some hole =>
              have hlt := findNextAvailableHole_limit (c := hole.1) (l := hole.2) g2
              rcases ih (BLOCK_SIZE - hole.2) (by omega) { b with cursor := hole.1, limit := hole.2 } rfl with ⟨k1, k2⟩ | ⟨x, l', k1, k2⟩
              · refine .inl ⟨?_, ?_⟩
                · split <;> rename_i h <;> rw [g1] at h <;> cases h
                  rw [k1]
                · split <;> rename_i h <;> rw [g2] at h <;> cases h
                  exact k2
              · refine .inr ⟨x, l ++ l', ?_, ?_⟩
                · split <;> rename_i h <;> rw [g1] at h <;> cases h
                  rw [k1]
                · split <;> rename_i h <;> rw [g2] at h <;> cases h
                  exact k2
        · rw [if_neg h2, if_neg h2]; exact .inr ⟨_, _, rfl, rfl⟩
      · rw [if_neg h1, if_neg h1]; exact .inr ⟨_, _, rfl, rfl⟩

/-- The lines read by a search: from the first one to the line behind the hole, or to the end of the block. -/
theorem holeLoopL_log (lines : List Bool) (i k : Nat) (st : Option Nat) (sp : Nat) (hl : i + lines.length = 256)
    (hst : st.isSome → sp = i ∧ 0 < k) :
    (∀ c l, (holeLoopL lines i k st sp).1 = some (c, l) → i ≤ l / 128 ∧ i < 256) ∧
    (holeLoopL lines i k st sp).2 = List.range' i (match (holeLoopL lines i k st sp).1 with
      | none => 256 - i
      | some (_, l) => min (l / 128 + 1) 256 - i) := by
  induction lines generalizing i k st sp with
  | nil =>
    simp only [List.length_nil] at hl
    have : i = 256 := by omega
    subst this
    exact ⟨fun c l h => (by simp [holeLoopL] at h), rfl⟩
  | cons m r ih =>
    simp only [List.length_cons] at hl
    have step : ∀ (x : Option (Nat × Nat)) (lg : List Nat), (∀ c l, x = some (c, l) → i + 1 ≤ l / 128 ∧ i + 1 < 256) →
        lg = List.range' (i + 1) (match x with | none => 256 - (i + 1) | some (_, l) => min (l / 128 + 1) 256 - (i + 1)) →
        (∀ c l, x = some (c, l) → i ≤ l / 128 ∧ i < 256) ∧
        i :: lg = List.range' i (match x with | none => 256 - i | some (_, l) => min (l / 128 + 1) 256 - i) := by
      intro x lg h1 h2
      refine ⟨fun c l h => by have := h1 c l h; omega, ?_⟩
      rw [h2]
      cases x with
      | none =>
        simp only
        rw [show 256 - i = (256 - (i + 1)) + 1 by omega, List.range'_succ]
      | some cl =>
        obtain ⟨c, l⟩ := cl
        have := h1 c l rfl
        simp only
        rw [show min (l / 128 + 1) 256 - i = (min (l / 128 + 1) 256 - (i + 1)) + 1 by omega, List.range'_succ]
    cases m
    · rw [holeLoopL]
      simp only [Bool.not_false, if_true, Bool.false_or, Bool.true_and, Bool.false_eq_true, if_false]
      by_cases h1 : (k + 1 == 1 && decide (i > 0)) = true
      · rw [if_pos h1]
        have hs : ¬ st.isSome := fun h => by have := (hst h).2; simp at h1; omega
        have := ih (i + 1) (k + 1) st sp (by omega) (fun h => absurd h hs)
        exact step _ _ this.1 this.2
      · rw [if_neg h1]
        split
        · rename_i s hs
          rw [LINE_COUNT_eq] at hs
          have : i = 255 := by
            refine Classical.byContradiction fun hne => ?_
            rw [if_neg (by simp; omega)] at hs
            cases hs
          subst this
          rw [LINE_SIZE_eq]
          exact ⟨fun c l h => by simp only [Option.some.injEq, Prod.mk.injEq] at h; omega, rfl⟩
        · have := ih (i + 1) (k + 1) (if st.isNone = true then some i else st) (i + 1) (by omega) (fun _ => ⟨rfl, by omega⟩)
          exact step _ _ this.1 this.2
    · rw [holeLoopL]
      simp only [Bool.not_true, if_true, Bool.true_or, Bool.false_and, Bool.false_eq_true, if_false]
      split
      · rename_i s hs
        have hsp : sp = i := (hst (by split at hs; · rw [hs]; rfl
                                      · cases hs)).1
        subst hsp
        rw [LINE_SIZE_eq]
        refine ⟨fun c l h => by simp only [Option.some.injEq, Prod.mk.injEq] at h; omega, ?_⟩
        simp only
        rw [show min (sp * 128 / 128 + 1) 256 - sp = 1 by omega]
        rfl
      · have := ih (i + 1) 0 none sp (by omega) (by simp)
        exact step _ _ this.1 this.2

/-- `find_next_available_hole` with the log: what it finds, and which lines it looks at. -/
theorem findNextAvailableHoleL_spec (m : BlockMeta) (at_ : Nat) (h : at_ ≤ 32768) :
    ∃ r l, m.findNextAvailableHoleL at_ = .ret (r, l) ∧ m.findNextAvailableHole at_ = .ret r ∧ HoleResult m (at_ / 128) r ∧
      l = List.range' (at_ / 128) (match r with | none => 256 - at_ / 128 | some (_, e) => min (e / 128 + 1) 256 - at_ / 128) := by
  obtain ⟨r, h1, h2⟩ := findNextAvailableHole_spec m at_ (by omega)
  rcases findNextAvailableHoleL_eq m at_ with ⟨_, g⟩ | ⟨r', l, g1, g2⟩
  · rw [g] at h1; cases h1
  · rw [h1] at g2
    cases g2
    refine ⟨r, l, g1, h1, h2, ?_⟩
    unfold BlockMeta.findNextAvailableHoleL at g1
    simp only [LINE_SIZE_eq, LINE_COUNT_eq] at g1
    rw [if_neg (by omega)] at g1
    simp only [Rust.ret.injEq] at g1
    have := (holeLoopL_log (m.lineMark.toList.drop (at_ / 128)) (at_ / 128) 0 none 0 (by simp [LINE_COUNT_eq]; omega) (by simp)).2
    rw [g1] at this
    exact this

/-- How often each line may still be looked at by requests that are answered. -/
def stillSeen (b : BumpBlock) (j : Nat) : Nat := if j < b.limit / 128 then 0 else if j = b.limit / 128 then 1 else 2

open Classical in
/-- Three times the number of looks that are still possible for requests that are answered. -/
noncomputable def stillLooks (b : BumpBlock) : Nat :=
  if b.limit = 32768 then 0 else 4 * (256 - b.limit / 128) + (if LineMarked b.info (b.limit / 128) then 0 else 2) - 3

theorem count_range' (s n j : Nat) : (List.range' s n).count j = if s ≤ j ∧ j < s + n then 1 else 0 := by
  induction n generalizing s with
  | zero =>
    rw [if_neg (by omega)]; rfl
  | succ n ih =>
    rw [List.range'_succ, List.count_cons, ih]
    by_cases h : s = j
    · subst h
      rw [if_neg (by omega : ¬ (s + 1 ≤ s ∧ s < s + 1 + n)), if_pos (show s ≤ s ∧ s < s + (n + 1) from ⟨Nat.le_refl _, by omega⟩)]
      simp
    · have : (s == j) = false := by simp [h]
      rw [this]
      simp only [Bool.false_eq_true, if_false, Nat.add_zero]
      split <;> split <;> omega

theorem innerAllocL_bound (p : Profile) (b : BumpBlock) (n : Nat) (hb : HoleOK b) (hn : n < 2 ^ 63) :
    ∃ r b' l, b.innerAllocL p n = .ret ((r, b'), l) ∧ HoleOK b' ∧ (n ≤ b.limit - b.cursor → l = []) ∧
      3 * l.length + stillLooks b' ≤ stillLooks b + 768 * (if r = none then 1 else 0) ∧
      ∀ j, l.count j + stillSeen b' j ≤ stillSeen b j + (if r = none then 1 else 0) := by
  induction hk : 32768 - b.limit using Nat.strongRecOn generalizing b with
  | ind k ih =>
    have hle := hb.le
    have hlim := hb.lim
    rw [BumpBlock.innerAllocL.eq_def, usizeAdd_small _ _ _ (by omega)]
    simp only [BLOCK_SIZE_eq]
    by_cases hfit : b.cursor + n > b.limit
    · rw [if_pos hfit]
      by_cases hlt : b.limit < 32768
      · rw [if_pos hlt]
        obtain ⟨r, l, hr, -, hR, hlog⟩ := findNextAvailableHoleL_spec b.info b.limit (by omega)
        cases r with
        | none =>
          refine ⟨none, b, l, ?_, hb, fun h => by omega, ?_, fun j => ?_⟩
          · split <;> rename_i h <;> rw [hr] at h <;> cases h
            try rfl
          · rw [hlog, List.length_range']
            simp only [if_true]
            omega
          · rw [hlog, count_range']
            simp only [if_true]
            split <;> omega
        | some cl =>
          obtain ⟨c, e0⟩ := cl
          obtain ⟨a, e, e1, e2, hF⟩ := hR
          rw [LINE_SIZE_eq] at e1 e2
          have hne := hF.nonempty
          have hu := hF.usable
          have hsa := hu.1
          have he : e ≤ 256 := by
            have := (hF.free (e - 1) (by omega) (by omega)).1
            omega
          have hok' : HoleOK { b with cursor := c, limit := e0 } := ⟨by simp only []; omega, by simp only []; omega⟩
          obtain ⟨r, b', l', h1, h2, h3, h4, h5⟩ := ih (32768 - e0) (by omega) { b with cursor := c, limit := e0 } hok' rfl
          have hee : e0 / 128 = e := by omega
          refine ⟨r, b', l ++ l', ?_, h2, fun h => by omega, ?_, fun j => ?_⟩
          · split <;> rename_i h <;> rw [hr] at h <;> cases h
            rw [h1]
          · have key : 3 * l.length + stillLooks { b with cursor := c, limit := e0 } ≤ stillLooks b := by
              rw [hlog, List.length_range']
              unfold stillLooks
              simp only [hee]
              rw [if_neg (by omega : ¬ b.limit = 32768)]
              have hgap : LineMarked b.info (b.limit / 128) → b.limit / 128 + 3 ≤ e := by
                intro hm
                have h1 : a ≠ b.limit / 128 := fun h => (h ▸ hu.2.1).2 hm
                rcases hu.2.2 with h | ⟨h, h'⟩
                · omega
                · have : a - 1 ≠ b.limit / 128 := fun h => (h ▸ h').2 hm
                  omega
              by_cases hend : e0 = 32768
              · rw [if_pos hend]
                split
                · rename_i hm; have := hgap hm; omega
                · omega
              · rw [if_neg hend]
                have hm : LineMarked b.info e := by
                  rcases hF.maximal with h | h
                  · omega
                  · exact h
                rw [if_pos (hee.symm ▸ hm)]
                split
                · rename_i hm; have := hgap hm; omega
                · omega
            rw [List.length_append]
            omega
          · have := h5 j
            have key : l.count j + stillSeen { b with cursor := c, limit := e0 } j ≤ stillSeen b j := by
              rw [hlog, count_range']
              unfold stillSeen
              simp only [hee]
              repeat' split
              all_goals omega
            rw [List.count_append]
            omega
      · rw [if_neg hlt]
        refine ⟨none, b, [], rfl, hb, fun _ => rfl, ?_, fun j => ?_⟩
        · simp
        · simp
    · rw [if_neg hfit]
      refine ⟨_, _, [], rfl, ⟨by simp only []; omega, hlim⟩, fun _ => rfl, ?_, fun j => ?_⟩
      · simp [stillLooks]
      · simp [stillSeen]

end Verif.Immix
