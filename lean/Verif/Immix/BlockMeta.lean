import Verif.Immix.Basic

/-!
# Model of `stickyimmix/src/blockmeta.rs`
-/

namespace Verif.Immix

open Verif

/-- blockmeta.rs:5-8 `BlockMeta` -/
structure BlockMeta where
  lineMark : Vector Bool LINE_COUNT
  blockMark : Bool
  deriving DecidableEq

/-- blockmeta.rs:14-19 `BlockMeta::new_boxed` (the box's address is kept by the caller) -/
def BlockMeta.new : BlockMeta := { lineMark := Vector.replicate LINE_COUNT false, blockMark := false }

/-- blockmeta.rs:22-24 `mark_line`: indexing panics out of range -/
def BlockMeta.markLine (m : BlockMeta) (index : Nat) : Rust BlockMeta :=
  if h : index < LINE_COUNT then .ret { m with lineMark := m.lineMark.set index true } else .panic

/-- blockmeta.rs:27-29 `mark_block` -/
def BlockMeta.markBlock (m : BlockMeta) : BlockMeta := { m with blockMark := true }

/-- blockmeta.rs:32-37 `reset` -/
def BlockMeta.reset (m : BlockMeta) : BlockMeta :=
  { lineMark := m.lineMark.map (fun _ => false), blockMark := false }

/-- blockmeta.rs:40-42 `line_iter`: the flags in order -/
def BlockMeta.lineIter (m : BlockMeta) : List Bool := m.lineMark.toList

/-- The loop of `find_next_available_hole`, blockmeta.rs:56-95; `lines` is what is left of
`line_mark[starting_line..]`, `absIndex` the index of its first element in the block. -/
def holeLoop : (lines : List Bool) → (absIndex count : Nat) → (start : Option Nat) → (stop : Nat) →
    Option (Nat × Nat)
  | [], _, _, _, _ => none
  | marked :: rest, absIndex, count, start, stop =>
    let count' := if !marked then count + 1 else count
    -- line 65-67: `continue` on the first unmarked line of a hole, except line 0
    if !marked && (count' == 1 && decide (absIndex > 0)) then
      holeLoop rest (absIndex + 1) count' start stop
    else
      let start' := if !marked then (if start.isNone then some absIndex else start) else start
      let stop' := if !marked then absIndex + 1 else stop
      -- line 80-87
      match (if decide (count' > 0) && (marked || decide (stop' ≥ LINE_COUNT)) then start' else none) with
      | some s => some (s * LINE_SIZE, stop' * LINE_SIZE)
      | none =>
        -- line 91-94
        if marked then holeLoop rest (absIndex + 1) 0 none stop'
        else holeLoop rest (absIndex + 1) count' start' stop'

/-- blockmeta.rs:49-98 `find_next_available_hole`.  The slice `line_mark[starting_line..]` panics when
`starting_line > LINE_COUNT`. -/
def BlockMeta.findNextAvailableHole (m : BlockMeta) (startingAt : Nat) : Rust (Option (Nat × Nat)) :=
  let startingLine := startingAt / LINE_SIZE
  if startingLine > LINE_COUNT then .panic
  else .ret (holeLoop (m.lineMark.toList.drop startingLine) startingLine 0 none 0)


/-! ## Unfolding of the loop, state by state

`count = 0`: no hole open; `count = 1, start = none`: one conservatively kept line seen;
`start = some a`: a hole starting at line `a` is open. -/

theorem holeLoop_nil (i k : Nat) (st : Option Nat) (sp : Nat) : holeLoop [] i k st sp = none := rfl

theorem holeLoop_closed_marked (r : List Bool) (i sp : Nat) :
    holeLoop (true :: r) i 0 none sp = holeLoop r (i + 1) 0 none sp := by
  rw [holeLoop]; simp

theorem holeLoop_closed_free_pos (r : List Bool) (i sp : Nat) (h : 0 < i) :
    holeLoop (false :: r) i 0 none sp = holeLoop r (i + 1) 1 none sp := by
  rw [holeLoop]; simp [h]

theorem holeLoop_closed_free_zero (r : List Bool) (sp : Nat) :
    holeLoop (false :: r) 0 0 none sp = holeLoop r 1 1 (some 0) 1 := by
  rw [holeLoop]; simp [LINE_COUNT_eq]

theorem holeLoop_skipped_marked (r : List Bool) (i sp k : Nat) :
    holeLoop (true :: r) i (k + 1) none sp = holeLoop r (i + 1) 0 none sp := by
  rw [holeLoop]; simp

theorem holeLoop_skipped_free (r : List Bool) (i sp : Nat) :
    holeLoop (false :: r) i 1 none sp =
      if LINE_COUNT ≤ i + 1 then some (i * LINE_SIZE, (i + 1) * LINE_SIZE)
      else holeLoop r (i + 1) 2 (some i) (i + 1) := by
  rw [holeLoop]; by_cases h : LINE_COUNT ≤ i + 1 <;> simp [h]

theorem holeLoop_open_marked (r : List Bool) (i k a sp : Nat) :
    holeLoop (true :: r) i (k + 1) (some a) sp = some (a * LINE_SIZE, sp * LINE_SIZE) := by
  rw [holeLoop]; simp

theorem holeLoop_open_free (r : List Bool) (i k a sp : Nat) (hk : 0 < k) :
    holeLoop (false :: r) i k (some a) sp =
      if LINE_COUNT ≤ i + 1 then some (a * LINE_SIZE, (i + 1) * LINE_SIZE)
      else holeLoop r (i + 1) (k + 1) (some a) (i + 1) := by
  rw [holeLoop]
  have : k ≠ 0 := by omega
  by_cases h : LINE_COUNT ≤ i + 1 <;> simp [h, this]

/-- An open hole is closed at the first marked line or at the end of the block. -/
theorem holeLoop_open (lines : List Bool) (i k a : Nat) (hk : 0 < k) (hne : lines ≠ [])
    (hlen : i + lines.length = LINE_COUNT) :
    holeLoop lines i k (some a) i =
      some (a * LINE_SIZE, (i + (lines.takeWhile (fun b => !b)).length) * LINE_SIZE) := by
  induction lines generalizing i k with
  | nil => exact absurd rfl hne
  | cons m r ih =>
    cases m with
    | true =>
      obtain ⟨k, rfl⟩ : ∃ j, k = j + 1 := ⟨k - 1, by omega⟩
      rw [holeLoop_open_marked]; simp
    | false =>
      rw [holeLoop_open_free _ _ _ _ _ hk]
      simp only [List.length_cons] at hlen
      by_cases h : LINE_COUNT ≤ i + 1
      · have : r = [] := by
          cases r with
          | nil => rfl
          | cons => simp at hlen; omega
        subst this; simp [h]
      · rw [if_neg h, ih (i + 1) (k + 1) (by omega) (by intro hr; simp [hr] at hlen; omega) (by omega)]
        simp; congr 1; omega

/-- The end of a hole that is found lies strictly beyond the line the search started from
(termination of `inner_alloc`). -/
theorem holeLoop_limit (lines : List Bool) (i sp k c l : Nat) (hk : k = 0 ∨ k = 1) (hlen : i + lines.length = LINE_COUNT)
    (h : holeLoop lines i k none sp = some (c, l)) : (i + 1) * LINE_SIZE ≤ l := by
  have e := LINE_SIZE_eq
  have eC := LINE_COUNT_eq
  induction lines generalizing i sp k with
  | nil => simp [holeLoop_nil] at h
  | cons m r ih =>
    simp only [List.length_cons] at hlen
    rcases hk with rfl | rfl <;> cases m
    · rcases Nat.eq_zero_or_pos i with rfl | hi
      · rw [holeLoop_closed_free_zero, holeLoop_open _ _ _ _ (by omega) (by intro hr; simp [hr] at hlen; omega) (by omega)] at h
        simp only [Option.some.injEq, Prod.mk.injEq] at h; rw [← h.2, e]; simp only [Nat.add_mul] at *; omega
      · rw [holeLoop_closed_free_pos _ _ _ hi] at h
        have := ih (i + 1) sp 1 (Or.inr rfl) (by omega) h
        rw [e] at this ⊢; simp only [Nat.add_mul] at *; omega
    · rw [holeLoop_closed_marked] at h
      have := ih (i + 1) sp 0 (Or.inl rfl) (by omega) h
      rw [e] at this ⊢; simp only [Nat.add_mul] at *; omega
    · rw [holeLoop_skipped_free] at h
      split at h
      · simp only [Option.some.injEq, Prod.mk.injEq] at h; rw [← h.2, e]; simp only [Nat.add_mul] at *; omega
      · rw [holeLoop_open _ _ _ _ (by omega) (by intro hr; simp [hr] at hlen; omega) (by omega)] at h
        simp only [Option.some.injEq, Prod.mk.injEq] at h; rw [← h.2, e]; simp only [Nat.add_mul] at *; omega
    · rw [holeLoop_skipped_marked] at h
      have := ih (i + 1) sp 0 (Or.inl rfl) (by omega) h
      rw [e] at this ⊢; simp only [Nat.add_mul] at *; omega

/-- Termination measure of `inner_alloc`: the new limit is strictly greater than the old one. -/
theorem findNextAvailableHole_limit {m : BlockMeta} {at_ c l : Nat}
    (h : m.findNextAvailableHole at_ = .ret (some (c, l))) : at_ < l := by
  unfold BlockMeta.findNextAvailableHole at h
  simp only at h
  split at h
  · cases h
  · rename_i hle
    have e := LINE_SIZE_eq
    simp only [Rust.ret.injEq] at h
    have := holeLoop_limit _ _ _ _ _ _ (Or.inl rfl) (by simp; omega) h
    rw [e] at this
    omega

end Verif.Immix
