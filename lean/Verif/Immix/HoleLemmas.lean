import Verif.Spec.Hole

/-!
# The hole search finds the first hole
-/

namespace Verif.Immix

open Verif Verif.Immix.Spec

/-- `lines` is what is left of the line marks from line `i` on. -/
structure Tail (m : BlockMeta) (lines : List Bool) (i : Nat) : Prop where
  len : i + lines.length = 256
  get : lines = m.lineMark.toList.drop i

theorem Tail.cons {m : BlockMeta} {b : Bool} {r : List Bool} {i : Nat} (h : Tail m (b :: r) i) :
    i < 256 ∧ m.lineMark.toList[i]? = some b ∧ Tail m r (i + 1) := by
  have hl := h.len
  simp only [List.length_cons] at hl
  have h2 := congrArg (fun l => l[0]?) h.get
  simp only [List.getElem?_drop, List.getElem?_cons_zero, Nat.add_zero] at h2
  refine ⟨by omega, h2.symm, by omega, ?_⟩
  have h3 := congrArg (List.drop 1) h.get
  simpa [List.drop_drop] using h3

theorem free_of_get {m : BlockMeta} {i : Nat} (hi : i < 256) (h : m.lineMark.toList[i]? = some false) : LineFree m i :=
  ⟨hi, by unfold LineMarked; rw [h]; simp⟩

theorem marked_not_free {m : BlockMeta} {i : Nat} (h : m.lineMark.toList[i]? = some true) : ¬ LineFree m i :=
  fun hf => hf.2 h

/-- The end of an open hole. -/
theorem takeWhile_end {m : BlockMeta} {lines : List Bool} {i : Nat} (ht : Tail m lines i) :
    let b := i + (lines.takeWhile (fun x => !x)).length
    (∀ j, i ≤ j → j < b → LineFree m j) ∧ (b = 256 ∨ LineMarked m b) := by
  induction lines generalizing i with
  | nil =>
    have := ht.len
    simp at this
    refine ⟨fun j h1 h2 => ?_, Or.inl (by simpa using this)⟩
    simp at h2; omega
  | cons b r ih =>
    obtain ⟨hi, hg, ht'⟩ := ht.cons
    cases b with
    | true =>
      refine ⟨fun j h1 h2 => ?_, Or.inr (by simpa [LineMarked] using hg)⟩
      simp at h2; omega
    | false =>
      have := ih ht'
      simp only [List.takeWhile_cons, Bool.not_false, if_true, List.length_cons] at this ⊢
      have e : i + ((r.takeWhile fun x => !x).length + 1) = i + 1 + (r.takeWhile fun x => !x).length := by omega
      rw [e]
      refine ⟨fun j h1 h2 => ?_, this.2⟩
      by_cases hj : j = i
      · subst hj; exact free_of_get hi hg
      · exact this.1 j (by omega) h2

/-- What the search must return. -/
def HoleResult (m : BlockMeta) (s : Nat) : Option (Nat × Nat) → Prop
  | none => ∀ j, ¬ Usable m s j
  | some (c, l) => ∃ a b, c = a * LINE_SIZE ∧ l = b * LINE_SIZE ∧ FirstHole m s a b

theorem holeLoop_opened {m : BlockMeta} {r : List Bool} {i k s : Nat} (hk : 0 < k) (hi : i < 256)
    (ht : Tail m r (i + 1)) (hf : LineFree m i) (hu : Usable m s i) (hfirst : ∀ j, Usable m s j → i ≤ j) :
    HoleResult m s (if LINE_COUNT ≤ i + 1 then some (i * LINE_SIZE, (i + 1) * LINE_SIZE)
      else holeLoop r (i + 1) k (some i) (i + 1)) := by
  have hl := ht.len
  by_cases h : LINE_COUNT ≤ i + 1
  · rw [if_pos h]
    rw [LINE_COUNT_eq] at h
    refine ⟨i, i + 1, rfl, rfl, hu, hfirst, by omega, ?_, Or.inl (by omega)⟩
    intro j h1 h2
    have : j = i := by omega
    subst this; exact hf
  · rw [if_neg h]
    rw [LINE_COUNT_eq] at h
    rw [holeLoop_open r (i + 1) k i hk (by intro hr; simp [hr] at hl; omega) (by rw [LINE_COUNT_eq]; exact hl)]
    have ⟨h1, h2⟩ := takeWhile_end ht
    refine ⟨i, _, rfl, rfl, hu, hfirst, by omega, ?_, h2⟩
    intro j h3 h4
    by_cases hj : j = i
    · subst hj; exact hf
    · exact h1 j (by omega) h4

/-- The loop finds the first hole.  `k = 0`: the search starts (again) at line `i`;
`k = 1`: line `i - 1` was free and is being kept conservatively. -/
theorem holeLoop_spec (m : BlockMeta) (lines : List Bool) (i sp k : Nat) (ht : Tail m lines i)
    (hk : k = 0 ∨ (k = 1 ∧ 2 ≤ i ∧ LineFree m (i - 1))) :
    HoleResult m (i - k) (holeLoop lines i k none sp) := by
  induction lines generalizing i k with
  | nil =>
    rw [holeLoop_nil]
    have := ht.len
    simp at this
    intro j hu
    have := hu.2.1.1
    rcases hk with rfl | ⟨rfl, _, _⟩
    · have := hu.1; omega
    · have := hu.2.2; have := hu.1; omega
  | cons b r ih =>
    obtain ⟨hi, hg, ht'⟩ := ht.cons
    rcases hk with rfl | ⟨rfl, h2, hprev⟩
    · cases b with
      | true =>
        rw [holeLoop_closed_marked]
        have := ih (i + 1) 0 ht' (Or.inl rfl)
        have heq : ∀ j, Usable m (i + 1) j ↔ Usable m i j := by
          intro j
          have hnf := marked_not_free hg
          constructor
          · rintro ⟨h1, hfr, h3⟩
            exact ⟨by omega, hfr, h3.imp id (fun h => ⟨by omega, h.2⟩)⟩
          · rintro ⟨h1, hfr, h3⟩
            by_cases hj : j = i
            · subst hj; exact absurd hfr hnf
            · refine ⟨by omega, hfr, ?_⟩
              rcases h3 with h3 | ⟨h3, h4⟩
              · omega
              · right
                refine ⟨?_, h4⟩
                by_cases hj1 : j = i + 1
                · subst hj1; exact absurd h4 hnf
                · omega
        cases hr : holeLoop r (i + 1) 0 none sp with
        | none => rw [hr] at this; intro j hu; exact this j ((heq j).2 hu)
        | some cl =>
          rw [hr] at this
          obtain ⟨a, b, e1, e2, hF⟩ := this
          exact ⟨a, b, e1, e2, (heq a).1 hF.usable, fun j hj => hF.first j ((heq j).2 hj), hF.nonempty, hF.free, hF.maximal⟩
      | false =>
        have hf := free_of_get hi hg
        rcases Nat.eq_zero_or_pos i with rfl | hpos
        · rw [holeLoop_closed_free_zero]
          have := holeLoop_opened (m := m) (r := r) (i := 0) (k := 1) (s := 0) (by omega) hi ht' hf
            ⟨Nat.le_refl _, hf, Or.inl rfl⟩ (fun j _ => Nat.zero_le j)
          rw [LINE_COUNT_eq, if_neg (by omega)] at this
          exact this
        · rw [holeLoop_closed_free_pos _ _ _ hpos]
          have := ih (i + 1) 1 ht' (Or.inr ⟨rfl, by omega, by simpa using hf⟩)
          simpa using this
    · cases b with
      | true =>
        have : holeLoop (true :: r) i 1 none sp = holeLoop r (i + 1) 0 none sp := holeLoop_skipped_marked r i sp 0
        rw [this]
        have := ih (i + 1) 0 ht' (Or.inl rfl)
        have hnf := marked_not_free hg
        have heq : ∀ j, Usable m (i + 1) j ↔ Usable m (i - 1) j := by
          intro j
          constructor
          · rintro ⟨h1, hfr, h3⟩
            exact ⟨by omega, hfr, h3.imp id (fun h => ⟨by omega, h.2⟩)⟩
          · rintro ⟨h1, hfr, h3⟩
            rcases h3 with h3 | ⟨h3, h4⟩
            · omega
            · by_cases hj : j = i
              · subst hj; exact absurd hfr hnf
              · by_cases hj1 : j = i + 1
                · subst hj1; exact absurd h4 hnf
                · exact ⟨by omega, hfr, Or.inr ⟨by omega, h4⟩⟩
        cases hr : holeLoop r (i + 1) 0 none sp with
        | none => rw [hr] at this; intro j hu; exact this j ((heq j).2 hu)
        | some cl =>
          rw [hr] at this
          obtain ⟨a, b, e1, e2, hF⟩ := this
          exact ⟨a, b, e1, e2, (heq a).1 hF.usable, fun j hj => hF.first j ((heq j).2 hj), hF.nonempty, hF.free, hF.maximal⟩
      | false =>
        have hf := free_of_get hi hg
        rw [holeLoop_skipped_free]
        refine holeLoop_opened (by omega) hi ht' hf ⟨by omega, hf, Or.inr ⟨by omega, hprev⟩⟩ ?_
        intro j hj
        rcases hj.2.2 with h | ⟨h, _⟩
        · have := hj.1; omega
        · omega

/-- `find_next_available_hole` finds the first hole at or after the line of `at`. -/
theorem findNextAvailableHole_spec (m : BlockMeta) (at_ : Nat) (h : at_ / 128 ≤ 256) :
    ∃ r, m.findNextAvailableHole at_ = .ret r ∧ HoleResult m (at_ / 128) r := by
  unfold BlockMeta.findNextAvailableHole
  simp only [LINE_SIZE_eq, LINE_COUNT_eq]
  rw [if_neg (by omega)]
  refine ⟨_, rfl, ?_⟩
  have := holeLoop_spec m (m.lineMark.toList.drop (at_ / 128)) (at_ / 128) 0 0 ⟨?_, rfl⟩ (Or.inl rfl)
  · simpa using this
  · simp [LINE_COUNT_eq]; omega

end Verif.Immix
