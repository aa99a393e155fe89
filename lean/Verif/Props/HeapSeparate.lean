import Verif.Spec.Separate
import Verif.Props.Placement
import Verif.Props.HeapReentrant

/-!
# Heaps do not influence each other (C103)
-/

namespace Verif.Immix

open Verif Verif.Immix.Spec

/-! ## The abstract allocator -/

namespace Spec

theorem Placement.inNewBlock_shift {answer answer' : Nat → Option Nat} {P P' : Placement} {use use' : Nat → Placement}
    (h : answer P.calls = answer' P'.calls) (hc : P.current = P'.current) (ho : P.overflow = P'.overflow)
    (hu : ∀ q, (use q).current = (use' q).current ∧ (use q).overflow = (use' q).overflow) :
    (P.inNewBlock answer use).1 = (P'.inNewBlock answer' use').1 ∧
    (P.inNewBlock answer use).2.current = (P'.inNewBlock answer' use').2.current ∧
    (P.inNewBlock answer use).2.overflow = (P'.inNewBlock answer' use').2.overflow ∧
    (P.inNewBlock answer use).2.calls = P.calls + 1 ∧ (P'.inNewBlock answer' use').2.calls = P'.calls + 1 ∧
    ∃ new, (P.inNewBlock answer use).2.blocks = P.blocks ++ new ∧ (P'.inNewBlock answer' use').2.blocks = P'.blocks ++ new := by
  unfold Placement.inNewBlock
  rw [h]
  cases answer' P'.calls with
  | none => exact ⟨rfl, hc, ho, rfl, rfl, [], by simp, by simp⟩
  | some q => exact ⟨rfl, (hu q).1, (hu q).2, rfl, rfl, [q], rfl, rfl⟩

/-- Only the next answer matters, and only if a block is requested. -/
theorem Placement.put_shift {answer answer' : Nat → Option Nat} {P P' : Placement} {r : Nat}
    (h : (P'.put answer' r).2.calls ≠ P'.calls → answer P.calls = answer' P'.calls) (hc : P.current = P'.current) (ho : P.overflow = P'.overflow) :
    (P.put answer r).1 = (P'.put answer' r).1 ∧
    (P.put answer r).2.current = (P'.put answer' r).2.current ∧
    (P.put answer r).2.overflow = (P'.put answer' r).2.overflow ∧
    (∃ d, d ≤ 1 ∧ (P.put answer r).2.calls = P.calls + d ∧ (P'.put answer' r).2.calls = P'.calls + d) ∧
    ∃ new, (P.put answer r).2.blocks = P.blocks ++ new ∧ (P'.put answer' r).2.blocks = P'.blocks ++ new := by
  have asked : ∀ use, (P'.inNewBlock answer' use).2.calls = P'.calls + 1 := by
    intro use; unfold Placement.inNewBlock; split <;> rfl
  have new : ∀ use use' : Nat → Placement, (∀ q, (use q).current = (use' q).current ∧ (use q).overflow = (use' q).overflow) →
      P'.put answer' r = P'.inNewBlock answer' use' → P.put answer r = P.inNewBlock answer use →
      (P.put answer r).1 = (P'.put answer' r).1 ∧
      (P.put answer r).2.current = (P'.put answer' r).2.current ∧
      (P.put answer r).2.overflow = (P'.put answer' r).2.overflow ∧
      (∃ d, d ≤ 1 ∧ (P.put answer r).2.calls = P.calls + d ∧ (P'.put answer' r).2.calls = P'.calls + d) ∧
      ∃ new, (P.put answer r).2.blocks = P.blocks ++ new ∧ (P'.put answer' r).2.blocks = P'.blocks ++ new := by
    intro use use' hu h' h''
    have ha := h (by rw [h', asked]; omega)
    obtain ⟨a, b, c, d, e, f⟩ := Placement.inNewBlock_shift (use := use) (use' := use') ha hc ho hu
    rw [h', h'']
    exact ⟨a, b, c, ⟨1, Nat.le_refl _, d, e⟩, f⟩
  have old : ∀ x x' : Except AllocError Nat × Placement, P.put answer r = x → P'.put answer' r = x' → x.1 = x'.1 → x.2.current = x'.2.current →
      x.2.overflow = x'.2.overflow → x.2.calls = P.calls → x'.2.calls = P'.calls → x.2.blocks = P.blocks → x'.2.blocks = P'.blocks →
      (P.put answer r).1 = (P'.put answer' r).1 ∧
      (P.put answer r).2.current = (P'.put answer' r).2.current ∧
      (P.put answer r).2.overflow = (P'.put answer' r).2.overflow ∧
      (∃ d, d ≤ 1 ∧ (P.put answer r).2.calls = P.calls + d ∧ (P'.put answer' r).2.calls = P'.calls + d) ∧
      ∃ new, (P.put answer r).2.blocks = P.blocks ++ new ∧ (P'.put answer' r).2.blocks = P'.blocks ++ new := by
    rintro x x' rfl rfl h1 h2 h3 h4 h5 h6 h7
    exact ⟨h1, h2, h3, ⟨0, by omega, h4, h5⟩, [], by simp [h6], by simp [h7]⟩
  by_cases hr : r = 0 ∨ 32752 < r
  · exact old (.error .badRequest, P) (.error .badRequest, P') (by unfold Placement.put; rw [if_pos hr]) (by unfold Placement.put; rw [if_pos hr])
      rfl hc ho rfl rfl rfl rfl
  cases hP : P'.current with
  | none =>
    refine new (fun q => { P with current := some (q, r) }) (fun q => { P' with current := some (q, r) }) (fun q => ⟨rfl, ho⟩) ?_ ?_
    · unfold Placement.put; rw [if_neg hr, hP]
    · unfold Placement.put; rw [if_neg hr, hc, hP]
  | some x =>
    obtain ⟨b, used⟩ := x
    by_cases h1 : used + r ≤ 32752
    · refine old (.ok (b + 16 + used), { P with current := some (b, used + r) }) (.ok (b + 16 + used), { P' with current := some (b, used + r) })
        ?_ ?_ rfl rfl ho rfl rfl rfl rfl
      · unfold Placement.put; rw [if_neg hr, hc, hP]; simp only; rw [if_pos h1]
      · unfold Placement.put; rw [if_neg hr, hP]; simp only; rw [if_pos h1]
    by_cases h2 : r ≤ 128
    · refine new (fun q => { P with current := some (q, r) }) (fun q => { P' with current := some (q, r) }) (fun q => ⟨rfl, ho⟩) ?_ ?_
      · unfold Placement.put; rw [if_neg hr, hP]; simp only; rw [if_neg h1, if_pos h2]
      · unfold Placement.put; rw [if_neg hr, hc, hP]; simp only; rw [if_neg h1, if_pos h2]
    cases hO : P'.overflow with
    | none =>
      refine new (fun q => { P with overflow := some (q, r) }) (fun q => { P' with overflow := some (q, r) }) (fun q => ⟨hc, rfl⟩) ?_ ?_
      · unfold Placement.put; rw [if_neg hr, hP]; simp only; rw [if_neg h1, if_neg h2, hO]
      · unfold Placement.put; rw [if_neg hr, hc, hP]; simp only; rw [if_neg h1, if_neg h2, ho, hO]
    | some y =>
      obtain ⟨b', used'⟩ := y
      by_cases h3 : used' + r ≤ 32752
      · refine old (.ok (b' + 16 + used'), { P with overflow := some (b', used' + r) }) (.ok (b' + 16 + used'), { P' with overflow := some (b', used' + r) })
          ?_ ?_ rfl hc rfl rfl rfl rfl rfl
        · unfold Placement.put; rw [if_neg hr, hc, hP]; simp only; rw [if_neg h1, if_neg h2, ho, hO]; simp only; rw [if_pos h3]
        · unfold Placement.put; rw [if_neg hr, hP]; simp only; rw [if_neg h1, if_neg h2, hO]; simp only; rw [if_pos h3]
      · refine new (fun q => { P with overflow := some (q, r) }) (fun q => { P' with overflow := some (q, r) }) (fun q => ⟨hc, rfl⟩) ?_ ?_
        · unfold Placement.put; rw [if_neg hr, hP]; simp only; rw [if_neg h1, if_neg h2, hO]; simp only; rw [if_neg h3]
        · unfold Placement.put; rw [if_neg hr, hc, hP]; simp only; rw [if_neg h1, if_neg h2, ho, hO]; simp only; rw [if_neg h3]

theorem Placement.enter_shift {answer answer' : Nat → Option Nat} {p : Profile} {P P' : Placement} {total : Nat}
    (h : (P'.enter answer' p total).2.calls ≠ P'.calls → answer P.calls = answer' P'.calls) (hc : P.current = P'.current) (ho : P.overflow = P'.overflow) :
    (P.enter answer p total).1 = (P'.enter answer' p total).1 ∧
    (P.enter answer p total).2.current = (P'.enter answer' p total).2.current ∧
    (P.enter answer p total).2.overflow = (P'.enter answer' p total).2.overflow ∧
    (∃ d, d ≤ 1 ∧ (P.enter answer p total).2.calls = P.calls + d ∧ (P'.enter answer' p total).2.calls = P'.calls + d) ∧
    ∃ new, (P.enter answer p total).2.blocks = P.blocks ++ new ∧ (P'.enter answer' p total).2.blocks = P'.blocks ++ new := by
  unfold Placement.enter at h ⊢
  by_cases hov : 2 ^ 64 ≤ total + 7 ∧ p = .dev
  · simp only [if_pos hov]
    exact ⟨by first | rfl | trivial, hc, ho, ⟨0, by omega, by first | rfl | trivial, by first | rfl | trivial⟩, [], by simp, by simp⟩
  · simp only [if_neg hov] at h ⊢
    have := Placement.put_shift (answer := answer) (answer' := answer') (P := P) (P' := P') (r := roundUp total)
      (by intro hne; apply h; revert hne; rcases P'.put answer' (roundUp total) with ⟨_ | _, _⟩ <;> exact id) hc ho
    revert this
    rcases P'.put answer' (roundUp total) with ⟨x', Q'⟩
    rcases P.put answer (roundUp total) with ⟨x, Q⟩
    rintro ⟨rfl, h2, h3, h4, h5⟩
    cases x <;> exact ⟨by first | rfl | trivial, h2, h3, h4, h5⟩

theorem Placement.enter_calls_ge (answer : Nat → Option Nat) (p : Profile) (P : Placement) (total : Nat) :
    P.calls ≤ (P.enter answer p total).2.calls := by
  obtain ⟨_, _, _, ⟨d, _, h, _⟩, _⟩ := Placement.enter_shift (answer := answer) (answer' := answer) (p := p) (P := P) (P' := P) (total := total)
    (fun _ => rfl) rfl rfl
  omega

theorem Placement.enterAll_calls_ge (answer : Nat → Option Nat) (p : Profile) : ∀ (l : List Nat) (P : Placement),
    P.calls ≤ (P.enterAll answer p l).2.calls
  | [], P => Nat.le_refl _
  | total :: l, P => Nat.le_trans (P.enter_calls_ge answer p total) (Placement.enterAll_calls_ge answer p l _)

/-- Answers to later questions do not matter. -/
theorem Placement.enter_ext {answer answer' : Nat → Option Nat} {p : Profile} {P : Placement} {total N : Nat}
    (h : ∀ i, i < N → answer i = answer' i) (hN : (P.enter answer p total).2.calls ≤ N) : P.enter answer' p total = P.enter answer p total := by
  obtain ⟨h1, h2, h3, ⟨d, hd, h4, h4'⟩, new, h5, h5'⟩ := Placement.enter_shift (answer := answer') (answer' := answer) (p := p) (P := P) (P' := P) (total := total)
    (fun hne => (h _ (by
      obtain ⟨_, _, _, ⟨d, _, hd, _⟩, _⟩ := Placement.enter_shift (answer := answer) (answer' := answer) (p := p) (P := P) (P' := P) (total := total)
        (fun _ => rfl) rfl rfl
      omega)).symm) rfl rfl
  have hQ : ∀ Q Q' : Placement, Q.current = Q'.current → Q.overflow = Q'.overflow → Q.calls = Q'.calls → Q.blocks = Q'.blocks → Q = Q' := by
    rintro ⟨⟩ ⟨⟩ h1 h2 h3 h4; simp only at h1 h2 h3 h4; subst h1 h2 h3 h4; rfl
  exact Prod.ext h1 (hQ _ _ h2 h3 (by rw [h4, h4']) (by rw [h5, h5']))

theorem Placement.enterAll_ext {answer answer' : Nat → Option Nat} {p : Profile} {N : Nat} (h : ∀ i, i < N → answer i = answer' i) :
    ∀ (l : List Nat) (P : Placement), (P.enterAll answer p l).2.calls ≤ N → P.enterAll answer' p l = P.enterAll answer p l
  | [], P, _ => rfl
  | total :: l, P, hN => by
    simp only [Placement.enterAll] at hN ⊢
    rw [Placement.enter_ext h (Nat.le_trans (Placement.enterAll_calls_ge answer p l _) hN), Placement.enterAll_ext h l _ hN]

theorem Placement.enterAll_snoc (answer : Nat → Option Nat) (p : Profile) (total : Nat) : ∀ (l : List Nat) (P : Placement),
    P.enterAll answer p (l ++ [total]) = ((P.enterAll answer p l).1 ++ [((P.enterAll answer p l).2.enter answer p total).1],
      ((P.enterAll answer p l).2.enter answer p total).2)
  | [], P => rfl
  | x :: l, P => by
    simp only [List.cons_append, Placement.enterAll]
    rw [Placement.enterAll_snoc answer p total l]

end Spec

/-! ## One call -/

section
variable {p : Profile} {sys : Sys} {base : List (Nat × Nat)} {bl bl' : BlockList} {w w' : World} {P : Placement} {e : Entered}

/-- The first half of a call does what the abstract allocator says. -/
theorem allocEnter_agrees (hs n : Nat) (hS : Sim base bl w P) (hb : ∀ b ∈ bl.all, BlockOK b) (hH : hs < 2 ^ 63) (hn : n < 2 ^ 63)
    (h : allocEnter p sys hs bl w n = .ret (e, bl', w')) :
    e = (P.enter (answers sys) p (hs + n)).1 ∧ Sim base bl' w' (P.enter (answers sys) p (hs + n)).2 ∧
    (bl' = bl ∧ w'.obtained = w.obtained ∧ (∀ a c, e ≠ .calls a c) ∨
      ∃ space, e = .calls space (classOf (roundUp (hs + n))) ∧ Grant sys bl w (roundUp (hs + n)) space bl' w') := by
  unfold allocEnter at h
  rw [usizeAdd_small _ _ _ (by omega), Rust.bind_ret] at h
  by_cases hov : hs + n + 7 < 2 ^ 64
  · rw [allocSizeOf_fits _ _ hov] at h
    unfold Placement.enter
    rw [if_neg (by omega)]
    simp only at h
    generalize roundUp (hs + n) = r at h ⊢
    by_cases hbad : r = 0 ∨ 32752 < r
    · have hput : P.put (answers sys) r = (.error .badRequest, P) := by unfold Placement.put; rw [if_pos hbad]
      rw [hput]
      rw [getForSize_eq, if_neg (by omega), if_neg (by omega)] at h
      by_cases hlg : 32753 ≤ r ∧ r ≤ 4294967295
      · rw [if_pos hlg] at h
        simp [findSpace] at h
        obtain ⟨rfl, rfl, rfl⟩ := h
        exact ⟨rfl, hS, .inl ⟨rfl, rfl, nofun⟩⟩
      · rw [if_neg hlg] at h
        cases h
        exact ⟨rfl, hS, .inl ⟨rfl, rfl, nofun⟩⟩
    · have hcls : getForSize r = .ok (classOf r) := by
        rw [getForSize_eq]
        unfold classOf
        by_cases h : r ≤ 128
        · rw [if_pos (by omega), if_pos h]
        · rw [if_neg (by omega), if_pos (by omega), if_neg h, if_pos (by omega)]
      rw [hcls] at h
      simp only at h
      obtain ⟨r1, bl1, w1, e1, e2, e3⟩ := findSpace_agrees (p := p) (sys := sys) hS hb r (by omega) (by omega)
      have hc : classOf r = .small ∧ r ≤ 128 ∨ classOf r = .medium := by
        unfold classOf
        by_cases h : r ≤ 128
        · left; simp [h]
        · right; rw [if_neg h, if_pos (by omega)]
      have hspec := findSpace_spec p sys bl w r (classOf r) hb (by omega) hc
      rw [e1] at h hspec
      rw [Rust.bind_ret] at h
      rcases hP : P.put (answers sys) r with ⟨y, P'⟩
      rw [hP] at e2 e3
      simp only at e2 e3
      subst e2
      rcases hspec with ⟨space, bl2, w2, h1, h2, _⟩ | ⟨h1, h2⟩
      · cases h1
        cases h
        exact ⟨rfl, e3, .inr ⟨space, rfl, h2⟩⟩
      · cases h1
        cases h
        exact ⟨rfl, e3, .inl ⟨rfl, rfl, nofun⟩⟩
  · rw [allocSizeOf_overflow _ _ (by omega) hov] at h
    cases p with
    | dev =>
      cases h
      have : P.enter (answers sys) .dev (hs + n) = (.panicked, P) := by unfold Placement.enter; rw [if_pos ⟨by omega, rfl⟩]
      rw [this]
      exact ⟨rfl, hS, .inl ⟨rfl, rfl, nofun⟩⟩
    | release =>
      simp only at h
      rw [getForSize_eq] at h
      cases h
      have : P.enter (answers sys) .release (hs + n) = (.err .badRequest, P) := by
        unfold Placement.enter
        rw [if_neg (by simp)]
        have hput : P.put (answers sys) (roundUp (hs + n)) = (.error .badRequest, P) := by
          unfold Placement.put; rw [if_pos]
          have := roundUp_ge (hs + n); omega
        rw [hput]
      rw [this]
      exact ⟨rfl, hS, .inl ⟨rfl, rfl, nofun⟩⟩

end

/-! ## What is known of a heap, given the calls in it -/

/-- The calls of a heap, dropped or not, had the results of the abstract allocator, which requested as many blocks. -/
structure HeapLog (p : Profile) (cs : List Call) : Prop where
  results : cs.map (·.entered) = (asAlone p cs).1
  calls : (asAlone p cs).2.calls = (answersTo cs).length

/-- What a heap that has not been dropped looks like after the calls in it. -/
structure LiveLog (p : Profile) (cs : List Call) (hs : Nat) (bl : BlockList) (slots : List (Nat × Nat)) : Prop where
  current : (asAlone p cs).2.current = bl.head.map cell
  overflow : (asAlone p cs).2.overflow = bl.overflow.map cell
  blocks : (bl.all.map fun b => b.block.ptr).Perm (asAlone p cs).2.blocks
  taken : slots = cs.filterMap Call.slot
  size : ∀ c ∈ cs, c.headerSize = hs
  packed : ∀ b ∈ bl.all, ∀ a, b.block.ptr + 16 ≤ a → a < b.block.ptr + b.cursor →
    ∃ x ∈ slots, x.1 - hs ≤ a ∧ a < x.1 - hs + roundUp (hs + x.2)
  compact : Compact (asAlone p cs).2 (slots.map fun x => roundUp (hs + x.2)).sum

theorem heapLog_nil (p : Profile) : HeapLog p [] := ⟨rfl, rfl⟩

theorem liveLog_nil (p : Profile) (hs : Nat) : LiveLog p [] hs BlockList.new [] := by
  refine ⟨rfl, rfl, .refl _, rfl, nofun, nofun, 0, 0, rfl, rfl, Nat.le_refl _, ⟨Nat.zero_le _, Nat.dvd_zero _⟩, Nat.zero_le _, Nat.dvd_zero _⟩

theorem answersTo_snoc (cs : List Call) (c : Call) : answersTo (cs ++ [c]) = answersTo cs ++ c.answers := by
  unfold answersTo; simp

theorem enter_compact {answer : Nat → Option Nat} {p : Profile} {P : Placement} {total n : Nat} (h : Compact P total) :
    Compact (P.enter answer p n).2 (total + match (P.enter answer p n).1 with | .calls _ _ => roundUp n | _ => 0) := by
  unfold Placement.enter
  by_cases hov : 2 ^ 64 ≤ n + 7 ∧ p = .dev
  · rw [if_pos hov]; exact h
  · rw [if_neg hov]
    have := put_compact (answer := answer) (r := roundUp n) h ⟨_, Nat.mul_comm _ _⟩
    revert this
    rcases P.put answer (roundUp n) with ⟨_ | _, _⟩ <;> exact id

section
variable {p : Profile} {sys : Sys} {bl bl' : BlockList} {w w' : World} {e : Entered}

/-- The space a call has found. -/
def newSlot (e : Entered) (hs n : Nat) : List (Nat × Nat) :=
  match e with
  | .calls space _ => [(space + hs, n)]
  | _ => []

/-- One more call. -/
theorem log_call {cs : List Call} {hs n k : Nat} {slots : List (Nat × Nat)} (hL : HeapLog p cs) (hV : LiveLog p cs hs bl slots)
    (hb : ∀ b ∈ bl.all, BlockOK b) (hH : hs < 2 ^ 63) (hn : n < 2 ^ 63) (h : allocEnter p sys hs bl w n = .ret (e, bl', w')) :
    HeapLog p (cs ++ [⟨k, hs, n, e, (List.range (w'.calls - w.calls)).map fun i => sys.alloc (w.calls + i) 32768 32768⟩]) ∧
    LiveLog p (cs ++ [⟨k, hs, n, e, (List.range (w'.calls - w.calls)).map fun i => sys.alloc (w.calls + i) 32768 32768⟩]) hs bl'
      (slots ++ newSlot e hs n) := by
  generalize hc : (⟨k, hs, n, e, (List.range (w'.calls - w.calls)).map fun i => sys.alloc (w.calls + i) 32768 32768⟩ : Call) = c
  have hca : c.answers = (List.range (w'.calls - w.calls)).map fun i => sys.alloc (w.calls + i) 32768 32768 := by rw [← hc]
  have hce : c.entered = e := by rw [← hc]
  have hch : c.headerSize = hs := by rw [← hc]
  have hcn : c.size = n := by rw [← hc]
  generalize hP : (asAlone p cs).2 = P
  have hPc : P.calls = (answersTo cs).length := by rw [← hP, hL.calls]
  let P0 : Placement := { P with calls := w.calls, blocks := [] }
  have hS : Sim w.obtained bl w P0 := ⟨by show P.current = _; rw [← hP, hV.current], by show P.overflow = _; rw [← hP, hV.overflow], rfl, by simp [P0]⟩
  obtain ⟨he, hS', hcase⟩ := allocEnter_agrees hs n hS hb hH hn h
  let A := inOrder (answersTo (cs ++ [c]))
  have hA0 : ∀ i, i < P.calls → inOrder (answersTo cs) i = A i := by
    intro i hi
    show (_[i]?).join = (_[i]?).join
    rw [answersTo_snoc, List.getElem?_append_left (by omega)]
  have hall : Placement.init.enterAll A p (cs.map fun c => c.headerSize + c.size) = asAlone p cs :=
    Placement.enterAll_ext hA0 _ _ (by show (asAlone p cs).2.calls ≤ _; rw [hP]; exact Nat.le_refl _)
  have hsnoc : asAlone p (cs ++ [c]) = ((asAlone p cs).1 ++ [(P.enter A p (hs + n)).1], (P.enter A p (hs + n)).2) := by
    show Placement.init.enterAll A p ((cs ++ [c]).map fun c => c.headerSize + c.size) = _
    rw [List.map_append, List.map_singleton, Placement.enterAll_snoc, hall, hP, hch, hcn]
  obtain ⟨s1, s2, s3, ⟨d, hd, s4, s4'⟩, new, s5, s5'⟩ := Placement.enter_shift (answer := A) (answer' := answers sys) (p := p) (P := P) (P' := P0)
    (total := hs + n) (by
      intro hne
      have hw' : w'.calls ≠ w.calls := by rw [← hS'.calls]; exact hne
      have hge : w.calls ≤ w'.calls := by rw [← hS'.calls]; exact Placement.enter_calls_ge _ _ P0 _
      show (_[P.calls]?).join = sys.alloc w.calls 32768 32768
      rw [answersTo_snoc, List.getElem?_append_right (by omega), hPc, Nat.sub_self, hca, List.getElem?_map, List.getElem?_range (by omega)]
      rfl) rfl rfl
  have hcalls : w'.calls = w.calls + d := by rw [← hS'.calls, s4']
  have hobt : w'.obtained = w.obtained ++ new.map fun q => (q, 32768) := by rw [hS'.blocks, s5']; rfl
  constructor
  · refine ⟨?_, ?_⟩
    · rw [hsnoc, List.map_append, List.map_singleton, hL.results, hce, he, s1]
    · rw [hsnoc, answersTo_snoc, List.length_append, hca, List.length_map, List.length_range]
      show (P.enter A p (hs + n)).2.calls = _
      omega
  · have hslots : (slots ++ newSlot e hs n) = (cs ++ [c]).filterMap Call.slot := by
      rw [List.filterMap_append, ← hV.taken]
      congr 1
      simp only [List.filterMap_cons, List.filterMap_nil, Call.slot, hce, hch, hcn]
      cases e <;> first | rfl | simp [newSlot]
    refine ⟨?_, ?_, ?_, hslots, ?_, ?_, ?_⟩
    · rw [hsnoc]; show (P.enter A p (hs + n)).2.current = _; rw [s2, hS'.current]
    · rw [hsnoc]; show (P.enter A p (hs + n)).2.overflow = _; rw [s3, hS'.overflow]
    · rw [hsnoc]
      show List.Perm _ (P.enter A p (hs + n)).2.blocks
      rw [s5]
      have hV := hV.blocks
      rw [hP] at hV
      rcases hcase with ⟨rfl, h2, _⟩ | ⟨space, _, hG⟩
      · have : new = [] := by
          rw [h2] at hobt
          have := congrArg List.length hobt
          simp at this
          exact this
        rw [this, List.append_nil]
        exact hV
      · cases hG with
        | reuse b others h1 h2 hfit hsp hw =>
          have : new = [] := by
            rw [hw] at hobt
            have := congrArg List.length hobt
            simp at this
            exact this
          rw [this, List.append_nil]
          exact ((h2.map _).trans (h1.map fun b => b.block.ptr).symm).trans hV
        | fresh f hnew hcur h2 hsp =>
          rw [blockNew_eq] at hnew
          cases hq : sys.alloc w.calls 32768 32768 with
          | none => rw [hq] at hnew; simp at hnew
          | some q =>
            rw [hq] at hnew
            simp only [Prod.mk.injEq, Except.ok.injEq] at hnew
            obtain ⟨hf, hw⟩ := hnew
            have : new = [q] := by
              rw [← hw] at hobt
              have := List.append_cancel_left hobt
              cases new with
              | nil => simp at this
              | cons a l => simp at this; rw [this.1, this.2]
            rw [this]
            refine ((h2.map _).trans ?_).trans (List.perm_append_comm (l₁ := [q]))
            rw [List.map_cons]
            rw [← hf]
            exact hV.cons q
    · intro x hx
      rcases List.mem_append.1 hx with hx | hx
      · exact hV.size x hx
      · rw [List.mem_singleton.1 hx]; exact hch
    · have old : ∀ b ∈ bl.all, ∀ a, b.block.ptr + 16 ≤ a → a < b.block.ptr + b.cursor →
          ∃ x ∈ slots ++ newSlot e hs n, x.1 - hs ≤ a ∧ a < x.1 - hs + roundUp (hs + x.2) := by
        intro b hb a h1 h2
        obtain ⟨x, hx, h3⟩ := hV.packed b hb a h1 h2
        exact ⟨x, List.mem_append_left _ hx, h3⟩
      rcases hcase with ⟨rfl, h2, _⟩ | ⟨space, rfl, hG⟩
      · exact old
      · have hnew : ∀ a, space ≤ a → a < space + roundUp (hs + n) →
            ∃ x ∈ slots ++ [(space + hs, n)], x.1 - hs ≤ a ∧ a < x.1 - hs + roundUp (hs + x.2) := by
          intro a h1 h2
          exact ⟨(space + hs, n), List.mem_append_right _ (List.mem_singleton.2 rfl), by simp only; omega, by simp only; omega⟩
        intro b' hb' a h1 h2
        cases hG with
        | reuse b others g1 g2 hfit hsp hw =>
          have hb := g2.mem_iff.1 hb'
          rcases List.mem_cons.1 hb with rfl | hb
          · simp only at h1 h2
            by_cases hlt : a < b.block.ptr + b.cursor
            · exact old b (g1.mem_iff.2 (List.mem_cons_self ..)) a h1 hlt
            · exact hnew a (by omega) (by omega)
          · exact old b' (g1.mem_iff.2 (List.mem_cons_of_mem _ hb)) a h1 h2
        | fresh f hnew' hcur g2 hsp =>
          have hb := g2.mem_iff.1 hb'
          rcases List.mem_cons.1 hb with rfl | hb
          · simp only at h1 h2
            exact hnew a (by omega) (by omega)
          · exact old b' hb a h1 h2
    · rw [hsnoc]
      have hC := hV.compact
      rw [hP] at hC
      have := enter_compact (answer := A) (p := p) (n := hs + n) hC
      rw [s1, ← he] at this
      cases e <;> simpa [newSlot] using this

end

/-! ## All heaps -/

/-- Pointers and sizes of the slots of a heap. -/
def places (g : RHeap) : List (Nat × Nat) := g.slots.map fun o => (o.ptr, o.size)

/-- What is known of all heaps. -/
structure AllLogs (p : Profile) (log : List Call) (s : Nested) : Prop where
  heap : ∀ k, HeapLog p (callsIn k log)
  live : ∀ {k g}, s.get k = some g → LiveLog p (callsIn k log) g.headerSize g.bl (places g)
  fresh : ∀ k, s.heaps.length ≤ k → callsIn k log = []

section
variable {p : Profile} {sys : Sys} {log : List Call} {s s' : Nested}

theorem _root_.Verif.Immix.Spec.Logged.possible (h : Logged p sys log s) : NestedPossible p sys s := by
  induction h with
  | start mem => exact .start mem
  | op o _ hH ho hs ih => exact .op o ih hH ho hs
  | environment mem calls _ h1 h2 ih => exact .environment mem calls ih h1 h2

/-- A step without a call. -/
theorem AllLogs.quiet (hA : AllLogs p log s) (hlen : s.heaps.length ≤ s'.heaps.length)
    (hg : ∀ k g', s'.get k = some g' → (∃ g, s.get k = some g ∧ g'.headerSize = g.headerSize ∧ g'.bl = g.bl ∧ places g' = places g) ∨
      (k = s.heaps.length ∧ g'.bl = BlockList.new ∧ places g' = [])) : AllLogs p (log ++ []) s' := by
  rw [List.append_nil]
  refine ⟨hA.heap, fun {k g'} hk => ?_, fun k hk => hA.fresh k (by omega)⟩
  rcases hg k g' hk with ⟨g, h1, h2, h3, h4⟩ | ⟨h1, h2, h3⟩
  · rw [h2, h3, h4]; exact hA.live h1
  · rw [hA.fresh k (by omega), h2, h3]; exact liveLog_nil p _

theorem callsIn_append (k : Nat) (l l' : List Call) : callsIn k (l ++ l') = callsIn k l ++ callsIn k l' := List.filter_append ..

/-- A step in which one heap changes. -/
theorem get_set {hs : List (Option RHeap)} {w : World} {calls : List Running} {k : Nat} {g : RHeap} (hk : s.get k = some g) (y : Option RHeap)
    (he : hs = s.heaps.set k y) (j : Nat) : Nested.get { heaps := hs, w := w, calls := calls } j = if j = k then y else s.get j := by
  subst he
  exact nget_set (nget_lt hk) j

theorem places_set {g : RHeap} {i : Nat} {o x : Slot} (hi : g.slots[i]? = some x) (hp : o.ptr = x.ptr) (hz : o.size = x.size) :
    places { g with slots := g.slots.set i o } = places g := by
  unfold places
  rw [List.map_set, hp, hz]
  have hlt := (List.getElem?_eq_some_iff.1 hi).1
  have : (g.slots.map fun o => (o.ptr, o.size))[i]'(by simpa using hlt) = (x.ptr, x.size) := by
    rw [List.getElem_map, (List.getElem?_eq_some_iff.1 hi).2]
  rw [← this, List.set_getElem_self]

/-- A call begins. -/
theorem AllLogs.begins (hN : NestedPossible p sys s) (hA : AllLogs p log s) (k : Nat) (body : List UInt8) (hb : body.length < 2 ^ 63)
    (hs : s.begin p sys k body = .ret s') : AllLogs p (log ++ s.call p sys k body.length) s' := by
  unfold Nested.begin at hs
  unfold Nested.call
  cases hk : s.get k with
  | none =>
    rw [hk] at hs
    cases hs
    exact hA.quiet (Nat.le_refl _) fun k g hg => .inl ⟨g, hg, rfl, rfl, rfl⟩
  | some g =>
    rw [hk] at hs
    simp only at hs ⊢
    cases he : allocEnter p sys g.headerSize g.bl s.w body.length with
    | panic => rw [he] at hs; cases hs
    | ret x =>
      obtain ⟨e, bl, w⟩ := x
      rw [he, Rust.bind_ret] at hs
      simp only at hs ⊢
      obtain ⟨q, hP, hAl⟩ := hN.alike
      obtain ⟨f, hf, hS⟩ := hAl.has hk
      have hI := hP.inv.each f (mem_of_get hf)
      have hsz : g.headerSize < 2 ^ 63 := by have := hI.hsize; rw [hS.H] at this; exact this
      have hok : ∀ b ∈ g.bl.all, BlockOK b := by rw [← hS.bl]; exact hI.core.ok
      obtain ⟨h1, h2⟩ := log_call (k := k) (hA.heap k) (hA.live hk) hok hsz hb he
      -- the state afterwards
      have key : ∃ g', s'.get k = some g' ∧ (∀ j, j ≠ k → s'.get j = s.get j) ∧ s'.heaps.length = s.heaps.length ∧
          g'.headerSize = g.headerSize ∧ g'.bl = bl ∧ places g' = places g ++ newSlot e g.headerSize body.length := by
        cases e with
        | panicked =>
          cases hs
          refine ⟨{ g with bl := bl }, (get_set hk _ rfl k).trans (if_pos rfl), fun j hj => (get_set hk _ rfl j).trans (if_neg hj), by simp, rfl, rfl, by simp [newSlot, places]⟩
        | err x =>
          cases hs
          refine ⟨{ g with bl := bl }, (get_set hk _ rfl k).trans (if_pos rfl), fun j hj => (get_set hk _ rfl j).trans (if_neg hj), by simp, rfl, rfl, by simp [newSlot, places]⟩
        | calls space cls =>
          cases hs
          refine ⟨_, (get_set hk _ rfl k).trans (if_pos rfl), fun j hj => (get_set hk _ rfl j).trans (if_neg hj), by simp, rfl, rfl, by simp [newSlot, places]⟩
      obtain ⟨g', k1, k2, k3, k4, k5, k6⟩ := key
      have hin : ∀ j, j ≠ k → callsIn j [(⟨k, g.headerSize, body.length, e,
          (List.range (w.calls - s.w.calls)).map fun i => sys.alloc (s.w.calls + i) 32768 32768⟩ : Call)] = [] := by
        intro j hj
        unfold callsIn
        rw [List.filter_cons_of_neg (by simpa using fun e => hj e.symm), List.filter_nil]
      have hink : callsIn k [(⟨k, g.headerSize, body.length, e,
          (List.range (w.calls - s.w.calls)).map fun i => sys.alloc (s.w.calls + i) 32768 32768⟩ : Call)] = [⟨k, g.headerSize, body.length, e,
          (List.range (w.calls - s.w.calls)).map fun i => sys.alloc (s.w.calls + i) 32768 32768⟩] := by
        unfold callsIn
        rw [List.filter_cons_of_pos (by simp), List.filter_nil]
      refine ⟨fun j => ?_, fun {j g''} hj => ?_, fun j hj => ?_⟩
      · rw [callsIn_append]
        by_cases e : j = k
        · rw [e, hink]; exact h1
        · rw [hin j e, List.append_nil]; exact hA.heap j
      · rw [callsIn_append]
        by_cases e : j = k
        · rw [e, k1] at hj
          cases hj
          rw [e, hink, k4, k5, k6]; exact h2
        · rw [hin j e, List.append_nil]
          rw [k2 j e] at hj
          exact hA.live hj
      · rw [callsIn_append]
        have : j ≠ k := by
          have := nget_lt hk
          omega
        rw [hin j this, List.append_nil]
        exact hA.fresh j (by omega)

theorem AllLogs.step (hN : NestedPossible p sys s) (hA : AllLogs p log s) (o : NOp) (ho : o.Sized) (hs : s.step p sys o = .ret s') :
    AllLogs p (log ++ s.callOf p sys o) s' := by
  have same : AllLogs p (log ++ []) s := hA.quiet (Nat.le_refl _) fun k g hg => .inl ⟨g, hg, rfl, rfl, rfl⟩
  have change : ∀ {k : Nat} {g g' : RHeap} {w : World} {calls : List Running}, s.get k = some g → g'.headerSize = g.headerSize → g'.bl = g.bl →
      places g' = places g → AllLogs p (log ++ []) { heaps := s.heaps.set k (some g'), w := w, calls := calls } := by
    intro k g g' w calls hk h1 h2 h3
    refine hA.quiet (by simp) fun j x hj => ?_
    rw [get_set hk _ rfl j] at hj
    by_cases e : j = k
    · rw [if_pos e] at hj
      cases hj
      exact .inl ⟨g, e ▸ hk, h1, h2, h3⟩
    · rw [if_neg e] at hj
      exact .inl ⟨x, hj, rfl, rfl, rfl⟩
  cases o with
  | newHeap n =>
    cases hs
    refine hA.quiet (by simp) fun k g hg => ?_
    have hg : ((s.heaps ++ [some { headerSize := n, bl := BlockList.new, slots := [] }])[k]?).join = some g := hg
    by_cases hk : k < s.heaps.length
    · rw [List.getElem?_append_left hk] at hg
      exact .inl ⟨g, hg, rfl, rfl, rfl⟩
    · rw [List.getElem?_append_right (by omega)] at hg
      cases hj : k - s.heaps.length with
      | zero =>
        rw [hj] at hg
        cases hg
        exact .inr ⟨by omega, rfl, rfl⟩
      | succ j => rw [hj] at hg; simp at hg
  | dropHeap k =>
    simp only [Nested.step] at hs
    split at hs
    · cases hs; exact same
    · cases hk : s.get k with
      | none => rw [hk] at hs; cases hs; exact same
      | some g =>
        rw [hk] at hs
        cases hs
        refine hA.quiet (by simp) fun j x hj => ?_
        rw [get_set hk _ rfl j] at hj
        by_cases e : j = k
        · rw [if_pos e] at hj; cases hj
        · rw [if_neg e] at hj; exact .inl ⟨x, hj, rfl, rfl, rfl⟩
  | alloc k object => exact hA.begins hN k object ho hs
  | allocArray k n =>
    have := hA.begins hN k (List.replicate n 0) (by simp only [NOp.Sized] at ho; rw [List.length_replicate]; omega) hs
    rw [List.length_replicate] at this
    exact this
  | panics =>
    simp only [Nested.step] at hs
    split at hs
    · cases hs; exact same
    · cases hs; exact hA.quiet (Nat.le_refl _) fun k g hg => .inl ⟨g, hg, rfl, rfl, rfl⟩
  | returns header =>
    simp only [Nested.step] at hs
    split at hs
    · cases hs; exact same
    · rename_i c calls hc
      obtain ⟨q, hP, hAl⟩ := hN.alike
      obtain ⟨g, sl, h1, h2, h3, h4, _⟩ := hAl.calls c (by rw [hc]; exact List.mem_cons_self ..)
      rw [h1] at hs
      simp only at hs
      split at hs
      · simp only [allocLeave] at hs
        cases hs
        exact change h1 rfl rfl (places_set h2 h3.symm h4.symm)
      · cases hs; exact same
  | store k i off bytes =>
    simp only [Nested.step] at hs
    cases hk : s.get k with
    | none => rw [hk] at hs; cases hs; exact same
    | some g =>
      rw [hk] at hs
      simp only at hs
      split at hs
      · rename_i hi
        split at hs
        · cases hs; exact change hk rfl rfl (places_set hi rfl rfl)
        · cases hs; exact same
      · cases hs; exact same
  | storeHeader k i bytes =>
    simp only [Nested.step] at hs
    cases hk : s.get k with
    | none => rw [hk] at hs; cases hs; exact same
    | some g =>
      rw [hk] at hs
      simp only at hs
      split at hs
      · rename_i hi
        split at hs
        · cases hs; exact change hk rfl rfl (places_set hi rfl rfl)
        · cases hs; exact same
      · cases hs; exact same

theorem _root_.Verif.Immix.Spec.Logged.all (h : Logged p sys log s) : AllLogs p log s := by
  induction h with
  | start mem =>
    exact ⟨fun k => heapLog_nil p, fun {k g} hk => by simp [Nested.get, Nested.init] at hk, fun k _ => rfl⟩
  | op o h hH ho hs ih => exact ih.step h.possible o ho hs
  | environment mem calls _ h1 h2 ih => exact ⟨ih.heap, fun {k g} hk => ih.live hk, ih.fresh⟩

/-! ## The theorems -/

/-- **C103** `Logged` adds nothing but the record of the calls: it describes the states of `NestedPossible`. -/
theorem c103_logged : NestedPossible p sys s ↔ ∃ log, Logged p sys log s := by
  constructor
  · intro h
    induction h with
    | start mem => exact ⟨_, .start mem⟩
    | op o _ hH ho hs ih => obtain ⟨log, h⟩ := ih; exact ⟨_, .op o h hH ho hs⟩
    | environment mem calls _ h1 h2 ih => obtain ⟨log, h⟩ := ih; exact ⟨_, .environment mem calls h h1 h2⟩
  · rintro ⟨log, h⟩; exact h.possible

/-- **C103** In each heap the calls lead to what an abstract allocator says that sees nothing but their sizes and the answers the
system gave to its own requests, one answer for each request: whether and with which space the constructor is called, and with which error
the call ends otherwise; the blocks the heap holds, and where its objects are. -/
theorem c103_placement (h : Logged p sys log s) (k : Nat) :
    (callsIn k log).map (·.entered) = (asAlone p (callsIn k log)).1 ∧
    (answersTo (callsIn k log)).length = (asAlone p (callsIn k log)).2.calls ∧
    ∀ g, s.get k = some g →
      (g.bl.all.map fun b => b.block.ptr).Perm (asAlone p (callsIn k log)).2.blocks ∧
      g.slots.map (fun o => (o.ptr, o.size)) = (callsIn k log).filterMap Call.slot :=
  ⟨(h.all.heap k).results, (h.all.heap k).calls.symm, fun _ hg => ⟨(h.all.live hg).blocks, (h.all.live hg).taken⟩⟩

/-- **C103** So two heaps, of the same program or of different ones, in which objects of the same sizes are requested and which get the
same answers from the system behave the same, whatever happens in other heaps, in constructors, or is written to objects. -/
theorem c103_separate {sys' : Sys} {log' : List Call} {k k' : Nat} (h : Logged p sys log s) (h' : Logged p sys' log' s')
    (hr : (callsIn k log).map (fun c => c.headerSize + c.size) = (callsIn k' log').map fun c => c.headerSize + c.size)
    (ha : answersTo (callsIn k log) = answersTo (callsIn k' log')) :
    (callsIn k log).map (·.entered) = (callsIn k' log').map (·.entered) ∧
    ∀ g g', s.get k = some g → s'.get k' = some g' →
      (g.bl.all.map fun b => b.block.ptr).Perm (g'.bl.all.map fun b => b.block.ptr) ∧ g.slots.map g.range = g'.slots.map g'.range := by
  have e : asAlone p (callsIn k log) = asAlone p (callsIn k' log') := by unfold asAlone; rw [hr, ha]
  have he : (callsIn k log).map (·.entered) = (callsIn k' log').map (·.entered) := by
    rw [(h.all.heap k).results, (h'.all.heap k').results, e]
  refine ⟨he, fun g g' hg hg' => ?_⟩
  have hl := h.all.live hg
  have hl' := h'.all.live hg'
  refine ⟨(hl.blocks.trans (e ▸ .refl _)).trans hl'.blocks.symm, ?_⟩
  have view : ∀ {x : RHeap} {cs : List Call}, places x = cs.filterMap Call.slot → (∀ c ∈ cs, c.headerSize = x.headerSize) →
      x.slots.map x.range = (List.zip (cs.map (·.entered)) (cs.map fun c => c.headerSize + c.size)).filterMap fun y =>
        match y.1 with | .calls space _ => some (space, roundUp y.2) | _ => none := by
    intro x cs hx hc
    have : x.slots.map x.range = (places x).map fun y => (y.1 - x.headerSize, roundUp (x.headerSize + y.2)) := by
      unfold places; rw [List.map_map]; rfl
    rw [this, hx]
    clear this hx
    induction cs with
    | nil => rfl
    | cons c cs ih =>
      have hc0 := hc c (List.mem_cons_self ..)
      have ih := ih fun c h => hc c (List.mem_cons_of_mem _ h)
      simp only [List.map_cons, List.zip_cons_cons, List.filterMap_cons]
      unfold Call.slot at *
      cases c.entered with
      | calls space cls => simp only [List.map_cons]; rw [ih, hc0]; simp
      | err _ => exact ih
      | panicked => exact ih
  rw [view hl.taken hl.size, view hl'.taken hl'.size, he, hr]

/-- **C103** No byte is skipped: all bytes of a block in front of an object, from offset 16 on, belong to objects of the same heap (or to
calls whose constructor is running or has panicked). -/
theorem c103_packed (h : Logged p sys log s) {k : Nat} {g : RHeap} (hk : s.get k = some g) :
    ∀ o ∈ g.slots, ∀ a, (g.range o).1 / 32768 * 32768 + 16 ≤ a → a < (g.range o).1 →
      ∃ o' ∈ g.slots, (g.range o').1 ≤ a ∧ a < (g.range o').1 + (g.range o').2 := by
  intro o ho a h1 h2
  obtain ⟨q, hP, hA⟩ := h.possible.alike
  obtain ⟨f, hf, hS⟩ := hA.has hk
  have hI := hP.inv.each f (mem_of_get hf)
  obtain ⟨i, hi⟩ := List.mem_iff_getElem?.1 ho
  obtain ⟨x, hx, hx1, hx2, _⟩ := hS.object hi
  have e : f.range x = g.range o := by unfold HeapState.range RHeap.range; rw [hS.H, hx1, hx2]; rfl
  obtain ⟨_, b, hb, h3, h4⟩ := hI.inBlock x (List.mem_of_getElem? hx)
  have h5 := (hI.sized x (List.mem_of_getElem? hx)).1
  have hok := hI.core.ok b hb
  rw [e] at h3 h4 h5
  rw [hS.bl] at hb
  obtain ⟨c, hc⟩ := hok.aligned
  have hcl := hok.cur_le
  obtain ⟨y, hy, h6, h7⟩ := (h.all.live hk).packed b hb a (by omega) (by omega)
  unfold places at hy
  obtain ⟨o', ho', rfl⟩ := List.mem_map.1 hy
  exact ⟨o', ho', h6, h7⟩

/-- **C103** The bound of C64 for each heap of a program: its blocks are at most, almost exactly, twice what its objects need, plus two. -/
theorem c103_space (h : Logged p sys log s) {k : Nat} {g : RHeap} (hk : s.get k = some g) :
    32760 * g.bl.all.length ≤ 2 * (g.slots.map fun o => (g.range o).2).sum + 2 * 32760 := by
  have hL := h.all.live hk
  obtain ⟨n, R, a1, a2, a3, a4, a5⟩ := hL.compact
  have hlen := hL.blocks.length_eq
  rw [List.length_map] at hlen
  have hsum : (g.slots.map fun o => (g.range o).2).sum = ((places g).map fun x => roundUp (g.headerSize + x.2)).sum := by
    unfold places; rw [List.map_map]; rfl
  rw [hsum, hlen, a1, a2]
  have : ∀ x, countIn x ≤ 1 := by intro x; cases x <;> simp [countIn]
  have i1 := this (asAlone p (callsIn k log)).2.current
  have i2 := this (asAlone p (callsIn k log)).2.overflow
  have : 32760 * (n + countIn (asAlone p (callsIn k log)).2.current + countIn (asAlone p (callsIn k log)).2.overflow) ≤ 32760 * (n + 2) :=
    Nat.mul_le_mul_left _ (by omega)
  omega

end

/-! ## The hypotheses are met -/

/-- `runNested` with the record of the calls. -/
def runLogged (log : List Call) (s : Nested) : List NOp → Option (List Call × Nested)
  | [] => some (log, s)
  | o :: ops =>
    if placeFree s.w then
      match s.step .dev reuseSys o with
      | .ret s' => runLogged (log ++ s.callOf .dev reuseSys o) s' ops
      | .panic => none
    else none

theorem runLogged_logged {ops : List NOp} (hs : ∀ o ∈ ops, o.Sized) {log log' : List Call} {s s' : Nested} (h : Logged .dev reuseSys log s)
    (e : runLogged log s ops = some (log', s')) : Logged .dev reuseSys log' s' := by
  induction ops generalizing log s with
  | nil => cases e; exact h
  | cons o ops ih =>
    simp only [runLogged] at e
    split at e
    · rename_i hf
      split at e
      · rename_i s1 hs1
        exact ih (fun o ho => hs o (List.mem_cons_of_mem _ ho)) (.op o h (reuseSys_honest hf) (hs o (List.mem_cons_self ..)) hs1) e
      · cases e
    · cases e

/-- The calls of `exampleNested` in heap 0: two that need a block each and one in between. -/
example : (runLogged [] (Nested.init fun _ => 77) exampleNested).map (fun x => (callsIn 0 x.1).map fun c => (c.headerSize, c.size, c.entered, c.answers)) =
    some [(8, 2, .calls 98320 .small, [some 98304]), (8, 32740, .calls 131088 .medium, [some 131072]), (8, 1, .calls 98336 .small, [])] := by
  decide +kernel

/-- A program with one heap, in which nothing is nested; its objects have the same sizes (with header) as those of `exampleNested` in heap 0. -/
def exampleAlone : List NOp :=
  [.newHeap 4, .alloc 0 [1, 2, 3, 4, 5, 6], .returns [1, 1, 1, 1], .allocArray 0 32744, .returns [2, 2, 2, 2], .alloc 0 [1, 2, 3, 4, 5], .panics]

/-- The program starts when the system has answered two requests of others. -/
def startAlone : Nested := { Nested.init (fun _ => 3) with w := { (Nested.init fun _ => 3).w with calls := 2 } }

/-- ... so the theorems, `c103_separate` among them, speak of these two programs. -/
example : ∃ log s log' s', Logged .dev reuseSys log s ∧ Logged .dev reuseSys log' s' ∧ (s.get 0).isSome ∧ (s'.get 0).isSome ∧
    (callsIn 0 log).map (fun c => c.headerSize + c.size) = (callsIn 0 log').map (fun c => c.headerSize + c.size) ∧
    answersTo (callsIn 0 log) = answersTo (callsIn 0 log') ∧ (callsIn 0 log).length = 3 ∧ log.length = 6 := by
  have h : (match runLogged [] (Nested.init fun _ => 77) exampleNested, runLogged [] startAlone exampleAlone with
    | some (log, s), some (log', s') => (s.get 0).isSome && (s'.get 0).isSome &&
      decide ((callsIn 0 log).map (fun c => c.headerSize + c.size) = (callsIn 0 log').map (fun c => c.headerSize + c.size)) &&
      decide (answersTo (callsIn 0 log) = answersTo (callsIn 0 log')) && decide ((callsIn 0 log).length = 3) && decide (log.length = 6)
    | _, _ => false) = true := by decide +kernel
  cases e : runLogged [] (Nested.init fun _ => 77) exampleNested with
  | none => rw [e] at h; cases h
  | some x =>
    cases e' : runLogged [] startAlone exampleAlone with
    | none => rw [e, e'] at h; cases h
    | some y =>
      obtain ⟨log, s⟩ := x
      obtain ⟨log', s'⟩ := y
      rw [e, e'] at h
      simp only [Bool.and_eq_true, decide_eq_true_eq] at h
      refine ⟨log, s, log', s', runLogged_logged exampleNested_sized (.start _) e, runLogged_logged ?_ (.environment _ 2 (.start _) (by decide) ?_) e',
        h.1.1.1.1.1, h.1.1.1.1.2, h.1.1.1.2, h.1.1.2, h.1.2, h.2⟩
      · intro o ho
        simp only [exampleAlone, List.mem_cons, List.not_mem_nil, or_false] at ho
        rcases ho with rfl | rfl | rfl | rfl | rfl | rfl | rfl
        all_goals simp only [NOp.Sized, List.length_cons, List.length_nil]
        all_goals omega
      · intro x hx; simp [World.isLive, Nested.init] at hx

end Verif.Immix
