import Verif.Spec.Placement
import Verif.Props.Heap

/-!
# Where objects are placed and how much memory the heap holds (C63, C64)
-/

namespace Verif.Immix

open Verif Verif.Immix.Spec

/-- Address and number of used bytes of a block. -/
def cell (b : BumpBlock) : Nat × Nat := (b.block.ptr, b.cursor - 16)

/-- The abstract allocator sees the current and the overflow block.  `base` are the blocks obtained before it began. -/
structure Sim (base : List (Nat × Nat)) (bl : BlockList) (w : World) (P : Placement) : Prop where
  current : P.current = bl.head.map cell
  overflow : P.overflow = bl.overflow.map cell
  calls : P.calls = w.calls
  blocks : w.obtained = base ++ P.blocks.map fun q => (q, 32768)

theorem innerAlloc_cell (p : Profile) (b : BumpBlock) (n : Nat) (hb : BlockOK b) (hn : n ≤ 32752) :
    b.innerAlloc p n = .ret (if (cell b).2 + n ≤ 32752 then (some ((cell b).1 + 16 + (cell b).2), { b with cursor := b.cursor + n })
      else (none, b)) := by
  have h1 := hb.cur_ge
  have h2 := hb.cur_le
  rw [innerAlloc_std p b n hb.limit h2 (by omega)]
  have c1 : (cell b).1 = b.block.ptr := rfl
  have c2 : (cell b).2 = b.cursor - 16 := rfl
  have e : b.block.ptr + b.cursor = (cell b).1 + 16 + (cell b).2 := by omega
  by_cases h : b.cursor + n ≤ 32768
  · rw [if_pos h, if_pos (by omega), e]
  · rw [if_neg h, if_neg (by omega)]

/-- A heap answer agrees with an answer of the abstract allocator. -/
def Agrees (base : List (Nat × Nat)) (x : Rust (HeapOut Nat)) (y : Except AllocError Nat × Placement) : Prop :=
  ∃ r bl w, x = .ret (r, bl, w) ∧ y.1 = r ∧ Sim base bl w y.2

theorem cell_bump {b : BumpBlock} (n : Nat) (hb : BlockOK b) : cell { b with cursor := b.cursor + n } = ((cell b).1, (cell b).2 + n) := by
  have := hb.cur_ge
  simp only [cell, Prod.mk.injEq, true_and]; omega

section
variable {p : Profile} {sys : Sys} {base : List (Nat × Nat)} {bl : BlockList} {w : World} {P : Placement}

/-- The system's answers to the requests of the heap. -/
abbrev answers (sys : Sys) : Nat → Option Nat := fun i => sys.alloc i 32768 32768

theorem inNewBlock_agrees (hs : Sim base bl w P) (n : Nat) (hn : n ≤ 32752) (bl0 : BlockList) (hbl : bl0 = bl) (bl' : BumpBlock → BlockList) (use : Nat → Placement)
    (h1 : ∀ f : BumpBlock, (use f.block.ptr).current = (bl' { f with cursor := f.cursor + n }).head.map cell ∨ f.cursor ≠ 16)
    (h2 : ∀ f : BumpBlock, (use f.block.ptr).overflow = (bl' { f with cursor := f.cursor + n }).overflow.map cell ∨ f.cursor ≠ 16) :
    Agrees base (match BumpBlock.new sys w with
      | (.error e, w) => .ret (.error e, bl0, w)
      | (.ok fresh, w) => do
        let (r, fresh) ← fresh.innerAlloc p n
        let space ← Rust.unwrap r
        .ret (.ok space, bl' fresh, w)) (P.inNewBlock (answers sys) use) := by
  subst hbl
  rw [blockNew_eq]
  unfold Placement.inNewBlock
  rw [hs.calls]
  cases h : sys.alloc w.calls 32768 32768 with
  | none => exact ⟨_, _, _, rfl, by simp [h], by simpa [h] using ⟨hs.current, hs.overflow, rfl, hs.blocks⟩⟩
  | some q =>
    simp only
    rw [innerAlloc_std _ _ _ rfl (by simp) (by omega)]
    have h16 : 16 + n ≤ 32768 := by omega
    simp only [h16, if_true, Rust.bind_ret, Rust.unwrap_some]
    refine ⟨_, _, _, rfl, by simp [h], ?_⟩
    simp only [h]
    have a1 := h1 { cursor := 16, limit := 32768, block := { ptr := q, size := 32768 }, info := BlockMeta.new, metaPtr := sys.metaAddr (w.calls + 1) }
    have a2 := h2 { cursor := 16, limit := 32768, block := { ptr := q, size := 32768 }, info := BlockMeta.new, metaPtr := sys.metaAddr (w.calls + 1) }
    simp only [ne_eq, not_true_eq_false, or_false] at a1 a2
    exact ⟨a1, a2, rfl, by simp [hs.blocks]⟩

theorem overflow_agrees (hs : Sim base bl w P) (hb : ∀ b ∈ bl.all, BlockOK b) (n : Nat) (hn : n ≤ 32752) :
    Agrees base (bl.overflowAlloc p sys w n) (match P.overflow with
      | none => P.inNewBlock (answers sys) fun q => { P with overflow := some (q, n) }
      | some (b, used) =>
        if used + n ≤ 32752 then (.ok (b + 16 + used), { P with overflow := some (b, used + n) })
        else P.inNewBlock (answers sys) fun q => { P with overflow := some (q, n) }) := by
  unfold BlockList.overflowAlloc
  rw [BLOCK_CAPACITY_eq]
  simp only [hn, not_true_eq_false, if_false]
  rw [hs.overflow]
  cases ho : bl.overflow with
  | none =>
    simp only [Option.map_none]
    refine inNewBlock_agrees hs n hn _ rfl (fun f => { bl with overflow := some f }) _ (fun f => Or.inl hs.current) fun f => ?_
    by_cases hf : f.cursor = 16
    · left; simp [cell, hf]
    · exact Or.inr hf
  | some ov =>
    have hov : BlockOK ov := hb ov (by simp [BlockList.all, ho])
    simp only [Option.map_some, innerAlloc_cell p ov n hov hn, Rust.bind_ret]
    by_cases hfit : (cell ov).2 + n ≤ 32752
    · simp only [hfit, if_true]
      refine ⟨_, _, _, rfl, rfl, hs.current, ?_, hs.calls, hs.blocks⟩
      simp [cell_bump n hov]
    · simp only [hfit, if_false]
      refine inNewBlock_agrees hs n hn _ (by rw [← ho]) (fun f => { bl with overflow := some f, rest := bl.rest ++ [ov] }) _ (fun f => Or.inl hs.current) fun f => ?_
      by_cases hf : f.cursor = 16
      · left; simp [cell, hf]
      · exact Or.inr hf

theorem findSpace_agrees (hs : Sim base bl w P) (hb : ∀ b ∈ bl.all, BlockOK b) (n : Nat) (h0 : 1 ≤ n) (hn : n ≤ 32752) :
    Agrees base (findSpace p sys bl w n (classOf n)) (P.put (answers sys) n) := by
  unfold findSpace Placement.put
  have hlg : classOf n ≠ .large := by unfold classOf; split <;> simp
  have hm : classOf n = .medium ↔ ¬ n ≤ 128 := by unfold classOf; split <;> simp_all
  rw [if_neg hlg, if_neg (by omega), hs.current]
  cases hh : bl.head with
  | none =>
    simp only [Option.map_none]
    refine inNewBlock_agrees hs n hn _ rfl (fun f => { bl with head := some f }) _ (fun f => ?_) (fun f => Or.inl hs.overflow)
    by_cases hf : f.cursor = 16
    · left; simp [cell, hf]
    · exact Or.inr hf
  | some head =>
    have hok : BlockOK head := hb head (by simp [BlockList.all, hh])
    have hge := hok.cur_ge
    have hle := hok.cur_le
    simp only [Option.map_some]
    have hdec : usesOverflow p head n (classOf n) = Rust.ret (decide (¬ n ≤ 128 ∧ ¬ (cell head).2 + n ≤ 32752)) := by
      unfold usesOverflow BumpBlock.currentHoleSize
      rw [hok.limit, if_pos hle]
      by_cases h : n ≤ 128
      · rw [if_neg (by rw [hm]; simp [h])]; simp [h]
      · rw [if_pos (hm.2 h)]
        simp only [Rust.bind_ret, h, not_false_eq_true, true_and, cell]
        congr 1
        rw [decide_eq_decide]; omega
    rw [hdec, Rust.bind_ret]
    by_cases hfit : (cell head).2 + n ≤ 32752
    · simp only [hfit, not_true_eq_false, and_false, decide_false, Bool.false_eq_true, if_false, if_true, innerAlloc_cell p head n hok hn, Rust.bind_ret]
      refine ⟨_, _, _, rfl, rfl, ?_, hs.overflow, hs.calls, hs.blocks⟩
      simp [cell_bump n hok]
    · by_cases hsm : n ≤ 128
      · simp only [hfit, hsm, not_true_eq_false, false_and, decide_false, Bool.false_eq_true, if_false, if_true, innerAlloc_cell p head n hok hn, Rust.bind_ret]
        refine inNewBlock_agrees hs n hn _ (by rw [← hh]) (fun f => { bl with head := some f, rest := bl.rest ++ [head] }) _ (fun f => ?_) (fun f => Or.inl hs.overflow)
        by_cases hf : f.cursor = 16
        · left; simp [cell, hf]
        · exact Or.inr hf
      · simp only [hfit, hsm, not_false_eq_true, and_self, decide_true, if_true, if_false]
        have := overflow_agrees (p := p) (sys := sys) hs hb n hn
        rw [hs.current, hh] at this
        exact this

theorem allocCore_agrees (H : HeaderType) (size : Nat) (header : SizeClass → List UInt8) (body : List UInt8) (hs : Sim base bl w P) (hI : BlocksInv sys bl w)
    (hH : H.size < 2 ^ 63) (hsz : size < 2 ^ 63) {r : Except AllocError Nat} {bl' : BlockList} {w' : World}
    (h : allocCore p sys H bl w size header body = .ret (r, bl', w')) :
    r = (P.put (answers sys) (roundUp (H.size + size))).1.map (· + H.size) ∧ Sim base bl' w' (P.put (answers sys) (roundUp (H.size + size))).2 := by
  unfold allocCore at h
  rw [usizeAdd_small _ _ _ (by omega), Rust.bind_ret] at h
  by_cases hov : H.size + size + 7 < 2 ^ 64
  · rw [allocSizeOf_fits _ _ hov, Rust.bind_ret] at h
    generalize roundUp (H.size + size) = n at h ⊢
    by_cases hbad : n = 0 ∨ 32752 < n
    · have hput : P.put (answers sys) n = (.error .badRequest, P) := by unfold Placement.put; rw [if_pos hbad]
      rw [hput]
      rw [getForSize_eq, if_neg (by omega), if_neg (by omega)] at h
      by_cases hlg : 32753 ≤ n ∧ n ≤ 4294967295
      · rw [if_pos hlg] at h
        simp [findSpace] at h
        obtain ⟨rfl, rfl, rfl⟩ := h
        exact ⟨rfl, hs⟩
      · rw [if_neg hlg] at h
        simp at h
        obtain ⟨rfl, rfl, rfl⟩ := h
        exact ⟨rfl, hs⟩
    · have hcls : getForSize n = .ok (classOf n) := by
        rw [getForSize_eq]
        unfold classOf
        by_cases h : n ≤ 128
        · rw [if_pos (by omega), if_pos h]
        · rw [if_neg (by omega), if_pos (by omega), if_neg h, if_pos (by omega)]
      rw [hcls] at h
      simp only at h
      obtain ⟨r1, bl1, w1, e1, e2, e3⟩ := findSpace_agrees (p := p) (sys := sys) hs hI.ok n (by omega) (by omega)
      rw [e1] at h
      simp only [Rust.bind_ret] at h
      cases r1 with
      | error e =>
        simp at h
        obtain ⟨rfl, rfl, rfl⟩ := h
        rw [e2]; exact ⟨rfl, e3⟩
      | ok a =>
        simp at h
        obtain ⟨rfl, rfl, rfl⟩ := h
        rw [e2]; exact ⟨rfl, e3.current, e3.overflow, e3.calls, e3.blocks⟩
  · rw [allocSizeOf_overflow _ _ (by omega) hov] at h
    have hput : P.put (answers sys) (roundUp (H.size + size)) = (.error .badRequest, P) := by
      unfold Placement.put; rw [if_pos]
      have := roundUp_ge (H.size + size); omega
    rw [hput]
    cases p with
    | dev => simp at h
    | release =>
      simp only [Rust.bind_ret] at h
      rw [getForSize_eq] at h
      simp at h
      obtain ⟨rfl, rfl, rfl⟩ := h
      exact ⟨rfl, hs⟩

end

theorem sim_step {p : Profile} {sys : Sys} {H : HeaderType} {m m' : Machine} {op : Op} {P : Placement} (hH : H.size < 2 ^ 63)
    (hI : Inv sys H m) (hs : Sim [] m.bl m.w P) (hop : op.Sized) (h : m.step p sys H op = .ret m') :
    Sim [] m'.bl m'.w (placeStep (answers sys) H P m.log op).1 ∧ m'.log = (placeStep (answers sys) H P m.log op).2 := by
  cases op with
  | alloc t o =>
    simp only [Machine.step, alloc_eq_core] at h
    simp only [Op.Sized] at hop
    cases e : allocCore p sys H m.bl m.w o.length (fun c => H.new t (asU32 o.length) c .allocated) o with
    | panic => rw [e] at h; simp at h
    | ret x =>
      obtain ⟨r, bl', w'⟩ := x
      obtain ⟨e1, e2⟩ := allocCore_agrees H _ _ _ hs hI.blocks hH hop e
      rw [e] at h
      simp only [placeStep]
      cases hput : P.put (answers sys) (roundUp (H.size + o.length)) with
      | mk y P' =>
        rw [hput] at e1 e2
        subst e1
        cases y <;> (simp [Except.map] at h; subst h; exact ⟨e2, rfl⟩)
  | allocArray n =>
    simp only [Machine.step, allocArray_eq_core] at h
    simp only [Op.Sized] at hop
    cases e : allocCore p sys H m.bl m.w n (fun c => H.newArray n c .allocated) (List.replicate n 0) with
    | panic => rw [e] at h; simp at h
    | ret x =>
      obtain ⟨r, bl', w'⟩ := x
      obtain ⟨e1, e2⟩ := allocCore_agrees H _ _ _ hs hI.blocks hH (by omega) e
      rw [e] at h
      simp only [placeStep]
      cases hput : P.put (answers sys) (roundUp (H.size + n)) with
      | mk y P' =>
        rw [hput] at e1 e2
        subst e1
        cases y <;> (simp [Except.map] at h; subst h; exact ⟨e2, rfl⟩)
  | store k off bytes =>
    simp only [Machine.step] at h
    simp only [placeStep]
    split at h
    · rename_i o ho
      rw [ho]
      split at h
      · rename_i hfit
        simp at h; subst h
        simp only [hfit, if_true]
        exact ⟨⟨hs.current, hs.overflow, hs.calls, hs.blocks⟩, trivial⟩
      · rename_i hfit
        simp at h; subst h
        simp only [hfit, if_false]
        exact ⟨hs, trivial⟩
    · rename_i ho
      simp at h; subst h
      rw [ho]; exact ⟨hs, rfl⟩

theorem sim_run {p : Profile} {sys : Sys} {H : HeaderType} (hS : SysOK sys) (hH : H.size < 2 ^ 63) (ops : List Op) {m m' : Machine} {P : Placement}
    (hI : Inv sys H m) (hs : Sim [] m.bl m.w P) (hop : ∀ op ∈ ops, op.Sized) (h : m.run p sys H ops = .ret m') :
    Sim [] m'.bl m'.w (placeRun (answers sys) H P m.log ops).1 ∧ m'.log = (placeRun (answers sys) H P m.log ops).2 := by
  induction ops generalizing m P with
  | nil => simp [Machine.run] at h; subst h; exact ⟨hs, rfl⟩
  | cons op ops ih =>
    simp only [Machine.run] at h
    cases e : m.step p sys H op with
    | panic => rw [e] at h; simp at h
    | ret m1 =>
      rw [e] at h
      simp only [Rust.bind_ret] at h
      have ho := hop op (by simp)
      obtain ⟨s1, l1⟩ := sim_step hH hI hs ho e
      have := ih (inv_step hS hH hI ho e) s1 (fun o ho => hop o (by simp [ho])) h
      rw [l1] at this
      exact this

section
variable {p : Profile} {sys : Sys} {H : HeaderType} {mem : Mem} {ops : List Op} {m : Machine}

/-- **C63** The heap places objects exactly like the abstract allocator `Placement`: for every client program the results of
all calls (addresses and errors), the number of requests to the system and the blocks obtained are those of the
specification, whatever the system allocator answers. -/
theorem c63_placement (hS : SysOK sys) (hH : H.size < 2 ^ 63) (h : Reaches p sys H mem ops m) :
    m.log = (placeRun (fun i => sys.alloc i 32768 32768) H Placement.init [] ops).2 ∧
    m.w.calls = (placeRun (fun i => sys.alloc i 32768 32768) H Placement.init [] ops).1.calls ∧
    m.w.obtained = (placeRun (fun i => sys.alloc i 32768 32768) H Placement.init [] ops).1.blocks.map fun q => (q, 32768) := by
  have hs : Sim [] (Machine.init mem).bl (Machine.init mem).w Placement.init :=
    ⟨rfl, rfl, rfl, rfl⟩
  obtain ⟨s, l⟩ := sim_run hS hH ops (inv_init sys H mem) hs h.1 h.2
  exact ⟨l, s.calls.symm, s.blocks⟩

end

/-! ## C64 -/

/-- Bytes used in a block, if there is one. -/
def usedIn : Option (Nat × Nat) → Nat
  | none => 0
  | some c => c.2

/-- Number of blocks in a role. -/
def countIn : Option (Nat × Nat) → Nat
  | none => 0
  | some _ => 1

/-- What relates the bytes reserved (`total`) to the blocks held: `n` blocks are retired and hold `R` bytes. -/
def Compact (P : Placement) (total : Nat) : Prop :=
  ∃ n R, P.blocks.length = n + countIn P.current + countIn P.overflow ∧ total = R + usedIn P.current + usedIn P.overflow ∧
    32760 * n ≤ 2 * R + usedIn P.overflow ∧ (usedIn P.current ≤ 32752 ∧ 8 ∣ usedIn P.current) ∧ usedIn P.overflow ≤ 32752 ∧ 8 ∣ usedIn P.overflow

theorem put_compact {answer : Nat → Option Nat} {P : Placement} {total r : Nat} (h : Compact P total) (h8 : 8 ∣ r) :
    Compact (P.put answer r).2 (total + match (P.put answer r).1 with | .ok _ => r | .error _ => 0) := by
  obtain ⟨n, R, h1, h2, h3, h4, h5⟩ := h
  unfold Placement.put
  split
  · exact ⟨n, R, h1, h2, h3, h4, h5⟩
  · rename_i hr
    split
    · rename_i hc
      unfold Placement.inNewBlock
      split
      · exact ⟨n, R, h1, h2, h3, h4, h5⟩
      · simp only [hc, countIn, usedIn] at h1 h2
        exact ⟨n, R, by simp [countIn]; omega, by simp [usedIn] at *; omega, h3, by simp [usedIn]; omega, h5⟩
    · rename_i b used hc
      simp only [hc, countIn, usedIn] at h1 h2 h4
      split
      · refine ⟨n, R, by simpa [countIn] using h1, by simp [usedIn] at *; omega, h3, by simp [usedIn]; omega, h5⟩
      · split
        · unfold Placement.inNewBlock
          split
          · exact ⟨n, R, by simp [hc, countIn]; omega, by simp [hc, usedIn] at *; omega, h3, by simp [hc, usedIn]; omega, h5⟩
          · refine ⟨n + 1, R + used, by simp [countIn] at *; omega, by simp [usedIn] at *; omega, ?_, by simp [usedIn]; omega, h5⟩
            simp only at *; omega
        · split
          · rename_i ho
            simp only [ho, countIn, usedIn] at h1 h2 h3
            unfold Placement.inNewBlock
            split
            · exact ⟨n, R, by simp [hc, ho, countIn]; omega, by simp [hc, ho, usedIn] at *; omega, by simp [ho, usedIn]; omega, by simp [hc, usedIn]; omega, by simp [ho, usedIn]⟩
            · refine ⟨n, R, by simp [hc, countIn]; omega, by simp [hc, usedIn] at *; omega, by simp only [usedIn]; omega, by simp [hc, usedIn]; omega, by simp [usedIn]; omega⟩
          · rename_i b' used' ho
            simp only [ho, countIn, usedIn] at h1 h2 h3 h5
            split
            · refine ⟨n, R, by simp [hc, countIn]; omega, by simp [hc, usedIn] at *; omega, by simp only [usedIn]; omega, by simp [hc, usedIn]; omega, by simp [usedIn]; omega⟩
            · unfold Placement.inNewBlock
              split
              · exact ⟨n, R, by simp [hc, ho, countIn]; omega, by simp [hc, ho, usedIn] at *; omega, by simp [ho, usedIn]; omega, by simp [hc, usedIn]; omega, by simp [ho, usedIn]; omega⟩
              · refine ⟨n + 1, R + used', by simp [hc, countIn]; omega, by simp [hc, usedIn] at *; omega, by simp only [usedIn]; omega, by simp [hc, usedIn]; omega, by simp [usedIn]; omega⟩

theorem reserved_append (H : HeaderType) (l : List Ev) (e : Ev) : reserved H (l ++ [e]) = reserved H l + reserved H [e] := by
  unfold reserved; rw [objs_append]; simp

theorem step_compact {answer : Nat → Option Nat} {H : HeaderType} {P : Placement} {log : List Ev} (op : Op) (h : Compact P (reserved H log)) :
    Compact (placeStep answer H P log op).1 (reserved H (placeStep answer H P log op).2) := by
  cases op with
  | alloc t o =>
    have := put_compact (answer := answer) (r := roundUp (H.size + o.length)) h ⟨_, Nat.mul_comm _ _⟩
    simp only [placeStep]
    split
    · rename_i e; rw [e] at this; rw [reserved_append]; simpa [reserved, objs, Obj.extent] using this
    · rename_i e; rw [e] at this; rw [reserved_append]; simpa [reserved, objs] using this
  | allocArray n =>
    have := put_compact (answer := answer) (r := roundUp (H.size + n)) h ⟨_, Nat.mul_comm _ _⟩
    simp only [placeStep]
    split
    · rename_i e; rw [e] at this; rw [reserved_append]; simpa [reserved, objs, Obj.extent] using this
    · rename_i e; rw [e] at this; rw [reserved_append]; simpa [reserved, objs] using this
  | store k off bytes =>
    simp only [placeStep]
    split
    · split
      · rw [reserved_append]; simpa [reserved, objs] using h
      · exact h
    · exact h

theorem run_compact {answer : Nat → Option Nat} {H : HeaderType} (ops : List Op) {P : Placement} {log : List Ev} (h : Compact P (reserved H log)) :
    Compact (placeRun answer H P log ops).1 (reserved H (placeRun answer H P log ops).2) := by
  induction ops generalizing P log with
  | nil => exact h
  | cons op ops ih => exact ih (step_compact op h)

/-- **C64** The memory the heap holds is bounded by (almost exactly) twice what the objects need plus two blocks: after any program, with `k`
blocks obtained and `b` bytes reserved for objects (headers and rounding included), `32760 * k ≤ 2 * b + 2 * 32760`. -/
theorem c64_space_bound {p : Profile} {sys : Sys} {H : HeaderType} {mem : Mem} {ops : List Op} {m : Machine} (hS : SysOK sys)
    (hH : H.size < 2 ^ 63) (h : Reaches p sys H mem ops m) :
    32760 * m.w.obtained.length ≤ 2 * reserved H m.log + 2 * 32760 := by
  obtain ⟨h1, _, h3⟩ := c63_placement hS hH h
  have h0 : Compact Placement.init (reserved H []) := ⟨0, 0, rfl, rfl, Nat.le_refl _, ⟨Nat.zero_le _, Nat.dvd_zero _⟩, Nat.zero_le _, Nat.dvd_zero _⟩
  obtain ⟨n, R, a1, a2, a3, a4, a5⟩ := run_compact (answer := fun i => sys.alloc i 32768 32768) ops h0
  rw [h3, List.length_map, h1, a1, a2]
  have : ∀ x, countIn x ≤ 1 := by intro x; cases x <;> simp [countIn]
  have i1 := this (placeRun (fun i => sys.alloc i 32768 32768) H Placement.init [] ops).1.current
  have i2 := this (placeRun (fun i => sys.alloc i 32768 32768) H Placement.init [] ops).1.overflow
  have : 32760 * (n + countIn (placeRun (fun i => sys.alloc i 32768 32768) H Placement.init [] ops).1.current +
      countIn (placeRun (fun i => sys.alloc i 32768 32768) H Placement.init [] ops).1.overflow) ≤ 32760 * (n + 2) := Nat.mul_le_mul_left _ (by omega)
  omega

theorem put_new_overflow {answer : Nat → Option Nat} {P : Placement} {r b q : Nat} {x : Option (Nat × Nat)} (hr : 128 < r) (h8 : r ≤ 32752) (hc : P.current = some (b, 32752))
    (ho : P.overflow = x) (hx : ∀ b' u, x = some (b', u) → 32752 < u + r) (hq : answer P.calls = some q) :
    P.put answer r = (.ok (q + 16), ⟨some (b, 32752), some (q, r), P.calls + 1, P.blocks ++ [q]⟩) := by
  unfold Placement.put
  rw [if_neg (by omega), hc]
  simp only
  rw [if_neg (by omega), if_neg (by omega), ho]
  cases x with
  | none => simp only [Placement.inNewBlock, hq, hc]
  | some y =>
    obtain ⟨b', u⟩ := y
    have := hx b' u rfl
    simp only [Placement.inNewBlock, hq, hc]
    rw [if_neg (by omega)]

/-- A program that needs almost two blocks' worth of memory for each block's worth of objects. -/
def wasteful (H : HeaderType) (n : Nat) : List Op :=
  .allocArray (32752 - H.size) :: (List.replicate n [Op.allocArray (136 - H.size), Op.allocArray (32624 - H.size)]).flatten

theorem wasteful_run {answer : Nat → Option Nat} {H : HeaderType} (hH : H.size ≤ 128) (b : Nat) : ∀ (n : Nat) (P : Placement) (log : List Ev),
    P.current = some (b, 32752) → (∀ b' u, P.overflow = some (b', u) → u = 32624) →
    (∀ i, P.calls ≤ i → i < P.calls + 2 * n → ∃ q, answer i = some q) →
    ((placeRun answer H P log (List.replicate n [Op.allocArray (136 - H.size), Op.allocArray (32624 - H.size)]).flatten).1.blocks.length = P.blocks.length + 2 * n ∧
    reserved H (placeRun answer H P log (List.replicate n [Op.allocArray (136 - H.size), Op.allocArray (32624 - H.size)]).flatten).2 = reserved H log + 32760 * n)
  | 0, P, log, _, _, _ => ⟨rfl, rfl⟩
  | n + 1, P, log, hc, ho, hq => by
    have r1 : roundUp (H.size + (136 - H.size)) = 136 := by unfold roundUp; omega
    have r2 : roundUp (H.size + (32624 - H.size)) = 32624 := by unfold roundUp; omega
    obtain ⟨q1, hq1⟩ := hq P.calls (by omega) (by omega)
    obtain ⟨q2, hq2⟩ := hq (P.calls + 1) (by omega) (by omega)
    have e1 := put_new_overflow (r := 136) (by omega) (by omega) hc rfl (fun b' u h => by have := ho b' u h; omega) hq1
    have e2 := put_new_overflow (P := ⟨some (b, 32752), some (q1, 136), P.calls + 1, P.blocks ++ [q1]⟩) (r := 32624) (by omega) (by omega) rfl rfl
      (fun b' u h => by cases h; omega) hq2
    have s1 : placeStep answer H P log (.allocArray (136 - H.size)) = (⟨some (b, 32752), some (q1, 136), P.calls + 1, P.blocks ++ [q1]⟩,
        log ++ [.allocatedArray (136 - H.size) (q1 + 16 + H.size)]) := by
      simp only [placeStep, r1, e1]
    have s2 : ∀ log, placeStep answer H ⟨some (b, 32752), some (q1, 136), P.calls + 1, P.blocks ++ [q1]⟩ log (.allocArray (32624 - H.size)) =
        (⟨some (b, 32752), some (q2, 32624), P.calls + 1 + 1, P.blocks ++ [q1] ++ [q2]⟩, log ++ [.allocatedArray (32624 - H.size) (q2 + 16 + H.size)]) := by
      intro log
      simp only [placeStep, r2, e2]
    simp only [List.replicate_succ, List.flatten_cons, List.cons_append, List.nil_append, placeRun, s1, s2]
    obtain ⟨h1, h2⟩ := wasteful_run hH b n ⟨some (b, 32752), some (q2, 32624), P.calls + 1 + 1, P.blocks ++ [q1] ++ [q2]⟩
      (log ++ [.allocatedArray (136 - H.size) (q1 + 16 + H.size)] ++ [.allocatedArray (32624 - H.size) (q2 + 16 + H.size)]) rfl
      (fun b' u h => by cases h; rfl) (fun i h1 h2 => hq i (by simp only at h1; omega) (by simp only at h2; omega))
    refine ⟨by rw [h1]; simp only [List.length_append, List.length_cons, List.length_nil]; omega, ?_⟩
    rw [h2, reserved_append, reserved_append]
    have x1 : ∀ a, reserved H [.allocatedArray (136 - H.size) a] = 136 := by
      intro a; simp only [reserved, objs, Obj.extent, List.map_cons, List.map_nil, r1, List.sum_cons, List.sum_nil, Nat.add_zero]
    have x2 : ∀ a, reserved H [.allocatedArray (32624 - H.size) a] = 32624 := by
      intro a; simp only [reserved, objs, Obj.extent, List.map_cons, List.map_nil, r2, List.sum_cons, List.sum_nil, Nat.add_zero]
    rw [x1, x2]
    omega

/-- **C64** The factor cannot be improved: with a system allocator that answers, for every `n` there is a program after which the heap has
`k = 2 * n + 1` blocks and objects of `b` bytes where `2 * b = 32760 * k + 32744`. -/
theorem c64_bound_reached {p : Profile} {sys : Sys} {H : HeaderType} {mem : Mem} (hS : SysOK sys) (hH : H.size ≤ 128) (n : Nat)
    (hq : ∀ i, i ≤ 2 * n → ∃ q, sys.alloc i 32768 32768 = some q) :
    ∃ ops m, Reaches p sys H mem ops m ∧ m.w.obtained.length = 2 * n + 1 ∧ 2 * reserved H m.log = 32760 * (2 * n + 1) + 32744 := by
  obtain ⟨m, hm⟩ := c08_no_panic (H := H) p hS (by omega) mem (wasteful H n) (by
    intro op hop
    rcases List.mem_cons.1 hop with rfl | hop
    · simp only [Op.Sized]; omega
    · obtain ⟨l, h1, h2⟩ := List.mem_flatten.1 hop
      rw [List.eq_of_mem_replicate h1] at h2
      simp only [List.mem_cons, List.not_mem_nil, or_false] at h2
      rcases h2 with rfl | rfl <;> (simp only [Op.Sized]; omega)) (by
    intro op hop
    rcases List.mem_cons.1 hop with rfl | hop
    · simp only [Op.Fits]; omega
    · obtain ⟨l, h1, h2⟩ := List.mem_flatten.1 hop
      rw [List.eq_of_mem_replicate h1] at h2
      simp only [List.mem_cons, List.not_mem_nil, or_false] at h2
      rcases h2 with rfl | rfl <;> (simp only [Op.Fits]; omega))
  refine ⟨_, m, hm, ?_⟩
  obtain ⟨h1, _, h3⟩ := c63_placement hS (by omega) hm
  obtain ⟨q, hq0⟩ := hq 0 (by omega)
  have r0 : roundUp (H.size + (32752 - H.size)) = 32752 := by unfold roundUp; omega
  have s0 : placeStep (fun i => sys.alloc i 32768 32768) H Placement.init [] (.allocArray (32752 - H.size)) =
      (⟨some (q, 32752), none, 1, [q]⟩, [.allocatedArray (32752 - H.size) (q + 16 + H.size)]) := by
    simp only [placeStep, r0, Placement.put, Placement.init, Placement.inNewBlock, hq0]
    rfl
  obtain ⟨h4, h5⟩ := wasteful_run (answer := fun i => sys.alloc i 32768 32768) hH q n ⟨some (q, 32752), none, 1, [q]⟩
    [.allocatedArray (32752 - H.size) (q + 16 + H.size)] rfl nofun (fun i h1 h2 => hq i (by simp only at h2; omega))
  rw [h3, List.length_map, h1]
  simp only [wasteful, placeRun, s0]
  rw [h4, h5]
  have x1 : ∀ a, reserved H [.allocatedArray (32752 - H.size) a] = 32752 := by
    intro a; simp only [reserved, objs, Obj.extent, List.map_cons, List.map_nil, r0, List.sum_cons, List.sum_nil, Nat.add_zero]
  rw [x1]
  simp only [List.length_cons, List.length_nil]
  omega

/-! ## The hypotheses are met -/

/-- What the specification says about the example program of C01 and what the heap does: the same addresses, with the
refused request in between. -/
example : (objs (placeRun (fun i => exampleSys.alloc i 32768 32768) exampleHeader Placement.init [] exampleOps).2).map (·.ptr) =
    [32792, 32808, 65560, 33816] := by decide +kernel

/-- 999 blocks of the example system, 16 MB of objects. -/
example : ∃ ops m, Reaches .dev exampleSys exampleHeader (fun _ => 77) ops m ∧ m.w.obtained.length = 2 * 499 + 1 ∧
    2 * reserved exampleHeader m.log = 32760 * (2 * 499 + 1) + 32744 :=
  c64_bound_reached exampleSys_ok (by decide) 499 fun i hi => ⟨_, if_pos ⟨rfl, rfl, by omega⟩⟩

/-- A request that fits exactly goes to the current block and one that does not fit by one word to the overflow block. -/
example : (match (Machine.init (fun _ => 77)).run .dev exampleSys exampleHeader [.allocArray 20000, .allocArray 12736, .allocArray 200] with
    | .ret m => (objs m.log).map (·.ptr)
    | .panic => []) = [32792, 52800, 65560] := by decide +kernel

end Verif.Immix
