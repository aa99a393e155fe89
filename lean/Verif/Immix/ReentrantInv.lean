import Verif.Immix.HeapsInv
import Verif.Spec.Reentrant

/-!
# Programs with running constructors behave like programs without

Every state of a program whose constructors use the heaps looks like a state of a program (`Spec/Heaps.lean`) in which a call writes
to the space it takes what is there already, and the header and object are stored later.
-/

namespace Verif.Immix

open Verif Verif.Immix.Spec

/-- A header type with which a client can choose the bytes of a header freely. -/
def rawHeader (n : Nat) : HeaderType where
  size := n
  new t _ _ _ := leBytes n t
  newArray _ _ _ := List.replicate n 0
  new_length _ _ _ _ := leBytes_length n _
  newArray_length _ _ _ := by simp

theorem leBytes_onto : ∀ bytes : List UInt8, ∃ t, leBytes bytes.length t = bytes
  | [] => ⟨0, rfl⟩
  | b :: r => by
    obtain ⟨t, ht⟩ := leBytes_onto r
    have h : b.toNat < 256 := b.toNat_lt
    refine ⟨b.toNat + 256 * t, ?_⟩
    simp only [List.length_cons, leBytes]
    rw [show (b.toNat + 256 * t) % 256 = b.toNat by omega, show (b.toNat + 256 * t) / 256 = t by omega, ht]
    simp

theorem writeBytes_readBytes (m : Mem) (a n : Nat) : writeBytes m a (readBytes m a n) = m := by
  funext x
  by_cases h : x < a ∨ a + n ≤ x
  · exact writeBytes_outside _ _ _ _ (by rw [readBytes_length]; exact h)
  · have h1 : x - a < n := by omega
    have := writeBytes_inside m a (readBytes m a n) (x - a) (by rw [readBytes_length]; exact h1)
    rw [show a + (x - a) = x by omega] at this
    rw [this]
    simp only [readBytes, List.getElem_map, List.getElem_range]
    rw [show a + (x - a) = x by omega]

theorem overwrite_all (old bytes : List UInt8) (h : old.length = bytes.length) : overwrite old 0 bytes = bytes := by
  unfold overwrite
  rw [List.take_zero, List.nil_append, Nat.zero_add, List.drop_eq_nil_of_le (by omega), List.append_nil]

/-- What the constructor is called with. -/
theorem allocEnter_calls {p : Profile} {sys : Sys} {hs n space : Nat} {bl bl' : BlockList} {w w' : World} {cls : SizeClass}
    (hh : hs < 2 ^ 63) (hn : n < 2 ^ 63) (h : allocEnter p sys hs bl w n = .ret (.calls space cls, bl', w')) :
    cls = classOf (roundUp (hs + n)) ∧ roundUp (hs + n) ≤ 32752 := by
  unfold allocEnter at h
  rw [usizeAdd_small _ _ _ (by omega), Rust.bind_ret] at h
  by_cases hov : hs + n + 7 < 2 ^ 64
  · rw [allocSizeOf_fits _ _ hov] at h
    simp only [] at h
    generalize roundUp (hs + n) = r at *
    rw [getForSize_eq] at h
    by_cases h1 : 1 ≤ r ∧ r ≤ 128
    · rw [if_pos h1] at h
      simp only [] at h
      cases hf : findSpace p sys bl w r .small with
      | panic => rw [hf] at h; cases h
      | ret x =>
        obtain ⟨x, b1, w1⟩ := x
        rw [hf] at h
        cases x with
        | error e => cases h
        | ok s =>
          cases h
          exact ⟨by unfold classOf; rw [if_pos (by omega)], by omega⟩
    · rw [if_neg h1] at h
      by_cases h2 : 129 ≤ r ∧ r ≤ 32752
      · rw [if_pos h2] at h
        simp only [] at h
        cases hf : findSpace p sys bl w r .medium with
        | panic => rw [hf] at h; cases h
        | ret x =>
          obtain ⟨x, b1, w1⟩ := x
          rw [hf] at h
          cases x with
          | error e => cases h
          | ok s =>
            cases h
            exact ⟨by unfold classOf; rw [if_neg (by omega), if_pos (by omega)], by omega⟩
      · rw [if_neg h2] at h
        by_cases h3 : 32753 ≤ r ∧ r ≤ 4294967295
        · rw [if_pos h3] at h
          simp [findSpace] at h
        · rw [if_neg h3] at h
          cases h
  · rw [allocSizeOf_overflow _ _ (by omega) hov] at h
    cases p with
    | dev => cases h
    | release =>
      simp only [] at h
      rw [getForSize_eq] at h
      cases h

/-- The same heap. -/
structure SameHeap (g : HeapState) (h : RHeap) : Prop where
  H : g.H = rawHeader h.headerSize
  bl : g.bl = h.bl
  len : g.objs.length = h.slots.length
  each : ∀ {i : Nat} {o : Entry} {sl : Slot}, g.objs[i]? = some o → h.slots[i]? = some sl →
    o.ptr = sl.ptr ∧ o.size = sl.size ∧ ∀ c, sl.contents = some c → o.header = c.1 ∧ o.data = c.2

/-- The same heap, or both dropped. -/
def Same : Option HeapState → Option RHeap → Prop
  | none, none => True
  | some g, some h => SameHeap g h
  | _, _ => False

/-- What is known of a running call. -/
def Waiting (r : Nested) (c : Running) : Prop :=
  ∃ h sl, r.get c.heap = some h ∧ h.slots[c.slot]? = some sl ∧ sl.ptr = c.space + h.headerSize ∧ sl.size = c.body.length ∧
    sl.contents = none ∧ c.size = c.body.length ∧ c.cls = classOf (roundUp (h.headerSize + c.body.length))

/-- A state of a program with running constructors, and one without. -/
structure Alike (r : Nested) (s : Heaps) : Prop where
  w : s.w = r.w
  len : s.heaps.length = r.heaps.length
  same : ∀ k, Same (s.get k) (r.get k)
  calls : ∀ c ∈ r.calls, Waiting r c
  distinct : r.calls.Pairwise fun c c' => (c.heap, c.slot) ≠ (c'.heap, c'.slot)

theorem Alike.has {r : Nested} {s : Heaps} (hA : Alike r s) {k : Nat} {h : RHeap} (hk : r.get k = some h) :
    ∃ g, s.get k = some g ∧ SameHeap g h := by
  have := hA.same k
  rw [hk] at this
  cases hg : s.get k with
  | none => rw [hg] at this; exact this.elim
  | some g => rw [hg] at this; exact ⟨g, rfl, this⟩

theorem Alike.hasNot {r : Nested} {s : Heaps} (hA : Alike r s) {k : Nat} (hk : r.get k = none) : s.get k = none := by
  have := hA.same k
  rw [hk] at this
  cases hg : s.get k with
  | none => rfl
  | some g => rw [hg] at this; exact this.elim

theorem SameHeap.object {g : HeapState} {h : RHeap} (hS : SameHeap g h) {i : Nat} {sl : Slot} (hi : h.slots[i]? = some sl) :
    ∃ o, g.objs[i]? = some o ∧ o.ptr = sl.ptr ∧ o.size = sl.size ∧ ∀ c, sl.contents = some c → o.header = c.1 ∧ o.data = c.2 := by
  have h1 : i < g.objs.length := by rw [hS.len]; exact (List.getElem?_eq_some_iff.1 hi).1
  have h2 : g.objs[i]? = some g.objs[i] := List.getElem?_eq_getElem h1
  exact ⟨_, h2, hS.each h2 hi⟩

theorem nget_set {l : List (Option α)} {k : Nat} {y : Option α} (hk : k < l.length) (j : Nat) :
    ((l.set k y)[j]?).join = if j = k then y else (l[j]?).join := by
  rw [List.getElem?_set]
  by_cases h : k = j
  · subst h; simp [hk]
  · rw [if_neg h, if_neg (fun e => h e.symm)]

theorem nget_lt {l : List (Option α)} {k : Nat} {x : α} (hk : (l[k]?).join = some x) : k < l.length := by
  by_cases h : k < l.length
  · exact h
  · rw [List.getElem?_eq_none (by omega)] at hk; cases hk

/-- Slots that have been there stay where they are. -/
theorem Waiting.mono {r r' : Nested} {c : Running} (hw : Waiting r c)
    (hm : ∀ h sl, r.get c.heap = some h → h.slots[c.slot]? = some sl →
      ∃ h', r'.get c.heap = some h' ∧ h'.headerSize = h.headerSize ∧ h'.slots[c.slot]? = some sl) : Waiting r' c := by
  obtain ⟨h, sl, h1, h2, h3, h4, h5, h6, h7⟩ := hw
  obtain ⟨h', e1, e2, e3⟩ := hm h sl h1 h2
  exact ⟨h', sl, e1, e3, by rw [e2]; exact h3, h4, h5, h6, by rw [e2]; exact h7⟩

theorem Honest.mem {sys : Sys} {w : World} (h : Honest sys w) (mem : Mem) : Honest sys { w with mem := mem } := h

section
variable {p : Profile} {sys : Sys}

/-- One heap changes, in both states. -/
theorem Alike.set {r : Nested} {s : Heaps} (hA : Alike r s) {k : Nat} {h : RHeap} (hk : r.get k = some h)
    (g' : Option HeapState) (h' : Option RHeap) (w : World) (outcomes : List Outcome) (destroyed : List Nat) (calls : List Running)
    (hS : Same g' h') (hc : ∀ c ∈ calls, Waiting { heaps := r.heaps.set k h', w := w, calls := calls } c)
    (hd : calls.Pairwise fun c c' => (c.heap, c.slot) ≠ (c'.heap, c'.slot)) :
    Alike { heaps := r.heaps.set k h', w := w, calls := calls }
      { heaps := s.heaps.set k g', w := w, outcomes := outcomes, destroyed := destroyed } := by
  have hlt : k < r.heaps.length := nget_lt hk
  refine ⟨rfl, by simp [hA.len], fun j => ?_, hc, hd⟩
  have h1 : (Nested.get { heaps := r.heaps.set k h', w := w, calls := calls } j) = if j = k then h' else r.get j := nget_set hlt j
  have h2 : (Heaps.get { heaps := s.heaps.set k g', w := w, outcomes := outcomes, destroyed := destroyed } j) =
      if j = k then g' else s.get j := nget_set (by rw [hA.len]; exact hlt) j
  rw [h1, h2]
  by_cases e : j = k
  · rw [if_pos e, if_pos e]; exact hS
  · rw [if_neg e, if_neg e]; exact hA.same j

/-- A running call is not touched by a change of another slot. -/
theorem waiting_set {r : Nested} {k : Nat} {h h' : RHeap} (hk : r.get k = some h) {w : World} {calls : List Running} {c : Running}
    (hw : Waiting r c) (he : h'.headerSize = h.headerSize)
    (hs : c.heap = k → ∀ sl, h.slots[c.slot]? = some sl → sl.contents = none → h'.slots[c.slot]? = some sl) :
    Waiting { heaps := r.heaps.set k (some h'), w := w, calls := calls } c := by
  have hlt : k < r.heaps.length := nget_lt hk
  obtain ⟨g, sl, h1, h2, h3, h4, h5, h6⟩ := hw
  have hget : ∀ j, (Nested.get { heaps := r.heaps.set k (some h'), w := w, calls := calls } j) = if j = k then some h' else r.get j :=
    nget_set hlt
  by_cases e : c.heap = k
  · rw [e, hk] at h1
    cases h1
    exact ⟨h', sl, by rw [hget, if_pos e], hs e sl h2 h5, by rw [he]; exact h3, h4, h5, by rw [he]; exact h6⟩
  · exact ⟨g, sl, by rw [hget, if_neg e]; exact h1, h2, h3, h4, h5, h6⟩

/-- The beginning of a call. -/
theorem Alike.begin {r r' : Nested} {s : Heaps} (hP : Possible p sys s) (hA : Alike r s) (hH : Honest sys r.w) (k : Nat)
    (body : List UInt8) (hb : body.length < 2 ^ 63) (hs : r.begin p sys k body = .ret r') : ∃ s', Possible p sys s' ∧ Alike r' s' := by
  unfold Nested.begin at hs
  cases hk : r.get k with
  | none => rw [hk] at hs; cases hs; exact ⟨s, hP, hA⟩
  | some h =>
    rw [hk] at hs
    simp only [] at hs
    obtain ⟨g, hg, hS⟩ := hA.has hk
    have hH' : Honest sys s.w := by rw [hA.w]; exact hH
    have hsz : h.headerSize < 2 ^ 63 := by
      have := (hP.inv.each g (mem_of_get hg)).hsize
      rw [hS.H] at this; exact this
    cases he : allocEnter p sys h.headerSize h.bl r.w body.length with
    | panic => rw [he] at hs; cases hs
    | ret x =>
      obtain ⟨e, bl, w⟩ := x
      rw [he, Rust.bind_ret] at hs
      have he' : ∀ o : List UInt8, o.length = body.length → allocEnter p sys g.H.size g.bl s.w o.length = .ret (e, bl, w) := by
        intro o ho
        rw [hS.H, hS.bl, hA.w, ho]; exact he
      -- a call that does not reach the constructor
      have hfail : ∀ out, allocUnwind p sys g.H g.bl s.w 0 body false = .ret ⟨out, true, bl, w⟩ → out.bad →
          ∃ s', Possible p sys s' ∧ Alike { r with heaps := r.heaps.set k (some { h with bl := bl }), w := w } s' := by
        intro out hout hbad
        refine ⟨_, .op (.alloc k 0 body false) hP hH' hb (by simp only [Heaps.step, hg, hout, Rust.bind_ret]; rfl), ?_⟩
        refine hA.set hk _ _ _ _ _ _ ?_ ?_ hA.distinct
        · cases out with
          | ok q => exact hbad.elim
          | err e => exact ⟨hS.H, rfl, hS.len, hS.each⟩
          | panicked => exact ⟨hS.H, rfl, hS.len, hS.each⟩
        · intro c hc
          exact waiting_set hk (hA.calls c hc) rfl (fun _ sl h1 _ => h1)
      have hbody := he' body rfl
      cases e with
      | panicked =>
        cases hs
        exact hfail .panicked (by rw [← allocHalves_eq]; unfold allocHalves; rw [hbody]; rfl) trivial
      | err x =>
        cases hs
        exact hfail (.err x) (by rw [← allocHalves_eq]; unfold allocHalves; rw [hbody]; rfl) trivial
      | calls space cls =>
        cases hs
        obtain ⟨hcls, hle⟩ := allocEnter_calls hsz hb he
        have hge := roundUp_ge (h.headerSize + body.length)
        -- write what is there
        let o := readBytes w.mem (space + h.headerSize) body.length
        have ho : o.length = body.length := readBytes_length _ _ _
        obtain ⟨t, ht⟩ := leBytes_onto (readBytes w.mem space h.headerSize)
        rw [readBytes_length] at ht
        have hcall : allocUnwind p sys g.H g.bl s.w t o false = .ret ⟨.ok (space + h.headerSize), false, bl, w⟩ := by
          rw [← allocHalves_eq]
          unfold allocHalves
          rw [he' o ho, Rust.bind_ret]
          simp only [allocLeave, hS.H, Bool.false_eq_true, if_false]
          simp only [rawHeader]
          rw [ht, writeBytes_readBytes, writeBytes_readBytes]
        refine ⟨_, .op (.alloc k t o false) hP hH' (show o.length < 2 ^ 63 by rw [ho]; exact hb)
          (by simp only [Heaps.step, hg, hcall, Rust.bind_ret]; rfl), ?_⟩
        have hnew : (r.heaps.set k (some { h with bl := bl, slots := h.slots ++ [{ ptr := space + h.headerSize, size := body.length, contents := none }] }))[k]?.join =
            some { h with bl := bl, slots := h.slots ++ [{ ptr := space + h.headerSize, size := body.length, contents := none }] } := by
          rw [nget_set (nget_lt hk), if_pos rfl]
        refine hA.set hk _ _ _ _ _ _ ?_ ?_ ?_
        · refine ⟨hS.H, rfl, by simp [hS.len], ?_⟩
          intro i x sl hx hsl
          simp only at hx hsl
          by_cases hi : i < g.objs.length
          · rw [List.getElem?_append_left hi] at hx
            rw [List.getElem?_append_left (by rw [← hS.len]; exact hi)] at hsl
            exact hS.each hx hsl
          · rw [List.getElem?_append_right (by omega)] at hx
            rw [List.getElem?_append_right (by rw [← hS.len]; omega), ← hS.len] at hsl
            cases hj : i - g.objs.length with
            | zero =>
              rw [hj] at hx hsl
              cases hx
              cases hsl
              exact ⟨rfl, ho, fun c hc => by cases hc⟩
            | succ j => rw [hj] at hx; simp at hx
        · intro c hc
          rcases List.mem_cons.1 hc with rfl | hc
          · refine ⟨_, ⟨space + h.headerSize, body.length, none⟩, hnew, ?_, rfl, rfl, rfl, ?_, hcls⟩
            · simp
            · simp only [asU32]; omega
          · refine waiting_set hk (hA.calls c hc) rfl (fun _ sl h1 _ => ?_)
            simp only
            rw [List.getElem?_append_left (List.getElem?_eq_some_iff.1 h1).1]; exact h1
        · refine List.pairwise_cons.2 ⟨?_, hA.distinct⟩
          intro c hc heq
          obtain ⟨g1, sl, h1, h2, _⟩ := hA.calls c hc
          simp only [Prod.mk.injEq] at heq
          rw [← heq.1, hk] at h1
          cases h1
          have := (List.getElem?_eq_some_iff.1 h2).1
          omega

/-- A header and an object are stored. -/
theorem Alike.step {r r' : Nested} {s : Heaps} (hP : Possible p sys s) (hA : Alike r s) (hH : Honest sys r.w) (o : NOp) (ho : o.Sized)
    (hs : r.step p sys o = .ret r') : ∃ s', Possible p sys s' ∧ Alike r' s' := by
  have hH' : Honest sys s.w := by rw [hA.w]; exact hH
  cases o with
  | newHeap n =>
    cases hs
    refine ⟨_, .op (.newHeap (rawHeader n)) hP hH' ho rfl, hA.w, by simp [hA.len], fun k => ?_, fun c hc => ?_, hA.distinct⟩
    · show Same ((s.heaps ++ _)[k]?).join ((r.heaps ++ _)[k]?).join
      by_cases hk : k < r.heaps.length
      · rw [List.getElem?_append_left (by rw [hA.len]; exact hk), List.getElem?_append_left hk]
        exact hA.same k
      · rw [List.getElem?_append_right (by rw [hA.len]; omega), List.getElem?_append_right (by omega), hA.len]
        cases hj : k - r.heaps.length with
        | zero => exact ⟨rfl, rfl, rfl, fun hx _ => by simp at hx⟩
        | succ j => simp [Same]
    · refine (hA.calls c hc).mono fun h sl h1 h2 => ⟨h, ?_, rfl, h2⟩
      show ((r.heaps ++ _)[c.heap]?).join = some h
      rw [List.getElem?_append_left (nget_lt h1)]; exact h1
  | dropHeap k =>
    simp only [Nested.step] at hs
    split at hs
    · cases hs; exact ⟨s, hP, hA⟩
    · rename_i hany
      cases hk : r.get k with
      | none => rw [hk] at hs; cases hs; exact ⟨s, hP, hA⟩
      | some h =>
        rw [hk] at hs
        cases hs
        obtain ⟨g, hg, hS⟩ := hA.has hk
        refine ⟨_, .op (.dropHeap k) hP hH' trivial (by simp only [Heaps.step, hg]; rfl), ?_⟩
        rw [hS.bl, hA.w]
        refine hA.set hk none none _ _ _ _ trivial (fun c hc => ?_) hA.distinct
        refine (hA.calls c hc).mono fun h sl h1 h2 => ⟨h, ?_, rfl, h2⟩
        show ((r.heaps.set k none)[c.heap]?).join = some h
        rw [nget_set (nget_lt hk), if_neg]
        · exact h1
        · intro e
          apply hany
          rw [List.any_eq_true]
          exact ⟨c, hc, by simp [e]⟩
  | alloc k body => exact hA.begin hP hH k body ho hs
  | allocArray k n =>
    refine hA.begin hP hH k _ ?_ hs
    rw [List.length_replicate]
    have : n < 2 ^ 32 := ho
    omega
  | panics =>
    simp only [Nested.step] at hs
    cases hc : r.calls with
    | nil => rw [hc] at hs; cases hs; exact ⟨s, hP, hA⟩
    | cons c calls =>
      rw [hc] at hs
      cases hs
      have hd := hA.distinct
      rw [hc] at hd
      exact ⟨s, hP, hA.w, hA.len, hA.same, fun d hd' => hA.calls d (by rw [hc]; exact List.mem_cons_of_mem _ hd'),
        (List.pairwise_cons.1 hd).2⟩
  | returns header =>
    simp only [Nested.step] at hs
    cases hc : r.calls with
    | nil => rw [hc] at hs; cases hs; exact ⟨s, hP, hA⟩
    | cons c calls =>
      rw [hc] at hs
      simp only [] at hs
      obtain ⟨h, sl, h1, h2, h3, h4, h5, h6, h7⟩ := hA.calls c (by rw [hc]; exact List.mem_cons_self ..)
      rw [h1] at hs
      simp only [] at hs
      split at hs
      case isFalse => cases hs; exact ⟨s, hP, hA⟩
      case isTrue hlen =>
        simp only [allocLeave] at hs
        cases hs
        obtain ⟨g, hg, hS⟩ := hA.has h1
        obtain ⟨x, hx, hx1, hx2, _⟩ := hS.object h2
        have hdl : x.data.length = x.size := by
          have := (hP.inv.each g (mem_of_get hg)).data x (List.mem_of_getElem? hx)
          rw [← this, readBytes_length]
        have hgs : g.H.size = h.headerSize := by rw [hS.H]; rfl
        have hlt : c.heap < s.heaps.length := nget_lt hg
        -- first the header
        have s1 : s.step p sys (.storeHeader c.heap c.slot header) = .ret { s with
            heaps := s.heaps.set c.heap (some { g with objs := g.objs.set c.slot { x with header := header } })
            w := { s.w with mem := writeBytes s.w.mem (getHeader g.H x.ptr) header } } := by
          simp only [Heaps.step, hg, hx]
          rw [if_pos (by rw [hgs]; exact hlen)]
        have hP1 := Possible.op (.storeHeader c.heap c.slot header) hP hH' trivial s1
        -- then the object
        have hlt2 := (List.getElem?_eq_some_iff.1 hx).1
        have hg2 : Heaps.get { s with
            heaps := s.heaps.set c.heap (some { g with objs := g.objs.set c.slot { x with header := header } })
            w := { s.w with mem := writeBytes s.w.mem (getHeader g.H x.ptr) header } } c.heap =
            some { g with objs := g.objs.set c.slot { x with header := header } } := by
          show ((s.heaps.set c.heap _)[c.heap]?).join = _
          rw [nget_set hlt, if_pos rfl]
        have hx2' : (g.objs.set c.slot { x with header := header })[c.slot]? = some { x with header := header } := by
          rw [List.getElem?_set, if_pos rfl, if_pos hlt2]
        have s2 : Heaps.step p sys { s with
            heaps := s.heaps.set c.heap (some { g with objs := g.objs.set c.slot { x with header := header } })
            w := { s.w with mem := writeBytes s.w.mem (getHeader g.H x.ptr) header } } (.store c.heap c.slot 0 c.body) = .ret { s with
            heaps := s.heaps.set c.heap (some { g with objs := g.objs.set c.slot { x with header := header, data := c.body } })
            w := { r.w with mem := writeBytes (writeBytes r.w.mem c.space header) (c.space + h.headerSize) c.body } } := by
          simp only [Heaps.step, hg2, hx2']
          rw [if_pos (by omega), overwrite_all _ _ (by rw [hdl, hx2, h4]), List.set_set, List.set_set]
          rw [hx1, h3, hA.w]
          simp only [getHeader, hgs, Nat.add_sub_cancel, Nat.add_zero]
        have hP2 := Possible.op (.store c.heap c.slot 0 c.body) hP1 (Honest.mem hH' _) trivial s2
        refine ⟨_, hP2, ?_⟩
        have hcd := hA.distinct
        rw [hc, List.pairwise_cons] at hcd
        have := hA.set (calls := calls) h1 (some { g with objs := g.objs.set c.slot { x with header := header, data := c.body } })
          (some { h with slots := h.slots.set c.slot { ptr := c.space + h.headerSize, size := c.body.length, contents := some (header, c.body) } })
          { r.w with mem := writeBytes (writeBytes r.w.mem c.space header) (c.space + h.headerSize) c.body } s.outcomes s.destroyed ?_ ?_ hcd.2
        · exact this
        · refine ⟨hS.H, hS.bl, by simp [hS.len], ?_⟩
          intro i y sl' hy hsl'
          simp only [List.getElem?_set] at hy hsl'
          by_cases hi : c.slot = i
          · rw [if_pos hi, if_pos hlt2] at hy
            rw [if_pos hi, if_pos (by rw [← hS.len]; exact hlt2)] at hsl'
            cases hy
            cases hsl'
            exact ⟨by simp only; rw [hx1, h3], by simp only; rw [hx2, h4], fun d hd => by cases hd; exact ⟨rfl, rfl⟩⟩
          · rw [if_neg hi] at hy hsl'
            exact hS.each hy hsl'
        · intro d hd
          refine waiting_set h1 (hA.calls d (by rw [hc]; exact List.mem_cons_of_mem _ hd)) rfl (fun e sl' h1' _ => ?_)
          simp only [List.getElem?_set]
          rw [if_neg]
          · exact h1'
          · intro e2
            exact hcd.1 d hd (by rw [e, e2])
  | store k i off bytes =>
    simp only [Nested.step] at hs
    cases hk : r.get k with
    | none => rw [hk] at hs; cases hs; exact ⟨s, hP, hA⟩
    | some h =>
      rw [hk] at hs
      simp only [] at hs
      split at hs
      case h_2 => cases hs; exact ⟨s, hP, hA⟩
      case h_1 ptr size hd data hi =>
        split at hs
        case isFalse => cases hs; exact ⟨s, hP, hA⟩
        case isTrue hle =>
          cases hs
          obtain ⟨g, hg, hS⟩ := hA.has hk
          obtain ⟨x, hx, hx1, hx2, hx3⟩ := hS.object hi
          obtain ⟨hx3, hx4⟩ := hx3 _ rfl
          simp only at hx1 hx2 hx3 hx4
          have hlt2 := (List.getElem?_eq_some_iff.1 hx).1
          refine ⟨_, .op (.store k i off bytes) hP hH' trivial (by simp only [Heaps.step, hg, hx]; rw [if_pos (by omega)]), ?_⟩
          rw [hx1, hA.w]
          refine hA.set hk (some { g with objs := g.objs.set i { ptr := ptr, size := x.size, header := x.header, data := overwrite x.data off bytes } }) _ _ _ _ _ ?_ ?_ hA.distinct
          · refine ⟨hS.H, hS.bl, by simp [hS.len], ?_⟩
            intro j y sl' hy hsl'
            simp only [List.getElem?_set] at hy hsl'
            by_cases hij : i = j
            · rw [if_pos hij, if_pos hlt2] at hy
              rw [if_pos hij, if_pos (by rw [← hS.len]; exact hlt2)] at hsl'
              cases hy
              cases hsl'
              exact ⟨rfl, hx2, fun d hd => by cases hd; exact ⟨hx3, by simp only; rw [hx4]⟩⟩
            · rw [if_neg hij] at hy hsl'
              exact hS.each hy hsl'
          · intro c hc
            refine waiting_set hk (hA.calls c hc) rfl (fun e sl' h1' h2' => ?_)
            simp only [List.getElem?_set]
            rw [if_neg]
            · exact h1'
            · intro e2
              rw [← e2, hi] at h1'
              cases h1'
              cases h2'
  | storeHeader k i bytes =>
    simp only [Nested.step] at hs
    cases hk : r.get k with
    | none => rw [hk] at hs; cases hs; exact ⟨s, hP, hA⟩
    | some h =>
      rw [hk] at hs
      simp only [] at hs
      split at hs
      case h_2 => cases hs; exact ⟨s, hP, hA⟩
      case h_1 ptr size hd data hi =>
        split at hs
        case isFalse => cases hs; exact ⟨s, hP, hA⟩
        case isTrue hle =>
          cases hs
          obtain ⟨g, hg, hS⟩ := hA.has hk
          obtain ⟨x, hx, hx1, hx2, hx3⟩ := hS.object hi
          obtain ⟨hx3, hx4⟩ := hx3 _ rfl
          simp only at hx1 hx2 hx3 hx4
          have hgs : g.H.size = h.headerSize := by rw [hS.H]; rfl
          have hlt2 := (List.getElem?_eq_some_iff.1 hx).1
          refine ⟨_, .op (.storeHeader k i bytes) hP hH' trivial (by simp only [Heaps.step, hg, hx]; rw [if_pos (by rw [hgs]; exact hle)]), ?_⟩
          unfold getHeader
          rw [hx1, hA.w, hgs]
          refine hA.set hk (some { g with objs := g.objs.set i { ptr := ptr, size := x.size, header := bytes, data := x.data } }) _ _ _ _ _ ?_ ?_ hA.distinct
          · refine ⟨hS.H, hS.bl, by simp [hS.len], ?_⟩
            intro j y sl' hy hsl'
            simp only [List.getElem?_set] at hy hsl'
            by_cases hij : i = j
            · rw [if_pos hij, if_pos hlt2] at hy
              rw [if_pos hij, if_pos (by rw [← hS.len]; exact hlt2)] at hsl'
              cases hy
              cases hsl'
              exact ⟨rfl, hx2, fun d hd => by cases hd; exact ⟨rfl, hx4⟩⟩
            · rw [if_neg hij] at hy hsl'
              exact hS.each hy hsl'
          · intro c hc
            refine waiting_set hk (hA.calls c hc) rfl (fun e sl' h1' h2' => ?_)
            simp only [List.getElem?_set]
            rw [if_neg]
            · exact h1'
            · intro e2
              rw [← e2, hi] at h1'
              cases h1'
              cases h2'

/-- Every state of a program with running constructors looks like a state of a program without. -/
theorem Spec.NestedPossible.alike {r : Nested} (h : NestedPossible p sys r) : ∃ s, Possible p sys s ∧ Alike r s := by
  induction h with
  | start mem =>
    exact ⟨_, .start mem, rfl, rfl, fun k => by simp [Heaps.get, Nested.get, Heaps.init, Nested.init, Same], (fun c hc => by cases hc), .nil⟩
  | op o _ hH ho hs ih =>
    obtain ⟨s, hP, hA⟩ := ih
    exact hA.step hP hH o ho hs
  | @environment r mem calls _ h1 h2 ih =>
    obtain ⟨s, hP, hA⟩ := ih
    have hw := hA.w
    refine ⟨_, .environment mem calls hP (by rw [hw]; exact h1) (by rw [hw]; exact h2), by simp only; rw [hw], hA.len, hA.same, hA.calls, hA.distinct⟩

end

end Verif.Immix
