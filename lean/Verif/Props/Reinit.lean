import Verif.Spec.Reinit
import Verif.Props.Compiler

/-!
# Initialising a module again (C106)
-/

namespace Verif.Brass

open Verif Verif.Brass.Spec

namespace HLModule

theorem simpleAt_iff {c : Code} {i : Nat} : simpleAt c i = true ↔ ∃ t, c.globals[i]? = some t ∧ (t.kind = .HVOID ∨ t.kind = .HUI8) := by
  unfold simpleAt
  cases c.globals[i]? with
  | none => simp
  | some t => simp

/-- The state in the middle of a call: `N` globals were declared before, `n` are done now, `old` are the values of earlier calls. -/
def mid (m : HLModule) (old : List GlobalLoad) (N n : Nat) : HLModule := { m with
  data := (byteGlobals m.code (max n N)).map fun i => (globalName i, true)
  values := old ++ (byteGlobals m.code n).zipIdx.map fun x => ⟨x.2, asI32 x.1⟩ }

theorem byteGlobals_mono (c : Code) {n : Nat} (h : c.globals[n]?.map ValueType.kind = some TypeKind.HUI8) : ∀ k, ∃ l, byteGlobals c (n + 1 + k) = byteGlobals c n ++ n :: l
  | 0 => ⟨[], by rw [byteGlobals_succ, if_pos h]⟩
  | k + 1 => by
    obtain ⟨l, hl⟩ := byteGlobals_mono c h k
    rw [show n + 1 + (k + 1) = (n + 1 + k) + 1 from rfl, byteGlobals_succ, hl]
    exact ⟨l ++ _, by rw [List.append_assoc, List.cons_append]⟩

theorem find_name {c : Code} {n : Nat} (l : List Nat) :
    ((byteGlobals c n ++ n :: l).map fun i => (globalName i, true)).findIdx? (fun d => d.1 == globalName n) = some (byteGlobals c n).length := by
  rw [List.map_append, List.findIdx?_append]
  have : ((byteGlobals c n).map fun i => (globalName i, true)).findIdx? (fun d => d.1 == globalName n) = none := by
    rw [List.findIdx?_eq_none_iff]
    intro x hx
    simp only [List.mem_map, byteGlobals, List.mem_filter, List.mem_range] at hx
    obtain ⟨i, ⟨hi, _⟩, rfl⟩ := hx
    simp only [beq_eq_false_iff_ne, ne_eq]
    intro e
    have := globalName_inj e
    omega
  rw [this, List.map_cons, List.findIdx?_cons, if_pos (by simp)]
  simp

theorem mid_step (m : HLModule) (old : List GlobalLoad) (N n : Nat) (hs : simpleAt m.code n = true) :
    initGlobal n (mid m old N n) = .ret (mid m old N (n + 1)) := by
  obtain ⟨t, ht, hk⟩ := simpleAt_iff.1 hs
  unfold initGlobal
  rw [show Rust.get (mid m old N n).code.globals n = .ret t from get_eq.2 ht]
  simp only [Rust.bind_ret]
  rcases hk with hk | hk
  · rw [hk]
    have hb : byteGlobals m.code (n + 1) = byteGlobals m.code n := by
      rw [byteGlobals_succ, if_neg, List.append_nil]
      rw [ht, Option.map_some, hk]
      simp
    have hb2 : byteGlobals m.code (max (n + 1) N) = byteGlobals m.code (max n N) := by
      by_cases h : N ≤ n
      · rw [Nat.max_eq_left (by omega), Nat.max_eq_left h, hb]
      · rw [Nat.max_eq_right (by omega), Nat.max_eq_right (by omega)]
    simp only [Rust.pure_eq, mid, hb, hb2]
  · rw [hk]
    simp only [Rust.pure_eq, Rust.ret.injEq]
    have hu : m.code.globals[n]?.map ValueType.kind = some TypeKind.HUI8 := by rw [ht, Option.map_some, hk]
    have hb : byteGlobals m.code (n + 1) = byteGlobals m.code n ++ [n] := by rw [byteGlobals_succ, if_pos hu]
    unfold translateGlobal
    have hd : (mid m old N n).declareData (globalName n) true =
        ((byteGlobals m.code n).length, { mid m old N n with data := (mid m old N (n + 1)).data }) := by
      unfold declareData
      by_cases h : N ≤ n
      · have e1 : (mid m old N n).data = (byteGlobals m.code n).map fun i => (globalName i, true) := by simp only [mid, Nat.max_eq_left h]
        have e2 : (mid m old N n).data.findIdx? (fun d => d.1 == globalName n) = none := by
          rw [e1, List.findIdx?_eq_none_iff]
          intro x hx
          simp only [List.mem_map, byteGlobals, List.mem_filter, List.mem_range] at hx
          obtain ⟨i, ⟨hi, _⟩, rfl⟩ := hx
          simp only [beq_eq_false_iff_ne, ne_eq]
          intro e
          have := globalName_inj e
          omega
        have e3 : (mid m old N (n + 1)).data = (mid m old N n).data ++ [(globalName n, true)] := by
          rw [e1]
          simp only [mid, Nat.max_eq_left (show N ≤ n + 1 by omega), hb, List.map_append]
          rfl
        rw [e2, e3]
        simp only [Prod.mk.injEq, and_true]
        rw [e1, List.length_map]
      · obtain ⟨k, rfl⟩ : ∃ k, N = n + 1 + k := ⟨N - (n + 1), by omega⟩
        obtain ⟨l, hl⟩ := byteGlobals_mono m.code hu k
        have e1 : (mid m old (n + 1 + k) n).data = (byteGlobals m.code n ++ n :: l).map fun i => (globalName i, true) := by
          simp only [mid, Nat.max_eq_right (show n ≤ n + 1 + k by omega), hl]
        have e2 : (mid m old (n + 1 + k) n).data.findIdx? (fun d => d.1 == globalName n) = some (byteGlobals m.code n).length := by
          rw [e1]; exact find_name l
        have e3 : (mid m old (n + 1 + k) (n + 1)).data = (mid m old (n + 1 + k) n).data := by
          simp only [mid, Nat.max_eq_right (show n ≤ n + 1 + k by omega), Nat.max_eq_right (show n + 1 ≤ n + 1 + k by omega)]
        rw [e2, e3]
    unfold globalName at hd
    rw [hd]
    simp only [mid, hb, List.zipIdx_append, List.map_append]
    simp

theorem stuck {m : HLModule} {n : Nat} (hs : simpleAt m.code n = false) : initGlobal n m = .panic := by
  cases h : initGlobal n m with
  | panic => rfl
  | ret m' => rw [simpleAt_iff.2 (initGlobal_other h)] at hs; cases hs

theorem loop_mid (m : HLModule) (old : List GlobalLoad) (N : Nat) : ∀ n a,
    globalsLoopS a n (mid m old N a) =
      (((List.range' a n).all (simpleAt m.code)), mid m old N (a + ((List.range' a n).takeWhile (simpleAt m.code)).length))
  | 0, a => rfl
  | n + 1, a => by
    rw [List.range'_succ]
    unfold globalsLoopS
    cases hs : simpleAt m.code a with
    | false =>
      rw [stuck (m := mid m old N a) hs]
      simp [hs]
    | true =>
      rw [mid_step m old N a hs]
      simp only
      rw [loop_mid m old N n (a + 1)]
      simp only [List.all_cons, hs, Bool.true_and, List.takeWhile_cons_of_pos, List.length_cons]
      congr 2
      omega

theorem all_handled (c : Code) : ((List.range c.nglobals).all (simpleAt c)) = decide (handled c = c.nglobals) := by
  unfold handled
  have : ∀ l : List Nat, l.all (simpleAt c) = decide ((l.takeWhile (simpleAt c)).length = l.length) := by
    intro l
    induction l with
    | nil => rfl
    | cons x l ih =>
      cases hx : simpleAt c x with
      | false => simp [hx]
      | true => simp [hx, ih]
  rw [this, List.length_range]

/-- A call that gets to the globals. -/
theorem globals_call (m : HLModule) (old : List GlobalLoad) (N : Nat) :
    initGlobalsS (mid m old N 0) = (decide (handled m.code = m.code.nglobals), mid m old N (handled m.code)) := by
  have := loop_mid m old N m.code.nglobals 0
  rw [← List.range_eq_range', all_handled, Nat.zero_add] at this
  exact this

/-- The module after `r` calls that got to the globals. -/
def done (c : Code) (r : Nat) (h : Option CodeHash) : HLModule := { HLModule.new c with
  data := if r = 0 then [] else dataOf c
  values := (List.replicate r (loadsOf c)).flatten
  codeHash := h }

theorem put_congr (m : HLModule) {d d' : List (String × Bool)} {v v' : List GlobalLoad} (h1 : d = d') (h2 : v = v') :
    ({ m with data := d, values := v } : HLModule) = { m with data := d', values := v' } := by rw [h1, h2]

theorem done_mid (c : Code) (r : Nat) (h : Option CodeHash) :
    done c r h = mid { HLModule.new c with codeHash := h } (List.replicate r (loadsOf c)).flatten (if r = 0 then 0 else handled c) 0 := by
  refine put_congr { HLModule.new c with codeHash := h } ?_ (List.append_nil _).symm
  by_cases hr : r = 0
  · rw [if_pos hr, if_pos hr]; rfl
  · rw [if_neg hr, if_neg hr, Nat.max_eq_right (Nat.zero_le _)]; rfl

theorem done_call (c : Code) (r : Nat) (h : Option CodeHash) : initGlobalsS (done c r h) = (decide (handled c = c.nglobals), done c (r + 1) h) := by
  rw [done_mid, globals_call]
  refine Prod.ext rfl ?_
  refine put_congr { HLModule.new c with codeHash := h } ?_ ?_
  · have : max (handled c) (if r = 0 then 0 else handled c) = handled c := by split <;> omega
    show (byteGlobals c (max (handled c) (if r = 0 then 0 else handled c))).map _ = _
    rw [this, if_neg (Nat.succ_ne_zero r)]
    rfl
  · rw [List.replicate_succ', List.flatten_append]
    simp only [List.flatten_cons, List.flatten_nil, List.append_nil, loadsOf, wrapped_eq]
    rfl

end HLModule

/-! ## C106 -/

/-- **C106** The functions with the module left behind are the functions of C56: they return the same module, and panic if those do. -/
theorem c106_same_init (m m' : HLModule) (hot : Bool) :
    (m.initS hot = (true, m') ↔ m.init hot = .ret m') ∧ (m.initGlobalsS = (true, m') ↔ m.initGlobals = .ret m') :=
  ⟨HLModule.initS_eq m m' hot, HLModule.initGlobalsS_eq m m'⟩

theorem runs_done (c : Code) : ∀ (calls : List InitCall) (r : Nat) (h : Option CodeHash),
    InitCall.runs (HLModule.done c r h) calls =
      (calls.map fun k => reaches c k && decide (handled c = c.nglobals),
        HLModule.done c (r + calls.countP (reaches c)) (if calls.any isHot && (hashOf c).isSome then hashOf c else h))
  | [], r, h => by simp [InitCall.runs]
  | k :: l, r, h => by
    have key : k.run (HLModule.done c r h) = (reaches c k && decide (handled c = c.nglobals),
        HLModule.done c (r + if reaches c k then 1 else 0) (if isHot k && (hashOf c).isSome then hashOf c else h)) := by
      rcases k with (_ | _) | _
      · simpa [InitCall.run, HLModule.initS, reaches, isHot] using HLModule.done_call c r h
      · unfold InitCall.run HLModule.initS
        have hc : (HLModule.done c r h).code = c := rfl
        simp only [if_true, hc, reaches, isHot, Bool.true_and]
        cases e : CodeHash.alloc c with
        | panic => simp [hashOf, e]
        | ret x =>
          have hx : hashOf c = some x := by unfold hashOf; rw [e]
          refine (HLModule.done_call c r (some x)).trans ?_
          simp [hx]
      · simpa [InitCall.run, reaches, isHot] using HLModule.done_call c r h
    unfold InitCall.runs
    rw [key]
    simp only
    rw [runs_done c l]
    simp only [List.map_cons, List.countP_cons, List.any_cons]
    have e1 : r + (if reaches c k then 1 else 0) + List.countP (reaches c) l = r + (List.countP (reaches c) l + if reaches c k = true then 1 else 0) := by omega
    rw [e1]
    congr 2
    clear key
    have : ∀ a b d : Bool, (if (b && d) = true then hashOf c else if (a && d) = true then hashOf c else h) = if ((a || b) && d) = true then hashOf c else h := by
      intro a b d; cases a <;> cases b <;> cases d <;> rfl
    exact this _ _ _

/-- **C106** Any calls of `init` and `init_globals` on a new module, one after the other, in which panics are caught.  Which of them
return does not depend on the calls before: all of them if every global can be handled, except that `init` with hot reload panics if the hash of
the module cannot be computed; none of them otherwise.  In the end, if `r` calls got to the globals: one data object is declared for each global of kind
`HUI8` before the first one that cannot be handled (if `r` is not 0), however often this was repeated; the list of loads from them was
added `r` times; the hash is kept if it was asked for and could be computed, also if the globals could not be handled; nothing else has changed. -/
theorem c106_history (c : Code) (calls : List InitCall) :
    (InitCall.runs (HLModule.new c) calls).1 = calls.map (fun k => reaches c k && decide (handled c = c.nglobals)) ∧
    (InitCall.runs (HLModule.new c) calls).2 = { HLModule.new c with
      data := if calls.countP (reaches c) = 0 then [] else dataOf c
      values := (List.replicate (calls.countP (reaches c)) (loadsOf c)).flatten
      codeHash := if calls.any isHot then hashOf c else none } := by
  have h0 : HLModule.new c = HLModule.done c 0 none := rfl
  have := runs_done c calls 0 none
  rw [← h0] at this
  rw [this]
  refine ⟨rfl, ?_⟩
  rw [Nat.zero_add]
  unfold HLModule.done
  congr 1
  cases calls.any isHot with
  | false => rfl
  | true => cases hashOf c <;> rfl

/-- **C106** The data objects are those of the globals, in order, with distinct names, and each load is from the object of its global. -/
theorem c106_loads (c : Code) (j : Nat) (g : GlobalLoad) (h : (loadsOf c)[j]? = some g) :
    ∃ i, (byteGlobals c (handled c))[j]? = some i ∧ g = ⟨j, wrapped i⟩ ∧ (dataOf c)[j]? = some (globalName i, true) ∧ ((dataOf c).map Prod.fst).Nodup := by
  unfold loadsOf at h
  rw [List.getElem?_map, List.getElem?_zipIdx] at h
  cases e : (byteGlobals c (handled c))[j]? with
  | none => rw [e] at h; cases h
  | some i =>
    rw [e] at h
    simp only [Option.map_some, Nat.zero_add, Option.some.injEq] at h
    refine ⟨i, rfl, h.symm, ?_, ?_⟩
    · unfold dataOf; rw [List.getElem?_map, e]; rfl
    · unfold dataOf
      rw [List.map_map]
      refine List.Pairwise.map _ (R := fun a b => a ≠ b) (fun a b h => fun e => h (globalName_inj e)) ?_
      exact List.Pairwise.filter _ List.nodup_range

/-- **C106** All globals can be handled exactly under the condition of C56. -/
theorem c106_handled (c : Code) : handled c = c.nglobals ↔ SimpleGlobals c := by
  have h := HLModule.all_handled c
  constructor
  · intro e i hi
    rw [e] at h
    simp only [decide_true, List.all_eq_true, List.mem_range] at h
    exact HLModule.simpleAt_iff.1 (h i hi)
  · intro hs
    have : (List.range c.nglobals).all (simpleAt c) = true := by
      rw [List.all_eq_true]
      intro i hi
      exact HLModule.simpleAt_iff.2 (hs i (List.mem_range.1 hi))
    rw [this] at h
    exact of_decide_eq_true h.symm

/-- C106: a module with two globals of kind `HUI8` that can be hashed: after `init(false)`, `init_globals()` and `init(true)`, which all return, two data objects are declared
and there are six loads.  A module whose only global is of kind `HI32`: every call panics and nothing is declared. -/
example : (∃ c s ch, Code.read .release none exFile = .ok c s ∧ CodeHash.alloc c = .ret ch ∧
      (InitCall.runs (HLModule.new c) [.init false, .initGlobals, .init true]).1 = [true, true, true] ∧
      (InitCall.runs (HLModule.new c) [.init false, .initGlobals, .init true]).2.data = [("$global0", true), ("$global1", true)] ∧
      (InitCall.runs (HLModule.new c) [.init false, .initGlobals, .init true]).2.values = [⟨0, 0⟩, ⟨1, 1⟩, ⟨0, 0⟩, ⟨1, 1⟩, ⟨0, 0⟩, ⟨1, 1⟩] ∧
      (InitCall.runs (HLModule.new c) [.init false, .initGlobals, .init true]).2.codeHash = some ch) ∧
    (∃ c s, Code.read .release none [0x48, 0x4C, 0x42, 4, 0, 0, 0, 0, 1, 1, 0, 0, 0, 0, 0, 0, 0, 0, 3, 0] = .ok c s ∧
      (InitCall.runs (HLModule.new c) [.init false, .initGlobals]).1 = [false, false] ∧ (InitCall.runs (HLModule.new c) [.init false, .initGlobals]).2.data = []) := by
  refine ⟨?_, ?_⟩
  · obtain ⟨c, s, ch, h1, h2, ht, hg, nt, ng, _⟩ := exFile_read
    have hh : hashOf c = some ch := by unfold hashOf; rw [h2]
    have hn : handled c = 2 := by
      have : handled c = c.nglobals := by
        refine (c106_handled c).2 fun i hi => ?_
        rw [ng] at hi
        rw [hg]
        match i, hi with
        | 0, _ => exact ⟨_, rfl, Or.inr rfl⟩
        | 1, _ => exact ⟨_, rfl, Or.inr rfl⟩
      rw [this, ng]
    have hb : byteGlobals c 2 = [0, 1] := by unfold byteGlobals; rw [hg]; rfl
    obtain ⟨e1, e2⟩ := c106_history c [.init false, .initGlobals, .init true]
    refine ⟨c, s, ch, h1, h2, ?_, ?_⟩
    · rw [e1]; simp [reaches, hh, hn, ng]
    · rw [e2]
      simp [List.countP_cons, reaches, hh, isHot, dataOf, loadsOf, hn, hb]
      decide
  · have h : checkOk (Code.read .release none [0x48, 0x4C, 0x42, 4, 0, 0, 0, 0, 1, 1, 0, 0, 0, 0, 0, 0, 0, 0, 3, 0])
      (fun c => decide (handled c = 0 ∧ c.nglobals = 1)) = true := by decide +kernel
    obtain ⟨c, s, h1, h2⟩ := checkOk_iff h
    obtain ⟨h3, h4⟩ := of_decide_eq_true h2
    obtain ⟨e1, e2⟩ := c106_history c [.init false, .initGlobals]
    refine ⟨c, s, h1, ?_, ?_⟩
    · rw [e1]; simp [h3, h4]
    · rw [e2]; simp [dataOf, h3, byteGlobals]

end Verif.Brass
