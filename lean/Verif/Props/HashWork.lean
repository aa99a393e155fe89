import Verif.Brass.HashWorkLemmas
import Verif.Brass.CompareLemmas
import Verif.Props.Lookups
import Verif.Props.DebugText
import Verif.Props.CodeHash
import Verif.Props.GlobalSign

/-!
# C109: what `CodeHash::alloc` compares and copies
-/

namespace Verif.Brass

open Verif Verif.Brass.Spec

/-- **C109** `alloc` with the log of its comparisons and copies is `alloc`. -/
theorem c109_same (c : Code) : (CodeHash.allocW c).1 = CodeHash.alloc c := Logged.alloc c

/-! ## The parts of the log -/

namespace Steps

theorem comparisons_append (l m : List HashStep) : comparisons (l ++ m) = comparisons l ++ comparisons m := List.filterMap_append ..
theorem clones_append (l m : List HashStep) : tableClones (l ++ m) = tableClones l ++ tableClones m := List.filter_append ..

theorem comparisons_flatMap {α : Type} (f : α → List HashStep) : ∀ l : List α, comparisons (l.flatMap f) = l.flatMap fun a => comparisons (f a)
  | [] => rfl
  | a :: l => by rw [List.flatMap_cons, comparisons_append, comparisons_flatMap f l, List.flatMap_cons]

theorem clones_flatMap {α : Type} (f : α → List HashStep) : ∀ l : List α, tableClones (l.flatMap f) = l.flatMap fun a => tableClones (f a)
  | [] => rfl
  | a :: l => by rw [List.flatMap_cons, clones_append, clones_flatMap f l, List.flatMap_cons]

theorem comparisons_search (c : Code) (t : ValueType) : comparisons (searchLog c t) = search c.types t := by
  unfold searchLog comparisons
  rw [List.filterMap_map]
  exact List.filterMap_some

theorem clones_search (c : Code) (t : ValueType) : tableClones (searchLog c t) = [] := by
  unfold searchLog tableClones
  rw [List.filter_eq_nil_iff]
  intro x hx
  obtain ⟨y, -, rfl⟩ := List.mem_map.1 hx
  simp

theorem comparisons_copies {e : HashStep} (h : comparisons [e] = []) : ∀ n, comparisons (List.replicate n e) = []
  | 0 => rfl
  | n + 1 => by rw [List.replicate_succ, ← List.singleton_append, comparisons_append, h, comparisons_copies h n]; rfl

theorem clones_copies {e : HashStep} (h : tableClones [e] = [e]) : ∀ n, tableClones (List.replicate n e) = List.replicate n e
  | 0 => rfl
  | n + 1 => by rw [List.replicate_succ, ← List.singleton_append, clones_append, h, clones_copies h n]

theorem flatMap_if {α β : Type} (p : α → Bool) (f : α → List β) : ∀ l : List α, (l.flatMap fun a => if p a = true then f a else []) = (l.filter p).flatMap f
  | [] => rfl
  | a :: l => by
    rw [List.flatMap_cons, flatMap_if p f l, List.filter_cons]
    split
    · rw [List.flatMap_cons]
    · rfl

theorem flatMap_nil {α β : Type} : ∀ l : List α, (l.flatMap fun _ => ([] : List β)) = []
  | [] => rfl
  | _ :: l => by rw [List.flatMap_cons, flatMap_nil l]; rfl

theorem flatMap_single {α β : Type} (b : β) : ∀ l : List α, (l.flatMap fun _ => [b]) = List.replicate l.length b
  | [] => rfl
  | _ :: l => by rw [List.flatMap_cons, flatMap_single b l, List.length_cons, List.replicate_succ]; rfl

theorem comparisons_global (c : Code) (t : ValueType) :
    comparisons (HLogs.globalLog c t) = if (t.kind == .HABSTRACT) = true then search c.types t else [] := by
  unfold HLogs.globalLog
  rw [comparisons_append]
  by_cases h : t.kind = .HABSTRACT
  · rw [if_pos h, if_pos (by simpa using h), comparisons_search]; rfl
  · rw [if_neg h, if_neg (by simpa using h)]; rfl

theorem comparisons_typeGlobal (c : Code) (t : ValueType) : comparisons (HLogs.typeGlobalLog c t) = if hasGlobal t = true then search c.types t else [] := by
  unfold HLogs.typeGlobalLog
  rw [comparisons_append]
  split
  · rw [comparisons_search]; rfl
  · rfl

theorem clones_global (c : Code) (t : ValueType) : tableClones (HLogs.globalLog c t) = [.copyGlobals c.globals.length] := by
  unfold HLogs.globalLog
  rw [clones_append]
  split
  · rw [clones_search]; rfl
  · rfl

theorem clones_typeGlobal (c : Code) (t : ValueType) : tableClones (HLogs.typeGlobalLog c t) = [.copyTypes c.types.length] := by
  unfold HLogs.typeGlobalLog
  rw [clones_append]
  split
  · rw [clones_search]; rfl
  · rfl

end Steps

/-- The whole log of `alloc`, if it returns. -/
theorem hashSteps_eq {c : Code} (hl : Loaded c) {ch : CodeHash} (hr : CodeHash.alloc c = .ret ch) :
    CodeHash.hashSteps c = [.copyModule] ++ (List.replicate c.nfunctions (.copyFunctions c.functions.length) ++
      List.replicate c.nnatives (.copyNatives c.natives.length) ++
      ((List.replicate c.ntypes (.copyTypes c.types.length) ++ (c.types.take c.ntypes).flatMap fun t => (hashedRefs t).flatMap (searchLog c)) ++
      ((c.globals.take c.nglobals).flatMap (HLogs.globalLog c) ++ ((c.types.take c.ntypes).flatMap (HLogs.typeGlobalLog c) ++
      (c.globals.take c.nglobals).flatMap (searchLog c))))) :=
  HLogs.alloc hl.typesOk ch (by rw [c109_same]; exact hr)

/-- **C109** When the hash of an accepted file is computed, types are compared exactly in the searches for the component types, for the abstract
types of globals, for the objects, structs and enums, and for the types of all globals, one after the other; each search compares the
searched type with the entries of the type table up to the first equal one. -/
theorem c109_comparisons (p : Profile) (e : Option DecodeError) (buf : List UInt8) (c : Code) (s : St) (h : Code.read p e buf = .ok c s) (ch : CodeHash)
    (hr : CodeHash.alloc c = .ret ch) : comparisons (CodeHash.hashSteps c) = (searched c).flatMap (search c.types) := by
  rw [hashSteps_eq (loaded h) hr]
  unfold searched
  simp only [Steps.comparisons_append, Steps.comparisons_flatMap, Steps.comparisons_search, Steps.comparisons_global, Steps.comparisons_typeGlobal,
    Steps.flatMap_if, List.flatMap_append, List.flatMap_assoc]
  rw [Steps.comparisons_copies rfl, Steps.comparisons_copies rfl, Steps.comparisons_copies rfl]
  simp [comparisons]

theorem loaded_types {c : Code} (h : Loaded c) : c.types.length = 2 * c.ntypes := by
  obtain ⟨T, h1, h2⟩ := h.types
  rw [h2]; simp; omega

theorem loaded_globals {c : Code} (h : Loaded c) : c.globals.length = 2 * c.nglobals := by
  obtain ⟨T, h1, h2⟩ := h.globals
  rw [h2]; simp; omega

/-- **C109** And tables are copied exactly as often as there are functions, natives, types (twice) and globals: the functions for each function,
the natives for each native, the types for each type, the globals for each global, the types once more for each type. -/
theorem c109_copies (p : Profile) (e : Option DecodeError) (buf : List UInt8) (c : Code) (s : St) (h : Code.read p e buf = .ok c s) (ch : CodeHash)
    (hr : CodeHash.alloc c = .ret ch) : tableClones (CodeHash.hashSteps c) = clonesFor c := by
  have hl := loaded h
  have h1 := loaded_types hl
  have h2 := loaded_globals hl
  rw [hashSteps_eq hl hr]
  unfold clonesFor
  simp only [Steps.clones_append, Steps.clones_flatMap, Steps.clones_search, Steps.clones_global, Steps.clones_typeGlobal, Steps.flatMap_nil,
    Steps.flatMap_single]
  rw [Steps.clones_copies rfl, Steps.clones_copies rfl, Steps.clones_copies rfl, hl.functions, hl.natives, h1, h2]
  simp only [List.length_take, h1, h2, Nat.min_eq_left (Nat.le_mul_of_pos_left _ (by decide : 0 < 2))]
  simp [tableClones]

/-- **C109** The result of a comparison is whether the types are equal; it looks at at least one and at most all types that either of them is
made up of, and at all of them if they are equal. -/
theorem c109_one (a b : ValueType) : (a.compare b).1 = decide (a = b) ∧ 1 ≤ (a.compare b).2 ∧ (a.compare b).2 ≤ nodes a ∧ (a.compare b).2 ≤ nodes b ∧
    (a = b → (a.compare b).2 = nodes a) := by
  have h := ValueType.cmp a b
  refine ⟨?_, ?_, h.left, h.right, fun e => h.full ((ValueType.beq_iff a b).2 e)⟩
  · rw [h.result, Bool.eq_iff_iff, ValueType.beq_iff]; simp
  · obtain ⟨u, x, t, k⟩ := a
    obtain ⟨u', x', t', k'⟩ := b
    unfold ValueType.compare
    simp [andThen]

/-! ## How many comparisons -/

/-- A search for a declared type. -/
theorem search_length {c : Code} {t : ValueType} (h : c.IsType t) : 1 ≤ (search c.types t).length ∧ (search c.types t).length ≤ c.ntypes := by
  obtain ⟨j, hj, hx⟩ := h
  have key : ∀ (l : List ValueType) (j : Nat), l[j]? = some t → (l.takeWhile fun v => decide (v ≠ t)).length ≤ j := by
    intro l
    induction l with
    | nil => intro j h; simp at h
    | cons a l ih =>
      intro j h
      by_cases ha : a = t
      · rw [List.takeWhile_cons_of_neg (by simpa using ha)]; simp
      · rw [List.takeWhile_cons_of_pos (by simpa using ha)]
        cases j with
        | zero => exact absurd (by simpa using h) ha
        | succ j => have := ih j (by simpa using h); simp only [List.length_cons]; omega
  have := key c.types j hx
  unfold search
  simp only [List.length_map, List.length_append, List.length_cons, List.length_nil]
  omega

theorem hashedRefs_refs (t : ValueType) : ∀ r ∈ hashedRefs t, r ∈ t.refs := by
  obtain ⟨u, a, p, k⟩ := t
  intro r hr
  unfold hashedRefs at hr
  unfold ValueType.refs
  cases k <;> cases u <;> simp_all <;> (try (rcases hr with h | h <;> simp [h]))

/-- All types that are searched for are declared. -/
theorem searched_declared {c : Code} (hl : Loaded c) (hh : Hashable c) : ∀ t ∈ searched c, c.IsType t := by
  have taken : ∀ {l : List ValueType} {n : Nat} {t : ValueType}, t ∈ l.take n → ∃ i : Nat, i < n ∧ l[i]? = some t := by
    intro l n t ht
    obtain ⟨i, hi⟩ := List.getElem?_of_mem ht
    rw [List.getElem?_take] at hi
    split at hi
    · exact ⟨i, by assumption, hi⟩
    · cases hi
  have ofGlobal : ∀ t ∈ c.globals.take c.nglobals, c.IsType t := fun t ht => by
    obtain ⟨i, h1, h2⟩ := taken ht
    exact hl.globalsRefer i t h1 h2
  intro t ht
  unfold searched at ht
  rw [List.mem_append, List.mem_append, List.mem_append] at ht
  rcases ht with ((ht | ht) | ht) | ht
  · obtain ⟨v, hv, hr⟩ := List.mem_flatMap.1 ht
    obtain ⟨i, h1, h2⟩ := taken hv
    rcases hl.typesRefer i v h1 h2 t (hashedRefs_refs v t hr) with h3 | ⟨j, h3, h4⟩
    · subst h3; exact absurd hr (hh.noForward i v h1 h2)
    · exact ⟨j, by omega, h4⟩
  · exact ofGlobal t ((List.mem_filter.1 ht).1)
  · obtain ⟨i, h1, h2⟩ := taken ((List.mem_filter.1 ht).1)
    exact ⟨i, h1, h2⟩
  · exact ofGlobal t ht

theorem hashedRefs_looks {t : ValueType} (hw : WellFormed t) {n : Nat} (h : Looks t n) : (hashedRefs t).length ≤ n := by
  obtain ⟨u, a, p, k⟩ := t
  unfold Looks ValueType.refs at h
  unfold hashedRefs
  cases k <;> cases u <;> simp at h ⊢ <;> omega

theorem flatMap_length_le {α β : Type} (f : α → List β) (k : Nat) : ∀ l : List α, (∀ a ∈ l, (f a).length ≤ k) → (l.flatMap f).length ≤ l.length * k
  | [], _ => by simp
  | a :: l, h => by
    have h1 := h a (List.mem_cons_self ..)
    have h2 := flatMap_length_le f k l fun m hm => h m (List.mem_cons_of_mem _ hm)
    rw [List.flatMap_cons, List.length_append, List.length_cons, Nat.succ_mul]
    omega

/-- **C109** Each search compares at most as many types as are declared, and for a file of `L` bytes there are at most `3L` searches: at most
`3L²` comparisons. -/
theorem c109_bound (p : Profile) (e : Option DecodeError) (buf : List UInt8) (c : Code) (s : St) (h : Code.read p e buf = .ok c s) (ch : CodeHash)
    (hr : CodeHash.alloc c = .ret ch) : (∀ t ∈ searched c, 1 ≤ (search c.types t).length ∧ (search c.types t).length ≤ c.ntypes) ∧
      (searched c).length ≤ 3 * buf.length ∧ (comparisons (CodeHash.hashSteps c)).length ≤ 3 * (buf.length * buf.length) := by
  have hl := loaded h
  have hh := (c51_alloc_returns_iff p e buf c s h).1 ⟨ch, hr⟩
  have h1 : ∀ t ∈ searched c, 1 ≤ (search c.types t).length ∧ (search c.types t).length ≤ c.ntypes := fun t ht => search_length (searched_declared hl hh t ht)
  have h2 := c85_linear p e buf c s h
  have h3 := loaded_types hl
  have h4 := loaded_globals hl
  unfold entries at h2
  obtain ⟨k, h5, h6⟩ := c108_types p e buf c s h
  have h7 := c108_any p e buf
  have h8 := tables_length (tableCopies p e buf)
  rw [h6, List.length_append, List.length_replicate] at h8
  have h9 : ((c.types.take c.ntypes).flatMap hashedRefs).length ≤ ((List.range c.ntypes).flatMap fun i => List.replicate (k i) (c.ntypes + i)).length := by
    have key : ∀ n, n ≤ c.ntypes → ((c.types.take n).flatMap hashedRefs).length ≤ ((List.range n).flatMap fun i => List.replicate (k i) (c.ntypes + i)).length := by
      intro n
      induction n with
      | zero => intro _; simp
      | succ n ih =>
        intro hn
        have hlt : n < c.types.length := by omega
        have := ih (by omega)
        have hx : c.types[n]? = some c.types[n] := List.getElem?_eq_getElem hlt
        have := hashedRefs_looks (hl.typesOk n _ (by omega) hx) (h5 n _ (by omega) hx)
        rw [List.range_succ, List.take_succ_eq_append_getElem hlt]
        simp only [List.flatMap_append, List.length_append, List.flatMap_cons, List.flatMap_nil, List.append_nil, List.length_replicate]
        omega
    exact key _ (Nat.le_refl _)
  have h10 : (searched c).length ≤ 3 * buf.length := by
    unfold searched
    have a1 := List.length_filter_le (fun t : ValueType => t.kind == .HABSTRACT) (c.globals.take c.nglobals)
    have a2 := List.length_filter_le hasGlobal (c.types.take c.ntypes)
    rw [List.length_take] at a1 a2
    simp only [List.length_append, List.length_take]
    unfold otherLooks at h8
    omega
  refine ⟨h1, h10, ?_⟩
  rw [c109_comparisons p e buf c s h ch hr]
  have h11 := flatMap_length_le (search c.types) c.ntypes (searched c) fun t ht => (h1 t ht).2
  have h12 : (searched c).length * c.ntypes ≤ 3 * buf.length * buf.length := Nat.mul_le_mul h10 (by omega)
  rw [Nat.mul_assoc] at h12
  omega

/-! ## How long one of them takes -/

/-- `HVOID`, `n` function types, each of which has the type before it as its argument and its result, and a function of the last type. -/
def hashBomb (n : Nat) : RModule :=
  { bomb 0 with
    types := .prim .HVOID :: (List.range n).map fun i => .func false [i] i
    functions := [{ type := n, findex := 0, regs := [], ops := [], debug := [], assigns := [] }] }

theorem hashBomb_good (n : Nat) (hn : n < 0x1FFF) : (hashBomb n).Good :=
  { bomb_good 0 (by decide) with
    ntypes := by simp [hashBomb]; omega
    globals := by simp [hashBomb, bomb]
    natives := by simp [hashBomb, bomb]
    constants := by simp [hashBomb, bomb]
    types := by
      intro t ht
      simp only [hashBomb, List.mem_cons, List.mem_map, List.mem_range] at ht
      rcases ht with rfl | ⟨i, hi, rfl⟩
      · refine ⟨by simp [RType.Small, primKinds], by simp [RType.refs], by simp [RType.names]⟩
      · refine ⟨by simp [RType.Small], ?_, by simp [RType.names]⟩
        intro j hj
        simp [RType.refs] at hj
        simp [hashBomb]
        omega
    order := by
      have : ∀ l : List Nat, (l.map fun i => RType.func false [i] i).flatMap RType.names = [] := by
        intro l
        induction l with
        | nil => rfl
        | cons a l ih => simp [RType.names]
      simp only [hashBomb, List.flatMap_cons, this]
      trivial
    nfunctions := by simp [hashBomb]
    functions := by
      intro f hf
      simp only [hashBomb, List.mem_singleton] at hf
      subst hf
      refine ⟨?_, by simp, by simp, by simp, by simp, by simp, by simp [hashBomb, bomb], by simp⟩
      simp [hashBomb] }

theorem hashBomb_length (n : Nat) (hn : n < 0x1FFF) : (hashBomb n).encode.length ≤ 6 * n + 26 := by
  have h1 : ∀ l : List Nat, (∀ i ∈ l, i < 0x1FFF) → ((l.map fun i => RType.func false [i] i).flatMap RType.encode).length ≤ 6 * l.length := by
    intro l hl
    induction l with
    | nil => simp
    | cons a l ih =>
      have := ih fun i hi => hl i (List.mem_cons_of_mem _ hi)
      have := ix_length a (by have := hl a List.mem_cons_self; omega)
      simp only [List.map_cons, List.flatMap_cons, List.length_append, RType.encode, RType.encodeBody, List.length_cons, List.flatMap_nil,
        List.length_nil]
      omega
  have h2 := h1 (List.range n) (by simp; omega)
  have h3 := ix_length (n + 1) (by omega)
  have h6 := ix_length n (by omega)
  have h4 : (ix 0).length = 1 := by decide
  have h7 : (ix 1).length = 1 := by decide
  have h5 : (hlStrings []).length = 4 := by decide
  simp only [List.length_range] at h2
  simp only [hashBomb, bomb, RModule.encode, RModule.counts, RFunction.encode, RType.encode, RType.encodeBody, List.length_append, List.length_map,
    List.length_range, List.length_cons, List.length_nil, h4, h5, List.flatMap_nil, List.flatMap_cons, Nat.reduceLeDiff, if_false, Bool.false_eq_true,
    Nat.zero_add]
  omega

/-- The types of `hashBomb`. -/
def bombType : Nat → ValueType
  | 0 => ofKind .HVOID
  | i + 1 => { ofKind .HFUN with union := .func [bombType i] 1 (bombType i) }

theorem bombType_nodes : ∀ i, nodes (bombType i) = 2 ^ (i + 1) - 1
  | 0 => by simp [bombType, ofKind, noType, nodes, nodesU, nodesOpt]
  | i + 1 => by
    have := bombType_nodes i
    have : 1 ≤ 2 ^ (i + 1) := Nat.one_le_two_pow
    simp [bombType, ofKind, noType, nodes, nodesU, nodesOpt, nodesList, Nat.pow_succ] at *
    omega

theorem bombType_ne : ∀ i, bombType i ≠ noType
  | 0 => by simp [bombType, ofKind, noType]
  | i + 1 => by simp [bombType, ofKind, noType]

theorem hashBomb_table (n : Nat) : ∀ i, i ≤ n → (hashBomb n).typeTable[i]? = some (bombType i) := by
  intro i
  induction i with
  | zero =>
    intro _
    have := decodeTypes_get (hashBomb n).strings (hashBomb n).types [] 0 (.prim .HVOID) (by simp [hashBomb])
    simp only [List.length_nil, Nat.zero_add] at this
    exact this
  | succ i ih =>
    intro hi
    have := decodeTypes_get (hashBomb n).strings (hashBomb n).types [] (i + 1) (.func false [i] i) (by
      simp only [hashBomb, List.getElem?_cons_succ, List.getElem?_map]
      rw [List.getElem?_range (by omega)]; rfl)
    simp only [List.length_nil, Nat.zero_add] at this
    have h1 : ((hashBomb n).typeTable.take (i + 1))[i]? = some (bombType i) := by
      rw [List.getElem?_take_of_lt (by omega)]; exact ih (by omega)
    rw [show (hashBomb n).typeTable = decodeTypes (hashBomb n).strings [] (hashBomb n).types from rfl] at h1 ⊢
    rw [this]
    simp [RType.decoded, tref, h1, bombType, RType.kind]

/-- **C109** One comparison can take exponentially long: for every `n` below 8191 there is a file of at most `6 n + 26` bytes which is accepted, whose
hash is computed, and two equal types made up of `2 ^ n - 1` types each are compared. -/
theorem c109_exponential (p : Profile) (n : Nat) (h0 : 0 < n) (hn : n < 0x1FFF) :
    ∃ buf c ch t, buf.length ≤ 6 * n + 26 ∧ Accepts p buf c ∧ CodeHash.alloc c = .ret ch ∧ (t, t) ∈ comparisons (CodeHash.hashSteps c) ∧
      (t.compare t).2 = 2 ^ n - 1 := by
  have hg := hashBomb_good n hn
  have hb : (hashBomb n).NotBare := by
    refine Or.inr (Or.inl ?_)
    simp [hashBomb]
  obtain ⟨u, h1⟩ := c43_file_roundtrip (hashBomb n) hg hb p []
  rw [List.append_nil] at h1
  generalize hc : ({ (hashBomb n).decoded with ustrings := u } : Code) = c at h1
  have htl : (hashBomb n).typeTable.length = n + 1 := by
    have := decodeTypes_length (hashBomb n).strings (hashBomb n).types []
    refine this.trans ?_
    simp [hashBomb]
  have ht : ∀ i, i < n + 1 → c.types[i]? = some (bombType i) := by
    intro i hi
    subst hc
    show ((hashBomb n).typeTable ++ _)[i]? = _
    rw [List.getElem?_append_left (by omega)]
    exact hashBomb_table n i (by omega)
  have e1 : c.ntypes = n + 1 := by subst hc; simp [RModule.decoded, hashBomb]
  have e2 : c.nglobals = 0 := by subst hc; simp [RModule.decoded, hashBomb, bomb]
  have e3 : c.nfunctions = 1 := by subst hc; simp [RModule.decoded, hashBomb, bomb]
  have e4 : c.nnatives = 0 := by subst hc; simp [RModule.decoded, hashBomb, bomb]
  have e5 : c.entrypoint = 0 := by subst hc; simp [RModule.decoded, hashBomb, bomb]
  have e6 : c.constants = [] := by subst hc; simp [RModule.decoded, hashBomb, bomb]
  have e7 : c.natives = [] := by subst hc; simp [RModule.decoded, hashBomb, bomb]
  have e8 : ∀ f ∈ c.functions, f.findex = 0 ∧ f.ops = [] := by
    subst hc
    intro f hf
    simp [RModule.decoded, hashBomb, bomb, RFunction.decoded] at hf
    subst hf
    exact ⟨rfl, rfl⟩
  have boot : ∀ f, BootFunction c f → f.ops = [] := by
    rintro f (⟨i, h, -⟩ | ⟨-, h⟩) <;> exact (e8 f (List.mem_of_getElem? h)).2
  have hh : Hashable c := {
    functionIndex := by intro f hf; rw [(e8 f hf).1, e3]; omega
    nativeIndex := by rw [e7]; simp
    noForward := by
      intro i t hi h
      rw [ht i (by omega)] at h
      cases h
      cases i with
      | zero => simp [bombType, ofKind, hashedRefs]
      | succ i =>
        have := bombType_ne i
        simp [bombType, ofKind, hashedRefs, Ne.symm this]
    typeGlobals := by
      intro i t g hi h hgl
      rw [ht i (by omega)] at h
      cases h
      cases i <;> simp [bombType, ofKind, globalOf] at hgl
    constantGlobal := by rw [e6]; simp
    constantFields := by rw [e6]; simp
    entry := by rw [e3, e4, e5, e7]; simp
    bootShort := by
      intro f hf i o _ h
      rw [boot f hf] at h
      simp at h
    bootEnums := by
      intro f hf i o b _ _ h
      rw [boot f hf] at h
      simp at h }
  obtain ⟨ch, hr⟩ := (c51_alloc_returns_iff p none _ c _ h1).2 hh
  refine ⟨_, c, ch, bombType (n - 1), hashBomb_length n hn, ⟨_, h1⟩, hr, ?_, ?_⟩
  · rw [c109_comparisons p none _ c _ h1 ch hr]
    refine List.mem_flatMap.2 ⟨bombType (n - 1), ?_, ?_⟩
    · unfold searched
      rw [List.mem_append, List.mem_append, List.mem_append]
      refine Or.inl (Or.inl (Or.inl ?_))
      refine List.mem_flatMap.2 ⟨bombType n, ?_, ?_⟩
      · rw [e1]
        refine List.mem_iff_getElem?.2 ⟨n, ?_⟩
        rw [List.getElem?_take_of_lt (by omega)]
        exact ht n (by omega)
      · obtain ⟨m, rfl⟩ : ∃ m, n = m + 1 := ⟨n - 1, by omega⟩
        simp [bombType, ofKind, hashedRefs]
    · unfold search
      simp
  · rw [(c109_one _ _).2.2.2.2 rfl, bombType_nodes, Nat.sub_add_cancel h0]

open CodeHash in
/-- C109: for `exRich` (seven types, five globals, one function) 14 types are searched for with 44 comparisons, which look at 53 types (an
object with two fields is made up of four types), and tables are copied 21 times. -/
example : ∃ c s ch, Code.read .release none exRich = .ok c s ∧ alloc c = .ret ch ∧ (searched c).length = 14 ∧ (comparisons (hashSteps c)).length = 44 ∧
    ((comparisons (hashSteps c)).map fun x => (x.1.compare x.2).2).sum = 53 ∧
    (tableClones (hashSteps c)).length = 21 := by
  have h : checkOk (Code.read .release none exRich) (fun c => match alloc c with
    | .ret _ => decide ((searched c).length = 14 ∧ ((searched c).flatMap (search c.types)).length = 44 ∧
        (((searched c).flatMap (search c.types)).map fun x => (ValueType.compare x.1 x.2).2).sum = 53 ∧ (clonesFor c).length = 21)
    | _ => false) = true := by decide +kernel
  obtain ⟨c, s, h1, h2⟩ := checkOk_iff h
  split at h2
  · rename_i ch e1
    refine ⟨c, s, ch, h1, e1, ?_⟩
    rw [c109_comparisons _ _ _ c s h1 ch e1, c109_copies _ _ _ c s h1 ch e1]
    exact of_decide_eq_true h2
  · cases h2

end Verif.Brass
