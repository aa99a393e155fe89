import Verif.Brass.Loaded
import Verif.Spec.CodeHash

/-!
# When `CodeHash::alloc` returns
-/

namespace Verif.Brass

open Verif Verif.Brass.Spec

theorem returns_ret {α : Type} (a : α) : Returns (.ret a : Rust α) ↔ True := ⟨fun _ => trivial, fun _ => ⟨a, rfl⟩⟩
theorem returns_panic {α : Type} : Returns (.panic : Rust α) ↔ False := ⟨fun ⟨_, h⟩ => (by cases h), False.elim⟩
theorem returns_bind {α β : Type} {x : Rust α} {f : α → Rust β} : Returns (x >>= f) ↔ ∃ a, x = .ret a ∧ Returns (f a) := by
  cases x with
  | panic => simp [returns_panic]
  | ret a => simp
theorem returns_get {α : Type} {l : List α} {i : Nat} : Returns (Rust.get l i) ↔ i < l.length := by
  unfold Rust.get
  rcases Nat.lt_or_ge i l.length with h | h
  · simp [returns_ret, h]
  · rw [List.getElem?_eq_none h]; simp [returns_panic]; exact h
theorem returns_set {α : Type} {l : List α} {i : Nat} {x : α} : Returns (Rust.set l i x) ↔ i < l.length := by
  unfold Rust.set
  split
  · simp [returns_ret, *]
  · simp [returns_panic]; omega
theorem returns_unwrap {α : Type} {o : Option α} : Returns (Rust.unwrap o) ↔ ∃ a, o = some a := by
  cases o <;> simp [returns_panic, returns_ret]
theorem get_eq {α : Type} {l : List α} {i : Nat} {a : α} : Rust.get l i = .ret a ↔ l[i]? = some a := by
  unfold Rust.get; cases l[i]? <;> simp
theorem set_eq {α : Type} {l l' : List α} {i : Nat} {a : α} : Rust.set l i a = .ret l' ↔ i < l.length ∧ l' = l.set i a := by
  unfold Rust.set
  split
  · simp [*, eq_comm]
  · simp [*]

/-- A loop with an invariant returns exactly if each step can. -/
theorem forRange_iff {β : Type} {f : Nat → β → Rust β} {Inv : β → Prop} {P : Nat → Prop} : ∀ n a b,
    (∀ i, a ≤ i → i < a + n → ∀ b, Inv b → (Returns (f i b) ↔ P i)) → (∀ i, a ≤ i → i < a + n → ∀ b b', Inv b → f i b = .ret b' → Inv b') → Inv b →
    (Returns (Rust.forRange f a n b) ↔ ∀ i, a ≤ i → i < a + n → P i)
  | 0, a, b, _, _, _ => by
    simp only [Rust.forRange, returns_ret, true_iff]
    intro i h1 h2; omega
  | n + 1, a, b, h, hI, hb => by
    simp only [Rust.forRange, returns_bind]
    have h0 := h a (Nat.le_refl _) (by omega) b hb
    constructor
    · rintro ⟨b', e, h1⟩ i hi hi'
      by_cases hia : i = a
      · subst hia; exact h0.1 ⟨_, e⟩
      · refine (forRange_iff n (a + 1) b' (fun i h1 h2 => h i (by omega) (by omega)) (fun i h1 h2 => hI i (by omega) (by omega))
          (hI a (Nat.le_refl _) (by omega) b b' hb e)).1 h1 i (by omega) (by omega)
    · intro h1
      obtain ⟨b', e⟩ := h0.2 (h1 a (Nat.le_refl _) (by omega))
      refine ⟨b', e, ?_⟩
      exact (forRange_iff n (a + 1) b' (fun i h1 h2 => h i (by omega) (by omega)) (fun i h1 h2 => hI i (by omega) (by omega))
        (hI a (Nat.le_refl _) (by omega) b b' hb e)).2 fun i h2 h3 => h1 i (by omega) (by omega)

/-- The invariant holds at the end. -/
theorem forRange_inv {β : Type} {f : Nat → β → Rust β} {Inv : Nat → β → Prop} : ∀ n a b b',
    (∀ i, a ≤ i → i < a + n → ∀ b b', Inv i b → f i b = .ret b' → Inv (i + 1) b') → Inv a b → Rust.forRange f a n b = .ret b' → Inv (a + n) b'
  | 0, a, b, b', _, hb, e => by cases e; exact hb
  | n + 1, a, b, b', h, hb, e => by
    simp only [Rust.forRange] at e
    cases e1 : f a b with
    | panic => rw [e1] at e; cases e
    | ret b1 =>
      rw [e1] at e
      have := forRange_inv n (a + 1) b1 b' (fun i h1 h2 => h i (by omega) (by omega)) (h a (Nat.le_refl _) (by omega) _ _ hb e1) e
      rwa [show a + 1 + n = a + (n + 1) from by omega] at this

/-! ## Types -/

theorem Loaded.declared_ne_default {c : Code} (h : Loaded c) {i : Nat} (hi : i < c.ntypes) : c.types[i]? ≠ some ValueType.default := by
  intro e
  have := h.typesOk i _ hi e
  obtain ⟨p, hp, _⟩ := this
  cases hp

theorem Loaded.types_length {c : Code} (h : Loaded c) : c.types.length = 2 * c.ntypes := by
  obtain ⟨T, h1, h2⟩ := h.types
  rw [h2]; simp; omega
theorem Loaded.globals_length {c : Code} (h : Loaded c) : c.globals.length = 2 * c.nglobals := by
  obtain ⟨T, h1, h2⟩ := h.globals
  rw [h2]; simp; omega

theorem Loaded.declared {c : Code} (h : Loaded c) {i : Nat} (hi : i < c.ntypes) : ∃ t, c.types[i]? = some t := by
  have := h.types_length
  exact ⟨_, List.getElem?_eq_getElem (by omega)⟩

namespace CodeHash

/-- The position of a declared type is below `ntypes`. -/
theorem position_declared {c : Code} {t : ValueType} (h : c.IsType t) : ∃ i, position c.types t = .ret i ∧ i < c.ntypes ∧ c.types[i]? = some t := by
  obtain ⟨j, hj, ht⟩ := h
  unfold position
  cases e : c.types.findIdx? fun v => v.beq t with
  | none =>
    rw [List.findIdx?_eq_none_iff] at e
    have := e t (List.mem_of_getElem? ht)
    rw [(ValueType.beq_iff t t).2 rfl] at this
    cases this
  | some i =>
    rw [List.findIdx?_eq_some_iff_getElem] at e
    obtain ⟨h1, h2, h3⟩ := e
    refine ⟨i, rfl, ?_, ?_⟩
    · rcases Nat.lt_or_ge j i with h4 | h4
      · have := h3 j h4
        have hj' : c.types[j]'(by omega) = t := by
          rw [List.getElem?_eq_some_iff] at ht; exact ht.2
        rw [hj'] at this
        exact absurd ((ValueType.beq_iff t t).2 rfl) this
      · omega
    · rw [List.getElem?_eq_getElem h1, (ValueType.beq_iff _ _).1 h2]

theorem typeHash_declared {s : CodeHash} {t : ValueType} (h : s.code.IsType t) (hl : s.code.ntypes ≤ s.typeHashes.length) :
    Returns (s.typeHash t) := by
  obtain ⟨i, e, hi, _⟩ := position_declared h
  unfold typeHash
  rw [e]
  exact returns_get.2 (by omega)

theorem typeHash_default {s : CodeHash} (h : Loaded s.code) (hl : s.typeHashes.length = s.code.ntypes) : ¬ Returns (s.typeHash ValueType.default) := by
  unfold typeHash
  rw [returns_bind]
  rintro ⟨i, e, h2⟩
  rw [returns_get] at h2
  unfold position at e
  cases e' : s.code.types.findIdx? fun v => v.beq ValueType.default with
  | none => rw [e'] at e; cases e
  | some j =>
    rw [e'] at e
    cases e
    rw [List.findIdx?_eq_some_iff_getElem] at e'
    obtain ⟨h1, h3, _⟩ := e'
    have := (ValueType.beq_iff _ _).1 h3
    exact h.declared_ne_default (i := i) (by omega) (by rw [List.getElem?_eq_getElem h1, this])

theorem writeType_returns {s : CodeHash} {h : Hasher} {t : ValueType} : Returns (s.writeType h t) ↔ Returns (s.typeHash t) := by
  unfold writeType
  rw [returns_bind]
  exact ⟨fun ⟨a, e, _⟩ => ⟨a, e⟩, fun ⟨a, e⟩ => ⟨a, e, _, rfl⟩⟩

theorem codeHashType_returns {s : CodeHash} {t : ValueType} : Returns (s.codeHashType t) ↔ Returns (s.typeHash t) := by
  unfold codeHashType
  rw [returns_bind, ← writeType_returns (h := Hasher.new)]
  exact ⟨fun ⟨a, e, _⟩ => ⟨a, e⟩, fun ⟨a, e⟩ => ⟨a, e, _, rfl⟩⟩

theorem recTypes_returns {s : CodeHash} {ts : List ValueType} {h : Hasher} :
    Returns (Rust.forRange (s.recType ts) 0 ts.length h) ↔ ∀ r ∈ ts, Returns (s.typeHash r) := by
  rw [forRange_iff (Inv := fun _ => True) (P := fun i => ∀ r, ts[i]? = some r → Returns (s.typeHash r)) _ _ _ ?_ (fun _ _ _ _ _ _ _ => trivial) trivial]
  · constructor
    · intro h1 r hr
      obtain ⟨i, hi, e⟩ := List.mem_iff_getElem.1 hr
      exact h1 i (Nat.zero_le _) (by omega) r (by rw [List.getElem?_eq_getElem hi, e])
    · intro h1 i _ _ r hr
      exact h1 r (List.mem_of_getElem? hr)
  · intro i _ hi b _
    have hi' : i < ts.length := by omega
    unfold recType
    rw [returns_bind]
    simp only [get_eq, List.getElem?_eq_getElem hi']
    constructor
    · rintro ⟨a, e, h2⟩ r e2
      rw [e] at e2; cases e2
      exact writeType_returns.1 h2
    · intro h1
      exact ⟨_, rfl, writeType_returns.2 (h1 _ rfl)⟩

theorem recFields_returns {s : CodeHash} {fs : List ObjField} {h : Hasher} :
    Returns (Rust.forRange (s.recField fs) 0 fs.length h) ↔ ∀ r ∈ fs.map ObjField.t, Returns (s.typeHash r) := by
  have e : Rust.forRange (s.recField fs) 0 fs.length h = Rust.forRange (s.recType (fs.map ObjField.t)) 0 (fs.map ObjField.t).length h := by
    rw [List.length_map]
    refine forRange_congr _ _ _ fun i _ _ b => ?_
    unfold recField recType Rust.get
    rw [List.getElem?_map]
    cases fs[i]? <;> rfl
  rw [e]
  exact recTypes_returns

theorem recConstructs_returns {s : CodeHash} {cs : List EnumConstruct} {h : Hasher} (hc : ∀ c ∈ cs, c.nparams = c.params.length) :
    Returns (Rust.forRange (s.recConstruct cs) 0 cs.length h) ↔ ∀ r ∈ cs.flatMap EnumConstruct.params, Returns (s.typeHash r) := by
  rw [forRange_iff (Inv := fun _ => True) (P := fun i => ∀ c, cs[i]? = some c → ∀ r ∈ c.params, Returns (s.typeHash r)) _ _ _ ?_ (fun _ _ _ _ _ _ _ => trivial) trivial]
  · constructor
    · intro h1 r hr
      obtain ⟨c, hc, hr⟩ := List.mem_flatMap.1 hr
      obtain ⟨i, hi, e⟩ := List.mem_iff_getElem.1 hc
      exact h1 i (Nat.zero_le _) (by omega) c (by rw [List.getElem?_eq_getElem hi, e]) r hr
    · intro h1 i _ _ c hr r hm
      exact h1 r (List.mem_flatMap.2 ⟨c, List.mem_of_getElem? hr, hm⟩)
  · intro i _ hi b _
    have hi' : i < cs.length := by omega
    unfold recConstruct
    rw [returns_bind]
    simp only [get_eq, List.getElem?_eq_getElem hi']
    have hn := hc _ (List.getElem_mem hi')
    constructor
    · rintro ⟨a, e, h2⟩ c e2
      rw [e] at e2; cases e2
      cases e
      rw [hn] at h2
      exact recTypes_returns.1 h2
    · intro h1
      exact ⟨_, rfl, by rw [hn]; exact recTypes_returns.2 (h1 _ rfl)⟩

theorem recKind_returns {s : CodeHash} {t : ValueType} (hw : WellFormed t) : Returns (s.recKind t) ↔ ∀ r ∈ hashedRefs t, Returns (s.typeHash r) := by
  obtain ⟨u, a, p, k⟩ := t
  have tr : ∀ {Q : Prop}, (∀ x : ValueType, x ∈ ([] : List ValueType) → Q) ↔ True := by simp
  cases k <;> simp only [WellFormed] at hw
  case HFUN | HMETHOD =>
    obtain ⟨args, ret, rfl, rfl, rfl⟩ := hw
    simp only [recKind, hashedRefs, returns_bind]
    constructor
    · rintro ⟨h, e, h2⟩ r hr
      rcases List.mem_append.1 hr with hr | hr
      · exact recTypes_returns.1 ⟨h, e⟩ r hr
      · rw [List.mem_singleton.1 hr]; exact writeType_returns.1 h2
    · intro h1
      obtain ⟨h, e⟩ := (recTypes_returns (h := Hasher.new)).2 fun r hr => h1 r (List.mem_append_left _ hr)
      exact ⟨h, e, writeType_returns.2 (h1 ret (by simp))⟩
  case HOBJ | HSTRUCT =>
    obtain ⟨name, sup, fields, proto, bindings, nb, g, rfl, _, _, rfl, rfl⟩ := hw
    exact recFields_returns
  case HREF | HNULL =>
    obtain ⟨q, rfl, rfl, rfl⟩ := hw
    simp only [recKind, hashedRefs, Rust.unwrap_some, Rust.bind_ret, Option.toList_some, List.mem_singleton, forall_eq]
    exact writeType_returns
  case HENUM =>
    obtain ⟨name, cs, g, rfl, hc, _, rfl, rfl⟩ := hw
    exact recConstructs_returns hc
  all_goals (simp only [recKind, hashedRefs, returns_ret]; simp)

theorem hashTypeRec_returns {s : CodeHash} {i : Nat} {t : ValueType} (ht : s.code.types[i]? = some t) (hw : WellFormed t) :
    Returns (s.hashTypeRec i) ↔ ∀ r ∈ hashedRefs t, Returns (s.typeHash r) := by
  unfold hashTypeRec
  rw [returns_bind]
  simp only [get_eq, ht]
  rw [← recKind_returns hw]
  constructor
  · rintro ⟨a, e, h⟩
    cases e
    obtain ⟨h, e, _⟩ := returns_bind.1 h
    exact ⟨h, e⟩
  · rintro ⟨h, e⟩
    exact ⟨t, rfl, returns_bind.2 ⟨h, e, _, rfl⟩⟩

theorem hashedRefs_refs {t : ValueType} (hw : WellFormed t) : ∀ r ∈ hashedRefs t, r ∈ t.refs := by
  obtain ⟨u, a, p, k⟩ := t
  intro r hr
  cases k <;> simp only [WellFormed] at hw
  case HFUN | HMETHOD =>
    obtain ⟨args, ret, rfl, rfl, rfl⟩ := hw
    simp only [hashedRefs, List.mem_append, List.mem_singleton] at hr
    simp only [ValueType.refs, List.mem_append, List.mem_cons]
    rcases hr with hr | hr <;> simp [hr]
  case HOBJ | HSTRUCT =>
    obtain ⟨name, sup, fields, proto, bindings, nb, g, rfl, _, _, rfl, rfl⟩ := hw
    simp only [hashedRefs] at hr
    simp only [ValueType.refs, List.mem_append, List.mem_cons]
    exact Or.inl (Or.inr hr)
  case HREF | HNULL =>
    obtain ⟨q, rfl, rfl, rfl⟩ := hw
    simp only [hashedRefs, Option.toList_some, List.mem_singleton] at hr
    simp [ValueType.refs, hr]
  case HENUM =>
    obtain ⟨name, cs, g, rfl, hc, _, rfl, rfl⟩ := hw
    simp only [hashedRefs] at hr
    simp only [ValueType.refs, List.mem_append]
    exact Or.inl hr
  all_goals (simp [hashedRefs] at hr)

/-- The recursive hash of a declared type of an accepted file, in the second round. -/
theorem hashTypeRec_loaded {s : CodeHash} (h : Loaded s.code) (hl : s.typeHashes.length = s.code.ntypes) {i : Nat} (hi : i < s.code.ntypes) :
    Returns (s.hashTypeRec i) ↔ ∀ t, s.code.types[i]? = some t → ValueType.default ∉ hashedRefs t := by
  obtain ⟨t, ht⟩ := h.declared hi
  have hw := h.typesOk i t hi ht
  rw [hashTypeRec_returns ht hw]
  constructor
  · intro h1 t' e hd
    rw [ht] at e; cases e
    exact typeHash_default h hl (h1 _ hd)
  · intro h1 r hr
    rcases h.typesRefer i t hi ht r (hashedRefs_refs hw r hr) with rfl | ⟨j, hj, e⟩
    · exact absurd hr (h1 t ht)
    · exact typeHash_declared ⟨j, by omega, e⟩ (by omega)

/-! ## `functions_indexes` -/

/-- What a loop that assigns `val i` to slot `key i` has done after `n` rounds. -/
structure Assigned {β : Type} (key : Nat → Option Nat) (val : Nat → β) (v : List β) (n : Nat) (v' : List β) : Prop where
  length : v'.length = v.length
  range : ∀ i, i < n → ∃ k, key i = some k ∧ k < v.length
  last : ∀ i k, i < n → key i = some k → (∀ j, i < j → j < n → key j ≠ some k) → v'[k]? = some (val i)
  other : ∀ k, (∀ i, i < n → key i ≠ some k) → v'[k]? = v[k]?

theorem assigned_step {β : Type} {key : Nat → Option Nat} {val : Nat → β} {v w w' : List β} {n k : Nat} (h : Assigned key val v n w)
    (hk : key n = some k) (e : Rust.set w k (val n) = .ret w') : Assigned key val v (n + 1) w' := by
  obtain ⟨h1, rfl⟩ := set_eq.1 e
  have hl := h.length
  refine ⟨by simp [hl], ?_, ?_, ?_⟩
  · intro i hi
    by_cases hin : i = n
    · subst hin; exact ⟨k, hk, by omega⟩
    · exact h.range i (by omega)
  · intro i k' hi hk' hlast
    rw [List.getElem?_set]
    by_cases hin : i = n
    · subst hin
      rw [hk] at hk'; cases hk'
      simp [h1]
    · have : key n ≠ some k' := hlast n (by omega) (by omega)
      have : k ≠ k' := fun e => this (by rw [hk, e])
      rw [if_neg this]
      exact h.last i k' (by omega) hk' fun j h1 h2 => hlast j h1 (by omega)
  · intro k' hne
    rw [List.getElem?_set]
    have : k ≠ k' := fun e => hne n (by omega) (by rw [hk, e])
    rw [if_neg this]
    exact h.other k' fun i hi => hne i (by omega)

theorem assigned_init {β : Type} (key : Nat → Option Nat) (val : Nat → β) (v : List β) : Assigned key val v 0 v :=
  ⟨rfl, fun i h => by omega, fun i k h => by omega, fun _ _ => rfl⟩

/-- The key in the loop over the functions. -/
def functionKey (c : Code) (i : Nat) : Option Nat := c.functions[i]?.map HLFunction.findex
/-- The key in the loop over the natives. -/
def nativeKey (c : Code) (i : Nat) : Option Nat := c.natives[i]?.map Native.findex

theorem indexes_assigned {c : Code} {v w : List Int} (e : indexes c v = .ret w) : ∃ u,
    Assigned (functionKey c) asI32 v c.nfunctions u ∧ Assigned (nativeKey c) (fun i => asI32 (i + c.nfunctions)) u c.nnatives w := by
  unfold indexes at e
  cases e1 : Rust.forRange (indexFunction c) 0 c.nfunctions v with
  | panic => rw [e1] at e; cases e
  | ret u =>
    rw [e1] at e
    refine ⟨u, ?_, ?_⟩
    · have := forRange_inv (Inv := fun n u => Assigned (functionKey c) asI32 v n u) _ _ _ _ ?_ (assigned_init _ _ _) e1
      · simpa using this
      · intro i _ hi b b' hb e
        unfold indexFunction at e
        cases h : c.functions[i]? with
        | none => simp [Rust.get, h] at e
        | some f =>
          simp only [Rust.get, h, Rust.unwrap_some, Rust.bind_ret] at e
          exact assigned_step hb (by simp [functionKey, h]) e
    · have := forRange_inv (Inv := fun n w => Assigned (nativeKey c) (fun i => asI32 (i + c.nfunctions)) u n w) _ _ _ _ ?_ (assigned_init _ _ _) e
      · simpa using this
      · intro i _ hi b b' hb e
        unfold indexNative at e
        cases h : c.natives[i]? with
        | none => simp [Rust.get, h] at e
        | some f =>
          simp only [Rust.get, h, Rust.unwrap_some, Rust.bind_ret] at e
          exact assigned_step hb (by simp [nativeKey, h]) e

theorem indexes_returns {c : Code} {v : List Int} (h : Loaded c) (hv : v.length = c.nfunctions + c.nnatives) :
    Returns (indexes c v) ↔ (∀ f ∈ c.functions, f.findex < c.nfunctions + c.nnatives) ∧ (∀ n ∈ c.natives, n.findex < c.nfunctions + c.nnatives) := by
  have h1 : ∀ v : List Int, v.length = c.nfunctions + c.nnatives →
      (Returns (Rust.forRange (indexFunction c) 0 c.nfunctions v) ↔ ∀ f ∈ c.functions, f.findex < c.nfunctions + c.nnatives) := by
    intro v hv
    rw [forRange_iff (Inv := fun v => v.length = c.nfunctions + c.nnatives) (P := fun i => ∀ f, c.functions[i]? = some f → f.findex < c.nfunctions + c.nnatives) _ _ _ ?_ ?_ hv]
    · constructor
      · intro h1 f hf
        obtain ⟨i, hi, e⟩ := List.mem_iff_getElem.1 hf
        exact h1 i (Nat.zero_le _) (by rw [← h.functions]; omega) f (by rw [List.getElem?_eq_getElem hi, e])
      · intro h1 i _ _ f hf
        exact h1 f (List.mem_of_getElem? hf)
    · intro i _ hi b hb
      have hi' : i < c.functions.length := by rw [h.functions]; omega
      unfold indexFunction
      rw [returns_bind]
      simp only [get_eq, List.getElem?_eq_getElem hi', Option.some.injEq, returns_set, hb]
      constructor
      · rintro ⟨_, rfl, h⟩ _ rfl; exact h
      · intro h; exact ⟨_, rfl, h _ rfl⟩
    · intro i _ _ b b' hb e
      unfold indexFunction at e
      cases h : Rust.get c.functions i with
      | panic => rw [h] at e; cases e
      | ret f => rw [h] at e; rw [(set_eq.1 e).2]; simpa using hb
  have h2 : ∀ v : List Int, v.length = c.nfunctions + c.nnatives →
      (Returns (Rust.forRange (indexNative c) 0 c.nnatives v) ↔ ∀ f ∈ c.natives, f.findex < c.nfunctions + c.nnatives) := by
    intro v hv
    rw [forRange_iff (Inv := fun v => v.length = c.nfunctions + c.nnatives) (P := fun i => ∀ f, c.natives[i]? = some f → f.findex < c.nfunctions + c.nnatives) _ _ _ ?_ ?_ hv]
    · constructor
      · intro h1 f hf
        obtain ⟨i, hi, e⟩ := List.mem_iff_getElem.1 hf
        exact h1 i (Nat.zero_le _) (by rw [← h.natives]; omega) f (by rw [List.getElem?_eq_getElem hi, e])
      · intro h1 i _ _ f hf
        exact h1 f (List.mem_of_getElem? hf)
    · intro i _ hi b hb
      have hi' : i < c.natives.length := by rw [h.natives]; omega
      unfold indexNative
      rw [returns_bind]
      simp only [get_eq, List.getElem?_eq_getElem hi', Option.some.injEq, returns_set, hb]
      constructor
      · rintro ⟨_, rfl, h⟩ _ rfl; exact h
      · intro h; exact ⟨_, rfl, h _ rfl⟩
    · intro i _ _ b b' hb e
      unfold indexNative at e
      cases h : Rust.get c.natives i with
      | panic => rw [h] at e; cases e
      | ret f => rw [h] at e; rw [(set_eq.1 e).2]; simpa using hb
  unfold indexes
  rw [returns_bind]
  constructor
  · rintro ⟨u, e, h3⟩
    refine ⟨(h1 v hv).1 ⟨u, e⟩, (h2 u ?_).1 h3⟩
    have := forRange_inv (Inv := fun _ (v : List Int) => v.length = c.nfunctions + c.nnatives) _ _ _ _ ?_ hv e
    · exact this
    · intro i _ _ b b' hb e
      unfold indexFunction at e
      cases h : Rust.get c.functions i with
      | panic => rw [h] at e; cases e
      | ret f => rw [h] at e; rw [(set_eq.1 e).2]; simpa using hb
  · rintro ⟨a, b⟩
    obtain ⟨u, e⟩ := (h1 v hv).2 a
    refine ⟨u, e, (h2 u ?_).2 b⟩
    have := forRange_inv (Inv := fun _ (v : List Int) => v.length = c.nfunctions + c.nnatives) _ _ _ _ ?_ hv e
    · exact this
    · intro i _ _ b b' hb e
      unfold indexFunction at e
      cases h : Rust.get c.functions i with
      | panic => rw [h] at e; cases e
      | ret f => rw [h] at e; rw [(set_eq.1 e).2]; simpa using hb

/-! ## Type hashes -/

/-- The state between the steps of `alloc`, after the type hashes. -/
structure Mid (c : Code) (v : List Int) (W : List UInt32) (s : CodeHash) : Prop where
  code : s.code = c
  indexes : s.functionsIndexes = v
  hashes : s.typeHashes = W
  signs : s.globalsSigns.length = c.nglobals

theorem types_length {s s' : CodeHash} (e : types s = .ret s') :
    s' = { s with typeHashes := s'.typeHashes } ∧ s'.typeHashes.length = 2 * s.code.ntypes := by
  unfold types at e
  cases e1 : Rust.forRange (typeHashStep s.code) 0 s.code.ntypes s.typeHashes with
  | panic => rw [e1] at e; cases e
  | ret u =>
    rw [e1] at e
    simp only [Rust.bind_ret] at e
    cases e2 : Rust.forRange (typeHashStep2 { s with typeHashes := u }) 0 s.code.ntypes (List.replicate s.code.ntypes 0) with
    | panic => rw [e2] at e; cases e
    | ret w =>
      rw [e2] at e
      simp only [Rust.bind_ret, Rust.pure_eq, Rust.ret.injEq] at e
      subst e
      refine ⟨rfl, ?_⟩
      have := forRange_inv (Inv := fun i (v : List UInt32) => v.length = s.code.ntypes + i) _ _ _ _ ?_ (by simp) e2
      · simp only at this ⊢; omega
      · intro i _ hi b b' hb e
        unfold typeHashStep2 at e
        cases h : Rust.get u i with
        | panic => simp [h] at e
        | ret x =>
          simp only [h, Rust.bind_ret] at e
          cases h2 : hashTypeRec { s with typeHashes := u } i with
          | panic => simp [h2] at e
          | ret y =>
            simp only [h2, Rust.bind_ret] at e
            split at e
            · simp only [Rust.pure_eq, Rust.ret.injEq] at e
              subst e
              rw [List.length_insertIdx, if_pos (by omega)]; omega
            · cases e

theorem types_returns {s : CodeHash} (h : Loaded s.code) (hh : ∀ i t, i < s.code.ntypes → s.code.types[i]? = some t → Returns (t.hash false))
    (hl : s.typeHashes.length = s.code.ntypes) :
    Returns (types s) ↔ ∀ i t, i < s.code.ntypes → s.code.types[i]? = some t → ValueType.default ∉ hashedRefs t := by
  unfold types
  have hfirst : ∀ i, 0 ≤ i → i < 0 + s.code.ntypes → ∀ b b' : List UInt32, b.length = s.code.ntypes → typeHashStep s.code i b = .ret b' → b'.length = s.code.ntypes := by
    intro i _ _ b b' hb e
    unfold typeHashStep at e
    cases h1 : Rust.get s.code.types i with
    | panic => simp [h1] at e
    | ret t =>
      simp only [h1, Rust.bind_ret] at e
      cases h2 : t.hash false with
      | panic => simp [h2] at e
      | ret x =>
        simp only [h2, Rust.bind_ret] at e
        rw [(set_eq.1 e).2]; simpa using hb
  have h1 : Returns (Rust.forRange (typeHashStep s.code) 0 s.code.ntypes s.typeHashes) := by
    refine (forRange_iff (Inv := fun b : List UInt32 => b.length = s.code.ntypes) (P := fun _ => True) _ _ _ ?_ hfirst hl).2 fun _ _ _ => trivial
    intro i _ hi b hb
    simp only [iff_true]
    obtain ⟨t, ht⟩ := h.declared (i := i) (by omega)
    obtain ⟨x, hx⟩ := hh i t (by omega) ht
    unfold typeHashStep
    simp only [get_eq.2 ht, Rust.bind_ret, hx]
    exact returns_set.2 (by omega)
  obtain ⟨u, e1⟩ := h1
  have hu : u.length = s.code.ntypes := by
    have := forRange_inv (Inv := fun _ (v : List UInt32) => v.length = s.code.ntypes) _ _ _ _ (fun i a b => hfirst i a b) hl e1
    exact this
  rw [e1]
  simp only [Rust.bind_ret]
  rw [returns_bind]
  have h2 : Returns (Rust.forRange (typeHashStep2 { s with typeHashes := u }) 0 s.code.ntypes (List.replicate s.code.ntypes 0)) ↔
      ∀ i, 0 ≤ i → i < 0 + s.code.ntypes → ∀ t, s.code.types[i]? = some t → ValueType.default ∉ hashedRefs t := by
    refine forRange_iff (Inv := fun b : List UInt32 => s.code.ntypes ≤ b.length) _ _ _ ?_ ?_ (by simp)
    · intro i _ hi b hb
      rw [← hashTypeRec_loaded (s := { s with typeHashes := u }) h hu (by simp only; omega)]
      unfold typeHashStep2
      obtain ⟨x, hx⟩ := returns_get.2 (show i < u.length by omega)
      simp only [hx, Rust.bind_ret]
      rw [returns_bind]
      constructor
      · rintro ⟨a, e, _⟩; exact ⟨a, e⟩
      · rintro ⟨a, e⟩; exact ⟨a, e, by rw [if_pos (by omega)]; exact ⟨_, rfl⟩⟩
    · intro i _ hi b b' hb e
      unfold typeHashStep2 at e
      cases h : Rust.get u i with
      | panic => simp [h] at e
      | ret x =>
        simp only [h, Rust.bind_ret] at e
        cases h2 : hashTypeRec { s with typeHashes := u } i with
        | panic => simp [h2] at e
        | ret y =>
          simp only [h2, Rust.bind_ret] at e
          split at e
          · simp only [Rust.pure_eq, Rust.ret.injEq] at e
            subst e
            rw [List.length_insertIdx, if_pos (by omega)]; omega
          · cases e
  constructor
  · rintro ⟨w, e, _⟩ i t hi ht
    exact h2.1 ⟨w, e⟩ i (Nat.zero_le _) (by omega) t ht
  · intro h3
    obtain ⟨w, e⟩ := h2.2 fun i _ hi t ht => h3 i t (by omega) ht
    exact ⟨w, e, _, rfl⟩

end CodeHash

end Verif.Brass
