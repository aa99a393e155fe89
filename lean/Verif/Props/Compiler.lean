import Verif.Spec.Compiler
import Verif.Brass.Compiler
import Verif.Props.Finalize

/-!
# Module initialisation (C56)
-/

namespace Verif.Brass

open Verif Verif.Brass.Spec

theorem globalName_inj {i j : Nat} (h : globalName i = globalName j) : i = j := by
  have := congrArg String.toList h
  simp only [globalName, String.toList_append, Nat.toString_eq_repr, Nat.toList_repr, List.append_cancel_left_eq] at this
  have := congrArg (Nat.ofDigitChars 10 · 0) this
  simpa [Nat.ofDigitChars_ten_toDigits] using this

namespace HLModule

theorem byteGlobals_succ (c : Code) (n : Nat) : byteGlobals c (n + 1) =
    byteGlobals c n ++ if c.globals[n]?.map ValueType.kind = some TypeKind.HUI8 then [n] else [] := by
  unfold byteGlobals
  rw [List.range_succ, List.filter_append]
  congr 1
  by_cases h : c.globals[n]?.map ValueType.kind = some TypeKind.HUI8
  · rw [if_pos h, List.filter_cons_of_pos (by exact decide_eq_true h)]; rfl
  · rw [if_neg h, List.filter_cons_of_neg (by simpa using h)]; rfl

/-- The state after `n` globals. -/
def after (m : HLModule) (n : Nat) : HLModule := { m with
  data := (byteGlobals m.code n).map fun i => (globalName i, true)
  values := (byteGlobals m.code n).zipIdx.map fun x => ⟨x.2, asI32 x.1⟩ }

theorem declare_fresh (m : HLModule) (n : Nat) : (after m n).declareData (globalName n) true =
    ((byteGlobals m.code n).length, { after m n with data := (after m n).data ++ [(globalName n, true)] }) := by
  have : (after m n).data.findIdx? (fun d => d.1 == globalName n) = none := by
    rw [List.findIdx?_eq_none_iff]
    intro x hx
    simp only [after, List.mem_map, byteGlobals, List.mem_filter, List.mem_range] at hx
    obtain ⟨i, ⟨hi, _⟩, rfl⟩ := hx
    simp only [beq_eq_false_iff_ne, ne_eq]
    intro e
    have := globalName_inj e
    omega
  unfold declareData
  rw [this]
  simp [after]

theorem initGlobal_step (m : HLModule) (n : Nat) {t : ValueType} (ht : m.code.globals[n]? = some t) (hk : t.kind = .HVOID ∨ t.kind = .HUI8) :
    initGlobal n (after m n) = .ret (after m (n + 1)) := by
  unfold initGlobal
  rw [show Rust.get (after m n).code.globals n = .ret t from get_eq.2 ht]
  simp only [Rust.bind_ret]
  rcases hk with hk | hk
  · rw [hk]
    simp only [Rust.pure_eq, after, byteGlobals_succ, ht, hk, Option.map_some, Option.some.injEq, reduceCtorEq, if_false, List.append_nil]
  · rw [hk]
    simp only [Rust.pure_eq, Rust.ret.injEq]
    unfold translateGlobal
    have := declare_fresh m n
    unfold globalName at this
    rw [this]
    simp only [after, byteGlobals_succ, ht, hk, Option.map_some, if_true, List.map_append, List.zipIdx_append, globalName]
    simp

theorem initGlobal_other {m m' : HLModule} {n : Nat} (e : initGlobal n m = .ret m') :
    ∃ t, m.code.globals[n]? = some t ∧ (t.kind = .HVOID ∨ t.kind = .HUI8) := by
  unfold initGlobal at e
  cases h : Rust.get m.code.globals n with
  | panic => rw [h] at e; cases e
  | ret t =>
    simp only [h, Rust.bind_ret] at e
    refine ⟨t, get_eq.1 h, ?_⟩
    split at e <;> rename_i hk
    · exact Or.inr hk
    · exact Or.inl hk
    · cases e

theorem initGlobals_all (m : HLModule) : ∀ n a, (∀ i, a ≤ i → i < a + n → ∃ t, m.code.globals[i]? = some t ∧ (t.kind = .HVOID ∨ t.kind = .HUI8)) →
    Rust.forRange initGlobal a n (after m a) = .ret (after m (a + n))
  | 0, a, _ => rfl
  | n + 1, a, h => by
    obtain ⟨t, h1, h2⟩ := h a (Nat.le_refl _) (by omega)
    simp only [Rust.forRange, initGlobal_step m a h1 h2, Rust.bind_ret]
    rw [initGlobals_all m n (a + 1) fun i h1 h2 => h i (by omega) (by omega)]
    congr 2
    omega

theorem initGlobals_need (m m' : HLModule) : ∀ n a, Rust.forRange initGlobal a n (after m a) = .ret m' →
    ∀ i, a ≤ i → i < a + n → ∃ t, m.code.globals[i]? = some t ∧ (t.kind = .HVOID ∨ t.kind = .HUI8)
  | 0, a, _, i, h1, h2 => by omega
  | n + 1, a, e, i, h1, h2 => by
    simp only [Rust.forRange] at e
    cases e1 : initGlobal a (after m a) with
    | panic => rw [e1] at e; cases e
    | ret b =>
      rw [e1] at e
      obtain ⟨t, t1, t2⟩ := initGlobal_other e1
      by_cases hi : i = a
      · subst hi; exact ⟨t, t1, t2⟩
      · rw [initGlobal_step m a t1 t2] at e1
        cases e1
        exact initGlobals_need m m' n (a + 1) e i (by omega) (by omega)

theorem after_zero (m : HLModule) (h1 : m.data = []) (h2 : m.values = []) : after m 0 = m := by
  unfold after byteGlobals
  cases m
  simp only at h1 h2
  subst h1 h2
  rfl

theorem initGlobals_returns (m : HLModule) (h1 : m.data = []) (h2 : m.values = []) : Returns m.initGlobals ↔ SimpleGlobals m.code := by
  constructor
  · rintro ⟨m', e⟩ i hi
    unfold initGlobals at e
    rw [← after_zero m h1 h2] at e
    exact initGlobals_need m m' _ 0 e i (Nat.zero_le _) (by simpa [after] using hi)
  · intro h
    have := initGlobals_all m m.code.nglobals 0 fun i _ hi => h i (by omega)
    rw [after_zero m h1 h2] at this
    exact ⟨_, this⟩

theorem initGlobals_result (m m' : HLModule) (h1 : m.data = []) (h2 : m.values = []) (e : m.initGlobals = .ret m') : m' = after m m.code.nglobals := by
  have h := (initGlobals_returns m h1 h2).1 ⟨m', e⟩
  have := initGlobals_all m m.code.nglobals 0 fun i _ hi => h i (by omega)
  rw [after_zero m h1 h2] at this
  unfold initGlobals at e
  rw [this, Nat.zero_add] at e
  cases e; rfl

end HLModule

/-! ## C56 -/

/-- **C56** Without hot reload, `init` on a new module completes exactly if every global is of kind `HVOID` or `HUI8`; it panics otherwise. -/
theorem c56_init_returns_iff (c : Code) : Returns ((HLModule.new c).init false) ↔ SimpleGlobals c :=
  HLModule.initGlobals_returns (HLModule.new c) rfl rfl

/-- **C56** With hot reload the hash of the module must be computable as well (C51). -/
theorem c56_init_hot_returns_iff (c : Code) : Returns ((HLModule.new c).init true) ↔ Returns (CodeHash.alloc c) ∧ SimpleGlobals c := by
  unfold HLModule.init
  simp only [if_true]
  rw [returns_bind]
  constructor
  · rintro ⟨h, e, r⟩
    exact ⟨⟨h, e⟩, (HLModule.initGlobals_returns { HLModule.new c with codeHash := some h } rfl rfl).1 r⟩
  · rintro ⟨⟨h, e⟩, r⟩
    exact ⟨h, e, (HLModule.initGlobals_returns { HLModule.new c with codeHash := some h } rfl rfl).2 r⟩

/-- **C56** What `init` declares: one writable data object per global of kind `HUI8`, in order, called `$global` and its position,
and one global value that loads from it at the offset equal to its position.  Nothing else is changed, except that
with hot reload the hash is kept. -/
theorem c56_init_result (c : Code) (hot : Bool) (m : HLModule) (e : (HLModule.new c).init hot = .ret m) :
    m.data = (byteGlobals c c.nglobals).map (fun i => (globalName i, true)) ∧
    m.values = (byteGlobals c c.nglobals).zipIdx.map (fun x => ⟨x.2, wrapped x.1⟩) ∧
    m.code = c ∧ m.codesize = 0 ∧ m.functionsPtrs = List.replicate (c.nfunctions + c.nnatives) 0 ∧
    m.functionsIndexes = List.replicate (c.nfunctions + c.nnatives) 0 ∧
    (hot = false → m.codeHash = none) ∧ (hot = true → ∃ h, CodeHash.alloc c = .ret h ∧ m.codeHash = some h) := by
  cases hot with
  | false =>
    have := HLModule.initGlobals_result (HLModule.new c) m rfl rfl e
    subst this
    simp only [← wrapped_eq]
    exact ⟨rfl, rfl, rfl, rfl, rfl, rfl, fun _ => rfl, fun h => by cases h⟩
  | true =>
    unfold HLModule.init at e
    simp only [if_true] at e
    have hc : (HLModule.new c).code = c := rfl
    rw [hc] at e
    cases h : CodeHash.alloc c with
    | panic => rw [h] at e; cases e
    | ret x =>
      rw [h] at e
      simp only [Rust.bind_ret] at e
      have := HLModule.initGlobals_result _ m rfl rfl e
      subst this
      simp only [← wrapped_eq]
      exact ⟨rfl, rfl, rfl, rfl, rfl, rfl, fun h => (by cases h), fun _ => ⟨x, rfl, rfl⟩⟩

/-- **C56** The names are distinct, so no two globals share a data object. -/
theorem c56_names_distinct (c : Code) (hot : Bool) (m : HLModule) (e : (HLModule.new c).init hot = .ret m) : (m.data.map Prod.fst).Nodup := by
  rw [(c56_init_result c hot m e).1, List.map_map]
  refine List.Pairwise.map _ (R := fun a b => a ≠ b) (fun a b h => fun e => h (globalName_inj e)) ?_
  exact List.Pairwise.filter _ List.nodup_range

/-- C56: a decoded module on which both forms of `init` succeed and declare two data objects, and one on which `init` panics. -/
example : (∃ c s m m', Code.read .release none exFile = .ok c s ∧ (HLModule.new c).init false = .ret m ∧ (HLModule.new c).init true = .ret m' ∧
    m.data = [("$global0", true), ("$global1", true)]) := by
  obtain ⟨c, s, ch, h1, h2, ht, hg, nt, ng, _⟩ := exFile_read
  have hs : SimpleGlobals c := by
    intro i hi
    rw [ng] at hi
    rw [hg]
    match i, hi with
    | 0, _ => exact ⟨_, rfl, Or.inr rfl⟩
    | 1, _ => exact ⟨_, rfl, Or.inr rfl⟩
  obtain ⟨m, hm⟩ := (c56_init_returns_iff c).2 hs
  obtain ⟨m', hm'⟩ := (c56_init_hot_returns_iff c).2 ⟨⟨ch, h2⟩, hs⟩
  refine ⟨c, s, m, m', h1, hm, hm', ?_⟩
  rw [(c56_init_result c false m hm).1, ng]
  unfold byteGlobals
  rw [hg]
  rfl

example : ∃ c s, Code.read .release none [0x48, 0x4C, 0x42, 4, 0, 0, 0, 0, 1, 1, 0, 0, 0, 0, 0, 0, 0, 0, 3, 0] = .ok c s ∧ (HLModule.new c).init false = .panic := by
  have h : checkOk (Code.read .release none [0x48, 0x4C, 0x42, 4, 0, 0, 0, 0, 1, 1, 0, 0, 0, 0, 0, 0, 0, 0, 3, 0])
    (fun c => !Rust.returns ((HLModule.new c).init false)) = true := by decide +kernel
  obtain ⟨c, s, h1, h2⟩ := checkOk_iff h
  refine ⟨c, s, h1, ?_⟩
  cases e : (HLModule.new c).init false with
  | panic => rfl
  | ret m => rw [e] at h2; cases h2

end Verif.Brass
