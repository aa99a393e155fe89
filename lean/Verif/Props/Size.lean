import Verif.Brass.SizeLemmas
import Verif.Props.Lookup
import Verif.Props.Threads

/-!
# How big a decoded module can be (C84, C85)
-/

namespace Verif.Brass

open Verif Verif.Brass.Spec

/-! ## C84: types -/

theorem sum_le {α : Type} (f : α → Nat) (M : Nat) : ∀ l : List α, (∀ a ∈ l, f a ≤ M) → (l.map f).sum ≤ l.length * M
  | [], _ => by simp
  | a :: l, h => by
    have h1 := sum_le f M l fun x hx => h x (List.mem_cons_of_mem _ hx)
    have h2 := h a List.mem_cons_self
    simp only [List.map_cons, List.sum_cons, List.length_cons, Nat.succ_mul]
    omega

theorem succ_le_two_pow : ∀ r : Nat, r + 1 ≤ 2 ^ r
  | 0 => by simp
  | r + 1 => by have := succ_le_two_pow r; rw [Nat.pow_succ]; omega

theorem nodes_default : nodes noType = 1 := rfl

/-- A type whose references have at most `M` nodes. -/
theorem nodes_le {t : ValueType} {M : Nat} (hM : 1 ≤ M) (h : ∀ r ∈ t.refs, nodes r ≤ M) : nodes t ≤ M * 2 ^ t.refs.length := by
  rw [nodes_eq]
  have h1 := sum_le nodes M t.refs h
  have h2 := Nat.mul_le_mul_right M (succ_le_two_pow t.refs.length)
  rw [Nat.mul_comm M]
  rw [Nat.succ_mul] at h2
  omega

/-- The loop over the types multiplies the size of the types at most by two for each byte. -/
theorem types_nodes (N : Nat) : ∀ (n a : Nat) (b c : Code) (k : List UInt8) (b' c' : Code) (T : List ValueType) (M : Nat),
    b.types = T ++ List.replicate N noType → T.length = a → 1 ≤ M → (∀ t ∈ T, nodes t ≤ M) → G.loop typesStepG a n b c k b' c' →
    ∀ t ∈ b'.types, nodes t ≤ M * 2 ^ k.length
  | 0, a, b, c, k, b', c', T, M, hb, hl, hM, hT, ⟨h1, h2, h3⟩ => by
    subst h2 h1
    rw [hb]
    intro t ht
    rcases List.mem_append.1 ht with h | h
    · simpa using hT t h
    · rw [List.eq_of_mem_replicate h, nodes_default]; simpa using hM
  | n + 1, a, b, c, k, b', c', T, M, hb, hl, hM, hT, ⟨ka, kb, b1, c1, hk, h1, h2⟩ => by
    obtain ⟨_, _, _, _, rfl, ⟨rfl, rfl⟩, kt, _, t, _, rfl, h, _, _, _, _, rfl, ⟨rfl, rfl, rfl⟩, _, _, _, _, rfl, ⟨rfl, _, rfl⟩, _, _, _, _, rfl, ⟨rfl, rfl⟩, rfl, rfl, rfl⟩ := h1
    rename_i b _ _ _ _
    have hr := (InT.typ (N := b.ntypes) (T := b.types) _ _ _ _ ⟨rfl, rfl⟩ h).2
    have hc : t.refs.length + 1 ≤ 1 * kt.length := Costs.typ _ _ _ _ h
    obtain ⟨u, rfl⟩ := KeepsButCache.typeG _ _ _ _ h
    have hb1 : ({ b with ustrings := u, types := b.types.insertIdx a t } : Code).types = T ++ [t] ++ List.replicate N noType := by
      simp only [hb, ← hl, insertIdx_append_length]
    have ht : nodes t ≤ M * 2 ^ kt.length := by
      refine Nat.le_trans (nodes_le hM ?_) (Nat.mul_le_mul_left M (Nat.pow_le_pow_right (by omega) (by omega)))
      intro r hr'
      rcases hr r hr' with h3 | rfl
      · rw [hb] at h3
        rcases List.mem_append.1 h3 with h3 | h3
        · exact hT r h3
        · rw [List.eq_of_mem_replicate h3, nodes_default]; exact hM
      · rw [nodes_default]; exact hM
    have hp : 1 ≤ 2 ^ kt.length := Nat.one_le_two_pow
    have hM' : M ≤ M * 2 ^ kt.length := Nat.le_mul_of_pos_right M hp
    have := types_nodes N n (a + 1) _ _ kb b' c' (T ++ [t]) (M * 2 ^ kt.length) hb1 (by simp [hl]) (by omega) (by
      intro x hx
      rcases List.mem_append.1 hx with hx | hx
      · exact Nat.le_trans (hT x hx) hM'
      · rw [List.mem_singleton.1 hx]; exact ht) h2
    intro x hx
    refine Nat.le_trans (this x hx) ?_
    rw [hk]
    simp [Nat.pow_add, Nat.mul_assoc]

/-- **C84** No type of an accepted file has more than `2 ^ n` nodes, where `n` is the size of the file. -/
theorem c84_at_most_exponential (p : Profile) (e : Option DecodeError) (buf : List UInt8) (c : Code) (s : St) (h : Code.read p e buf = .ok c s) :
    ∀ t ∈ c.types, nodes t ≤ 2 ^ buf.length := by
  obtain ⟨_, k, rest, hk, h1, _⟩ := (c38_accepts_exactly_the_grammar p e buf c s).1 h
  obtain ⟨_, ⟨S⟩⟩ := sections h1
  by_cases hb : S.h.Bare
  · rw [S.code.2 hb]; intro t ht; cases ht
  have ec := S.code.1 hb
  obtain ⟨_, e5⟩ := S.val5
  obtain ⟨_, e6⟩ := S.val6
  obtain ⟨_, e7⟩ := S.val7
  obtain ⟨_, e8⟩ := S.val8
  have t8 : c.types = S.c4.types := by
    rw [congrArg Code.types ec, congrArg Code.types e8, congrArg Code.types e7, congrArg Code.types e6, congrArg Code.types e5]
  have h1 := types_nodes S.c3.ntypes _ 0 _ _ _ _ _ [] 1 (by simp) rfl (by omega) (by simp) S.types
  intro t ht
  rw [t8] at ht
  refine Nat.le_trans (h1 t ht) ?_
  rw [Nat.one_mul]
  refine Nat.pow_le_pow_right (by omega) ?_
  have h2 := congrArg List.length S.hk
  have h3 := congrArg List.length hk
  simp only [List.length_append] at h2 h3
  omega

/-- **C84** A type of an accepted file is nested at most one deeper than the number of types declared. -/
theorem c84_nesting (p : Profile) (e : Option DecodeError) (buf : List UInt8) (c : Code) (s : St) (h : Code.read p e buf = .ok c s)
    (l : List ValueType) (hl : IsNest l) (h0 : ∀ t, l.head? = some t → t ∈ c.types) : l.length ≤ c.ntypes + 1 := by
  have hd : ∀ l, IsNest (noType :: l) → l = []
    | [], _ => rfl
    | _ :: _, h => by cases h.1
  have key : ∀ (l : List ValueType) (i : Nat) (t : ValueType), i < c.ntypes → c.types[i]? = some t → IsNest (t :: l) → l.length ≤ i + 1 := by
    intro l
    induction l with
    | nil => intro i t _ _ _; simp
    | cons r l ih =>
      intro i t hi ht hn
      rcases c36_types_refer_back p e buf c s h i hi t ht r hn.1 with rfl | ⟨j, hj, hj'⟩
      · rw [hd l hn.2]; simp
      · have := ih j r (by omega) hj' hn.2
        simp only [List.length_cons]; omega
  obtain ⟨_, _, _, ⟨T, h1, h2⟩, _⟩ := c37_table_lengths p e buf c s h
  cases l with
  | nil => simp
  | cons t l =>
    have ht := h0 t rfl
    obtain ⟨i, hi⟩ := List.getElem?_of_mem ht
    by_cases hn : i < c.ntypes
    · have := key l i t hn hi hl
      simp only [List.length_cons]; omega
    · rw [h2, List.getElem?_append_right (by omega)] at hi
      have := List.eq_of_mem_replicate (List.mem_of_getElem? hi)
      subst this
      rw [hd l hl]; simp

/-- `n` function types, each of which has the type before it as its argument and its result. -/
def bomb (n : Nat) : RModule where
  version := 2
  hasDebug := false
  entrypoint := 0
  ints := []
  floats := []
  strings := []
  bytes := []
  bytesPos := []
  debugFiles := []
  types := (List.range n).map fun i => .func false [i - 1] (i - 1)
  globals := []
  natives := []
  functions := []
  constants := []

theorem bomb_good (n : Nat) (hn : n < 0x2000) : (bomb n).Good where
  version := by simp [bomb]
  bytes := by simp [bomb]
  noConstants := by simp [bomb]
  noDebug := by simp [bomb]
  entrypoint := by simp [bomb]
  nints := by simp [bomb]
  ints := by simp [bomb]
  nfloats := by simp [bomb]
  floats := by simp [bomb]
  nstrings := by simp [bomb]
  strings := by simp [bomb]
  nbytes := by simp [bomb]
  bytesPos := by simp [bomb]
  ndebugFiles := by simp [bomb]
  debugFiles := by simp [bomb]
  ntypes := by simpa [bomb] using hn
  types := by
    intro t ht
    simp only [bomb, List.mem_map, List.mem_range] at ht
    obtain ⟨i, hi, rfl⟩ := ht
    refine ⟨by simp [RType.Small], ?_, by simp [RType.names]⟩
    intro j hj
    simp [RType.refs] at hj
    simp [bomb]
    omega
  order := by
    have : ∀ l : List Nat, (l.map fun i => RType.func false [i - 1] (i - 1)).flatMap RType.names = [] := by
      intro l
      induction l with
      | nil => rfl
      | cons a l ih => simp [RType.names]
    rw [bomb, this]
    trivial
  nglobals := by simp [bomb]
  globals := by simp [bomb]
  nnatives := by simp [bomb]
  natives := by simp [bomb]
  nfunctions := by simp [bomb]
  functions := by simp [bomb]
  nconstants := by simp [bomb]
  constants := by simp [bomb]

theorem ix_length (n : Nat) (hn : n < 0x2000) : (ix n).length ≤ 2 := by
  unfold ix hlIndex
  rw [if_neg (by omega)]
  simp only [Int.natAbs_natCast]
  split
  · simp
  · simp

theorem bomb_length (n : Nat) (hn : n < 0x2000) : (bomb n).encode.length ≤ 6 * n + 20 := by
  have h1 : ∀ l : List Nat, (∀ i ∈ l, i < 0x2000) → ((l.map fun i => RType.func false [i - 1] (i - 1)).flatMap RType.encode).length ≤ 6 * l.length := by
    intro l hl
    induction l with
    | nil => simp
    | cons a l ih =>
      have := ih fun i hi => hl i (List.mem_cons_of_mem _ hi)
      have := ix_length (a - 1) (by have := hl a List.mem_cons_self; omega)
      simp only [List.map_cons, List.flatMap_cons, List.length_append, RType.encode, RType.encodeBody, List.length_cons, List.flatMap_nil,
        List.length_nil]
      omega
  have h2 := h1 (List.range n) (by simp; omega)
  have h3 := ix_length n hn
  have h4 : (ix 0).length = 1 := by decide
  have h5 : (hlStrings []).length = 4 := by decide
  simp only [List.length_range] at h2
  simp only [bomb, RModule.encode, RModule.counts, List.length_append, List.length_map, List.length_range, List.length_cons, List.length_nil, h4, h5,
    List.flatMap_nil, Nat.reduceLeDiff, if_false, Bool.false_eq_true]
  omega

/-- The types of `bomb n`. -/
theorem bomb_types (p : Profile) (n : Nat) (h0 : 0 < n) (hn : n < 0x2000) : ∃ c s, Code.read p none (bomb n).encode = .ok c s ∧ c.ntypes = n ∧
    ∀ i, i < n → ∃ t, c.types[i]? = some t ∧ nodes t = 2 ^ (i + 2) - 1 ∧ ∃ l, IsNest (t :: l) ∧ l.length = i + 1 := by
  have hb : (bomb n).NotBare := by
    refine Or.inr (Or.inl ?_)
    simp only [bomb, ne_eq, List.map_eq_nil_iff, List.range_eq_nil]
    omega
  obtain ⟨c, s, h1, h2, _⟩ := c36_module_references (bomb n) (bomb_good n hn).toReadable hb p []
  obtain ⟨u, h3⟩ := c43_file_roundtrip (bomb n) (bomb_good n hn) hb p []
  rw [List.append_nil] at h1 h3
  refine ⟨c, s, h1, ?_, ?_⟩
  · have h4 : c = _ := (Out.ok.inj (h1.symm.trans h3)).1
    rw [h4]
    show (bomb n).types.length = n
    simp [bomb]
  · intro i
    induction i with
    | zero =>
      intro hi
      obtain ⟨v, h4, h5⟩ := h2 0 (.func false [0] 0) (by simp [bomb, h0])
      simp [RType.refs] at h5
      refine ⟨v, h4, ?_, [noType], ⟨by simp [h5], trivial⟩, rfl⟩
      rw [nodes_eq, h5]
      simp [nodes_default]
    | succ i ih =>
      intro hi
      obtain ⟨r, h6, h7, l, h8, h9⟩ := ih (by omega)
      obtain ⟨v, h4, h5⟩ := h2 (i + 1) (.func false [i] i) (by simp [bomb, hi])
      simp [RType.refs, h6] at h5
      refine ⟨v, h4, ?_, r :: l, ⟨by simp [h5], h8⟩, by simp [h9]⟩
      rw [nodes_eq, h5]
      have : 1 ≤ 2 ^ (i + 2) := Nat.one_le_two_pow
      simp [h7, Nat.pow_succ] at *
      omega

/-- **C84** Both bounds are reached, up to constants: for every `n` below 8192 there is a file of at most `6 n + 20` bytes
with `n` types, which is accepted, whose last type has `2 ^ (n + 1) - 1` nodes and is nested `n + 1` deep. -/
theorem c84_exponential (p : Profile) (n : Nat) (h0 : 0 < n) (hn : n < 0x2000) : ∃ buf c, buf.length ≤ 6 * n + 20 ∧ Accepts p buf c ∧
    c.ntypes = n ∧ ∃ t, t ∈ c.types ∧ nodes t = 2 ^ (n + 1) - 1 ∧ ∃ l, IsNest (t :: l) ∧ (t :: l).length = n + 1 := by
  obtain ⟨c, s, h1, h2, h3⟩ := bomb_types p n h0 hn
  obtain ⟨t, h4, h5, l, h6, h7⟩ := h3 (n - 1) (by omega)
  refine ⟨_, c, bomb_length n hn, ⟨s, h1⟩, h2, t, List.mem_of_getElem? h4, ?_, l, h6, ?_⟩
  · have : n - 1 + 2 = n + 1 := by omega
    rw [h5, this]
  · simp only [List.length_cons, h7]; omega

/-! ## C85: the other tables -/

/-- A loop whose steps add to a measure at most `m` per byte. -/
theorem loop_measure {β : Type} (m : Nat) (f : β → Nat) {g : Nat → β → G β} (hg : ∀ i b c k b' c', g i b c k b' c' → f b' ≤ f b + m * k.length) :
    ∀ (n a : Nat) (b : β) (c : Code) (k : List UInt8) (b' : β) (c' : Code), G.loop g a n b c k b' c' → f b' ≤ f b + m * k.length
  | 0, _, b, c, k, b', c', ⟨h1, h2, _⟩ => by subst h1 h2; simp
  | n + 1, a, b, c, k, b', c', ⟨k1, k2, b1, c1, hk, h1, h2⟩ => by
    have e1 := hg _ _ _ _ _ _ h1
    have e2 := loop_measure m f hg n _ _ _ _ _ _ h2
    subst hk
    simp only [List.length_append, Nat.mul_add]
    omega

/-- `n` steps that each take a byte. -/
theorem loop_steps {β : Type} {g : Nat → β → G β} (hg : ∀ i b c k b' c', g i b c k b' c' → 1 ≤ k.length) :
    ∀ (n a : Nat) (b : β) (c : Code) (k : List UInt8) (b' : β) (c' : Code), G.loop g a n b c k b' c' → n ≤ k.length
  | 0, _, _, _, _, _, _, _ => Nat.zero_le _
  | n + 1, a, b, c, k, b', c', ⟨k1, k2, b1, c1, hk, h1, h2⟩ => by
    have e1 := hg _ _ _ _ _ _ h1
    have e2 := loop_steps hg n _ _ _ _ _ _ h2
    subst hk
    simp only [List.length_append]
    omega

theorem typesStep_size {i b c k b' c'} (h : typesStepG i b c k b' c') : 1 ≤ k.length ∧ entries b' = entries b + 1 := by
  obtain ⟨_, _, _, _, rfl, ⟨rfl, rfl⟩, kt, _, t, _, rfl, h, _, _, _, _, rfl, ⟨rfl, rfl, rfl⟩, _, _, _, _, rfl, ⟨rfl, hi, rfl⟩, _, _, _, _, rfl, ⟨rfl, rfl⟩, rfl, rfl, rfl⟩ := h
  have hc : t.refs.length + 1 ≤ 1 * kt.length := Costs.typ _ _ _ _ h
  obtain ⟨u, rfl⟩ := KeepsButCache.typeG _ _ _ _ h
  refine ⟨by simp; omega, ?_⟩
  simp only [entries, List.length_insertIdx, if_pos hi]
  omega

theorem globalsStep_size {i b c k b' c'} (h : globalsStepG i b c k b' c') : 1 ≤ k.length ∧ entries b' = entries b + 1 := by
  obtain ⟨_, _, _, _, rfl, ⟨rfl, rfl⟩, kt, _, t, _, rfl, h, _, _, _, _, rfl, ⟨rfl, hi, rfl⟩, _, _, _, _, rfl, ⟨rfl, rfl⟩, rfl, rfl, rfl⟩ := h
  have hc : 1 ≤ 1 * kt.length := Costs.typeRef _ _ _ _ h
  refine ⟨by simp; omega, ?_⟩
  simp only [entries, List.length_insertIdx, if_pos hi]
  omega

theorem nativesStep_size {i b c k b' c'} (h : nativesStepG i b c k b' c') : entries b' ≤ entries b + 2 * k.length := by
  obtain ⟨kt, _, t, _, rfl, h, _, _, _, _, rfl, ⟨rfl, rfl⟩, rfl, rfl, rfl⟩ := h
  have hc : 2 ≤ 2 * kt.length :=
    (Costs.bind Costs.stringRef fun _ => (Costs.zero _).mono fun _ => by simp : Costs 2 nativeG (fun _ => 2)) _ _ _ _ h
  simp only [entries, List.length_append, List.length_cons, List.length_nil]
  omega

theorem functionsStep_size {p i b c k b' c'} (h : functionsStepG p i b c k b' c') : entries b' ≤ entries b + 2 * k.length := by
  obtain ⟨_, _, _, _, rfl, ⟨rfl, rfl⟩, kt, _, t, _, rfl, h, _, _, _, _, rfl, ⟨rfl, rfl⟩, rfl, rfl, rfl⟩ := h
  have hc : 1 + functionEntries t ≤ 2 * kt.length := Costs.functionWithDebug _ _ _ _ _ _ h
  simp only [entries, List.length_append, List.length_cons, List.length_nil, List.map_append, List.map_cons, List.map_nil, List.sum_append,
    List.sum_cons, List.sum_nil]
  omega

theorem sum_insertIdx {α : Type} (f : α → Nat) (a : α) : ∀ (i : Nat) (l : List α), i ≤ l.length → ((l.insertIdx i a).map f).sum = f a + (l.map f).sum
  | 0, l, _ => by simp
  | i + 1, [], h => by simp at h
  | i + 1, b :: l, h => by
    have := sum_insertIdx f a i l (by simpa using h)
    simp only [List.insertIdx_succ_cons, List.map_cons, List.sum_cons]
    omega

theorem constantsStep_size {i b c k b' c'} (h : constantsStepG i b c k b' c') : entries b' ≤ entries b + 2 * k.length := by
  obtain ⟨kt, _, t, _, rfl, h, _, _, _, _, rfl, ⟨rfl, hi, rfl⟩, _, _, _, _, rfl, ⟨rfl, rfl⟩, rfl, rfl, rfl⟩ := h
  have hc : 1 + t.fields.length ≤ 2 * kt.length := Costs.constant _ _ _ _ h
  simp only [entries, List.length_insertIdx, if_pos hi, sum_insertIdx _ _ _ _ hi, List.length_append]
  omega

theorem pools_size {b c k b' c'} (h0 : entries b = 0) (h : poolsG b c k b' c') : entries b' ≤ 2 * k.length := by
  obtain ⟨k1, _, l1, _, rfl, h1, k2, _, l2, _, rfl, h2, k3, _, l3, _, rfl, h3, rfl, rfl, rfl⟩ := h
  have e1 : 2 * l1.length ≤ 2 * k1.length := Costs.manyN Costs.i32 _ _ _ _ _ h1
  have e2 : 2 * l2.length ≤ 2 * k2.length := Costs.manyN Costs.f64 _ _ _ _ _ h2
  have e3 : l3.length ≤ 2 * k3.length := Costs.strings _ _ _ _ _ h3
  simp only [entries, List.length_append, List.length_nil] at *
  omega

theorem bytes_size {b c k b' c'} (h : bytesSectionG b c k b' c') : entries b' ≤ entries b + 2 * k.length := by
  unfold bytesSectionG at h
  split at h
  · obtain ⟨k1, _, l1, _, rfl, h1, k2, _, _, _, rfl, h2, k3, _, l3, _, rfl, h3, k4, _, l4, _, rfl, h4, rfl, rfl, rfl⟩ := h
    have e3 : 2 * l3.length ≤ 2 * k3.length := Costs.bytes _ _ _ _ _ h3
    have e4 : 2 * l4.length ≤ 2 * k4.length := Costs.manyN Costs.nat _ _ _ _ _ h4
    simp only [entries, List.length_append, List.length_nil] at *
    omega
  · obtain ⟨rfl, rfl, rfl⟩ := h
    simp [entries]

theorem debugFiles_size {b c k b' c'} (h : debugFilesG b c k b' c') : entries b' ≤ entries b + 2 * k.length := by
  unfold debugFilesG at h
  split at h
  · obtain ⟨k1, _, l1, _, rfl, h1, k2, _, l2, _, rfl, h2, _, _, _, _, rfl, ⟨rfl, rfl⟩, rfl, rfl, rfl⟩ := h
    have e2 : l2.length ≤ 2 * k2.length := Costs.strings _ _ _ _ _ h2
    simp only [entries, List.length_append, List.length_nil] at *
    omega
  · obtain ⟨rfl, rfl, rfl⟩ := h
    simp

theorem types_size {b c k b' c'} (h : typesG b c k b' c') : entries b' ≤ entries b + 2 * k.length := by
  have e1 := loop_steps (fun i b c k b' c' h => (typesStep_size h).1) _ _ _ _ _ _ _ h
  have e2 := loop_measure 1 entries (fun i b c k b' c' h => by have := typesStep_size h; omega) _ _ _ _ _ _ _ h
  simp only [entries, List.length_replicate] at *
  omega

theorem globals_size {b c k b' c'} (h : globalsG b c k b' c') : entries b' ≤ entries b + 2 * k.length := by
  have e1 := loop_steps (fun i b c k b' c' h => (globalsStep_size h).1) _ _ _ _ _ _ _ h
  have e2 := loop_measure 1 entries (fun i b c k b' c' h => by have := globalsStep_size h; omega) _ _ _ _ _ _ _ h
  simp only [entries, List.length_replicate] at *
  omega

theorem natives_size {b c k b' c'} (h : nativesG b c k b' c') : entries b' ≤ entries b + 2 * k.length := by
  have e2 := loop_measure 2 entries (fun i b c k b' c' h => nativesStep_size h) _ _ _ _ _ _ _ h
  simp only [entries, List.length_nil] at *
  omega

/-- **C85** The tables of an accepted file, other than the cache of strings, have together at most twice as many entries as
the file has bytes. -/
theorem c85_linear (p : Profile) (e : Option DecodeError) (buf : List UInt8) (c : Code) (s : St) (h : Code.read p e buf = .ok c s) :
    entries c ≤ 2 * buf.length := by
  obtain ⟨_, k, rest, hk, h1, _⟩ := (c38_accepts_exactly_the_grammar p e buf c s).1 h
  obtain ⟨_, ⟨S⟩⟩ := sections h1
  by_cases hb : S.h.Bare
  · rw [S.code.2 hb]; exact Nat.zero_le _
  rw [S.code.1 hb]
  have e1 := pools_size rfl S.pools
  have e2 := bytes_size S.bytes
  have e3 := debugFiles_size S.debugFiles
  have e4 := types_size S.types
  have e5 := globals_size S.globals
  have e6 := natives_size S.natives
  have e7 := loop_measure 2 entries (fun i b c k b' c' h => functionsStep_size h) _ _ _ _ _ _ _ S.functions
  have e8 := loop_measure 2 entries (fun i b c k b' c' h => constantsStep_size h) _ _ _ _ _ _ _ S.constants
  have h2 := congrArg List.length S.hk
  have h3 := congrArg List.length hk
  simp only [List.length_append] at h2 h3
  omega

/-- **C85** The cache of strings is not bounded by the file: every number of strings that an index can express is accepted,
in a file of 18 bytes besides this index, and gets a slot for each string. -/
theorem c85_string_slots (p : Profile) (n : Nat) (h0 : 0 < n) (k : List UInt8) (hk : IdxBytes k n) :
    (emptyStrings k).length = 18 + k.length ∧ ∃ c, Accepts p (emptyStrings k) c ∧ c.strings = [[]] ∧ c.ustrings.length = n := by
  refine ⟨by simp [emptyStrings]; omega, ?_⟩
  obtain ⟨n, rfl⟩ : ∃ m, n = m + 1 := ⟨n - 1, by omega⟩
  have zero : ∀ c : Code, natG c [0] 0 c := fun c => ⟨rfl, IdxBytes.short 0 (by decide)⟩
  have one : ∀ c : Code, natG c [1] 1 c := fun c => ⟨rfl, IdxBytes.short 1 (by decide)⟩
  let c0 : Code := { Code.new with version := 2, nstrings := n + 1, ntypes := 1 }
  let c1 : Code := { c0 with strings := [[]], stringsLens := [0] }
  let c2 : Code := { c1 with ustrings := List.replicate (n + 1) none }
  let c3 : Code := { c2 with types := [{ noType with kind := .HVOID }, noType] }
  have hcounts : countsG 2 Code.new ([0, 0, 0] ++ k ++ [1, 0, 0, 0, 0]) c0 Code.new := by
    refine ⟨[0], _, 0, _, ?_, zero _, [0], _, 0, _, rfl, zero _, [0], _, 0, _, rfl, zero _, k, _, n + 1, _, rfl, ⟨rfl, hk⟩, [], _, 0, _, rfl,
      ⟨rfl, rfl, rfl⟩, [1], _, 1, _, rfl, one _, [0], _, 0, _, rfl, zero _, [0], _, 0, _, rfl, zero _, [0], _, 0, _, rfl, zero _,
      [], _, 0, _, rfl, ⟨rfl, rfl, rfl⟩, [0], [], 0, _, rfl, zero _, rfl, rfl, rfl⟩
    simp
  have hpools : poolsG c0 Code.new [0, 0, 0, 0, 0] c1 Code.new := by
    refine ⟨[], _, [], _, rfl, ⟨rfl, rfl, rfl⟩, [], _, [], _, rfl, ⟨rfl, rfl, rfl⟩, [0, 0, 0, 0, 0], [], [[]], _, rfl, ?_, rfl, rfl, rfl⟩
    refine ⟨[0, 0, 0, 0], [0], 0, _, rfl, ⟨rfl, rfl, rfl⟩, [], _, (), _, rfl, ⟨rfl, by decide, rfl⟩, [], _, [], _, rfl, ⟨rfl, rfl, rfl⟩,
      [], _, [], _, rfl, ⟨rfl, rfl, [], .done, rfl⟩, ?_⟩
    refine ⟨[0], [], 0, _, rfl, zero _, [], [], [], Code.new, rfl, ?_, ?_⟩
    · exact ⟨[], [], (), _, rfl, ⟨rfl, ⟨.inl rfl, .inl rfl⟩, rfl⟩, rfl, rfl, rfl⟩
    · exact ⟨rfl, rfl, rfl⟩
  have htypes : typesG c2 Code.new [0] c3 c3 := by
    refine ⟨[0], [], c3, c3, rfl, ?_, rfl, rfl, rfl⟩
    refine ⟨[], [0], (), _, rfl, ⟨rfl, rfl⟩, [0], [], { noType with kind := .HVOID }, { c2 with types := [noType] }, rfl, ?_, ?_⟩
    · exact ⟨[0], [], 0, _, rfl, ⟨rfl, 0, rfl, rfl⟩, [], [], (), _, rfl, ⟨rfl, by decide, rfl⟩, [], [], .HVOID, _, rfl, ⟨rfl, rfl, rfl⟩, rfl, rfl, rfl⟩
    · exact ⟨[], [], _, _, rfl, ⟨rfl, rfl, rfl⟩, [], [], (), _, rfl, ⟨rfl, by simp, rfl⟩, [], [], (), _, rfl, ⟨rfl, rfl⟩, rfl, rfl, rfl⟩
  have hf : fileG p Code.new (emptyStrings k) c3 c3 := by
    refine ⟨[0x48, 0x4C, 0x42], _, (), _, ?_, ⟨rfl, rfl⟩, [2], _, 2, _, rfl, ⟨[2], [], 2, _, rfl, ⟨rfl, 2, rfl, rfl⟩, [], [], (), _, rfl, ⟨rfl, by decide, rfl⟩, rfl, rfl, rfl⟩,
      _, _, _, _, rfl, hcounts, _, _, _, _, rfl, hpools, [], _, c2, _, rfl, ⟨rfl, rfl, rfl⟩, [], _, c2, _, rfl, ⟨rfl, rfl, rfl⟩,
      [0], _, c3, _, rfl, htypes, [], _, c3, _, rfl, ⟨rfl, rfl, rfl⟩, [], _, c3, _, rfl, ⟨rfl, rfl, rfl⟩, [], _, c3, _, rfl, ⟨rfl, rfl, rfl⟩,
      [], [], c3, _, rfl, ⟨rfl, rfl, rfl⟩, rfl, rfl, rfl⟩
    simp [emptyStrings]
  refine ⟨c3, ⟨⟨[], (emptyStrings k).length, c3, none⟩, ?_⟩, rfl, by simp [c3, c2]⟩
  exact (c38_accepts_exactly_the_grammar p none _ c3 _).2 ⟨rfl, emptyStrings k, [], by simp, hf, rfl⟩

/-- **C85** 22 bytes are enough for `2^31 - 1` slots. -/
theorem c85_string_slots_max (p : Profile) : ∃ buf c, buf.length = 22 ∧ Accepts p buf c ∧ c.ustrings.length = 2 ^ 31 - 1 := by
  obtain ⟨h1, c, h2, _, h3⟩ := c85_string_slots p (2 ^ 31 - 1) (by decide) [0xFF, 0xFF, 0xFF, 0x7F] (IdxBytes.long _ _ _ _ (by decide))
  exact ⟨_, c, h1, h2, h3⟩

end Verif.Brass
