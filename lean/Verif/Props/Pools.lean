import Verif.Spec.Pools
import Verif.Props.Renumber

/-!
# C111: the numbers of strings and integers do not matter
-/

namespace Verif.Brass

open Verif Verif.Brass.Spec

variable {π : Pools}

/-! ## Decoding -/

section Decode

variable {S S' : List Text}

theorem sref_repool (hS : ∀ (i : Nat) s, S[i]? = some s → S'[π.str i]? = some s) {j : Nat} (hj : j < S.length) : sref S' (π.str j) = sref S j := by
  unfold sref
  rw [hS j _ (List.getElem?_eq_getElem hj), List.getElem?_eq_getElem hj]

theorem decoded_repool (hS : ∀ (i : Nat) s, S[i]? = some s → S'[π.str i]? = some s) {prev : List ValueType} {t : RType} (hn : ∀ j ∈ t.names, j < S.length) :
    (t.repool π).decoded S' prev = t.decoded S prev := by
  have hf : ∀ fields : List RField, (∀ f ∈ fields, f.name < S.length) →
      fields.map (fun f => RField.decoded S' prev (f.repool π)) = fields.map (RField.decoded S prev) := by
    intro fields h1
    refine List.map_congr_left fun f hf => ?_
    simp only [RField.decoded, RField.repool, sref_repool hS (h1 f hf)]
  cases t with
  | obj s name super global fields protos bindings =>
    simp only [RType.names, List.mem_cons, List.mem_append, List.mem_map] at hn
    simp only [RType.repool, RType.decoded, RType.kind, List.map_map, List.length_map, Function.comp_def]
    have e2 : protos.map (fun f => RProto.decoded S' (f.repool π)) = protos.map (RProto.decoded S) := List.map_congr_left fun f hf => by
      simp only [RProto.decoded, RProto.repool, sref_repool hS (hn f.name (.inr (.inr ⟨f, hf, rfl⟩)))]
    rw [e2, sref_repool hS (hn name (.inl rfl)), hf fields (fun f h => hn f.name (.inr (.inl ⟨f, h, rfl⟩)))]
  | virt fields =>
    simp only [RType.names, List.mem_map] at hn
    simp only [RType.repool, RType.decoded, RType.kind, List.map_map, List.length_map, Function.comp_def]
    rw [hf fields (fun f h => hn f.name ⟨f, h, rfl⟩)]
  | abstract name => simp only [RType.repool, RType.decoded, RType.kind, sref_repool hS (hn name (List.mem_singleton.2 rfl))]
  | enum name global constructs =>
    simp only [RType.names, List.mem_cons, List.mem_map] at hn
    simp only [RType.repool, RType.decoded, RType.kind, List.map_map, List.length_map]
    have e1 : constructs.map (RConstruct.decoded S' prev ∘ RConstruct.repool π) = constructs.map (RConstruct.decoded S prev) :=
      List.map_congr_left fun k hk => by
        simp only [Function.comp, RConstruct.decoded, RConstruct.repool, sref_repool hS (hn k.name (.inr ⟨k, hk, rfl⟩))]
    rw [e1, sref_repool hS (hn name (.inl rfl))]
  | _ => rfl

theorem decodeTypes_repool (hS : ∀ (i : Nat) s, S[i]? = some s → S'[π.str i]? = some s) : ∀ (ts : List RType) (prev : List ValueType),
    (∀ t ∈ ts, ∀ j ∈ t.names, j < S.length) → decodeTypes S' prev (ts.map (RType.repool π)) = decodeTypes S prev ts
  | [], _, _ => rfl
  | t :: ts, prev, h => by
    simp only [List.map_cons, decodeTypes]
    rw [decoded_repool hS (h t (List.mem_cons_self ..)), decodeTypes_repool hS ts _ fun u hu => h u (List.mem_cons_of_mem _ hu)]

end Decode

theorem args_length {op : Op} {args : List Int} {n : Nat} (h : hlShape op = .args args.length) (e : hlShape op = .args n) : args.length = n := by
  rw [e] at h
  injection h with h
  exact h.symm

theorem op_repool {o : Instr} (h : o.Ok) : (o.repool π).decoded = repoolOp π o.decoded := by
  cases o with
  | plain op args =>
    by_cases h1 : op = .OInt
    · subst h1
      match args, args_length (n := 2) h.2.1 rfl with
      | [a, b], _ => simp [Instr.repool, Instr.decoded, repoolOp, operand]
    by_cases h2 : op = .OString
    · subst h2
      match args, args_length (n := 2) h.2.1 rfl with
      | [a, b], _ => simp [Instr.repool, Instr.decoded, repoolOp, operand]
    by_cases h3 : op = .ODynGet
    · subst h3
      match args, args_length (n := 3) h.2.1 rfl with
      | [a, b, c], _ => simp [Instr.repool, Instr.decoded, repoolOp, operand]
    by_cases h4 : op = .ODynSet
    · subst h4
      match args, args_length (n := 3) h.2.1 rfl with
      | [a, b, c], _ => simp [Instr.repool, Instr.decoded, repoolOp, operand]
    have e : (Instr.plain op args).repool π = .plain op args := by
      unfold Instr.repool
      split <;> first | rfl | (rename_i h; injection h with h; contradiction)
    rw [e]
    unfold repoolOp
    split <;> first | rfl | (rename_i h; contradiction)
  | call op dst fn args =>
    have ho : ∀ x n, hlShape x = .args n → op ≠ x := by
      rintro x n e rfl
      exact nomatch e.symm.trans h.1
    have e : (Instr.call op dst fn args).repool π = .call op dst fn args := rfl
    rw [e]
    unfold repoolOp
    split
    · rename_i h; exact absurd h (ho .OInt 2 rfl)
    · rename_i h; exact absurd h (ho .OString 2 rfl)
    · rename_i h; exact absurd h (ho .ODynGet 3 rfl)
    · rename_i h; exact absurd h (ho .ODynSet 3 rfl)
    · rfl
  | switch reg targets end_ => rfl

/-! ## What the two modules have in common -/

/-- Everything but the pools, and the numbers of their elements in instructions and constants. -/
structure SamePools (π : Pools) (c c' : Code) : Prop where
  strings : ∀ (i : Nat) s, c.strings[i]? = some s → c'.strings[π.str i]? = some s
  ints : ∀ (i : Nat) v, c.ints[i]? = some v → c'.ints[π.int i]? = some v
  rest : c' = { c with
    strings := c'.strings, stringsLens := c'.stringsLens, nstrings := c'.nstrings, ustrings := c'.ustrings, ints := c'.ints, nints := c'.nints
    functions := c.functions.map (repoolFun π), constants := c.constants.map (repoolConstant π c) }

theorem repoolOp_op (o : Opcode) : (repoolOp π o).op = o.op := by unfold repoolOp; split <;> rfl

/-- The instructions of which nothing changes. -/
def Unpooled (x : Op) : Prop := x ≠ .OInt ∧ x ≠ .OString ∧ x ≠ .ODynGet ∧ x ≠ .ODynSet

theorem repoolOp_other {o : Opcode} (h : Unpooled o.op) : repoolOp π o = o := by
  obtain ⟨h1, h2, h3, h4⟩ := h
  unfold repoolOp
  split <;> first | rfl | (rename_i h; contradiction)

theorem repool_get {f : HLFunction} {i : Nat} {o : Opcode} : f.ops[i]? = some o → (repoolFun π f).ops[i]? = some (repoolOp π o) := by
  intro h
  show (f.ops.map _)[i]? = _
  rw [List.getElem?_map, h]; rfl

theorem repool_get_back {f : HLFunction} {i : Nat} {o : Opcode} (h : (repoolFun π f).ops[i]? = some o) : ∃ o', f.ops[i]? = some o' ∧ o = repoolOp π o' := by
  change (f.ops.map _)[i]? = _ at h
  rw [List.getElem?_map] at h
  rcases hx : f.ops[i]? with _ | o'
  · rw [hx] at h; cases h
  · rw [hx] at h; cases h; exact ⟨o', rfl, rfl⟩

theorem repool_getOp {f : HLFunction} {i : Nat} {x : Op} :
    (∃ o, (repoolFun π f).ops[i]? = some o ∧ o.op = x) ↔ ∃ o, f.ops[i]? = some o ∧ o.op = x := by
  constructor
  · rintro ⟨o, h1, h2⟩
    obtain ⟨o', h3, rfl⟩ := repool_get_back h1
    exact ⟨o', h3, by rw [← h2, repoolOp_op]⟩
  · rintro ⟨o, h1, h2⟩
    exact ⟨_, repool_get h1, by rw [repoolOp_op, h2]⟩

namespace SamePools

variable {c c' : Code} (h : SamePools π c c')
include h

theorem types : c'.types = c.types := by rw [h.rest]
theorem ntypes : c'.ntypes = c.ntypes := by rw [h.rest]
theorem globals : c'.globals = c.globals := by rw [h.rest]
theorem nglobals : c'.nglobals = c.nglobals := by rw [h.rest]
theorem natives : c'.natives = c.natives := by rw [h.rest]
theorem nnatives : c'.nnatives = c.nnatives := by rw [h.rest]
theorem nfunctions : c'.nfunctions = c.nfunctions := by rw [h.rest]
theorem functions : c'.functions = c.functions.map (repoolFun π) := by rw [h.rest]
theorem constants : c'.constants = c.constants.map (repoolConstant π c) := by rw [h.rest]
theorem floats : c'.floats = c.floats := by rw [h.rest]
theorem entrypoint : c'.entrypoint = c.entrypoint := by rw [h.rest]

theorem get_function {i : Nat} {g : HLFunction} (hg : c'.functions[i]? = some g) : ∃ f, g = repoolFun π f ∧ c.functions[i]? = some f := by
  rw [h.functions, List.getElem?_map] at hg
  rcases hx : c.functions[i]? with _ | f
  · rw [hx] at hg; cases hg
  · rw [hx] at hg; exact ⟨f, by cases hg; rfl, rfl⟩

theorem get_constant {i : Nat} {k : Constant} (hk : c'.constants[i]? = some k) : ∃ k0, k = repoolConstant π c k0 ∧ c.constants[i]? = some k0 := by
  rw [h.constants, List.getElem?_map] at hk
  rcases hx : c.constants[i]? with _ | f
  · rw [hx] at hk; cases hk
  · rw [hx] at hk; exact ⟨f, by cases hk; rfl, rfl⟩

theorem boot {f : HLFunction} (hf : BootFunction c f) : BootFunction c' (repoolFun π f) := by
  rcases hf with ⟨i, h1, h2, h3⟩ | ⟨h1, h2⟩
  · refine Or.inl ⟨i, by rw [h.functions, List.getElem?_map, h1]; rfl, by rw [h.entrypoint]; exact h2, ?_⟩
    intro j g hj hg
    obtain ⟨f', rfl, hf'⟩ := h.get_function hg
    rw [h.entrypoint]
    exact h3 j f' hj hf'
  · refine Or.inr ⟨?_, by rw [h.functions, List.getElem?_map, h2]; rfl⟩
    intro g hg
    rw [h.functions] at hg
    obtain ⟨f', hf', rfl⟩ := List.mem_map.1 hg
    rw [h.entrypoint]
    exact h1 f' hf'

theorem boot_back {g : HLFunction} (hg : BootFunction c' g) : ∃ f, g = repoolFun π f ∧ BootFunction c f := by
  rcases hg with ⟨i, h1, h2, h3⟩ | ⟨h1, h2⟩
  · obtain ⟨f, rfl, hf⟩ := h.get_function h1
    refine ⟨f, rfl, Or.inl ⟨i, hf, by rw [h.entrypoint] at h2; exact h2, ?_⟩⟩
    intro j f' hj hf'
    have := h3 j (repoolFun π f') hj (by rw [h.functions, List.getElem?_map, hf']; rfl)
    rw [h.entrypoint] at this
    exact this
  · obtain ⟨f, rfl, hf⟩ := h.get_function h2
    refine ⟨f, rfl, Or.inr ⟨?_, hf⟩⟩
    intro f' hf'
    have := h1 (repoolFun π f') (by rw [h.functions]; exact List.mem_map_of_mem hf')
    rw [h.entrypoint] at this
    exact this

theorem enumSet_iff {f : HLFunction} {i : Nat} : enumSet c' (repoolFun π f) i ↔ enumSet c f i := by
  unfold enumSet
  rw [repool_getOp, repool_getOp, repool_getOp, h.globals]

theorem string_lt {i : Nat} (hi : i < c.strings.length) : π.str i < c'.strings.length :=
  (List.getElem?_eq_some_iff.1 (h.strings i _ (List.getElem?_eq_getElem hi))).1

theorem int_lt {i : Nat} (hi : i < c.ints.length) : π.int i < c'.ints.length :=
  (List.getElem?_eq_some_iff.1 (h.ints i _ (List.getElem?_eq_getElem hi))).1

theorem hashable (hh : Hashable c) : Hashable c' where
  functionIndex := by
    intro g hg
    rw [h.functions] at hg
    obtain ⟨f, hf, rfl⟩ := List.mem_map.1 hg
    rw [h.nfunctions, h.nnatives]
    exact hh.functionIndex f hf
  nativeIndex := by rw [h.natives, h.nfunctions, h.nnatives]; exact hh.nativeIndex
  noForward := by rw [h.types, h.ntypes]; exact hh.noForward
  typeGlobals := by rw [h.types, h.ntypes, h.nglobals]; exact hh.typeGlobals
  constantGlobal := by
    intro k hk
    rw [h.constants] at hk
    obtain ⟨k0, hk0, rfl⟩ := List.mem_map.1 hk
    rw [h.nglobals]
    exact hh.constantGlobal k0 hk0
  constantFields := by
    intro k hk g ts hg hts j x hx
    rw [h.constants] at hk
    obtain ⟨k0, hk0, rfl⟩ := List.mem_map.1 hk
    rw [h.globals] at hg
    have hg : c.globals[k0.global]? = some g := hg
    simp only [repoolConstant, poolNumbers, hg, Option.bind_some, hts, List.getElem?_mapIdx] at hx
    rcases hx0 : k0.fields[j]? with _ | x0
    · rw [hx0] at hx; cases hx
    rw [hx0] at hx
    simp only [Option.map_some, Option.some.injEq] at hx
    obtain ⟨t, ht, h1, h2⟩ := hh.constantFields k0 hk0 g ts hg hts j x0 hx0
    rw [ht] at hx
    refine ⟨t, ht, ?_, ?_⟩
    · intro hk
      simp only [poolNumber, hk] at hx
      rw [← hx]; exact h.int_lt (h1 hk)
    · intro hk
      simp only [poolNumber, hk] at hx
      rw [← hx]; exact h.string_lt (h2 hk)
  entry := by rw [h.entrypoint, h.nfunctions, h.nnatives, h.natives]; exact hh.entry
  bootShort := by
    intro g hg i o hi ho hop
    obtain ⟨f, rfl, hf⟩ := h.boot_back hg
    obtain ⟨o', ho', rfl⟩ := repool_get_back ho
    rw [repoolOp_op] at hop
    rw [h.nglobals]
    exact hh.bootShort f hf i o' hi ho' hop
  bootEnums := by
    intro g hg i o b hi he ho hb
    obtain ⟨f, rfl, hf⟩ := h.boot_back hg
    have he := h.enumSet_iff.1 he
    obtain ⟨o', ho', rfl⟩ := repool_get_back ho
    obtain ⟨b', hb', rfl⟩ := repool_get_back hb
    obtain ⟨⟨o1, h1, h2⟩, -, -, ⟨b1, h3, h4⟩⟩ := id he
    rw [ho'] at h1; cases h1
    rw [hb'] at h3; cases h3
    obtain ⟨⟨x, x1, x2, x3⟩, y⟩ := hh.bootEnums f hf i o' b' hi he ho' hb'
    rw [repoolOp_other (o := o') (by rw [h2]; simp [Unpooled]), h.nglobals]
    refine ⟨⟨((π.int x.toNat : Nat) : Int), ?_, by omega, ?_⟩, y⟩
    · simp only [repoolOp, h4, x1, operand, Option.map_some]
    · have := h.int_lt (show x.toNat < c.ints.length by omega)
      omega

theorem setByBoot {f : HLFunction} {i j : Nat} : SetByBoot c' (repoolFun π f) i j ↔ SetByBoot c f i j := by
  unfold SetByBoot
  rw [h.enumSet_iff]
  constructor
  · rintro ⟨h1, h2, o, h3, h4⟩
    obtain ⟨⟨o', h5, h6⟩, -⟩ := id h2
    rw [repool_get h5] at h3
    cases h3
    rw [repoolOp_other (by rw [h6]; simp [Unpooled])] at h4
    exact ⟨h1, h2, o', h5, h4⟩
  · rintro ⟨h1, h2, o, h3, h4⟩
    obtain ⟨⟨o', h5, h6⟩, -⟩ := id h2
    rw [h5] at h3
    cases h3
    exact ⟨h1, h2, _, repool_get h5, by rw [repoolOp_other (by rw [h6]; simp [Unpooled])]; exact h4⟩

theorem setByConstant {i j : Nat} : SetByConstant c' i j ↔ SetByConstant c i j := by
  unfold SetByConstant
  constructor
  · rintro ⟨k, h1, h2⟩
    obtain ⟨k0, rfl, h3⟩ := h.get_constant h1
    exact ⟨k0, h3, h2⟩
  · rintro ⟨k, h1, h2⟩
    exact ⟨repoolConstant π c k, by rw [h.constants, List.getElem?_map, h1]; rfl, h2⟩

end SamePools

theorem zip_mapIdx_flatMap {ts : List ValueType} {xs ys : List Nat} {F G : ValueType × Nat → List UInt8} (hl : ys.length = xs.length)
    (h : ∀ (k : Nat) t x y, ts[k]? = some t → xs[k]? = some x → ys[k]? = some y → F (t, y) = G (t, x)) :
    (ts.zip ys).flatMap F = (ts.zip xs).flatMap G := by
  induction ts generalizing xs ys with
  | nil => rfl
  | cons t ts ih =>
    cases xs with
    | nil => cases ys with
      | nil => rfl
      | cons y ys => simp at hl
    | cons x xs => cases ys with
      | nil => simp at hl
      | cons y ys =>
        simp only [List.zip_cons_cons, List.flatMap_cons]
        rw [h 0 t x y rfl rfl rfl, ih (by simpa using hl) fun k t' x' y' h1 h2 h3 => h (k + 1) t' x' y' h1 h2 h3]

namespace SamePools

variable {c c' : Code} (h : SamePools π c c')
include h

theorem bytes (hh : Hashable c) {k : Constant} (hk : k ∈ c.constants) {g : ValueType} (hg : c.globals[k.global]? = some g) :
    constantBytes c' (repoolConstant π c k) g = constantBytes c k g := by
  unfold constantBytes
  rcases hts : objectFields g with _ | ts
  · rfl
  simp only [Option.getD_some]
  refine zip_mapIdx_flatMap ?_ ?_
  · simp [repoolConstant, poolNumbers, hg, hts]
  · intro j t x y h1 h2 h3
    simp only [repoolConstant, poolNumbers, hg, Option.bind_some, hts, List.getElem?_mapIdx, h2, Option.map_some, h1, Option.some.injEq] at h3
    obtain ⟨t', ht', a1, a2⟩ := hh.constantFields k hk g ts hg hts j x h2
    rw [h1] at ht'; cases ht'
    cases hkd : t.kind with
    | HI32 =>
      simp only [poolNumber, hkd] at h3
      have e := List.getElem?_eq_getElem (a1 hkd)
      simp only [hkd, ← h3, h.ints x _ e, e]
    | HBYTES =>
      simp only [poolNumber, hkd] at h3
      have e := List.getElem?_eq_getElem (a2 hkd)
      simp only [hkd, ← h3, h.strings x _ e, e]
    | _ => simp only [hkd]

theorem source (hh : Hashable c) {f : HLFunction} {i : Nat} {x : UInt32} (hs : GlobalSource c f i x) : GlobalSource c' (repoolFun π f) i x := by
  have nb : (∀ j, ¬ SetByBoot c f i j) → ∀ j, ¬ SetByBoot c' (repoolFun π f) i j := fun hn j => fun e => hn j (h.setByBoot.1 e)
  have nc : (∀ j, ¬ SetByConstant c i j) → ∀ j, ¬ SetByConstant c' i j := fun hn j => fun e => hn j (h.setByConstant.1 e)
  have et : SetByType c' = SetByType c := by unfold SetByType; rw [h.types, h.ntypes]
  cases hs with
  | boot j b y x h1 h2 h3 h4 =>
    obtain ⟨-, ⟨-, -, -, ⟨b', h5, h6⟩⟩, -⟩ := h1.1
    rw [h2] at h5
    cases h5
    refine .boot j (repoolOp π b) (π.int y) x ⟨h.setByBoot.2 h1.1, fun k hk e => h1.2 k hk (h.setByBoot.1 e)⟩ (repool_get h2) ?_ (h.ints y x h4)
    simp only [repoolOp, h6, h3, operand, Option.map_some, Int.toNat_natCast]
  | constant j k g h1 h2 h3 h4 =>
    have hk : k.global = i := by
      obtain ⟨⟨k', e1, e2⟩, -⟩ := h2
      rw [h3] at e1; cases e1
      exact e2
    rw [← h.bytes hh (List.mem_of_getElem? h3) (by rw [hk]; exact h4)]
    exact .constant j _ g (nb h1) ⟨h.setByConstant.2 h2.1, fun k hk e => h2.2 k hk (h.setByConstant.1 e)⟩
      (by rw [h.constants, List.getElem?_map, h3]; rfl) (by rw [h.globals]; exact h4)
  | type j t h1 h2 h3 h4 => exact .type j t (nb h1) (nc h2) (et ▸ h3) (by rw [h.types]; exact h4)
  | abstract g h1 h2 h3 h4 h5 => exact .abstract g (nb h1) (nc h2) (et ▸ h3) (by rw [h.globals]; exact h4) h5
  | position g h1 h2 h3 h4 h5 => exact .position g (nb h1) (nc h2) (et ▸ h3) (by rw [h.globals]; exact h4) h5

theorem allocated {ch : CodeHash} (a : Allocated c ch) : Allocated c' { ch with code := c' } where
  hashable := h.hashable a.hashable
  code := rfl
  types := by rw [h.types, h.ntypes]; exact a.types
  globalCount := by rw [h.nglobals]; exact a.globalCount
  globals := by
    intro i t hi ht
    rw [h.nglobals] at hi
    rw [h.globals] at ht
    obtain ⟨f, x, h1, h2, h3⟩ := a.globals i t hi ht
    exact ⟨_, x, h.boot h1, h.source a.hashable h2, h3⟩
  indexCount := by rw [h.nfunctions, h.nnatives]; exact a.indexCount
  indexes := by
    intro x hx
    rw [h.nfunctions, h.nnatives] at hx
    obtain ⟨y, h1, h2⟩ := a.indexes x hx
    refine ⟨y, ?_, h2⟩
    have e1 : NativeAt c' = NativeAt c := by unfold NativeAt; rw [h.natives]
    have e2 : FunctionAt c' = FunctionAt c := by
      funext x i
      unfold FunctionAt
      rw [h.functions, List.getElem?_map]
      rcases c.functions[i]? with _ | f
      · simp
      · simp [repoolFun]
    cases h1 with
    | native i h0 => rw [← h.nfunctions]; exact .native i (e1 ▸ h0)
    | function i h0 h1 => exact .function i (e1 ▸ h0) (e2 ▸ h1)
    | unused h0 h1 => exact .unused (e1 ▸ h0) (e2 ▸ h1)
  functions := a.functions

end SamePools

/-- **C111** If strings and integer constants of a module get other numbers (and possibly more are added), the decoded module is the same except for these
numbers in instructions and constants (and for the cache of strings).  If `alloc` returns for the first it returns the same hashes, signatures and
indexes for the second. -/
theorem c111_pools (π : Pools) (m m' : RModule) (hm : m.Right) (hm' : m'.Right) (hn : m.NotBare) (h : Repooled π m m') (p p' : Profile) :
    ∃ c c', Accepts p m.encode c ∧ Accepts p' m'.encode c' ∧
      (∀ (i : Nat) s, c.strings[i]? = some s → c'.strings[π.str i]? = some s) ∧
      (∀ (i : Nat) v, c.ints[i]? = some v → c'.ints[π.int i]? = some v) ∧
      c' = { c with
        strings := c'.strings, stringsLens := c'.stringsLens, nstrings := c'.nstrings, ustrings := c'.ustrings, ints := c'.ints, nints := c'.nints
        functions := c.functions.map (repoolFun π), constants := c.constants.map (repoolConstant π c) } ∧
      ∀ ch, CodeHash.alloc c = .ret ch → CodeHash.alloc c' = .ret { ch with code := c' } := by
  have r := h.rest
  have hn' : m'.NotBare := by
    have e1 : m'.hasDebug = m.hasDebug := by rw [r]
    have e2 : m'.types ≠ [] ↔ m.types ≠ [] := by rw [r]; simp
    have e3 : m'.globals = m.globals := by rw [r]
    have e4 : m'.natives ≠ [] ↔ m.natives ≠ [] := by rw [r]; simp
    have e5 : m'.functions ≠ [] ↔ m.functions ≠ [] := by rw [r]; simp
    have e6 : m'.constants ≠ [] ↔ m.constants ≠ [] := by rw [r]; simp
    unfold RModule.NotBare
    rw [e1, e2, e3, e4, e5, e6]
    exact hn
  have eD : m'.hasDebug = m.hasDebug := by rw [r]
  have eT : m'.typeTable = m.typeTable := by
    unfold RModule.typeTable
    rw [show m'.types = m.types.map (RType.repool π) by rw [r]]
    exact decodeTypes_repool h.strings _ _ fun t ht => (hm.types t ht).2.2
  obtain ⟨u, h1⟩ := right_roundtrip m hm hn p []
  obtain ⟨u', h2⟩ := right_roundtrip m' hm' hn' p' []
  rw [List.append_nil] at h1 h2
  have S : SamePools π { m.decoded with ustrings := u } { m'.decoded with ustrings := u' } := by
    refine ⟨?_, h.ints, ?_⟩
    · intro i s hs
      change (m.strings.map utf8)[i]? = some s at hs
      show (m'.strings.map utf8)[_]? = some s
      rw [List.getElem?_map] at hs ⊢
      rcases hx : m.strings[i]? with _ | t
      · rw [hx] at hs; cases hs
      · rw [hx] at hs; rw [h.strings i t hx]; exact hs
    · have g : m'.globals = m.globals := by rw [r]
      have n : m'.natives.map (RNative.decoded m') = m.natives.map (RNative.decoded m) := by
        rw [show m'.natives = m.natives.map (RNative.repool π) by rw [r], List.map_map]
        refine List.map_congr_left fun n hn => ?_
        have hg := hm.natives n hn
        simp only [Function.comp, RNative.decoded, RNative.repool, eT, sref_repool h.strings hg.1, sref_repool h.strings hg.2.1]
      have f : m'.functions.map (RFunction.decoded m') = (m.functions.map (RFunction.decoded m)).map (repoolFun π) := by
        rw [show m'.functions = m.functions.map (RFunction.repool π) by rw [r], List.map_map, List.map_map]
        refine List.map_congr_left fun f hf => ?_
        simp only [Function.comp, RFunction.decoded, RFunction.repool, repoolFun, eD, eT, List.length_map, List.map_map]
        rw [List.map_congr_left (f := Instr.decoded ∘ Instr.repool π) (g := repoolOp π ∘ Instr.decoded) fun o ho => op_repool ((hm.functions f hf).ops o ho)]
      have k : m'.constants.map RConstant.decoded =
          (m.constants.map RConstant.decoded).map (repoolConstant π { m.decoded with ustrings := u }) := by
        rw [show m'.constants = m.constants.map (RConstant.repool π m) by rw [r], List.map_map, List.map_map]
        refine List.map_congr_left fun k hk => ?_
        have e : poolNumbers π (m.globals[k.global]?.map (tref m.typeTable)) k.fields = poolNumbers π (m.decoded.globals[k.global]?) k.fields := by
          show _ = poolNumbers π ((m.globals.map (tref m.typeTable) ++ List.replicate m.globals.length noType)[k.global]?) k.fields
          rcases Nat.lt_or_ge k.global m.globals.length with hl | hl
          · rw [List.getElem?_append_left (by simpa using hl), List.getElem?_map]
          · rw [List.getElem?_append_right (by simpa using hl), List.getElem?_eq_none hl, List.getElem?_replicate]
            split <;> rfl
        have hlen : (poolNumbers π (m.globals[k.global]?.map (tref m.typeTable)) k.fields).length = k.fields.length := by
          unfold poolNumbers; split <;> simp
        simp only [Function.comp, RConstant.decoded, RConstant.repool, repoolConstant, ← e, hlen]
      have c1 : m'.types.length = m.types.length := by rw [r]; simp
      have c2 : m'.natives.length = m.natives.length := by rw [r]; simp
      have c3 : m'.functions.length = m.functions.length := by rw [r]; simp
      have c4 : m'.constants.length = m.constants.length := by rw [r]; simp
      have k1 : m'.version = m.version := by rw [r]
      have k2 : m'.entrypoint = m.entrypoint := by rw [r]
      have k4 : m'.floats = m.floats := by rw [r]
      have k5 : m'.bytes = m.bytes := by rw [r]
      have k6 : m'.bytesPos = m.bytesPos := by rw [r]
      have k7 : m'.debugFiles = m.debugFiles := by rw [r]
      simp only [RModule.decoded] at k ⊢
      simp only [g, n, f, k, c1, c2, c3, c4, eD, eT, k1, k2, k4, k5, k6, k7]
  refine ⟨_, _, ⟨_, h1⟩, ⟨_, h2⟩, S.strings, S.ints, S.rest, ?_⟩
  intro ch a
  exact (c88_alloc p' none _ _ _ h2 _).2 (S.allocated ((c88_alloc p none _ _ _ h1 ch).1 a))

/-! ## Hashes of natives and functions -/

theorem forRange_mono {α : Type} {f g : Nat → α → Rust α} (h : ∀ i a b, f i a = .ret b → g i a = .ret b) :
    ∀ (n i : Nat) (a b : α), Rust.forRange f i n a = .ret b → Rust.forRange g i n a = .ret b := by
  intro n
  induction n with
  | zero => intro i a b e; exact e
  | succ n ih =>
    intro i a b e
    unfold Rust.forRange at e ⊢
    cases e1 : f i a with
    | panic => rw [e1] at e; cases e
    | ret a' =>
      rw [e1] at e
      rw [h i a a' e1]
      exact ih (i + 1) a' b e

namespace CodeHash

theorem asUsize_small {n : Nat} (h : n < 2 ^ 64) : asUsize (n : Int) = n := by
  unfold asUsize
  omega

theorem text_repool {c' : Code} {s : CodeHash} (h : SamePools π s.code c') (hl : c'.strings.length < 2 ^ 64) (hs : s.code.strings.length < 2 ^ 31)
    {x : Int} (hx : IsI32 x) {t : Str} (e : Rust.get s.code.strings (asUsize x) = .ret t) :
    Rust.get c'.strings (asUsize ((π.str x.toNat : Nat) : Int)) = .ret t := by
  have e := get_eq.1 e
  have hlt := (List.getElem?_eq_some_iff.1 e).1
  have hx0 : 0 ≤ x := by
    rcases Int.lt_or_le x 0 with hneg | h0
    · unfold asUsize IsI32 at *
      omega
    · exact h0
  have ex : asUsize x = x.toNat := by
    unfold asUsize IsI32 at *
    omega
  rw [ex] at e
  have e' := h.strings _ _ e
  have hlt' := (List.getElem?_eq_some_iff.1 e').1
  rw [asUsize_small (by omega)]
  exact get_eq.2 e'

theorem index_ret {x : Int} {i : Nat} (e : intoUsize x = .ret i) : i = x.toNat ∧ 0 ≤ x := by
  unfold intoUsize at e
  split at e
  · cases e; exact ⟨rfl, by assumption⟩
  · cases e

theorem hashArgs_repool {c' : Code} {s : CodeHash} (h : SamePools π s.code c') (hl : c'.strings.length < 2 ^ 64) (hs : s.code.strings.length < 2 ^ 31)
    {o : Opcode} (hp : ∀ x, o.p1 = some x ∨ o.p2 = some x ∨ o.p3 = some x → IsI32 x) {x y : Hasher}
    (e : s.hashArgs x o = .ret y) : hashArgs { s with code := c' } x (repoolOp π o) = .ret y := by
  by_cases hu : Unpooled o.op
  · rw [repoolOp_other hu, ← e]
    obtain ⟨h1, h2, h3, h4⟩ := hu
    unfold hashArgs
    simp only [h.floats, h.types]
    have hcall : ∀ x p, callP { s with code := c' } x p = s.callP x p := fun _ _ => rfl
    have htype : ∀ x t, writeType { s with code := c' } x t = s.writeType x t := by
      intro x t
      unfold writeType typeHash
      rw [h.types]
    simp only [hcall, htype]
    split <;> first | rfl | (exact absurd (by assumption) h1) | (exact absurd (by assumption) h2) | (exact absurd (by assumption) h3) |
      (exact absurd (by assumption) h4)
  · obtain ⟨op, p1, p2, p3, extra⟩ := o
    have hsp : op = .OInt ∨ op = .OString ∨ op = .ODynGet ∨ op = .ODynSet := by
      by_cases h1 : op = .OInt
      · exact .inl h1
      by_cases h2 : op = .OString
      · exact .inr (.inl h2)
      by_cases h3 : op = .ODynGet
      · exact .inr (.inr (.inl h3))
      by_cases h4 : op = .ODynSet
      · exact .inr (.inr (.inr h4))
      exact absurd ⟨h1, h2, h3, h4⟩ hu
    rcases hsp with rfl | rfl | rfl | rfl
    · simp only [hashArgs, repoolOp] at e ⊢
      cases e1 : writeP x p1 with
      | panic => rw [e1] at e; cases e
      | ret x1 =>
        rw [e1] at e
        simp only [Rust.bind_ret] at e ⊢
        cases p2 with
        | none => cases e
        | some v =>
          simp only [operand, Option.map_some, Rust.unwrap_some, Rust.bind_ret] at e ⊢
          cases e2 : intoUsize v with
          | panic => rw [e2] at e; cases e
          | ret i =>
            rw [e2] at e
            obtain ⟨rfl, h0⟩ := index_ret e2
            simp only [Rust.bind_ret] at e
            cases e3 : Rust.get s.code.ints v.toNat with
            | panic => rw [e3] at e; cases e
            | ret z =>
              rw [e3] at e
              simp only [intoUsize, Int.natCast_nonneg, if_true, Rust.bind_ret, Int.toNat_natCast, get_eq.2 (h.ints _ _ (get_eq.1 e3))]
              exact e
    · simp only [hashArgs, repoolOp] at e ⊢
      cases e1 : writeP x p1 with
      | panic => rw [e1] at e; cases e
      | ret x1 =>
        rw [e1] at e
        simp only [Rust.bind_ret] at e ⊢
        cases p2 with
        | none => cases e
        | some v =>
          simp only [operand, Option.map_some, Rust.unwrap_some, Rust.bind_ret] at e ⊢
          cases e2 : intoUsize v with
          | panic => rw [e2] at e; cases e
          | ret i =>
            rw [e2] at e
            obtain ⟨rfl, h0⟩ := index_ret e2
            simp only [Rust.bind_ret] at e
            cases e3 : Rust.get s.code.strings v.toNat with
            | panic => rw [e3] at e; cases e
            | ret z =>
              rw [e3] at e
              simp only [intoUsize, Int.natCast_nonneg, if_true, Rust.bind_ret, Int.toNat_natCast, get_eq.2 (h.strings _ _ (get_eq.1 e3))]
              exact e
    · simp only [hashArgs, repoolOp] at e ⊢
      cases e1 : writeP x p1 with
      | panic => rw [e1] at e; cases e
      | ret x1 =>
        rw [e1] at e
        simp only [Rust.bind_ret] at e ⊢
        cases e2 : writeP x1 p2 with
        | panic => rw [e2] at e; cases e
        | ret x2 =>
          rw [e2] at e
          simp only [Rust.bind_ret] at e ⊢
          cases p3 with
          | none => cases e
          | some v =>
            simp only [operand, Option.map_some, Rust.unwrap_some, Rust.bind_ret] at e ⊢
            cases e3 : Rust.get s.code.strings (asUsize v) with
            | panic => rw [e3] at e; cases e
            | ret z =>
              rw [e3] at e
              rw [text_repool h hl hs (hp v (.inr (.inr rfl))) e3]
              exact e
    · simp only [hashArgs, repoolOp] at e ⊢
      cases e1 : writeP x p1 with
      | panic => rw [e1] at e; cases e
      | ret x1 =>
        rw [e1] at e
        simp only [Rust.bind_ret] at e ⊢
        cases p2 with
        | none => cases e
        | some v =>
          simp only [operand, Option.map_some, Rust.unwrap_some, Rust.bind_ret] at e ⊢
          cases e3 : Rust.get s.code.strings (asUsize v) with
          | panic => rw [e3] at e; cases e
          | ret z =>
            rw [e3] at e
            rw [text_repool h hl hs (hp v (.inr (.inl rfl))) e3]
            exact e

theorem hashFun_repool {c' : Code} {s : CodeHash} (h : SamePools π s.code c') (hl : c'.strings.length < 2 ^ 64) {f : HLFunction}
    (hs : s.code.strings.length < 2 ^ 31) (hp : ∀ o ∈ f.ops, ∀ x, o.p1 = some x ∨ o.p2 = some x ∨ o.p3 = some x → IsI32 x)
    {x : UInt32} (e : s.hashFun f = .ret x) : hashFun { s with code := c' } (repoolFun π f) = .ret x := by
  unfold hashFun at e ⊢
  cases e1 : Rust.forRange (s.hashReg f.regs) 0 f.nregs Hasher.new with
  | panic => rw [e1] at e; cases e
  | ret a =>
    rw [e1] at e
    simp only [Rust.bind_ret] at e
    cases e2 : Rust.forRange (s.hashOp f.ops) 0 f.nops a with
    | panic => rw [e2] at e; cases e
    | ret b =>
      rw [e2] at e
      have r1 : Rust.forRange (hashReg { s with code := c' } (repoolFun π f).regs) 0 (repoolFun π f).nregs Hasher.new = .ret a := by
        refine forRange_mono (fun i a b e => ?_) _ _ _ _ e1
        rw [← e]
        unfold hashReg writeType typeHash
        rw [h.types]
        rfl
      have r2 : Rust.forRange (hashOp { s with code := c' } (repoolFun π f).ops) 0 (repoolFun π f).nops a = .ret b := by
        refine forRange_mono (fun i a b e => ?_) _ _ _ _ e2
        unfold hashOp at e ⊢
        cases eo : Rust.get f.ops i with
        | panic => rw [eo] at e; cases e
        | ret o =>
          rw [eo] at e
          rw [get_eq.2 (repool_get (get_eq.1 eo))]
          simp only [Rust.bind_ret, repoolOp_op] at e ⊢
          exact hashArgs_repool h hl hs (hp o (List.mem_of_getElem? (get_eq.1 eo))) e
      rw [r1]
      simp only [Rust.bind_ret, r2]
      exact e

end CodeHash

/-- **C111** With other numbers for strings and integers, natives and functions that can be hashed have the same hashes (whatever the hashes of the
functions called are). -/
theorem c111_hashes (π : Pools) (m m' : RModule) (hm : m.Right) (hm' : m'.Right) (hn : m.NotBare) (h : Repooled π m m') (p p' : Profile)
    (c c' : Code) (hc : Accepts p m.encode c) (hc' : Accepts p' m'.encode c') (ch ch' : CodeHash)
    (a : CodeHash.alloc c = .ret ch) (a' : CodeHash.alloc c' = .ret ch') :
    (∀ n ∈ c.natives, ch'.hashNative n = ch.hashNative n) ∧
    ∀ hashes, ∀ f ∈ c.functions, ∀ x,
      CodeHash.hashFun { ch with functionsHashes := hashes } f = .ret x → CodeHash.hashFun { ch' with functionsHashes := hashes } (repoolFun π f) = .ret x := by
  obtain ⟨d, d', ⟨s, h1⟩, ⟨s', h2⟩, h3, h4, h5, h6⟩ := c111_pools π m m' hm hm' hn h p p'
  obtain ⟨s1, hc⟩ := hc
  obtain ⟨s2, hc'⟩ := hc'
  rw [hc] at h1
  rw [hc'] at h2
  cases h1
  cases h2
  have S : SamePools π c c' := ⟨h3, h4, h5⟩
  rw [h6 ch a] at a'
  cases a'
  have ec : ch.code = c := (CodeHash.alloc_frame a).1
  have M := fun f hf => c67_accepted p none _ c _ hc ch a [] (by simp) f hf
  subst ec
  refine ⟨?_, ?_⟩
  · intro n _
    unfold CodeHash.hashNative CodeHash.writeType CodeHash.typeHash
    rw [S.types]
  · intro hashes f hf x e
    have hl : c'.strings.length < 2 ^ 64 := by
      have := (c67_accepted p' none _ c' _ hc' _ (h6 ch a) [] (by simp) (repoolFun π f) (by rw [S.functions]; exact List.mem_map_of_mem hf)).strings
      exact Nat.lt_trans this (by decide)
    exact CodeHash.hashFun_repool (s := { ch with functionsHashes := hashes }) S hl (M f hf).strings (M f hf).operands e

/-! ## Examples -/

/-- Two abstract types, an object with a constant, and a function that uses integers and strings in all ways. -/
def poolModule : RModule where
  version := 4
  hasDebug := false
  entrypoint := 0
  ints := [5, 7]
  floats := []
  strings := [['A'], ['B'], ['C']]
  bytes := []
  bytesPos := []
  debugFiles := []
  types := [.prim .HI32, .prim .HBYTES, .abstract 0, .abstract 1, .obj false 2 none 1 [⟨0, 0⟩, ⟨1, 1⟩] [] [], .func false [] 0]
  globals := [4]
  natives := [⟨0, 1, 5, 1⟩]
  functions := [{ type := 5, findex := 0, regs := [0, 1], ops := [.plain .OInt [0, 1], .plain .OString [1, 2], .plain .ODynGet [0, 1, 2],
    .plain .ODynSet [1, 0, 0], .plain .ORet [0]], debug := [], assigns := [(2, 0)] }]
  constants := [⟨0, [1, 2]⟩]

/-- Strings and integers, with an additional one in front. -/
def poolShift : Pools := ⟨(· + 1), (· + 1)⟩

/-- The same module with an additional string and an additional integer in front. -/
def poolModule' : RModule where
  version := 4
  hasDebug := false
  entrypoint := 0
  ints := [9, 5, 7]
  floats := []
  strings := [['Z'], ['A'], ['B'], ['C']]
  bytes := []
  bytesPos := []
  debugFiles := []
  types := [.prim .HI32, .prim .HBYTES, .abstract 1, .abstract 2, .obj false 3 none 1 [⟨1, 0⟩, ⟨2, 1⟩] [] [], .func false [] 0]
  globals := [4]
  natives := [⟨1, 2, 5, 1⟩]
  functions := [{ type := 5, findex := 0, regs := [0, 1], ops := [.plain .OInt [0, 2], .plain .OString [1, 3], .plain .ODynGet [0, 1, 3],
    .plain .ODynSet [1, 1, 0], .plain .ORet [0]], debug := [], assigns := [(3, 0)] }]
  constants := [⟨0, [2, 3]⟩]

theorem poolModule_good : poolModule.Good where
  version := by decide
  bytes := by decide
  noConstants := by decide
  noDebug := by decide
  entrypoint := by decide
  nints := by decide
  ints := by decide
  nfloats := by decide
  floats := by decide
  nstrings := by decide
  strings := by decide +kernel
  nbytes := by decide
  bytesPos := by decide
  ndebugFiles := by decide
  debugFiles := by decide +kernel
  ntypes := by decide
  types := by
    intro t ht
    simp only [poolModule, List.mem_cons, List.not_mem_nil, or_false] at ht
    rcases ht with rfl | rfl | rfl | rfl | rfl | rfl <;>
      refine ⟨?_, by decide, by decide⟩ <;> simp only [RType.Small] <;> decide
  order := by decide
  nglobals := by decide
  globals := by decide
  nnatives := by decide
  natives := by
    intro t ht
    simp only [poolModule, List.mem_cons, List.not_mem_nil, or_false] at ht
    subst ht; decide
  nfunctions := by decide
  functions := by
    intro t ht
    simp only [poolModule, List.mem_cons, List.not_mem_nil, or_false] at ht
    subst ht
    exact {
      type := by decide
      findex := by decide
      nregs := by decide
      regs := by decide
      nops := by decide
      ops := by
        intro o ho
        simp only [List.mem_cons, List.not_mem_nil, or_false] at ho
        rcases ho with rfl | rfl | rfl | rfl | rfl <;> exact ⟨by decide, rfl, by decide⟩
      debug := fun h => by cases h
      assigns := by decide }
  nconstants := by decide
  constants := by
    intro t ht
    simp only [poolModule, List.mem_cons, List.not_mem_nil, or_false] at ht
    subst ht; decide

theorem poolModule'_good : poolModule'.Good where
  version := by decide
  bytes := by decide
  noConstants := by decide
  noDebug := by decide
  entrypoint := by decide
  nints := by decide
  ints := by decide
  nfloats := by decide
  floats := by decide
  nstrings := by decide
  strings := by decide +kernel
  nbytes := by decide
  bytesPos := by decide
  ndebugFiles := by decide
  debugFiles := by decide +kernel
  ntypes := by decide
  types := by
    intro t ht
    simp only [poolModule', List.mem_cons, List.not_mem_nil, or_false] at ht
    rcases ht with rfl | rfl | rfl | rfl | rfl | rfl <;>
      refine ⟨?_, by decide, by decide⟩ <;> simp only [RType.Small] <;> decide
  order := by decide
  nglobals := by decide
  globals := by decide
  nnatives := by decide
  natives := by
    intro t ht
    simp only [poolModule', List.mem_cons, List.not_mem_nil, or_false] at ht
    subst ht; decide
  nfunctions := by decide
  functions := by
    intro t ht
    simp only [poolModule', List.mem_cons, List.not_mem_nil, or_false] at ht
    subst ht
    exact {
      type := by decide
      findex := by decide
      nregs := by decide
      regs := by decide
      nops := by decide
      ops := by
        intro o ho
        simp only [List.mem_cons, List.not_mem_nil, or_false] at ho
        rcases ho with rfl | rfl | rfl | rfl | rfl <;> exact ⟨by decide, rfl, by decide⟩
      debug := fun h => by cases h
      assigns := by decide }
  nconstants := by decide
  constants := by
    intro t ht
    simp only [poolModule', List.mem_cons, List.not_mem_nil, or_false] at ht
    subst ht; decide

theorem poolModule_repooled : Repooled poolShift poolModule poolModule' where
  strings := by
    intro i s hs
    show (_ :: poolModule.strings)[i + 1]? = some s
    rw [List.getElem?_cons_succ]; exact hs
  ints := by
    intro i s hs
    show (_ :: poolModule.ints)[i + 1]? = some s
    rw [List.getElem?_cons_succ]; exact hs
  rest := rfl

/-- C111: the hash can be computed, for both, and the function can be hashed. -/
example : ∃ c c' ch ch' x, Accepts .release poolModule.encode c ∧ Accepts .release poolModule'.encode c' ∧ CodeHash.alloc c = .ret ch ∧
    CodeHash.alloc c' = .ret ch' ∧ ch.globalsSigns = ch'.globalsSigns ∧ ch.globalsSigns.length = 1 ∧ c.constants ≠ c'.constants ∧
    ∃ f ∈ c.functions, ch.hashFun f = .ret x := by
  have h : checkOk (Code.read .release none poolModule.encode) (fun c => checkOk (Code.read .release none poolModule'.encode) fun c' =>
    match CodeHash.alloc c, CodeHash.alloc c' with
    | .ret ch, .ret ch' => decide (ch.globalsSigns = ch'.globalsSigns ∧ ch.globalsSigns.length = 1 ∧
        c.constants.map Constant.fields ≠ c'.constants.map Constant.fields) && c.functions.any fun f => match ch.hashFun f with | .ret _ => true | .panic => false
    | _, _ => false) = true := by decide +kernel
  obtain ⟨c, s, h1, h2⟩ := checkOk_iff h
  obtain ⟨c', s', h3, h4⟩ := checkOk_iff h2
  split at h4
  · rename_i ch ch' e1 e2
    rw [Bool.and_eq_true, List.any_eq_true] at h4
    obtain ⟨h5, f, hf, h6⟩ := h4
    obtain ⟨g1, g2, g3⟩ := of_decide_eq_true h5
    cases e : ch.hashFun f with
    | panic => rw [e] at h6; cases h6
    | ret x => exact ⟨c, c', ch, ch', x, ⟨s, h1⟩, ⟨s', h3⟩, e1, e2, g1, g2, fun e => g3 (by rw [e]), f, hf, e⟩
  · cases h4

/-- Three abstract types, named by the strings `x`, `y` and `z`. -/
def namesModule (strings : List Text) (x y z : Nat) : RModule where
  version := 4
  hasDebug := false
  entrypoint := 0
  ints := []
  floats := []
  strings := strings
  bytes := []
  bytesPos := []
  debugFiles := []
  types := [.abstract x, .abstract y, .abstract z]
  globals := []
  natives := []
  functions := []
  constants := []

theorem namesModule_good : (namesModule [['A'], ['B'], ['C']] 0 1 2).Good where
  version := by decide
  bytes := by decide
  noConstants := by decide
  noDebug := by decide
  entrypoint := by decide
  nints := by decide
  ints := by decide
  nfloats := by decide
  floats := by decide
  nstrings := by decide
  strings := by decide +kernel
  nbytes := by decide
  bytesPos := by decide
  ndebugFiles := by decide
  debugFiles := by decide +kernel
  ntypes := by decide
  types := by
    intro t ht
    simp only [namesModule, List.mem_cons, List.not_mem_nil, or_false] at ht
    rcases ht with rfl | rfl | rfl <;>
      refine ⟨?_, by decide, by decide⟩ <;> simp only [RType.Small] <;> decide
  order := by decide
  nglobals := by decide
  globals := by decide
  nnatives := by decide
  natives := by intro t ht; cases ht
  nfunctions := by decide
  functions := by intro t ht; cases ht
  nconstants := by decide
  constants := by intro t ht; cases ht

/-- Exchanges 0 and 1. -/
def exchange01 (i : Nat) : Nat := if i = 0 then 1 else if i = 1 then 0 else i

/-- **C111** The second module must be one that is read correctly: if the strings `A` and `B` are exchanged, their names are not looked up in order
any more, and the third type is decoded with a wrong name. -/
theorem c111_order_matters : ∃ π m m', RModule.Good m ∧ m.NotBare ∧ Repooled π m m' ∧ ∃ c c', Accepts .release m.encode c ∧
    Accepts .release m'.encode c' ∧ c.types.map ValueType.absName = [some [0x41], some [0x42], some [0x43], none, none, none] ∧
    c'.types.map ValueType.absName = [some [0x41], some [0x42], some [0x41], none, none, none] := by
  refine ⟨⟨exchange01, id⟩, namesModule [['A'], ['B'], ['C']] 0 1 2, namesModule [['B'], ['A'], ['C']] 1 0 2, namesModule_good, .inr (.inl nofun), ?_, ?_⟩
  · refine ⟨?_, fun _ _ h => h, rfl⟩
    intro i s hs
    match i with
    | 0 | 1 | 2 => exact hs
    | i + 3 => cases hs
  have h : checkOk (Code.read .release none (namesModule [['A'], ['B'], ['C']] 0 1 2).encode) (fun c =>
    checkOk (Code.read .release none (namesModule [['B'], ['A'], ['C']] 1 0 2).encode) fun c' =>
      decide (c.types.map ValueType.absName = [some [0x41], some [0x42], some [0x43], none, none, none] ∧
        c'.types.map ValueType.absName = [some [0x41], some [0x42], some [0x41], none, none, none])) = true := by decide +kernel
  obtain ⟨c, s, h1, h2⟩ := checkOk_iff h
  obtain ⟨c', s', h3, h4⟩ := checkOk_iff h2
  exact ⟨c, c', ⟨s, h1⟩, ⟨s', h3⟩, of_decide_eq_true h4⟩

end Verif.Brass
