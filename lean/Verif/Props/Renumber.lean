import Verif.Spec.Renumber
import Verif.Props.Alloc
import Verif.Props.Same

/-!
# C110: the numbers of types do not matter
-/

namespace Verif.Brass

open Verif Verif.Brass.Spec

theorem prefix_get {α : Type} {l l' : List α} (h : l <+: l') {i : Nat} {a : α} (hi : l[i]? = some a) : l'[i]? = some a := by
  obtain ⟨r, rfl⟩ := h
  rw [List.getElem?_append_left (List.getElem?_eq_some_iff.1 hi).1]
  exact hi

theorem sref_prefix {S S' : List Text} (h : S <+: S') {j : Nat} (hj : j < S.length) : sref S' j = sref S j := by
  unfold sref
  rw [prefix_get h (List.getElem?_eq_getElem hj), List.getElem?_eq_getElem hj]

/-- A type decodes to the same value if what it refers to does. -/
theorem decoded_renumber {S S' : List Text} (hS : S <+: S') {σ : Nat → Nat} {prev prev' : List ValueType} {t : RType} (hn : ∀ j ∈ t.names, j < S.length)
    (hr : ∀ j ∈ t.refs, tref prev' (σ j) = tref prev j) : (t.renumber σ).decoded S' prev' = t.decoded S prev := by
  have hf : ∀ fields : List RField, (∀ f ∈ fields, f.name < S.length) → (∀ f ∈ fields, tref prev' (σ f.type) = tref prev f.type) →
      fields.map (fun f => RField.decoded S' prev' (f.renumber σ)) = fields.map (RField.decoded S prev) := by
    intro fields h1 h2
    refine List.map_congr_left fun f hf => ?_
    simp only [RField.decoded, RField.renumber, sref_prefix hS (h1 f hf), h2 f hf]
  cases t with
  | prim k => rfl
  | func m args ret =>
    simp only [RType.renumber, RType.decoded, RType.kind, List.map_map, List.length_map, RType.refs, List.mem_append, List.mem_singleton] at hr ⊢
    rw [hr ret (.inr rfl), List.map_congr_left (f := tref prev' ∘ σ) (g := tref prev) fun j hj => hr j (.inl hj)]
  | obj s name super global fields protos bindings =>
    simp only [RType.names, List.mem_cons, List.mem_append, List.mem_map] at hn
    simp only [RType.refs, List.mem_append, List.mem_map, Option.mem_toList] at hr
    simp only [RType.renumber, RType.decoded, RType.kind, List.map_map, List.length_map, Function.comp_def]
    have e1 : superRef prev' (super.map σ) = superRef prev super := by
      cases super with
      | none => rfl
      | some j => exact hr j (.inl rfl)
    have e2 : protos.map (RProto.decoded S') = protos.map (RProto.decoded S) := List.map_congr_left fun f hf => by
      simp only [RProto.decoded, sref_prefix hS (hn f.name (.inr (.inr ⟨f, hf, rfl⟩)))]
    rw [e1, e2, sref_prefix hS (hn name (.inl rfl)), hf fields (fun f h => hn f.name (.inr (.inl ⟨f, h, rfl⟩))) fun f h => hr f.type (.inr ⟨f, h, rfl⟩)]
  | ref t => simp only [RType.renumber, RType.decoded, RType.kind, hr t (List.mem_singleton.2 rfl)]
  | virt fields =>
    simp only [RType.names, List.mem_map] at hn
    simp only [RType.refs, List.mem_map] at hr
    simp only [RType.renumber, RType.decoded, RType.kind, List.map_map, List.length_map, Function.comp_def]
    rw [hf fields (fun f h => hn f.name ⟨f, h, rfl⟩) fun f h => hr f.type ⟨f, h, rfl⟩]
  | abstract name => simp only [RType.renumber, RType.decoded, RType.kind, sref_prefix hS (hn name (List.mem_singleton.2 rfl))]
  | enum name global constructs =>
    simp only [RType.names, List.mem_cons, List.mem_map] at hn
    simp only [RType.refs, List.mem_flatMap] at hr
    simp only [RType.renumber, RType.decoded, RType.kind, List.map_map, List.length_map]
    have e1 : constructs.map (RConstruct.decoded S' prev' ∘ RConstruct.renumber σ) = constructs.map (RConstruct.decoded S prev) :=
      List.map_congr_left fun k hk => by
        simp only [Function.comp, RConstruct.decoded, RConstruct.renumber, List.map_map, List.length_map, sref_prefix hS (hn k.name (.inr ⟨k, hk, rfl⟩))]
        rw [List.map_congr_left (f := tref prev' ∘ σ) (g := tref prev) fun j hj => hr j ⟨k, hk, hj⟩]
    rw [e1, sref_prefix hS (hn name (.inl rfl))]
  | null t => simp only [RType.renumber, RType.decoded, RType.kind, hr t (List.mem_singleton.2 rfl)]
  | packed t => simp only [RType.renumber, RType.decoded, RType.kind, hr t (List.mem_singleton.2 rfl)]

theorem refs_renumber (σ : Nat → Nat) (t : RType) : (t.renumber σ).refs = t.refs.map σ := by
  cases t with
  | obj s name super global fields protos bindings => cases super <;> simp [RType.renumber, RType.refs, RField.renumber]
  | enum name global constructs => simp [RType.renumber, RType.refs, RConstruct.renumber, List.flatMap_map, List.map_flatMap]
  | _ => simp [RType.renumber, RType.refs, RField.renumber]

theorem table_get {m : RModule} {i : Nat} {t : RType} (h : m.types[i]? = some t) : m.typeTable[i]? = some (t.decoded m.strings (m.typeTable.take i)) := by
  have := decodeTypes_get m.strings m.types [] i t h
  simp only [List.length_nil, Nat.zero_add] at this
  exact this

theorem table_length (m : RModule) : m.typeTable.length = m.types.length := (decodeTypes_length m.strings m.types []).trans (by simp)

/-- The type tables of the two modules. -/
theorem table_renumber {σ : Nat → Nat} {m m' : RModule} (hg : m.Right) (hb : m.RefersBack) (hb' : m'.RefersBack) (hS : m.strings <+: m'.strings)
    (ht : ∀ (i : Nat) t, m.types[i]? = some t → m'.types[σ i]? = some (t.renumber σ)) :
    ∀ i, i < m.types.length → m'.typeTable[σ i]? = m.typeTable[i]? := by
  intro i
  induction i using Nat.strongRecOn with
  | ind i ih =>
    intro hi
    have h1 := List.getElem?_eq_getElem hi
    have h2 := ht i _ h1
    rw [table_get h1, table_get h2]
    congr 1
    refine decoded_renumber hS (hg.types _ (List.getElem_mem hi)).2.2 ?_
    intro j hj
    have h3 := hb i _ h1 j hj
    have h4 := hb' (σ i) _ h2 (σ j) (by rw [refs_renumber]; exact List.mem_map_of_mem hj)
    unfold tref
    rw [List.getElem?_take_of_lt h4, List.getElem?_take_of_lt h3, ih j h3 (by omega)]

theorem tref_renumber {σ : Nat → Nat} {m m' : RModule} (hg : m.Right) (hb : m.RefersBack) (hb' : m'.RefersBack) (hS : m.strings <+: m'.strings)
    (ht : ∀ (i : Nat) t, m.types[i]? = some t → m'.types[σ i]? = some (t.renumber σ)) {i : Nat} (hi : i < m.types.length) :
    tref m'.typeTable (σ i) = tref m.typeTable i := by
  unfold tref
  rw [table_renumber hg hb hb' hS ht i hi]

theorem op_renumber (σ : Nat → Nat) {o : Instr} (h : o.Ok) : (o.renumber σ).decoded = renumberOp σ o.decoded := by
  cases o with
  | plain op args =>
    by_cases ho : op = .OType
    · subst ho
      have h := h.2.1
      have : args.length = 2 := by
        have h : Shape.args 2 = .args args.length := h
        injection h with h; exact h.symm
      match args, this with
      | [a, b], _ => simp [Instr.renumber, Instr.decoded, renumberOp]
    · have e : (Instr.plain op args).renumber σ = .plain op args := by
        unfold Instr.renumber
        split
        · rename_i h; injection h with h; exact absurd h ho
        · rfl
      rw [e]
      simp [renumberOp, Instr.decoded, ho]
  | call op dst fn args =>
    have ho : op ≠ .OType := by
      rintro rfl
      exact nomatch (show Shape.args 2 = .call from h.1)
    simp [Instr.renumber, Instr.decoded, renumberOp, ho]
  | switch reg targets end_ => simp [Instr.renumber, Instr.decoded, renumberOp]

theorem fun_renumber {σ : Nat → Nat} {m m' : RModule} (hd : m'.hasDebug = m.hasDebug)
    (hT : ∀ i, i < m.types.length → tref m'.typeTable (σ i) = tref m.typeTable i) {f : RFunction} (hf : f.Good m) :
    RFunction.decoded m' (f.renumber σ) = renumberFun σ (f.decoded m) := by
  simp only [RFunction.decoded, RFunction.renumber, renumberFun, hd, hT _ hf.type, List.length_map, List.map_map]
  rw [List.map_congr_left (f := tref m'.typeTable ∘ σ) (g := tref m.typeTable) fun r hr => hT r (hf.regs r hr),
    List.map_congr_left (f := Instr.decoded ∘ Instr.renumber σ) (g := renumberOp σ ∘ Instr.decoded) fun o ho => op_renumber σ (hf.ops o ho)]

/-- **C110** If a module is extended, types of it may get other numbers; everything it had is decoded as before, and each type is found under its
new number. -/
theorem c110_extended (σ : Nat → Nat) (m m' : RModule) (hm : m.Right) (hm' : m'.Right) (hn : m.NotBare) (hn' : m'.NotBare) (hb : m.RefersBack)
    (hb' : m'.RefersBack) (h : Extends σ m m') (p p' : Profile) :
    ∃ c c', Accepts p m.encode c ∧ Accepts p' m'.encode c' ∧ (∀ i, i < c.ntypes → σ i < c'.ntypes ∧ c'.types[σ i]? = c.types[i]?) ∧
      c.globals.take c.nglobals <+: c'.globals.take c'.nglobals ∧ c.natives <+: c'.natives ∧ c.functions.map (renumberFun σ) <+: c'.functions := by
  obtain ⟨u, h1⟩ := right_roundtrip m hm hn p []
  obtain ⟨u', h2⟩ := right_roundtrip m' hm' hn' p' []
  rw [List.append_nil] at h1 h2
  have hT := fun {i : Nat} => tref_renumber (i := i) hm hb hb' h.strings h.types
  refine ⟨_, _, ⟨_, h1⟩, ⟨_, h2⟩, ?_, ?_, ?_, ?_⟩
  · intro i hi
    have hi : i < m.types.length := hi
    have hs := (List.getElem?_eq_some_iff.1 (h.types i _ (List.getElem?_eq_getElem hi))).1
    refine ⟨hs, ?_⟩
    show (m'.typeTable ++ _)[σ i]? = (m.typeTable ++ _)[i]?
    rw [List.getElem?_append_left (by rw [table_length]; exact hs), List.getElem?_append_left (by rw [table_length]; exact hi)]
    exact table_renumber hm hb hb' h.strings h.types i hi
  · show (m.globals.map (tref m.typeTable) ++ _).take m.globals.length <+: (m'.globals.map (tref m'.typeTable) ++ _).take m'.globals.length
    rw [List.take_left' (by simp), List.take_left' (by simp)]
    obtain ⟨r, hr⟩ := h.globals
    rw [← hr, List.map_append, List.map_map, List.map_congr_left (f := tref m'.typeTable ∘ σ) (g := tref m.typeTable) fun j hj => hT (hm.globals j hj)]
    exact List.prefix_append ..
  · show m.natives.map (RNative.decoded m) <+: m'.natives.map (RNative.decoded m')
    obtain ⟨r, hr⟩ := h.natives
    rw [← hr, List.map_append, List.map_map,
      List.map_congr_left (f := RNative.decoded m' ∘ RNative.renumber σ) (g := RNative.decoded m) fun n hn => by
        have hg := hm.natives n hn
        simp only [Function.comp, RNative.decoded, RNative.renumber, sref_prefix h.strings hg.1, sref_prefix h.strings hg.2.1, hT hg.2.2.1]]
    exact List.prefix_append ..
  · show (m.functions.map (RFunction.decoded m)).map (renumberFun σ) <+: m'.functions.map (RFunction.decoded m')
    obtain ⟨r, hr⟩ := h.functions
    rw [← hr, List.map_append, List.map_map, List.map_map,
      List.map_congr_left (f := RFunction.decoded m' ∘ RFunction.renumber σ) (g := renumberFun σ ∘ RFunction.decoded m) fun f hf =>
        fun_renumber h.debug (fun i hi => hT hi) (hm.functions f hf)]
    exact List.prefix_append ..

/-- **C110** Equal types have equal hashes, in the same or in different modules, under whatever numbers. -/
theorem c110_type_hash (p p' : Profile) (e e' : Option DecodeError) (buf buf' : List UInt8) (c c' : Code) (s s' : St)
    (h : Code.read p e buf = .ok c s) (h' : Code.read p' e' buf' = .ok c' s') (ch ch' : CodeHash) (a : CodeHash.alloc c = .ret ch)
    (a' : CodeHash.alloc c' = .ret ch') (i j : Nat) (hi : i < c.ntypes) (hj : j < c'.ntypes) (he : c.types[i]? = c'.types[j]?) :
    ch.typeHashes[i]? = ch'.typeHashes[j]? ∧ ch.typeHashes[i]? ≠ none := by
  have L := loaded h
  obtain ⟨T, h1, h2⟩ := L.types
  have hi' : i < c.types.length := by rw [h2]; simp; omega
  have ht := List.getElem?_eq_getElem hi'
  rw [c66_type_table p e buf c s h ch a i hi _ ht, c66_type_table p' e' buf' c' s' h' ch' a' j hj _ (he ▸ ht)]
  simp

/-! ## Only the types are renumbered -/

/-- What the two modules have in common. -/
structure SameBut (σ : Nat → Nat) (c c' : Code) : Prop where
  types : ∀ i, i < c.ntypes → σ i < c.ntypes ∧ c'.types[σ i]? = c.types[i]?
  onto : ∀ j, j < c.ntypes → ∃ i, i < c.ntypes ∧ σ i = j
  rest : c' = { c with types := c'.types, ustrings := c'.ustrings, functions := c.functions.map (renumberFun σ) }

namespace SameBut

variable {σ : Nat → Nat} {c c' : Code} (h : SameBut σ c c')
include h

theorem ntypes : c'.ntypes = c.ntypes := by rw [h.rest]
theorem globals : c'.globals = c.globals := by rw [h.rest]
theorem nglobals : c'.nglobals = c.nglobals := by rw [h.rest]
theorem natives : c'.natives = c.natives := by rw [h.rest]
theorem nnatives : c'.nnatives = c.nnatives := by rw [h.rest]
theorem nfunctions : c'.nfunctions = c.nfunctions := by rw [h.rest]
theorem functions : c'.functions = c.functions.map (renumberFun σ) := by rw [h.rest]
theorem constants : c'.constants = c.constants := by rw [h.rest]
theorem ints : c'.ints = c.ints := by rw [h.rest]
theorem strings : c'.strings = c.strings := by rw [h.rest]
theorem entrypoint : c'.entrypoint = c.entrypoint := by rw [h.rest]

theorem type_back {j : Nat} {t : ValueType} (hj : j < c.ntypes) (ht : c'.types[j]? = some t) : ∃ i, i < c.ntypes ∧ σ i = j ∧ c.types[i]? = some t := by
  obtain ⟨i, h1, h2⟩ := h.onto j hj
  exact ⟨i, h1, h2, by rw [← (h.types i h1).2, h2]; exact ht⟩

theorem boot {f : HLFunction} (hf : BootFunction c f) : BootFunction c' (renumberFun σ f) := by
  rcases hf with ⟨i, h1, h2, h3⟩ | ⟨h1, h2⟩
  · refine Or.inl ⟨i, by rw [h.functions, List.getElem?_map, h1]; rfl, by rw [h.entrypoint]; exact h2, ?_⟩
    intro j g hj hg
    rw [h.functions, List.getElem?_map] at hg
    rcases hx : c.functions[j]? with _ | f'
    · rw [hx] at hg; cases hg
    · rw [hx] at hg
      cases hg
      rw [h.entrypoint]
      exact h3 j f' hj hx
  · refine Or.inr ⟨?_, by rw [h.functions, List.getElem?_map, h2]; rfl⟩
    intro g hg
    rw [h.functions] at hg
    obtain ⟨f', hf', rfl⟩ := List.mem_map.1 hg
    rw [h.entrypoint]
    exact h1 f' hf'

theorem boot_back {g : HLFunction} (hg : BootFunction c' g) : ∃ f, g = renumberFun σ f ∧ BootFunction c f := by
  have key : ∀ i : Nat, c'.functions[i]? = some g → ∃ f, g = renumberFun σ f ∧ c.functions[i]? = some f := by
    intro i hi
    rw [h.functions, List.getElem?_map] at hi
    rcases hx : c.functions[i]? with _ | f
    · rw [hx] at hi; cases hi
    · rw [hx] at hi; exact ⟨f, by cases hi; rfl, rfl⟩
  rcases hg with ⟨i, h1, h2, h3⟩ | ⟨h1, h2⟩
  · obtain ⟨f, rfl, hf⟩ := key i h1
    refine ⟨f, rfl, Or.inl ⟨i, hf, by rw [h.entrypoint] at h2; exact h2, ?_⟩⟩
    intro j f' hj hf'
    have := h3 j (renumberFun σ f') hj (by rw [h.functions, List.getElem?_map, hf']; rfl)
    rw [h.entrypoint] at this
    exact this
  · obtain ⟨f, rfl, hf⟩ := key 0 h2
    refine ⟨f, rfl, Or.inr ⟨?_, hf⟩⟩
    intro f' hf'
    have := h1 (renumberFun σ f') (by rw [h.functions]; exact List.mem_map_of_mem hf')
    rw [h.entrypoint] at this
    exact this

end SameBut

theorem renumberOp_op (σ : Nat → Nat) (o : Opcode) : (renumberOp σ o).op = o.op := by unfold renumberOp; split <;> rfl
theorem renumberOp_other {σ : Nat → Nat} {o : Opcode} (h : o.op ≠ .OType) : renumberOp σ o = o := by unfold renumberOp; rw [if_neg h]

theorem renumberOp_get {σ : Nat → Nat} {f : HLFunction} {i : Nat} {o : Opcode} {x : Op} (hx : x ≠ .OType) (ho : o.op = x) :
    (renumberFun σ f).ops[i]? = some o ↔ f.ops[i]? = some o := by
  subst ho
  show (f.ops.map (renumberOp σ))[i]? = some o ↔ _
  rw [List.getElem?_map]
  rcases f.ops[i]? with _ | o'
  · simp
  · simp only [Option.map_some, Option.some.injEq]
    constructor
    · intro e
      have : o'.op ≠ .OType := by rw [← renumberOp_op σ o', e]; exact hx
      rw [← e, renumberOp_other this]
    · rintro rfl
      exact renumberOp_other hx

theorem renumberOp_getOp {σ : Nat → Nat} {f : HLFunction} {i : Nat} {x : Op} (hx : x ≠ .OType) :
    (∃ o, (renumberFun σ f).ops[i]? = some o ∧ o.op = x) ↔ ∃ o, f.ops[i]? = some o ∧ o.op = x := by
  constructor
  · rintro ⟨o, h1, h2⟩; exact ⟨o, (renumberOp_get hx h2).1 h1, h2⟩
  · rintro ⟨o, h1, h2⟩; exact ⟨o, (renumberOp_get hx h2).2 h1, h2⟩

namespace SameBut

variable {σ : Nat → Nat} {c c' : Code} (h : SameBut σ c c')
include h

theorem enumSet_iff {f : HLFunction} {i : Nat} : enumSet c' (renumberFun σ f) i ↔ enumSet c f i := by
  unfold enumSet
  rw [renumberOp_getOp (by decide), renumberOp_getOp (by decide), renumberOp_getOp (by decide), h.globals]

theorem hashable (hh : Hashable c) : Hashable c' where
  functionIndex := by
    intro g hg
    rw [h.functions] at hg
    obtain ⟨f, hf, rfl⟩ := List.mem_map.1 hg
    rw [h.nfunctions, h.nnatives]
    exact hh.functionIndex f hf
  nativeIndex := by rw [h.natives, h.nfunctions, h.nnatives]; exact hh.nativeIndex
  noForward := by
    intro i t hi ht
    rw [h.ntypes] at hi
    obtain ⟨j, h1, -, h2⟩ := h.type_back hi ht
    exact hh.noForward j t h1 h2
  typeGlobals := by
    intro i t g hi ht hg
    rw [h.ntypes] at hi
    obtain ⟨j, h1, -, h2⟩ := h.type_back hi ht
    rw [h.nglobals]
    exact hh.typeGlobals j t g h1 h2 hg
  constantGlobal := by rw [h.constants, h.nglobals]; exact hh.constantGlobal
  constantFields := by rw [h.constants, h.globals, h.ints, h.strings]; exact hh.constantFields
  entry := by rw [h.entrypoint, h.nfunctions, h.nnatives, h.natives]; exact hh.entry
  bootShort := by
    intro g hg i o hi ho hop
    obtain ⟨f, rfl, hf⟩ := h.boot_back hg
    rw [h.nglobals]
    exact hh.bootShort f hf i o hi ((renumberOp_get (by decide) hop).1 ho) hop
  bootEnums := by
    intro g hg i o b hi he ho hb
    obtain ⟨f, rfl, hf⟩ := h.boot_back hg
    obtain ⟨⟨o', h1, h2⟩, -, -, ⟨b', h3, h4⟩⟩ := id he
    rw [ho] at h1; cases h1
    rw [hb] at h3; cases h3
    rw [h.ints, h.nglobals]
    exact hh.bootEnums f hf i o b hi (h.enumSet_iff.1 he) ((renumberOp_get (by decide) h2).1 ho) ((renumberOp_get (by decide) h4).1 hb)

theorem setByBoot {f : HLFunction} {i j : Nat} : SetByBoot c' (renumberFun σ f) i j ↔ SetByBoot c f i j := by
  unfold SetByBoot
  rw [h.enumSet_iff]
  constructor
  · rintro ⟨h1, h2, o, h3, h4⟩
    obtain ⟨⟨o', h5, h6⟩, -⟩ := id h2
    have := (renumberOp_get (σ := σ) (by decide) h6).2 h5
    rw [this] at h3
    cases h3
    exact ⟨h1, h2, o, h5, h4⟩
  · rintro ⟨h1, h2, o, h3, h4⟩
    obtain ⟨⟨o', h5, h6⟩, -⟩ := id h2
    rw [h5] at h3
    cases h3
    exact ⟨h1, h2, o, (renumberOp_get (by decide) h6).2 h5, h4⟩

theorem setByType {i j : Nat} (hj : j < c.ntypes) : SetByType c' i (σ j) ↔ SetByType c i j := by
  unfold SetByType
  rw [h.ntypes, (h.types j hj).2]
  exact ⟨fun e => ⟨hj, e.2⟩, fun e => ⟨(h.types j hj).1, e.2⟩⟩

theorem noType {i : Nat} (hn : ∀ j, ¬ SetByType c i j) : ∀ j, ¬ SetByType c' i j := by
  intro j hj
  have hlt := hj.1
  rw [h.ntypes] at hlt
  obtain ⟨k, h1, rfl⟩ := h.onto j hlt
  exact hn k ((h.setByType h1).1 hj)

theorem source (hd : OneTypePerGlobal c) {f : HLFunction} {i : Nat} {x : UInt32} (hs : GlobalSource c f i x) : GlobalSource c' (renumberFun σ f) i x := by
  have nb : (∀ j, ¬ SetByBoot c f i j) → ∀ j, ¬ SetByBoot c' (renumberFun σ f) i j := fun hn j => fun e => hn j (h.setByBoot.1 e)
  have nc : (∀ j, ¬ SetByConstant c i j) → ∀ j, ¬ SetByConstant c' i j := by
    unfold SetByConstant
    rw [h.constants]
    exact id
  cases hs with
  | boot j b y x h1 h2 h3 h4 =>
    obtain ⟨-, ⟨-, -, -, ⟨b', h5, h6⟩⟩, -⟩ := h1.1
    rw [h2] at h5
    cases h5
    refine .boot j b y x ⟨h.setByBoot.2 h1.1, fun k hk e => h1.2 k hk (h.setByBoot.1 e)⟩ ((renumberOp_get (by decide) h6).2 h2) h3 (by rw [h.ints]; exact h4)
  | constant j k g h1 h2 h3 h4 =>
    have e : constantBytes c' k g = constantBytes c k g := by unfold constantBytes; rw [h.ints, h.strings]
    rw [← e]
    refine .constant j k g (nb h1) ?_ (by rw [h.constants]; exact h3) (by rw [h.globals]; exact h4)
    have : SetByConstant c' i = SetByConstant c i := by unfold SetByConstant; rw [h.constants]
    rw [this]
    exact h2
  | type j t h1 h2 h3 h4 =>
    obtain ⟨hj, t', ht', hgl⟩ := h3.1
    rw [h4] at ht'
    cases ht'
    obtain ⟨k, hk, hk2⟩ : ∃ k, SetByType c' i k ∧ ∀ l, k < l → ¬ SetByType c' i l := by
      have start : SetByType c' i (σ j) := (h.setByType hj).2 h3.1
      have : ∀ (n k : Nat), c'.ntypes - k ≤ n → SetByType c' i k → ∃ k, SetByType c' i k ∧ ∀ l, k < l → ¬ SetByType c' i l := by
        intro n
        induction n with
        | zero => intro k hk e; have := e.1; omega
        | succ n ih =>
          intro k hk e
          by_cases hx : ∃ l, k < l ∧ SetByType c' i l
          · obtain ⟨l, hl, e'⟩ := hx
            exact ih l (by have := e'.1; omega) e'
          · exact ⟨k, e, fun l hl e' => hx ⟨l, hl, e'⟩⟩
      exact this _ _ (Nat.le_refl _) start
    have hlt := hk.1
    rw [h.ntypes] at hlt
    obtain ⟨-, u, hu, hgu⟩ := id hk
    obtain ⟨q, hq, -, hqu⟩ := h.type_back hlt hu
    have : t = u := hd j q t u _ hj hq h4 hqu hgl hgu
    subst this
    exact .type k t (nb h1) (nc h2) ⟨hk, hk2⟩ hu
  | abstract g h1 h2 h3 h4 h5 => exact .abstract g (nb h1) (nc h2) (h.noType h3) (by rw [h.globals]; exact h4) h5
  | position g h1 h2 h3 h4 h5 => exact .position g (nb h1) (nc h2) (h.noType h3) (by rw [h.globals]; exact h4) h5

end SameBut


theorem SameBut.hashable_back {σ : Nat → Nat} {c c' : Code} (h : SameBut σ c c') (hh : Hashable c') : Hashable c where
  functionIndex := by
    intro f hf
    have := hh.functionIndex (renumberFun σ f) (by rw [h.functions]; exact List.mem_map_of_mem hf)
    rw [h.nfunctions, h.nnatives] at this
    exact this
  nativeIndex := by have := hh.nativeIndex; rw [h.natives, h.nfunctions, h.nnatives] at this; exact this
  noForward := by
    intro i t hi ht
    have := h.types i hi
    exact hh.noForward (σ i) t (by rw [h.ntypes]; exact this.1) (by rw [this.2]; exact ht)
  typeGlobals := by
    intro i t g hi ht hg
    have := h.types i hi
    have := hh.typeGlobals (σ i) t g (by rw [h.ntypes]; exact this.1) (by rw [this.2]; exact ht) hg
    rw [h.nglobals] at this
    exact this
  constantGlobal := by have := hh.constantGlobal; rw [h.constants, h.nglobals] at this; exact this
  constantFields := by have := hh.constantFields; rw [h.constants, h.globals, h.ints, h.strings] at this; exact this
  entry := by have := hh.entry; rw [h.entrypoint, h.nfunctions, h.nnatives, h.natives] at this; exact this
  bootShort := by
    intro f hf i o hi ho hop
    have := hh.bootShort _ (h.boot hf) i o hi ((renumberOp_get (by decide) hop).2 ho) hop
    rw [h.nglobals] at this
    exact this
  bootEnums := by
    intro f hf i o b hi he ho hb
    obtain ⟨⟨o', h1, h2⟩, -, -, ⟨b', h3, h4⟩⟩ := id he
    rw [ho] at h1; cases h1
    rw [hb] at h3; cases h3
    have := hh.bootEnums _ (h.boot hf) i o b hi (h.enumSet_iff.2 he) ((renumberOp_get (by decide) h2).2 ho) ((renumberOp_get (by decide) h4).2 hb)
    rw [h.ints, h.nglobals] at this
    exact this

/-- The hash of the renumbered module. -/
theorem SameBut.allocated {σ : Nat → Nat} {c c' : Code} (h : SameBut σ c c') (hg : c.nglobals ≤ c.globals.length)
    {ch ch' : CodeHash} (a : Allocated c ch) (a' : Allocated c' ch') :
    ch'.functionsIndexes = ch.functionsIndexes ∧ (OneTypePerGlobal c → ch'.globalsSigns = ch.globalsSigns) := by
  refine ⟨?_, fun hd => ?_⟩
  · apply List.ext_getElem?
    intro x
    rcases Nat.lt_or_ge x (c.nfunctions + c.nnatives) with hx | hx
    · obtain ⟨y, h1, h2⟩ := a.indexes x hx
      obtain ⟨y', h3, h4⟩ := a'.indexes x (by rw [h.nfunctions, h.nnatives]; exact hx)
      have e1 : NativeAt c' = NativeAt c := by unfold NativeAt; rw [h.natives]
      have e2 : FunctionAt c' = FunctionAt c := by
        funext x i
        unfold FunctionAt
        rw [h.functions, List.getElem?_map]
        rcases c.functions[i]? with _ | f
        · simp
        · simp [renumberFun]
      have : IndexEntry c x y' := by
        cases h3 with
        | native i h => rw [SameBut.nfunctions (by assumption)]; exact .native i (e1 ▸ h)
        | function i h0 h => exact .function i (e1 ▸ h0) (e2 ▸ h)
        | unused h0 h => exact .unused (e1 ▸ h0) (e2 ▸ h)
      rw [h2, h4, CodeHash.index_unique h1 this]
    · rw [List.getElem?_eq_none (by rw [a'.indexCount, h.nfunctions, h.nnatives]; exact hx), List.getElem?_eq_none (by rw [a.indexCount]; exact hx)]
  · apply List.ext_getElem?
    intro i
    rcases Nat.lt_or_ge i c.nglobals with hi | hi
    · have ht := List.getElem?_eq_getElem (Nat.lt_of_lt_of_le hi hg)
      obtain ⟨f, x, a1, a2, a3⟩ := a.globals i _ hi ht
      obtain ⟨f', x', b1, b2, b3⟩ := a'.globals i _ (by rw [h.nglobals]; exact hi) (by rw [h.globals]; exact ht)
      obtain rfl := boot_unique (h.boot a1) b1
      rw [a3, b3, c70_source_unique _ _ _ _ _ (h.source hd a2) b2]
    · rw [List.getElem?_eq_none (by rw [a'.globalCount, h.nglobals]; exact hi), List.getElem?_eq_none (by rw [a.globalCount]; exact hi)]

/-- **C110** If the types of a module are put into another order (and nothing else is changed), the decoded module is the same, except for the order
of the types, for the operands that are numbers of types, and for the cache of strings.  The hash can be computed for both or for none; each type
has the same hash under its new number, functions and natives are found as before, and, unless different types belong to the same global, the
globals have the same signatures. -/
theorem c110_renumbered (σ : Nat → Nat) (m m' : RModule) (hm : m.Right) (hm' : m'.Right) (hn : m.NotBare) (hb : m.RefersBack) (hb' : m'.RefersBack)
    (h : Renumbered σ m m') (p p' : Profile) :
    ∃ c c', Accepts p m.encode c ∧ Accepts p' m'.encode c' ∧
      (∀ i, i < c.ntypes → σ i < c.ntypes ∧ c'.types[σ i]? = c.types[i]?) ∧
      c' = { c with types := c'.types, ustrings := c'.ustrings, functions := c.functions.map (renumberFun σ) } ∧
      (Returns (CodeHash.alloc c) ↔ Returns (CodeHash.alloc c')) ∧
      ∀ ch ch', CodeHash.alloc c = .ret ch → CodeHash.alloc c' = .ret ch' →
        (∀ i, i < c.ntypes → ch'.typeHashes[σ i]? = ch.typeHashes[i]?) ∧
        ch'.functionsIndexes = ch.functionsIndexes ∧ (OneTypePerGlobal c → ch'.globalsSigns = ch.globalsSigns) := by
  have hlt : ∀ i, i < m.types.length → σ i < m.types.length := fun i hi => by
    have := (List.getElem?_eq_some_iff.1 (h.types i _ (List.getElem?_eq_getElem hi))).1
    rw [h.ntypes] at this
    exact this
  have r := h.rest
  have hn' : m'.NotBare := by
    have e1 : m'.hasDebug = m.hasDebug := by rw [r]
    have e2 : m'.types ≠ [] ↔ m.types ≠ [] := by rw [ne_eq, ← List.length_eq_zero_iff, h.ntypes, List.length_eq_zero_iff]
    have e3 : m'.globals ≠ [] ↔ m.globals ≠ [] := by rw [r]; simp
    have e4 : m'.natives ≠ [] ↔ m.natives ≠ [] := by rw [r]; simp
    have e5 : m'.functions ≠ [] ↔ m.functions ≠ [] := by rw [r]; simp
    have e6 : m'.constants = m.constants := by rw [r]
    unfold RModule.NotBare
    rw [e1, e2, e3, e4, e5, e6]
    exact hn
  have eS : m'.strings = m.strings := by rw [r]
  have eD : m'.hasDebug = m.hasDebug := by rw [r]
  have hS : m.strings <+: m'.strings := by rw [eS]; exact List.prefix_refl _
  have hT := fun {i : Nat} => tref_renumber (i := i) hm hb hb' hS h.types
  obtain ⟨u, h1⟩ := right_roundtrip m hm hn p []
  obtain ⟨u', h2⟩ := right_roundtrip m' hm' hn' p' []
  rw [List.append_nil] at h1 h2
  have S : SameBut σ { m.decoded with ustrings := u } { m'.decoded with ustrings := u' } := by
    refine ⟨?_, h.onto, ?_⟩
    · intro i hi
      refine ⟨hlt i hi, ?_⟩
      show (m'.typeTable ++ _)[σ i]? = (m.typeTable ++ _)[i]?
      have hi : i < m.types.length := hi
      rw [List.getElem?_append_left (by rw [table_length, h.ntypes]; exact hlt i hi), List.getElem?_append_left (by rw [table_length]; exact hi)]
      exact table_renumber hm hb hb' hS h.types i hi
    · have g : m'.globals.map (tref m'.typeTable) = m.globals.map (tref m.typeTable) := by
        rw [show m'.globals = m.globals.map σ by rw [r], List.map_map,
          List.map_congr_left (f := tref m'.typeTable ∘ σ) (g := tref m.typeTable) fun j hj => hT (hm.globals j hj)]
      have n : m'.natives.map (RNative.decoded m') = m.natives.map (RNative.decoded m) := by
        rw [show m'.natives = m.natives.map (RNative.renumber σ) by rw [r], List.map_map]
        refine List.map_congr_left fun n hn => ?_
        have hg := hm.natives n hn
        simp only [Function.comp, RNative.decoded, RNative.renumber, eS, hT hg.2.2.1]
      have f : m'.functions.map (RFunction.decoded m') = (m.functions.map (RFunction.decoded m)).map (renumberFun σ) := by
        rw [show m'.functions = m.functions.map (RFunction.renumber σ) by rw [r], List.map_map, List.map_map]
        exact List.map_congr_left fun f hf => fun_renumber eD (fun i hi => hT hi) (hm.functions f hf)
      have c1 : m'.globals.length = m.globals.length := by rw [r]; simp
      have c2 : m'.natives.length = m.natives.length := by rw [r]; simp
      have c3 : m'.functions.length = m.functions.length := by rw [r]; simp
      have k1 : m'.version = m.version := by rw [r]
      have k2 : m'.entrypoint = m.entrypoint := by rw [r]
      have k3 : m'.ints = m.ints := by rw [r]
      have k4 : m'.floats = m.floats := by rw [r]
      have k5 : m'.bytes = m.bytes := by rw [r]
      have k6 : m'.bytesPos = m.bytesPos := by rw [r]
      have k7 : m'.debugFiles = m.debugFiles := by rw [r]
      have k8 : m'.constants = m.constants := by rw [r]
      simp only [RModule.decoded, g, n, f, c1, c2, c3, h.ntypes, eS, eD, k1, k2, k3, k4, k5, k6, k7, k8]
  have L := loaded h1
  have hgl : ({ m.decoded with ustrings := u } : Code).nglobals ≤ ({ m.decoded with ustrings := u } : Code).globals.length := by
    obtain ⟨G, e1, e2⟩ := L.globals
    rw [e2, List.length_append, e1]; exact Nat.le_add_right _ _
  refine ⟨_, _, ⟨_, h1⟩, ⟨_, h2⟩, S.types, S.rest, ?_, ?_⟩
  · rw [c51_alloc_returns_iff p none _ _ _ h1, c51_alloc_returns_iff p' none _ _ _ h2]
    exact ⟨S.hashable, S.hashable_back⟩
  · intro ch ch' a a'
    refine ⟨?_, S.allocated hgl ((c88_alloc p none _ _ _ h1 ch).1 a) ((c88_alloc p' none _ _ _ h2 ch').1 a')⟩
    intro i hi
    exact (c110_type_hash p' p none none _ _ _ _ _ _ h2 h1 ch' ch a' a (σ i) i (by rw [S.ntypes]; exact (S.types i hi).1) hi (S.types i hi).2).1

namespace CodeHash

theorem typeHash_table {p : Profile} {e : Option DecodeError} {buf : List UInt8} {c : Code} {st : St} (h : Code.read p e buf = .ok c st)
    {ch : CodeHash} (a : alloc c = .ret ch) {hashes : List UInt32} {t : ValueType} (ht : c.IsType t) :
    typeHash { ch with functionsHashes := hashes } t = .ret (tableHash t) := by
  obtain ⟨hc, -⟩ := alloc_frame a
  obtain ⟨j, k1, k2, k3⟩ := position_declared ht
  unfold CodeHash.typeHash
  rw [hc, k1]
  simp only [Rust.bind_ret, get_eq.2 (c66_type_table p e buf c st h ch a j k2 t k3)]

/-- Instructions without the number of a type. -/
theorem hashArgs_same {s s' : CodeHash} (h1 : s'.code.ints = s.code.ints) (h2 : s'.code.floats = s.code.floats) (h3 : s'.code.strings = s.code.strings)
    (h4 : s'.functionsIndexes = s.functionsIndexes) (h5 : s'.functionsHashes = s.functionsHashes) {o : Opcode} (ho : o.op ≠ .OType) (x : Hasher) :
    s'.hashArgs x o = s.hashArgs x o := by
  have hcall : ∀ x p, s'.callP x p = s.callP x p := by
    intro x p
    unfold callP hfun
    rw [h4, h5]
  unfold hashArgs
  simp only [h1, h2, h3, hcall]
  split <;> first | rfl | (exact absurd (by assumption) ho)

end CodeHash

/-- **C110** After renumbering the types, natives and functions have the same hashes (whatever the hashes of the functions called are). -/
theorem c110_hashes (σ : Nat → Nat) (m m' : RModule) (hm : m.Right) (hm' : m'.Right) (hn : m.NotBare) (hb : m.RefersBack) (hb' : m'.RefersBack)
    (h : Renumbered σ m m') (p p' : Profile) (c c' : Code) (hc : Accepts p m.encode c) (hc' : Accepts p' m'.encode c') (ch ch' : CodeHash)
    (a : CodeHash.alloc c = .ret ch) (a' : CodeHash.alloc c' = .ret ch') :
    (∀ n ∈ c.natives, ch'.hashNative n = ch.hashNative n) ∧
    ∀ hashes, ∀ f ∈ c.functions, TypeOperands c f →
      CodeHash.hashFun { ch' with functionsHashes := hashes } (renumberFun σ f) = CodeHash.hashFun { ch with functionsHashes := hashes } f := by
  obtain ⟨d, d', ⟨s, h1⟩, ⟨s', h2⟩, h3, h4, -, h5⟩ := c110_renumbered σ m m' hm hm' hn hb hb' h p p'
  obtain ⟨s1, hc⟩ := hc
  obtain ⟨s2, hc'⟩ := hc'
  rw [hc] at h1
  rw [hc'] at h2
  cases h1
  cases h2
  have L := loaded hc
  obtain ⟨-, h6, -⟩ := h5 ch ch' a a'
  have ec : ch.code = c := (CodeHash.alloc_frame a).1
  have ec' : ch'.code = c' := (CodeHash.alloc_frame a').1
  have ht : ∀ {t}, c.IsType t → c'.IsType t := by
    intro t ⟨i, hi, e⟩
    refine ⟨σ i, ?_, ?_⟩
    · rw [h4]; exact (h3 i hi).1
    · rw [(h3 i hi).2]; exact e
  have hT : ∀ {t hashes}, c.IsType t → CodeHash.typeHash { ch' with functionsHashes := hashes } t =
      CodeHash.typeHash { ch with functionsHashes := hashes } t := by
    intro t hashes e
    rw [CodeHash.typeHash_table hc a e, CodeHash.typeHash_table hc' a' (ht e)]
  refine ⟨?_, ?_⟩
  · intro n hn
    have := hT (hashes := []) (L.nativesRefer n hn)
    have e1 : ch.typeHash n.t = CodeHash.typeHash { ch with functionsHashes := [] } n.t := rfl
    have e2 : ch'.typeHash n.t = CodeHash.typeHash { ch' with functionsHashes := [] } n.t := rfl
    unfold CodeHash.hashNative CodeHash.writeType
    rw [e1, e2, this]
  · intro hashes f hf ho
    unfold CodeHash.hashFun
    have r1 : Rust.forRange (CodeHash.hashReg { ch' with functionsHashes := hashes } (renumberFun σ f).regs) 0 (renumberFun σ f).nregs Hasher.new =
        Rust.forRange (CodeHash.hashReg { ch with functionsHashes := hashes } f.regs) 0 f.nregs Hasher.new := by
      refine forRange_congr _ _ _ fun i _ hi b => ?_
      show (Rust.get f.regs i >>= _) = _
      unfold CodeHash.hashReg
      cases e : Rust.get f.regs i with
      | panic => rfl
      | ret t =>
        simp only [Rust.bind_ret, CodeHash.writeType, hT ((L.functionsRefer f hf).2 t (List.mem_of_getElem? (get_eq.1 e)))]
    have r2 : ∀ b, Rust.forRange (CodeHash.hashOp { ch' with functionsHashes := hashes } (renumberFun σ f).ops) 0 (renumberFun σ f).nops b =
        Rust.forRange (CodeHash.hashOp { ch with functionsHashes := hashes } f.ops) 0 f.nops b := by
      intro b
      refine forRange_congr _ _ _ fun i _ hi b => ?_
      unfold CodeHash.hashOp
      cases e : f.ops[i]? with
      | none => simp [Rust.get, renumberFun, e, Rust.unwrap]
      | some o =>
        have e' : (renumberFun σ f).ops[i]? = some (renumberOp σ o) := by
          show (f.ops.map (renumberOp σ))[i]? = _
          rw [List.getElem?_map, e]; rfl
        rw [get_eq.2 e, get_eq.2 e']
        simp only [Rust.bind_ret, renumberOp_op]
        by_cases hop : o.op = .OType
        · obtain ⟨k, hk, hk2⟩ := ho o (List.mem_of_getElem? e) hop
          obtain ⟨op, p1, p2, p3, extra⟩ := o
          simp only at hop hk2
          subst hop hk2
          obtain ⟨T, t1, t2⟩ := L.types
          have hlt : k < c.types.length := by rw [t2]; simp; omega
          obtain ⟨t, ht1⟩ : ∃ t, c.types[k]? = some t := ⟨_, List.getElem?_eq_getElem hlt⟩
          have ht2 := ht1
          rw [← (h3 k hk).2] at ht2
          have hx := hT (hashes := hashes) ⟨k, hk, ht1⟩
          have g1 := get_eq.2 ht1
          have g2 := get_eq.2 ht2
          rw [← ec] at g1
          rw [← ec'] at g2
          simp only [renumberOp, if_true, CodeHash.hashArgs, Option.map_some, Int.toNat_natCast, Rust.unwrap_some, Rust.bind_ret, intoUsize,
            Int.natCast_nonneg, g1, g2, CodeHash.writeType, hx]
        · rw [renumberOp_other hop]
          refine CodeHash.hashArgs_same (s := { ch with functionsHashes := hashes }) (s' := { ch' with functionsHashes := hashes }) ?_ ?_ ?_ h6 rfl hop _
          · show ch'.code.ints = ch.code.ints
            rw [ec, ec', h4]
          · show ch'.code.floats = ch.code.floats
            rw [ec, ec', h4]
          · show ch'.code.strings = ch.code.strings
            rw [ec, ec', h4]
    rw [r1]
    simp only [r2]

/-! ## Examples -/

/-- Types 1 and 2 are two versions of an object, one for the first and one for global `g` (counted from 1); a function with registers of both
types that uses type 1 with `OType`. -/
def orderModule (g : Nat) : RModule where
  version := 4
  hasDebug := false
  entrypoint := 0
  ints := []
  floats := []
  strings := [['A'], ['x']]
  bytes := []
  bytesPos := []
  debugFiles := []
  types := [.prim .HI32, .obj false 0 none 1 [⟨1, 0⟩] [] [], .obj false 0 none g [] [] [], .func false [1, 2] 0]
  globals := [0, 2]
  natives := []
  functions := [{ type := 3, findex := 0, regs := [1, 2], ops := [.plain .OType [0, 1], .plain .ORet [0]], debug := [], assigns := [] }]
  constants := []

/-- The same with types 1 and 2 in the other order. -/
def orderModule' (g : Nat) : RModule where
  version := 4
  hasDebug := false
  entrypoint := 0
  ints := []
  floats := []
  strings := [['A'], ['x']]
  bytes := []
  bytesPos := []
  debugFiles := []
  types := [.prim .HI32, .obj false 0 none g [] [] [], .obj false 0 none 1 [⟨1, 0⟩] [] [], .func false [2, 1] 0]
  globals := [0, 1]
  natives := []
  functions := [{ type := 3, findex := 0, regs := [2, 1], ops := [.plain .OType [0, 2], .plain .ORet [0]], debug := [], assigns := [] }]
  constants := []

/-- Exchanges 1 and 2. -/
def exchange (i : Nat) : Nat := if i = 1 then 2 else if i = 2 then 1 else i

theorem orderModule_good1 : (orderModule 1).Good where
  version := by decide
  bytes := by decide
  noConstants := by decide
  noDebug := by decide
  entrypoint := by decide
  nints := by decide
  ints := by decide
  nfloats := by decide
  floats := by decide
  nstrings := by decide
  strings := by decide +kernel
  nbytes := by decide
  bytesPos := by decide
  ndebugFiles := by decide
  debugFiles := by decide +kernel
  ntypes := by decide
  types := by
    intro t ht
    simp only [orderModule, List.mem_cons, List.not_mem_nil, or_false] at ht
    rcases ht with rfl | rfl | rfl | rfl <;>
      refine ⟨?_, by decide, by decide⟩ <;> simp only [RType.Small] <;> decide
  order := by decide
  nglobals := by decide
  globals := by decide
  nnatives := by decide
  natives := by intro t ht; cases ht
  nfunctions := by decide
  functions := by
    intro t ht
    simp only [orderModule, List.mem_cons, List.not_mem_nil, or_false] at ht
    subst ht
    exact {
      type := by decide
      findex := by decide
      nregs := by decide
      regs := by decide
      nops := by decide
      ops := by
        intro o ho
        simp only [List.mem_cons, List.not_mem_nil, or_false] at ho
        rcases ho with rfl | rfl
        · exact ⟨by decide, rfl, by decide⟩
        · exact ⟨by decide, rfl, by decide⟩
      debug := fun h => by cases h
      assigns := by decide }
  nconstants := by decide
  constants := by intro t ht; cases ht

theorem orderModule_good2 : (orderModule 2).Good where
  version := by decide
  bytes := by decide
  noConstants := by decide
  noDebug := by decide
  entrypoint := by decide
  nints := by decide
  ints := by decide
  nfloats := by decide
  floats := by decide
  nstrings := by decide
  strings := by decide +kernel
  nbytes := by decide
  bytesPos := by decide
  ndebugFiles := by decide
  debugFiles := by decide +kernel
  ntypes := by decide
  types := by
    intro t ht
    simp only [orderModule, List.mem_cons, List.not_mem_nil, or_false] at ht
    rcases ht with rfl | rfl | rfl | rfl <;>
      refine ⟨?_, by decide, by decide⟩ <;> simp only [RType.Small] <;> decide
  order := by decide
  nglobals := by decide
  globals := by decide
  nnatives := by decide
  natives := by intro t ht; cases ht
  nfunctions := by decide
  functions := by
    intro t ht
    simp only [orderModule, List.mem_cons, List.not_mem_nil, or_false] at ht
    subst ht
    exact {
      type := by decide
      findex := by decide
      nregs := by decide
      regs := by decide
      nops := by decide
      ops := by
        intro o ho
        simp only [List.mem_cons, List.not_mem_nil, or_false] at ho
        rcases ho with rfl | rfl
        · exact ⟨by decide, rfl, by decide⟩
        · exact ⟨by decide, rfl, by decide⟩
      debug := fun h => by cases h
      assigns := by decide }
  nconstants := by decide
  constants := by intro t ht; cases ht

theorem orderModule'_good1 : (orderModule' 1).Good where
  version := by decide
  bytes := by decide
  noConstants := by decide
  noDebug := by decide
  entrypoint := by decide
  nints := by decide
  ints := by decide
  nfloats := by decide
  floats := by decide
  nstrings := by decide
  strings := by decide +kernel
  nbytes := by decide
  bytesPos := by decide
  ndebugFiles := by decide
  debugFiles := by decide +kernel
  ntypes := by decide
  types := by
    intro t ht
    simp only [orderModule', List.mem_cons, List.not_mem_nil, or_false] at ht
    rcases ht with rfl | rfl | rfl | rfl <;>
      refine ⟨?_, by decide, by decide⟩ <;> simp only [RType.Small] <;> decide
  order := by decide
  nglobals := by decide
  globals := by decide
  nnatives := by decide
  natives := by intro t ht; cases ht
  nfunctions := by decide
  functions := by
    intro t ht
    simp only [orderModule', List.mem_cons, List.not_mem_nil, or_false] at ht
    subst ht
    exact {
      type := by decide
      findex := by decide
      nregs := by decide
      regs := by decide
      nops := by decide
      ops := by
        intro o ho
        simp only [List.mem_cons, List.not_mem_nil, or_false] at ho
        rcases ho with rfl | rfl
        · exact ⟨by decide, rfl, by decide⟩
        · exact ⟨by decide, rfl, by decide⟩
      debug := fun h => by cases h
      assigns := by decide }
  nconstants := by decide
  constants := by intro t ht; cases ht

theorem orderModule'_good2 : (orderModule' 2).Good where
  version := by decide
  bytes := by decide
  noConstants := by decide
  noDebug := by decide
  entrypoint := by decide
  nints := by decide
  ints := by decide
  nfloats := by decide
  floats := by decide
  nstrings := by decide
  strings := by decide +kernel
  nbytes := by decide
  bytesPos := by decide
  ndebugFiles := by decide
  debugFiles := by decide +kernel
  ntypes := by decide
  types := by
    intro t ht
    simp only [orderModule', List.mem_cons, List.not_mem_nil, or_false] at ht
    rcases ht with rfl | rfl | rfl | rfl <;>
      refine ⟨?_, by decide, by decide⟩ <;> simp only [RType.Small] <;> decide
  order := by decide
  nglobals := by decide
  globals := by decide
  nnatives := by decide
  natives := by intro t ht; cases ht
  nfunctions := by decide
  functions := by
    intro t ht
    simp only [orderModule', List.mem_cons, List.not_mem_nil, or_false] at ht
    subst ht
    exact {
      type := by decide
      findex := by decide
      nregs := by decide
      regs := by decide
      nops := by decide
      ops := by
        intro o ho
        simp only [List.mem_cons, List.not_mem_nil, or_false] at ho
        rcases ho with rfl | rfl
        · exact ⟨by decide, rfl, by decide⟩
        · exact ⟨by decide, rfl, by decide⟩
      debug := fun h => by cases h
      assigns := by decide }
  nconstants := by decide
  constants := by intro t ht; cases ht

theorem orderModule_back (g : Nat) : (orderModule g).RefersBack := by
  intro i t ht
  match i with
  | 0 | 1 | 2 | 3 => cases ht; simp [RType.refs]
  | i + 4 => cases ht

theorem orderModule'_back (g : Nat) : (orderModule' g).RefersBack := by
  intro i t ht
  match i with
  | 0 | 1 | 2 | 3 => cases ht; simp [RType.refs]
  | i + 4 => cases ht

theorem orderModule_renumbered (g : Nat) : Renumbered exchange (orderModule g) (orderModule' g) where
  types := by
    intro i t ht
    match i with
    | 0 | 1 | 2 | 3 => cases ht; rfl
    | i + 4 => cases ht
  ntypes := rfl
  onto := by
    intro j hj
    match j with
    | 0 | 1 | 2 | 3 => first | exact ⟨0, by simp [orderModule], rfl⟩ | exact ⟨1, by simp [orderModule], rfl⟩ | exact ⟨2, by simp [orderModule], rfl⟩ | exact ⟨3, by simp [orderModule], rfl⟩
    | j + 4 => exact absurd (show j + 4 < 4 from hj) (by omega)
  rest := rfl

/-- **C110** The condition on the globals is needed: two different types belong to the same global, and exchanging them changes its signature. -/
theorem c110_order_matters : ∃ σ m m', RModule.Good m ∧ RModule.Good m' ∧ m.NotBare ∧ m.RefersBack ∧ m'.RefersBack ∧ Renumbered σ m m' ∧
    ∃ c c' ch ch', Accepts .release m.encode c ∧ Accepts .release m'.encode c' ∧ CodeHash.alloc c = .ret ch ∧ CodeHash.alloc c' = .ret ch' ∧
      ch.globalsSigns ≠ ch'.globalsSigns := by
  refine ⟨exchange, orderModule 1, orderModule' 1, orderModule_good1, orderModule'_good1, .inr (.inl nofun), orderModule_back 1, orderModule'_back 1,
    orderModule_renumbered 1, ?_⟩
  have h : checkOk (Code.read .release none (orderModule 1).encode) (fun c => checkOk (Code.read .release none (orderModule' 1).encode) fun c' =>
    match CodeHash.alloc c, CodeHash.alloc c' with
    | .ret ch, .ret ch' => decide (ch.globalsSigns ≠ ch'.globalsSigns)
    | _, _ => false) = true := by decide +kernel
  obtain ⟨c, s, h1, h2⟩ := checkOk_iff h
  obtain ⟨c', s', h3, h4⟩ := checkOk_iff h2
  split at h4
  · rename_i ch ch' e1 e2
    exact ⟨c, c', ch, ch', ⟨s, h1⟩, ⟨s', h3⟩, e1, e2, of_decide_eq_true h4⟩
  · cases h4

/-- C110: with a global for each of the two objects the signatures are the same. -/
example : ∃ c c' ch ch', Accepts .release (orderModule 2).encode c ∧ Accepts .release (orderModule' 2).encode c' ∧ CodeHash.alloc c = .ret ch ∧
    CodeHash.alloc c' = .ret ch' ∧ ch.globalsSigns = ch'.globalsSigns ∧ ch.globalsSigns.length = 2 ∧ ch.typeHashes ≠ ch'.typeHashes := by
  have h : checkOk (Code.read .release none (orderModule 2).encode) (fun c => checkOk (Code.read .release none (orderModule' 2).encode) fun c' =>
    match CodeHash.alloc c, CodeHash.alloc c' with
    | .ret ch, .ret ch' => decide (ch.globalsSigns = ch'.globalsSigns ∧ ch.globalsSigns.length = 2 ∧ ch.typeHashes ≠ ch'.typeHashes)
    | _, _ => false) = true := by decide +kernel
  obtain ⟨c, s, h1, h2⟩ := checkOk_iff h
  obtain ⟨c', s', h3, h4⟩ := checkOk_iff h2
  split at h4
  · rename_i ch ch' e1 e2
    exact ⟨c, c', ch, ch', ⟨s, h1⟩, ⟨s', h3⟩, e1, e2, of_decide_eq_true h4⟩
  · cases h4

/-- C110: the function of the module contains an `OType`, and its operand is the number of a type. -/
example : ∃ c, Accepts .release (orderModule 2).encode c ∧ ∃ f ∈ c.functions, TypeOperands c f ∧ ∃ o ∈ f.ops, o.op = .OType := by
  have h : checkOk (Code.read .release none (orderModule 2).encode) (fun c => c.functions.any fun f =>
    (f.ops.any fun o => decide (o.op = .OType)) &&
      f.ops.all fun o => decide (o.op ≠ .OType ∨ (o.p2.getD 0).toNat < c.ntypes ∧ o.p2 = some ((o.p2.getD 0).toNat : Int))) = true := by decide +kernel
  obtain ⟨c, s, h1, h2⟩ := checkOk_iff h
  rw [List.any_eq_true] at h2
  obtain ⟨f, hf, h2⟩ := h2
  rw [Bool.and_eq_true, List.any_eq_true, List.all_eq_true] at h2
  obtain ⟨⟨o, h3, h4⟩, h5⟩ := h2
  refine ⟨c, ⟨s, h1⟩, f, hf, ?_, o, h3, of_decide_eq_true h4⟩
  intro o ho hop
  rcases of_decide_eq_true (h5 o ho) with h | h
  · exact absurd hop h
  · exact ⟨_, h.1, h.2⟩

/-- C110: `orderModule 2` with a type added in front, and a global and a function behind the others. -/
example : Extends (· + 1) (orderModule 2)
    { orderModule 2 with
      types := .prim .HBOOL :: (orderModule 2).types.map (RType.renumber (· + 1))
      globals := [1, 3, 0]
      functions := (orderModule 2).functions.map (RFunction.renumber (· + 1)) ++ [⟨4, 1, [0], [], [], []⟩] } where
  debug := rfl
  strings := List.prefix_refl _
  types := by
    intro i t ht
    show ((orderModule 2).types.map (RType.renumber (· + 1)))[i]? = _
    rw [List.getElem?_map, ht]; rfl
  globals := ⟨[0], rfl⟩
  natives := List.prefix_refl _
  functions := List.prefix_append _ _

end Verif.Brass
