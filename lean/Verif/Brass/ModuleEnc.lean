import Verif.Brass.DebugEnc
import Verif.Brass.SemFile

/-!
# Encoded modules belong to the grammar
-/

namespace Verif.Brass

open Verif Verif.Brass.Spec

/-- A loop over a list: `V pre c` describes the value after `pre`; every round leaves the value in the state. -/
theorem loop_enc {X : Type} {g : Nat → Code → G Code} (V : List X → Code → Prop) (P : Code → Code → Prop) (enc : X → List UInt8)
    (l : List X) (hP : ∀ c, P c c)
    (step : ∀ pre x post c s, l = pre ++ x :: post → V pre c → P s c → ∃ c', g pre.length c s (enc x) c' c' ∧ V (pre ++ [x]) c') :
    ∀ post pre c s, l = pre ++ post → V pre c → P s c → ∃ c' s', G.loop g pre.length post.length c s (post.flatMap enc) c' s' ∧ V l c' ∧
      (post = [] → c' = c ∧ s' = s) ∧ (post ≠ [] → s' = c')
  | [], pre, c, s, e, hv, hp => by
    rw [List.append_nil] at e
    subst e
    exact ⟨c, s, ⟨rfl, rfl, rfl⟩, hv, fun _ => ⟨rfl, rfl⟩, fun h => absurd rfl h⟩
  | x :: post, pre, c, s, e, hv, hp => by
    obtain ⟨c1, h1, hv1⟩ := step pre x post c s e hv hp
    obtain ⟨c', s', h2, hv2, h3, h4⟩ := loop_enc V P enc l hP step post (pre ++ [x]) c1 c1 (by simp [e]) hv1 (hP c1)
    refine ⟨c', s', ?_, hv2, by simp, fun _ => ?_⟩
    · rw [List.flatMap_cons, List.length_cons]
      have e2 : (pre ++ [x]).length = pre.length + 1 := by simp
      rw [e2] at h2
      exact ⟨_, _, c1, c1, rfl, h1, h2⟩
    · cases hpost : post with
      | nil => obtain ⟨rfl, rfl⟩ := h3 hpost; rfl
      | cons a l => exact h4 (by simp [hpost])

/-- A phrase that looks up no names and leaves the module alone. -/
theorem Enc.run {e : Env} {α β : Type} {f : Code → β} {g : G α} {a : α} {k : List UInt8} {c : Code} {slots : Nat → Option Nat} (h : Enc e g a k [])
    (hk : KeepsOn f g) (hf : e.Fits c) (hc : CacheOk e.strs c.ustrings slots) : g c k a c := by
  obtain ⟨u, hg, _⟩ := h c slots hf hc rfl
  have := (hk _ _ _ _ hg).1
  rwa [this] at hg

/-- The environment before anything is read. -/
def env0 : Env := ⟨[], [], 0⟩

theorem env0_fits : env0.Fits Code.new := ⟨rfl, rfl, rfl, rfl, by decide⟩

theorem Enc.run0 {α β : Type} {f : Code → β} {g : G α} {a : α} {k : List UInt8} (h : Enc env0 g a k []) (hk : KeepsOn f g) :
    g Code.new k a Code.new := h.run hk env0_fits (slots := fun _ => none) ⟨fun j hj => absurd hj (by simp [env0])⟩

namespace Enc

variable {e : Env}

theorem i32 {v : Int} (h : -2 ^ 31 ≤ v ∧ v < 2 ^ 31) : Enc e i32G v (leBytesSigned 4 v) [] :=
  const fun _ _ => ⟨rfl, by simp [leBytesSigned, leBytes], (i32_enc h.1 h.2).symm⟩

theorem f64 {v : Nat} (h : v < 2 ^ 64) : Enc e f64G v (leBytes 8 v) [] :=
  const fun _ _ => ⟨rfl, by simp [leBytes], (leNat_leBytes8 v h).symm⟩

theorem natIf {b : Prop} [Decidable b] {n : Nat} (h : n < 0x2000) (hb : ¬ b → n = 0) : Enc e (natIfG b) n (if b then ix n else []) [] := by
  unfold natIfG
  split
  · exact nat h
  · rw [hb ‹_›]; exact pure 0

theorem bytes (l : List UInt8) : Enc e (bytesG l.length) l l [] := const fun _ _ => ⟨rfl, rfl, rfl⟩

theorem blob_lt : ∀ (ss : List Text), (∀ s ∈ ss, (utf8 s).length < 0x2000) → (blob ss).length ≤ 0x2000 * ss.length
  | [], _ => by simp [blob]
  | s :: ss, h => by
    have := blob_lt ss (fun x hx => h x (by simp [hx]))
    have h1 := h s (by simp)
    rw [blob_cons]
    simp only [List.length_append, List.length_cons]
    omega

theorem strings (ss : List Text) (h : ∀ s ∈ ss, (utf8 s).length < 0x2000) (hl : ss.length < 0x2000) :
    Enc e (stringsG ss.length) (ss.map utf8) (hlStrings ss) [] :=
  const fun c _ => strings_enc ss h (by have := blob_lt ss h; omega) c

theorem assign {a : Nat × Int} (h : a.1 < 0x2000 ∧ a.2.natAbs < 0x2000) :
    Enc e (natG >>= fun _ => idxG >>= fun _ => Pure.pure ()) () (ix a.1 ++ hlIndex a.2) [] :=
  bind' (nat h.1) (map (idx h.2)) rfl rfl

theorem assigns {l : List (Nat × Int)} (hl : l.length < 0x2000) (h : ∀ a ∈ l, a.1 < 0x2000 ∧ a.2.natAbs < 0x2000) :
    Enc e assignsG () (ix l.length ++ l.flatMap fun a => ix a.1 ++ hlIndex a.2) [] :=
  bind' (nat hl) (map (many (fun _ => ()) (fun a => ix a.1 ++ hlIndex a.2) (fun _ => []) l fun a ha => assign (h a ha))) rfl (by simp)

theorem native {strs : List Text} {m : RModule} {prev : List ValueType} {n : RNative} (hs : strs = m.strings) (hp : prev = m.typeTable)
    (h : n.lib < m.strings.length ∧ n.name < m.strings.length ∧ n.type < m.types.length ∧ n.findex < 0x2000) :
    Enc ⟨strs, prev, m.types.length⟩ nativeG (n.decoded m) n.encode [] := by
  subst hs hp
  exact bind' (string h.1) (bind (string h.2.1) (bind (type h.2.2.1) (map (nat h.2.2.2)))) (by simp [RNative.encode]) rfl

theorem constant {k : RConstant} (h : k.global < 0x2000 ∧ k.fields.length < 0x2000 ∧ ∀ f ∈ k.fields, f < 0x2000) :
    Enc e constantG k.decoded k.encode [] :=
  bind' (nat h.1) (bind (nat h.2.1) (map (nats h.2.2))) (by simp [RConstant.encode]) rfl

/-- A function without its debug information. -/
def coreDecoded (m : RModule) (f : RFunction) : HLFunction := { f.decoded m with debug := [] }

theorem function {m : RModule} {f : RFunction} (h : f.Good m) :
    Enc ⟨m.strings, m.typeTable, m.types.length⟩ functionG (coreDecoded m f)
      (ix f.type ++ ix f.findex ++ ix f.regs.length ++ ix f.ops.length ++ f.regs.flatMap ix ++ f.ops.flatMap Instr.encode) [] :=
  bind' (type h.type) (bind (nat h.findex) (bind (nat h.nregs) (bind (nat h.nops) (bind (types h.regs)
    (map (many Instr.decoded Instr.encode (fun _ => []) f.ops fun o ho => opcode o (h.ops o ho))))))) (by simp) (by simp)

end Enc

/-! ## The sections -/

/-- After the counts. -/
def Spec.RModule.c0 (m : RModule) : Code :=
  { Code.new with
    version := m.version, nints := m.ints.length, nfloats := m.floats.length, nstrings := m.strings.length,
    nbytes := m.bytesPos.length, ntypes := m.types.length, nglobals := m.globals.length, nnatives := m.natives.length,
    nfunctions := m.functions.length, nconstants := m.constants.length, entrypoint := m.entrypoint,
    hasdebug := if m.hasDebug then 1 else 0 }

/-- After the pools. -/
def Spec.RModule.c1 (m : RModule) : Code :=
  { m.c0 with ints := m.ints, floats := m.floats, strings := m.strings.map utf8, stringsLens := m.strings.map fun s => (utf8 s).length }

/-- After the bytes. -/
def Spec.RModule.c2 (m : RModule) : Code :=
  { m.c1 with ustrings := List.replicate m.strings.length none, bytes := m.bytes, bytesPos := m.bytesPos }

/-- After the debug files. -/
def Spec.RModule.c3 (m : RModule) : Code :=
  { m.c2 with ndebugfiles := m.debugFiles.length, debugfiles := m.debugFiles.map utf8 }

/-- After the types. -/
def Spec.RModule.c4 (m : RModule) (u : List (Option Str)) : Code :=
  { m.c3 with ustrings := u, types := m.typeTable ++ List.replicate m.types.length ValueType.default }

/-- After the globals. -/
def Spec.RModule.c5 (m : RModule) (u : List (Option Str)) : Code :=
  { m.c4 u with globals := m.globals.map (tref m.typeTable) ++ List.replicate m.globals.length ValueType.default }

/-- After the natives. -/
def Spec.RModule.c6 (m : RModule) (u : List (Option Str)) : Code :=
  { m.c5 u with natives := m.natives.map (RNative.decoded m) }

/-- After the functions. -/
def Spec.RModule.c7 (m : RModule) (u : List (Option Str)) : Code :=
  { m.c6 u with functions := m.functions.map (RFunction.decoded m) }

/-- After the constants. -/
def Spec.RModule.c8 (m : RModule) (u : List (Option Str)) : Code :=
  { m.c7 u with constants := m.constants.map RConstant.decoded }

theorem c8_eq (m : RModule) (u) : RModule.c8 m u = { m.decoded with ustrings := u } := rfl

section

variable {m : RModule} (hm : m.Readable)
include hm

theorem counts_enc : countsG m.version Code.new m.counts (RModule.c0 m) Code.new := by
  refine Enc.run0 (f := fun _ => ()) ?_ (KeepsOn.countsG _)
  have hfl : (if m.hasDebug then 1 else 0 : Nat) < 0x2000 := by split <;> decide
  refine ((Enc.nat hfl).bind <| (Enc.nat hm.nints).bind <| (Enc.nat hm.nfloats).bind <| (Enc.nat hm.nstrings).bind <|
    (Enc.natIf (b := m.version ≥ 5) hm.nbytes.2 (fun h => by rw [(hm.bytes (by omega)).2]; rfl)).bind <| (Enc.nat hm.ntypes).bind <|
    (Enc.nat hm.nglobals).bind <| (Enc.nat hm.nnatives).bind <| (Enc.nat hm.nfunctions).bind <|
    (Enc.natIf (b := m.version ≥ 4) hm.nconstants (fun h => by rw [hm.noConstants (by omega)]; rfl)).bind <|
    Enc.map (Enc.nat hm.entrypoint)).congr ?_ ?_ rfl
  · unfold RModule.c0
    cases m.hasDebug <;> rfl
  · simp [RModule.counts]

theorem pools_enc : poolsG (RModule.c0 m) Code.new
    (m.ints.flatMap (leBytesSigned 4) ++ m.floats.flatMap (leBytes 8) ++ hlStrings m.strings) (RModule.c1 m) Code.new := by
  refine Enc.run0 (f := fun _ => ()) ?_ (KeepsOn.poolsG _)
  refine (((Enc.many (fun a => a) (leBytesSigned 4) (fun _ => []) m.ints fun v hv => Enc.i32 (hm.ints v hv))).bind <|
    (Enc.many (fun a => a) (leBytes 8) (fun _ => []) m.floats fun v hv => Enc.f64 (hm.floats v hv)).bind <|
    Enc.map (Enc.strings m.strings hm.strings hm.nstrings)).congr ?_ ?_ ?_
  · simp [RModule.c1, Function.comp_def]
  · simp
  · simp

theorem bytes_enc : bytesSectionG (RModule.c1 m) Code.new
    (if 5 ≤ m.version then leBytesSigned 4 m.bytes.length ++ m.bytes ++ m.bytesPos.flatMap ix else []) (RModule.c2 m) Code.new := by
  refine Enc.run0 (f := fun _ => ()) ?_ (KeepsOn.bytesSectionG _)
  unfold bytesSectionG
  split
  · next h =>
    have h : 5 ≤ m.version := h
    rw [if_pos h]
    have hb := hm.nbytes
    refine ((Enc.i32 (v := (m.bytes.length : Int)) (by omega)).bind <| (Enc.guard (by omega)).bind <|
      (Enc.bytes m.bytes).bind <| Enc.map (Enc.nats hm.bytesPos)).congr ?_ ?_ rfl
    · rfl
    · simp
  · next h =>
    have h : ¬ 5 ≤ m.version := h
    rw [if_neg h]
    have hb := hm.bytes (by omega)
    exact (Enc.pure _).congr (by simp only [RModule.c2, hb]; rfl) rfl rfl

/-- Module in the state after the debug files. -/
theorem files_enc : debugFilesG (RModule.c2 m) Code.new (if m.hasDebug then ix m.debugFiles.length ++ hlStrings m.debugFiles else [])
    (RModule.c3 m) (if m.hasDebug then RModule.c3 m else Code.new) := by
  unfold debugFilesG
  cases hd : m.hasDebug with
  | true =>
    have h : (RModule.c2 m).hasdebug = 1 := by simp [RModule.c2, RModule.c1, RModule.c0, hd]
    rw [if_pos (by omega), if_pos rfl, if_pos rfl]
    have h1 : (natG >>= fun n => stringsG n >>= fun l => (Pure.pure l : G (List Str))) Code.new (ix m.debugFiles.length ++ hlStrings m.debugFiles) (m.debugFiles.map utf8) Code.new :=
      Enc.run0 (f := fun _ => ()) (Enc.bind (ns := []) (ns' := []) (Enc.nat hm.ndebugFiles) (Enc.map (f := fun x => x) (Enc.strings m.debugFiles hm.debugFiles hm.ndebugFiles)))
        (KeepsOn.bind .natG fun _ => KeepsOn.bind (.stringsG _) fun _ => .pure _)
    exact ⟨_, _, m.debugFiles.length, Code.new, rfl, ix_natG hm.ndebugFiles _, _, [], _, Code.new, (List.append_nil _).symm,
      strings_enc _ hm.debugFiles (by have := Enc.blob_lt _ hm.debugFiles; have := hm.ndebugFiles; omega) _,
      [], [], (), _, rfl, ⟨rfl, rfl⟩, rfl, rfl, rfl⟩
  | false =>
    have h : (RModule.c2 m).hasdebug = 0 := by simp [RModule.c2, RModule.c1, RModule.c0, hd]
    rw [if_neg (by omega), if_neg (by decide), if_neg (by decide)]
    have := hm.noDebug hd
    exact ⟨rfl, by simp only [RModule.c3, this]; rfl, rfl⟩

end

theorem decodeTypes_append (strs : List Text) : ∀ (l l' : List RType) (prev), decodeTypes strs prev (l ++ l') = decodeTypes strs (decodeTypes strs prev l) l'
  | [], _, _ => rfl
  | t :: l, l', prev => by simp only [List.cons_append, decodeTypes]; exact decodeTypes_append strs l l' _

theorem decodeTypes_length (strs : List Text) : ∀ (l : List RType) (prev), (decodeTypes strs prev l).length = prev.length + l.length
  | [], _ => rfl
  | t :: l, prev => by simp only [decodeTypes, decodeTypes_length strs l, List.length_append, List.length_cons, List.length_nil]; omega

section

variable {m : RModule} (hm : m.Readable)
include hm

theorem fits4 (c : Code) (h1 : c.nstrings = m.strings.length) (h2 : c.strings = m.strings.map utf8) (h3 : c.ntypes = m.types.length)
    (h4 : c.types = m.typeTable ++ List.replicate m.types.length ValueType.default) :
    (Env.mk m.strings m.typeTable m.types.length).Fits c := ⟨h1, h2, h3, h4, hm.nstrings, hm.ntypes⟩

theorem globals_enc (u slots) (hu : CacheOk m.strings u slots) (s : Code) : ∃ s', globalsG (RModule.c4 m u) s (m.globals.flatMap ix) (RModule.c5 m u) s' ∧
    (m.globals = [] → s' = s ∧ RModule.c5 m u = RModule.c4 m u) ∧ (m.globals ≠ [] → s' = RModule.c5 m u) := by
  let V : List Nat → Code → Prop := fun pre c =>
    c = { m.c4 u with globals := pre.map (tref m.typeTable) ++ List.replicate m.globals.length ValueType.default }
  have key := loop_enc (g := globalsStepG) V (fun _ _ => True) ix m.globals (fun _ => trivial) ?_ m.globals []
    { m.c4 u with globals := List.replicate m.globals.length ValueType.default } s rfl rfl trivial
  · obtain ⟨c', s', h1, h2, h3, h4⟩ := key
    obtain rfl : c' = RModule.c5 m u := h2
    refine ⟨s', h1, fun h => ⟨(h3 h).2, ?_⟩, h4⟩
    rw [(h3 h).1, h]; rfl
  · rintro pre t post c s e rfl _
    have ht := hm.globals t (by rw [e]; simp)
    refine ⟨{ m.c4 u with globals := (pre ++ [t]).map (tref m.typeTable) ++ List.replicate m.globals.length ValueType.default }, ?_, rfl⟩
    refine ⟨[], _, (), _, rfl, ⟨rfl, rfl⟩, _, [], _, _, (List.append_nil _).symm,
      (Enc.type (e := ⟨m.strings, m.typeTable, m.types.length⟩) ht).run KeepsOn.typeRefG (fits4 hm _ rfl rfl rfl rfl) hu,
      [], [], (), _, rfl, ⟨rfl, by simp, rfl⟩, ?_⟩
    have e3 : (pre.map (tref m.typeTable) ++ List.replicate m.globals.length ValueType.default).insertIdx
          pre.length (tref m.typeTable t) =
          (pre ++ [t]).map (tref m.typeTable) ++ List.replicate m.globals.length ValueType.default := by
      have := insertIdx_append_length (pre.map (tref m.typeTable)) (List.replicate m.globals.length ValueType.default) (tref m.typeTable t)
      rw [List.length_map] at this
      rw [this]; simp
    rw [← e3]
    exact ⟨[], [], (), _, rfl, ⟨rfl, rfl⟩, rfl, rfl, rfl⟩

theorem natives_enc (u slots) (hu : CacheOk m.strings u slots) (s : Code) (hs : s = RModule.c5 m u ∨ m.natives = []) :
    ∃ s', nativesG (RModule.c5 m u) s (m.natives.flatMap RNative.encode) (RModule.c6 m u) s' ∧
    (m.natives = [] → s' = s ∧ RModule.c6 m u = RModule.c5 m u) ∧ (m.natives ≠ [] → s' = RModule.c6 m u) := by
  let V : List RNative → Code → Prop := fun pre c => c = { m.c5 u with natives := pre.map (RNative.decoded m) }
  have key := loop_enc (g := nativesStepG) V (fun s c => s = c ∨ m.natives = []) RNative.encode m.natives (fun _ => Or.inl rfl) ?_ m.natives []
    { m.c5 u with natives := [] } s rfl rfl hs
  · obtain ⟨c', s', h1, h2, h3, h4⟩ := key
    obtain rfl : c' = RModule.c6 m u := h2
    refine ⟨s', h1, fun h => ⟨(h3 h).2, ?_⟩, h4⟩
    rw [(h3 h).1]; rfl
  · rintro pre n post c s e rfl hs
    have hn := hm.natives n (by rw [e]; simp)
    have hs : s = _ := hs.resolve_right (by rw [e]; simp)
    subst hs
    refine ⟨{ m.c5 u with natives := (pre ++ [n]).map (RNative.decoded m) }, ?_, rfl⟩
    refine ⟨_, [], _, _, (List.append_nil _).symm,
      (Enc.native (m := m) rfl rfl hn).run KeepsOn.nativeG (fits4 hm _ rfl rfl rfl rfl) hu, ?_⟩
    rw [List.map_append]
    exact ⟨[], [], (), _, rfl, ⟨rfl, rfl⟩, rfl, rfl, rfl⟩

/-- A function. -/
theorem function_enc (p : Profile) {f : RFunction} (hf : f.Good m) {c : Code} {slots} (hu : CacheOk m.strings c.ustrings slots)
    (hc : (Env.mk m.strings m.typeTable m.types.length).Fits c) (hd : c.ndebugfiles = m.debugFiles.length) (hv : c.version = m.version)
    (hh : c.hasdebug = if m.hasDebug then 1 else 0) : functionWithDebugG p c c (f.encode m) (f.decoded m) c := by
  have h1 := (Enc.function hf).run KeepsOn.functionG hc hu
  cases hb : m.hasDebug with
  | false =>
    refine ⟨_, [], _, _, ?_, h1, ?_⟩
    · simp [RFunction.encode, hb]
    · refine Sem.gneg (by simp [hh, hb]) ?_
      refine ⟨rfl, ?_, rfl⟩
      simp [Enc.coreDecoded, RFunction.decoded, hb]
  | true =>
    obtain ⟨⟨h2, h3, h4, h5⟩, h6, h7⟩ := hf.debug hb
    have hnd := hm.ndebugFiles
    obtain ⟨d', h8, h9⟩ := stream_mem (p := p) (nops := f.ops.length) (c := c) (by omega) f.debug ⟨-1, 0, []⟩ h2
      (fun i hi f' e => by rw [hd]; exact h3 i hi f' e) h6 h5 (by simpa using h4) rfl h7 (by simp only; omega)
    refine ⟨_, (f.debug.flatMap DbgItem.encode ++
      (if 3 ≤ m.version then ix f.assigns.length ++ f.assigns.flatMap fun a => ix a.1 ++ hlIndex a.2 else [])), _, _, ?_, h1, ?_⟩
    · rw [RFunction.encode, if_pos hb]
    · refine Sem.gpos (by simp [hh, hb]) ?_
      refine ⟨_, [], wordsOf (dbgMeaning (-1) 0 f.debug), c, (List.append_nil _).symm, ?_, rfl, ?_, rfl⟩
      · refine ⟨_, _, wordsOf (dbgMeaning (-1) 0 f.debug), c, rfl, ⟨_, [], d', c, (List.append_nil _).symm, h8, rfl, ?_, rfl⟩, ?_⟩
        · rw [h9]; rfl
        · by_cases h3v : 3 ≤ m.version
          · rw [if_pos h3v]
            refine Sem.gpos (by rw [hv]; exact h3v) ?_
            exact ⟨_, [], (), c, (List.append_nil _).symm, (Enc.assigns hf.assigns.1 hf.assigns.2).run (f := fun _ => ()) KeepsOn.assignsG hc hu,
              rfl, rfl, rfl⟩
          · rw [if_neg h3v]
            refine Sem.gneg (by rw [hv]; exact h3v) ?_
            exact ⟨rfl, rfl, rfl⟩
      · simp [Enc.coreDecoded, RFunction.decoded, hb, wordsOf]

theorem functions_enc (p : Profile) (u slots) (hu : CacheOk m.strings u slots) (s : Code) :
    ∃ s', functionsG p (RModule.c6 m u) s (m.functions.flatMap (RFunction.encode m)) (RModule.c7 m u) s' ∧
    (m.functions = [] → s' = s ∧ RModule.c7 m u = RModule.c6 m u) ∧ (m.functions ≠ [] → s' = RModule.c7 m u) := by
  let V : List RFunction → Code → Prop := fun pre c => c = { m.c6 u with functions := pre.map (RFunction.decoded m) }
  have key := loop_enc (g := functionsStepG p) V (fun _ _ => True) (RFunction.encode m) m.functions (fun _ => trivial) ?_ m.functions []
    (m.c6 u) s rfl rfl trivial
  · obtain ⟨c', s', h1, h2, h3, h4⟩ := key
    obtain rfl : c' = RModule.c7 m u := h2
    exact ⟨s', h1, fun h => ⟨(h3 h).2, (h3 h).1⟩, h4⟩
  · rintro pre f post c s e rfl _
    have hf := hm.functions f (by rw [e]; simp)
    refine ⟨{ m.c6 u with functions := (pre ++ [f]).map (RFunction.decoded m) }, ?_, rfl⟩
    refine ⟨[], _, (), _, rfl, ⟨rfl, rfl⟩, _, [], _, _, (List.append_nil _).symm,
      function_enc hm p hf hu (fits4 hm _ rfl rfl rfl rfl) rfl rfl rfl, ?_⟩
    rw [List.map_append]
    exact ⟨[], [], (), _, rfl, ⟨rfl, rfl⟩, rfl, rfl, rfl⟩

theorem constants_enc (u : List (Option Str)) (s : Code) :
    ∃ s', constantsG (RModule.c7 m u) s (m.constants.flatMap RConstant.encode) (RModule.c8 m u) s' ∧
    (m.constants = [] → s' = s ∧ RModule.c8 m u = RModule.c7 m u) ∧ (m.constants ≠ [] → s' = RModule.c8 m u) := by
  let V : List RConstant → Code → Prop := fun pre c => c = { m.c7 u with constants := pre.map RConstant.decoded }
  have key := loop_enc (g := constantsStepG) V (fun _ _ => True) RConstant.encode m.constants (fun _ => trivial) ?_ m.constants []
    (m.c7 u) s rfl rfl trivial
  · obtain ⟨c', s', h1, h2, h3, h4⟩ := key
    obtain rfl : c' = RModule.c8 m u := h2
    exact ⟨s', h1, fun h => ⟨(h3 h).2, (h3 h).1⟩, h4⟩
  · rintro pre k post c s e rfl _
    have hk := hm.constants k (by rw [e]; simp)
    refine ⟨{ m.c7 u with constants := (pre ++ [k]).map RConstant.decoded }, ?_, rfl⟩
    have h0 := (Enc.constant hk).run0 (f := fun _ => ()) KeepsOn.constantG
    refine ⟨_, [], _, _, (List.append_nil _).symm, (KeepsOn.constantG (f := fun _ => ()) _ _ _ _ h0).2 s rfl,
      [], [], (), _, rfl, ⟨rfl, by simp, rfl⟩, ?_⟩
    have e3 : (pre.map RConstant.decoded).insertIdx pre.length k.decoded = (pre ++ [k]).map RConstant.decoded := by
      have := insertIdx_append_length (pre.map RConstant.decoded) [] k.decoded
      rw [List.length_map] at this
      simpa using this
    show (G.setCode { m.c7 u with constants := (pre.map RConstant.decoded).insertIdx pre.length k.decoded } >>= _) _ _ _ _
    rw [e3]
    exact ⟨[], [], (), _, rfl, ⟨rfl, rfl⟩, rfl, rfl, rfl⟩

end

/-! ## The types, with the names that are found for them -/

theorem decodeTypes_snoc (strs : List Text) (l : List RType) (t : RType) (prev) :
    decodeTypes strs prev (l ++ [t]) = decodeTypes strs prev l ++ [t.decoded strs (decodeTypes strs prev l)] := by
  rw [decodeTypes_append]; rfl

theorem renameTypes_length : ∀ (l : List RType) (ns), (renameTypes l ns).length = l.length
  | [], _ => rfl
  | t :: l, ns => by simp [renameTypes, renameTypes_length l]

theorem renameTypes_snoc : ∀ (l : List RType) (t : RType) (ns : List Nat), renameTypes (l ++ [t]) ns =
    renameTypes l ns ++ [t.renamed ((ns.drop (l.flatMap RType.names).length).take t.names.length)]
  | [], t, ns => by simp [renameTypes]
  | a :: l, t, ns => by
    simp only [List.cons_append, renameTypes, renameTypes_snoc l t, List.flatMap_cons, List.length_append, List.drop_drop]

theorem renamed_zip {β : Type} (nm : β → Nat) (rn : β → Nat → β) (h : ∀ b, rn b (nm b) = b) : ∀ l : List β,
    (l.zip (l.map nm)).map (fun x => rn x.1 x.2) = l
  | [] => rfl
  | b :: l => by simp [h, renamed_zip nm rn h l]

theorem renamed_names (t : RType) : t.renamed t.names = t := by
  cases t with
  | obj s name super global fields protos bindings =>
    have e1 : ((fields.map RField.name ++ protos.map RProto.name).drop fields.length) = protos.map RProto.name :=
      List.drop_left' (by simp)
    have e2 : fields.zip (fields.map RField.name ++ protos.map RProto.name) = fields.zip (fields.map RField.name) := by
      have := List.zip_append (l₁ := fields) (r₁ := []) (l₂ := fields.map RField.name) (r₂ := protos.map RProto.name) (by simp)
      simpa using this
    simp only [RType.renamed, RType.names, List.headD_cons, List.drop_succ_cons, List.drop_zero, Nat.add_comm 1, e1, e2]
    rw [renamed_zip RField.name RField.renamed (fun _ => rfl), renamed_zip RProto.name RProto.renamed (fun _ => rfl)]
  | virt fields => simp only [RType.renamed, RType.names]; rw [renamed_zip RField.name RField.renamed (fun _ => rfl)]
  | enum name global cs =>
    simp only [RType.renamed, RType.names, List.headD_cons, List.drop_succ_cons, List.drop_zero]
    rw [renamed_zip RConstruct.name RConstruct.renamed (fun _ => rfl)]
  | _ => rfl

theorem renameTypes_names : ∀ l : List RType, renameTypes l (l.flatMap RType.names) = l
  | [] => rfl
  | t :: l => by
    simp only [renameTypes, List.flatMap_cons, List.take_left', List.drop_left', renameTypes_names l, renamed_names]

theorem map_fst_zip' {β γ : Type} (l : List β) (ns : List γ) (h : l.length = ns.length) : (l.zip ns).map Prod.fst = l :=
  List.map_fst_zip (by omega)

/-- New names change neither the kind, the numbers nor the references of a type. -/
theorem renamed_facts (t : RType) (ns : List Nat) (h : t.names.length = ns.length) :
    (t.renamed ns).names = ns ∧ (t.renamed ns).refs = t.refs ∧ (t.Small → (t.renamed ns).Small) := by
  have zlen : ∀ {β : Type} (l : List β) (ns : List Nat), l.length = ns.length → (l.zip ns).length = l.length := fun l ns h => by simp [h]
  have zname : ∀ {β : Type} (nm : β → Nat) (rn : β → Nat → β) (_ : ∀ b x, nm (rn b x) = x) (l : List β) (ns : List Nat), l.length = ns.length →
      ((l.zip ns).map fun x => rn x.1 x.2).map nm = ns := by
    intro β nm rn hr l ns hl
    rw [List.map_map]
    have : (nm ∘ fun x : β × Nat => rn x.1 x.2) = Prod.snd := by funext x; simp [hr]
    rw [this, List.map_snd_zip (by omega)]
  have zkeep : ∀ {β γ : Type} (q : β → γ) (rn : β → Nat → β) (_ : ∀ b x, q (rn b x) = q b) (l : List β) (ns : List Nat), l.length = ns.length →
      ((l.zip ns).map fun x => rn x.1 x.2).map q = l.map q := by
    intro β γ q rn hr l ns hl
    rw [List.map_map]
    have : (q ∘ fun x : β × Nat => rn x.1 x.2) = q ∘ Prod.fst := by funext x; simp [hr]
    rw [this, ← List.map_map, map_fst_zip' l ns hl]
  have zall : ∀ {β : Type} (P : β → Prop) (rn : β → Nat → β) (_ : ∀ b x, P b → P (rn b x)) (l : List β) (ns : List Nat), (∀ b ∈ l, P b) →
      ∀ b ∈ ((l.zip ns).map fun x => rn x.1 x.2), P b := by
    intro β P rn hr l ns hl b hb
    obtain ⟨x, hx, rfl⟩ := List.mem_map.1 hb
    exact hr _ _ (hl _ (List.of_mem_zip hx).1)
  cases t with
  | obj s name super global fs ps bindings =>
    cases ns with
    | nil => simp [RType.names] at h
    | cons n ns =>
      simp only [RType.names, List.length_cons, List.length_append, List.length_map, Nat.add_right_cancel_iff] at h
      obtain ⟨nf, np, rfl, hf⟩ : ∃ nf np, ns = nf ++ np ∧ nf.length = fs.length :=
        ⟨ns.take fs.length, ns.drop fs.length, (List.take_append_drop _ _).symm, by simp; omega⟩
      rw [List.length_append] at h
      have e1 : (1 + fs.length) = nf.length + 1 := by omega
      have e2 : fs.zip (nf ++ np) = fs.zip nf := by
        rw [← List.append_nil fs, List.zip_append (by simpa using hf.symm)]; simp
      have hp : ps.length = np.length := by omega
      simp only [RType.renamed, List.headD_cons, List.drop_succ_cons, List.drop_zero, e1, List.drop_left', e2]
      refine ⟨?_, ?_, ?_⟩
      · simp only [RType.names]
        rw [zname RField.name RField.renamed (fun _ _ => rfl) fs nf hf.symm, zname RProto.name RProto.renamed (fun _ _ => rfl) ps np hp]
      · simp only [RType.refs]
        rw [zkeep RField.type RField.renamed (fun _ _ => rfl) fs nf hf.symm]
      · rintro ⟨h1, h2, h3, h4, h5, h6⟩
        refine ⟨h1, by simp; omega, by simp; omega, h4, ?_, h6⟩
        exact zall (fun f => f.findex < 0x2000 ∧ f.pindex.natAbs < 0x2000) RProto.renamed (fun _ _ h => h) ps np h5
  | virt fs =>
    have h : fs.length = ns.length := by simpa [RType.names] using h
    refine ⟨?_, ?_, fun hs => ?_⟩
    · exact zname RField.name RField.renamed (fun _ _ => rfl) fs ns h
    · exact zkeep RField.type RField.renamed (fun _ _ => rfl) fs ns h
    · show (_ : Nat) < _
      have hs : fs.length < 0x2000 := hs
      simp; omega
  | abstract n =>
    cases ns with
    | nil => simp [RType.names] at h
    | cons x ns =>
      cases ns with
      | nil => exact ⟨rfl, rfl, fun h => h⟩
      | cons y ns => simp [RType.names] at h
  | enum n global cs =>
    cases ns with
    | nil => simp [RType.names] at h
    | cons x ns =>
      have h : cs.length = ns.length := by simpa [RType.names] using h
      simp only [RType.renamed, List.headD_cons, List.drop_succ_cons, List.drop_zero]
      refine ⟨?_, ?_, ?_⟩
      · simp only [RType.names]
        rw [zname RConstruct.name RConstruct.renamed (fun _ _ => rfl) cs ns h]
      · simp only [RType.refs]
        have := congrArg List.flatten (zkeep RConstruct.params RConstruct.renamed (fun _ _ => rfl) cs ns h)
        simpa only [List.flatMap_def] using this
      · rintro ⟨h1, h2, h3⟩
        refine ⟨h1, by simp; omega, ?_⟩
        exact zall (fun c => c.params.length < 0x2000) RConstruct.renamed (fun _ _ h => h) cs ns h3
  | _ => exact ⟨by simpa [RType.names, RType.renamed, eq_comm] using h, rfl, fun h => h⟩

theorem renameTypes_facts : ∀ (l : List RType) (ns : List Nat), (l.flatMap RType.names).length = ns.length →
    (renameTypes l ns).flatMap RType.names = ns ∧ (renameTypes l ns).map RType.refs = l.map RType.refs ∧
      ∀ t ∈ renameTypes l ns, ∃ t0 ∈ l, t.refs = t0.refs ∧ (t0.Small → t.Small)
  | [], ns, h => by
    cases ns with
    | nil => simp [renameTypes]
    | cons a l => simp at h
  | t :: l, ns, h => by
    rw [List.flatMap_cons, List.length_append] at h
    obtain ⟨h1, h2, h3⟩ := renamed_facts t (ns.take t.names.length) (by simp; omega)
    obtain ⟨h4, h5, h6⟩ := renameTypes_facts l (ns.drop t.names.length) (by rw [List.length_drop]; omega)
    refine ⟨?_, ?_, ?_⟩
    · simp only [renameTypes, List.flatMap_cons, h1, h4, List.take_append_drop]
    · simp only [renameTypes, List.map_cons, h2, h5]
    · intro x hx
      rcases List.mem_cons.1 hx with rfl | hx
      · exact ⟨t, by simp, h2, h3⟩
      · obtain ⟨t0, h7, h8⟩ := h6 x hx
        exact ⟨t0, by simp [h7], h8⟩

theorem answered_lt : ∀ (l : List Nat) (n : Nat) (slots : Nat → Option Nat), (∀ j x, slots j = some x → x < n) →
    (∀ i ∈ l, i < n) → ∀ x ∈ answered n slots l, x < n
  | [], _, _, _, _ => by simp [answered]
  | i :: l, n, slots, h, hl => by
    have hi := hl i (by simp)
    unfold answered
    cases hs : slots i with
    | some y =>
      intro x hx
      rcases List.mem_cons.1 hx with rfl | hx
      · exact h i _ hs
      · exact answered_lt l n slots h (fun j hj => hl j (by simp [hj])) x hx
    | none =>
      intro x hx
      rcases List.mem_cons.1 hx with rfl | hx
      · exact hi
      · refine answered_lt l n _ ?_ (fun j hj => hl j (by simp [hj])) x hx
        intro j y hy
        unfold putIn at hy
        split at hy
        · exact h _ _ hy
        · split at hy
          · simp [hi] at hy; omega
          · exact h _ _ hy

/-- The names found for the types of a module. -/
abbrev found (m : RModule) : List Nat := answered m.strings.length (fun _ => none) (m.types.flatMap RType.names)

theorem found_length (m : RModule) : (m.types.flatMap RType.names).length = (found m).length := (answered_length _ _ _).symm

theorem asAnswered_types (m : RModule) : m.asAnswered.types.length = m.types.length := renameTypes_length _ _

theorem asAnswered_readable {m : RModule} (hm : m.Readable) : m.asAnswered.Readable where
  version := hm.version
  bytes := hm.bytes
  noConstants := hm.noConstants
  noDebug := hm.noDebug
  entrypoint := hm.entrypoint
  nints := hm.nints
  ints := hm.ints
  nfloats := hm.nfloats
  floats := hm.floats
  nstrings := hm.nstrings
  strings := hm.strings
  nbytes := hm.nbytes
  bytesPos := hm.bytesPos
  ndebugFiles := hm.ndebugFiles
  debugFiles := hm.debugFiles
  ntypes := by rw [asAnswered_types]; exact hm.ntypes
  types := by
    intro t ht
    obtain ⟨h1, _, h3⟩ := renameTypes_facts m.types (found m) (found_length m)
    obtain ⟨t0, h4, h5, h6⟩ := h3 t ht
    obtain ⟨h7, h8, h9⟩ := hm.types t0 h4
    refine ⟨h6 h7, by rw [h5, asAnswered_types]; exact h8, fun j hj => ?_⟩
    refine answered_lt (m.types.flatMap RType.names) _ (fun _ => none) (fun _ _ h => by cases h) (fun i hi => ?_) j ?_
    · obtain ⟨t1, ht1, hi⟩ := List.mem_flatMap.1 hi
      exact (hm.types t1 ht1).2.2 i hi
    · show j ∈ found m
      rw [← h1]
      exact List.mem_flatMap.2 ⟨t, ht, hj⟩
  nglobals := hm.nglobals
  globals := by rw [asAnswered_types]; exact hm.globals
  nnatives := hm.nnatives
  natives := by rw [asAnswered_types]; exact hm.natives
  nfunctions := hm.nfunctions
  functions := fun f hf => by
    have h := hm.functions f hf
    exact { type := by rw [asAnswered_types]; exact h.type
            findex := h.findex
            nregs := h.nregs
            regs := by rw [asAnswered_types]; exact h.regs
            nops := h.nops
            ops := h.ops
            debug := h.debug
            assigns := h.assigns }
  nconstants := hm.nconstants
  constants := hm.constants

/-- If the lookups are in order, every name is found. -/
theorem asAnswered_good {m : RModule} (hm : m.Good) : m.asAnswered = m := by
  have : found m = m.types.flatMap RType.names := answered_inOrder _ _ [] _ (fun j => by simp) (fun i hi => by
    obtain ⟨t1, ht1, hi⟩ := List.mem_flatMap.1 hi
    exact (hm.types t1 ht1).2.2 i hi) hm.order
  show ({ m with types := renameTypes m.types (found m) } : RModule) = m
  rw [this, renameTypes_names]

theorem c3_asAnswered (m : RModule) : RModule.c3 m.asAnswered = RModule.c3 m := by
  have := asAnswered_types m
  simp only [RModule.c3, RModule.c2, RModule.c1, RModule.c0, this]
  rfl

theorem types_enc {m : RModule} (hm : m.Readable) (s : Code) : ∃ u s', typesG (RModule.c3 m.asAnswered) s (m.types.flatMap RType.encode)
      (RModule.c4 m.asAnswered u) s' ∧
    (∃ slots, CacheOk m.strings u slots) ∧ (m.types = [] → s' = s ∧ RModule.c4 m.asAnswered u = RModule.c3 m.asAnswered) ∧
      (m.types ≠ [] → s' = RModule.c4 m.asAnswered u) := by
  rw [c3_asAnswered]
  have e4 : ∀ u, RModule.c4 m.asAnswered u =
      { m.c3 with ustrings := u, types := decodeTypes m.strings [] (renameTypes m.types (found m)) ++ List.replicate m.types.length ValueType.default } := by
    intro u
    rw [← asAnswered_types m, ← c3_asAnswered m]; rfl
  simp only [e4]
  let V : List RType → Code → Prop := fun pre c => ∃ u,
    c = { m.c3 with ustrings := u, types := decodeTypes m.strings [] (renameTypes pre (found m)) ++ List.replicate m.types.length ValueType.default } ∧
    CacheOk m.strings u (slotsAfter m.strings.length (fun _ => none) (pre.flatMap RType.names))
  have key := loop_enc (g := typesStepG) V (fun _ _ => True) RType.encode m.types (fun _ => trivial) ?_ m.types []
    { m.c3 with types := List.replicate m.types.length ValueType.default } s rfl
    ⟨List.replicate m.strings.length none, rfl, ⟨fun j hj => by simp [hj, slotsAfter]⟩⟩ trivial
  · obtain ⟨c', s', h1, ⟨u, rfl, h2⟩, h3, h4⟩ := key
    refine ⟨u, s', h1, ⟨_, h2⟩, fun h => ?_, h4⟩
    obtain ⟨h5, h6⟩ := h3 h
    refine ⟨h6, ?_⟩
    rw [h5, h]; rfl
  · rintro pre t post c s e ⟨u, rfl, hc⟩ _
    have ht : t ∈ m.types := by rw [e]; simp
    obtain ⟨h1, h2, h3⟩ := hm.types t ht
    have hlen := decodeTypes_length m.strings (renameTypes pre (found m)) []
    simp only [List.length_nil, Nat.zero_add, renameTypes_length] at hlen
    have hns : answered m.strings.length (slotsAfter m.strings.length (fun _ => none) (pre.flatMap RType.names)) t.names =
        ((found m).drop (pre.flatMap RType.names).length).take t.names.length := by
      have e5 : found m = answered m.strings.length (fun _ => none) (pre.flatMap RType.names) ++ (answered m.strings.length
          (slotsAfter m.strings.length (fun _ => none) (pre.flatMap RType.names)) t.names ++ answered m.strings.length
          (slotsAfter m.strings.length (slotsAfter m.strings.length (fun _ => none) (pre.flatMap RType.names)) t.names) (post.flatMap RType.names)) := by
        unfold found
        rw [e, List.flatMap_append, answered_append, List.flatMap_cons, answered_append]
      rw [e5, List.drop_left' (answered_length _ _ _), List.take_left' (answered_length _ _ _)]
    have hl : t.names.length = (((found m).drop (pre.flatMap RType.names).length).take t.names.length).length := by
      rw [← hns, answered_length]
    obtain ⟨u', h4, h5⟩ := Enc.typ (e := ⟨m.strings, decodeTypes m.strings [] (renameTypes pre (found m)), m.types.length⟩) t _ hl h1 h2 h3
      { m.c3 with ustrings := u, types := decodeTypes m.strings [] (renameTypes pre (found m)) ++ List.replicate m.types.length ValueType.default }
      (slotsAfter m.strings.length (fun _ => none) (pre.flatMap RType.names)) ⟨rfl, rfl, rfl, rfl, hm.nstrings, hm.ntypes⟩ hc
      (by rw [List.map_fst_zip (by omega), List.map_snd_zip (by omega)]; exact hns)
    rw [List.map_fst_zip (by omega), ← slotsAfter_append] at h5
    refine ⟨{ m.c3 with ustrings := u', types := decodeTypes m.strings [] (renameTypes (pre ++ [t]) (found m)) ++ List.replicate m.types.length ValueType.default },
      ?_, u', rfl, by simpa using h5⟩
    refine ⟨[], _, (), _, rfl, ⟨rfl, rfl⟩, _, [], _, _, (List.append_nil _).symm, h4, [], [], _, _, rfl, ⟨rfl, rfl, rfl⟩,
      [], [], (), _, rfl, ⟨rfl, ?_, rfl⟩, ?_⟩
    · simp [hlen]
    · have e3 : (decodeTypes m.strings [] (renameTypes pre (found m)) ++ List.replicate m.types.length ValueType.default).insertIdx
          pre.length ((t.renamed (((found m).drop (pre.flatMap RType.names).length).take t.names.length)).decoded m.strings
            (decodeTypes m.strings [] (renameTypes pre (found m)))) =
          decodeTypes m.strings [] (renameTypes (pre ++ [t]) (found m)) ++ List.replicate m.types.length ValueType.default := by
        rw [renameTypes_snoc, decodeTypes_snoc, ← hlen, insertIdx_append_length]
      rw [← e3]
      exact ⟨[], [], (), _, rfl, ⟨rfl, rfl⟩, rfl, rfl, rfl⟩

theorem counts_asAnswered (m : RModule) : m.asAnswered.counts = m.counts := by
  have := asAnswered_types m
  simp only [RModule.counts, this]
  rfl

/-- The serialisation of a module is a file of the grammar, and its value is the module with the names that are found
(unless the module is bare). -/
theorem module_enc' {m : RModule} (hm : m.Readable) (p : Profile) (hb : m.NotBare) :
    ∃ u, fileG p Code.new m.encode { m.asAnswered.decoded with ustrings := u } { m.asAnswered.decoded with ustrings := u } := by
  have hv := hm.version
  have hm' := asAnswered_readable hm
  obtain ⟨u, s4, h4, ⟨slots, hu⟩, h4a, h4b⟩ := types_enc hm (if m.hasDebug then RModule.c3 m.asAnswered else Code.new)
  obtain ⟨s5, h5, h5a, h5b⟩ := globals_enc hm' u slots hu s4
  have noTypes : m.types = [] → m.globals = [] ∧ m.natives = [] ∧ m.functions = [] := fun h => by
    refine ⟨?_, ?_, ?_⟩
    · rcases hg : m.globals with _ | ⟨t, l⟩
      · rfl
      · have := hm.globals t (by simp [hg]); simp [h] at this
    · rcases hg : m.natives with _ | ⟨t, l⟩
      · rfl
      · have := hm.natives t (by simp [hg]); simp [h] at this
    · rcases hg : m.functions with _ | ⟨t, l⟩
      · rfl
      · have := (hm.functions t (by simp [hg])).type; simp [h] at this
  have t4 : m.types ≠ [] → s4 = RModule.c4 m.asAnswered u := h4b
  have t5 : m.types ≠ [] → s5 = RModule.c5 m.asAnswered u := fun h => by
    by_cases hg : m.globals = []
    · rw [(h5a hg).1, (h5a hg).2]; exact t4 h
    · exact h5b hg
  obtain ⟨s6, h6, h6a, h6b⟩ := natives_enc hm' u slots hu s5 (by
    by_cases h : m.types = []
    · exact Or.inr (noTypes h).2.1
    · exact Or.inl (t5 h))
  obtain ⟨s7, h7, h7a, h7b⟩ := functions_enc hm' p u slots hu s6
  obtain ⟨s8, h8, h8a, h8b⟩ := constants_enc hm' u s7
  have t8 : s8 = RModule.c8 m.asAnswered u := by
    by_cases hc : m.constants = []
    · rw [(h8a hc).1, (h8a hc).2]
      by_cases ht : m.types = []
      · obtain ⟨e1, e2, e3⟩ := noTypes ht
        have hd : m.hasDebug = true := by
          rcases hb with h | h | h | h | h | h
          · exact h
          · exact absurd ht h
          · exact absurd e1 h
          · exact absurd e2 h
          · exact absurd e3 h
          · exact absurd hc h
        rw [(h7a e3).1, (h7a e3).2, (h6a e2).1, (h6a e2).2, (h5a e1).1, (h5a e1).2, (h4a ht).1, (h4a ht).2, if_pos hd]
      · by_cases hf : m.functions = []
        · rw [(h7a hf).1, (h7a hf).2]
          by_cases hn : m.natives = []
          · rw [(h6a hn).1, (h6a hn).2]; exact t5 ht
          · exact h6b hn
        · exact h7b hf
    · exact h8b hc
  refine ⟨u, ?_⟩
  rw [← c8_eq]
  have e4 : (if 4 ≤ m.version then m.constants.flatMap RConstant.encode else []) = m.constants.flatMap RConstant.encode := by
    split
    · rfl
    · rw [hm.noConstants (by omega)]; rfl
  unfold Spec.RModule.encode
  rw [e4, ← counts_asAnswered]
  simp only [List.append_assoc]
  refine ⟨[0x48, 0x4C, 0x42], [UInt8.ofNat m.version] ++ _, (), Code.new, rfl, ⟨rfl, rfl⟩, [UInt8.ofNat m.version], _, m.version, Code.new, rfl, ?_,
    _, _, _, _, rfl, counts_enc hm', ?_⟩
  · refine ⟨[UInt8.ofNat m.version], [], m.version, _, rfl, ⟨rfl, _, rfl, (ofNat8 (by omega)).symm⟩, [], [], (), _, rfl, ⟨rfl, hv, rfl⟩, rfl, rfl, rfl⟩
  have hp := pools_enc hm'
  refine ⟨_, _, _, _, ?_, hp, _, _, _, _, rfl, bytes_enc hm', _, _, _, _, rfl, files_enc hm', _, _, _, _, rfl, h4, _, _, _, _, rfl, h5,
    _, _, _, _, rfl, h6, _, _, _, _, rfl, h7, _, [], _, _, (List.append_nil _).symm, h8, rfl, t8.symm, t8.symm⟩
  simp only [List.append_assoc]
  rfl

/-- If the names are looked up in order, the value is the module. -/
theorem module_enc {m : RModule} (hm : m.Good) (p : Profile) (hb : m.NotBare) :
    ∃ u, fileG p Code.new m.encode { m.decoded with ustrings := u } { m.decoded with ustrings := u } := by
  have := module_enc' hm.toReadable p hb
  rwa [asAnswered_good hm] at this

end Verif.Brass
