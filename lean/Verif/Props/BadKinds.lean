import Verif.Props.BadFuns

/-!
# Types of unknown kinds, in plain words (C87)
-/

namespace Verif.Brass

open Verif Verif.Brass.Spec

/-- Whether there has been a fault does not matter for the phrases of `f`. -/
def Flagless {α : Type} (f : F α) : Prop := ∀ c b b' w a c', f c b w a c' → f c b' w a c'

namespace Flagless

theorem pure {α : Type} (a : α) : Flagless (Pure.pure a : F α) := fun _ _ _ _ _ _ h => h

theorem ok {α : Type} (g : G α) : Flagless (F.ok g) := fun _ _ _ _ _ _ h => h

theorem mark (k) : Flagless (F.mark k) := fun _ _ _ _ _ _ h => h

theorem bind {α β : Type} {x : F α} {f : α → F β} (hx : Flagless x) (hf : ∀ a, Flagless (f a)) : Flagless (x >>= f) := by
  rintro c b b' w r c'' ⟨w1, w2, a, c', e, h1, h2⟩
  exact ⟨w1, w2, a, c', e, hx _ _ _ _ _ _ h1, hf a _ _ _ _ _ _ h2⟩

theorem ite {α : Type} {P : Prop} [Decidable P] {x y : F α} (hx : Flagless x) (hy : Flagless y) : Flagless (if P then x else y) := by
  split <;> assumption

theorem many {α : Type} {g : F α} (h : Flagless g) : ∀ n, Flagless (F.many g n)
  | 0 => pure []
  | n + 1 => bind h fun _ => bind (many h n) fun _ => pure _

theorem nat : Flagless natF := bind (ok _) fun _ => ite (bind (mark _) fun _ => pure _) (pure _)

theorem ref {α : Type} (n : Code → Nat) (k) {get : Code → Nat → F α} {other : Code → F α} (hg : ∀ c i, Flagless (get c i)) (ho : ∀ c, Flagless (other c)) :
    Flagless (refF n k get other) :=
  bind (ok _) fun _ => bind (ok _) fun _ => ite (bind (mark _) fun _ => ho _) (bind (ok _) fun _ => ite (bind (mark _) fun _ => ho _) (hg _ _))

theorem ustring : Flagless ustringRefF := ref _ _ (fun _ _ => ok _) fun _ => pure _

theorem typeRef : Flagless typeRefF := ref _ _ (fun _ _ => ok _) fun _ => ok _

theorem field : Flagless fieldF := bind ustring fun _ => bind typeRef fun _ => pure _

theorem proto : Flagless protoF := bind ustring fun _ => bind nat fun _ => bind (ok _) fun _ => pure _

theorem binding : Flagless bindingF := bind nat fun _ => bind nat fun _ => pure _

theorem construct : Flagless constructF := bind ustring fun _ => bind nat fun _ => bind (many typeRef _) fun _ => pure _

theorem funcType : Flagless funcTypeF := bind (ok _) fun _ => bind (many typeRef _) fun _ => bind typeRef fun _ => pure _

theorem objType : Flagless objTypeF :=
  bind ustring fun _ => bind (ok _) fun _ => bind nat fun _ => bind nat fun _ => bind nat fun _ => bind nat fun _ =>
    bind (many field _) fun _ => bind (many proto _) fun _ => bind (many binding _) fun _ => pure _

theorem virtualType : Flagless virtualTypeF := bind nat fun _ => bind (many field _) fun _ => pure _

theorem enumType : Flagless enumTypeF := bind ustring fun _ => bind nat fun _ => bind nat fun _ => bind (many construct _) fun _ => pure _

theorem typeBody (t : ValueType) : Flagless (typeBodyF t) := by
  unfold typeBodyF
  split
  · exact bind funcType fun _ => pure _
  · exact bind funcType fun _ => pure _
  · exact bind objType fun _ => pure _
  · exact bind objType fun _ => pure _
  · exact bind typeRef fun _ => pure _
  · exact bind virtualType fun _ => pure _
  · exact bind ustring fun _ => pure _
  · exact bind enumType fun _ => pure _
  · exact bind typeRef fun _ => pure _
  · exact bind typeRef fun _ => pure _
  · exact pure _

theorem type : Flagless typeF :=
  bind (ok _) fun _ => ite (bind (mark _) fun _ => pure _) (bind (ok _) fun _ => typeBody _)

theorem typesStep (i : Nat) (c : Code) : Flagless (typesStepF i c) :=
  bind (ok _) fun _ => bind type fun _ => bind (ok _) fun _ => bind (ok _) fun _ => bind (ok _) fun _ => pure _

end Flagless

/-- The marked text of a type, or of a byte that is no kind. -/
def kindW : RType ⊕ UInt8 → Marked
  | .inl t => plain t.encode
  | .inr v => plain [v] ++ [.fault .invalidType]

theorem text_kindW (x : RType ⊕ UInt8) : text (kindW x) = typeOrKind x := by
  cases x with
  | inl t => exact text_plain _
  | inr v => rfl

theorem text_kindWs (l : List (RType ⊕ UInt8)) : text (l.flatMap kindW) = l.flatMap typeOrKind := by
  induction l with
  | nil => rfl
  | cons x l ih => rw [List.flatMap_cons, List.flatMap_cons, text_append, text_kindW, ih]

theorem faults_kindWs (l : List (RType ⊕ UInt8)) : ∀ pos, ∀ e ∈ faults pos (l.flatMap kindW), e.kind = .invalidType := by
  induction l with
  | nil => intro pos e he; cases he
  | cons x l ih =>
    intro pos e he
    rw [List.flatMap_cons, text_faults_append, List.mem_append] at he
    rcases he with he | he
    · cases x with
      | inl t => rw [show kindW (.inl t) = plain t.encode from rfl, faults_plain] at he; cases he
      | inr v =>
        simp only [kindW, text_faults_append, faults_plain, List.nil_append, faults, List.mem_cons, List.not_mem_nil, or_false] at he
        rw [he]
    · exact ih _ _ he

/-- If only unknown kinds are wrong the first one is reported. -/
theorem reported_kinds (e : DecodeError) (l : List DecodeError) (h : ∀ x ∈ e :: l, x.kind = .invalidType) : reported (e :: l) = some e := by
  have : (e :: l).filter (fun e => e.kind ≠ .invalidType) = [] := by
    rw [List.filter_eq_nil_iff]
    intro x hx
    simp [h x hx]
  unfold reported
  rw [this]
  rfl

/-- The module decoded so far, when `n` types have been read. -/
def TypesSoFar (m : RModule) (n : Nat) (c : Code) : Prop := ∃ u table slots,
  c = { m.c3 with ustrings := u, types := table ++ List.replicate m.types.length ValueType.default } ∧ table.length = n ∧ CacheOk m.strings u slots

theorem typesF_kinds {m : RModule} (hm : m.Readable) : ∀ (l : List (RType ⊕ UInt8)) (n : Nat) (c s : Code) (b : Bool), TypesSoFar m n c →
    (∀ t, .inl t ∈ l → t ∈ m.types) → (∀ v, .inr v ∈ l → 23 ≤ v.toNat) →
    ∃ c' s', F.loop typesStepF n l.length c s b (l.flatMap kindW) c' s' ∧ TypesSoFar m (n + l.length) c'
  | [], n, c, s, b, hc, _, _ => ⟨c, s, ⟨rfl, rfl, rfl⟩, hc⟩
  | x :: l, n, c, s, b, ⟨u, table, slots, hc, hn, hu⟩, hl, hv => by
    have hstep : ∃ c1, typesStepF n c s b (kindW x) c1 c1 ∧ TypesSoFar m (n + 1) c1 := by
      have hins : ∀ t : ValueType, (table ++ List.replicate m.types.length ValueType.default).insertIdx n t =
          (table ++ [t]) ++ List.replicate m.types.length ValueType.default := fun t => by
        rw [← hn, insertIdx_append_length, List.append_assoc]
      cases x with
      | inl t =>
        obtain ⟨h1, h2, h3⟩ := hm.types t (hl t (by simp))
        obtain ⟨u', h4, h5⟩ := Enc.typ (e := ⟨m.strings, table, m.types.length⟩) t (answered m.strings.length slots t.names) (answered_length _ _ _).symm h1 h2 h3
          c slots (by rw [hc]; exact ⟨rfl, rfl, rfl, rfl, hm.nstrings, hm.ntypes⟩) (by rw [hc]; exact hu)
          (by rw [List.map_fst_zip (by rw [answered_length]; exact Nat.le_refl _), List.map_snd_zip (by rw [answered_length]; exact Nat.le_refl _)])
        generalize (t.renamed (answered m.strings.length slots t.names)).decoded m.strings table = tv at h4
        have hct : c.types = table ++ List.replicate m.types.length ValueType.default := by rw [hc]
        let c1 : Code := { c with ustrings := u', types := c.types.insertIdx n tv }
        have hG : typesStepG n c s t.encode c1 c1 :=
          ⟨[], _, (), c, rfl, ⟨rfl, rfl⟩, _, [], _, _, (List.append_nil _).symm, h4, [], [], _, _, rfl, ⟨rfl, rfl, rfl⟩,
            [], [], (), _, rfl, ⟨rfl, by rw [hct]; simp [← hn], rfl⟩, [], [], (), c1, rfl, ⟨rfl, rfl⟩, rfl, rfl, rfl⟩
        have hF := ((unmarked_iff (.ofSim (Sim.readTypesStep n c) (PSem.readTypesStep n c)) (Sem.readTypesStep n c) s (plain t.encode) c1 c1).2 ⟨_, rfl, hG⟩).1
        refine ⟨c1, Flagless.typesStep n c _ _ b _ _ _ hF, u', table ++ [tv], _, ?_, by simp [hn], h5⟩
        simp only [c1, hct, hins]
        rw [hc]
      | inr v =>
        have hct : c.types = table ++ List.replicate m.types.length ValueType.default := by rw [hc]
        let c1 : Code := { c with types := c.types.insertIdx n noType }
        refine ⟨c1, ?_, u, table ++ [noType], slots, ?_, by simp [hn], hu⟩
        · refine ⟨[], _, (), c, rfl, ⟨[], rfl, rfl, rfl⟩, kindW (.inr v), [], noType, c, (List.append_nil _).symm, ?_,
            [], [], c, c, rfl, ⟨[], rfl, rfl, rfl, rfl⟩, [], [], (), c, rfl, ⟨[], rfl, rfl, by rw [hct]; simp [← hn], rfl⟩,
            [], [], (), c1, rfl, ⟨[], rfl, rfl, rfl⟩, rfl, rfl, rfl⟩
          refine ⟨plain [v], _, v.toNat, c, rfl, ⟨[v], rfl, rfl, v, rfl, rfl⟩, ?_⟩
          dsimp only
          rw [if_pos (hv v (by simp))]
          exact ⟨[.fault .invalidType], [], (), c, rfl, ⟨rfl, rfl⟩, rfl, rfl, rfl⟩
        · simp only [c1, hct, hins]
          rw [hc]
    obtain ⟨c1, h1, h2⟩ := hstep
    obtain ⟨c', s', h3, h4⟩ := typesF_kinds hm l (n + 1) c1 c1 (b || faulty (kindW x)) h2 (fun t ht => hl t (List.mem_cons_of_mem _ ht))
      (fun v h => hv v (List.mem_cons_of_mem _ h))
    refine ⟨c', s', ⟨kindW x, _, c1, c1, rfl, h1, h3⟩, ?_⟩
    rw [List.length_cons, show n + (l.length + 1) = n + 1 + l.length by omega]
    exact h4

/-- A global as a number. -/
def globalQ (g : Nat) : List UInt8 × Int := (ix g, (g : Int))

/-- What is read if some types have no kinds, and the globals are others. -/
theorem kinds_rejected (p : Profile) (m : RModule) (hm : m.Readable) (l : List (RType ⊕ UInt8)) (h0 : m.types.length ≠ 0) (hl : l.length = m.types.length)
    (ht : ∀ t, .inl t ∈ l → t ∈ m.types) (hv : ∀ v, .inr v ∈ l → 23 ≤ v.toNat) (gs : List Nat) (hgl : gs.length = m.globals.length)
    (hg : ∀ g ∈ gs, g < 0x2000) (rest : List UInt8) (e : DecodeError)
    (he : reported (faults (beforeTypes m).length (l.flatMap kindW ++ (gs.map globalQ).flatMap (typeW m.types.length))) = some e) :
    ∃ s, Code.read p none (beforeTypes m ++ l.flatMap typeOrKind ++ gs.flatMap ix ++ rest) = .err e s := by
  rw [c87_rejected_iff]
  obtain ⟨c', s', h1, u, table, slots, rfl, hn, hu⟩ := typesF_kinds hm l 0 { m.c3 with types := List.replicate m.types.length ValueType.default }
    (if m.hasDebug then RModule.c3 m.asAnswered else Code.new) false
    ⟨List.replicate m.strings.length none, [], fun _ => none, rfl, rfl, ⟨fun j hj => by simp [hj]⟩⟩ ht hv
  let c4 : Code := { m.c3 with ustrings := u, types := table ++ List.replicate m.types.length ValueType.default }
  obtain ⟨r, s'', h2⟩ := globalsF_typeW m.types.length h0 (by have := hm.ntypes; omega) (gs.map globalQ) 0
    { c4 with globals := List.replicate m.globals.length noType } s' (false || faulty (l.flatMap kindW))
    (by
      intro x hx
      obtain ⟨g, hg', rfl⟩ := List.mem_map.1 hx
      exact ix_bytes (hg g hg'))
    rfl (by show _ ≤ (table ++ _).length; simp) (Nat.zero_le _)
  rw [List.length_map, hgl] at h2
  have hup := beforeTypes_enc hm
  rw [c3_asAnswered] at hup h1
  rw [hl] at h1
  refine .inSection _ _ (beforeTypes m) rest (l.flatMap kindW ++ (gs.map globalQ).flatMap (typeW m.types.length)) m.c3 _ s'' r _ .typesAndGlobals hup
    ⟨l.flatMap kindW, _, c4, s', rfl, h1, h2⟩ ?_ he
  rw [text_append, text_kindWs, text_typeWs, List.flatMap_map]
  simp only [List.append_assoc, globalQ]

/-- **C87** Take any module that can be read, and write bytes that are no kinds of types in the place of some of its types.  The
file is rejected with `InvalidType` after the first such byte: the types after it, and the globals, are read as if nothing had
happened, also if they refer to the types that are missing. -/
theorem c87_module_unknown_kinds (p : Profile) (m : RModule) (hm : m.Readable) (before : List RType) (v : UInt8) (after : List (RType ⊕ UInt8))
    (hl : before.length + 1 + after.length = m.types.length) (hb : ∀ t ∈ before, t ∈ m.types) (hv : 23 ≤ v.toNat)
    (ha : ∀ t, .inl t ∈ after → t ∈ m.types) (hw : ∀ w, .inr w ∈ after → 23 ≤ w.toNat) (rest : List UInt8) :
    ∃ s, Code.read p none (beforeTypes m ++ (before.flatMap RType.encode ++ [v] ++ after.flatMap typeOrKind) ++ m.globals.flatMap ix ++ rest) =
      .err ⟨.invalidType, (beforeTypes m ++ before.flatMap RType.encode ++ [v]).length⟩ s := by
  let l : List (RType ⊕ UInt8) := before.map .inl ++ .inr v :: after
  have el : before.flatMap RType.encode ++ [v] ++ after.flatMap typeOrKind = l.flatMap typeOrKind := by
    simp only [l, List.flatMap_append, List.flatMap_map, List.flatMap_cons, List.append_assoc]
    rfl
  have hg := fun g hg => hm.globals g hg
  rw [el]
  refine kinds_rejected p m hm l (by omega) (by simp [l]; omega) ?_ ?_ m.globals rfl (fun g hg' => Nat.lt_trans (hg g hg') hm.ntypes) rest _ ?_
  · intro t ht
    simp only [l, List.mem_append, List.mem_map, List.mem_cons] at ht
    rcases ht with ⟨t', h, e⟩ | e | h
    · cases e; exact hb _ h
    · cases e
    · exact ha t h
  · intro w hw'
    simp only [l, List.mem_append, List.mem_map, List.mem_cons] at hw'
    rcases hw' with ⟨t', h, e⟩ | e | h
    · cases e
    · cases e; exact hv
    · exact hw w h
  · rw [text_faults_append, faults_typeWs_nil _ _ (by
      intro x hx
      obtain ⟨g, hg', rfl⟩ := List.mem_map.1 hx
      exact ⟨by simp [globalQ], by have := hg g hg'; simp only [globalQ]; omega⟩), List.append_nil]
    have e1 : l.flatMap kindW = plain (before.flatMap RType.encode ++ [v]) ++ (.fault .invalidType :: after.flatMap kindW) := by
      have e2 : (before.map Sum.inl).flatMap kindW = plain (before.flatMap RType.encode) := by
        rw [List.flatMap_map]
        show before.flatMap (fun t => plain t.encode) = _
        unfold plain
        rw [List.map_flatMap]
      simp only [l, List.flatMap_append, List.flatMap_cons, e2, kindW]
      simp [plain]
    have e3 := faults_kindWs l
    rw [e1] at e3 ⊢
    specialize e3 (beforeTypes m).length
    rw [text_faults_append, faults_plain, List.nil_append, text_plain] at e3 ⊢
    simp only [faults] at e3 ⊢
    rw [reported_kinds _ _ e3]
    simp only [List.length_append, Nat.add_assoc]

/-- **C87** If besides some globals refer to types that do not exist, then only this is reported: `InvalidTypeIndex` after the last such
global, although the unknown kinds come first. -/
theorem c87_unknown_kinds_masked (p : Profile) (m : RModule) (hm : m.Readable) (h0 : m.types ≠ []) (l : List (RType ⊕ UInt8)) (hl : l.length = m.types.length)
    (ht : ∀ t, .inl t ∈ l → t ∈ m.types) (hv : ∀ v, .inr v ∈ l → 23 ≤ v.toNat) (before after : List Nat) (g : Nat)
    (hgl : (before ++ [g] ++ after).length = m.globals.length) (hs : ∀ x ∈ before ++ [g] ++ after, x < 0x2000) (hg : m.types.length ≤ g)
    (ha : ∀ x ∈ after, x < m.types.length) (rest : List UInt8) :
    ∃ s, Code.read p none (beforeTypes m ++ l.flatMap typeOrKind ++ (before ++ [g] ++ after).flatMap ix ++ rest) =
      .err ⟨.invalidTypeIndex, (beforeTypes m ++ l.flatMap typeOrKind ++ (before ++ [g]).flatMap ix).length⟩ s := by
  refine kinds_rejected p m hm l (fun h => h0 (List.eq_nil_of_length_eq_zero h)) hl ht hv _ hgl hs rest _ ?_
  have hb : ¬ (0 ≤ (globalQ g).2 ∧ (globalQ g).2 < (m.types.length : Int)) := by simp only [globalQ]; omega
  have haf : ∀ pos, faults pos ((after.map globalQ).flatMap (typeW m.types.length)) = [] := faults_typeWs_nil _ _ (by
    intro x hx
    obtain ⟨y, hy, rfl⟩ := List.mem_map.1 hx
    exact ⟨by simp [globalQ], by have := ha y hy; simp only [globalQ]; omega⟩)
  have ew : typeW m.types.length (globalQ g) = plain (ix g) ++ [.fault .invalidTypeIndex] := by
    unfold typeW
    rw [if_neg hb]
    rfl
  simp only [List.map_append, List.flatMap_append, List.map_cons, List.map_nil, List.flatMap_cons, List.flatMap_nil, List.append_nil, ew]
  simp only [← List.append_assoc]
  rw [text_faults_append, haf, List.append_nil, text_faults_append]
  simp only [faults]
  rw [reported_concat _ _ (by simp)]
  have eb : text ((before.map globalQ).flatMap (typeW m.types.length)) = before.flatMap ix := by rw [text_typeWs, List.flatMap_map]; rfl
  simp only [text_append, text_plain, text_kindWs, eb, List.length_append, Nat.add_assoc]

/-! ## Examples -/

-- In the module of the examples the bytes 23 and 255 take the place of the types 1 and 3; type 2, the globals and type 4 refer to them.
example : ∃ s, Code.read .release none (beforeTypes exampleModule ++ ((RType.prim .HI32).encode ++ [23] ++ ((RType.enum 3 0 [⟨3, [0, 1]⟩]).encode ++ [255] ++
    (RType.null 1).encode)) ++ exampleModule.globals.flatMap ix ++ [1, 2, 3]) = .err ⟨.invalidType, 64⟩ s := by
  have h := c87_module_unknown_kinds .release exampleModule exampleModule_good.toReadable [.prim .HI32] 23 [.inl (.enum 3 0 [⟨3, [0, 1]⟩]), .inr 255, .inl (.null 1)]
    (by decide) (by simp [exampleModule]) (by decide) (by simp [exampleModule]) (by simp) [1, 2, 3]
  have e : (beforeTypes exampleModule ++ [RType.prim .HI32].flatMap RType.encode ++ [23]).length = 64 := by decide +kernel
  rw [e] at h
  simpa [typeOrKind] using h

-- The last global is wrong as well.
example : ∃ s, Code.read .release none (beforeTypes exampleModule ++ [Sum.inr 99, .inr 98, .inr 97, .inr 96, .inr 95].flatMap typeOrKind ++ [0, 5].flatMap ix ++ []) =
    .err ⟨.invalidTypeIndex, 69⟩ s := by
  have h := c87_unknown_kinds_masked .release exampleModule exampleModule_good.toReadable (by decide) [.inr 99, .inr 98, .inr 97, .inr 96, .inr 95]
    (by decide) (by simp) (by simp) [0] [] 5 (by decide) (by decide) (by decide) (by simp) []
  have e : (beforeTypes exampleModule ++ [Sum.inr 99, .inr 98, .inr 97, .inr 96, .inr 95].flatMap typeOrKind ++ ([0] ++ [5]).flatMap ix).length = 69 := by decide +kernel
  rw [e] at h
  exact h

end Verif.Brass
