import Verif.Brass.DebugValues
import Verif.Brass.PrintLemmas

/-!
# All strings that the reader handles are texts

Whatever the input is, and whether or not an error is recorded: every string that gets into a type is UTF-8.
-/

namespace Verif.Brass

open Verif Verif.Brass.Spec

/-- The strings, the cache and the types of a module consist of texts. -/
structure TxC (c : Code) : Prop where
  strings : AreTexts c.strings
  cache : ∀ x, some x ∈ c.ustrings → ∃ t, x = utf8 t
  types : ∀ t ∈ c.types, AreTexts (stringsIn t)

/-- `x` keeps the module in the decoder like this, and its result has `Q`. -/
def Tx {α : Type} (x : M α) (Q : α → Prop) : Prop := ∀ s a s', TxC s.code → x s = .ok a s' → TxC s'.code ∧ Q a

/-- A string that is a text. -/
def IsText (x : Str) : Prop := ∃ t, x = utf8 t

/-- A type that consists of texts. -/
def TxT (t : ValueType) : Prop := AreTexts (stringsIn t)

theorem TxC.of {c c' : Code} (h : TxC c) (h1 : c'.strings = c.strings) (h2 : c'.ustrings = c.ustrings) (h3 : c'.types = c.types) : TxC c' :=
  ⟨h1 ▸ h.strings, h2 ▸ h.cache, h3 ▸ h.types⟩

theorem TxC.new : TxC Code.new := ⟨AreTexts.nil, (by intro x h; cases h), (by intro x h; cases h)⟩

theorem TxT.default : TxT ValueType.default := by
  unfold TxT ValueType.default
  rw [stringsIn, stringsInU, stringsInOpt]
  exact AreTexts.nil

theorem stringsInTypes_texts : ∀ {l : List ValueType}, (∀ t ∈ l, TxT t) → AreTexts (stringsInTypes l)
  | [], _ => by rw [stringsInTypes]; exact AreTexts.nil
  | t :: l, h => by
    rw [stringsInTypes, AreTexts.append]
    exact ⟨h t List.mem_cons_self, stringsInTypes_texts fun t ht => h t (List.mem_cons_of_mem _ ht)⟩

theorem stringsInFields_texts : ∀ {l : List ObjField}, (∀ f ∈ l, IsText f.name ∧ TxT f.t) → AreTexts (stringsInFields l)
  | [], _ => by rw [stringsInFields]; exact AreTexts.nil
  | ⟨n, hn, t⟩ :: l, h => by
    rw [stringsInFields, AreTexts.append, AreTexts.cons]
    exact ⟨h _ List.mem_cons_self, stringsInFields_texts fun t ht => h t (List.mem_cons_of_mem _ ht)⟩

theorem stringsInConstructs_texts : ∀ {l : List EnumConstruct}, (∀ f ∈ l, IsText f.name ∧ ∀ t ∈ f.params, TxT t) → AreTexts (stringsInConstructs l)
  | [], _ => by rw [stringsInConstructs]; exact AreTexts.nil
  | ⟨n, k, p, s, hp, o⟩ :: l, h => by
    rw [stringsInConstructs, AreTexts.append, AreTexts.cons]
    exact ⟨⟨(h _ List.mem_cons_self).1, stringsInTypes_texts (h _ List.mem_cons_self).2⟩,
      stringsInConstructs_texts fun t ht => h t (List.mem_cons_of_mem _ ht)⟩

theorem mem_insertIdx' {α : Type} {l : List α} {i : Nat} {a x : α} (h : x ∈ l.insertIdx i a) : x = a ∨ x ∈ l := InS.mem_insertIdx h

namespace Tx

variable {α β : Type}

theorem mono {x : M α} {Q R : α → Prop} (h : Tx x Q) (hr : ∀ a, Q a → R a) : Tx x R := fun s a s' hs e =>
  ⟨(h s a s' hs e).1, hr a (h s a s' hs e).2⟩
theorem of {x : M α} {Q : α → Prop} (h : Pres (fun c c' : Code => c' = c) x) (hq : Ens x Q) : Tx x Q := fun s a s' hs e => by
  have := h _ _ _ e
  rw [this]
  exact ⟨hs, hq _ _ _ e⟩
theorem keep {x : M α} (h : Pres (fun c c' : Code => c' = c) x) : Tx x (fun _ => True) := of h fun _ _ _ _ => trivial
theorem pure {a : α} {Q : α → Prop} (h : Q a) : Tx (Pure.pure a : M α) Q := by intro s b s' hs e; cases e; exact ⟨hs, h⟩
theorem pure' {a : α} {Q : α → Prop} (h : Q a) : Tx (M.pure a : M α) Q := pure h
theorem panic {Q : α → Prop} : Tx (M.panic : M α) Q := by intro s b s' hs e; cases e
theorem bind {x : M α} {f : α → M β} {Q : α → Prop} {R : β → Prop} (hx : Tx x Q) (hf : ∀ a, Q a → Tx (f a) R) : Tx (x >>= f) R := by
  intro s b s'' hs h
  obtain ⟨a, s', h1, h2⟩ := M.bind_eq_ok h
  obtain ⟨h3, h4⟩ := hx _ _ _ hs h1
  exact hf a h4 _ _ _ h3 h2
theorem ite {b : Prop} [Decidable b] {x y : M α} {Q : α → Prop} (hx : Tx x Q) (hy : Tx y Q) : Tx (if b then x else y) Q := by
  split
  · exact hx
  · exact hy
theorem unwrap {x : M α} {Q : α → Prop} (hx : Tx x Q) : Tx (M.unwrap x) Q := by
  intro s a s' hs h; unfold M.unwrap at h; split at h <;> cases h
  next e => exact hx _ _ _ hs e
theorem getCode : Tx M.getCode TxC := by intro s a s' hs h; cases h; exact ⟨hs, hs⟩
theorem setCode {c : Code} (hc : TxC c) : Tx (M.setCode c) (fun _ => True) := by intro s a s' hs h; cases h; exact ⟨hc, trivial⟩
theorem unwrapOpt {o : Option α} {Q : α → Prop} (h : ∀ a, o = some a → Q a) : Tx (M.unwrapOpt o) Q := by
  cases o
  · exact panic
  · exact pure' (h _ rfl)
theorem insertAt {v : List α} {i : Nat} {x : α} {Q : α → Prop} (hv : ∀ a ∈ v, Q a) (hx : Q x) : Tx (M.insertAt v i x) (fun v => ∀ a ∈ v, Q a) :=
  ite (pure' fun a ha => (mem_insertIdx' ha).elim (fun e => e ▸ hx) (hv a)) panic
theorem forRange {f : Nat → β → M β} {Q : β → Prop} (hf : ∀ i b, Q b → Tx (f i b) Q) : ∀ n a b, Q b → Tx (M.forRange f a n b) Q
  | 0, _, _, h => pure' h
  | n + 1, a, b, h => bind (hf a b h) fun b hb => forRange hf n (a + 1) b hb
theorem list {x : M α} {Q : α → Prop} (h : Tx x Q) (n : Nat) :
    Tx (M.forRange (fun i v => do let a ← x; M.insertAt v i a) 0 n []) (fun v => ∀ a ∈ v, Q a) :=
  forRange (fun _ _ hb => bind h fun _ ha => insertAt hb ha) _ _ _ (by simp)
theorem okOrRecord {x : M α} {Q : α → Prop} (h : Pres (fun c c' : Code => c' = c) x) (he : ∀ s e s', x s = .err e s' → s'.code = s.code) (hq : Ens x Q) :
    Tx (M.okOrRecord x) (fun o => ∀ a, o = some a → Q a) := by
  refine of (Pres.okOrRecord composes_eq h he) ?_
  intro s o s' e
  unfold M.okOrRecord at e
  split at e
  · next e' => cases e; intro a ha; cases ha; exact hq _ _ _ e'
  · cases e; intro a ha; cases ha
  · cases e
theorem checked {x : M α} {Q : α → Prop} (h : Tx x Q) : Tx (checked x) Q :=
  bind h fun _ ha => bind (keep (Pres.checkError composes_eq)) fun _ _ => pure ha

theorem uindex : Tx uindex (fun _ => True) := keep (Pres.uindex composes_eq)
theorem index : Tx index (fun _ => True) := keep (Pres.index composes_eq)
theorem badIndex {i n} : Tx (badIndex i n) (fun _ => True) := keep (Pres.badIndex composes_eq)
theorem byte : Tx (M.unwrap decodeU8) (fun _ => True) := keep (Pres.unwrap (Pres.decodeU8 composes_eq))

theorem getType : Tx getType TxT :=
  bind index fun _ _ => bind getCode fun d hd => bind badIndex fun _ _ =>
    ite (bind (keep (Pres.setError composes_eq)) fun _ _ => unwrapOpt fun _ h => hd.types _ (List.mem_of_getElem? h))
      (unwrapOpt fun _ h => hd.types _ (List.mem_of_getElem? h))

theorem readUstring : Tx readUstring IsText := by
  refine bind index fun i _ => bind getCode fun d hd => bind badIndex fun _ _ =>
    ite (bind (keep (Pres.setError composes_eq)) fun _ _ => pure ⟨[], rfl⟩) ?_
  split
  · exact panic
  · next r c h =>
    have key : TxC c ∧ IsText r := by
      unfold getUstring at h
      split at h
      · cases h
      · split at h
        · cases h
          refine ⟨⟨hd.strings, fun x hx => ?_, hd.types⟩, [], rfl⟩
          rcases mem_insertIdx' hx with hx | hx
          · cases hx
          · exact hd.cache x hx
        · next hr =>
          cases h
          have hr := hd.strings _ (List.mem_of_getElem? hr)
          refine ⟨⟨hd.strings, fun x hx => ?_, hd.types⟩, hr⟩
          rcases mem_insertIdx' hx with hx | hx
          · cases hx; exact hr
          · exact hd.cache x hx
      · next hr => cases h; exact ⟨hd, hd.cache _ (List.mem_of_getElem? hr)⟩
    exact bind (setCode key.1) fun _ _ => pure key.2

theorem readTypeRefs (n : Nat) : Tx (readTypeRefs n) (fun l => ∀ t ∈ l, TxT t) := list getType n
theorem readField : Tx readField (fun f => IsText f.name ∧ TxT f.t) :=
  bind readUstring fun _ h => bind getType fun _ h' => pure ⟨h, h'⟩
theorem readFields (n : Nat) : Tx (readFields n) (fun l => ∀ f ∈ l, IsText f.name ∧ TxT f.t) := list readField n
theorem readProto : Tx readProto (fun f => IsText f.name) :=
  bind readUstring fun _ h => bind uindex fun _ _ => bind index fun _ _ => pure h
theorem readProtos (n : Nat) : Tx (readProtos n) (fun l => ∀ f ∈ l, IsText f.name) := list readProto n
theorem readBindings (n : Nat) : Tx (readBindings n) (fun _ => True) :=
  forRange (fun _ _ _ => bind uindex fun _ _ => bind (keep (Pres.insertAt composes_eq)) fun _ _ => bind uindex fun _ _ =>
    keep (Pres.insertAt composes_eq)) _ _ _ trivial
theorem readConstruct : Tx readConstruct (fun f => IsText f.name ∧ ∀ t ∈ f.params, TxT t) :=
  bind readUstring fun _ h => bind uindex fun _ _ => bind (readTypeRefs _) fun _ h' => pure ⟨h, h'⟩
theorem readConstructs (n : Nat) : Tx (readConstructs n) (fun l => ∀ f ∈ l, IsText f.name ∧ ∀ t ∈ f.params, TxT t) := list readConstruct n

theorem readFuncType : Tx readFuncType (fun u => AreTexts (stringsInU u)) :=
  bind byte fun _ _ => bind (readTypeRefs _) fun _ h => bind getType fun _ h' => pure (by
    rw [stringsInU, AreTexts.append]
    exact ⟨stringsInTypes_texts h, h'⟩)
theorem readSuper : Tx readSuper TxT :=
  bind index fun _ _ => ite (pure TxT.default) (bind getCode fun d hd => unwrapOpt fun _ h => hd.types _ (List.mem_of_getElem? h))
theorem readObjType : Tx readObjType (fun u => AreTexts (stringsInU u)) :=
  bind readUstring fun _ h1 => bind readSuper fun _ h2 => bind uindex fun _ _ => bind uindex fun _ _ => bind uindex fun _ _ => bind uindex fun _ _ =>
    bind (readFields _) fun _ h3 => bind (readProtos _) fun _ h4 => bind (readBindings _) fun _ _ => pure (by
      rw [stringsInU, AreTexts.append, AreTexts.append, AreTexts.cons]
      refine ⟨⟨⟨h1, h2⟩, stringsInFields_texts h3⟩, fun x hx => ?_⟩
      obtain ⟨f, hf, rfl⟩ := List.mem_map.1 hx
      exact h4 f hf)
theorem readVirtualType : Tx readVirtualType (fun u => AreTexts (stringsInU u)) :=
  bind uindex fun _ _ => bind (readFields _) fun _ h => pure (by rw [stringsInU]; exact stringsInFields_texts h)
theorem readEnumType : Tx readEnumType (fun u => AreTexts (stringsInU u)) :=
  bind readUstring fun _ h => bind uindex fun _ _ => bind uindex fun _ _ => bind (readConstructs _) fun _ h' => pure (by
    rw [stringsInU, AreTexts.cons]
    exact ⟨h, stringsInConstructs_texts h'⟩)

theorem readTypeBody (t : ValueType) (ht : TxT t) : Tx (readTypeBody t) TxT := by
  obtain ⟨u, a, tp, k⟩ := t
  unfold TxT at ht
  rw [stringsIn, AreTexts.append, AreTexts.append] at ht
  have union : ∀ {x : M ValueTypeU}, Tx x (fun u => AreTexts (stringsInU u)) → Tx (x >>= fun u => Pure.pure (ValueType.mk u a tp k)) TxT := by
    intro x hx
    refine bind hx fun u hu => pure ?_
    unfold TxT
    rw [stringsIn, AreTexts.append, AreTexts.append]
    exact ⟨⟨hu, ht.1.2⟩, ht.2⟩
  have param : Tx (Brass.getType >>= fun p => Pure.pure (ValueType.mk u a (some p) k)) TxT := by
    refine bind getType fun p hp => pure ?_
    unfold TxT
    rw [stringsIn, AreTexts.append, AreTexts.append, stringsInOpt]
    exact ⟨⟨ht.1.1, ht.1.2⟩, hp⟩
  have abs : Tx (Brass.readUstring >>= fun n => Pure.pure (ValueType.mk u (some n) tp k)) TxT := by
    refine bind readUstring fun p hp => pure ?_
    unfold TxT
    rw [stringsIn, AreTexts.append, AreTexts.append]
    exact ⟨⟨ht.1.1, fun x hx => by simp at hx; rw [hx]; exact hp⟩, ht.2⟩
  have done : TxT ⟨u, a, tp, k⟩ := by
    unfold TxT
    rw [stringsIn, AreTexts.append, AreTexts.append]
    exact ht
  cases k
  case HFUN => exact union readFuncType
  case HMETHOD => exact union readFuncType
  case HOBJ => exact union readObjType
  case HSTRUCT => exact union readObjType
  case HREF => exact param
  case HVIRTUAL => exact union readVirtualType
  case HABSTRACT => exact abs
  case HENUM => exact union readEnumType
  case HNULL => exact param
  case HPACKED => exact param
  all_goals exact pure done

theorem kind {u a tp k} (k') (h : TxT ⟨u, a, tp, k⟩) : TxT ⟨u, a, tp, k'⟩ := by
  unfold TxT at h ⊢
  rw [stringsIn] at h ⊢
  exact h

theorem readType (t : ValueType) (ht : TxT t) : Tx (readType t) TxT :=
  bind byte fun _ _ => ite (bind (keep (Pres.mapErrAt composes_eq)) fun _ _ => pure ht)
    (bind (keep (Pres.unwrapOpt composes_eq)) fun k _ => readTypeBody _ (by obtain ⟨u, a, tp, k0⟩ := t; exact kind k ht))

/-! ### Strings -/

theorem slice_text {st tail s : Str} {i n : Nat} (h : IsText st) (h1 : isCharBoundary st i = true) (h2 : tail = st.drop i)
    (h3 : isCharBoundary tail n = true) (h4 : s = tail.take n) : IsText s := by
  obtain ⟨t, rfl⟩ := h
  obtain ⟨a, b, rfl, rfl⟩ := (boundary_text _ _).1 ((boundary_iff _ _).2 h1)
  rw [utf8_append, List.drop_left] at h2
  subst h2
  obtain ⟨c, d, rfl, rfl⟩ := (boundary_text _ _).1 ((boundary_iff _ _).2 h3)
  rw [utf8_append, List.take_left] at h4
  exact ⟨c, h4⟩

theorem stringsLoop {st : Str} (hst : IsText st) : ∀ (n cursor : Nat) (strs : List Str) (lens : List Nat), AreTexts strs →
    Ens (readStringsLoop st n cursor strs lens) (fun r => AreTexts r.1)
  | 0, _, _, _, h => Ens.pure' h
  | n + 1, cursor, strs, lens, h => by
    refine Ens.bind_ fun sz => Ens.bind (Q := fun tail => isCharBoundary st cursor = true ∧ tail = st.drop cursor) ?_ fun tail ht =>
      Ens.bind (Q := fun s => isCharBoundary tail sz = true ∧ s = tail.take sz) ?_ fun s hs => ?_
    · unfold sliceFrom
      split
      · next h => exact Ens.pure' ⟨h, rfl⟩
      · exact Ens.panic
    · unfold sliceTo
      split
      · next h => exact Ens.pure' ⟨h, rfl⟩
      · exact Ens.panic
    · have hs' : AreTexts (strs ++ [s]) := by
        rw [AreTexts.append, AreTexts.cons]
        exact ⟨h, slice_text hst ht.1 ht.2 hs.1 hs.2, AreTexts.nil⟩
      exact Ens.ite (Ens.pure hs') (stringsLoop hst n _ _ _ hs')

theorem readStrings_ens (n : Nat) : Ens (readStrings n) (fun r => AreTexts r.1) := by
  refine Ens.bind_ fun size => Ens.ite Ens.panic (Ens.bind_ fun bytes => stringsLoop ?_ _ _ _ _ AreTexts.nil)
  obtain ⟨t, _, h⟩ := lossy_spec _ bytes (Nat.le_refl _)
  exact ⟨t, h⟩

theorem readStrings (n : Nat) : Tx (M.okOrRecord (readStrings n)) (fun o => AreTexts (o.getD ([], [])).1) :=
  mono (okOrRecord (Pres.readStrings composes_eq) (fun s e s' h => absurd h (NoErr.readStrings _ _ _ _)) (readStrings_ens n)) fun o h => by
    cases o with
    | none => exact AreTexts.nil
    | some r => exact h r rfl

/-! ### The sections of the file -/

theorem readCounts (v : Nat) : Tx (readCounts v) TxC := by
  refine of (Pres.readCounts composes_eq) ?_
  refine Ens.bind_ fun _ => Ens.bind_ fun _ => Ens.bind_ fun _ => Ens.bind_ fun _ => Ens.bind_ fun _ => Ens.bind_ fun _ =>
    Ens.bind_ fun _ => Ens.bind_ fun _ => Ens.bind_ fun _ => Ens.bind_ fun _ => Ens.bind_ fun _ => Ens.pure (TxC.of TxC.new rfl rfl rfl)

theorem readPools {c : Code} (hc : TxC c) : Tx (readPools c) TxC := by
  have hT := composes_eq
  refine bind (keep (Pres.checked hT (Pres.readPool hT (Pres.decodeI32 hT) (fun s e s' h => Pres.bytes_err s e s' h)))) fun _ _ =>
    bind (keep (Pres.checked hT (Pres.readPool hT (Pres.decodeF64 hT) (fun s e s' h => Pres.bytes_err s e s' h)))) fun _ _ =>
    bind (checked (readStrings _)) fun r hr => pure ⟨hr, hc.cache, hc.types⟩

theorem readBytesSection {c : Code} (hc : TxC c) : Tx (readBytesSection c) TxC := by
  have hT := composes_eq
  have h : TxC { c with ustrings := List.replicate c.nstrings none } :=
    ⟨hc.strings, (by intro x hx; have := (List.mem_replicate.1 hx).2; cases this), hc.types⟩
  refine ite (bind (keep (Pres.decodeI32 hT)) fun _ _ => ite panic (bind (keep (Pres.unwrap (Pres.readBytes hT))) fun _ _ =>
    bind (keep (Pres.checked hT (Pres.forRange hT (fun _ _ => Pres.bind hT (Pres.uindex hT) fun _ => Pres.insertAt hT) _ _ _))) fun _ _ =>
      pure ⟨h.strings, h.cache, h.types⟩)) (pure h)

theorem readDebugFiles {c : Code} (hc : TxC c) : Tx (readDebugFiles c) TxC := by
  refine ite (bind uindex fun _ _ => bind (setCode (hc.of rfl rfl rfl)) fun _ _ => bind (readStrings _) fun r _ => bind getCode fun d hd => ?_) (pure hc)
  have h : TxC (setDebugFiles d r) := by
    cases r with
    | none => exact hd
    | some r => exact hd.of rfl rfl rfl
  exact bind (setCode h) fun _ _ => bind (keep (Pres.checkError composes_eq)) fun _ _ => pure h

theorem readTypesStep (i : Nat) {c : Code} (hc : TxC c) : Tx (readTypesStep i c) TxC := by
  refine bind (setCode hc) fun _ _ => bind (readType _ TxT.default) fun t ht => bind getCode fun d hd =>
    bind (insertAt (Q := TxT) hd.types ht) fun l hl => ?_
  have h : TxC { d with types := l } := ⟨hd.strings, hd.cache, hl⟩
  exact bind (setCode h) fun _ _ => pure h

theorem readTypes {c : Code} (hc : TxC c) : Tx (readTypes c) TxC := by
  refine forRange (Q := TxC) (fun i c hc => readTypesStep i hc) _ _ _ ⟨hc.strings, hc.cache, fun t ht => ?_⟩
  rw [(List.mem_replicate.1 ht).2]
  exact TxT.default

theorem readGlobalsStep (i : Nat) {c : Code} (hc : TxC c) : Tx (readGlobalsStep i c) TxC := by
  refine bind (setCode hc) fun _ _ => bind getType fun t ht => bind getCode fun d hd => bind (keep (Pres.insertAt composes_eq)) fun l _ => ?_
  have h : TxC { d with globals := l } := hd.of rfl rfl rfl
  exact bind (setCode h) fun _ _ => pure h

theorem readGlobals {c : Code} (hc : TxC c) : Tx (readGlobals c) TxC :=
  checked (forRange (Q := TxC) (fun i c hc => readGlobalsStep i hc) _ _ _ (hc.of rfl rfl rfl))

theorem readNativesStep (i : Nat) {c : Code} (hc : TxC c) : Tx (readNativesStep i c) TxC := by
  have hT := composes_eq
  refine bind (keep (Pres.bind hT (Pres.readString hT) fun _ => Pres.bind hT (Pres.readString hT) fun _ =>
    Pres.bind hT (Pres.getType hT) fun _ => Pres.bind hT (Pres.uindex hT) fun _ => Pres.pure hT)) fun n _ => ?_
  have h : TxC { c with natives := c.natives ++ [n] } := hc.of rfl rfl rfl
  exact bind (setCode h) fun _ _ => pure h

theorem readNatives {c : Code} (hc : TxC c) : Tx (readNatives c) TxC :=
  checked (forRange (Q := TxC) (fun i c hc => readNativesStep i hc) _ _ _ (hc.of rfl rfl rfl))

theorem readBefore : Tx readBefore TxC :=
  bind (keep (Pres.readMagic composes_eq)) fun _ _ => bind (keep (Pres.readVersion composes_eq)) fun v _ =>
    bind (checked (readCounts v)) fun _ h => bind (readPools h) fun _ h => bind (readBytesSection h) fun _ h => bind (readDebugFiles h) fun _ h =>
      bind (readTypes h) fun _ h => bind (readGlobals h) fun _ h => readNatives h

theorem readFunction : Tx readFunction (fun f => AreTexts (stringsInFunction f) ∧ f.obj = none ∧ f.field = none) := by
  have hT := composes_eq
  have key : ∀ {t : ValueType} {regs : List ValueType} (a b c d e), TxT t → (∀ r ∈ regs, TxT r) →
      AreTexts (stringsInFunction { t := t, findex := a, nregs := b, nops := c, rf := d, regs := regs, ops := e, debug := [], obj := none, field := none }) := by
    intro t regs a b c d e h1 h2
    unfold stringsInFunction
    simp only [AreTexts.append]
    refine ⟨⟨⟨h1, stringsInTypes_texts h2⟩, ?_⟩, ?_⟩
    · exact AreTexts.nil
    · exact AreTexts.nil
  refine bind getType fun t ht => bind uindex fun _ _ => bind uindex fun _ _ => bind uindex fun _ _ => bind (readTypeRefs _) fun regs hr =>
    bind (keep (Pres.getErrors hT)) fun _ _ => ite (pure ⟨key _ _ _ _ _ ht hr, rfl, rfl⟩) (bind (keep ?_) fun _ _ => pure ⟨key _ _ _ _ _ ht hr, rfl, rfl⟩)
  exact Pres.forRange hT (fun _ _ => Pres.bind hT (Pres.unwrap (Pres.bind hT (Pres.unwrap (Pres.decodeU8 hT)) fun _ =>
      Pres.ite (Pres.bind hT (Pres.setError hT) fun _ => Pres.pure hT) (Pres.bind hT (Pres.unwrapOpt hT) fun _ => Pres.bind hT (Pres.unwrapOpt hT) fun _ =>
        Pres.readOperands hT))) fun _ => Pres.insertAt hT) _ _ _

theorem storeDebug {i : Nat} {o : Option (List Int)} : Tx (storeDebug i o) (fun _ => True) := by
  cases o with
  | none => exact pure' trivial
  | some w => exact bind getCode fun d hd => bind (keep (Pres.unwrapOpt composes_eq)) fun f _ => setCode (hd.of rfl rfl rfl)

theorem readFunctionDebug {p : Profile} {i : Nat} : Tx (readFunctionDebug p i) (fun _ => True) := by
  have hT := composes_eq
  exact bind getCode fun _ _ => ite (bind (keep (Pres.unwrapOpt hT)) fun _ _ =>
    bind (keep (Pres.okOrRecord hT (Pres.debugInfos hT) (fun s e s' h => absurd h (NoErr.debugInfos _ _ _ _ _)))) fun _ _ =>
    bind storeDebug fun _ _ => bind getCode fun _ _ => keep (Pres.skipAssignsIf hT)) (pure trivial)

/-- All functions that the loop prints. -/
theorem loop (p : Profile) : ∀ (n a : Nat) (c : Code) (s : St), TxC c →
    ∀ f, Line.function f ∈ (W.forRange (readFunctionsStepW p) a n c s).2 → AreTexts (stringsInFunction f) ∧ f.obj = none ∧ f.field = none
  | 0, _, _, _, _, f, hl => by cases hl
  | n + 1, a, c, s, hc, f, hl => by
    rw [loop_cases] at hl
    cases h1 : Brass.readFunction { s with code := c } with
    | ok g s1 =>
      rw [h1] at hl
      obtain ⟨h2, h3⟩ := readFunction _ _ _ (show TxC { s with code := c }.code from hc) h1
      simp only [List.mem_cons] at hl
      rcases hl with hl | hl
      · cases hl; exact h3
      · split at hl
        · next h4 =>
          have h5 := (readFunctionDebug _ _ _ (show TxC { s1 with code := { s1.code with functions := s1.code.functions ++ [g] } }.code from h2.of rfl rfl rfl) h4).1
          exact loop p n (a + 1) _ _ h5 f hl
        · cases hl
    | err e s1 => rw [h1] at hl; cases hl
    | panic => rw [h1] at hl; cases hl

end Tx

/-- All strings of the functions that are printed are texts. -/
theorem printed_texts (p : Profile) (e : Option DecodeError) (buf : List UInt8) (f : HLFunction) (hf : Line.function f ∈ printed p e buf) :
    AreTexts (stringsInFunction f) ∧ f.obj = none ∧ f.field = none := by
  unfold printed at hf
  rw [readMW_lines] at hf
  rcases List.mem_append.1 hf with hf | hf
  · exfalso
    unfold versionLines at hf
    split at hf
    · unfold readVersionW at hf
      rw [W.lift_eq] at hf
      split at hf
      · split at hf
        · rw [W.print_bind, W.lift] at hf
          simp at hf
        · cases hf
      · cases hf
    · cases hf
  · split at hf
    · next h => exact Tx.loop p _ _ _ _ (Tx.readBefore _ _ _ TxC.new h).2 f hf
    · cases hf

end Verif.Brass
