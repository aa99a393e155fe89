import Verif.Brass.StringsEnc
import Verif.Spec.Answered

/-!
# Encodings belong to the grammar: types and instructions
-/

namespace Verif.Brass

open Verif Verif.Brass.Spec

/-- What references are resolved with: the strings, the types before the current one, the number of types. -/
structure Env where
  strs : List Text
  prev : List ValueType
  ntypes : Nat

/-- The module decoded so far has this environment: the strings; the types so far followed by defaults. -/
structure Env.Fits (e : Env) (c : Code) : Prop where
  nstrings : c.nstrings = e.strs.length
  strings : c.strings = e.strs.map utf8
  ntypes : c.ntypes = e.ntypes
  types : c.types = e.prev ++ List.replicate e.ntypes ValueType.default
  small : e.strs.length < 0x2000 ∧ e.ntypes < 0x2000

/-- The cache holds the strings whose indexes are in `slots`. -/
structure CacheOk (strs : List Text) (u : List (Option Str)) (slots : Nat → Option Nat) : Prop where
  entries : ∀ j, j < strs.length → u[j]? = some ((slots j).map (sref strs))

/-- The slots after the lookups. -/
def slotsAfter (present : Nat) (slots : Nat → Option Nat) : List Nat → Nat → Option Nat
  | [] => slots
  | i :: l =>
    match slots i with
    | some _ => slotsAfter present slots l
    | none => slotsAfter present (putIn slots i (if i < present then some i else none)) l

theorem answered_append (n : Nat) : ∀ (l l' : List Nat) (slots : Nat → Option Nat),
    answered n slots (l ++ l') = answered n slots l ++ answered n (slotsAfter n slots l) l'
  | [], _, _ => rfl
  | i :: l, l', slots => by
    simp only [List.cons_append, answered, slotsAfter]
    cases slots i with
    | some x => simp only [List.cons_append]; rw [answered_append n l l']
    | none => simp only [List.cons_append]; rw [answered_append n l l']

theorem slotsAfter_append (n : Nat) : ∀ (l l' : List Nat) (slots : Nat → Option Nat),
    slotsAfter n slots (l ++ l') = slotsAfter n (slotsAfter n slots l) l'
  | [], _, _ => rfl
  | i :: l, l', slots => by
    simp only [List.cons_append, slotsAfter]
    cases slots i with
    | some x => exact slotsAfter_append n l l' _
    | none => exact slotsAfter_append n l l' _

theorem answered_length (n : Nat) : ∀ (l : List Nat) (slots : Nat → Option Nat), (answered n slots l).length = l.length
  | [], _ => rfl
  | i :: l, slots => by
    simp only [answered]
    cases slots i with
    | some x => simp [answered_length n l]
    | none => simp [answered_length n l]

theorem Env.Fits.cache {e : Env} {c : Code} (h : e.Fits c) (u) : e.Fits { c with ustrings := u } :=
  ⟨h.nstrings, h.strings, h.ntypes, h.types, h.small⟩

/-- `k` is a phrase of `g` with value `a`, in the environment `e`; it looks up the strings `ns.map fst`, and `a` is the
value if the strings `ns.map snd` are found. -/
def Enc (e : Env) {α : Type} (g : G α) (a : α) (k : List UInt8) (ns : List (Nat × Nat)) : Prop :=
  ∀ c slots, e.Fits c → CacheOk e.strs c.ustrings slots → answered e.strs.length slots (ns.map (·.1)) = ns.map (·.2) →
    ∃ u, g c k a { c with ustrings := u } ∧ CacheOk e.strs u (slotsAfter e.strs.length slots (ns.map (·.1)))

theorem inOrder_append {seen l l' : List Nat} : InOrder seen (l ++ l') ↔ InOrder seen l ∧ InOrder (seen ++ l) l' := by
  induction l generalizing seen with
  | nil => simp [InOrder]
  | cons j l ih => simp only [List.cons_append, InOrder, ih, and_assoc]; simp

/-- Lookups in order are right. -/
theorem answered_inOrder (n : Nat) : ∀ (l seen : List Nat) (slots : Nat → Option Nat), (∀ j, slots j = if j ∈ seen then some j else none) →
    (∀ i ∈ l, i < n) → InOrder seen l → answered n slots l = l
  | [], _, _, _, _, _ => rfl
  | i :: l, seen, slots, h, hl, ho => by
    have hi := hl i (by simp)
    have hs := h i
    simp only [answered]
    by_cases hm : i ∈ seen
    · rw [if_pos hm] at hs
      rw [hs]
      simp only
      rw [answered_inOrder n l (seen ++ [i]) slots (fun j => ?_) (fun j hj => hl j (by simp [hj])) ho.2]
      rw [h j]
      by_cases hj : j = i
      · subst hj; simp [hm]
      · simp [hj]
    · rw [if_neg hm] at hs
      rw [hs]
      simp only [if_pos hi]
      have above := ho.1.resolve_left hm
      rw [answered_inOrder n l (seen ++ [i]) _ (fun j => ?_) (fun j hj => hl j (by simp [hj])) ho.2]
      unfold putIn
      by_cases h1 : j < i
      · rw [if_pos h1, h j]
        have : j ≠ i := by omega
        simp [this]
      · rw [if_neg h1]
        by_cases h2 : j = i
        · subst h2; simp
        · have h3 : j - 1 ∉ seen := fun h => by have := above _ h; omega
          have h4 : j ∉ seen := fun h => by have := above _ h; omega
          rw [if_neg h2, h, if_neg h3]
          simp [h4, h2]

namespace Enc

variable {e : Env}

/-- A phrase that ignores the module. -/
theorem const {α : Type} {g : G α} {a : α} {k : List UInt8} (h : ∀ c, e.Fits c → g c k a c) : Enc e g a k [] := by
  intro c slots hf hc _
  exact ⟨c.ustrings, h c hf, by simpa [slotsAfter] using hc⟩

theorem pure {α : Type} (a : α) : Enc e (Pure.pure a : G α) a [] [] := const fun _ _ => ⟨rfl, rfl, rfl⟩

theorem bind {α β : Type} {x : G α} {f : α → G β} {a : α} {b : β} {k k' : List UInt8} {ns ns' : List (Nat × Nat)}
    (h : Enc e x a k ns) (h' : Enc e (f a) b k' ns') : Enc e (x >>= f) b (k ++ k') (ns ++ ns') := by
  intro c slots hf hc ho
  rw [List.map_append, List.map_append, answered_append] at ho
  obtain ⟨ho1, ho2⟩ := List.append_inj ho (by simp [answered_length])
  obtain ⟨u, hg, hc'⟩ := h c slots hf hc ho1
  obtain ⟨u', hg', hc''⟩ := h' { c with ustrings := u } _ (hf.cache u) hc' ho2
  exact ⟨u', ⟨k, k', a, _, rfl, hg, hg'⟩, by rw [List.map_append, slotsAfter_append]; exact hc''⟩

/-- `bind` with the bytes and names given up to equality. -/
theorem bind' {α β : Type} {x : G α} {f : α → G β} {a : α} {b : β} {k k' K : List UInt8} {ns ns' NS : List (Nat × Nat)}
    (h : Enc e x a k ns) (h' : Enc e (f a) b k' ns') (hk : K = k ++ k') (hn : NS = ns ++ ns') : Enc e (x >>= f) b K NS := by
  subst hk hn; exact bind h h'

/-- A final `pure`. -/
theorem map {α β : Type} {x : G α} {f : α → β} {a : α} {k : List UInt8} {ns : List (Nat × Nat)}
    (h : Enc e x a k ns) : Enc e (x >>= fun a => (Pure.pure (f a) : G β)) (f a) k ns := by
  exact bind' h (pure _) (by simp) (by simp)

theorem many {α β : Type} {g : G α} (val : β → α) (enc : β → List UInt8) (names : β → List (Nat × Nat)) : ∀ (l : List β),
    (∀ b ∈ l, Enc e g (val b) (enc b) (names b)) → Enc e (G.many g l.length) (l.map val) (l.flatMap enc) (l.flatMap names)
  | [], _ => pure _
  | b :: l, h => by
    have := many val enc names l (fun x hx => h x (by simp [hx]))
    refine bind' (h b (by simp)) (bind this (pure _)) ?_ ?_ <;> simp

theorem congr {α : Type} {g : G α} {a a' : α} {k k' : List UInt8} {ns ns' : List (Nat × Nat)} (h : Enc e g a k ns) (ha : a' = a) (hk : k' = k)
    (hn : ns' = ns) : Enc e g a' k' ns' := by subst ha hk hn; exact h

theorem byte {n : Nat} (h : n < 256) : Enc e byteG n [UInt8.ofNat n] [] :=
  const fun _ _ => ⟨rfl, UInt8.ofNat n, rfl, (ofNat8 h).symm⟩

theorem nat {n : Nat} (h : n < 0x2000) : Enc e natG n (ix n) [] := const fun c _ => ix_natG h c

theorem idx {n : Int} (h : n.natAbs < 0x2000) : Enc e idxG n (hlIndex n) [] := const fun _ _ => ⟨rfl, small_idx h⟩

theorem guard {P : Prop} (h : P) : Enc e (G.guard P) () [] [] := const fun _ _ => ⟨rfl, h, rfl⟩

theorem some {α : Type} {o : Option α} {a : α} (h : o = Option.some a) : Enc e (G.some o) a [] [] := const fun _ _ => ⟨rfl, h, rfl⟩

/-- Type references. -/
theorem type_get {c : Code} (hf : e.Fits c) {j : Nat} (h : j < e.ntypes) : c.types[j]? = Option.some (tref e.prev j) := by
  rw [hf.types]
  unfold tref
  by_cases hj : j < e.prev.length
  · rw [List.getElem?_append_left hj, List.getElem?_eq_getElem hj]; rfl
  · rw [List.getElem?_append_right (by omega), List.getElem?_eq_none (l := e.prev) (by omega)]
    rw [List.getElem?_replicate, if_pos (by omega)]; rfl

theorem type {j : Nat} (h : j < e.ntypes) : Enc e typeRefG (tref e.prev j) (ix j) [] := const fun c hf => by
  have s := hf.small
  refine ⟨rfl, by rw [hf.ntypes]; omega, j, small_idx (by simp; omega), by rw [hf.ntypes]; exact h, type_get hf h⟩

theorem sref_get {strs : List Text} {j : Nat} (h : j < strs.length) : (strs.map utf8)[j]? = Option.some (sref strs j) := by
  simp [sref, h]

/-- String references that bypass the cache. -/
theorem string {j : Nat} (h : j < e.strs.length) : Enc e stringRefG (sref e.strs j) (ix j) [] := const fun c hf => by
  have s := hf.small
  refine ⟨rfl, by rw [hf.nstrings]; omega, j, small_idx (by simp; omega), by rw [hf.nstrings]; exact h, ?_⟩
  rw [hf.strings]; exact sref_get h

/-- String references through the cache. -/
theorem name {j x : Nat} (h : j < e.strs.length) : Enc e ustringRefG (sref e.strs x) (ix j) [(j, x)] := by
  intro c slots hf hc ho
  have s := hf.small
  have hj := hc.entries j h
  have hi : IdxBytes (ix j) (j : Int) := small_idx (by simp; omega)
  have hs : c.strings[j]? = Option.some (sref e.strs j) := by rw [hf.strings]; exact sref_get h
  simp only [List.map_cons, List.map_nil, answered] at ho
  simp only [List.map_cons, List.map_nil, slotsAfter]
  cases hsl : slots j with
  | some y =>
    simp only [hsl, List.cons.injEq, and_true] at ho
    subst ho
    rw [hsl] at hj
    exact ⟨c.ustrings, ⟨by rw [hf.nstrings]; omega, j, hi, by rw [hf.nstrings]; exact h, Or.inl ⟨hj, rfl⟩⟩, hc⟩
  | none =>
    simp only [hsl, List.cons.injEq, and_true] at ho
    subst ho
    rw [hsl] at hj
    refine ⟨c.ustrings.insertIdx j c.strings[j]?, ⟨by rw [hf.nstrings]; omega, j, hi, by rw [hf.nstrings]; exact h,
      Or.inr ⟨hj, by rw [hs]; rfl, rfl⟩⟩, ⟨fun i hi => ?_⟩⟩
    have hlt : j < c.ustrings.length := (List.getElem?_eq_some_iff.1 hj).1
    rw [List.getElem?_insertIdx]
    simp only [putIn]
    by_cases h1 : i < j
    · rw [if_pos h1, if_pos h1, hc.entries i hi]
    · rw [if_neg h1, if_neg h1]
      by_cases h2 : i = j
      · subst h2; rw [if_pos rfl, if_pos rfl, if_pos h, if_pos (by omega), hs]; rfl
      · rw [if_neg h2, if_neg h2, hc.entries _ (by omega)]

theorem field {f : RField} {x : Nat} (h1 : f.name < e.strs.length) (h2 : f.type < e.ntypes) :
    Enc e fieldG ((f.renamed x).decoded e.strs e.prev) f.encode [(f.name, x)] :=
  bind' (name h1) (map (type h2)) rfl rfl

theorem proto {f : RProto} {x : Nat} (h1 : f.name < e.strs.length) (h2 : f.findex < 0x2000) (h3 : f.pindex.natAbs < 0x2000) :
    Enc e protoG ((f.renamed x).decoded e.strs) f.encode [(f.name, x)] :=
  bind' (name h1) (bind (nat h2) (map (idx h3))) (by simp [RProto.encode, RProto.renamed]) rfl

theorem construct {f : RConstruct} {x : Nat} (h1 : f.name < e.strs.length) (h2 : f.params.length < 0x2000) (h3 : ∀ t ∈ f.params, t < e.ntypes) :
    Enc e constructG ((f.renamed x).decoded e.strs e.prev) f.encode [(f.name, x)] :=
  bind' (name h1) (bind (nat h2) (map (many (tref e.prev) ix (fun _ => []) f.params (fun t ht => type (h3 t ht)))))
    (by simp [RConstruct.encode]) (by simp [RConstruct.renamed])

theorem binding {b : Nat × Nat} (h1 : b.1 < 0x2000) (h2 : b.2 < 0x2000) : Enc e bindingG b (ix b.1 ++ ix b.2) [] :=
  bind' (nat h1) (map (nat h2)) rfl rfl

theorem types {l : List Nat} (h : ∀ t ∈ l, t < e.ntypes) : Enc e (G.many typeRefG l.length) (l.map (tref e.prev)) (l.flatMap ix) [] :=
  (many (tref e.prev) ix (fun _ => []) l (fun t ht => type (h t ht))).congr rfl rfl (by simp)

theorem super {o : Option Nat} (h : ∀ j ∈ o.toList, j < e.ntypes) :
    Enc e superG (superRef e.prev o) (superIx o) [] := const fun c hf => by
  cases o with
  | none => exact ⟨rfl, -1, by unfold superIx; exact small_idx (by decide), Or.inl ⟨by decide, rfl⟩⟩
  | some j =>
    have hj := h j (by simp)
    have s := hf.small
    exact ⟨rfl, (j : Int), small_idx (n := (j : Int)) (by simp; omega), Or.inr ⟨by omega, type_get hf hj⟩⟩

/-- Named things, one after the other. -/
theorem manyNamed {α β : Type} {g : G α} (val : β × Nat → α) (enc : β → List UInt8) (nm : β → Nat) (l : List β) (ns : List Nat)
    (hl : l.length = ns.length) (h : ∀ b ∈ l, ∀ x, Enc e g (val (b, x)) (enc b) [(nm b, x)]) :
    Enc e (G.many g l.length) ((l.zip ns).map val) (l.flatMap enc) ((l.map nm).zip ns) := by
  have key := many (e := e) val (fun b : β × Nat => enc b.1) (fun b => [(nm b.1, b.2)]) (l.zip ns)
    (fun b hb => h b.1 (List.of_mem_zip hb).1 b.2)
  rw [show (l.zip ns).length = l.length by simp [hl]] at key
  refine key.congr rfl ?_ ?_
  · rw [← List.flatMap_map (f := Prod.fst) (g := enc), List.map_fst_zip (by omega)]
  · rw [List.zip_map_left, List.map_eq_flatMap]; rfl

theorem fields {l : List RField} {ns : List Nat} (hl : l.length = ns.length) (h1 : ∀ f ∈ l, f.name < e.strs.length) (h2 : ∀ f ∈ l, f.type < e.ntypes) :
    Enc e (G.many fieldG l.length) ((l.zip ns).map fun x => (x.1.renamed x.2).decoded e.strs e.prev) (l.flatMap RField.encode) ((l.map RField.name).zip ns) :=
  manyNamed (fun x : RField × Nat => (x.1.renamed x.2).decoded e.strs e.prev) RField.encode RField.name l ns hl
    fun f hf x => field (h1 f hf) (h2 f hf)

/-- Types. -/
theorem typeBody (t : RType) (ns : List Nat) (hl : t.names.length = ns.length) (hs : t.Small) (hr : ∀ j ∈ t.refs, j < e.ntypes)
    (hn : ∀ j ∈ t.names, j < e.strs.length) :
    Enc e (typeBodyG (ofKind t.kind)) ((t.renamed ns).decoded e.strs e.prev) t.encodeBody (t.names.zip ns) := by
  cases t with
  | prim k =>
    simp only [RType.Small, primKinds] at hs
    have : typeBodyG (ofKind k) = Pure.pure (ofKind k) := by
      simp only [List.mem_cons, List.not_mem_nil, or_false] at hs
      rcases hs with h | h | h | h | h | h | h | h | h | h | h | h | h <;> subst h <;> rfl
    show Enc e (typeBodyG (ofKind k)) _ _ _
    rw [this]
    exact pure _
  | func m args ret =>
    have key : Enc e (funcTypeG >>= fun u => Pure.pure { ofKind (RType.func m args ret).kind with union := u })
        ((RType.func m args ret).decoded e.strs e.prev) (RType.func m args ret).encodeBody [] := by
      refine map (x := funcTypeG) ?_
      refine bind' (byte hs) (bind (types fun t ht => hr t (by simp [RType.refs, ht])) (map (type (hr ret (by simp [RType.refs]))))) ?_ rfl
      simp [RType.encodeBody]
    cases m <;> exact key
  | obj s name' sup global fs ps bs =>
    obtain ⟨h1, h2, h3, h4, h5, h6⟩ := hs
    have key : Enc e (objTypeG >>= fun u => Pure.pure { ofKind (RType.obj s name' sup global fs ps bs).kind with union := u })
        (((RType.obj s name' sup global fs ps bs).renamed ns).decoded e.strs e.prev) (RType.obj s name' sup global fs ps bs).encodeBody
        ((RType.obj s name' sup global fs ps bs).names.zip ns) := by
      cases ns with
      | nil => simp [RType.names] at hl
      | cons n ns =>
      simp only [RType.names, List.length_cons, List.length_append, List.length_map, Nat.add_right_cancel_iff] at hl
      obtain ⟨nf, np, rfl, hf⟩ : ∃ nf np, ns = nf ++ np ∧ nf.length = fs.length :=
        ⟨ns.take fs.length, ns.drop fs.length, (List.take_append_drop _ _).symm, by simp; omega⟩
      rw [List.length_append] at hl
      refine (map (x := objTypeG) (bind (name (x := n) (hn name' (by simp [RType.names]))) (bind
        (super (e := e) (o := sup) (fun j hj => hr j (by simp only [RType.refs, List.mem_append]; exact Or.inl hj)))
        (bind (nat h1) (bind (nat h2) (bind (nat h3)
        (bind (nat h4) (bind (fields (e := e) (l := fs) (ns := nf) hf.symm
        (fun f hf => hn f.name (by simp only [RType.names, List.mem_cons, List.mem_append, List.mem_map]; exact Or.inr (Or.inl ⟨f, hf, rfl⟩)))
        (fun f hf => hr f.type (by simp only [RType.refs, List.mem_append, List.mem_map]; exact Or.inr ⟨f, hf, rfl⟩)))
        (bind (manyNamed (e := e) (fun x : RProto × Nat => (x.1.renamed x.2).decoded e.strs) RProto.encode RProto.name ps np (by omega)
          (fun f hf x => proto (hn f.name (by simp only [RType.names, List.mem_cons, List.mem_append, List.mem_map]; exact Or.inr (Or.inr ⟨f, hf, rfl⟩)))
          (h5 f hf).1 (h5 f hf).2)) (map (many (e := e) (fun b => b) (fun b => ix b.1 ++ ix b.2) (fun _ => []) bs
            (fun b hb => binding (h6 b hb).1 (h6 b hb).2)))))))))))).congr ?_ ?_ ?_
      · have e1 : (1 + fs.length) = nf.length + 1 := by omega
        have e2 : fs.zip (nf ++ np) = fs.zip nf := by
          rw [← List.append_nil fs, List.zip_append (by simpa using hf.symm)]; simp
        simp only [RType.renamed, RType.decoded, List.headD_cons, List.drop_succ_cons, List.drop_zero, e1, List.drop_left', e2,
          List.map_map, List.length_map, List.length_zip, hf, Nat.min_self, Function.comp_def, List.map_id']
        simp only [show np.length = ps.length by omega, Nat.min_self]
        cases s <;> rfl
      · simp [RType.encodeBody]
      · simp only [RType.names, List.zip_cons_cons]
        rw [List.zip_append (by simp [hf])]
        simp
    cases s <;> exact key
  | ref t => exact map (x := typeRefG) (type (hr t (by simp [RType.refs])))
  | virt fs =>
    have hl' : fs.length = ns.length := by simpa [RType.names] using hl
    refine (map (x := virtualTypeG) (bind' (nat hs) (map (fields (ns := ns) hl' (fun f hf => hn f.name (by simp only [RType.names, List.mem_map]; exact ⟨f, hf, rfl⟩))
      (fun f hf => hr f.type (by simp only [RType.refs, List.mem_map]; exact ⟨f, hf, rfl⟩)))) rfl (by simp; rfl))).congr ?_ rfl rfl
    simp only [RType.renamed, RType.decoded, List.map_map, List.length_map, List.length_zip, hl', Nat.min_self, Function.comp_def]
    rfl
  | abstract n =>
    cases ns with
    | nil => simp [RType.names] at hl
    | cons x ns =>
      cases ns with
      | nil => exact map (x := ustringRefG) (name (hn n (by simp [RType.names])))
      | cons y ns => simp [RType.names] at hl
  | enum n global cs =>
    obtain ⟨h1, h2, h3⟩ := hs
    cases ns with
    | nil => simp [RType.names] at hl
    | cons x ns =>
    have hl' : cs.length = ns.length := by simpa [RType.names] using hl
    have hC := manyNamed (e := e) (fun x : RConstruct × Nat => (x.1.renamed x.2).decoded e.strs e.prev) RConstruct.encode RConstruct.name cs ns hl'
      (fun f hf x => construct (hn f.name (by simp only [RType.names, List.mem_cons, List.mem_map]; exact Or.inr ⟨f, hf, rfl⟩)) (h3 f hf)
        (fun t ht => hr t (by simp only [RType.refs, List.mem_flatMap]; exact ⟨f, hf, ht⟩)))
    refine (map (x := enumTypeG) (bind (name (x := x) (hn n (by simp [RType.names]))) (bind (nat h1) (bind (nat h2) (map hC))))).congr ?_ ?_ ?_
    · simp only [RType.renamed, RType.decoded, List.headD_cons, List.drop_succ_cons, List.drop_zero, List.map_map, List.length_map,
        List.length_zip, hl', Nat.min_self, Function.comp_def]
      rfl
    · simp [RType.encodeBody]
    · simp [RType.names]
  | null t => exact map (x := typeRefG) (type (hr t (by simp [RType.refs])))
  | packed t => exact map (x := typeRefG) (type (hr t (by simp [RType.refs])))

theorem kind_facts (k : TypeKind) : TypeKind.ofNat? k.toNat = Option.some k := by cases k <;> rfl

theorem kind_lt (t : RType) (hs : t.Small) : t.kind.toNat < 23 := by
  cases t with
  | prim k =>
    simp only [RType.Small, primKinds, List.mem_cons, List.not_mem_nil, or_false] at hs
    rcases hs with h | h | h | h | h | h | h | h | h | h | h | h | h <;> subst h <;> decide
  | func m _ _ => cases m <;> (show (_ : Nat) < 23; simp [RType.kind, TypeKind.toNat])
  | obj m => cases m <;> simp [RType.kind, TypeKind.toNat]
  | _ => simp [RType.kind, TypeKind.toNat]

theorem typ (t : RType) (ns : List Nat) (hl : t.names.length = ns.length) (hs : t.Small) (hr : ∀ j ∈ t.refs, j < e.ntypes)
    (hn : ∀ j ∈ t.names, j < e.strs.length) :
    Enc e typeG ((t.renamed ns).decoded e.strs e.prev) t.encode (t.names.zip ns) := by
  have hk := kind_lt t hs
  rw [typeG_eq]
  exact bind' (byte (n := t.kind.toNat) (by omega)) (bind (guard hk) (bind (some (kind_facts _)) (typeBody t ns hl hs hr hn)))
    (by simp [RType.encode, kindNumber_eq]) (by simp)

/-! ## Instructions -/

theorem op_facts (o : Op) : Op.ofNat? o.toNat = Option.some o := by cases o <;> rfl

theorem op_lt (o : Op) (h : o ≠ .OLast) : o.toNat < 99 := by cases o <;> first | decide | exact absurd rfl h

/-- The operand counts of `OP_NARGS` are those of HashLink. -/
theorem nargs_plain (o : Op) (n : Nat) (h : hlShape o = .args n) : OP_NARGS[o.toNat]? = Option.some (n : Int) ∧ n ≤ 6 := by
  cases o <;> simp only [hlShape, Shape.args.injEq, reduceCtorEq] at h <;> subst h <;> exact ⟨rfl, by decide⟩

theorem nargs_call (o : Op) (h : hlShape o = .call) : OP_NARGS[o.toNat]? = Option.some (-1) ∧
    (o = .OCallN ∨ o = .OCallMethod ∨ o = .OCallThis ∨ o = .OCallClosure ∨ o = .OMakeEnum) := by
  cases o <;> simp only [hlShape, reduceCtorEq] at h <;> exact ⟨rfl, by decide⟩

theorem ints {l : List Int} (h : ∀ a ∈ l, a.natAbs < 0x2000) : Enc e (G.many idxG l.length) l (l.flatMap hlIndex) [] :=
  (many (fun a => a) hlIndex (fun _ => []) l (fun a ha => idx (h a ha))).congr (by simp) rfl (by simp)

theorem nats {l : List Nat} (h : ∀ a ∈ l, a < 0x2000) : Enc e (G.many natG l.length) l (l.flatMap ix) [] :=
  (many (fun a => a) ix (fun _ => []) l (fun a ha => nat (h a ha))).congr (by simp) rfl (by simp)

theorem natI {n : Nat} (h : n < 0x2000) : Enc e natIG (n : Int) (ix n) [] := map (x := natG) (nat h)

theorem operands (op : Op) (args : List Int) (hl : args.length ≤ 6) (h : ∀ a ∈ args, a.natAbs < 0x2000) :
    Enc e (operandsG { Opcode.default with op := op } (args.length : Int)) (Instr.decoded (.plain op args)) (args.flatMap hlIndex) [] := by
  match args, hl, h with
  | [], _, _ => exact pure _
  | [a], _, h => refine (map (x := idxG) (idx (h a (by simp)))).congr rfl (by simp) rfl
  | [a, b], _, h =>
    exact bind' (idx (h a (by simp))) (map (idx (h b (by simp)))) (by simp) rfl
  | [a, b, c], _, h =>
    exact bind' (idx (h a (by simp))) (bind (idx (h b (by simp))) (map (idx (h c (by simp))))) (by simp) rfl
  | [a, b, c, d], _, h =>
    exact bind' (idx (h a (by simp))) (bind (idx (h b (by simp))) (bind (idx (h c (by simp))) (map (idx (h d (by simp)))))) (by simp) rfl
  | [a, b, c, d, f], _, h =>
    have hm := ints (e := e) (l := [d, f]) (fun x hx => h x (by simp at hx ⊢; rcases hx with h | h <;> simp [h]))
    exact bind' (idx (h a (by simp))) (bind (idx (h b (by simp))) (bind (idx (h c (by simp))) (bind (guard (by simp))
      (map (x := extraG idxG 2) (map hm))))) (by simp) rfl
  | [a, b, c, d, f, g], _, h =>
    have hm := ints (e := e) (l := [d, f, g]) (fun x hx => h x (by simp at hx ⊢; rcases hx with h | h | h <;> simp [h]))
    exact bind' (idx (h a (by simp))) (bind (idx (h b (by simp))) (bind (idx (h c (by simp))) (bind (guard (by simp))
      (map (x := extraG idxG 3) (map hm))))) (by simp) rfl

theorem opcode (i : Instr) (hi : i.Ok) : Enc e opcodeG i.decoded i.encode [] := by
  rw [opcodeG_eq]
  cases i with
  | plain op args =>
    obtain ⟨h0, h1, h2⟩ := hi
    obtain ⟨h3, h4⟩ := nargs_plain op _ h1
    have hk := op_lt op h0
    refine (bind' (byte (n := op.toNat) (by omega)) (bind (guard hk) (bind (some (op_facts _)) (bind (some h3)
      (operands op args h4 h2)))) (by simp [Instr.encode, opNumber_eq]) rfl).congr rfl rfl rfl
  | call op dst fn args =>
    obtain ⟨h1, h2, h3, h4, h5⟩ := hi
    obtain ⟨h6, h7⟩ := nargs_call op h1
    have hk : op.toNat < 99 := op_lt op (by rintro rfl; simp [hlShape] at h1)
    have hc : Enc e (callLikeG { Opcode.default with op := op }) (Instr.decoded (.call op dst fn args))
        (hlIndex dst ++ hlIndex fn ++ [UInt8.ofNat args.length] ++ args.flatMap hlIndex) [] :=
      bind' (idx h3) (bind (idx h4) (bind (byte h2) (map (x := extraG idxG args.length) (map (ints h5))))) (by simp) rfl
    have ho : operandsG { Opcode.default with op := op } (-1) = callLikeG { Opcode.default with op := op } := by
      rcases h7 with h | h | h | h | h <;> subst h <;> rfl
    rw [← ho] at hc
    exact bind' (byte (n := op.toNat) (by omega)) (bind (guard hk) (bind (some (op_facts _)) (bind (some h6) hc)))
      (by simp [Instr.encode, opNumber_eq]) rfl
  | switch reg targets end_ =>
    obtain ⟨h1, h2, h3, h4⟩ := hi
    have hm := many (e := e) (fun t : Nat => (t : Int)) ix (fun _ => []) targets (fun t ht => natI (h4 t ht))
    have hc : Enc e (switchG { Opcode.default with op := .OSwitch }) (Instr.decoded (.switch reg targets end_))
        (ix reg ++ ix targets.length ++ targets.flatMap ix ++ ix end_) [] :=
      (bind (natI h1) (bind (nat h2) (bind (map (x := G.many natIG targets.length) hm) (map (natI h3))))).congr
        (by simp [Instr.decoded, padded]) (by simp) (by simp)
    exact bind' (byte (n := 70) (by omega)) (bind (guard (by decide)) (bind (some (a := .OSwitch) rfl) (bind (some (a := -1) rfl) hc)))
      (by simp [Instr.encode, opNumber_eq, Op.toNat]) rfl

end Enc

end Verif.Brass
