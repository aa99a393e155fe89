import Verif.Spec.Text
import Verif.Brass.FileFacts

/-!
# Type references in decoded types
-/

namespace Verif.Brass

open Verif Verif.Brass.Spec

/-- Decoding leaves the type table `T` (of `N` declared types) alone and gives values with `Q`. -/
def InT (N : Nat) (T : List ValueType) {α : Type} (g : G α) (Q : α → Prop) : Prop :=
  ∀ c k a c', (c.ntypes = N ∧ c.types = T) → g c k a c' → (c'.ntypes = N ∧ c'.types = T) ∧ Q a

namespace InT

variable {N : Nat} {T : List ValueType}

theorem pure {α : Type} {a : α} {Q : α → Prop} (h : Q a) : InT N T (Pure.pure a : G α) Q := by
  rintro c k b c' hc ⟨rfl, rfl, rfl⟩; exact ⟨hc, h⟩
theorem bind {α β : Type} {x : G α} {f : α → G β} {Q : α → Prop} {R : β → Prop} (hx : InT N T x Q) (hf : ∀ a, Q a → InT N T (f a) R) :
    InT N T (x >>= f) R := by
  rintro c k b c'' hc ⟨k1, k2, a, c', rfl, h1, h2⟩
  obtain ⟨h3, h4⟩ := hx _ _ _ _ hc h1
  exact hf a h4 _ _ _ _ h3 h2
theorem of {α : Type} {g : G α} (h : KeepsButCache g) : InT N T g (fun _ => True) := by
  rintro c k a c' hc hg
  obtain ⟨u, rfl⟩ := h _ _ _ _ hg
  exact ⟨hc, trivial⟩
theorem many {α : Type} {g : G α} {Q : α → Prop} (h : InT N T g Q) : ∀ n, InT N T (G.many g n) (fun l => ∀ a ∈ l, Q a)
  | 0 => pure (by simp)
  | n + 1 => bind h fun a ha => bind (many h n) fun l hl => pure (by
      intro x hx
      rcases List.mem_cons.1 hx with rfl | hx
      · exact ha
      · exact hl x hx)
theorem mono {α : Type} {g : G α} {Q R : α → Prop} (h : InT N T g Q) (hr : ∀ a, Q a → R a) : InT N T g R :=
  fun c k a c' hc hg => ⟨(h c k a c' hc hg).1, hr a (h c k a c' hc hg).2⟩

/-- A type of the table, or the default type. -/
def Known (T : List ValueType) (t : ValueType) : Prop := t ∈ T ∨ t = noType

/-- One of the declared types. -/
def Declared (N : Nat) (T : List ValueType) (t : ValueType) : Prop := ∃ j : Nat, j < N ∧ T[j]? = some t

theorem typeRef : InT N T typeRefG (Declared N T) := by
  rintro c k a c' hc ⟨rfl, _, j, _, hj, h⟩
  exact ⟨hc, j, hc.1 ▸ hj, hc.2 ▸ h⟩
theorem typeRefK : InT N T typeRefG (Known T) := typeRef.mono fun _ ⟨_, _, h⟩ => Or.inl (List.mem_of_getElem? h)
theorem super : InT N T superG (Known T) := by
  rintro c k a c' hc ⟨rfl, i, _, (⟨_, h⟩ | ⟨_, h⟩)⟩
  · exact ⟨hc, Or.inr h⟩
  · exact ⟨hc, Or.inl (hc.2 ▸ List.mem_of_getElem? h)⟩
theorem field : InT N T fieldG (fun f => Known T f.t) := bind (of .ustringRefG) fun _ _ => bind typeRefK fun _ h => pure h
theorem construct : InT N T constructG (fun f => ∀ t ∈ f.params, Known T t) :=
  bind (of .ustringRefG) fun _ _ => bind (of .natG) fun _ _ => bind (many typeRefK _) fun _ h => pure h
theorem typeBody (t : ValueType) (ht : ∀ r ∈ t.refs, Known T r) (hu : t.union = .null) (hp : t.tparam = none) :
    InT N T (typeBodyG t) (fun t => ∀ r ∈ t.refs, Known T r) := by
  obtain ⟨u, a, tp, kd⟩ := t
  simp only at hu hp
  subst hu hp
  have hF : InT N T (funcTypeG >>= fun u => Pure.pure (ValueType.mk u a none kd)) (fun t => ∀ r ∈ t.refs, Known T r) :=
    bind (Q := fun u => ∀ r ∈ (ValueType.mk u a none kd).refs, Known T r)
      (bind (of .byteG) fun _ _ => bind (many typeRefK _) fun _ h1 => bind typeRefK fun _ h2 => pure (by
        intro r hr
        simp only [ValueType.refs, Option.toList, List.append_nil, List.mem_append, List.mem_singleton] at hr
        rcases hr with hr | rfl
        · exact h1 r hr
        · exact h2)) fun _ h => pure h
  have hO : InT N T (objTypeG >>= fun u => Pure.pure (ValueType.mk u a none kd)) (fun t => ∀ r ∈ t.refs, Known T r) :=
    bind (Q := fun u => ∀ r ∈ (ValueType.mk u a none kd).refs, Known T r)
      (bind (of .ustringRefG) fun _ _ => bind super fun _ h1 => bind (of .natG) fun _ _ => bind (of .natG) fun _ _ =>
        bind (of .natG) fun _ _ => bind (of .natG) fun _ _ => bind (many field _) fun _ h2 => bind (of (.many .protoG _)) fun _ _ =>
        bind (of (.many .bindingG _)) fun _ _ => pure (by
        intro r hr
        simp only [ValueType.refs, Option.toList, List.append_nil, List.mem_cons, List.mem_map] at hr
        rcases hr with rfl | ⟨f, hf, rfl⟩
        · exact h1
        · exact h2 f hf)) fun _ h => pure h
  have hV : InT N T (virtualTypeG >>= fun u => Pure.pure (ValueType.mk u a none kd)) (fun t => ∀ r ∈ t.refs, Known T r) :=
    bind (Q := fun u => ∀ r ∈ (ValueType.mk u a none kd).refs, Known T r)
      (bind (of .natG) fun _ _ => bind (many field _) fun _ h2 => pure (by
        intro r hr
        simp only [ValueType.refs, Option.toList, List.append_nil, List.mem_map] at hr
        obtain ⟨f, hf, rfl⟩ := hr
        exact h2 f hf)) fun _ h => pure h
  have hE : InT N T (enumTypeG >>= fun u => Pure.pure (ValueType.mk u a none kd)) (fun t => ∀ r ∈ t.refs, Known T r) :=
    bind (Q := fun u => ∀ r ∈ (ValueType.mk u a none kd).refs, Known T r)
      (bind (of .ustringRefG) fun _ _ => bind (of .natG) fun _ _ => bind (of .natG) fun _ _ => bind (many construct _) fun _ h2 => pure (by
        intro r hr
        simp only [ValueType.refs, Option.toList, List.append_nil, List.mem_flatMap] at hr
        obtain ⟨f, hf, hr⟩ := hr
        exact h2 f hf r hr)) fun _ h => pure h
  have hP : InT N T (typeRefG >>= fun p => Pure.pure (ValueType.mk .null a (some p) kd)) (fun t => ∀ r ∈ t.refs, Known T r) :=
    bind typeRefK fun p h => pure (by
      intro r hr
      simp only [ValueType.refs, Option.toList, List.nil_append, List.mem_singleton] at hr
      subst hr; exact h)
  have hA : InT N T (ustringRefG >>= fun p => Pure.pure (ValueType.mk .null (some p) none kd)) (fun t => ∀ r ∈ t.refs, Known T r) :=
    bind (of .ustringRefG) fun p _ => pure (by intro r hr; simp [ValueType.refs] at hr)
  cases kd
  case HFUN => exact hF
  case HMETHOD => exact hF
  case HOBJ => exact hO
  case HSTRUCT => exact hO
  case HREF => exact hP
  case HVIRTUAL => exact hV
  case HABSTRACT => exact hA
  case HENUM => exact hE
  case HNULL => exact hP
  case HPACKED => exact hP
  all_goals exact pure ht

/-- Every direct reference of a decoded type is a type of the table, or the default type. -/
theorem typ : InT N T typeG (fun t => ∀ r ∈ t.refs, Known T r) :=
  bind (of .byteG) fun _ _ => bind (of (.guard _)) fun _ _ => bind (of (.some _)) fun _ _ =>
    typeBody _ (by intro r hr; simp [ValueType.refs, noType] at hr) rfl rfl

theorem function : InT N T functionG (fun f => Declared N T f.t ∧ ∀ r ∈ f.regs, Declared N T r) :=
  bind typeRef fun _ h1 => bind (of .natG) fun _ _ => bind (of .natG) fun _ _ => bind (of .natG) fun _ _ => bind (many typeRef _) fun _ h2 =>
    bind (of (.of (KeepsOn.many (f := fun _ => ()) .opcodeG _))) fun _ _ => pure ⟨h1, h2⟩

theorem functionWithDebug (p c) : InT N T (functionWithDebugG p c) (fun f => Declared N T f.t ∧ ∀ r ∈ f.regs, Declared N T r) :=
  bind function fun f hf => by
    show InT N T (if c.hasdebug ≠ 0 then _ else _) _
    split
    · exact bind (of (.of (.functionDebugG _ _ _))) fun _ _ => pure hf
    · exact pure hf

theorem native : InT N T nativeG (fun n => Declared N T n.t) :=
  bind (of (.of .stringRefG)) fun _ _ => bind (of (.of .stringRefG)) fun _ _ => bind typeRef fun _ h => bind (of .natG) fun _ _ => pure h

end InT

/-- How the loop over the types proceeds: each type is decoded when the table holds the types before it, followed by
defaults. -/
theorem types_context (N : Nat) : ∀ (n a : Nat) (b c : Code) (k : List UInt8) (b' c' : Code) (T : List ValueType),
    b.types = T ++ List.replicate N noType → T.length = a → G.loop typesStepG a n b c k b' c' →
    ∃ T', b'.types = T ++ T' ++ List.replicate N noType ∧ T'.length = n ∧
      ∀ i t, T'[i]? = some t → ∃ k1 k2 k3 d d', k = k1 ++ k2 ++ k3 ∧ (∃ u, d = { b with ustrings := u, types := T ++ T'.take i ++ List.replicate N noType }) ∧
        typeG d k2 t d'
  | 0, a, b, c, k, b', c', T, hb, hl, ⟨h1, h2, h3⟩ => by
    subst h2; exact ⟨[], by simpa using hb, rfl, by simp⟩
  | n + 1, a, b, c, k, b', c', T, hb, hl, ⟨ka, kb, b1, c1, hk, h1, h2⟩ => by
    obtain ⟨_, _, _, _, rfl, ⟨rfl, rfl⟩, kt, _, t, _, rfl, h, _, _, _, _, rfl, ⟨rfl, rfl, rfl⟩, _, _, _, _, rfl, ⟨rfl, _, rfl⟩, _, _, _, _, rfl, ⟨rfl, rfl⟩, rfl, rfl, rfl⟩ := h1
    rename_i b _ _ _ _
    have hc0 := h
    obtain ⟨u, rfl⟩ := KeepsButCache.typeG _ _ _ _ h
    have hb1 : ({ b with ustrings := u, types := b.types.insertIdx a t } : Code).types = T ++ [t] ++ List.replicate N noType := by
      simp only [hb, ← hl, insertIdx_append_length]
    obtain ⟨T', e1, e2, e3⟩ := types_context N n (a + 1) _ _ kb b' c' (T ++ [t]) hb1 (by simp [hl]) h2
    refine ⟨t :: T', by simp [e1], by simp [e2], ?_⟩
    intro i t' hi
    cases i with
    | zero =>
      simp at hi; subst hi
      exact ⟨[], kt, kb, b, _, by simp [hk], ⟨b.ustrings, by simp [← hb]⟩, hc0⟩
    | succ i =>
      simp at hi
      obtain ⟨k1, k2, k3, d, d', h4, ⟨u', h5⟩, h6⟩ := e3 i t' hi
      exact ⟨kt ++ k1, k2, k3, d, d', by simp [hk, h4], ⟨u', by simp [h5]⟩, h6⟩

end Verif.Brass
