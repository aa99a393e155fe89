import Verif.Brass.LookupLemmas
import Verif.Brass.CopyBound

/-!
# How many tables are copied
-/

namespace Verif.Brass

open Verif Verif.Brass.Spec

/-- At most two copies for each byte that is read; on failure, at most two for each byte that was left. -/
def Pays {α : Type} (x : L α) : Prop := ∀ s,
  match x s with
  | (.ok _ s', l) => l.length + 2 * s'.buf.length ≤ 2 * s.buf.length
  | (_, l) => l.length ≤ 2 * s.buf.length

/-- At most `n` copies, and the buffer does not grow. -/
def Few {α : Type} (n : Nat) (x : L α) : Prop := ∀ s, (x s).2.length ≤ n ∧ ∀ a s', (x s).1 = .ok a s' → s'.buf.length ≤ s.buf.length

namespace Few

theorem pure {α : Type} (a : α) : Few 0 (Pure.pure a : L α) := fun s => ⟨Nat.le_refl _, fun b s' h => by
  have h : (Out.ok a s : Out α) = .ok b s' := h
  cases h; exact Nat.le_refl _⟩

theorem lift {α : Type} {x : M α} (h : Good x) : Few 0 (L.lift x) := fun _ => ⟨Nat.le_refl _, fun _ _ e => h.shrinks e⟩

theorem copy (t : TableCopy) : Few 1 (L.copy t) := fun s => ⟨Nat.le_refl _, fun b s' h => by
  have h : (Out.ok () s : Out Unit) = .ok b s' := h
  cases h; exact Nat.le_refl _⟩

theorem bind {α β : Type} {x : L α} {f : α → L β} {n a b : Nat} (h1 : Few a x) (h2 : ∀ a, Few b (f a)) (hn : a + b ≤ n) : Few n (x >>= f) := by
  intro s
  have e1 := h1 s
  show (L.bind x f s).2.length ≤ n ∧ ∀ a s', (L.bind x f s).1 = .ok a s' → _
  unfold L.bind
  rcases hx : x s with ⟨o, l1⟩
  rw [hx] at e1
  cases o with
  | err e s' => exact ⟨by have := e1.1; simp only at this ⊢; omega, fun _ _ h => nomatch h⟩
  | panic => exact ⟨by have := e1.1; simp only at this ⊢; omega, fun _ _ h => nomatch h⟩
  | ok a s1 =>
    obtain ⟨e2, e3⟩ := h2 a s1
    obtain ⟨e4, e5⟩ := e1
    refine ⟨by simp only [List.length_append] at e4 ⊢; omega, fun b s' h => ?_⟩
    have := e3 b s' h
    have := e5 a s1 rfl
    omega

theorem mono {α : Type} {x : L α} {n m : Nat} (h : Few n x) (hm : n ≤ m) : Few m x := fun s => ⟨Nat.le_trans (h s).1 hm, (h s).2⟩

theorem ite {α : Type} {b : Prop} [Decidable b] {x y : L α} {n : Nat} (h : Few n x) (h' : Few n y) : Few n (if b then x else y) := by
  split <;> assumption

theorem next {α β : Type} {x : M α} {f : α → L β} {n : Nat} (h1 : Good x) (h2 : ∀ a, Few n (f a)) : Few n (L.lift x >>= f) :=
  bind (lift h1) h2 (by omega)

theorem ret {α : Type} {n : Nat} (a : α) : Few n (Pure.pure a : L α) := (pure a).mono (Nat.zero_le _)

theorem last {α : Type} {t : TableCopy} {x : M α} (h : Good x) : Few 2 (L.copy t >>= fun _ => L.lift x) := bind (copy t) (fun _ => lift h) (by decide)

end Few

namespace Pays

theorem bind {α β : Type} {x : L α} {f : α → L β} (h1 : Pays x) (h2 : ∀ a, Pays (f a)) : Pays (x >>= f) := by
  intro s
  show match L.bind x f s with | (.ok _ s', l) => _ | (_, l) => _
  have e1 := h1 s
  unfold L.bind
  rcases hx : x s with ⟨o, l1⟩
  rw [hx] at e1
  cases o with
  | err e s' => exact e1
  | panic => exact e1
  | ok a s1 =>
    have e2 := h2 a s1
    simp only at e1 ⊢
    rcases hf : f a s1 with ⟨o, l2⟩
    rw [hf] at e2
    cases o with
    | err e s' => simp only at e2 ⊢; rw [List.length_append]; omega
    | panic => simp only at e2 ⊢; rw [List.length_append]; omega
    | ok b s2 => simp only at e2 ⊢; rw [List.length_append]; omega

theorem free {α : Type} {x : L α} (h : Few 0 x) : Pays x := by
  intro s
  obtain ⟨e1, e2⟩ := h s
  rcases hx : x s with ⟨o, l⟩
  rw [hx] at e1 e2
  cases o with
  | ok a s' => have := e2 a s' rfl; simp only at e1 ⊢; omega
  | err e s' => simp only at e1 ⊢; omega
  | panic => simp only at e1 ⊢; omega

theorem pure {α : Type} (a : α) : Pays (Pure.pure a : L α) := free (.pure a)

theorem lift {α : Type} {x : M α} (h : Good x) : Pays (L.lift x) := free (.lift h)

theorem ite {α : Type} {b : Prop} [Decidable b] {x y : L α} (h : Pays x) (h' : Pays y) : Pays (if b then x else y) := by
  split <;> assumption

/-- A lookup reads an index of at least one byte, and then makes at most two copies. -/
theorem lookup {α : Type} {f : Int → L α} (h : ∀ i, Few 2 (f i)) : Pays (L.lift index >>= f) := by
  intro s
  show match L.bind (L.lift index) f s with | (.ok _ s', l) => _ | (_, l) => _
  unfold L.bind L.lift
  rcases hx : index s with ⟨i, s1⟩ | ⟨e, s1⟩ | _
  · have e0 := index_takes hx
    obtain ⟨e1, e2⟩ := h i s1
    simp only [List.nil_append]
    rcases hf : f i s1 with ⟨o, l⟩
    rw [hf] at e1 e2
    cases o with
    | ok a s' => have := e2 a s' rfl; simp only at e1 ⊢; omega
    | err e s' => simp only at e1 ⊢; omega
    | panic => simp only at e1 ⊢; omega
  · simp
  · simp

theorem forRange {β : Type} {f : Nat → β → L β} (h : ∀ i b, Pays (f i b)) : ∀ (n a : Nat) (b : β), Pays (L.forRange f a n b)
  | 0, _, b => pure b
  | n + 1, a, b => bind (h a b) (fun b => forRange h n (a + 1) b)

theorem checked {x : L Code} (h : Pays x) : Pays (x >>= fun a => L.lift M.checkError >>= fun _ => Pure.pure a) :=
  bind h fun _ => bind (lift .checkError) fun _ => pure _

theorem readString : Pays readStringL :=
  lookup fun _ => .next .getCode fun _ => .next (.badIndex _ _) fun _ =>
    .ite (.next (.setError _) fun _ => .ret _) (.last (.unwrapOpt _))

theorem getUstring (c : Code) (i : Nat) : Few 2 (getUstringCopies c i) := by
  unfold getUstringCopies
  refine .bind (b := 1) (.copy _) (fun _ => ?_) (by decide)
  rcases c.ustrings[i]? with _ | _ | _
  · exact .ret _
  · exact .copy _
  · exact .ret _

theorem readUstring : Pays readUstringL := by
  refine lookup fun i => .next .getCode fun d => .next (.badIndex _ _) fun _ =>
    .ite (.next (.setError _) fun _ => .ret _) (.bind (b := 0) (getUstring _ _) (fun _ => ?_) (by decide))
  rcases Brass.getUstring d i.toNat with ⟨r, c⟩ | _
  · exact .next (.setCode _) fun _ => .ret _
  · exact .lift .panic

theorem getType : Pays getTypeL :=
  lookup fun _ => .next .getCode fun _ => .next (.badIndex _ _) fun _ =>
    .ite (.next (.setError _) fun _ => .last (.unwrapOpt _)) (.last (.unwrapOpt _))

theorem readSuper : Pays readSuperL :=
  lookup fun _ => .ite (.ret _) (.next .getCode fun _ => .last (.unwrapOpt _))

theorem readTypeRefs (n : Nat) : Pays (readTypeRefsL n) := forRange (fun _ _ => bind getType fun _ => lift (.insertAt _ _ _)) _ _ _
theorem readFields (n : Nat) : Pays (readFieldsL n) :=
  forRange (fun _ _ => bind (bind readUstring fun _ => bind getType fun _ => pure _) fun _ => lift (.insertAt _ _ _)) _ _ _
theorem readProtos (n : Nat) : Pays (readProtosL n) :=
  forRange (fun _ _ => bind (bind readUstring fun _ => bind (lift .uindex) fun _ => bind (lift .index) fun _ => pure _) fun _ => lift (.insertAt _ _ _)) _ _ _
theorem readConstructs (n : Nat) : Pays (readConstructsL n) :=
  forRange (fun _ _ => bind (bind readUstring fun _ => bind (lift .uindex) fun _ => bind (readTypeRefs _) fun _ => pure _) fun _ => lift (.insertAt _ _ _)) _ _ _
theorem readFuncType : Pays readFuncTypeL := bind (lift (.unwrap .decodeU8)) fun _ => bind (readTypeRefs _) fun _ => bind getType fun _ => pure _
theorem readObjType : Pays readObjTypeL :=
  bind readUstring fun _ => bind readSuper fun _ => bind (lift .uindex) fun _ => bind (lift .uindex) fun _ => bind (lift .uindex) fun _ => bind (lift .uindex) fun _ =>
    bind (readFields _) fun _ => bind (readProtos _) fun _ => bind (lift (.readBindings _)) fun _ => pure _
theorem readVirtualType : Pays readVirtualTypeL := bind (lift .uindex) fun _ => bind (readFields _) fun _ => pure _
theorem readEnumType : Pays readEnumTypeL :=
  bind readUstring fun _ => bind (lift .uindex) fun _ => bind (lift .uindex) fun _ => bind (readConstructs _) fun _ => pure _

theorem readTypeBody (t : ValueType) : Pays (readTypeBodyL t) := by
  unfold readTypeBodyL
  cases t.kind <;> first
    | exact pure _
    | exact bind readFuncType fun _ => pure _
    | exact bind readObjType fun _ => pure _
    | exact bind getType fun _ => pure _
    | exact bind readVirtualType fun _ => pure _
    | exact bind readUstring fun _ => pure _
    | exact bind readEnumType fun _ => pure _

theorem readType (t : ValueType) : Pays (readTypeL t) :=
  bind (lift (.unwrap .decodeU8)) fun _ => ite (bind (lift (.mapErrAt _)) fun _ => pure _) (bind (lift (.unwrapOpt _)) fun _ => readTypeBody _)

theorem readFunction : Pays readFunctionL :=
  bind getType fun _ => bind (lift .uindex) fun _ => bind (lift .uindex) fun _ => bind (lift .uindex) fun _ => bind (readTypeRefs _) fun _ => bind (lift .getErrors) fun _ =>
    ite (pure _) (bind (lift (.readOpcodes _)) fun _ => pure _)

theorem readTypesStep (i : Nat) (c : Code) : Pays (readTypesStepL i c) :=
  bind (lift (.setCode _)) fun _ => bind (readType _) fun _ => bind (lift .getCode) fun _ => bind (lift (.insertAt _ _ _)) fun _ => bind (lift (.setCode _)) fun _ => pure _

theorem readGlobalsStep (i : Nat) (c : Code) : Pays (readGlobalsStepL i c) :=
  bind (lift (.setCode _)) fun _ => bind getType fun _ => bind (lift .getCode) fun _ => bind (lift (.insertAt _ _ _)) fun _ => bind (lift (.setCode _)) fun _ => pure _

theorem readNativesStep (i : Nat) (c : Code) : Pays (readNativesStepL i c) :=
  bind (bind readString fun _ => bind readString fun _ => bind getType fun _ => bind (lift .uindex) fun _ => pure _) fun _ => bind (lift (.setCode _)) fun _ => pure _

theorem readFunctionsStep (p : Profile) (i : Nat) (c : Code) : Pays (readFunctionsStepL p i c) :=
  bind (lift (.setCode _)) fun _ => bind readFunction fun _ => bind (lift .getCode) fun _ => bind (lift (.setCode _)) fun _ =>
    bind (lift (.readFunctionDebug _ _)) fun _ => lift .getCode

theorem readM (p : Profile) : Pays (readML p) :=
  bind (lift .readMagic) fun _ => bind (lift .readVersion) fun _ => bind (lift (.checked (.readCounts _))) fun _ => bind (lift (.readPools _)) fun _ =>
    bind (lift (.readBytesSection _)) fun _ => bind (lift (.readDebugFiles _)) fun _ => bind (forRange readTypesStep _ _ _) fun _ =>
    bind (checked (forRange readGlobalsStep _ _ _)) fun _ => bind (checked (forRange readNativesStep _ _ _)) fun _ =>
    bind (checked (forRange (readFunctionsStep p) _ _ _)) fun _ => bind (lift (.readConstants _)) fun _ => lift .getCode

end Pays

/-- At most two tables per byte of the input are copied. -/
theorem tableCopies_bound (p : Profile) (e : Option DecodeError) (buf : List UInt8) : (tableCopies p e buf).length ≤ 2 * buf.length := by
  have h := Pays.readM p (St.new buf e)
  unfold tableCopies
  rcases hx : readML p (St.new buf e) with ⟨o, l⟩
  rw [hx] at h
  have hb : (St.new buf e).buf = buf := rfl
  cases o <;> simp only [hb] at h ⊢ <;> omega

end Verif.Brass
