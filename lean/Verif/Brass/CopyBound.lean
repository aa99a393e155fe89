import Verif.Brass.CopyLemmas

/-!
# How many modules are copied
-/

namespace Verif.Brass

open Verif Verif.Brass.Spec

/-- Two copies per byte: on success at most `c` more copies than twice the bytes read, on failure at most `d` more than twice the bytes left. -/
def Cost {α : Type} (c d : Int) (x : K α) : Prop := ∀ s,
  match x s with
  | (.ok _ s', l) => (l.length : Int) + 2 * s'.buf.length ≤ 2 * s.buf.length + c
  | (_, l) => (l.length : Int) ≤ 2 * s.buf.length + d

namespace Cost

theorem bind {α β : Type} {x : K α} {f : α → K β} {c c1 c2 d d2 : Int} (h1 : Cost c1 d x) (h2 : ∀ a, Cost c2 d2 (f a)) (hc : c1 + c2 ≤ c) (hd : c1 + d2 ≤ d) :
    Cost c d (x >>= f) := by
  intro s
  show match K.bind x f s with | (.ok _ s', l) => _ | (_, l) => _
  have e1 := h1 s
  unfold K.bind
  rcases hx : x s with ⟨o, l1⟩
  rw [hx] at e1
  cases o with
  | err e s' => exact e1
  | panic => exact e1
  | ok a s1 =>
    have e2 := h2 a s1
    simp only at e1 ⊢
    rcases hf : f a s1 with ⟨o, l2⟩
    rw [hf] at e2
    cases o with
    | err e s' => simp only at e2 ⊢; rw [List.length_append]; omega
    | panic => simp only at e2 ⊢; rw [List.length_append]; omega
    | ok b s2 => simp only at e2 ⊢; rw [List.length_append]; omega

theorem pure {α : Type} (a : α) : Cost 0 0 (Pure.pure a : K α) := fun s => by
  show ((0 : Nat) : Int) + 2 * s.buf.length ≤ 2 * s.buf.length + 0
  omega

theorem store (c : Code) : Cost 1 1 (K.store c) := fun s => by
  show ((1 : Nat) : Int) + 2 * s.buf.length ≤ 2 * s.buf.length + 1
  omega

theorem load : Cost 1 0 K.load := fun s => by
  show ((1 : Nat) : Int) + 2 * s.buf.length ≤ 2 * s.buf.length + 1
  omega

theorem lift {α : Type} {x : M α} (h : Good x) : Cost 0 0 (K.lift x) := fun s => by
  unfold K.lift
  rcases hx : x s with ⟨a, s'⟩ | ⟨e, s'⟩ | _
  · have := h.shrinks hx
    simp only [List.length_nil]; omega
  · simp only [List.length_nil]; omega
  · simp only [List.length_nil]; omega

theorem takes {α : Type} {x : M α} (h : ∀ s a s', x s = .ok a s' → s'.buf.length < s.buf.length) : Cost (-2) 0 (K.lift x) := fun s => by
  unfold K.lift
  rcases hx : x s with ⟨a, s'⟩ | ⟨e, s'⟩ | _
  · have := h _ _ _ hx
    simp only [List.length_nil]; omega
  · simp only [List.length_nil]; omega
  · simp only [List.length_nil]; omega

theorem mono {α : Type} {x : K α} {c d c' d' : Int} (h : Cost c d x) (hc : c ≤ c') (hd : d ≤ d') : Cost c' d' x := fun s => by
  have := h s
  rcases hx : x s with ⟨o, l⟩
  rw [hx] at this
  cases o <;> simp only at this ⊢ <;> omega

theorem forRange {β : Type} {f : Nat → β → K β} (h : ∀ i b, Cost 0 1 (f i b)) : ∀ (n a : Nat) (b : β), Cost 0 1 (K.forRange f a n b)
  | 0, _, b => (pure b).mono (by omega) (by omega)
  | n + 1, a, b => bind (c1 := 0) (c2 := 0) (d2 := 1) (h a b) (fun b => forRange h n (a + 1) b) (by omega) (by omega)

/-- Before and after something that reads a byte. -/
theorem around {α : Type} {x : M α} {y : α → M Unit} {b : Code} (hx : ∀ s a s', x s = .ok a s' → s'.buf.length < s.buf.length) (hy : ∀ a, Good (y a)) :
    Cost 0 1 (K.store b >>= fun _ => K.lift (x >>= y) >>= fun _ => K.load) :=
  bind (c1 := 1) (c2 := -1) (d2 := 0) (store b) (fun _ => bind (c1 := -2) (c2 := 1) (d2 := 0) (takes fun s _ s' h => by
    obtain ⟨a, s1, h1, h2⟩ := M.bind_eq_ok h
    have e1 := hx _ _ _ h1
    have e2 := (hy a).shrinks h2
    omega) (fun _ => load) (by omega) (by omega)) (by omega) (by omega)

end Cost

theorem K.lift_lift {α β γ : Type} (x : M α) (f : α → M β) (g : β → K γ) : (K.lift x >>= fun a => K.lift (f a) >>= g) = (K.lift (x >>= f) >>= g) := by
  funext s
  show K.bind (K.lift x) (fun a => K.bind (K.lift (f a)) g) s = K.bind (K.lift (M.bind x f)) g s
  unfold K.bind K.lift M.bind
  cases x s with
  | err => rfl
  | panic => rfl
  | ok a s =>
    simp only
    cases hf : f a s with
    | err => simp [hf]
    | panic => simp [hf]
    | ok b s => simp [hf]

theorem type_takes {s s' : St} {t t' : ValueType} (h : readType t s = .ok t' s') : s'.buf.length < s.buf.length := by
  unfold readType at h
  obtain ⟨b, s1, e1, e⟩ := M.bind_eq_ok h
  refine Nat.lt_of_le_of_lt (Good.shrinks ?_ e) (decodeU8_consumes _ _ _ e1)
  split
  · good
  · exact .bind (.unwrapOpt _) fun _ => .readTypeBody _

theorem native_takes {s s' : St} {n : Native} (h : readNative s = .ok n s') : s'.buf.length < s.buf.length := by
  obtain ⟨_, s1, e1, h⟩ := M.bind_eq_ok (x := readString) h
  obtain ⟨_, s2, e2, h⟩ := M.bind_eq_ok (x := readString) h
  obtain ⟨_, s3, e3, h⟩ := M.bind_eq_ok (x := getType) h
  have h1 := Good.readString.shrinks e1
  have h2 := Good.readString.shrinks e2
  have h3 := getType_takes e3
  have h4 := Good.shrinks (by have := Good.uindex; good) h
  omega

theorem constant_takes {s s' : St} {k : Constant} (h : checked readConstant s = .ok k s') : s'.buf.length < s.buf.length := by
  obtain ⟨_, s1, e1, h⟩ := M.bind_eq_ok (x := readConstant) h
  have h1 := Good.shrinks (by have := Good.checkError; good) h
  obtain ⟨_, s2, e2, h⟩ := M.bind_eq_ok (x := uindex) e1
  have h2 := uindex_takes e2
  have h3 := Good.shrinks (by have := Good.uindex; good) h
  omega

theorem magic_takes {s s' : St} {u : Unit} (h : readMagic s = .ok u s') : s'.buf.length < s.buf.length := by
  obtain ⟨_, s1, e1, h⟩ := M.bind_eq_ok (x := M.unwrap decodeU8) h
  refine Nat.lt_of_le_of_lt (Good.shrinks ?_ h) (decodeU8_consumes _ _ _ e1)
  have := Good.decodeU8
  good

/-! ## The sections -/

namespace Cost

theorem readDebugFiles (c : Code) : Cost 0 1 (readDebugFilesK c) := by
  unfold readDebugFilesK
  split
  · exact bind (c1 := -2) (c2 := 2) (d2 := 2) ((takes fun _ _ _ h => uindex_takes h).mono (Int.le_refl _) (by omega)) (fun n =>
      bind (c1 := 1) (c2 := 1) (d2 := 1) ((store _).mono (by omega) (by omega)) (fun _ =>
      bind (c1 := 0) (c2 := 1) (d2 := 1) ((lift (.okOrRecord (.readStrings _))).mono (by omega) (by omega)) (fun _ =>
      bind (c1 := 0) (c2 := 1) (d2 := 1) ((lift .getCode).mono (by omega) (by omega)) (fun _ =>
      bind (c1 := 0) (c2 := 1) (d2 := 1) ((lift (.setCode _)).mono (by omega) (by omega)) (fun _ =>
      bind (c1 := 1) (c2 := 0) (d2 := 0) (load.mono (by omega) (by omega)) (fun _ =>
      bind (c1 := 0) (c2 := 0) (d2 := 0) (lift .checkError) (fun _ => pure _)
        (by omega) (by omega)) (by omega) (by omega)) (by omega) (by omega)) (by omega) (by omega)) (by omega) (by omega)) (by omega) (by omega)) (by omega) (by omega)
  · exact (pure c).mono (by omega) (by omega)

theorem checked {x : K Code} (h : Cost 0 1 x) : Cost 0 1 (x >>= fun a => K.lift M.checkError >>= fun _ => Pure.pure a) :=
  bind (c1 := 0) (c2 := 0) (d2 := 0) h (fun _ => bind (c1 := 0) (c2 := 0) (d2 := 0) (lift .checkError) (fun _ => pure _) (by omega) (by omega)) (by omega) (by omega)

theorem readTypesStep (i : Nat) (c : Code) : Cost 0 1 (readTypesStepK i c) := by
  unfold readTypesStepK
  simp only [K.lift_lift]
  exact around (x := readType ValueType.default) (fun _ _ _ h => type_takes h) fun t => .bind .getCode fun d => .bind (.insertAt _ _ _) fun _ => .setCode _

theorem readGlobalsStep (i : Nat) (c : Code) : Cost 0 1 (readGlobalsStepK i c) := by
  unfold readGlobalsStepK
  simp only [K.lift_lift]
  exact around (x := getType) (fun _ _ _ h => getType_takes h) fun t => .bind .getCode fun d => .bind (.insertAt _ _ _) fun _ => .setCode _

theorem readFunctionsStep (p : Profile) (i : Nat) (c : Code) : Cost 0 1 (readFunctionsStepK p i c) := by
  unfold readFunctionsStepK
  simp only [K.lift_lift]
  exact around (x := readFunction) (fun _ _ _ h => by have := function_takes h; omega) fun t => .bind .getCode fun d => .bind (.setCode _) fun _ => .readFunctionDebug _ _

theorem readNativesStep (i : Nat) (c : Code) : Cost 0 1 (readNativesStepK i c) :=
  bind (c1 := -2) (c2 := 1) (d2 := 1) ((takes fun _ _ _ h => native_takes h).mono (Int.le_refl _) (by omega)) (fun _ =>
    bind (c1 := 1) (c2 := 0) (d2 := 0) (store _) (fun _ => pure _) (by omega) (by omega)) (by omega) (by omega)

theorem readConstantsStep (i : Nat) (c : Code) : Cost 0 1 (readConstantsStepK i c) :=
  bind (c1 := -2) (c2 := 1) (d2 := 1) ((takes fun _ _ _ h => constant_takes h).mono (Int.le_refl _) (by omega)) (fun _ =>
    bind (c1 := 0) (c2 := 1) (d2 := 1) ((lift (.insertAt _ _ _)).mono (by omega) (by omega)) (fun _ =>
    bind (c1 := 1) (c2 := 0) (d2 := 0) (store _) (fun _ => pure _) (by omega) (by omega)) (by omega) (by omega)) (by omega) (by omega)

theorem readM (p : Profile) : Cost (-2) 0 (readMK p) :=
  bind (c1 := -2) (c2 := 0) (d2 := 1) (takes fun _ _ _ h => magic_takes h) (fun _ =>
  bind (c1 := 0) (c2 := 0) (d2 := 1) ((lift .readVersion).mono (by omega) (by omega)) (fun _ =>
  bind (c1 := 0) (c2 := 0) (d2 := 1) ((lift (.checked (.readCounts _))).mono (by omega) (by omega)) (fun _ =>
  bind (c1 := 0) (c2 := 0) (d2 := 1) ((lift (.readPools _)).mono (by omega) (by omega)) (fun _ =>
  bind (c1 := 0) (c2 := 0) (d2 := 1) ((lift (.readBytesSection _)).mono (by omega) (by omega)) (fun _ =>
  bind (c1 := 0) (c2 := 0) (d2 := 1) (readDebugFiles _) (fun _ =>
  bind (c1 := 0) (c2 := 0) (d2 := 1) (forRange readTypesStep _ _ _) (fun _ =>
  bind (c1 := 0) (c2 := 0) (d2 := 1) (checked (forRange readGlobalsStep _ _ _)) (fun _ =>
  bind (c1 := 0) (c2 := 0) (d2 := 1) (checked (forRange readNativesStep _ _ _)) (fun _ =>
  bind (c1 := 0) (c2 := 0) (d2 := 1) (checked (forRange (readFunctionsStep p) _ _ _)) (fun _ =>
  bind (c1 := 0) (c2 := 0) (d2 := 1) (forRange readConstantsStep _ _ _) (fun _ =>
  (lift .getCode).mono (by omega) (by omega)) (by omega) (by omega)) (by omega) (by omega)) (by omega) (by omega)) (by omega) (by omega)) (by omega) (by omega))
    (by omega) (by omega)) (by omega) (by omega)) (by omega) (by omega)) (by omega) (by omega)) (by omega) (by omega)) (by omega) (by omega)

end Cost

/-- At most two modules per byte of the input are copied. -/
theorem copied_bound (p : Profile) (e : Option DecodeError) (buf : List UInt8) : (copied p e buf).length ≤ 2 * buf.length := by
  have h := Cost.readM p (St.new buf e)
  unfold copied
  rcases hx : readMK p (St.new buf e) with ⟨o, l⟩
  rw [hx] at h
  have hb : (St.new buf e).buf = buf := rfl
  cases o <;> simp only [hb] at h ⊢ <;> omega

end Verif.Brass
