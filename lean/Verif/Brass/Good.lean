import Verif.Spec.Calls
import Verif.Brass.Code

/-!
# Properties every decoding function has

`Good x`: `x` reads a prefix of its input and moves the position by its length; a recorded error stays recorded; and if
`x` returns without a recorded error, it returns the same on every extension of the input.
-/

namespace Verif.Brass

open Verif

/-- `s` with `z` appended to its input. -/
def St.extend (s : St) (z : List UInt8) : St := { s with buf := s.buf ++ z }

@[simp] theorem St.extend_pos (s : St) (z) : (s.extend z).pos = s.pos := rfl
@[simp] theorem St.extend_buf (s : St) (z) : (s.extend z).buf = s.buf ++ z := rfl
@[simp] theorem St.extend_code (s : St) (z) : (s.extend z).code = s.code := rfl
@[simp] theorem St.extend_errors (s : St) (z) : (s.extend z).errors = s.errors := rfl

/-- `s'` is reached from `s` by reading a prefix. -/
def Reads (s s' : St) : Prop := ∃ k, s.buf = k ++ s'.buf ∧ s'.pos = s.pos + k.length

theorem Reads.refl (s : St) : Reads s s := ⟨[], by simp⟩

theorem Reads.trans {a b c : St} (h : Reads a b) (h' : Reads b c) : Reads a c := by
  obtain ⟨k, h1, h2⟩ := h
  obtain ⟨l, h3, h4⟩ := h'
  exact ⟨k ++ l, by simp [h1, h3], by simp [h2, h4]; omega⟩

theorem Reads.of_eq {s s' : St} (h : s.buf = s'.buf) (h' : s'.pos = s.pos) : Reads s s' := ⟨[], by simp [h, h']⟩

structure Good {α : Type} (x : M α) : Prop where
  reads : ∀ s s', (x s).state? = some s' → Reads s s'
  sticky : ∀ s s', (x s).state? = some s' → s.errors.isSome → s'.errors.isSome
  ext : ∀ s a s' z, x s = .ok a s' → s'.errors = none → x (s.extend z) = .ok a (s'.extend z)

theorem M.bind_def {α β : Type} (x : M α) (f : α → M β) (s : St) :
    (x >>= f) s = match x s with | .ok a s => f a s | .err e s => .err e s | .panic => .panic := rfl

theorem M.bind_ok {α β : Type} {x : M α} {f : α → M β} {s s' : St} {a : α} (h : x s = .ok a s') :
    (x >>= f) s = f a s' := by rw [M.bind_def, h]

theorem M.bind_err {α β : Type} {x : M α} {f : α → M β} {s s' : St} {e} (h : x s = .err e s') :
    (x >>= f) s = .err e s' := by rw [M.bind_def, h]

theorem M.bind_panic {α β : Type} {x : M α} {f : α → M β} {s : St} (h : x s = .panic) :
    (x >>= f) s = .panic := by rw [M.bind_def, h]

@[simp] theorem M.pure_def {α : Type} (a : α) (s : St) : (pure a : M α) s = .ok a s := rfl
@[simp] theorem M.pure_def' {α : Type} (a : α) (s : St) : (M.pure a : M α) s = .ok a s := rfl

/-- If a bind returns, its first part returned. -/
theorem M.bind_eq_ok {α β : Type} {x : M α} {f : α → M β} {s s'' : St} {b : β} (h : (x >>= f) s = .ok b s'') :
    ∃ a s', x s = .ok a s' ∧ f a s' = .ok b s'' := by
  rw [M.bind_def] at h
  split at h
  · exact ⟨_, _, by assumption, h⟩
  · cases h
  · cases h

namespace Good

theorem pure {α : Type} (a : α) : Good (pure a : M α) where
  reads := by rintro s s' h; cases h; exact .refl _
  sticky := by rintro s s' h h'; cases h; exact h'
  ext := by rintro s a s' z h h'; cases h; rfl

theorem pure' {α : Type} (a : α) : Good (M.pure a : M α) := Good.pure a

theorem bind {α β : Type} {x : M α} {f : α → M β} (hx : Good x) (hf : ∀ a, Good (f a)) : Good (x >>= f) where
  reads := by
    rintro s s'' h
    rw [M.bind_def] at h
    split at h
    · next a s' e => exact (hx.reads s s' (by simp [e, Out.state?])).trans ((hf a).reads _ _ h)
    · next e' s' e => cases h; exact hx.reads s _ (by simp [e, Out.state?])
    · cases h
  sticky := by
    rintro s s'' h h'
    rw [M.bind_def] at h
    split at h
    · next a s' e => exact (hf a).sticky _ _ h (hx.sticky s s' (by simp [e, Out.state?]) h')
    · next e' s' e => cases h; exact hx.sticky s _ (by simp [e, Out.state?]) h'
    · cases h
  ext := by
    rintro s b s'' z h h'
    obtain ⟨a, s', h1, h2⟩ := M.bind_eq_ok h
    have : s'.errors = none := by
      cases he : s'.errors with
      | none => rfl
      | some e =>
        have := (hf a).sticky s' s'' (by simp [h2, Out.state?]) (by simp [he])
        simp [h'] at this
    rw [M.bind_ok (hx.ext s a s' z h1 this)]
    exact (hf a).ext s' b s'' z h2 h'

theorem bind' {α β : Type} {x : M α} {f : α → M β} (hx : Good x) (hf : ∀ a, Good (f a)) : Good (M.bind x f) :=
  Good.bind hx hf

theorem panic {α : Type} : Good (M.panic : M α) where
  reads := by rintro s s' h; cases h
  sticky := by rintro s s' h; cases h
  ext := by rintro s a s' z h; cases h

theorem fail {α : Type} (e) : Good (M.fail e : M α) where
  reads := by rintro s s' h; cases h; exact .refl _
  sticky := by rintro s s' h h'; cases h; exact h'
  ext := by rintro s a s' z h; cases h

theorem failAt {α : Type} (e) : Good (M.failAt e : M α) where
  reads := by rintro s s' h; cases h; exact .refl _
  sticky := by rintro s s' h h'; cases h; exact h'
  ext := by rintro s a s' z h; cases h

theorem getCode : Good M.getCode where
  reads := by rintro s s' h; cases h; exact .refl _
  sticky := by rintro s s' h h'; cases h; exact h'
  ext := by rintro s a s' z h h'; cases h; rfl

theorem getErrors : Good M.getErrors where
  reads := by rintro s s' h; cases h; exact .refl _
  sticky := by rintro s s' h h'; cases h; exact h'
  ext := by rintro s a s' z h h'; cases h; rfl

theorem setCode (c) : Good (M.setCode c) where
  reads := by rintro s s' h; cases h; exact .of_eq rfl rfl
  sticky := by rintro s s' h h'; cases h; exact h'
  ext := by rintro s a s' z h h'; cases h; rfl

theorem setError (k) : Good (M.setError k) where
  reads := by rintro s s' h; cases h; exact .of_eq rfl rfl
  sticky := by rintro s s' h h'; cases h; rfl
  ext := by rintro s a s' z h h'; cases h; cases h'

theorem recordError_errors (e) (s : St) : (M.recordError e s).errors.isSome := by
  unfold M.recordError; split
  · rfl
  · next h => simp [h]

theorem recordError_reads (e) (s : St) : Reads s (M.recordError e s) := by
  unfold M.recordError; split
  · exact .of_eq rfl rfl
  · exact .refl _

theorem mapErrAt (k) : Good (M.mapErrAt k) where
  reads := by rintro s s' h; cases h; exact recordError_reads _ _
  sticky := by rintro s s' h h'; cases h; exact recordError_errors _ _
  ext := by
    rintro s a s' z h h'
    cases h
    have := recordError_errors { kind := k, position := s.pos } s
    simp [h'] at this

theorem checkError : Good M.checkError where
  reads := by rintro s s' h; unfold M.checkError at h; split at h <;> (cases h; exact .refl _)
  sticky := by rintro s s' h h'; unfold M.checkError at h; split at h <;> (cases h; exact h')
  ext := by
    rintro s a s' z h h'
    unfold M.checkError at h ⊢
    split at h
    · cases h
    · next h1 => cases h; simp [h1]

theorem unwrap {α : Type} {x : M α} (hx : Good x) : Good (M.unwrap x) where
  reads := by
    rintro s s' h
    unfold M.unwrap at h
    split at h <;> cases h
    next e => exact hx.reads _ _ (by simp [e, Out.state?])
  sticky := by
    rintro s s' h
    unfold M.unwrap at h
    split at h <;> cases h
    next e => exact hx.sticky _ _ (by simp [e, Out.state?])
  ext := by
    rintro s a s' z h h'
    unfold M.unwrap at h ⊢
    split at h <;> cases h
    next e => simp [hx.ext _ _ _ z e h']

theorem unwrapOpt {α : Type} (o : Option α) : Good (M.unwrapOpt o) := by
  cases o
  · exact panic
  · exact pure _

theorem okOrRecord {α : Type} {x : M α} (hx : Good x) : Good (M.okOrRecord x) where
  reads := by
    rintro s s' h
    unfold M.okOrRecord at h
    split at h <;> cases h
    · next e => exact hx.reads _ _ (by simp [e, Out.state?])
    · next e => exact (hx.reads _ _ (by rw [e]; rfl)).trans (recordError_reads _ _)
  sticky := by
    rintro s s' h h'
    unfold M.okOrRecord at h
    split at h <;> cases h
    · next e => exact hx.sticky _ _ (by simp [e, Out.state?]) h'
    · exact recordError_errors _ _
  ext := by
    rintro s a s' z h h'
    unfold M.okOrRecord at h ⊢
    split at h
    · next e => cases h; simp [hx.ext _ _ _ z e h']
    · next e s1 _ =>
      injection h with h1 h2
      have := recordError_errors e s1
      rw [h2] at this
      simp [h'] at this
    · cases h

theorem peek (n) : Good (M.peek n) where
  reads := by rintro s s' h; unfold M.peek at h; split at h <;> cases h; exact .refl _
  sticky := by rintro s s' h h'; unfold M.peek at h; split at h <;> cases h; exact h'
  ext := by
    rintro s a s' z h h'
    unfold M.peek at h ⊢
    split at h <;> cases h
    next h1 => rw [if_pos (by simp; omega)]; simp [List.take_append_of_le_length h1]

theorem advance (n) : Good (advance n) where
  reads := by
    rintro s s' h
    unfold Brass.advance at h
    split at h <;> cases h
    · exact .refl _
    · next h1 => exact ⟨s.buf.take n, by simp, by simp; omega⟩
  sticky := by rintro s s' h h'; unfold Brass.advance at h; split at h <;> cases h <;> exact h'
  ext := by
    rintro s a s' z h h'
    unfold Brass.advance at h ⊢
    split at h <;> cases h
    next h1 =>
      rw [if_neg (by simp; omega)]
      simp [St.extend, List.drop_append_of_le_length (Nat.le_of_not_lt h1)]

theorem readBytes (n) : Good (readBytes n) where
  reads := by
    rintro s s' h
    unfold Brass.readBytes at h
    split at h <;> cases h
    · exact .refl _
    · next h1 => exact ⟨s.buf.take n, by simp, by simp; omega⟩
  sticky := by rintro s s' h h'; unfold Brass.readBytes at h; split at h <;> cases h <;> exact h'
  ext := by
    rintro s a s' z h h'
    unfold Brass.readBytes at h ⊢
    split at h <;> cases h
    next h1 =>
      rw [if_neg (by simp; omega)]
      simp [St.extend, List.drop_append_of_le_length (Nat.le_of_not_lt h1),
        List.take_append_of_le_length (Nat.le_of_not_lt h1)]

theorem insertAt {α : Type} (v : List α) (i : Nat) (x : α) : Good (M.insertAt v i x) := by
  unfold M.insertAt; split
  · exact pure _
  · exact panic

theorem forRange {β : Type} {f : Nat → β → M β} (hf : ∀ i b, Good (f i b)) :
    ∀ n a b, Good (M.forRange f a n b)
  | 0, _, _ => pure _
  | n + 1, a, b => bind (hf a b) (fun b => forRange hf n (a + 1) b)

theorem whileReading_reads {β : Type} {c : β → Bool} {f : β → M β} (hf : ∀ b, Good (f b)) (b : β) (s s' : St)
    (h : (M.whileReading c f b s).state? = some s') :
    Reads s s' ∧ (s.errors.isSome → s'.errors.isSome) := by
  unfold M.whileReading at h
  split at h
  · split at h
    · next b1 s1 e =>
      split at h
      · next hlt =>
        have := whileReading_reads hf b1 s1 s' h
        have r := (hf b).reads s s1 (by simp [e, Out.state?])
        have k := (hf b).sticky s s1 (by simp [e, Out.state?])
        exact ⟨r.trans this.1, fun z => this.2 (k z)⟩
      · cases h
    · next e' s1 e =>
      cases h
      exact ⟨(hf b).reads _ _ (by simp [e, Out.state?]), (hf b).sticky _ _ (by simp [e, Out.state?])⟩
    · cases h
  · cases h; exact ⟨.refl _, id⟩
termination_by s.buf.length

theorem whileReading_ext {β : Type} {c : β → Bool} {f : β → M β} (hf : ∀ b, Good (f b)) (b : β) (s s' : St) (a : β)
    (z : List UInt8) (h : M.whileReading c f b s = .ok a s') (h' : s'.errors = none) :
    M.whileReading c f b (s.extend z) = .ok a (s'.extend z) := by
  unfold M.whileReading at h ⊢
  split at h
  · next hc =>
    rw [if_pos hc]
    split at h
    · next b1 s1 e =>
      split at h
      · next hlt =>
        have : s1.errors = none := by
          cases he : s1.errors with
          | none => rfl
          | some e =>
            have := (whileReading_reads (c := c) hf b1 s1 s' (by simp [h, Out.state?])).2 (by simp [he])
            simp [h'] at this
        simp only [(hf b).ext s b1 s1 z e this, St.extend_buf, List.length_append]
        rw [if_pos (by omega)]
        exact whileReading_ext hf b1 s1 s' a z h h'
      · cases h
    · cases h
    · cases h
  · next hc => cases h; rw [if_neg hc]
termination_by s.buf.length

theorem whileReading {β : Type} {c : β → Bool} {f : β → M β} (hf : ∀ b, Good (f b)) (b : β) :
    Good (M.whileReading c f b : M β) where
  reads := fun s s' h => (whileReading_reads hf b s s' h).1
  sticky := fun s s' h => (whileReading_reads hf b s s' h).2
  ext := fun s a s' z h h' => whileReading_ext hf b s s' a z h h'

end Good

/-- One step of a `Good` proof. -/
macro "good1" : tactic => `(tactic| first
  | assumption
  | with_reducible exact Good.pure _ | with_reducible exact Good.pure' _ | with_reducible exact Good.panic | with_reducible exact Good.fail _ | with_reducible exact Good.failAt _ | with_reducible exact Good.getCode | with_reducible exact Good.getErrors
  | with_reducible exact Good.setCode _ | with_reducible exact Good.setError _ | with_reducible exact Good.mapErrAt _ | with_reducible exact Good.checkError | with_reducible exact Good.unwrapOpt _
  | with_reducible exact Good.peek _ | with_reducible exact Good.advance _ | with_reducible exact Good.readBytes _ | with_reducible exact Good.insertAt _ _ _
  | with_reducible apply Good.unwrap | with_reducible apply Good.okOrRecord | with_reducible apply Good.bind | with_reducible apply Good.bind' | with_reducible apply Good.forRange | with_reducible apply Good.whileReading
  | intro _ | split)

macro "good" : tactic => `(tactic| repeat good1)

/-- `good` with extra facts. -/
syntax "goodw" "[" term,* "]" : tactic
macro_rules
  | `(tactic| goodw []) => `(tactic| good)
  | `(tactic| goodw [$ts,*]) => do
    let ts := ts.getElems
    `(tactic| repeat first $[| with_reducible apply $ts:term]* | good1)

namespace Good

theorem decodeUnsigned (n) : Good (decodeUnsigned n) := by
  unfold Brass.decodeUnsigned; goodw []
theorem decodeSigned (n) : Good (decodeSigned n) := by
  unfold Brass.decodeSigned; goodw []
theorem decodeU8 : Good decodeU8 := decodeUnsigned _
theorem decodeI32 : Good decodeI32 := decodeSigned _
theorem decodeF64 : Good decodeF64 := decodeUnsigned _
theorem readIndex : Good readIndex := by
  unfold Brass.readIndex; goodw [decodeU8]
theorem index : Good index := readIndex.unwrap
theorem uindex : Good uindex := by
  unfold Brass.uindex; goodw [index]
theorem toI32 (n) : Good (toI32 n) := by
  unfold Brass.toI32; goodw []
theorem badIndex (i n) : Good (badIndex i n) := by
  unfold Brass.badIndex; goodw [toI32]
theorem checked {α : Type} {x : M α} (h : Good x) : Good (checked x) := by
  unfold Brass.checked; good
theorem peekAdvance (n) : Good (peekAdvance n) := by
  unfold Brass.peekAdvance; good
theorem readString : Good readString := by
  unfold Brass.readString; goodw [index, badIndex]
theorem readUstring : Good readUstring := by
  unfold Brass.readUstring; goodw [index, badIndex]
theorem getType : Good getType := by
  unfold Brass.getType; goodw [index, badIndex]
theorem readTypeRefs (n) : Good (readTypeRefs n) := by
  unfold Brass.readTypeRefs; goodw [getType]
theorem readField : Good readField := by
  unfold Brass.readField; goodw [getType, readUstring]
theorem readFields (n) : Good (readFields n) := by
  unfold Brass.readFields; goodw [readField]
theorem readProto : Good readProto := by
  unfold Brass.readProto; goodw [uindex, index, readUstring]
theorem readProtos (n) : Good (readProtos n) := by
  unfold Brass.readProtos; goodw [readProto]
theorem readBindings (n) : Good (readBindings n) := by
  unfold Brass.readBindings; goodw [uindex]
theorem readConstruct : Good readConstruct := by
  unfold Brass.readConstruct; goodw [uindex, readUstring, readTypeRefs]
theorem readConstructs (n) : Good (readConstructs n) := by
  unfold Brass.readConstructs; goodw [readConstruct]
theorem readFuncType : Good readFuncType := by
  unfold Brass.readFuncType; goodw [decodeU8, getType, readTypeRefs]
theorem readSuper : Good readSuper := by
  unfold Brass.readSuper; goodw [index]
theorem readObjType : Good readObjType := by
  unfold Brass.readObjType; goodw [uindex, index, readUstring, readSuper, readFields, readProtos, readBindings]
theorem readVirtualType : Good readVirtualType := by
  unfold Brass.readVirtualType; goodw [uindex, readFields]
theorem readEnumType : Good readEnumType := by
  unfold Brass.readEnumType; goodw [uindex, readUstring, readConstructs]
theorem readTypeBody (t) : Good (readTypeBody t) := by
  unfold Brass.readTypeBody; goodw [readFuncType, readObjType, getType, readVirtualType, readUstring, readEnumType]
theorem readType (t) : Good (readType t) := by
  unfold Brass.readType; goodw [decodeU8, readTypeBody]
theorem sliceFrom (s i) : Good (sliceFrom s i) := by
  unfold Brass.sliceFrom; goodw []
theorem sliceTo (s i) : Good (sliceTo s i) := by
  unfold Brass.sliceTo; goodw []
theorem readStringsLoop (st) : ∀ n c a b, Good (readStringsLoop st n c a b)
  | 0, _, _, _ => pure _
  | n + 1, c, a, b => by
    unfold Brass.readStringsLoop
    have := uindex; good; exact sliceFrom _ _; good; exact sliceTo _ _; good; exact readStringsLoop st n _ _ _
theorem readStrings (n) : Good (readStrings n) := by
  unfold Brass.readStrings; goodw [decodeI32, readStringsLoop, peekAdvance]
theorem readExtra {rd} (h : Good rd) (n) : Good (readExtra rd n) := by
  unfold Brass.readExtra; goodw []
theorem uindexI : Good uindexI := by
  unfold Brass.uindexI; goodw [uindex]
theorem readCallLike (r) : Good (readCallLike r) := by
  unfold Brass.readCallLike; goodw [index, decodeU8, readExtra]
theorem readSwitch (r) : Good (readSwitch r) := by
  unfold Brass.readSwitch; goodw [uindexI, uindex, readExtra]
theorem readOperands (r i) : Good (readOperands r i) := by
  unfold Brass.readOperands; goodw [index, readCallLike, readSwitch, readExtra]
theorem readOpcode : Good readOpcode := by
  unfold Brass.readOpcode; goodw [decodeU8, readOperands]
theorem readOpcodes (n) : Good (readOpcodes n) := by
  unfold Brass.readOpcodes; goodw [readOpcode]
theorem readFunction : Good readFunction := by
  unfold Brass.readFunction; goodw [uindex, getType, readTypeRefs, readOpcodes]
theorem i32Add (p a b) : Good (i32Add p a b) := by
  unfold Brass.i32Add; goodw []
theorem debugStore (d) : Good (debugStore d) := by
  unfold Brass.debugStore; goodw []
theorem setErrorIf (b k) : Good (setErrorIf b k) := by
  unfold Brass.setErrorIf; goodw []
theorem debugBody (p n d) : Good (debugBody p n d) := by
  unfold Brass.debugBody; goodw [decodeU8, toI32, setErrorIf, i32Add, debugStore]
theorem debugInfos (p n) : Good (debugInfos p n) := by
  exact bind (whileReading (debugBody p n) _) (fun _ => pure _)
theorem readMagic : Good readMagic := by
  unfold Brass.readMagic; goodw [decodeU8]
theorem readVersion : Good readVersion := by
  unfold Brass.readVersion; goodw [decodeU8]
theorem uindexIf (b) : Good (uindexIf b) := by
  unfold Brass.uindexIf; goodw [uindex]
theorem readCounts (v) : Good (readCounts v) := by
  unfold Brass.readCounts; goodw [uindex, uindexIf]
theorem insertIfSome {α : Type} (v : List α) (i) : ∀ o, Good (insertIfSome v i o)
  | some _ => insertAt _ _ _
  | none => pure _
theorem readPool {α : Type} {rd : M α} (h : Good rd) (n) : Good (readPool rd n) := by
  unfold Brass.readPool; goodw [insertIfSome]
theorem readPools (c) : Good (readPools c) := by
  unfold Brass.readPools; goodw [readPool, readStrings, decodeI32, decodeF64, checked]
theorem readBytesPos (n) : Good (readBytesPos n) := by
  unfold Brass.readBytesPos; goodw [uindex]
theorem readBytesSection (c) : Good (readBytesSection c) := by
  unfold Brass.readBytesSection; dsimp only; goodw [checked, decodeI32, readBytesPos]
theorem readDebugFiles (c) : Good (readDebugFiles c) := by
  unfold Brass.readDebugFiles; goodw [uindex, readStrings]
theorem readTypesStep (i c) : Good (readTypesStep i c) := by
  unfold Brass.readTypesStep; goodw [readType]
theorem readTypes (c) : Good (readTypes c) := forRange readTypesStep _ _ _
theorem readGlobalsStep (i c) : Good (readGlobalsStep i c) := by
  unfold Brass.readGlobalsStep; goodw [getType]
theorem readGlobals (c) : Good (readGlobals c) := by
  unfold Brass.readGlobals; dsimp only; goodw [readGlobalsStep, checked]
theorem readNative : Good readNative := by
  unfold Brass.readNative; goodw [readString, getType, uindex]
theorem readNativesStep (i c) : Good (readNativesStep i c) := by
  unfold Brass.readNativesStep; goodw [readNative]
theorem readNatives (c) : Good (readNatives c) := by
  unfold Brass.readNatives; dsimp only; goodw [readNativesStep, checked]
theorem skipAssigns : Good skipAssigns := by
  unfold Brass.skipAssigns; goodw [index, uindex]
theorem storeDebug (i) : ∀ o, Good (storeDebug i o)
  | none => pure _
  | some _ => by unfold Brass.storeDebug; good
theorem skipAssignsIf (b) : Good (skipAssignsIf b) := by
  unfold Brass.skipAssignsIf; goodw [skipAssigns]
theorem readFunctionDebug (p i) : Good (readFunctionDebug p i) := by
  unfold Brass.readFunctionDebug; goodw [skipAssigns, debugInfos, storeDebug, skipAssignsIf]
theorem readFunctionsStep (p i c) : Good (readFunctionsStep p i c) := by
  unfold Brass.readFunctionsStep; goodw [readFunction, readFunctionDebug]
theorem readFunctions (p c) : Good (readFunctions p c) := by
  unfold Brass.readFunctions; goodw [readFunctionsStep, checked]
theorem readConstant : Good readConstant := by
  unfold Brass.readConstant; goodw [uindex]
theorem readConstantsStep (i c) : Good (readConstantsStep i c) := by
  unfold Brass.readConstantsStep; goodw [readConstant, checked]
theorem readConstants (c) : Good (readConstants c) := forRange readConstantsStep _ _ _
theorem readM (p) : Good (readM p) := by
  unfold Brass.readM; goodw [checked, readMagic, readVersion, readCounts, readPools, readBytesSection, readDebugFiles, readTypes, readGlobals, readNatives, readFunctions, readConstants]
end Good

end Verif.Brass
