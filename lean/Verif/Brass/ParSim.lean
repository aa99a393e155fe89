import Verif.Brass.ParCode
import Verif.Brass.NoErr

/-!
# The interleavable model, run alone, is the sequential model
-/

namespace Verif.Brass

open Verif

/-- The sequential state made of a decoder and the value of `ERRORS`. -/
def Dec.st (d : Dec) (e : Option DecodeError) : St := { buf := d.buf, pos := d.pos, code := d.code, errors := e }

/-- The sequential outcome made of an outcome and the value of `ERRORS` (lost in a panic). -/
def Res.out {α : Type} : Res α × Option DecodeError → Out α
  | (.ok a d, e) => .ok a (d.st e)
  | (.err x d, e) => .err x (d.st e)
  | (.panic, _) => .panic

theorem Tree.run_andThen {α β : Type} (t : Tree α) (k : Res α → Tree β) (e : Option DecodeError) :
    (t.andThen k).run e = (k (t.run e).1).run (t.run e).2 := by
  induction t generalizing e with
  | done r => rfl
  | get g ih => exact ih e e
  | set v t ih => exact ih v

/-- `x` run alone does what `y` does. -/
def Sim {α : Type} (x : P α) (y : M α) : Prop := ∀ d e, Res.out ((x d).run e) = y (d.st e)

namespace Sim

theorem pure {α : Type} (a : α) : Sim (Pure.pure a : P α) (Pure.pure a : M α) := fun _ _ => rfl
theorem pure' {α : Type} (a : α) : Sim (P.pure a : P α) (M.pure a : M α) := fun _ _ => rfl
theorem panic {α : Type} : Sim (P.panic : P α) (M.panic : M α) := fun _ _ => rfl
theorem getCode : Sim P.getCode M.getCode := fun _ _ => rfl
theorem setCode (c) : Sim (P.setCode c) (M.setCode c) := fun _ _ => rfl
theorem getErrors : Sim P.getErrors M.getErrors := fun _ _ => rfl
theorem setError (k) : Sim (P.setError k) (M.setError k) := fun _ _ => rfl
theorem failAt {α : Type} (k) : Sim (P.failAt k : P α) (M.failAt k : M α) := fun _ _ => rfl
theorem mapErrAt (k) : Sim (P.mapErrAt k) (M.mapErrAt k) := by
  intro d e
  cases e <;> rfl
theorem checkError : Sim P.checkError M.checkError := by
  intro d e
  cases e <;> rfl
theorem peek (n) : Sim (P.peek n) (M.peek n) := by
  intro d e
  unfold P.peek M.peek
  by_cases h : n ≤ d.buf.length
  · simp only [h, if_true, Tree.run, Res.out, Dec.st]
  · simp only [h, if_false, Tree.run, Res.out, Dec.st]
theorem ite {α : Type} {b : Prop} [Decidable b] {x y : P α} {x' y' : M α} (hx : Sim x x') (hy : Sim y y') :
    Sim (if b then x else y) (if b then x' else y') := by
  split; exact hx; exact hy
theorem unwrapOpt {α : Type} (o : Option α) : Sim (P.unwrapOpt o) (M.unwrapOpt o) := by
  cases o; exact panic; exact pure' _
theorem insertAt {α : Type} (v : List α) (i : Nat) (x : α) : Sim (P.insertAt v i x) (M.insertAt v i x) :=
  ite (pure' _) panic

/-- How a run of `x` looks if the run of `y` is known. -/
theorem cases {α : Type} {x : P α} {y : M α} (h : Sim x y) (d : Dec) (e : Option DecodeError) :
    (∃ a d' e', (x d).run e = (.ok a d', e') ∧ y (d.st e) = .ok a (d'.st e')) ∨
    (∃ z d' e', (x d).run e = (.err z d', e') ∧ y (d.st e) = .err z (d'.st e')) ∨
    (∃ e', (x d).run e = (.panic, e') ∧ y (d.st e) = .panic) := by
  have h1 := h d e
  generalize (x d).run e = r at h1
  obtain ⟨r, e'⟩ := r
  cases r with
  | ok a d' => exact .inl ⟨a, d', e', rfl, h1.symm⟩
  | err z d' => exact .inr (.inl ⟨z, d', e', rfl, h1.symm⟩)
  | panic => exact .inr (.inr ⟨e', rfl, h1.symm⟩)

theorem bind {α β : Type} {x : P α} {f : α → P β} {x' : M α} {f' : α → M β} (hx : Sim x x') (hf : ∀ a, Sim (f a) (f' a)) :
    Sim (x >>= f) (x' >>= f') := by
  intro d e
  show Res.out ((Tree.andThen (x d) _).run e) = M.bind x' f' (d.st e)
  rw [Tree.run_andThen]
  unfold M.bind
  rcases hx.cases d e with ⟨a, d', e', h1, h2⟩ | ⟨z, d', e', h1, h2⟩ | ⟨e', h1, h2⟩ <;> rw [h1, h2]
  · exact hf a d' e'
  · rfl
  · rfl

theorem unwrap {α : Type} {x : P α} {y : M α} (h : Sim x y) : Sim (P.unwrap x) (M.unwrap y) := by
  intro d e
  show Res.out ((Tree.andThen (x d) _).run e) = M.unwrap y (d.st e)
  rw [Tree.run_andThen]
  unfold M.unwrap
  rcases h.cases d e with ⟨a, d', e', h1, h2⟩ | ⟨z, d', e', h1, h2⟩ | ⟨e', h1, h2⟩ <;> rw [h1, h2] <;> rfl

theorem unwrapRecord {α : Type} {x : P α} {y : M α} (h : Sim x y) : Sim (P.unwrapRecord x) (M.unwrap y) := by
  intro d e
  show Res.out ((Tree.andThen (x d) _).run e) = M.unwrap y (d.st e)
  rw [Tree.run_andThen]
  unfold M.unwrap
  rcases h.cases d e with ⟨a, d', e', h1, h2⟩ | ⟨z, d', e', h1, h2⟩ | ⟨e', h1, h2⟩ <;> rw [h1, h2]
  · rfl
  · cases e' <;> rfl
  · rfl

theorem okOrRecord {α : Type} {x : P α} {y : M α} (h : Sim x y) : Sim (P.okOrRecord x) (M.okOrRecord y) := by
  intro d e
  show Res.out ((Tree.andThen (x d) _).run e) = M.okOrRecord y (d.st e)
  rw [Tree.run_andThen]
  unfold M.okOrRecord
  rcases h.cases d e with ⟨a, d', e', h1, h2⟩ | ⟨z, d', e', h1, h2⟩ | ⟨e', h1, h2⟩ <;> rw [h1, h2]
  · rfl
  · cases e' <;> rfl
  · rfl

theorem forRange {β : Type} {f : Nat → β → P β} {f' : Nat → β → M β} (hf : ∀ i b, Sim (f i b) (f' i b)) :
    ∀ n a b, Sim (P.forRange f a n b) (M.forRange f' a n b)
  | 0, _, _ => pure' _
  | n + 1, a, b => bind (hf a b) fun b => forRange hf n (a + 1) b

theorem whileFuel {β : Type} {cond : β → Bool} {f : β → P β} {f' : β → M β} (hf : ∀ b, Sim (f b) (f' b)) :
    ∀ n b d e, d.buf.length < n → Res.out ((P.whileFuel cond f n b d).run e) = M.whileReading cond f' b (d.st e) := by
  intro n
  induction n with
  | zero => intro b d e h; omega
  | succ n ih =>
    intro b d e h
    unfold P.whileFuel M.whileReading
    cases hc : cond b with
    | false => rfl
    | true =>
      simp only [if_true]
      rw [Tree.run_andThen]
      rcases (hf b).cases d e with ⟨a, d', e', h1, h2⟩ | ⟨z, d', e', h1, h2⟩ | ⟨e', h1, h2⟩ <;> rw [h1, h2]
      · show Res.out ((if d'.buf.length < d.buf.length then _ else _ : Tree β).run e') =
          if d'.buf.length < d.buf.length then _ else _
        split
        · exact ih a d' e' (by omega)
        · rfl
      · rfl
      · rfl

theorem whileReading {β : Type} {cond : β → Bool} {f : β → P β} {f' : β → M β} (hf : ∀ b, Sim (f b) (f' b)) (b : β) :
    Sim (P.whileReading cond f b) (M.whileReading cond f' b) :=
  fun d e => whileFuel hf _ b d e (Nat.lt_succ_self _)

/-! ## decoder.rs -/

theorem advance (n) : Sim (Par.advance n) (advance n) := by
  intro d e
  unfold Par.advance Brass.advance
  by_cases h : n > d.buf.length
  · simp only [h, if_true, Tree.run, Res.out, Dec.st]
  · simp only [h, if_false, Tree.run, Res.out, Dec.st]
theorem readBytes (n) : Sim (Par.readBytes n) (readBytes n) := by
  intro d e
  unfold Par.readBytes Brass.readBytes
  by_cases h : n > d.buf.length
  · simp only [h, if_true, Tree.run, Res.out, Dec.st]
  · simp only [h, if_false, Tree.run, Res.out, Dec.st]
theorem decodeUnsigned (n) : Sim (Par.decodeUnsigned n) (decodeUnsigned n) := bind (readBytes n) fun _ => pure _
theorem decodeSigned (n) : Sim (Par.decodeSigned n) (decodeSigned n) := bind (readBytes n) fun _ => pure _
theorem decodeU8 : Sim Par.decodeU8 decodeU8 := decodeUnsigned 1
theorem decodeI32 : Sim Par.decodeI32 decodeI32 := decodeSigned 4
theorem decodeF64 : Sim Par.decodeF64 decodeF64 := decodeUnsigned 8
theorem readIndex : Sim Par.readIndex readIndex :=
  bind decodeU8 fun _ => ite (pure _) (ite (bind (unwrap decodeU8) fun _ => pure _)
    (bind decodeU8 fun _ => bind decodeU8 fun _ => bind decodeU8 fun _ => pure _))

/-! ## code.rs -/

theorem index : Sim Par.index index := unwrap readIndex
theorem uindex : Sim Par.uindex uindex := bind index fun _ => ite (bind (setError _) fun _ => pure _) (pure _)
theorem toI32 (n) : Sim (Par.toI32 n) (toI32 n) := ite (pure' _) panic
theorem badIndex (i n) : Sim (Par.badIndex i n) (badIndex i n) := ite (pure' _) (bind (toI32 n) fun _ => pure _)
theorem sliceFrom (s i) : Sim (Par.sliceFrom s i) (sliceFrom s i) := ite (pure' _) panic
theorem sliceTo (s i) : Sim (Par.sliceTo s i) (sliceTo s i) := ite (pure' _) panic
theorem readString : Sim Par.readString readString :=
  bind index fun _ => bind getCode fun _ => bind (badIndex _ _) fun _ => ite (bind (setError _) fun _ => pure _) (unwrapOpt _)
theorem readUstring : Sim Par.readUstring readUstring :=
  bind index fun i => bind getCode fun d => bind (badIndex _ _) fun _ => ite (bind (setError _) fun _ => pure _) (by
    cases getUstring d i.toNat with
    | panic => exact panic
    | ret r => exact bind (setCode _) fun _ => pure _)
theorem getType : Sim Par.getType getType :=
  bind index fun _ => bind getCode fun _ => bind (badIndex _ _) fun _ => ite (bind (setError _) fun _ => unwrapOpt _) (unwrapOpt _)
theorem readTypeRefs (n) : Sim (Par.readTypeRefs n) (readTypeRefs n) :=
  forRange (fun _ _ => bind getType fun _ => insertAt _ _ _) _ _ _
theorem readField : Sim Par.readField readField := bind readUstring fun _ => bind getType fun _ => pure _
theorem readFields (n) : Sim (Par.readFields n) (readFields n) :=
  forRange (fun _ _ => bind readField fun _ => insertAt _ _ _) _ _ _
theorem readProto : Sim Par.readProto readProto :=
  bind readUstring fun _ => bind uindex fun _ => bind index fun _ => pure _
theorem readProtos (n) : Sim (Par.readProtos n) (readProtos n) :=
  forRange (fun _ _ => bind readProto fun _ => insertAt _ _ _) _ _ _
theorem readBindings (n) : Sim (Par.readBindings n) (readBindings n) :=
  forRange (fun _ _ => bind uindex fun _ => bind (insertAt _ _ _) fun _ => bind uindex fun _ => insertAt _ _ _) _ _ _
theorem readConstruct : Sim Par.readConstruct readConstruct :=
  bind readUstring fun _ => bind uindex fun _ => bind (readTypeRefs _) fun _ => pure _
theorem readConstructs (n) : Sim (Par.readConstructs n) (readConstructs n) :=
  forRange (fun _ _ => bind readConstruct fun _ => insertAt _ _ _) _ _ _
theorem readFuncType : Sim Par.readFuncType readFuncType :=
  bind (unwrap decodeU8) fun _ => bind (readTypeRefs _) fun _ => bind getType fun _ => pure _
theorem readSuper : Sim Par.readSuper readSuper :=
  bind index fun _ => ite (pure _) (bind getCode fun _ => unwrapOpt _)
theorem readObjType : Sim Par.readObjType readObjType :=
  bind readUstring fun _ => bind readSuper fun _ => bind uindex fun _ => bind uindex fun _ => bind uindex fun _ =>
    bind uindex fun _ => bind (readFields _) fun _ => bind (readProtos _) fun _ => bind (readBindings _) fun _ => pure _
theorem readVirtualType : Sim Par.readVirtualType readVirtualType :=
  bind uindex fun _ => bind (readFields _) fun _ => pure _
theorem readEnumType : Sim Par.readEnumType readEnumType :=
  bind readUstring fun _ => bind uindex fun _ => bind uindex fun _ => bind (readConstructs _) fun _ => pure _
theorem readTypeBody (t) : Sim (Par.readTypeBody t) (readTypeBody t) := by
  unfold Par.readTypeBody Brass.readTypeBody
  cases t.kind
  case HFUN => exact bind readFuncType fun _ => pure _
  case HMETHOD => exact bind readFuncType fun _ => pure _
  case HOBJ => exact bind readObjType fun _ => pure _
  case HSTRUCT => exact bind readObjType fun _ => pure _
  case HREF => exact bind getType fun _ => pure _
  case HVIRTUAL => exact bind readVirtualType fun _ => pure _
  case HABSTRACT => exact bind readUstring fun _ => pure _
  case HENUM => exact bind readEnumType fun _ => pure _
  case HNULL => exact bind getType fun _ => pure _
  case HPACKED => exact bind getType fun _ => pure _
  all_goals exact pure _
theorem readType (t) : Sim (Par.readType t) (readType t) :=
  bind (unwrap decodeU8) fun _ => ite (bind (mapErrAt _) fun _ => pure _) (bind (unwrapOpt _) fun _ => readTypeBody _)
theorem readStringsLoop (st : Str) : ∀ n cursor strs lens,
    Sim (Par.readStringsLoop st n cursor strs lens) (readStringsLoop st n cursor strs lens)
  | 0, _, _, _ => pure' _
  | n + 1, _, _, _ => bind uindex fun _ => bind (sliceFrom _ _) fun _ => bind (sliceTo _ _) fun _ =>
      ite (pure _) (readStringsLoop st n _ _ _)
theorem peekAdvance (n) : Sim (Par.peekAdvance n) (peekAdvance n) :=
  bind (peek n) fun _ => bind (advance n) fun _ => pure _
theorem readStrings (n) : Sim (Par.readStrings n) (readStrings n) :=
  bind (unwrap decodeI32) fun _ => ite panic (bind (peekAdvance _) fun _ => readStringsLoop _ _ _ _ _)
theorem readExtra {rd : P Int} {rd' : M Int} (h : Sim rd rd') (n) : Sim (Par.readExtra rd n) (readExtra rd' n) :=
  forRange (fun _ _ => bind h fun _ => insertAt _ _ _) _ _ _
theorem uindexI : Sim Par.uindexI uindexI := bind uindex fun _ => pure _
theorem readCallLike (r) : Sim (Par.readCallLike r) (readCallLike r) :=
  bind index fun _ => bind index fun _ => bind (unwrap decodeU8) fun _ => bind (readExtra index _) fun _ => pure _
theorem readSwitch (r) : Sim (Par.readSwitch r) (readSwitch r) :=
  bind uindexI fun _ => bind uindex fun _ => bind (readExtra uindexI _) fun _ => bind uindexI fun _ => pure _
theorem readOperands (r i) : Sim (Par.readOperands r i) (readOperands r i) := by
  refine ite (pure' _) (ite (bind index fun _ => pure _) (ite (bind index fun _ => bind index fun _ => pure _)
    (ite (bind index fun _ => bind index fun _ => bind index fun _ => pure _)
      (ite (bind index fun _ => bind index fun _ => bind index fun _ => bind index fun _ => pure _)
        (ite ?_ (bind index fun _ => bind index fun _ => bind index fun _ => ite panic (bind (readExtra index _) fun _ => pure _)))))))
  cases r.op
  case OCallN => exact readCallLike _
  case OCallClosure => exact readCallLike _
  case OCallMethod => exact readCallLike _
  case OCallThis => exact readCallLike _
  case OMakeEnum => exact readCallLike _
  case OSwitch => exact readSwitch _
  all_goals exact failAt _
theorem readOpcode : Sim Par.readOpcode readOpcode :=
  bind (unwrap decodeU8) fun _ => ite (bind (setError _) fun _ => pure _)
    (bind (unwrapOpt _) fun _ => bind (unwrapOpt _) fun _ => readOperands _ _)
theorem readOpcodes (n) : Sim (Par.readOpcodes n) (readOpcodes n) :=
  forRange (fun _ _ => bind (unwrap readOpcode) fun _ => insertAt _ _ _) _ _ _
theorem readFunction : Sim Par.readFunction readFunction :=
  bind getType fun _ => bind uindex fun _ => bind uindex fun _ => bind uindex fun _ => bind (readTypeRefs _) fun _ =>
    bind getErrors fun _ => ite (pure _) (bind (readOpcodes _) fun _ => pure _)
theorem i32Add (p a b) : Sim (Par.i32Add p a b) (i32Add p a b) := by
  refine ite (pure' _) ?_
  cases p; exact panic; exact pure' _
theorem setErrorIf (b k) : Sim (Par.setErrorIf b k) (setErrorIf b k) := ite (setError _) (pure' _)
theorem debugStore (d) : Sim (Par.debugStore d) (debugStore d) := ite (pure' _) panic
theorem debugBody (p n d) : Sim (Par.debugBody p n d) (debugBody p n d) :=
  bind (unwrap decodeU8) fun _ => ite
    (bind (unwrap decodeU8) fun _ => bind getCode fun _ => bind (toI32 _) fun _ => bind (setErrorIf _ _) fun _ => pure _)
    (ite (bind (setErrorIf _ _) fun _ => bind (i32Add _ _ _) fun _ => pure _)
      (ite (bind (i32Add _ _ _) fun _ => debugStore _)
        (bind (unwrap decodeU8) fun _ => bind (unwrap decodeU8) fun _ => debugStore _)))
theorem debugInfos (p n) : Sim (Par.debugInfos p n) (debugInfos p n) :=
  bind (whileReading (debugBody p n) _) fun _ => pure _
theorem readMagic : Sim Par.readMagic readMagic :=
  bind (unwrap decodeU8) fun _ => ite (failAt _) (bind (unwrap decodeU8) fun _ => ite (failAt _)
    (bind (unwrap decodeU8) fun _ => ite (failAt _) (pure _)))
theorem readVersion : Sim Par.readVersion readVersion := bind (unwrapRecord decodeU8) fun _ => ite (failAt _) (pure _)
theorem uindexIf (b) : Sim (Par.uindexIf b) (uindexIf b) := ite uindex (pure' _)
theorem readCounts (v) : Sim (Par.readCounts v) (readCounts v) :=
  bind uindex fun _ => bind uindex fun _ => bind uindex fun _ => bind uindex fun _ => bind (uindexIf _) fun _ =>
    bind uindex fun _ => bind uindex fun _ => bind uindex fun _ => bind uindex fun _ => bind (uindexIf _) fun _ =>
      bind uindex fun _ => pure _
theorem insertIfSome {α : Type} (v : List α) (i) (o) : Sim (Par.insertIfSome v i o) (insertIfSome v i o) := by
  cases o; exact pure' _; exact insertAt _ _ _
theorem readPool {α : Type} {rd : P α} {rd' : M α} (h : Sim rd rd') (n) : Sim (Par.readPool rd n) (readPool rd' n) :=
  forRange (fun _ _ => bind (okOrRecord h) fun _ => insertIfSome _ _ _) _ _ _
theorem checked {α : Type} {x : P α} {y : M α} (h : Sim x y) : Sim (Par.checked x) (checked y) :=
  bind h fun _ => bind checkError fun _ => pure _
theorem readPools (c) : Sim (Par.readPools c) (readPools c) :=
  bind (checked (readPool decodeI32 _)) fun _ => bind (checked (readPool decodeF64 _)) fun _ =>
    bind (checked (okOrRecord (readStrings _))) fun _ => pure _
theorem readBytesPos (n) : Sim (Par.readBytesPos n) (readBytesPos n) :=
  forRange (fun _ _ => bind uindex fun _ => insertAt _ _ _) _ _ _
theorem readBytesSection (c) : Sim (Par.readBytesSection c) (readBytesSection c) :=
  ite (bind decodeI32 fun _ => ite panic (bind (unwrapRecord (readBytes _)) fun _ =>
    bind (checked (readBytesPos _)) fun _ => pure _)) (pure _)
theorem readDebugFiles (c) : Sim (Par.readDebugFiles c) (readDebugFiles c) :=
  ite (bind uindex fun _ => bind (setCode _) fun _ => bind (okOrRecord (readStrings _)) fun _ => bind getCode fun _ =>
    bind (setCode _) fun _ => bind checkError fun _ => pure _) (pure _)
theorem readTypesStep (i c) : Sim (Par.readTypesStep i c) (readTypesStep i c) :=
  bind (setCode _) fun _ => bind (readType _) fun _ => bind getCode fun _ => bind (insertAt _ _ _) fun _ =>
    bind (setCode _) fun _ => pure _
theorem readTypes (c) : Sim (Par.readTypes c) (readTypes c) := forRange readTypesStep _ _ _
theorem readGlobalsStep (i c) : Sim (Par.readGlobalsStep i c) (readGlobalsStep i c) :=
  bind (setCode _) fun _ => bind getType fun _ => bind getCode fun _ => bind (insertAt _ _ _) fun _ =>
    bind (setCode _) fun _ => pure _
theorem readGlobals (c) : Sim (Par.readGlobals c) (readGlobals c) := checked (forRange readGlobalsStep _ _ _)
theorem readNative : Sim Par.readNative readNative :=
  bind readString fun _ => bind readString fun _ => bind getType fun _ => bind uindex fun _ => pure _
theorem readNativesStep (i c) : Sim (Par.readNativesStep i c) (readNativesStep i c) :=
  bind readNative fun _ => bind (setCode _) fun _ => pure _
theorem readNatives (c) : Sim (Par.readNatives c) (readNatives c) := checked (forRange readNativesStep _ _ _)
theorem skipAssigns : Sim Par.skipAssigns skipAssigns :=
  bind uindex fun _ => forRange (fun _ _ => bind uindex fun _ => bind index fun _ => pure _) _ _ _
theorem storeDebug (i o) : Sim (Par.storeDebug i o) (storeDebug i o) := by
  cases o
  · exact pure' _
  · exact bind getCode fun _ => bind (unwrapOpt _) fun _ => setCode _
theorem skipAssignsIf (b) : Sim (Par.skipAssignsIf b) (skipAssignsIf b) := ite skipAssigns (pure' _)
theorem readFunctionDebug (p i) : Sim (Par.readFunctionDebug p i) (readFunctionDebug p i) :=
  bind getCode fun _ => ite (bind (unwrapOpt _) fun _ => bind (okOrRecord (debugInfos _ _)) fun _ =>
    bind (storeDebug _ _) fun _ => bind getCode fun _ => skipAssignsIf _) (pure _)
theorem readFunctionsStep (p i c) : Sim (Par.readFunctionsStep p i c) (readFunctionsStep p i c) :=
  bind (setCode _) fun _ => bind readFunction fun _ => bind getCode fun _ => bind (setCode _) fun _ =>
    bind (readFunctionDebug _ _) fun _ => getCode
theorem readFunctions (p c) : Sim (Par.readFunctions p c) (readFunctions p c) :=
  checked (forRange (readFunctionsStep p) _ _ _)
theorem readConstant : Sim Par.readConstant readConstant :=
  bind uindex fun _ => bind uindex fun _ => bind (forRange (fun _ _ => bind uindex fun _ => insertAt _ _ _) _ _ _) fun _ => pure _
theorem readConstantsStep (i c) : Sim (Par.readConstantsStep i c) (readConstantsStep i c) :=
  bind (checked readConstant) fun _ => bind (insertAt _ _ _) fun _ => bind (setCode _) fun _ => pure _
theorem readConstants (c) : Sim (Par.readConstants c) (readConstants c) := forRange readConstantsStep _ _ _
theorem readM (p) : Sim (Par.readM p) (readM p) :=
  bind readMagic fun _ => bind readVersion fun _ => bind (checked (readCounts _)) fun _ => bind (readPools _) fun _ =>
    bind (readBytesSection _) fun _ => bind (readDebugFiles _) fun _ => bind (readTypes _) fun _ =>
      bind (readGlobals _) fun _ => bind (readNatives _) fun _ => bind (readFunctions _ _) fun _ =>
        bind (readConstants _) fun _ => getCode

/-- Run alone, the interleavable `Code::read` is `Code::read`. -/
theorem read (p : Profile) (buf : List UInt8) (e : Option DecodeError) :
    Res.out ((Par.read p buf).run e) = Code.read p e buf := readM p _ e

end Sim

end Verif.Brass
