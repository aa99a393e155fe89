import Verif.Brass.ParCode

/-!
# A traversal of the decoder, once and for all

Any predicate on decoding functions (of the model with interleaving points) that holds of the basic operations and is
closed under sequencing holds of `Code::read`.
-/

namespace Verif.Brass

open Verif

/-- `Φ` holds of the basic operations and is closed under the ways to combine them. -/
class Trav (Φ : {α : Type} → P α → Prop) : Prop where
  pure' : ∀ {α : Type} (a : α), Φ (P.pure a)
  panic : ∀ {α : Type}, Φ (P.panic : P α)
  getCode : Φ P.getCode
  setCode : ∀ c, Φ (P.setCode c)
  setError : ∀ k, Φ (P.setError k)
  failAt : ∀ {α : Type} k, Φ (P.failAt k : P α)
  mapErrAt : ∀ k, Φ (P.mapErrAt k)
  checkError : Φ P.checkError
  peek : ∀ n, Φ (P.peek n)
  advance : ∀ n, Φ (Par.advance n)
  readBytes : ∀ n, Φ (Par.readBytes n)
  bind : ∀ {α β : Type} {x : P α} {f : α → P β}, Φ x → (∀ a, Φ (f a)) → Φ (P.bind x f)
  ifErrors : ∀ {α : Type} {x y : P α}, Φ x → Φ y → Φ (P.bind P.getErrors fun e => if e.isSome then x else y)
  unwrap : ∀ {α : Type} {x : P α}, Φ x → Φ (P.unwrap x)
  unwrapRecord : ∀ {α : Type} {x : P α}, Φ x → Φ (P.unwrapRecord x)
  okOrRecord : ∀ {α : Type} {x : P α}, Φ x → Φ (P.okOrRecord x)
  whileReading : ∀ {β : Type} {cond : β → Bool} {f : β → P β}, (∀ b, Φ (f b)) → ∀ b, Φ (P.whileReading cond f b)

namespace Trav

variable {Φ : {α : Type} → P α → Prop} [Trav Φ]

theorem pure {α : Type} (a : α) : Φ (Pure.pure a : P α) := pure' a
omit [Trav Φ] in
theorem ite {α : Type} {b : Prop} [Decidable b] {x y : P α} (hx : Φ x) (hy : Φ y) : Φ (if b then x else y) := by
  split; exact hx; exact hy
theorem unwrapOpt {α : Type} (o : Option α) : Φ (P.unwrapOpt o) := by
  cases o; exact panic; exact pure' _
theorem insertAt {α : Type} (v : List α) (i : Nat) (x : α) : Φ (P.insertAt v i x) := ite (pure' _) panic
theorem forRange {β : Type} {f : Nat → β → P β} (hf : ∀ i b, Φ (f i b)) : ∀ n a b, Φ (P.forRange f a n b)
  | 0, _, _ => pure' _
  | n + 1, a, b => bind (hf a b) fun b => forRange hf n (a + 1) b
theorem decodeUnsigned (n) : Φ (Par.decodeUnsigned n) := bind (readBytes n) fun _ => pure _
theorem decodeSigned (n) : Φ (Par.decodeSigned n) := bind (readBytes n) fun _ => pure _
theorem decodeU8 : Φ Par.decodeU8 := decodeUnsigned 1
theorem decodeI32 : Φ Par.decodeI32 := decodeSigned 4
theorem decodeF64 : Φ Par.decodeF64 := decodeUnsigned 8
theorem readIndex : Φ Par.readIndex :=
  bind decodeU8 fun _ => ite (pure _) (ite (bind (unwrap decodeU8) fun _ => pure _)
    (bind decodeU8 fun _ => bind decodeU8 fun _ => bind decodeU8 fun _ => pure _))

/-! ## code.rs -/

theorem index : Φ Par.index := unwrap readIndex
theorem uindex : Φ Par.uindex := bind index fun _ => ite (bind (setError _) fun _ => pure _) (pure _)
theorem toI32 (n) : Φ (Par.toI32 n) := ite (pure' _) panic
theorem badIndex (i n) : Φ (Par.badIndex i n) := ite (pure' _) (bind (toI32 n) fun _ => pure _)
theorem sliceFrom (s i) : Φ (Par.sliceFrom s i) := ite (pure' _) panic
theorem sliceTo (s i) : Φ (Par.sliceTo s i) := ite (pure' _) panic
theorem readString : Φ Par.readString :=
  bind index fun _ => bind getCode fun _ => bind (badIndex _ _) fun _ => ite (bind (setError _) fun _ => pure _) (unwrapOpt _)
theorem readUstring : Φ Par.readUstring :=
  bind index fun i => bind getCode fun d => bind (badIndex _ _) fun _ => ite (bind (setError _) fun _ => pure _) (by
    cases getUstring d i.toNat with
    | panic => exact panic
    | ret r => exact bind (setCode _) fun _ => pure _)
theorem getType : Φ Par.getType :=
  bind index fun _ => bind getCode fun _ => bind (badIndex _ _) fun _ => ite (bind (setError _) fun _ => unwrapOpt _) (unwrapOpt _)
theorem readTypeRefs (n) : Φ (Par.readTypeRefs n) :=
  forRange (fun _ _ => bind getType fun _ => insertAt _ _ _) _ _ _
theorem readField : Φ Par.readField := bind readUstring fun _ => bind getType fun _ => pure _
theorem readFields (n) : Φ (Par.readFields n) :=
  forRange (fun _ _ => bind readField fun _ => insertAt _ _ _) _ _ _
theorem readProto : Φ Par.readProto :=
  bind readUstring fun _ => bind uindex fun _ => bind index fun _ => pure _
theorem readProtos (n) : Φ (Par.readProtos n) :=
  forRange (fun _ _ => bind readProto fun _ => insertAt _ _ _) _ _ _
theorem readBindings (n) : Φ (Par.readBindings n) :=
  forRange (fun _ _ => bind uindex fun _ => bind (insertAt _ _ _) fun _ => bind uindex fun _ => insertAt _ _ _) _ _ _
theorem readConstruct : Φ Par.readConstruct :=
  bind readUstring fun _ => bind uindex fun _ => bind (readTypeRefs _) fun _ => pure _
theorem readConstructs (n) : Φ (Par.readConstructs n) :=
  forRange (fun _ _ => bind readConstruct fun _ => insertAt _ _ _) _ _ _
theorem readFuncType : Φ Par.readFuncType :=
  bind (unwrap decodeU8) fun _ => bind (readTypeRefs _) fun _ => bind getType fun _ => pure _
theorem readSuper : Φ Par.readSuper :=
  bind index fun _ => ite (pure _) (bind getCode fun _ => unwrapOpt _)
theorem readObjType : Φ Par.readObjType :=
  bind readUstring fun _ => bind readSuper fun _ => bind uindex fun _ => bind uindex fun _ => bind uindex fun _ =>
    bind uindex fun _ => bind (readFields _) fun _ => bind (readProtos _) fun _ => bind (readBindings _) fun _ => pure _
theorem readVirtualType : Φ Par.readVirtualType :=
  bind uindex fun _ => bind (readFields _) fun _ => pure _
theorem readEnumType : Φ Par.readEnumType :=
  bind readUstring fun _ => bind uindex fun _ => bind uindex fun _ => bind (readConstructs _) fun _ => pure _
theorem readTypeBody (t) : Φ (Par.readTypeBody t) := by
  unfold Par.readTypeBody
  cases t.kind
  case HFUN => exact bind readFuncType fun _ => pure _
  case HMETHOD => exact bind readFuncType fun _ => pure _
  case HOBJ => exact bind readObjType fun _ => pure _
  case HSTRUCT => exact bind readObjType fun _ => pure _
  case HREF => exact bind getType fun _ => pure _
  case HVIRTUAL => exact bind readVirtualType fun _ => pure _
  case HABSTRACT => exact bind readUstring fun _ => pure _
  case HENUM => exact bind readEnumType fun _ => pure _
  case HNULL => exact bind getType fun _ => pure _
  case HPACKED => exact bind getType fun _ => pure _
  all_goals exact pure _
theorem readType (t) : Φ (Par.readType t) :=
  bind (unwrap decodeU8) fun _ => ite (bind (mapErrAt _) fun _ => pure _) (bind (unwrapOpt _) fun _ => readTypeBody _)
theorem readStringsLoop (st : Str) : ∀ n cursor strs lens,
    Φ (Par.readStringsLoop st n cursor strs lens)
  | 0, _, _, _ => pure' _
  | n + 1, _, _, _ => bind uindex fun _ => bind (sliceFrom _ _) fun _ => bind (sliceTo _ _) fun _ =>
      ite (pure _) (readStringsLoop st n _ _ _)
theorem peekAdvance (n) : Φ (Par.peekAdvance n) :=
  bind (peek n) fun _ => bind (advance n) fun _ => pure _
theorem readStrings (n) : Φ (Par.readStrings n) :=
  bind (unwrap decodeI32) fun _ => ite panic (bind (peekAdvance _) fun _ => readStringsLoop _ _ _ _ _)
theorem readExtra {rd : P Int} (h : Φ rd) (n) : Φ (Par.readExtra rd n) :=
  forRange (fun _ _ => bind h fun _ => insertAt _ _ _) _ _ _
theorem uindexI : Φ Par.uindexI := bind uindex fun _ => pure _
theorem readCallLike (r) : Φ (Par.readCallLike r) :=
  bind index fun _ => bind index fun _ => bind (unwrap decodeU8) fun _ => bind (readExtra index _) fun _ => pure _
theorem readSwitch (r) : Φ (Par.readSwitch r) :=
  bind uindexI fun _ => bind uindex fun _ => bind (readExtra uindexI _) fun _ => bind uindexI fun _ => pure _
theorem readOperands (r i) : Φ (Par.readOperands r i) := by
  refine ite (pure' _) (ite (bind index fun _ => pure _) (ite (bind index fun _ => bind index fun _ => pure _)
    (ite (bind index fun _ => bind index fun _ => bind index fun _ => pure _)
      (ite (bind index fun _ => bind index fun _ => bind index fun _ => bind index fun _ => pure _)
        (ite ?_ (bind index fun _ => bind index fun _ => bind index fun _ => ite panic (bind (readExtra index _) fun _ => pure _)))))))
  cases r.op
  case OCallN => exact readCallLike _
  case OCallClosure => exact readCallLike _
  case OCallMethod => exact readCallLike _
  case OCallThis => exact readCallLike _
  case OMakeEnum => exact readCallLike _
  case OSwitch => exact readSwitch _
  all_goals exact failAt _
theorem readOpcode : Φ Par.readOpcode :=
  bind (unwrap decodeU8) fun _ => ite (bind (setError _) fun _ => pure _)
    (bind (unwrapOpt _) fun _ => bind (unwrapOpt _) fun _ => readOperands _ _)
theorem readOpcodes (n) : Φ (Par.readOpcodes n) :=
  forRange (fun _ _ => bind (unwrap readOpcode) fun _ => insertAt _ _ _) _ _ _
theorem readFunction : Φ Par.readFunction :=
  bind getType fun _ => bind uindex fun _ => bind uindex fun _ => bind uindex fun _ => bind (readTypeRefs _) fun _ =>
    ifErrors (pure _) (bind (readOpcodes _) fun _ => pure _)
theorem i32Add (p a b) : Φ (Par.i32Add p a b) := by
  refine ite (pure' _) ?_
  cases p; exact panic; exact pure' _
theorem setErrorIf (b k) : Φ (Par.setErrorIf b k) := ite (setError _) (pure' _)
theorem debugStore (d) : Φ (Par.debugStore d) := ite (pure' _) panic
theorem debugBody (p n d) : Φ (Par.debugBody p n d) :=
  bind (unwrap decodeU8) fun _ => ite
    (bind (unwrap decodeU8) fun _ => bind getCode fun _ => bind (toI32 _) fun _ => bind (setErrorIf _ _) fun _ => pure _)
    (ite (bind (setErrorIf _ _) fun _ => bind (i32Add _ _ _) fun _ => pure _)
      (ite (bind (i32Add _ _ _) fun _ => debugStore _)
        (bind (unwrap decodeU8) fun _ => bind (unwrap decodeU8) fun _ => debugStore _)))
theorem debugInfos (p n) : Φ (Par.debugInfos p n) :=
  bind (whileReading (debugBody p n) _) fun _ => pure _
theorem readMagic : Φ Par.readMagic :=
  bind (unwrap decodeU8) fun _ => ite (failAt _) (bind (unwrap decodeU8) fun _ => ite (failAt _)
    (bind (unwrap decodeU8) fun _ => ite (failAt _) (pure _)))
theorem readVersion : Φ Par.readVersion := bind (unwrapRecord decodeU8) fun _ => ite (failAt _) (pure _)
theorem uindexIf (b) : Φ (Par.uindexIf b) := ite uindex (pure' _)
theorem readCounts (v) : Φ (Par.readCounts v) :=
  bind uindex fun _ => bind uindex fun _ => bind uindex fun _ => bind uindex fun _ => bind (uindexIf _) fun _ =>
    bind uindex fun _ => bind uindex fun _ => bind uindex fun _ => bind uindex fun _ => bind (uindexIf _) fun _ =>
      bind uindex fun _ => pure _
theorem insertIfSome {α : Type} (v : List α) (i) (o) : Φ (Par.insertIfSome v i o) := by
  cases o; exact pure' _; exact insertAt _ _ _
theorem readPool {α : Type} {rd : P α} (h : Φ rd) (n) : Φ (Par.readPool rd n) :=
  forRange (fun _ _ => bind (okOrRecord h) fun _ => insertIfSome _ _ _) _ _ _
theorem checked {α : Type} {x : P α} (h : Φ x) : Φ (Par.checked x) :=
  bind h fun _ => bind checkError fun _ => pure _
theorem readPools (c) : Φ (Par.readPools c) :=
  bind (checked (readPool decodeI32 _)) fun _ => bind (checked (readPool decodeF64 _)) fun _ =>
    bind (checked (okOrRecord (readStrings _))) fun _ => pure _
theorem readBytesPos (n) : Φ (Par.readBytesPos n) :=
  forRange (fun _ _ => bind uindex fun _ => insertAt _ _ _) _ _ _
theorem readBytesSection (c) : Φ (Par.readBytesSection c) :=
  ite (bind decodeI32 fun _ => ite panic (bind (unwrapRecord (readBytes _)) fun _ =>
    bind (checked (readBytesPos _)) fun _ => pure _)) (pure _)
theorem readDebugFiles (c) : Φ (Par.readDebugFiles c) :=
  ite (bind uindex fun _ => bind (setCode _) fun _ => bind (okOrRecord (readStrings _)) fun _ => bind getCode fun _ =>
    bind (setCode _) fun _ => bind checkError fun _ => pure _) (pure _)
theorem readTypesStep (i c) : Φ (Par.readTypesStep i c) :=
  bind (setCode _) fun _ => bind (readType _) fun _ => bind getCode fun _ => bind (insertAt _ _ _) fun _ =>
    bind (setCode _) fun _ => pure _
theorem readTypes (c) : Φ (Par.readTypes c) := forRange readTypesStep _ _ _
theorem readGlobalsStep (i c) : Φ (Par.readGlobalsStep i c) :=
  bind (setCode _) fun _ => bind getType fun _ => bind getCode fun _ => bind (insertAt _ _ _) fun _ =>
    bind (setCode _) fun _ => pure _
theorem readGlobals (c) : Φ (Par.readGlobals c) := checked (forRange readGlobalsStep _ _ _)
theorem readNative : Φ Par.readNative :=
  bind readString fun _ => bind readString fun _ => bind getType fun _ => bind uindex fun _ => pure _
theorem readNativesStep (i c) : Φ (Par.readNativesStep i c) :=
  bind readNative fun _ => bind (setCode _) fun _ => pure _
theorem readNatives (c) : Φ (Par.readNatives c) := checked (forRange readNativesStep _ _ _)
theorem skipAssigns : Φ Par.skipAssigns :=
  bind uindex fun _ => forRange (fun _ _ => bind uindex fun _ => bind index fun _ => pure _) _ _ _
theorem storeDebug (i o) : Φ (Par.storeDebug i o) := by
  cases o
  · exact pure' _
  · exact bind getCode fun _ => bind (unwrapOpt _) fun _ => setCode _
theorem skipAssignsIf (b) : Φ (Par.skipAssignsIf b) := ite skipAssigns (pure' _)
theorem readFunctionDebug (p i) : Φ (Par.readFunctionDebug p i) :=
  bind getCode fun _ => ite (bind (unwrapOpt _) fun _ => bind (okOrRecord (debugInfos _ _)) fun _ =>
    bind (storeDebug _ _) fun _ => bind getCode fun _ => skipAssignsIf _) (pure _)
theorem readFunctionsStep (p i c) : Φ (Par.readFunctionsStep p i c) :=
  bind (setCode _) fun _ => bind readFunction fun _ => bind getCode fun _ => bind (setCode _) fun _ =>
    bind (readFunctionDebug _ _) fun _ => getCode
theorem readFunctions (p c) : Φ (Par.readFunctions p c) :=
  checked (forRange (readFunctionsStep p) _ _ _)
theorem readConstant : Φ Par.readConstant :=
  bind uindex fun _ => bind uindex fun _ => bind (forRange (fun _ _ => bind uindex fun _ => insertAt _ _ _) _ _ _) fun _ => pure _
theorem readConstantsStep (i c) : Φ (Par.readConstantsStep i c) :=
  bind (checked readConstant) fun _ => bind (insertAt _ _ _) fun _ => bind (setCode _) fun _ => pure _
theorem readConstants (c) : Φ (Par.readConstants c) := forRange readConstantsStep _ _ _
theorem readM (p) : Φ (Par.readM p) :=
  bind readMagic fun _ => bind readVersion fun _ => bind (checked (readCounts _)) fun _ => bind (readPools _) fun _ =>
    bind (readBytesSection _) fun _ => bind (readDebugFiles _) fun _ => bind (readTypes _) fun _ =>
      bind (readGlobals _) fun _ => bind (readNatives _) fun _ => bind (readFunctions _ _) fun _ =>
        bind (readConstants _) fun _ => getCode

end Trav

end Verif.Brass
