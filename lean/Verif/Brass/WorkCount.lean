import Verif.Brass.Interfere
import Verif.Spec.Work

/-!
# The accesses to `ERRORS` of a call that succeeds and records nothing
-/

namespace Verif.Brass

open Verif Verif.Brass.Spec

theorem trace_andThen {α β : Type} (t : Tree α) (k : Res α → Tree β) (e : Option DecodeError) :
    trace (t.andThen k) e = trace t e ++ trace (k (t.run e).1) (t.run e).2 := by
  induction t generalizing e with
  | done r => rfl
  | get g ih => show _ :: _ = _ :: _ ++ _; rw [ih]; rfl
  | set v t ih => show _ :: _ = _ :: _ ++ _; rw [ih]; rfl

theorem Tree.Records.none_of {α : Type} {t : Tree α} (h : t.Records) {e : Option DecodeError} (he : (t.run e).2 = none) : e = none := by
  cases e with
  | none => rfl
  | some x =>
    have := (Ex.of_run t (some x)).sticky h rfl
    rw [he] at this
    cases this

/-- A call that records nothing only reads `ERRORS`. -/
theorem Tree.Records.trace_none {α : Type} {t : Tree α} (h : t.Records) (he : (t.run none).2 = none) :
    trace t none = List.replicate (trace t none).length (.read none) := by
  induction t with
  | done r => rfl
  | get k ih =>
    have := ih none (h none) he
    show Access.read none :: trace (k none) none = List.replicate ((trace (k none) none).length + 1) _
    rw [List.replicate_succ, ← this]
  | set v t ih =>
    have h1 := h.2.none_of he
    have h2 := h.1
    rw [h1] at h2
    cases h2

/-- A run of `x` that succeeds and records nothing accesses `ERRORS` `n` times. -/
structure Cnt {α : Type} (n : Nat) (x : P α) : Prop where
  recs : Rec x
  count : ∀ d a d', (x d).run none = (.ok a d', none) → (trace (x d) none).length = n

namespace Cnt

theorem pure' {α : Type} {a : α} : Cnt 0 (P.pure a) := ⟨Rec.pure' _, fun _ _ _ _ => rfl⟩
theorem pure {α : Type} {a : α} : Cnt 0 (Pure.pure a : P α) := pure'
theorem panic {α : Type} (n : Nat) : Cnt n (P.panic : P α) := ⟨Rec.panic, fun _ _ _ h => by cases h⟩
theorem getCode : Cnt 0 P.getCode := ⟨Rec.getCode, fun _ _ _ _ => rfl⟩
theorem setCode {c} : Cnt 0 (P.setCode c) := ⟨Rec.setCode _, fun _ _ _ _ => rfl⟩
theorem getErrors : Cnt 1 P.getErrors := ⟨Rec.getErrors, fun _ _ _ _ => rfl⟩
theorem setError {k} (n : Nat) : Cnt n (P.setError k) := ⟨Rec.setError _, fun _ _ _ h => by cases h⟩
theorem failAt {α : Type} {k} (n : Nat) : Cnt n (P.failAt k : P α) := ⟨Rec.failAt _, fun _ _ _ h => by cases h⟩
theorem mapErrAt {k} (n : Nat) : Cnt n (P.mapErrAt k) := ⟨Rec.mapErrAt _, fun _ _ _ h => by cases h⟩
theorem checkError : Cnt 1 P.checkError := ⟨Rec.checkError, fun _ _ _ _ => rfl⟩
theorem iteDone {α : Type} {b : Prop} [Decidable b] {r s : Res α} : trace (if b then Tree.done r else .done s) none = [] := by
  split <;> rfl
theorem peek {n} : Cnt 0 (P.peek n) := ⟨Rec.peek _, fun _ _ _ _ => by unfold P.peek; rw [iteDone]; rfl⟩
theorem advance {n} : Cnt 0 (Par.advance n) := ⟨Rec.advance _, fun _ _ _ _ => by unfold Par.advance; rw [iteDone]; rfl⟩
theorem readBytes {n} : Cnt 0 (Par.readBytes n) := ⟨Rec.readBytes _, fun _ _ _ _ => by unfold Par.readBytes; rw [iteDone]; rfl⟩

theorem seq {α β : Type} {x : P α} {f : α → P β} {n1 n2 : Nat} (hx : Cnt n1 x) (hf : ∀ a, Cnt n2 (f a)) (n : Nat)
    (hn : n = n1 + n2 := by omega) : Cnt n (P.bind x f) := by
  refine ⟨Rec.bind hx.recs fun a => (hf a).recs, fun d a d' h => ?_⟩
  unfold P.bind at h ⊢
  rw [Tree.run_andThen] at h
  rw [trace_andThen, List.length_append, hn]
  have hc := hx.count d
  generalize hr : (x d).run none = r at h hc ⊢
  obtain ⟨r, e⟩ := r
  cases r with
  | ok b d1 =>
    dsimp only at h ⊢
    have he := ((hf b).recs d1).none_of (e := e) (by rw [h])
    subst he
    rw [hc b d1 rfl, (hf b).count _ _ _ h]
  | err e d => cases h
  | panic => cases h

theorem ite {α : Type} {b : Prop} [Decidable b] {x y : P α} {n : Nat} (hx : Cnt n x) (hy : Cnt n y) : Cnt n (if b then x else y) := by
  split; exact hx; exact hy
theorem unwrap {α : Type} {x : P α} {n : Nat} (hx : Cnt n x) : Cnt n (P.unwrap x) := by
  refine ⟨Rec.unwrap hx.recs, fun d a d' h => ?_⟩
  unfold P.unwrap at h ⊢
  rw [Tree.run_andThen] at h
  rw [trace_andThen, List.length_append]
  have hc := hx.count d
  generalize hr : (x d).run none = r at h hc ⊢
  obtain ⟨r, e⟩ := r
  cases r with
  | ok b d1 => cases h; rw [hc _ _ rfl]; rfl
  | err e d => cases h
  | panic => cases h
theorem record_none {α : Type} {e : DecodeError} {r r' : Res α} {v : Option DecodeError} (h : (P.recordError e r).run v = (r', none)) : False := by
  cases v <;> cases h
theorem okOrRecord {α : Type} {x : P α} {n : Nat} (hx : Cnt n x) : Cnt n (P.okOrRecord x) := by
  refine ⟨Rec.okOrRecord hx.recs, fun d a d' h => ?_⟩
  unfold P.okOrRecord at h ⊢
  rw [Tree.run_andThen] at h
  rw [trace_andThen, List.length_append]
  have hc := hx.count d
  generalize hr : (x d).run none = r at h hc ⊢
  obtain ⟨r, e⟩ := r
  cases r with
  | ok b d1 => cases h; rw [hc _ _ rfl]; rfl
  | err e d => exact (record_none h).elim
  | panic => cases h
theorem unwrapRecord {α : Type} {x : P α} {n : Nat} (hx : Cnt n x) : Cnt n (P.unwrapRecord x) := by
  refine ⟨Rec.unwrapRecord hx.recs, fun d a d' h => ?_⟩
  unfold P.unwrapRecord at h ⊢
  rw [Tree.run_andThen] at h
  rw [trace_andThen, List.length_append]
  have hc := hx.count d
  generalize hr : (x d).run none = r at h hc ⊢
  obtain ⟨r, e⟩ := r
  cases r with
  | ok b d1 => cases h; rw [hc _ _ rfl]; rfl
  | err e d => exact (record_none h).elim
  | panic => cases h
theorem whileReading {β : Type} {cond : β → Bool} {f : β → P β} (hf : ∀ b, Cnt 0 (f b)) (b : β) : Cnt 0 (P.whileReading cond f b) := by
  refine ⟨Rec.whileReading (fun b => (hf b).recs) b, ?_⟩
  suffices h : ∀ n b d a d', (P.whileFuel cond f n b d).run none = (.ok a d', none) → (trace (P.whileFuel cond f n b d) none).length = 0 from
    fun d => h _ _ d
  intro n
  induction n with
  | zero => exact fun b d a d' h => by cases h
  | succ n ih =>
    intro b d a d' h
    unfold P.whileFuel at h ⊢
    split
    · next hc =>
      rw [if_pos hc] at h
      rw [Tree.run_andThen] at h
      rw [trace_andThen, List.length_append]
      have hc := (hf b).count d
      have hrec := Rec.whileFuel (cond := cond) (fun b => (hf b).recs) n
      generalize hr : (f b d).run none = r at h hc ⊢
      obtain ⟨r, e⟩ := r
      cases r with
      | ok b d1 =>
        dsimp only at h ⊢
        split
        · next hl =>
          rw [if_pos hl] at h
          have he := (hrec b d1).none_of (e := e) (by rw [h])
          subst he
          rw [hc b d1 rfl, ih _ _ _ _ h]
        · next hl => rw [if_neg hl] at h; cases h
      | err e d => cases h
      | panic => cases h
    · rfl

theorem bind {α β : Type} {x : P α} {f : α → P β} (hx : Cnt 0 x) (hf : ∀ a, Cnt 0 (f a)) : Cnt 0 (P.bind x f) := seq hx hf 0

theorem unwrapOpt {α : Type} {o : Option α} : Cnt 0 (P.unwrapOpt o) := by
  cases o; exact panic 0; exact pure'
theorem insertAt {α : Type} {v : List α} {i : Nat} {x : α} : Cnt 0 (P.insertAt v i x) := ite pure' (panic 0)
theorem forRange {β : Type} {f : Nat → β → P β} {k : Nat} (hf : ∀ i b, Cnt k (f i b)) : ∀ {n a b}, Cnt (k * n) (P.forRange f a n b)
  | 0, _, _ => pure'
  | n + 1, a, b => seq (hf a b) (fun b => forRange hf) _ (by rw [Nat.mul_succ]; omega)
theorem loop {β : Type} {f : Nat → β → P β} (hf : ∀ i b, Cnt 0 (f i b)) {n a b} : Cnt 0 (P.forRange f a n b) := by
  have h := forRange (k := 0) hf (n := n) (a := a) (b := b)
  rwa [Nat.zero_mul] at h
theorem decodeUnsigned {n} : Cnt 0 (Par.decodeUnsigned n) := bind readBytes fun _ => pure
theorem decodeSigned {n} : Cnt 0 (Par.decodeSigned n) := bind readBytes fun _ => pure
theorem decodeU8 : Cnt 0 Par.decodeU8 := decodeUnsigned
theorem decodeI32 : Cnt 0 Par.decodeI32 := decodeSigned
theorem decodeF64 : Cnt 0 Par.decodeF64 := decodeUnsigned
theorem readIndex : Cnt 0 Par.readIndex :=
  bind decodeU8 fun _ => ite pure (ite (bind (unwrap decodeU8) fun _ => pure)
    (bind decodeU8 fun _ => bind decodeU8 fun _ => bind decodeU8 fun _ => pure))

/-! ## code.rs -/

theorem index : Cnt 0 Par.index := unwrap readIndex
theorem uindex : Cnt 0 Par.uindex := bind index fun _ => ite (bind (setError 0) fun _ => pure) pure
theorem toI32 {n} : Cnt 0 (Par.toI32 n) := ite pure' (panic 0)
theorem badIndex {i n} : Cnt 0 (Par.badIndex i n) := ite pure' (bind toI32 fun _ => pure)
theorem sliceFrom {s i} : Cnt 0 (Par.sliceFrom s i) := ite pure' (panic 0)
theorem sliceTo {s i} : Cnt 0 (Par.sliceTo s i) := ite pure' (panic 0)
theorem readString : Cnt 0 Par.readString :=
  bind index fun _ => bind getCode fun _ => bind badIndex fun _ => ite (bind (setError 0) fun _ => pure) unwrapOpt
theorem readUstring : Cnt 0 Par.readUstring :=
  bind index fun i => bind getCode fun d => bind badIndex fun _ => ite (bind (setError 0) fun _ => pure) (by
    cases getUstring d i.toNat with
    | panic => exact panic 0
    | ret r => exact bind setCode fun _ => pure)
theorem getType : Cnt 0 Par.getType :=
  bind index fun _ => bind getCode fun _ => bind badIndex fun _ => ite (bind (setError 0) fun _ => unwrapOpt) unwrapOpt
theorem readTypeRefs {n} : Cnt 0 (Par.readTypeRefs n) :=
  loop fun _ _ => bind getType fun _ => insertAt
theorem readField : Cnt 0 Par.readField := bind readUstring fun _ => bind getType fun _ => pure
theorem readFields {n} : Cnt 0 (Par.readFields n) :=
  loop fun _ _ => bind readField fun _ => insertAt
theorem readProto : Cnt 0 Par.readProto :=
  bind readUstring fun _ => bind uindex fun _ => bind index fun _ => pure
theorem readProtos {n} : Cnt 0 (Par.readProtos n) :=
  loop fun _ _ => bind readProto fun _ => insertAt
theorem readBindings {n} : Cnt 0 (Par.readBindings n) :=
  loop fun _ _ => bind uindex fun _ => bind insertAt fun _ => bind uindex fun _ => insertAt
theorem readConstruct : Cnt 0 Par.readConstruct :=
  bind readUstring fun _ => bind uindex fun _ => bind readTypeRefs fun _ => pure
theorem readConstructs {n} : Cnt 0 (Par.readConstructs n) :=
  loop fun _ _ => bind readConstruct fun _ => insertAt
theorem readFuncType : Cnt 0 Par.readFuncType :=
  bind (unwrap decodeU8) fun _ => bind readTypeRefs fun _ => bind getType fun _ => pure
theorem readSuper : Cnt 0 Par.readSuper :=
  bind index fun _ => ite pure (bind getCode fun _ => unwrapOpt)
theorem readObjType : Cnt 0 Par.readObjType :=
  bind readUstring fun _ => bind readSuper fun _ => bind uindex fun _ => bind uindex fun _ => bind uindex fun _ =>
    bind uindex fun _ => bind readFields fun _ => bind readProtos fun _ => bind readBindings fun _ => pure
theorem readVirtualType : Cnt 0 Par.readVirtualType :=
  bind uindex fun _ => bind readFields fun _ => pure
theorem readEnumType : Cnt 0 Par.readEnumType :=
  bind readUstring fun _ => bind uindex fun _ => bind uindex fun _ => bind readConstructs fun _ => pure
theorem readTypeBody {t} : Cnt 0 (Par.readTypeBody t) := by
  unfold Par.readTypeBody
  cases t.kind
  case HFUN => exact bind readFuncType fun _ => pure
  case HMETHOD => exact bind readFuncType fun _ => pure
  case HOBJ => exact bind readObjType fun _ => pure
  case HSTRUCT => exact bind readObjType fun _ => pure
  case HREF => exact bind getType fun _ => pure
  case HVIRTUAL => exact bind readVirtualType fun _ => pure
  case HABSTRACT => exact bind readUstring fun _ => pure
  case HENUM => exact bind readEnumType fun _ => pure
  case HNULL => exact bind getType fun _ => pure
  case HPACKED => exact bind getType fun _ => pure
  all_goals exact pure
theorem readType {t} : Cnt 0 (Par.readType t) :=
  bind (unwrap decodeU8) fun _ => ite (bind (mapErrAt 0) fun _ => pure) (bind unwrapOpt fun _ => readTypeBody)
theorem readStringsLoop {st : Str} : ∀ {n cursor strs lens},
    Cnt 0 (Par.readStringsLoop st n cursor strs lens)
  | 0, _, _, _ => pure'
  | n + 1, _, _, _ => bind uindex fun _ => bind sliceFrom fun _ => bind sliceTo fun _ =>
      ite pure readStringsLoop
theorem peekAdvance {n} : Cnt 0 (Par.peekAdvance n) :=
  bind peek fun _ => bind advance fun _ => pure
theorem readStrings {n} : Cnt 0 (Par.readStrings n) :=
  bind (unwrap decodeI32) fun _ => ite (panic 0) (bind peekAdvance fun _ => readStringsLoop)
theorem readExtra {rd : P Int} (h : Cnt 0 rd) {n} : Cnt 0 (Par.readExtra rd n) :=
  loop fun _ _ => bind h fun _ => insertAt
theorem uindexI : Cnt 0 Par.uindexI := bind uindex fun _ => pure
theorem readCallLike {r} : Cnt 0 (Par.readCallLike r) :=
  bind index fun _ => bind index fun _ => bind (unwrap decodeU8) fun _ => bind (readExtra index) fun _ => pure
theorem readSwitch {r} : Cnt 0 (Par.readSwitch r) :=
  bind uindexI fun _ => bind uindex fun _ => bind (readExtra uindexI) fun _ => bind uindexI fun _ => pure
theorem readOperands {r i} : Cnt 0 (Par.readOperands r i) := by
  refine ite pure' (ite (bind index fun _ => pure) (ite (bind index fun _ => bind index fun _ => pure)
    (ite (bind index fun _ => bind index fun _ => bind index fun _ => pure)
      (ite (bind index fun _ => bind index fun _ => bind index fun _ => bind index fun _ => pure)
        (ite ?_ (bind index fun _ => bind index fun _ => bind index fun _ => ite (panic 0)
          (bind (readExtra index) fun _ => pure)))))))
  cases r.op
  case OCallN => exact readCallLike
  case OCallClosure => exact readCallLike
  case OCallMethod => exact readCallLike
  case OCallThis => exact readCallLike
  case OMakeEnum => exact readCallLike
  case OSwitch => exact readSwitch
  all_goals exact failAt 0
theorem readOpcode : Cnt 0 Par.readOpcode :=
  bind (unwrap decodeU8) fun _ => ite (bind (setError 0) fun _ => pure)
    (bind unwrapOpt fun _ => bind unwrapOpt fun _ => readOperands)
theorem readOpcodes {n} : Cnt 0 (Par.readOpcodes n) :=
  loop fun _ _ => bind (unwrap readOpcode) fun _ => insertAt
theorem readFunction : Cnt 1 Par.readFunction :=
  seq getType (fun _ => seq uindex (fun _ => seq uindex (fun _ => seq uindex (fun _ => seq readTypeRefs (fun _ =>
    seq getErrors (fun _ => ite pure (bind readOpcodes fun _ => pure)) 1) 1) 1) 1) 1) 1
theorem i32Add {p a b} : Cnt 0 (Par.i32Add p a b) := by
  refine ite pure' ?_
  cases p; exact panic 0; exact pure'
theorem setErrorIf {b k} : Cnt 0 (Par.setErrorIf b k) := ite (setError 0) (pure')
theorem debugStore {d} : Cnt 0 (Par.debugStore d) := ite pure' (panic 0)
theorem debugBody {p n d} : Cnt 0 (Par.debugBody p n d) :=
  bind (unwrap decodeU8) fun _ => ite
    (bind (unwrap decodeU8) fun _ => bind getCode fun _ => bind toI32 fun _ => bind setErrorIf fun _ => pure)
    (ite (bind setErrorIf fun _ => bind i32Add fun _ => pure)
      (ite (bind i32Add fun _ => debugStore)
        (bind (unwrap decodeU8) fun _ => bind (unwrap decodeU8) fun _ => debugStore)))
theorem debugInfos {p n} : Cnt 0 (Par.debugInfos p n) :=
  bind (whileReading (fun _ => debugBody) _) fun _ => pure
theorem readMagic : Cnt 0 Par.readMagic :=
  bind (unwrap decodeU8) fun _ => ite (failAt 0) (bind (unwrap decodeU8) fun _ => ite (failAt 0)
    (bind (unwrap decodeU8) fun _ => ite (failAt 0) pure))
theorem readVersion : Cnt 0 Par.readVersion := bind (unwrapRecord decodeU8) fun _ => ite (failAt 0) pure
theorem uindexIf {b} : Cnt 0 (Par.uindexIf b) := ite uindex pure'
theorem readCounts {v} : Cnt 0 (Par.readCounts v) :=
  bind uindex fun _ => bind uindex fun _ => bind uindex fun _ => bind uindex fun _ => bind uindexIf fun _ =>
    bind uindex fun _ => bind uindex fun _ => bind uindex fun _ => bind uindex fun _ => bind uindexIf fun _ =>
      bind uindex fun _ => pure
theorem insertIfSome {α : Type} {v : List α} {i} {o} : Cnt 0 (Par.insertIfSome v i o) := by
  cases o; exact pure'; exact insertAt
theorem readPool {α : Type} {rd : P α} (h : Cnt 0 rd) {n} : Cnt 0 (Par.readPool rd n) :=
  loop fun _ _ => bind (okOrRecord h) fun _ => insertIfSome
theorem checked {α : Type} {x : P α} {n : Nat} (h : Cnt n x) : Cnt (n + 1) (Par.checked x) :=
  seq h (fun _ => seq checkError (fun _ => pure) 1) _
theorem readPools {c} : Cnt 3 (Par.readPools c) :=
  seq (checked (readPool decodeI32)) (fun _ => seq (checked (readPool decodeF64)) (fun _ =>
    seq (checked (okOrRecord readStrings)) (fun _ => pure) 1) 2) 3
theorem readBytesPos {n} : Cnt 0 (Par.readBytesPos n) :=
  loop fun _ _ => bind uindex fun _ => insertAt
theorem readBytesSection {c} : Cnt (if 5 ≤ c.version then 1 else 0) (Par.readBytesSection c) := by
  unfold Par.readBytesSection
  dsimp only
  split
  · exact seq decodeI32 (fun _ => ite (panic 1) (seq (unwrapRecord readBytes) (fun _ =>
      seq (checked readBytesPos) (fun _ => pure) 1) 1)) 1
  · exact pure
theorem readDebugFiles {c} : Cnt (if c.hasdebug ≠ 0 then 1 else 0) (Par.readDebugFiles c) := by
  unfold Par.readDebugFiles
  split
  · exact seq uindex (fun _ => seq setCode (fun _ => seq (okOrRecord readStrings) (fun _ => seq getCode (fun _ =>
      seq setCode (fun _ => seq checkError (fun _ => pure) 1) 1) 1) 1) 1) 1
  · exact pure
theorem readTypesStep {i c} : Cnt 0 (Par.readTypesStep i c) :=
  bind setCode fun _ => bind readType fun _ => bind getCode fun _ => bind insertAt fun _ =>
    bind setCode fun _ => pure
theorem readTypes {c} : Cnt 0 (Par.readTypes c) := loop fun _ _ => readTypesStep
theorem readGlobalsStep {i c} : Cnt 0 (Par.readGlobalsStep i c) :=
  bind setCode fun _ => bind getType fun _ => bind getCode fun _ => bind insertAt fun _ =>
    bind setCode fun _ => pure
theorem readGlobals {c} : Cnt 1 (Par.readGlobals c) := checked (loop fun _ _ => readGlobalsStep)
theorem readNative : Cnt 0 Par.readNative :=
  bind readString fun _ => bind readString fun _ => bind getType fun _ => bind uindex fun _ => pure
theorem readNativesStep {i c} : Cnt 0 (Par.readNativesStep i c) :=
  bind readNative fun _ => bind setCode fun _ => pure
theorem readNatives {c} : Cnt 1 (Par.readNatives c) := checked (loop fun _ _ => readNativesStep)
theorem skipAssigns : Cnt 0 Par.skipAssigns :=
  bind uindex fun _ => loop fun _ _ => bind uindex fun _ => bind index fun _ => pure
theorem storeDebug {i o} : Cnt 0 (Par.storeDebug i o) := by
  cases o
  · exact pure'
  · exact bind getCode fun _ => bind unwrapOpt fun _ => setCode
theorem skipAssignsIf {b} : Cnt 0 (Par.skipAssignsIf b) := ite skipAssigns pure'
theorem readFunctionDebug {p i} : Cnt 0 (Par.readFunctionDebug p i) :=
  bind getCode fun _ => ite (bind unwrapOpt fun _ => bind (okOrRecord debugInfos) fun _ =>
    bind storeDebug fun _ => bind getCode fun _ => skipAssignsIf) pure
theorem readFunctionsStep {p i c} : Cnt 1 (Par.readFunctionsStep p i c) :=
  seq (setCode (c := c)) (fun _ => seq readFunction (fun f => bind getCode fun d => bind (setCode (c := { d with functions := d.functions ++ [f] })) fun _ =>
    bind (readFunctionDebug (p := p) (i := i)) fun _ => getCode) 1) 1
theorem readFunctions {p c} : Cnt (c.nfunctions + 1) (Par.readFunctions p c) := by
  have h := forRange (k := 1) (fun i c => readFunctionsStep (p := p) (i := i) (c := c)) (n := c.nfunctions) (a := 0) (b := c)
  rw [Nat.one_mul] at h
  exact checked h
theorem readConstant : Cnt 0 Par.readConstant :=
  bind uindex fun _ => bind uindex fun _ => bind (loop fun _ _ => bind uindex fun _ => insertAt) fun _ => pure
theorem readConstantsStep {i c} : Cnt 1 (Par.readConstantsStep i c) :=
  seq (checked readConstant) (fun _ => bind insertAt fun _ => bind setCode fun _ => pure) 1
theorem readConstants {c} : Cnt c.nconstants (Par.readConstants c) := by
  have h := forRange (k := 1) (fun i c => readConstantsStep (i := i) (c := c)) (n := c.nconstants) (a := 0) (b := c)
  rw [Nat.one_mul] at h
  exact h

end Cnt

end Verif.Brass
