import Verif.Brass.ParCode

/-!
# Counting the accesses to `ERRORS`

A potential argument over the model with interleaving points: every byte read pays for two accesses.
-/

namespace Verif.Brass

open Verif

/-- On every path through `t` (whatever the reads of `ERRORS` return), the number of accesses and the result satisfy `Q`. -/
def Tree.Cost {α : Type} : Tree α → (Nat → Res α → Prop) → Prop
  | .done r, Q => Q 0 r
  | .get k, Q => ∀ v, (k v).Cost fun n => Q (n + 1)
  | .set _ t, Q => t.Cost fun n => Q (n + 1)

theorem Tree.Cost.imp {α : Type} {t : Tree α} {Q Q' : Nat → Res α → Prop} (h : t.Cost Q) (hq : ∀ n r, Q n r → Q' n r) : t.Cost Q' := by
  induction t generalizing Q Q' with
  | done r => exact hq _ _ h
  | get k ih => exact fun v => ih v (h v) fun n r => hq (n + 1) r
  | set v t ih => exact ih h fun n r => hq (n + 1) r

theorem Tree.Cost.and {α : Type} {t : Tree α} {Q Q' : Nat → Res α → Prop} (h : t.Cost Q) (h' : t.Cost Q') :
    t.Cost fun n r => Q n r ∧ Q' n r := by
  induction t generalizing Q Q' with
  | done r => exact ⟨h, h'⟩
  | get k ih => exact fun v => ih v (h v) (h' v)
  | set v t ih => exact ih h h'

theorem Tree.Cost.andThen {α β : Type} {t : Tree α} {k : Res α → Tree β} {Q : Nat → Res α → Prop} {Q' : Nat → Res β → Prop}
    (h : t.Cost Q) (hk : ∀ n r, Q n r → (k r).Cost fun m => Q' (n + m)) : (t.andThen k).Cost Q' := by
  induction t generalizing Q Q' with
  | done r =>
    have := hk _ _ h
    simp only [Nat.zero_add] at this
    exact this
  | get g ih =>
    refine fun v => ih v (h v) fun n r hq => (hk (n + 1) r hq).imp fun m r' h => ?_
    rwa [show n + m + 1 = n + 1 + m by omega]
  | set v t ih =>
    refine ih h fun n r hq => (hk (n + 1) r hq).imp fun m r' h => ?_
    rwa [show n + m + 1 = n + 1 + m by omega]

/-- `n` accesses, started with `l` bytes left: paid by the bytes read and `b`, and an `Ok` leaves `g` unused. -/
def Paid {α : Type} (g b l n : Nat) : Res α → Prop
  | .ok _ d => n + 2 * d.buf.length + g ≤ 2 * l + b
  | .err _ d => n + 2 * d.buf.length ≤ 2 * l + b
  | .panic => n ≤ 2 * l + b

/-- The accesses of `x` are paid by `b` and the bytes it reads; if it succeeds, `g` is left. -/
def Lin {α : Type} (g b : Nat) (x : P α) : Prop := ∀ d, (x d).Cost (Paid g b d.buf.length)

namespace Lin

theorem mono {α : Type} {x : P α} {g b : Nat} (g' b' : Nat) (h : Lin g b x) (hb : b ≤ b' := by omega) (hg : g' + b ≤ g + b' := by omega) :
    Lin g' b' x := by
  intro d
  refine (h d).imp fun n r hr => ?_
  cases r <;> simp only [Paid] at * <;> omega

theorem pure' {α : Type} {a : α} : Lin 0 0 (P.pure a) := fun d => by simp [P.pure, Tree.Cost, Paid]
theorem pure {α : Type} {a : α} : Lin 0 0 (Pure.pure a : P α) := pure'
theorem panic {α : Type} (g : Nat) : Lin g 0 (P.panic : P α) := fun d => by simp [P.panic, Tree.Cost, Paid]
theorem getCode : Lin 0 0 P.getCode := fun d => by simp [P.getCode, Tree.Cost, Paid]
theorem setCode {c} : Lin 0 0 (P.setCode c) := fun d => by simp [P.setCode, Tree.Cost, Paid]
theorem getErrors : Lin 0 1 P.getErrors := fun d v => by simp [Tree.Cost, Paid]; omega
theorem setError {k} : Lin 0 1 (P.setError k) := fun d => by simp [P.setError, Tree.Cost, Paid]; omega
theorem failAt {α : Type} {k} (g : Nat) : Lin g 0 (P.failAt k : P α) := fun d => by simp [P.failAt, Tree.Cost, Paid]
theorem recordError {α : Type} {e : DecodeError} {r : Res α} {Q : Nat → Res α → Prop} (h1 : Q 1 r) (h2 : Q 2 r) :
    (P.recordError e r).Cost Q := by
  intro v
  cases v
  · exact h2
  · exact h1
theorem mapErrAt {k} : Lin 0 2 (P.mapErrAt k) := fun d => recordError (by simp only [Paid]; omega) (by simp only [Paid]; omega)
theorem checkError : Lin 0 1 P.checkError := by
  intro d v
  cases v <;> simp [Tree.Cost, Paid] <;> omega
theorem peek {n} : Lin 0 0 (P.peek n) := by
  intro d
  unfold P.peek
  split <;> simp [Tree.Cost, Paid]
theorem advance {n} : Lin (2 * n) 0 (Par.advance n) := by
  intro d
  unfold Par.advance
  split <;> simp [Tree.Cost, Paid]
  omega
theorem readBytes {n} : Lin (2 * n) 0 (Par.readBytes n) := by
  intro d
  unfold Par.readBytes
  split <;> simp [Tree.Cost, Paid]
  omega

theorem bind {α β : Type} {x : P α} {f : α → P β} {g1 b1 g2 b2 : Nat} (g b : Nat) (hx : Lin g1 b1 x) (hf : ∀ a, Lin g2 b2 (f a))
    (h1 : b1 ≤ b := by omega) (h2 : b1 + b2 ≤ g1 + b := by omega) (h3 : g + b1 + b2 ≤ g1 + g2 + b := by omega) : Lin g b (P.bind x f) := by
  intro d
  refine (hx d).andThen fun n r hr => ?_
  cases r with
  | ok a d' =>
    refine (hf a d').imp fun m r' hr' => ?_
    simp only [Paid] at hr
    cases r' <;> simp only [Paid] at hr' ⊢ <;> omega
  | err e d' => simp only [Paid, Tree.Cost] at hr ⊢; omega
  | panic => simp only [Paid, Tree.Cost] at hr ⊢; omega

theorem ite {α : Type} {b : Prop} [Decidable b] {x y : P α} {g k : Nat} (hx : Lin g k x) (hy : Lin g k y) : Lin g k (if b then x else y) := by
  split; exact hx; exact hy
theorem unwrap {α : Type} {x : P α} {g b : Nat} (h : Lin g b x) : Lin g b (P.unwrap x) := by
  intro d
  refine (h d).andThen fun n r hr => ?_
  cases r <;> simp only [Paid, Tree.Cost] at hr ⊢ <;> omega
theorem okOrRecord {α : Type} {x : P α} {g b : Nat} (h : Lin g b x) : Lin 0 (b + 2) (P.okOrRecord x) := by
  intro d
  refine (h d).andThen fun n r hr => ?_
  cases r with
  | ok a d' => simp only [Paid, Tree.Cost] at hr ⊢; omega
  | err e d' =>
    simp only [Paid] at hr
    exact recordError (by simp only [Paid]; omega) (by simp only [Paid]; omega)
  | panic => simp only [Paid, Tree.Cost] at hr ⊢; omega
theorem unwrapRecord {α : Type} {x : P α} {g b : Nat} (h : Lin g b x) : Lin 0 (b + 2) (P.unwrapRecord x) := by
  intro d
  refine (h d).andThen fun n r hr => ?_
  cases r with
  | ok a d' => simp only [Paid, Tree.Cost] at hr ⊢; omega
  | err e d' =>
    simp only [Paid] at hr
    exact recordError (by simp only [Paid]; omega) (by simp only [Paid]; omega)
  | panic => simp only [Paid, Tree.Cost] at hr ⊢; omega
theorem whileReading {β : Type} {cond : β → Bool} {f : β → P β} (hf : ∀ b, Lin 0 0 (f b)) (b : β) : Lin 0 0 (P.whileReading cond f b) := by
  suffices h : ∀ n b, Lin 0 0 (P.whileFuel cond f n b) from fun d => h _ _ d
  intro n
  induction n with
  | zero => exact fun b => panic 0
  | succ n ih =>
    intro b d
    unfold P.whileFuel
    split
    · refine (hf b d).andThen fun n r hr => ?_
      cases r with
      | ok a d' =>
        simp only [Paid] at hr
        dsimp only
        split
        · refine (ih a d').imp fun m r' hr' => ?_
          cases r' <;> simp only [Paid] at hr' ⊢ <;> omega
        · simp only [Paid, Tree.Cost]; omega
      | err e d' => simp only [Paid, Tree.Cost] at hr ⊢; omega
      | panic => simp only [Paid, Tree.Cost] at hr ⊢; omega
    · simp [Tree.Cost, Paid]

theorem unwrapOpt {α : Type} {o : Option α} : Lin 0 0 (P.unwrapOpt o) := by
  cases o; exact panic 0; exact pure'
theorem insertAt {α : Type} {v : List α} {i : Nat} {x : α} : Lin 0 0 (P.insertAt v i x) := ite pure' (panic 0)
theorem forRange {β : Type} {f : Nat → β → P β} {k : Nat} (hf : ∀ i b, Lin 0 k (f i b)) : ∀ {n a b}, Lin 0 (k * n) (P.forRange f a n b)
  | 0, _, _ => pure'
  | n + 1, a, b => bind _ _ (hf a b) (fun b => forRange hf) (by rw [Nat.mul_succ]; omega) (by rw [Nat.mul_succ]; omega)
      (by rw [Nat.mul_succ]; omega)
theorem loop {β : Type} {f : Nat → β → P β} (hf : ∀ i b, Lin 0 0 (f i b)) {n a b} : Lin 0 0 (P.forRange f a n b) :=
  (forRange (k := 0) hf).mono 0 0
theorem decodeUnsigned {n} : Lin (2 * n) 0 (Par.decodeUnsigned n) := bind _ _ readBytes fun _ => pure
theorem decodeSigned {n} : Lin (2 * n) 0 (Par.decodeSigned n) := bind _ _ readBytes fun _ => pure
theorem decodeU8 : Lin 2 0 Par.decodeU8 := decodeUnsigned
theorem decodeI32 : Lin 8 0 Par.decodeI32 := decodeSigned
theorem decodeF64 : Lin 16 0 Par.decodeF64 := decodeUnsigned
theorem readIndex : Lin 2 0 Par.readIndex :=
  bind _ _ decodeU8 fun _ => ite pure (ite (bind 0 0 (unwrap decodeU8) fun _ => pure)
    (bind 0 0 decodeU8 fun _ => bind 0 0 decodeU8 fun _ => bind 0 0 decodeU8 fun _ => pure))

/-! ## code.rs -/

theorem index : Lin 2 0 Par.index := unwrap readIndex
theorem uindex : Lin 1 0 Par.uindex := bind _ _ index fun _ => ite (bind 0 1 setError fun _ => pure) (pure.mono 0 1)
theorem toI32 {n} : Lin 0 0 (Par.toI32 n) := ite pure' (panic 0)
theorem badIndex {i n} : Lin 0 0 (Par.badIndex i n) := ite pure' (bind 0 0 toI32 fun _ => pure)
theorem sliceFrom {s i} : Lin 0 0 (Par.sliceFrom s i) := ite pure' (panic 0)
theorem sliceTo {s i} : Lin 0 0 (Par.sliceTo s i) := ite pure' (panic 0)
theorem readString : Lin 1 0 Par.readString :=
  bind _ _ index fun _ => bind 0 1 getCode fun _ => bind 0 1 badIndex fun _ => ite (bind 0 1 setError fun _ => pure) (unwrapOpt.mono 0 1)
theorem readUstring : Lin 1 0 Par.readUstring :=
  bind _ _ index fun i => bind 0 1 getCode fun d => bind 0 1 badIndex fun _ => ite (bind 0 1 setError fun _ => pure) (by
    cases getUstring d i.toNat with
    | panic => exact (panic 0).mono 0 1
    | ret r => exact bind 0 1 setCode fun _ => pure)
theorem getType : Lin 1 0 Par.getType :=
  bind _ _ index fun _ => bind 0 1 getCode fun _ => bind 0 1 badIndex fun _ => ite (bind 0 1 setError fun _ => unwrapOpt) (unwrapOpt.mono 0 1)
theorem readTypeRefs {n} : Lin 0 0 (Par.readTypeRefs n) :=
  loop fun _ _ => bind _ _ getType fun _ => insertAt
theorem readField : Lin 0 0 Par.readField := bind _ _ readUstring fun _ => bind 0 0 getType fun _ => pure
theorem readFields {n} : Lin 0 0 (Par.readFields n) :=
  loop fun _ _ => bind _ _ readField fun _ => insertAt
theorem readProto : Lin 0 0 Par.readProto :=
  bind _ _ readUstring fun _ => bind 0 0 uindex fun _ => bind 0 0 index fun _ => pure
theorem readProtos {n} : Lin 0 0 (Par.readProtos n) :=
  loop fun _ _ => bind _ _ readProto fun _ => insertAt
theorem readBindings {n} : Lin 0 0 (Par.readBindings n) :=
  loop fun _ _ => bind _ _ uindex fun _ => bind 0 0 insertAt fun _ => bind 0 0 uindex fun _ => insertAt
theorem readConstruct : Lin 0 0 Par.readConstruct :=
  bind _ _ readUstring fun _ => bind 0 0 uindex fun _ => bind 0 0 readTypeRefs fun _ => pure
theorem readConstructs {n} : Lin 0 0 (Par.readConstructs n) :=
  loop fun _ _ => bind _ _ readConstruct fun _ => insertAt
theorem readFuncType : Lin 0 0 Par.readFuncType :=
  bind _ _ (unwrap decodeU8) fun _ => bind 0 0 readTypeRefs fun _ => bind 0 0 getType fun _ => pure
theorem readSuper : Lin 0 0 Par.readSuper :=
  bind _ _ index fun _ => ite pure (bind 0 0 getCode fun _ => unwrapOpt)
theorem readObjType : Lin 0 0 Par.readObjType :=
  bind _ _ readUstring fun _ => bind 0 0 readSuper fun _ => bind 0 0 uindex fun _ => bind 0 0 uindex fun _ => bind 0 0 uindex fun _ =>
    bind 0 0 uindex fun _ => bind 0 0 readFields fun _ => bind 0 0 readProtos fun _ => bind 0 0 readBindings fun _ => pure
theorem readVirtualType : Lin 0 0 Par.readVirtualType :=
  bind _ _ uindex fun _ => bind 0 0 readFields fun _ => pure
theorem readEnumType : Lin 0 0 Par.readEnumType :=
  bind _ _ readUstring fun _ => bind 0 0 uindex fun _ => bind 0 0 uindex fun _ => bind 0 0 readConstructs fun _ => pure
theorem readTypeBody {t} : Lin 0 0 (Par.readTypeBody t) := by
  unfold Par.readTypeBody
  cases t.kind
  case HFUN => exact bind _ _ readFuncType fun _ => pure
  case HMETHOD => exact bind _ _ readFuncType fun _ => pure
  case HOBJ => exact bind _ _ readObjType fun _ => pure
  case HSTRUCT => exact bind _ _ readObjType fun _ => pure
  case HREF => exact bind _ _ getType fun _ => pure
  case HVIRTUAL => exact bind _ _ readVirtualType fun _ => pure
  case HABSTRACT => exact bind _ _ readUstring fun _ => pure
  case HENUM => exact bind _ _ readEnumType fun _ => pure
  case HNULL => exact bind _ _ getType fun _ => pure
  case HPACKED => exact bind _ _ getType fun _ => pure
  all_goals exact pure
theorem readType {t} : Lin 0 0 (Par.readType t) :=
  bind _ _ (unwrap decodeU8) fun _ => ite (bind 0 2 mapErrAt fun _ => pure) (bind 0 2 unwrapOpt fun _ => readTypeBody)
theorem readStringsLoop {st : Str} : ∀ {n cursor strs lens},
    Lin 0 0 (Par.readStringsLoop st n cursor strs lens)
  | 0, _, _, _ => pure'
  | n + 1, _, _, _ => bind _ _ uindex fun _ => bind 0 0 sliceFrom fun _ => bind 0 0 sliceTo fun _ =>
      ite pure readStringsLoop
theorem peekAdvance {n} : Lin 0 0 (Par.peekAdvance n) :=
  bind _ _ peek fun _ => bind 0 0 advance fun _ => pure
theorem readStrings {n} : Lin 0 0 (Par.readStrings n) :=
  bind _ _ (unwrap decodeI32) fun _ => ite (panic 0) (bind 0 0 peekAdvance fun _ => readStringsLoop)
theorem readExtra {rd : P Int} (h : Lin 0 0 rd) {n} : Lin 0 0 (Par.readExtra rd n) :=
  loop fun _ _ => bind _ _ h fun _ => insertAt
theorem uindexI : Lin 0 0 Par.uindexI := bind _ _ uindex fun _ => pure
theorem readCallLike {r} : Lin 0 0 (Par.readCallLike r) :=
  bind _ _ index fun _ => bind 0 0 index fun _ => bind 0 0 (unwrap decodeU8) fun _ => bind 0 0 (readExtra (index.mono 0 0)) fun _ => pure
theorem readSwitch {r} : Lin 0 0 (Par.readSwitch r) :=
  bind _ _ uindexI fun _ => bind 0 0 uindex fun _ => bind 0 0 (readExtra uindexI) fun _ => bind 0 0 uindexI fun _ => pure
theorem readOperands {r i} : Lin 0 0 (Par.readOperands r i) := by
  refine ite pure' (ite (bind 0 0 index fun _ => pure) (ite (bind 0 0 index fun _ => bind 0 0 index fun _ => pure)
    (ite (bind 0 0 index fun _ => bind 0 0 index fun _ => bind 0 0 index fun _ => pure)
      (ite (bind 0 0 index fun _ => bind 0 0 index fun _ => bind 0 0 index fun _ => bind 0 0 index fun _ => pure)
        (ite ?_ (bind 0 0 index fun _ => bind 0 0 index fun _ => bind 0 0 index fun _ => ite (panic 0)
          (bind 0 0 (readExtra (index.mono 0 0)) fun _ => pure)))))))
  cases r.op
  case OCallN => exact readCallLike
  case OCallClosure => exact readCallLike
  case OCallMethod => exact readCallLike
  case OCallThis => exact readCallLike
  case OMakeEnum => exact readCallLike
  case OSwitch => exact readSwitch
  all_goals exact failAt 0
theorem readOpcode : Lin 0 0 Par.readOpcode :=
  bind _ _ (unwrap decodeU8) fun _ => ite (bind 0 1 setError fun _ => pure)
    (bind 0 1 unwrapOpt fun _ => bind 0 1 unwrapOpt fun _ => readOperands)
theorem readOpcodes {n} : Lin 0 0 (Par.readOpcodes n) :=
  loop fun _ _ => bind _ _ (unwrap readOpcode) fun _ => insertAt
theorem readFunction : Lin 3 0 Par.readFunction :=
  bind 3 0 getType fun _ => bind 2 0 uindex fun _ => bind 1 0 uindex fun _ => bind 0 0 uindex fun _ => bind 0 1 readTypeRefs fun _ =>
    bind 0 1 getErrors fun _ => ite pure (bind 0 0 readOpcodes fun _ => pure)
theorem i32Add {p a b} : Lin 0 0 (Par.i32Add p a b) := by
  refine ite pure' ?_
  cases p; exact panic 0; exact pure'
theorem setErrorIf {b k} : Lin 0 1 (Par.setErrorIf b k) := ite setError (pure'.mono 0 1)
theorem debugStore {d} : Lin 0 0 (Par.debugStore d) := ite pure' (panic 0)
theorem debugBody {p n d} : Lin 0 0 (Par.debugBody p n d) :=
  bind _ _ (unwrap decodeU8) fun _ => ite
    (bind 0 1 (unwrap decodeU8) fun _ => bind 0 1 getCode fun _ => bind 0 1 toI32 fun _ => bind 0 1 setErrorIf fun _ => pure)
    (ite (bind 0 1 setErrorIf fun _ => bind 0 0 i32Add fun _ => pure)
      (ite (bind 0 1 i32Add fun _ => debugStore)
        (bind 0 1 (unwrap decodeU8) fun _ => bind 0 1 (unwrap decodeU8) fun _ => debugStore)))
theorem debugInfos {p n} : Lin 0 0 (Par.debugInfos p n) :=
  bind 0 0 (whileReading (fun _ => debugBody) _) fun _ => pure
theorem readMagic : Lin 6 0 Par.readMagic :=
  bind 6 0 (unwrap decodeU8) fun _ => ite (failAt 4) (bind 4 0 (unwrap decodeU8) fun _ => ite (failAt 2)
    (bind 2 0 (unwrap decodeU8) fun _ => ite (failAt 0) pure))
theorem readVersion : Lin 0 2 Par.readVersion := bind 0 2 (unwrapRecord decodeU8) fun _ => ite (failAt 0) pure
theorem uindexIf {b} : Lin 0 0 (Par.uindexIf b) := ite (uindex.mono 0 0) pure'
theorem readCounts {v} : Lin 9 0 (Par.readCounts v) :=
  bind 9 0 uindex fun _ => bind 8 0 uindex fun _ => bind 7 0 uindex fun _ => bind 6 0 uindex fun _ => bind 5 0 uindexIf fun _ =>
    bind 5 0 uindex fun _ => bind 4 0 uindex fun _ => bind 3 0 uindex fun _ => bind 2 0 uindex fun _ => bind 1 0 uindexIf fun _ =>
      bind 1 0 uindex fun _ => pure
theorem insertIfSome {α : Type} {v : List α} {i} {o} : Lin 0 0 (Par.insertIfSome v i o) := by
  cases o; exact pure'; exact insertAt
theorem readPool {α : Type} {rd : P α} (h : Lin 0 0 rd) {n} : Lin 0 (2 * n) (Par.readPool rd n) :=
  forRange fun _ _ => bind _ _ (okOrRecord h) fun _ => insertIfSome
theorem checked {α : Type} {x : P α} {b : Nat} (h : Lin 0 b x) : Lin 0 (b + 1) (Par.checked x) :=
  bind _ _ h fun _ => bind 0 1 checkError fun _ => pure
theorem readPools {c} : Lin 0 (2 * (c.nints + c.nfloats) + 5) (Par.readPools c) :=
  bind _ _ (checked (readPool (decodeI32.mono 0 0))) fun _ => bind 0 (2 * c.nfloats + 4) (checked (readPool (decodeF64.mono 0 0))) fun _ =>
    bind 0 3 (checked (okOrRecord readStrings)) fun _ => pure
theorem readBytesPos {n} : Lin 0 0 (Par.readBytesPos n) :=
  loop fun _ _ => bind _ _ uindex fun _ => insertAt
theorem readBytesSection {c} : Lin 0 0 (Par.readBytesSection c) :=
  ite (bind _ _ decodeI32 fun _ => ite ((panic 0).mono 0 3) (bind 0 3 (unwrapRecord readBytes) fun _ =>
    bind 0 1 (checked readBytesPos) fun _ => pure)) pure
theorem readDebugFiles {c} : Lin 0 2 (Par.readDebugFiles c) :=
  ite (bind 0 2 uindex fun _ => bind 0 3 setCode fun _ => bind 0 3 (okOrRecord readStrings) fun _ => bind 0 1 getCode fun _ =>
    bind 0 1 setCode fun _ => bind 0 1 checkError fun _ => pure) (pure.mono 0 2)
theorem readTypesStep {i c} : Lin 0 0 (Par.readTypesStep i c) :=
  bind _ _ setCode fun _ => bind 0 0 readType fun _ => bind 0 0 getCode fun _ => bind 0 0 insertAt fun _ =>
    bind 0 0 setCode fun _ => pure
theorem readTypes {c} : Lin 0 0 (Par.readTypes c) := loop fun _ _ => readTypesStep
theorem readGlobalsStep {i c} : Lin 0 0 (Par.readGlobalsStep i c) :=
  bind _ _ setCode fun _ => bind 0 0 getType fun _ => bind 0 0 getCode fun _ => bind 0 0 insertAt fun _ =>
    bind 0 0 setCode fun _ => pure
theorem readGlobals {c} : Lin 0 1 (Par.readGlobals c) := checked (loop fun _ _ => readGlobalsStep)
theorem readNative : Lin 0 0 Par.readNative :=
  bind _ _ readString fun _ => bind 0 0 readString fun _ => bind 0 0 getType fun _ => bind 0 0 uindex fun _ => pure
theorem readNativesStep {i c} : Lin 0 0 (Par.readNativesStep i c) :=
  bind _ _ readNative fun _ => bind 0 0 setCode fun _ => pure
theorem readNatives {c} : Lin 0 1 (Par.readNatives c) := checked (loop fun _ _ => readNativesStep)
theorem skipAssigns : Lin 0 0 Par.skipAssigns :=
  bind _ _ uindex fun _ => loop fun _ _ => bind 0 0 uindex fun _ => bind 0 0 index fun _ => pure
theorem storeDebug {i o} : Lin 0 0 (Par.storeDebug i o) := by
  cases o
  · exact pure'
  · exact bind 0 0 getCode fun _ => bind 0 0 unwrapOpt fun _ => setCode
theorem skipAssignsIf {b} : Lin 0 0 (Par.skipAssignsIf b) := ite skipAssigns pure'
theorem readFunctionDebug {p i} : Lin 0 2 (Par.readFunctionDebug p i) :=
  bind 0 2 getCode fun _ => ite (bind 0 2 unwrapOpt fun _ => bind 0 2 (okOrRecord debugInfos) fun _ =>
    bind 0 0 storeDebug fun _ => bind 0 0 getCode fun _ => skipAssignsIf) (pure.mono 0 2)
theorem readFunctionsStep {p i c} : Lin 0 0 (Par.readFunctionsStep p i c) :=
  bind 0 0 setCode fun _ => bind 0 0 readFunction fun _ => bind 0 2 getCode fun _ => bind 0 2 setCode fun _ =>
    bind 0 2 readFunctionDebug fun _ => getCode
theorem readFunctions {p c} : Lin 0 1 (Par.readFunctions p c) :=
  checked (loop fun _ _ => readFunctionsStep)
theorem readConstant : Lin 2 0 Par.readConstant :=
  bind 2 0 uindex fun _ => bind 1 0 uindex fun _ => bind 0 0 (loop fun _ _ => bind 0 0 uindex fun _ => insertAt) fun _ => pure
theorem readConstantsStep {i c} : Lin 0 0 (Par.readConstantsStep i c) :=
  bind 0 0 (bind 1 0 readConstant fun _ => bind 0 1 checkError fun _ => pure) fun _ => bind 0 0 insertAt fun _ => bind 0 0 setCode fun _ => pure
theorem readConstants {c} : Lin 0 0 (Par.readConstants c) := loop fun _ _ => readConstantsStep

/-- Everything after the counts of the header. -/
theorem rest {p c} : Lin 0 (2 * (c.nints + c.nfloats) + 10)
    (Par.readPools c >>= fun c => Par.readBytesSection c >>= fun c => Par.readDebugFiles c >>= fun c => Par.readTypes c >>= fun c =>
      Par.readGlobals c >>= fun c => Par.readNatives c >>= fun c => Par.readFunctions p c >>= fun c => Par.readConstants c >>= fun _ =>
      P.getCode) :=
  bind _ _ readPools fun _ => bind 0 5 readBytesSection fun _ => bind 0 5 readDebugFiles fun _ => bind 0 3 readTypes fun _ =>
    bind 0 3 readGlobals fun _ => bind 0 2 readNatives fun _ => bind 0 1 readFunctions fun _ => bind 0 0 readConstants fun _ => getCode

end Lin

end Verif.Brass
