import Verif.Brass.Code

/-!
# The reader, with the tables it asks for

The functions of `Verif/Brass/Code.lean` that contain `vec![x; n]` with a length `n` that depends on the file, and those that
call them, written once more with a log: every `vec![x; n]` adds `n` to the log.  All other functions are taken from the
model as they are (they make no such request).  `erases` shows that nothing else was changed.
-/

namespace Verif.Brass

open Verif

/-- A decoding function with a log of the lengths requested with `vec!`, in order. -/
def R (α : Type) := St → Out α × List Nat

namespace R

/-- `Ok(a)` -/
protected def pure {α : Type} (a : α) : R α := fun s => (.ok a s, [])

/-- `let a = x?; f(a)` -/
protected def bind {α β : Type} (x : R α) (f : α → R β) : R β := fun s =>
  match x s with
  | (.ok a s, l) => ((f a s).1, l ++ (f a s).2)
  | (.err e s, l) => (.err e s, l)
  | (.panic, l) => (.panic, l)

/-- The `do` notation for sequences of Rust statements (a `?` or a panic ends the sequence); no code of its own. -/
instance : Monad R where
  pure := R.pure
  bind := R.bind

/-- A function that requests nothing. -/
def lift {α : Type} (x : M α) : R α := fun s => (x s, [])

/-- `vec![x; n]` -/
def vec (n : Nat) : R Unit := fun s => (.ok () s, [n])

/-- `x.unwrap()` on a `Result` -/
def unwrap {α : Type} (x : R α) : R α := fun s =>
  match x s with
  | (.ok a s, l) => (.ok a s, l)
  | (.err _ _, l) => (.panic, l)
  | (.panic, l) => (.panic, l)

/-- `if let Ok(a) = x.map_err(Code::map_err) { … }` -/
def okOrRecord {α : Type} (x : R α) : R (Option α) := fun s =>
  match x s with
  | (.ok a s, l) => (.ok (some a) s, l)
  | (.err e s, l) => (.ok none (M.recordError e s), l)
  | (.panic, l) => (.panic, l)

/-- `for i in a..a+n { b = f(i, b) }` -/
def forRange {β : Type} (f : Nat → β → R β) : (a n : Nat) → β → R β
  | _, 0, b => R.pure b
  | a, n + 1, b => R.bind (f a b) (fun b => forRange f (a + 1) n b)

end R

/-- code.rs:487-497 (line 491: `vec![0; p3]`) -/
def readCallLikeR (res : Opcode) : R Opcode := do
  let p1 ← R.lift index
  let p2 ← R.lift index
  let p3 ← R.lift (M.unwrap decodeU8)
  R.vec p3
  let extra ← R.lift (readExtra index p3)
  pure { res with p1 := some p1, p2 := some p2, p3 := some (p3 : Int), extra := extra }

/-- code.rs:499-511 (line 504: `vec![0; p2]`) -/
def readSwitchR (res : Opcode) : R Opcode := do
  let p1 ← R.lift uindexI
  let p2 ← R.lift uindex
  R.vec p2
  let extra ← R.lift (readExtra uindexI p2)
  let p3 ← R.lift uindexI
  pure { res with p1 := some p1, p2 := some (p2 : Int), p3 := some p3, extra := extra }

/-- code.rs:464-532 (line 525: `vec![0; size]`) -/
def readOperandsR (res : Opcode) (i : Int) : R Opcode :=
  if i = 0 ∨ i = 1 ∨ i = 2 ∨ i = 3 ∨ i = 4 then R.lift (readOperands res i)
  else if i = -1 then
    match res.op with
    | .OCallN | .OCallClosure | .OCallMethod | .OCallThis | .OMakeEnum => readCallLikeR res
    | .OSwitch => readSwitchR res
    | _ => R.lift (M.failAt .couldNotProcessOpcode)
  else do
    let p1 ← R.lift index
    let p2 ← R.lift index
    let p3 ← R.lift index
    if i - 3 < 0 then R.lift M.panic
    else do
      R.vec (i - 3).toNat
      let extra ← R.lift (readExtra index (i - 3).toNat)
      pure { res with p1 := some p1, p2 := some p2, p3 := some p3, extra := extra }

/-- code.rs:448-535 `read_opcode` -/
def readOpcodeR : R Opcode := do
  let n ← R.lift (M.unwrap decodeU8)
  if n ≥ 99 then do
    R.lift (M.setError .invalidOpcode)
    pure Opcode.default
  else do
    let op ← R.lift (M.unwrapOpt (Op.ofNat? n))
    let i ← R.lift (M.unwrapOpt OP_NARGS[n]?)
    readOperandsR { Opcode.default with op := op } i

/-- code.rs:440-443 -/
def readOpcodesR (n : Nat) : R (List Opcode) :=
  R.forRange (fun i v => do
    let o ← R.unwrap readOpcodeR
    R.lift (M.insertAt v i o)) 0 n []

/-- code.rs:420-446 `read_function` -/
def readFunctionR : R HLFunction := do
  let t ← R.lift getType
  let findex ← R.lift uindex
  let nregs ← R.lift uindex
  let nops ← R.lift uindex
  let regs ← R.lift (readTypeRefs nregs)
  let errors ← R.lift M.getErrors
  let f : HLFunction := { t := t, findex := findex, nregs := nregs, nops := nops, rf := 0, regs := regs, ops := [],
                          debug := [], obj := none, field := none }
  if errors.isSome then pure f
  else do
    let ops ← readOpcodesR nops
    pure { f with ops := ops }

/-- code.rs:537-588 `debug_infos` (line 541: `vec![0; nops * 2]`) -/
def debugInfosR (p : Profile) (nops : Nat) : R (List Int) := do
  R.vec (nops * 2)
  R.lift (debugInfos p nops)

/-- code.rs:704-715 (line 704: `vec![None; c.nstrings]`, line 707: `vec![0; size as usize]`) -/
def readBytesSectionR (c : Code) : R Code := do
  R.vec c.nstrings
  let c := { c with ustrings := List.replicate c.nstrings none }
  if c.version ≥ 5 then do
    let size ← R.lift decodeI32
    if size < 0 then R.lift M.panic
    else do
      R.vec size.toNat
      let bytes ← R.lift (M.unwrap (readBytes size.toNat))
      let bytesPos ← R.lift (checked (readBytesPos c.nbytes))
      pure { c with bytes := bytes, bytesPos := bytesPos }
  else pure c

/-- code.rs:730-738 (line 730: `vec![ValueType::default(); c.ntypes]`) -/
def readTypesR (c : Code) : R Code := do
  R.vec c.ntypes
  R.lift (readTypes c)

/-- code.rs:740-749 (line 740: `vec![ValueType::default(); c.nglobals]`) -/
def readGlobalsR (c : Code) : R Code := do
  R.vec c.nglobals
  R.lift (readGlobals c)

/-- code.rs:770-783 -/
def readFunctionDebugR (p : Profile) (i : Nat) : R Unit := do
  let d ← R.lift M.getCode
  if d.hasdebug ≠ 0 then do
    let f ← R.lift (M.unwrapOpt d.functions[i]?)
    let r ← R.okOrRecord (debugInfosR p f.nops)
    R.lift (storeDebug i r)
    let d ← R.lift M.getCode
    R.lift (skipAssignsIf (decide (d.version ≥ 3)))
  else pure ()

/-- code.rs:766-784 -/
def readFunctionsStepR (p : Profile) (i : Nat) (c : Code) : R Code := do
  R.lift (M.setCode c)
  let f ← readFunctionR
  let d ← R.lift M.getCode
  R.lift (M.setCode { d with functions := d.functions ++ [f] })
  readFunctionDebugR p i
  R.lift M.getCode

/-- code.rs:765-787 -/
def readFunctionsR (p : Profile) (c : Code) : R Code := do
  let a ← R.forRange (readFunctionsStepR p) 0 c.nfunctions c
  R.lift M.checkError
  pure a

/-- code.rs:607-806 `Code::read` on a fresh decoder -/
def readMR (p : Profile) : R Code := do
  R.lift readMagic
  let v ← R.lift readVersion
  let c ← R.lift (checked (readCounts v))
  let c ← R.lift (readPools c)
  let c ← readBytesSectionR c
  let c ← R.lift (readDebugFiles c)
  let c ← readTypesR c
  let c ← readGlobalsR c
  let c ← R.lift (readNatives c)
  let c ← readFunctionsR p c
  let _ ← R.lift (readConstants c)
  R.lift M.getCode

/-- The lengths that `Code::read(buf)` requests with `vec!`, in order, when `ERRORS` holds `errors`. -/
def requests (p : Profile) (errors : Option DecodeError) (buf : List UInt8) : List Nat := (readMR p (St.new buf errors)).2

/-! ## Nothing else was changed -/

/-- Without its log, `x` is `y`. -/
def Erases {α : Type} (x : R α) (y : M α) : Prop := ∀ s, (x s).1 = y s

namespace Erases

theorem pure {α : Type} (a : α) : Erases (Pure.pure a : R α) (Pure.pure a) := fun _ => rfl

theorem lift {α : Type} (x : M α) : Erases (R.lift x) x := fun _ => rfl

theorem bind {α β : Type} {x : R α} {y : M α} {f : α → R β} {g : α → M β} (h : Erases x y) (hf : ∀ a, Erases (f a) (g a)) :
    Erases (x >>= f) (y >>= g) := fun s => by
  show (R.bind x f s).1 = M.bind y g s
  unfold R.bind M.bind
  have := h s
  rcases hx : x s with ⟨o, l⟩
  rw [hx] at this
  simp only at this
  rw [← this]
  cases o with
  | ok a s => exact hf a s
  | err e s => rfl
  | panic => rfl

/-- a request leaves the rest as it is -/
theorem vec {β : Type} {n : Nat} {f : Unit → R β} {y : M β} (h : Erases (f ()) y) : Erases (R.vec n >>= f) y := fun s => h s

theorem unwrap {α : Type} {x : R α} {y : M α} (h : Erases x y) : Erases (R.unwrap x) (M.unwrap y) := fun s => by
  unfold R.unwrap M.unwrap
  have := h s
  rcases hx : x s with ⟨o, l⟩
  rw [hx] at this
  simp only at this
  rw [← this]
  cases o <;> rfl

theorem okOrRecord {α : Type} {x : R α} {y : M α} (h : Erases x y) : Erases (R.okOrRecord x) (M.okOrRecord y) := fun s => by
  unfold R.okOrRecord M.okOrRecord
  have := h s
  rcases hx : x s with ⟨o, l⟩
  rw [hx] at this
  simp only at this
  rw [← this]
  cases o <;> rfl

theorem ite {α : Type} {c : Prop} [Decidable c] {x x' : R α} {y y' : M α} (h : Erases x y) (h' : Erases x' y') :
    Erases (if c then x else x') (if c then y else y') := by
  split
  · exact h
  · exact h'

theorem forRange {β : Type} {f : Nat → β → R β} {g : Nat → β → M β} (h : ∀ i b, Erases (f i b) (g i b)) :
    ∀ (n a : Nat) (b : β), Erases (R.forRange f a n b) (M.forRange g a n b)
  | 0, _, _ => fun _ => rfl
  | n + 1, a, b => bind (h a b) fun b => forRange h n (a + 1) b

theorem readCallLike (res : Opcode) : Erases (readCallLikeR res) (readCallLike res) :=
  bind (lift _) fun _ => bind (lift _) fun _ => bind (lift _) fun _ => vec (bind (lift _) fun _ => pure _)

theorem readSwitch (res : Opcode) : Erases (readSwitchR res) (readSwitch res) :=
  bind (lift _) fun _ => bind (lift _) fun _ => vec (bind (lift _) fun _ => bind (lift _) fun _ => pure _)

theorem readOperands (res : Opcode) (i : Int) : Erases (readOperandsR res i) (readOperands res i) := by
  unfold readOperandsR
  split
  · exact lift _
  · rename_i h
    unfold Brass.readOperands
    rw [if_neg (show ¬ i = 0 by omega), if_neg (show ¬ i = 1 by omega), if_neg (show ¬ i = 2 by omega), if_neg (show ¬ i = 3 by omega),
      if_neg (show ¬ i = 4 by omega)]
    refine ite ?_ ?_
    · generalize res.op = o
      cases o <;> first | exact readCallLike _ | exact readSwitch _ | exact lift _
    · exact bind (lift _) fun _ => bind (lift _) fun _ => bind (lift _) fun _ => ite (lift _) (vec (bind (lift _) fun _ => pure _))

theorem readOpcode : Erases readOpcodeR readOpcode :=
  bind (lift _) fun _ => ite (bind (lift _) fun _ => pure _) (bind (lift _) fun _ => bind (lift _) fun _ => readOperands _ _)

theorem readOpcodes (n : Nat) : Erases (readOpcodesR n) (readOpcodes n) :=
  forRange (fun _ _ => bind (unwrap readOpcode) fun _ => lift _) _ _ _

theorem readFunction : Erases readFunctionR readFunction :=
  bind (lift _) fun _ => bind (lift _) fun _ => bind (lift _) fun _ => bind (lift _) fun _ => bind (lift _) fun _ =>
    bind (lift _) fun _ => ite (pure _) (bind (readOpcodes _) fun _ => pure _)

theorem debugInfos (p : Profile) (nops : Nat) : Erases (debugInfosR p nops) (debugInfos p nops) := vec (lift _)

theorem readBytesSection (c : Code) : Erases (readBytesSectionR c) (readBytesSection c) :=
  vec (ite (bind (lift _) fun _ => ite (lift _) (vec (bind (lift _) fun _ => bind (lift _) fun _ => pure _))) (pure _))

theorem readFunctionDebug (p : Profile) (i : Nat) : Erases (readFunctionDebugR p i) (readFunctionDebug p i) :=
  bind (lift _) fun _ => ite (bind (lift _) fun _ => bind (okOrRecord (debugInfos _ _)) fun _ => bind (lift _) fun _ =>
    bind (lift _) fun _ => lift _) (pure _)

theorem readFunctionsStep (p : Profile) (i : Nat) (c : Code) : Erases (readFunctionsStepR p i c) (readFunctionsStep p i c) :=
  bind (lift _) fun _ => bind readFunction fun _ => bind (lift _) fun _ => bind (lift _) fun _ =>
    bind (readFunctionDebug p i) fun _ => lift _

theorem readFunctions (p : Profile) (c : Code) : Erases (readFunctionsR p c) (readFunctions p c) :=
  bind (forRange (fun i c => readFunctionsStep p i c) _ _ _) fun _ => bind (lift _) fun _ => pure _

theorem readM (p : Profile) : Erases (readMR p) (readM p) :=
  bind (lift _) fun _ => bind (lift _) fun _ => bind (lift _) fun _ => bind (lift _) fun _ => bind (readBytesSection _) fun _ =>
    bind (lift _) fun _ => bind (vec (lift _)) fun _ => bind (vec (lift _)) fun _ => bind (lift _) fun _ =>
      bind (readFunctions p _) fun _ => bind (lift _) fun _ => lift _

end Erases

end Verif.Brass
