import Verif.Brass.Code

/-!
# The reader, with the modules it copies

`Code::read` keeps two modules, its local variable `c` and `decoder.code`, and copies the one to the other with `clone()`, once or twice
for every entry of a table.  The functions that contain such a copy and their callers, written once more with a log: every `clone()` of a
module adds that module to the log.  All other functions are taken from the model as they are (they copy parts of modules only, which
are not logged).  `Copying.readM` shows that nothing else was changed.
-/

namespace Verif.Brass

open Verif

/-- A decoding function with a log of the modules it copies, in order. -/
def K (α : Type) := St → Out α × List Code

namespace K

/-- `Ok(a)` -/
protected def pure {α : Type} (a : α) : K α := fun s => (.ok a s, [])

/-- `let a = x?; f(a)` -/
protected def bind {α β : Type} (x : K α) (f : α → K β) : K β := fun s =>
  match x s with
  | (.ok a s, l) => ((f a s).1, l ++ (f a s).2)
  | (.err e s, l) => (.err e s, l)
  | (.panic, l) => (.panic, l)

/-- The `do` notation for sequences of Rust statements (a `?` or a panic ends the sequence); no code of its own. -/
instance : Monad K where
  pure := K.pure
  bind := K.bind

/-- A function that copies no module. -/
def lift {α : Type} (x : M α) : K α := fun s => (x s, [])

/-- `decoder.code = c.clone()` -/
def store (c : Code) : K Unit := fun s => (.ok () { s with code := c }, [c])

/-- `c = decoder.code.clone()` -/
def load : K Code := fun s => (.ok s.code s, [s.code])

/-- `for i in a..a+n { b = f(i, b) }` -/
def forRange {β : Type} (f : Nat → β → K β) : (a n : Nat) → β → K β
  | _, 0, b => K.pure b
  | a, n + 1, b => K.bind (f a b) (fun b => forRange f (a + 1) n b)

end K

/-- code.rs:717-728 (lines 721 and 726: `clone()`) -/
def readDebugFilesK (c : Code) : K Code :=
  if c.hasdebug ≠ 0 then do
    let n ← K.lift uindex
    let c := { c with ndebugfiles := n }
    K.store c
    let r ← K.lift (M.okOrRecord (readStrings c.ndebugfiles))
    let d ← K.lift M.getCode
    K.lift (M.setCode (setDebugFiles d r))
    let c ← K.load
    K.lift M.checkError
    pure c
  else pure c

/-- code.rs:733-737 (lines 734 and 737: `clone()`) -/
def readTypesStepK (i : Nat) (c : Code) : K Code := do
  K.store c
  let t ← K.lift (readType ValueType.default)
  let d ← K.lift M.getCode
  let types ← K.lift (M.insertAt d.types i t)
  K.lift (M.setCode { d with types := types })
  K.load

/-- code.rs:730-738 -/
def readTypesK (c : Code) : K Code :=
  let c := { c with types := List.replicate c.ntypes ValueType.default }
  K.forRange readTypesStepK 0 c.ntypes c

/-- code.rs:742-746 (lines 742 and 746: `clone()`) -/
def readGlobalsStepK (i : Nat) (c : Code) : K Code := do
  K.store c
  let t ← K.lift getType
  let d ← K.lift M.getCode
  let globals ← K.lift (M.insertAt d.globals i t)
  K.lift (M.setCode { d with globals := globals })
  K.load

/-- code.rs:740-749 -/
def readGlobalsK (c : Code) : K Code := do
  let c := { c with globals := List.replicate c.nglobals ValueType.default }
  let a ← K.forRange readGlobalsStepK 0 c.nglobals c
  K.lift M.checkError
  pure a

/-- code.rs:753-759 (line 759: `clone()`) -/
def readNativesStepK (_i : Nat) (c : Code) : K Code := do
  let n ← K.lift readNative
  let c := { c with natives := c.natives ++ [n] }
  K.store c
  pure c

/-- code.rs:751-761 -/
def readNativesK (c : Code) : K Code := do
  let c := { c with natives := [] }
  let a ← K.forRange readNativesStepK 0 c.nnatives c
  K.lift M.checkError
  pure a

/-- code.rs:766-784 (lines 766 and 784: `clone()`) -/
def readFunctionsStepK (p : Profile) (i : Nat) (c : Code) : K Code := do
  K.store c
  let f ← K.lift readFunction
  let d ← K.lift M.getCode
  K.lift (M.setCode { d with functions := d.functions ++ [f] })
  K.lift (readFunctionDebug p i)
  K.load

/-- code.rs:765-787 -/
def readFunctionsK (p : Profile) (c : Code) : K Code := do
  let a ← K.forRange (readFunctionsStepK p) 0 c.nfunctions c
  K.lift M.checkError
  pure a

/-- code.rs:790-802 (line 802: `clone()`) -/
def readConstantsStepK (i : Nat) (c : Code) : K Code := do
  let k ← K.lift (checked readConstant)
  let constants ← K.lift (M.insertAt c.constants i k)
  let c := { c with constants := constants }
  K.store c
  pure c

/-- code.rs:789-803 -/
def readConstantsK (c : Code) : K Code :=
  K.forRange readConstantsStepK 0 c.nconstants c

/-- code.rs:607-806 `Code::read` on a fresh decoder; `Ok(decoder.code)` moves the module -/
def readMK (p : Profile) : K Code := do
  K.lift readMagic
  let v ← K.lift readVersion
  let c ← K.lift (checked (readCounts v))
  let c ← K.lift (readPools c)
  let c ← K.lift (readBytesSection c)
  let c ← readDebugFilesK c
  let c ← readTypesK c
  let c ← readGlobalsK c
  let c ← readNativesK c
  let c ← readFunctionsK p c
  let _ ← readConstantsK c
  K.lift M.getCode

/-- The modules that `Code::read(buf)` copies when `ERRORS` holds `errors`. -/
def copied (p : Profile) (errors : Option DecodeError) (buf : List UInt8) : List Code := (readMK p (St.new buf errors)).2

/-! ## Nothing else was changed -/

/-- Without its log, `x` is `y`. -/
def Copying {α : Type} (x : K α) (y : M α) : Prop := ∀ s, (x s).1 = y s

namespace Copying

theorem pure {α : Type} (a : α) : Copying (Pure.pure a : K α) (Pure.pure a) := fun _ => rfl

theorem lift {α : Type} (x : M α) : Copying (K.lift x) x := fun _ => rfl

theorem store (c : Code) : Copying (K.store c) (M.setCode c) := fun _ => rfl

theorem load : Copying K.load M.getCode := fun _ => rfl

theorem bind {α β : Type} {x : K α} {y : M α} {f : α → K β} {g : α → M β} (h : Copying x y) (hf : ∀ a, Copying (f a) (g a)) :
    Copying (x >>= f) (y >>= g) := fun s => by
  show (K.bind x f s).1 = M.bind y g s
  unfold K.bind M.bind
  have := h s
  rcases hx : x s with ⟨o, l⟩
  rw [hx] at this
  simp only at this
  rw [← this]
  cases o with
  | ok a s => exact hf a s
  | err e s => rfl
  | panic => rfl

/-- `decoder.code = …; c = decoder.code.clone()` -/
theorem setLoad (c : Code) : Copying (K.lift (M.setCode c) >>= fun _ => K.load) (M.setCode c >>= fun _ => Pure.pure c) := fun _ => rfl

theorem setLoad_bind {β : Type} (c : Code) {f : Code → K β} {y : M β} (h : Copying (f c) y) :
    Copying (K.lift (M.setCode c) >>= fun _ => K.load >>= f) (M.setCode c >>= fun _ => y) := fun s => h { s with code := c }

theorem forRange {β : Type} {f : Nat → β → K β} {g : Nat → β → M β} (h : ∀ i b, Copying (f i b) (g i b)) :
    ∀ (n a : Nat) (b : β), Copying (K.forRange f a n b) (M.forRange g a n b)
  | 0, _, _ => fun _ => rfl
  | n + 1, a, b => bind (h a b) fun b => forRange h n (a + 1) b

theorem checked {α : Type} {x : K α} {y : M α} (h : Copying x y) :
    Copying (x >>= fun a => K.lift M.checkError >>= fun _ => Pure.pure a) (checked y) :=
  bind h fun _ => bind (lift _) fun _ => pure _

theorem readDebugFiles (c : Code) : Copying (readDebugFilesK c) (readDebugFiles c) := by
  unfold readDebugFilesK Brass.readDebugFiles
  split
  · exact bind (lift _) fun _ => bind (store _) fun _ => bind (lift _) fun _ => bind (lift _) fun _ =>
      setLoad_bind _ (bind (lift _) fun _ => pure _)
  · exact pure _

theorem readTypesStep (i : Nat) (c : Code) : Copying (readTypesStepK i c) (readTypesStep i c) :=
  bind (store _) fun _ => bind (lift _) fun _ => bind (lift _) fun _ => bind (lift _) fun _ => setLoad _

theorem readGlobalsStep (i : Nat) (c : Code) : Copying (readGlobalsStepK i c) (readGlobalsStep i c) :=
  bind (store _) fun _ => bind (lift _) fun _ => bind (lift _) fun _ => bind (lift _) fun _ => setLoad _

theorem readNativesStep (i : Nat) (c : Code) : Copying (readNativesStepK i c) (readNativesStep i c) :=
  bind (lift _) fun _ => bind (store _) fun _ => pure _

theorem readFunctionsStep (p : Profile) (i : Nat) (c : Code) : Copying (readFunctionsStepK p i c) (readFunctionsStep p i c) :=
  bind (store _) fun _ => bind (lift _) fun _ => bind (lift _) fun _ => bind (lift _) fun _ => bind (lift _) fun _ => load

theorem readConstantsStep (i : Nat) (c : Code) : Copying (readConstantsStepK i c) (readConstantsStep i c) :=
  bind (lift _) fun _ => bind (lift _) fun _ => bind (store _) fun _ => pure _

theorem readTypes (c : Code) : Copying (readTypesK c) (readTypes c) := forRange readTypesStep _ _ _
theorem readGlobals (c : Code) : Copying (readGlobalsK c) (readGlobals c) := checked (forRange readGlobalsStep _ _ _)
theorem readNatives (c : Code) : Copying (readNativesK c) (readNatives c) := checked (forRange readNativesStep _ _ _)
theorem readFunctions (p : Profile) (c : Code) : Copying (readFunctionsK p c) (readFunctions p c) := checked (forRange (readFunctionsStep p) _ _ _)
theorem readConstants (c : Code) : Copying (readConstantsK c) (readConstants c) := forRange readConstantsStep _ _ _

theorem readM (p : Profile) : Copying (readMK p) (readM p) :=
  bind (lift _) fun _ => bind (lift _) fun _ => bind (lift _) fun _ => bind (lift _) fun _ => bind (lift _) fun _ =>
    bind (readDebugFiles _) fun _ => bind (readTypes _) fun _ => bind (readGlobals _) fun _ => bind (readNatives _) fun _ =>
      bind (readFunctions p _) fun _ => bind (readConstants _) fun _ => lift _

end Copying

end Verif.Brass
