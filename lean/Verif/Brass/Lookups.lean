import Verif.Brass.Code

/-!
# The reader, with the tables it copies to look up an entry

Every lookup of a string or of a type copies the whole table with `clone()` and takes one entry of the copy.  The functions that contain
such a copy and their callers, written once more with a log: every `clone()` of a table adds an entry to the log that says which table and
how long it is.  All other functions are taken from the model as they are.  `Looking.readM` shows that nothing else was changed.
(The modules that are copied between lookups are those of `Verif/Brass/Copies.lean`; single entries that are copied are not logged.)
-/

namespace Verif.Brass

open Verif

/-- A table that is copied, and its length. -/
inductive TableCopy where
  /-- `decoder.code.types` -/
  | types (n : Nat)
  /-- `decoder.code.strings` -/
  | strings (n : Nat)
  /-- `decoder.code.ustrings` -/
  | cache (n : Nat)
deriving DecidableEq

/-- A decoding function with a log of the tables it copies, in order. -/
def L (α : Type) := St → Out α × List TableCopy

namespace L

/-- `Ok(a)` -/
protected def pure {α : Type} (a : α) : L α := fun s => (.ok a s, [])

/-- `let a = x?; f(a)` -/
protected def bind {α β : Type} (x : L α) (f : α → L β) : L β := fun s =>
  match x s with
  | (.ok a s, l) => ((f a s).1, l ++ (f a s).2)
  | (.err e s, l) => (.err e s, l)
  | (.panic, l) => (.panic, l)

/-- The `do` notation for sequences of Rust statements (a `?` or a panic ends the sequence); no code of its own. -/
instance : Monad L where
  pure := L.pure
  bind := L.bind

/-- A function that copies no table. -/
def lift {α : Type} (x : M α) : L α := fun s => (x s, [])

/-- `clone()` of a table -/
def copy (t : TableCopy) : L Unit := fun s => (.ok () s, [t])

/-- `for i in a..a+n { b = f(i, b) }` -/
def forRange {β : Type} (f : Nat → β → L β) : (a n : Nat) → β → L β
  | _, 0, b => L.pure b
  | a, n + 1, b => L.bind (f a b) (fun b => forRange f (a + 1) n b)

end L

/-- code.rs:115-129 `read_string` (line 126: `strings.clone()`) -/
def readStringL : L Str := do
  let i ← L.lift index
  let d ← L.lift M.getCode
  let bad ← L.lift (badIndex i d.nstrings)
  if bad then do
    L.lift (M.setError .invalidStringIndex)
    pure []
  else do
    L.copy (.strings d.strings.length)
    L.lift (M.unwrapOpt d.strings[i.toNat]?)

/-- code.rs:132-136: the tables copied by `get_ustring`: the cache, and the strings if the entry of the cache is empty -/
def getUstringCopies (c : Code) (i : Nat) : L Unit := do
  L.copy (.cache c.ustrings.length)
  match c.ustrings[i]? with
  | some none => L.copy (.strings c.strings.length)
  | _ => pure ()

/-- code.rs:153-167 `read_ustring` and 131-151 `get_ustring` -/
def readUstringL : L Str := do
  let i ← L.lift index
  let d ← L.lift M.getCode
  let bad ← L.lift (badIndex i d.nstrings)
  if bad then do
    L.lift (M.setError .invalidStringIndex)
    pure []
  else do
    getUstringCopies d i.toNat
    match getUstring d i.toNat with
    | .panic => L.lift M.panic
    | .ret (r, c) => do
      L.lift (M.setCode c)
      pure r

/-- code.rs:169-188 `get_type` (line 184: `types.clone()`) -/
def getTypeL : L ValueType := do
  let i ← L.lift index
  let d ← L.lift M.getCode
  let bad ← L.lift (badIndex i d.ntypes)
  if bad then do
    L.lift (M.setError .invalidTypeIndex)
    L.copy (.types d.types.length)
    L.lift (M.unwrapOpt d.types[0]?)
  else do
    L.copy (.types d.types.length)
    L.lift (M.unwrapOpt d.types[i.toNat]?)

/-- code.rs:223-225, 363-365, 434-436 -/
def readTypeRefsL (n : Nat) : L (List ValueType) :=
  L.forRange (fun i v => do
    let t ← getTypeL
    L.lift (M.insertAt v i t)) 0 n []

/-- code.rs:274-280, 320-326 -/
def readFieldL : L ObjField := do
  let name ← readUstringL
  let t ← getTypeL
  pure { name := name, hashedName := crcHash name, t := t }

/-- code.rs:273-283, 319-329 -/
def readFieldsL (n : Nat) : L (List ObjField) :=
  L.forRange (fun i v => do
    let f ← readFieldL
    L.lift (M.insertAt v i f)) 0 n []

/-- code.rs:285-292 -/
def readProtoL : L ObjProto := do
  let name ← readUstringL
  let findex ← L.lift uindex
  let pindex ← L.lift index
  pure { name := name, hashedName := crcHash name, findex := findex, pindex := pindex }

/-- code.rs:284-295 -/
def readProtosL (n : Nat) : L (List ObjProto) :=
  L.forRange (fun i v => do
    let f ← readProtoL
    L.lift (M.insertAt v i f)) 0 n []

/-- code.rs:353-365 -/
def readConstructL : L EnumConstruct := do
  let name ← readUstringL
  let nparams ← L.lift uindex
  let params ← readTypeRefsL nparams
  pure { name := name, nparams := nparams, params := params, size := 0, hasptr := false, offsets := [] }

/-- code.rs:352-368 -/
def readConstructsL (n : Nat) : L (List EnumConstruct) :=
  L.forRange (fun i v => do
    let k ← readConstructL
    L.lift (M.insertAt v i k)) 0 n []

/-- code.rs:209-231 -/
def readFuncTypeL : L ValueTypeU := do
  let nargs ← L.lift (M.unwrap decodeU8)
  let args ← readTypeRefsL nargs
  let ret ← getTypeL
  pure (.func args nargs ret)

/-- code.rs:234, 237-249 (line 244: `types.clone()`) -/
def readSuperL : L ValueType := do
  let i ← L.lift index
  if i < 0 then pure ValueType.default
  else do
    let d ← L.lift M.getCode
    L.copy (.types d.types.length)
    L.lift (M.unwrapOpt d.types[i.toNat]?)

/-- code.rs:232-303 -/
def readObjTypeL : L ValueTypeU := do
  let name ← readUstringL
  let sup ← readSuperL
  let global ← L.lift uindex
  let nfields ← L.lift uindex
  let nproto ← L.lift uindex
  let nbindings ← L.lift uindex
  let fields ← readFieldsL nfields
  let proto ← readProtosL nproto
  let bindings ← L.lift (readBindings nbindings)
  pure (.obj name sup fields nfields nproto nbindings proto bindings [(global : Int)] none)

/-- code.rs:307-333 -/
def readVirtualTypeL : L ValueTypeU := do
  let nfields ← L.lift uindex
  let fields ← readFieldsL nfields
  pure (.virt nfields fields)

/-- code.rs:337-372 -/
def readEnumTypeL : L ValueTypeU := do
  let name ← readUstringL
  let global ← L.lift uindex
  let nconstructs ← L.lift uindex
  let constructs ← readConstructsL nconstructs
  pure (.enum name nconstructs constructs [(global : Int)])

/-- code.rs:208-385 -/
def readTypeBodyL (t : ValueType) : L ValueType :=
  match t.kind with
  | .HFUN | .HMETHOD => do
    let u ← readFuncTypeL
    pure { t with union := u }
  | .HOBJ | .HSTRUCT => do
    let u ← readObjTypeL
    pure { t with union := u }
  | .HREF => do
    let p ← getTypeL
    pure { t with tparam := some p }
  | .HVIRTUAL => do
    let u ← readVirtualTypeL
    pure { t with union := u }
  | .HABSTRACT => do
    let n ← readUstringL
    pure { t with absName := some n }
  | .HENUM => do
    let u ← readEnumTypeL
    pure { t with union := u }
  | .HNULL | .HPACKED => do
    let p ← getTypeL
    pure { t with tparam := some p }
  | _ => pure t

/-- code.rs:190-388 `read_type` -/
def readTypeL (t : ValueType) : L ValueType := do
  let v ← L.lift (M.unwrap decodeU8)
  if v ≥ TypeKind.HLAST.toNat then do
    L.lift (M.mapErrAt .invalidType)
    pure t
  else do
    let k ← L.lift (M.unwrapOpt (TypeKind.ofNat? v))
    readTypeBodyL { t with kind := k }

/-- code.rs:420-446 `read_function` -/
def readFunctionL : L HLFunction := do
  let t ← getTypeL
  let findex ← L.lift uindex
  let nregs ← L.lift uindex
  let nops ← L.lift uindex
  let regs ← readTypeRefsL nregs
  let errors ← L.lift M.getErrors
  let f : HLFunction := { t := t, findex := findex, nregs := nregs, nops := nops, rf := 0, regs := regs, ops := [],
                          debug := [], obj := none, field := none }
  if errors.isSome then pure f
  else do
    let ops ← L.lift (readOpcodes nops)
    pure { f with ops := ops }

/-- code.rs:733-737 -/
def readTypesStepL (i : Nat) (c : Code) : L Code := do
  L.lift (M.setCode c)
  let t ← readTypeL ValueType.default
  let d ← L.lift M.getCode
  let types ← L.lift (M.insertAt d.types i t)
  let c := { d with types := types }
  L.lift (M.setCode c)
  pure c

/-- code.rs:730-738 -/
def readTypesL (c : Code) : L Code :=
  let c := { c with types := List.replicate c.ntypes ValueType.default }
  L.forRange readTypesStepL 0 c.ntypes c

/-- code.rs:742-746 -/
def readGlobalsStepL (i : Nat) (c : Code) : L Code := do
  L.lift (M.setCode c)
  let t ← getTypeL
  let d ← L.lift M.getCode
  let globals ← L.lift (M.insertAt d.globals i t)
  let c := { d with globals := globals }
  L.lift (M.setCode c)
  pure c

/-- code.rs:740-749 -/
def readGlobalsL (c : Code) : L Code := do
  let c := { c with globals := List.replicate c.nglobals ValueType.default }
  let a ← L.forRange readGlobalsStepL 0 c.nglobals c
  L.lift M.checkError
  pure a

/-- code.rs:753-758 -/
def readNativeL : L Native := do
  let lib ← readStringL
  let name ← readStringL
  let t ← getTypeL
  let findex ← L.lift uindex
  pure { lib := lib, name := name, t := t, findex := findex }

/-- code.rs:753-759 -/
def readNativesStepL (_i : Nat) (c : Code) : L Code := do
  let n ← readNativeL
  let c := { c with natives := c.natives ++ [n] }
  L.lift (M.setCode c)
  pure c

/-- code.rs:751-761 -/
def readNativesL (c : Code) : L Code := do
  let c := { c with natives := [] }
  let a ← L.forRange readNativesStepL 0 c.nnatives c
  L.lift M.checkError
  pure a

/-- code.rs:766-784 -/
def readFunctionsStepL (p : Profile) (i : Nat) (c : Code) : L Code := do
  L.lift (M.setCode c)
  let f ← readFunctionL
  let d ← L.lift M.getCode
  L.lift (M.setCode { d with functions := d.functions ++ [f] })
  L.lift (readFunctionDebug p i)
  L.lift M.getCode

/-- code.rs:765-787 -/
def readFunctionsL (p : Profile) (c : Code) : L Code := do
  let a ← L.forRange (readFunctionsStepL p) 0 c.nfunctions c
  L.lift M.checkError
  pure a

/-- code.rs:607-806 `Code::read` on a fresh decoder -/
def readML (p : Profile) : L Code := do
  L.lift readMagic
  let v ← L.lift readVersion
  let c ← L.lift (checked (readCounts v))
  let c ← L.lift (readPools c)
  let c ← L.lift (readBytesSection c)
  let c ← L.lift (readDebugFiles c)
  let c ← readTypesL c
  let c ← readGlobalsL c
  let c ← readNativesL c
  let c ← readFunctionsL p c
  let _ ← L.lift (readConstants c)
  L.lift M.getCode

/-- The tables that `Code::read(buf)` copies for lookups, in order, when `ERRORS` holds `errors`. -/
def tableCopies (p : Profile) (errors : Option DecodeError) (buf : List UInt8) : List TableCopy := (readML p (St.new buf errors)).2

/-! ## Nothing else was changed -/

/-- Without its log, `x` is `y`. -/
def Looking {α : Type} (x : L α) (y : M α) : Prop := ∀ s, (x s).1 = y s

namespace Looking

theorem pure {α : Type} (a : α) : Looking (Pure.pure a : L α) (Pure.pure a) := fun _ => rfl

theorem lift {α : Type} (x : M α) : Looking (L.lift x) x := fun _ => rfl

theorem bind {α β : Type} {x : L α} {y : M α} {f : α → L β} {g : α → M β} (h : Looking x y) (hf : ∀ a, Looking (f a) (g a)) :
    Looking (x >>= f) (y >>= g) := fun s => by
  show (L.bind x f s).1 = M.bind y g s
  unfold L.bind M.bind
  have := h s
  rcases hx : x s with ⟨o, l⟩
  rw [hx] at this
  simp only at this
  rw [← this]
  cases o with
  | ok a s => exact hf a s
  | err e s => rfl
  | panic => rfl

/-- A copy is not seen. -/
theorem copy {β : Type} {t : TableCopy} {f : Unit → L β} {y : M β} (h : Looking (f ()) y) : Looking (L.copy t >>= f) y := fun s => h s

theorem forRange {β : Type} {f : Nat → β → L β} {g : Nat → β → M β} (h : ∀ i b, Looking (f i b) (g i b)) :
    ∀ (n a : Nat) (b : β), Looking (L.forRange f a n b) (M.forRange g a n b)
  | 0, _, _ => fun _ => rfl
  | n + 1, a, b => bind (h a b) fun b => forRange h n (a + 1) b

theorem ite {α : Type} {b : Prop} [Decidable b] {x x' : L α} {y y' : M α} (h : Looking x y) (h' : Looking x' y') :
    Looking (if b then x else x') (if b then y else y') := by split <;> assumption

theorem checked {α : Type} {x : L α} {y : M α} (h : Looking x y) :
    Looking (x >>= fun a => L.lift M.checkError >>= fun _ => Pure.pure a) (checked y) :=
  bind h fun _ => bind (lift _) fun _ => pure _

theorem readString : Looking readStringL readString :=
  bind (lift _) fun _ => bind (lift _) fun _ => bind (lift _) fun _ => ite (bind (lift _) fun _ => pure _) (copy (lift _))

theorem getUstring {β : Type} (c : Code) (i : Nat) {f : Unit → L β} {y : M β} (h : Looking (f ()) y) : Looking (getUstringCopies c i >>= f) y := by
  intro s
  unfold getUstringCopies
  rcases c.ustrings[i]? with _ | _ | _ <;> exact h s

theorem readUstring : Looking readUstringL readUstring := by
  refine bind (lift _) fun i => bind (lift _) fun d => bind (lift _) fun _ => ite (bind (lift _) fun _ => pure _) (getUstring _ _ ?_)
  rcases Brass.getUstring d i.toNat with ⟨r, c⟩ | _
  · exact bind (lift _) fun _ => pure _
  · exact lift _

theorem getType : Looking getTypeL getType :=
  bind (lift _) fun _ => bind (lift _) fun _ => bind (lift _) fun _ => ite (bind (lift _) fun _ => copy (lift _)) (copy (lift _))

theorem readTypeRefs (n : Nat) : Looking (readTypeRefsL n) (readTypeRefs n) := forRange (fun _ _ => bind getType fun _ => lift _) _ _ _
theorem readField : Looking readFieldL readField := bind readUstring fun _ => bind getType fun _ => pure _
theorem readFields (n : Nat) : Looking (readFieldsL n) (readFields n) := forRange (fun _ _ => bind readField fun _ => lift _) _ _ _
theorem readProto : Looking readProtoL readProto := bind readUstring fun _ => bind (lift _) fun _ => bind (lift _) fun _ => pure _
theorem readProtos (n : Nat) : Looking (readProtosL n) (readProtos n) := forRange (fun _ _ => bind readProto fun _ => lift _) _ _ _
theorem readConstruct : Looking readConstructL readConstruct := bind readUstring fun _ => bind (lift _) fun _ => bind (readTypeRefs _) fun _ => pure _
theorem readConstructs (n : Nat) : Looking (readConstructsL n) (readConstructs n) := forRange (fun _ _ => bind readConstruct fun _ => lift _) _ _ _
theorem readFuncType : Looking readFuncTypeL readFuncType := bind (lift _) fun _ => bind (readTypeRefs _) fun _ => bind getType fun _ => pure _
theorem readSuper : Looking readSuperL readSuper := bind (lift _) fun _ => ite (pure _) (bind (lift _) fun _ => copy (lift _))
theorem readObjType : Looking readObjTypeL readObjType :=
  bind readUstring fun _ => bind readSuper fun _ => bind (lift _) fun _ => bind (lift _) fun _ => bind (lift _) fun _ => bind (lift _) fun _ =>
    bind (readFields _) fun _ => bind (readProtos _) fun _ => bind (lift _) fun _ => pure _
theorem readVirtualType : Looking readVirtualTypeL readVirtualType := bind (lift _) fun _ => bind (readFields _) fun _ => pure _
theorem readEnumType : Looking readEnumTypeL readEnumType :=
  bind readUstring fun _ => bind (lift _) fun _ => bind (lift _) fun _ => bind (readConstructs _) fun _ => pure _

theorem readTypeBody (t : ValueType) : Looking (readTypeBodyL t) (readTypeBody t) := by
  unfold readTypeBodyL Brass.readTypeBody
  cases t.kind <;> first
    | exact pure _
    | exact bind readFuncType fun _ => pure _
    | exact bind readObjType fun _ => pure _
    | exact bind getType fun _ => pure _
    | exact bind readVirtualType fun _ => pure _
    | exact bind readUstring fun _ => pure _
    | exact bind readEnumType fun _ => pure _

theorem readType (t : ValueType) : Looking (readTypeL t) (readType t) :=
  bind (lift _) fun _ => ite (bind (lift _) fun _ => pure _) (bind (lift _) fun _ => readTypeBody _)

theorem readFunction : Looking readFunctionL readFunction :=
  bind getType fun _ => bind (lift _) fun _ => bind (lift _) fun _ => bind (lift _) fun _ => bind (readTypeRefs _) fun _ => bind (lift _) fun _ =>
    ite (pure _) (bind (lift _) fun _ => pure _)

theorem readTypesStep (i : Nat) (c : Code) : Looking (readTypesStepL i c) (readTypesStep i c) :=
  bind (lift _) fun _ => bind (readType _) fun _ => bind (lift _) fun _ => bind (lift _) fun _ => bind (lift _) fun _ => pure _

theorem readGlobalsStep (i : Nat) (c : Code) : Looking (readGlobalsStepL i c) (readGlobalsStep i c) :=
  bind (lift _) fun _ => bind getType fun _ => bind (lift _) fun _ => bind (lift _) fun _ => bind (lift _) fun _ => pure _

theorem readNative : Looking readNativeL readNative := bind readString fun _ => bind readString fun _ => bind getType fun _ => bind (lift _) fun _ => pure _

theorem readNativesStep (i : Nat) (c : Code) : Looking (readNativesStepL i c) (readNativesStep i c) :=
  bind readNative fun _ => bind (lift _) fun _ => pure _

theorem readFunctionsStep (p : Profile) (i : Nat) (c : Code) : Looking (readFunctionsStepL p i c) (readFunctionsStep p i c) :=
  bind (lift _) fun _ => bind readFunction fun _ => bind (lift _) fun _ => bind (lift _) fun _ => bind (lift _) fun _ => lift _

theorem readTypes (c : Code) : Looking (readTypesL c) (readTypes c) := forRange readTypesStep _ _ _
theorem readGlobals (c : Code) : Looking (readGlobalsL c) (readGlobals c) := checked (forRange readGlobalsStep _ _ _)
theorem readNatives (c : Code) : Looking (readNativesL c) (readNatives c) := checked (forRange readNativesStep _ _ _)
theorem readFunctions (p : Profile) (c : Code) : Looking (readFunctionsL p c) (readFunctions p c) := checked (forRange (readFunctionsStep p) _ _ _)

theorem readM (p : Profile) : Looking (readML p) (readM p) :=
  bind (lift _) fun _ => bind (lift _) fun _ => bind (lift _) fun _ => bind (lift _) fun _ => bind (lift _) fun _ => bind (lift _) fun _ =>
    bind (readTypes _) fun _ => bind (readGlobals _) fun _ => bind (readNatives _) fun _ => bind (readFunctions p _) fun _ =>
      bind (lift _) fun _ => lift _

end Looking

end Verif.Brass
