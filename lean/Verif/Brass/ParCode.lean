import Verif.Brass.Par
import Verif.Brass.Code

/-!
# Model of `brass/src/decoder.rs` and `brass/src/code.rs` with interleaving points

The same functions as in `Verif/Brass/Decoder.lean` and `Verif/Brass/Code.lean` (see there for the conventions), written
with the operations of `Verif/Brass/Par.lean`, so that each access to `ERRORS` is a separate step.
-/

namespace Verif.Brass.Par

open Verif

/-- `&s[i..]`: panics unless `i` is a char boundary. -/
def sliceFrom (s : Str) (i : Nat) : P Str :=
  if isCharBoundary s i then P.pure (s.drop i) else P.panic

/-- `&s[0..n]` -/
def sliceTo (s : Str) (n : Nat) : P Str :=
  if isCharBoundary s n then P.pure (s.take n) else P.panic

/-- decoder.rs:30-41 `advance` -/
def advance (count : Nat) : P Unit := fun d =>
  if count > d.buf.length then .done (.err { kind := .noMoreData, position := d.pos } d)
  else .done (.ok () { d with buf := d.buf.drop count, pos := d.pos + count })

/-- decoder.rs:44-56 `read_bytes` into a buffer of length `n`; returns its new contents. -/
def readBytes (n : Nat) : P (List UInt8) := fun d =>
  if n > d.buf.length then .done (.err { kind := .noMoreData, position := d.pos } d)
  else .done (.ok (d.buf.take n) { d with buf := d.buf.drop n, pos := d.pos + n })

/-- decoder.rs:89-112 `impl_decode!` for the unsigned type of `n` bytes (u8, u16, u32, u64) -/
def decodeUnsigned (n : Nat) : P Nat := do
  let bytes ← readBytes n
  pure (leNat bytes)

/-- decoder.rs:89-112 `impl_decode!` for the signed type of `n` bytes (i8, i16, i32, i64) -/
def decodeSigned (n : Nat) : P Int := do
  let bytes ← readBytes n
  pure (toSigned (8 * n) (leNat bytes))

/-- `u8::decode` -/
def decodeU8 : P Nat := decodeUnsigned 1

/-- `i32::decode` -/
def decodeI32 : P Int := decodeSigned 4

/-- decoder.rs:114-119 `f64::decode`; the result is the bits (`f64::from_bits` keeps them). -/
def decodeF64 : P Nat := decodeUnsigned 8

/-- decoder.rs:58-78 `read_index` -/
def readIndex : P Int := do
  let b ← decodeU8
  if b &&& 0x80 = 0 then pure ((b &&& 0x7F : Nat) : Int)
  else if b &&& 0x40 = 0 then do
    -- line 65: `.unwrap()`
    let x ← P.unwrap decodeU8
    let v : Nat := x ||| ((b &&& 31) <<< 8)
    pure (if b &&& 0x20 = 0 then (v : Int) else -(v : Int))
  else do
    let c ← decodeU8
    let d ← decodeU8
    let e ← decodeU8
    -- line 75: `i32::from_le_bytes([b, c, d, e])`
    pure (toSigned 32 (b + 256 * (c + 256 * (d + 256 * e))))

/-- code.rs:46-49 `INDEX` -/
def index : P Int := P.unwrap readIndex

/-- code.rs:31-44 `UINDEX` -/
def uindex : P Nat := do
  let i ← index
  if i < 0 then do
    P.setError .negativeIndex
    pure 0
  else pure i.toNat

/-- `n.try_into().unwrap()` from `usize` to `i32` -/
def toI32 (n : Nat) : P Int := if n < 2 ^ 31 then P.pure (n : Int) else P.panic

/-- `index < 0 || index >= n.try_into().unwrap()` -/
def badIndex (i : Int) (n : Nat) : P Bool :=
  if i < 0 then P.pure true
  else do
    let m ← toI32 n
    pure (decide (i ≥ m))

/-- code.rs:115-129 `read_string` -/
def readString : P Str := do
  let i ← index
  let d ← P.getCode
  let bad ← badIndex i d.nstrings
  if bad then do
    P.setError .invalidStringIndex
    pure []
  else P.unwrapOpt d.strings[i.toNat]?

/-- code.rs:153-167 `read_ustring` -/
def readUstring : P Str := do
  let i ← index
  let d ← P.getCode
  let bad ← badIndex i d.nstrings
  if bad then do
    P.setError .invalidStringIndex
    pure []
  else
    match getUstring d i.toNat with
    | .panic => P.panic
    | .ret (r, c) => do
      P.setCode c
      pure r

/-- code.rs:169-188 `get_type` -/
def getType : P ValueType := do
  let i ← index
  let d ← P.getCode
  let bad ← badIndex i d.ntypes
  if bad then do
    P.setError .invalidTypeIndex
    P.unwrapOpt d.types[0]?
  else P.unwrapOpt d.types[i.toNat]?

/-- code.rs:223-225, 363-365, 434-436: `for i in 0..n { v.insert(i, get_type()) }` -/
def readTypeRefs (n : Nat) : P (List ValueType) :=
  P.forRange (fun i v => do
    let t ← getType
    P.insertAt v i t) 0 n []

/-- code.rs:274-280, 320-326: one field of an object or virtual type -/
def readField : P ObjField := do
  let name ← readUstring
  let t ← getType
  pure { name := name, hashedName := crcHash name, t := t }

/-- code.rs:273-283, 319-329 -/
def readFields (n : Nat) : P (List ObjField) :=
  P.forRange (fun i v => do
    let f ← readField
    P.insertAt v i f) 0 n []

/-- code.rs:285-292: one method of an object type -/
def readProto : P ObjProto := do
  let name ← readUstring
  let findex ← uindex
  let pindex ← index
  pure { name := name, hashedName := crcHash name, findex := findex, pindex := pindex }

/-- code.rs:284-295 -/
def readProtos (n : Nat) : P (List ObjProto) :=
  P.forRange (fun i v => do
    let f ← readProto
    P.insertAt v i f) 0 n []

/-- code.rs:296-299 -/
def readBindings (n : Nat) : P (List Nat) :=
  P.forRange (fun i v => do
    let a ← uindex
    let v ← P.insertAt v (i <<< 1) a
    let b ← uindex
    P.insertAt v ((i <<< 1) ||| 1) b) 0 n []

/-- code.rs:353-365: one construct of an enum type -/
def readConstruct : P EnumConstruct := do
  let name ← readUstring
  let nparams ← uindex
  let params ← readTypeRefs nparams
  pure { name := name, nparams := nparams, params := params, size := 0, hasptr := false, offsets := [] }

/-- code.rs:352-368 -/
def readConstructs (n : Nat) : P (List EnumConstruct) :=
  P.forRange (fun i v => do
    let k ← readConstruct
    P.insertAt v i k) 0 n []

/-- code.rs:209-231 -/
def readFuncType : P ValueTypeU := do
  let nargs ← P.unwrap decodeU8
  let args ← readTypeRefs nargs
  let ret ← getType
  pure (.func args nargs ret)

/-- code.rs:234, 237-249: the super type of an object -/
def readSuper : P ValueType := do
  let i ← index
  if i < 0 then pure ValueType.default
  else do
    let d ← P.getCode
    P.unwrapOpt d.types[i.toNat]?

/-- code.rs:232-303 -/
def readObjType : P ValueTypeU := do
  let name ← readUstring
  let sup ← readSuper
  let global ← uindex
  let nfields ← uindex
  let nproto ← uindex
  let nbindings ← uindex
  let fields ← readFields nfields
  let proto ← readProtos nproto
  let bindings ← readBindings nbindings
  pure (.obj name sup fields nfields nproto nbindings proto bindings [(global : Int)] none)

/-- code.rs:307-333 -/
def readVirtualType : P ValueTypeU := do
  let nfields ← uindex
  let fields ← readFields nfields
  pure (.virt nfields fields)

/-- code.rs:337-372 -/
def readEnumType : P ValueTypeU := do
  let name ← readUstring
  let global ← uindex
  let nconstructs ← uindex
  let constructs ← readConstructs nconstructs
  pure (.enum name nconstructs constructs [(global : Int)])

/-- code.rs:208-385: the rest of a type, after its kind.  The test of the last arm (378) never holds here, because
the kind is below `HLAST`. -/
def readTypeBody (t : ValueType) : P ValueType :=
  match t.kind with
  | .HFUN | .HMETHOD => do
    let u ← readFuncType
    pure { t with union := u }
  | .HOBJ | .HSTRUCT => do
    let u ← readObjType
    pure { t with union := u }
  | .HREF => do
    let p ← getType
    pure { t with tparam := some p }
  | .HVIRTUAL => do
    let u ← readVirtualType
    pure { t with union := u }
  | .HABSTRACT => do
    let n ← readUstring
    pure { t with absName := some n }
  | .HENUM => do
    let u ← readEnumType
    pure { t with union := u }
  | .HNULL | .HPACKED => do
    let p ← getType
    pure { t with tparam := some p }
  | _ => pure t

/-- code.rs:190-388 `read_type`; `t` is the type to fill in, the result is its new value. -/
def readType (t : ValueType) : P ValueType := do
  let v ← P.unwrap decodeU8
  if v ≥ TypeKind.HLAST.toNat then do
    P.mapErrAt .invalidType
    pure t
  else do
    let k ← P.unwrapOpt (TypeKind.ofNat? v)
    readTypeBody { t with kind := k }

/-- code.rs:403-415: the loop of `read_strings`; `acc` are the strings and lengths so far. -/
def readStringsLoop (st : Str) : Nat → Nat → List Str → List Nat → P (List Str × List Nat)
  | 0, _, strs, lens => P.pure (strs, lens)
  | n + 1, cursor, strs, lens => do
    let sz ← uindex
    let tail ← sliceFrom st cursor
    let s ← sliceTo tail sz
    if cursor + sz ≥ st.length then pure (strs ++ [s], lens ++ [s.length])
    else readStringsLoop st n (cursor + sz + 1) (strs ++ [s]) (lens ++ [s.length])

/-- code.rs:397-399: `&decoder.buf[..n]` and then `decoder.advance(n)?` -/
def peekAdvance (n : Nat) : P (List UInt8) := do
  let bytes ← P.peek n
  advance n
  pure bytes

/-- code.rs:390-418 `read_strings`: the strings and what is pushed on `out_lens`.  A negative `size` becomes a huge
`usize`, so that the slice of line 397 panics. -/
def readStrings (nstrings : Nat) : P (List Str × List Nat) := do
  let size ← P.unwrap decodeI32
  if size < 0 then P.panic
  else do
    let bytes ← peekAdvance size.toNat
    readStringsLoop (fromUtf8Lossy bytes) nstrings 0 [] []

/-- code.rs:491-497, 504-509, 525-530: `extra = vec![0; n]` and then `n` insertions at increasing positions -/
def readExtra (rd : P Int) (n : Nat) : P (List Int) :=
  P.forRange (fun i v => do
    let x ← rd
    P.insertAt v i x) 0 n (List.replicate n 0)

/-- `UINDEX(decoder).unwrap().try_into().unwrap()` from `usize` to `i32` (no loss: the value came from an `i32`) -/
def uindexI : P Int := do
  let n ← uindex
  pure (n : Int)

/-- code.rs:486-498 -/
def readCallLike (res : Opcode) : P Opcode := do
  let p1 ← index
  let p2 ← index
  let p3 ← P.unwrap decodeU8
  let extra ← readExtra index p3
  pure { res with p1 := some p1, p2 := some p2, p3 := some (p3 : Int), extra := extra }

/-- code.rs:499-511 -/
def readSwitch (res : Opcode) : P Opcode := do
  let p1 ← uindexI
  let p2 ← uindex
  let extra ← readExtra uindexI p2
  let p3 ← uindexI
  pure { res with p1 := some p1, p2 := some (p2 : Int), p3 := some p3, extra := extra }

/-- code.rs:464-532: the operands, `i` being the entry of `OP_NARGS`. -/
def readOperands (res : Opcode) (i : Int) : P Opcode :=
  if i = 0 then P.pure res
  else if i = 1 then do
    let p1 ← index
    pure { res with p1 := some p1 }
  else if i = 2 then do
    let p1 ← index
    let p2 ← index
    pure { res with p1 := some p1, p2 := some p2 }
  else if i = 3 then do
    let p1 ← index
    let p2 ← index
    let p3 ← index
    pure { res with p1 := some p1, p2 := some p2, p3 := some p3 }
  else if i = 4 then do
    let p1 ← index
    let p2 ← index
    let p3 ← index
    let x ← index
    pure { res with p1 := some p1, p2 := some p2, p3 := some p3, extra := x :: res.extra }
  else if i = -1 then
    match res.op with
    | .OCallN | .OCallClosure | .OCallMethod | .OCallThis | .OMakeEnum => readCallLike res
    | .OSwitch => readSwitch res
    | _ => P.failAt .couldNotProcessOpcode
  else do
    let p1 ← index
    let p2 ← index
    let p3 ← index
    -- line 525: `size.try_into().unwrap()` panics if negative
    if i - 3 < 0 then P.panic
    else do
      let extra ← readExtra index (i - 3).toNat
      pure { res with p1 := some p1, p2 := some p2, p3 := some p3, extra := extra }

/-- code.rs:448-535 `read_opcode` -/
def readOpcode : P Opcode := do
  let n ← P.unwrap decodeU8
  if n ≥ 99 then do
    P.setError .invalidOpcode
    pure Opcode.default
  else do
    let op ← P.unwrapOpt (Op.ofNat? n)
    let i ← P.unwrapOpt OP_NARGS[n]?
    readOperands { Opcode.default with op := op } i

/-- code.rs:440-443 -/
def readOpcodes (n : Nat) : P (List Opcode) :=
  P.forRange (fun i v => do
    let o ← P.unwrap readOpcode
    P.insertAt v i o) 0 n []

/-- code.rs:420-446 `read_function` -/
def readFunction : P HLFunction := do
  let t ← getType
  let findex ← uindex
  let nregs ← uindex
  let nops ← uindex
  let regs ← readTypeRefs nregs
  let errors ← P.getErrors
  let f : HLFunction := { t := t, findex := findex, nregs := nregs, nops := nops, rf := 0, regs := regs, ops := [],
                          debug := [], obj := none, field := none }
  if errors.isSome then pure f
  else do
    let ops ← readOpcodes nops
    pure { f with ops := ops }

/-- `a + b` on `i32` (both operands non-negative here) -/
def i32Add (p : Profile) (a b : Int) : P Int :=
  if a + b < 2 ^ 31 then P.pure (a + b)
  else match p with
    | .dev => P.panic
    | .release => P.pure (a + b - 2 ^ 32)

/-- `if b { ERRORS = Some(DecodeError::with_info(k, decoder.file_position)) }` (code.rs:550-554, 558-562) -/
def setErrorIf (b : Bool) (k : DecodeErrorKind) : P Unit := if b then P.setError k else P.pure ()

/-- `debug[i << 1] = curfile; debug[(i << 1) | 1] = curline; i += 1;` (code.rs:565-567, 572-574, 582-584); the
assignments panic out of range. -/
def debugStore (d : DebugState) : P DebugState :=
  if (d.i <<< 1) < d.debug.length ∧ ((d.i <<< 1) ||| 1) < d.debug.length then
    P.pure { d with debug := (d.debug.set (d.i <<< 1) d.curfile).set ((d.i <<< 1) ||| 1) d.curline, i := d.i + 1 }
  else P.panic

/-- code.rs:545-586: one round of the loop of `debug_infos`.  The loop `for _j in count..0` of line 564 runs over an
empty range since `count ≥ 0`. -/
def debugBody (p : Profile) (nops : Nat) (d : DebugState) : P DebugState := do
  let c ← P.unwrap decodeU8
  if c &&& 1 ≠ 0 then do
    let c := c >>> 1
    let b ← P.unwrap decodeU8
    let curfile : Int := ((c <<< 8) ||| b : Nat)
    let k ← P.getCode
    let n ← toI32 k.ndebugfiles
    setErrorIf (decide (curfile ≥ n)) .invalidDebugFile
    pure { d with curfile := curfile }
  else if c &&& 2 ≠ 0 then do
    let delta := c >>> 6
    let count := (c >>> 2) &&& 15
    setErrorIf (decide (d.i + count > nops)) .outsideRange
    let l ← i32Add p d.curline delta
    pure { d with curline := l }
  else if c &&& 4 ≠ 0 then do
    let l ← i32Add p d.curline (c >>> 3 : Nat)
    debugStore { d with curline := l }
  else do
    let b2 ← P.unwrap decodeU8
    let b3 ← P.unwrap decodeU8
    let a := c >>> 3
    -- line 579: `b2 << 5` is computed on `u8`
    let b := (b2 <<< 5) % 256
    debugStore { d with curline := ((a ||| b ||| b3 : Nat) : Int) }

/-- code.rs:537-588 `debug_infos` -/
def debugInfos (p : Profile) (nops : Nat) : P (List Int) := do
  let d ← P.whileReading (fun d => decide (d.i < nops)) (debugBody p nops)
    { curfile := -1, curline := 0, debug := List.replicate (nops * 2) 0, i := 0 }
  pure d.debug

/-- code.rs:612-620 -/
def readMagic : P Unit := do
  let h ← P.unwrap decodeU8
  if h ≠ 0x48 then P.failAt .invalidBytecodeHeader
  else do
    let l ← P.unwrap decodeU8
    if l ≠ 0x4C then P.failAt .invalidBytecodeHeader
    else do
      let b ← P.unwrap decodeU8
      if b ≠ 0x42 then P.failAt .invalidBytecodeHeader else pure ()

/-- code.rs:621-634.  Line 621: the error is recorded before `unwrap` panics. -/
def readVersion : P Nat := do
  let v ← P.unwrapRecord decodeU8
  if v ≤ 1 ∨ v > 5 then P.failAt .unsupportedBytecodeVersion else pure v

/-- `if b { x = UINDEX() }` for `x` initially 0 (code.rs:650-654, 669-673) -/
def uindexIf (b : Bool) : P Nat := if b then uindex else P.pure 0

/-- code.rs:636-679: the counts of the header (line 679: the flag bit) -/
def readCounts (version : Nat) : P Code := do
  let flags ← uindex
  let nints ← uindex
  let nfloats ← uindex
  let nstrings ← uindex
  let nbytes ← uindexIf (decide (version ≥ 5))
  let ntypes ← uindex
  let nglobals ← uindex
  let nnatives ← uindex
  let nfunctions ← uindex
  let nconstants ← uindexIf (decide (version ≥ 4))
  let entrypoint ← uindex
  pure { Code.new with
    version := version, nints := nints, nfloats := nfloats, nstrings := nstrings, nbytes := nbytes, ntypes := ntypes,
    nglobals := nglobals, nnatives := nnatives, nfunctions := nfunctions, nconstants := nconstants,
    entrypoint := entrypoint, hasdebug := flags &&& 1 }

/-- code.rs:684-686: `if let Ok(x) = … { v.insert(i, x) }` -/
def insertIfSome {α : Type} (v : List α) (i : Nat) : Option α → P (List α)
  | some x => P.insertAt v i x
  | none => P.pure v

/-- code.rs:683-687, 690-694: `for i in 0..n { if let Ok(x) = decode().map_err(map_err) { v.insert(i, x) } }` -/
def readPool {α : Type} (rd : P α) (n : Nat) : P (List α) :=
  P.forRange (fun i v => do
    let x ← P.okOrRecord rd
    insertIfSome v i x) 0 n []

/-- `x; Code::check_error()?` -/
def checked {α : Type} (x : P α) : P α := do
  let a ← x
  P.checkError
  pure a

/-- code.rs:683-702: ints, floats and strings.  (`read_strings` pushes on `c.strings_lens` even when it fails, but then
the read ends there.) -/
def readPools (c : Code) : P Code := do
  let ints ← checked (readPool decodeI32 c.nints)
  let floats ← checked (readPool decodeF64 c.nfloats)
  let r ← checked (P.okOrRecord (readStrings c.nstrings))
  pure { c with ints := ints, floats := floats, strings := (r.getD ([], [])).1, stringsLens := (r.getD ([], [])).2 }

/-- code.rs:709-713 -/
def readBytesPos (n : Nat) : P (List Nat) :=
  P.forRange (fun i v => do
    let x ← uindex
    P.insertAt v i x) 0 n []

/-- code.rs:704-715.  Line 707: `vec![0; size as usize]` panics (capacity overflow) if `size` is negative.
Line 708: the error is recorded before `unwrap` panics. -/
def readBytesSection (c : Code) : P Code :=
  let c := { c with ustrings := List.replicate c.nstrings none }
  if c.version ≥ 5 then do
    let size ← decodeI32
    if size < 0 then P.panic
    else do
      let bytes ← P.unwrapRecord (readBytes size.toNat)
      let bytesPos ← checked (readBytesPos c.nbytes)
      pure { c with bytes := bytes, bytesPos := bytesPos }
  else pure c

/-- code.rs:717-728.  The lengths go to the old `c`, which line 726 overwrites. -/
def readDebugFiles (c : Code) : P Code :=
  if c.hasdebug ≠ 0 then do
    let n ← uindex
    let c := { c with ndebugfiles := n }
    P.setCode c
    let r ← P.okOrRecord (readStrings c.ndebugfiles)
    let d ← P.getCode
    let c := setDebugFiles d r
    P.setCode c
    P.checkError
    pure c
  else pure c

/-- code.rs:733-737: one round of the loop over the types -/
def readTypesStep (i : Nat) (c : Code) : P Code := do
  P.setCode c
  let t ← readType ValueType.default
  let d ← P.getCode
  let types ← P.insertAt d.types i t
  let c := { d with types := types }
  P.setCode c
  pure c

/-- code.rs:730-738 -/
def readTypes (c : Code) : P Code :=
  let c := { c with types := List.replicate c.ntypes ValueType.default }
  P.forRange readTypesStep 0 c.ntypes c

/-- code.rs:742-746: one round of the loop over the globals -/
def readGlobalsStep (i : Nat) (c : Code) : P Code := do
  P.setCode c
  let t ← getType
  let d ← P.getCode
  let globals ← P.insertAt d.globals i t
  let c := { d with globals := globals }
  P.setCode c
  pure c

/-- code.rs:740-749 -/
def readGlobals (c : Code) : P Code :=
  let c := { c with globals := List.replicate c.nglobals ValueType.default }
  checked (P.forRange readGlobalsStep 0 c.nglobals c)

/-- code.rs:753-758 -/
def readNative : P Native := do
  let lib ← readString
  let name ← readString
  let t ← getType
  let findex ← uindex
  pure { lib := lib, name := name, t := t, findex := findex }

/-- code.rs:753-759: one round of the loop over the natives -/
def readNativesStep (_i : Nat) (c : Code) : P Code := do
  let n ← readNative
  let c := { c with natives := c.natives ++ [n] }
  P.setCode c
  pure c

/-- code.rs:751-761 -/
def readNatives (c : Code) : P Code :=
  let c := { c with natives := [] }
  checked (P.forRange readNativesStep 0 c.nnatives c)

/-- code.rs:777-781 -/
def skipAssigns : P Unit := do
  let n ← uindex
  P.forRange (fun _ _ => do
    let _ ← uindex
    let _ ← index
    pure ()) 0 n ()

/-- code.rs:772-774: store the debug words, if any -/
def storeDebug (i : Nat) : Option (List Int) → P Unit
  | none => P.pure ()
  | some debug => do
    let d ← P.getCode
    let f ← P.unwrapOpt d.functions[i]?
    P.setCode { d with functions := d.functions.set i { f with debug := debug } }

/-- code.rs:775-782 -/
def skipAssignsIf (b : Bool) : P Unit := if b then skipAssigns else P.pure ()

/-- code.rs:770-783: debug information of function `i` -/
def readFunctionDebug (p : Profile) (i : Nat) : P Unit := do
  let d ← P.getCode
  if d.hasdebug ≠ 0 then do
    let f ← P.unwrapOpt d.functions[i]?
    let r ← P.okOrRecord (debugInfos p f.nops)
    storeDebug i r
    let d ← P.getCode
    skipAssignsIf (decide (d.version ≥ 3))
  else pure ()

/-- code.rs:766-784: one round of the loop over the functions -/
def readFunctionsStep (p : Profile) (i : Nat) (c : Code) : P Code := do
  P.setCode c
  let f ← readFunction
  let d ← P.getCode
  P.setCode { d with functions := d.functions ++ [f] }
  readFunctionDebug p i
  P.getCode

/-- code.rs:765-787 -/
def readFunctions (p : Profile) (c : Code) : P Code :=
  checked (P.forRange (readFunctionsStep p) 0 c.nfunctions c)

/-- code.rs:790-799 -/
def readConstant : P Constant := do
  let global ← uindex
  let nfields ← uindex
  let fields ← P.forRange (fun j v => do
    let x ← uindex
    P.insertAt v j x) 0 nfields []
  pure { global := global, nfields := nfields, fields := fields }

/-- code.rs:790-802: one round of the loop over the constants -/
def readConstantsStep (i : Nat) (c : Code) : P Code := do
  let k ← checked readConstant
  let constants ← P.insertAt c.constants i k
  let c := { c with constants := constants }
  P.setCode c
  pure c

/-- code.rs:789-803 -/
def readConstants (c : Code) : P Code :=
  P.forRange readConstantsStep 0 c.nconstants c

/-- code.rs:607-806 `Code::read` on a fresh decoder -/
def readM (p : Profile) : P Code := do
  readMagic
  let v ← readVersion
  let c ← checked (readCounts v)
  let c ← readPools c
  let c ← readBytesSection c
  let c ← readDebugFiles c
  let c ← readTypes c
  let c ← readGlobals c
  let c ← readNatives c
  let c ← readFunctions p c
  let _ ← readConstants c
  P.getCode

/-- code.rs:607-806 `Code::read(buf)`, decoder.rs:16-22 `Decoder::new` -/
def read (p : Profile) (buf : List UInt8) : Tree Code := readM p { buf := buf, pos := 0, code := Code.new }

end Verif.Brass.Par
