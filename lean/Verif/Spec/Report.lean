import Verif.Spec.Fault

/-!
# Which files are rejected, and with which error (C87)

The decoder goes on after most faults: it notes the fault, puts a substitute in its place (0, the empty string, the first
type, a default instruction) and reports an error only at the end of the section.  This file describes that as an attribute
grammar of *marked* texts.  A marked text is a text in which every fault is marked at the place where it is noticed, that is,
right after the offending bytes.  There is no state of the decoder, no order of events and no panic in here: a marked text
either belongs to the grammar or it does not.
-/

namespace Verif.Brass.Spec

open Verif Verif.Brass
open G hiding some

/-- A byte of the text, or the mark of a fault. -/
inductive Mark where
  | byte (b : UInt8)
  | fault (kind : DecodeErrorKind)

/-- A text with marks. -/
abbrev Marked := List Mark

/-- A text without marks. -/
def plain (k : List UInt8) : Marked := k.map .byte

/-- The text, without the marks. -/
def text : Marked → List UInt8
  | [] => []
  | .byte b :: w => b :: text w
  | .fault _ :: w => text w

/-- The faults of a marked text that begins at `pos`, with their positions. -/
def faults : Nat → Marked → List DecodeError
  | _, [] => []
  | pos, .byte _ :: w => faults (pos + 1) w
  | pos, .fault kind :: w => { kind := kind, position := pos } :: faults pos w

/-- Is some fault marked? -/
def faulty : Marked → Bool
  | [] => false
  | .byte _ :: w => faulty w
  | .fault _ :: _ => true

/-- The error reported for a list of faults: the last one that is not an unknown kind of type; if there are only unknown
kinds, the first one. -/
def reported (es : List DecodeError) : Option DecodeError :=
  match (es.filter (fun e => e.kind ≠ .invalidType)).getLast? with
  | some e => some e
  | none => es.head?

/-- A kind of phrase.  `g c b w a c'` (that is, `g.parse c b w a c'`) says that the marked text `w`, when the module decoded so
far is `c` and (`b`) there has been a fault in the section already, has the value `a` and leaves the module `c'`.
`g.stop c b w rest` says that a text that begins with `w` and goes on with `rest` can be read as far as `w`, but not further. -/
@[ext] structure F (α : Type) where
  parse : Code → Bool → Marked → α → Code → Prop
  stop : Code → Bool → Marked → List UInt8 → Prop

instance {α : Type} : CoeFun (F α) (fun _ => Code → Bool → Marked → α → Code → Prop) := ⟨F.parse⟩

namespace F

/-- The empty text. -/
protected def pure {α : Type} (a : α) : F α where
  parse c _ w b c' := w = [] ∧ b = a ∧ c' = c
  stop _ _ _ _ := False

/-- A phrase of `x` followed by a phrase of `f`. -/
protected def bind {α β : Type} (x : F α) (f : α → F β) : F β where
  parse c b w r c'' := ∃ w1 w2 a c', w = w1 ++ w2 ∧ x.parse c b w1 a c' ∧ (f a).parse c' (b || faulty w1) w2 r c''
  stop c b w rest := x.stop c b w rest ∨
    ∃ w1 w2 a c', w = w1 ++ w2 ∧ x.parse c b w1 a c' ∧ (f a).stop c' (b || faulty w1) w2 rest

/-- `do` notation for the grammar. -/
instance : Monad F where
  pure := F.pure
  bind := F.bind

/-- A phrase of `g`, which has no fault; without one at this place, the text cannot be read any further. -/
def ok {α : Type} (g : G α) : F α where
  parse c _ w a c' := ∃ k, w = plain k ∧ g c k a c'
  stop c _ w rest := w = [] ∧ ¬ ∃ k r a c', rest = k ++ r ∧ g c k a c'

/-- A mark. -/
def mark (kind : DecodeErrorKind) : F Unit where
  parse c _ w _ c' := w = [.fault kind] ∧ c' = c
  stop _ _ _ _ := False

/-- A mark, if `P`. -/
def markIf (P : Prop) [Decidable P] (kind : DecodeErrorKind) : F Unit := if P then mark kind else pure ()

/-- Has there been a fault? -/
def before : F Bool where
  parse c b w a c' := w = [] ∧ a = b ∧ c' = c
  stop _ _ _ _ := False

/-- `n` phrases of `g`. -/
def many {α : Type} (g : F α) : Nat → F (List α)
  | 0 => pure []
  | n + 1 => do
    let a ← g
    let l ← many g n
    pure (a :: l)

/-- `for i in a..a+n { b = g(i, b) }` -/
def loop {β : Type} (g : Nat → β → F β) : (a n : Nat) → β → F β
  | _, 0, b => pure b
  | a, n + 1, b => do
    let b ← g a b
    loop g (a + 1) n b

end F

open F

/-- A number that should not be negative; a negative one counts as 0. -/
def natF : F Nat := do
  let i ← ok idxG
  if i < 0 then do
    mark .negativeIndex
    pure 0
  else pure i.toNat

/-- The same, as an `i32`. -/
def natIF : F Int := do
  let n ← natF
  pure (n : Int)

/-- A reference to one of `n c` things, which is `get c i`; an invalid reference stands for `other c`. -/
def refF {α : Type} (n : Code → Nat) (kind : DecodeErrorKind) (get : Code → Nat → F α) (other : Code → F α) : F α := do
  let i ← ok idxG
  let c ← ok code
  if i < 0 then do
    mark kind
    other c
  else do
    ok (guard (n c < 2 ^ 31))
    if n c ≤ i then do
      mark kind
      other c
    else get c i.toNat

/-- A reference to a string; an invalid one stands for the empty string. -/
def stringRefF : F Str := refF Code.nstrings .invalidStringIndex (fun c i => ok (G.some c.strings[i]?)) (fun _ => pure [])

/-- The string `j` of the module `c`, through its cache (see `ustringRefG`). -/
def cachedG (c : Code) (j : Nat) : G Str := fun _ k a c' => k = [] ∧
  ((c.ustrings[j]? = some (some a) ∧ c' = c) ∨
   (c.ustrings[j]? = some none ∧ a = c.strings[j]?.getD [] ∧ c' = { c with ustrings := c.ustrings.insertIdx j c.strings[j]? }))

/-- A reference to a string through the cache; an invalid one stands for the empty string. -/
def ustringRefF : F Str := refF Code.nstrings .invalidStringIndex (fun c i => ok (cachedG c i)) (fun _ => pure [])

/-- A reference to a type; an invalid one stands for the first type. -/
def typeRefF : F ValueType := refF Code.ntypes .invalidTypeIndex (fun c i => ok (G.some c.types[i]?)) (fun c => ok (G.some c.types[0]?))

/-- A field. -/
def fieldF : F ObjField := do
  let name ← ustringRefF
  let t ← typeRefF
  pure { name := name, hashedName := crc name, t := t }

/-- A method. -/
def protoF : F ObjProto := do
  let name ← ustringRefF
  let findex ← natF
  let pindex ← ok idxG
  pure { name := name, hashedName := crc name, findex := findex, pindex := pindex }

/-- A pair of numbers. -/
def bindingF : F (Nat × Nat) := do
  let a ← natF
  let b ← natF
  pure (a, b)

/-- An enum construct. -/
def constructF : F EnumConstruct := do
  let name ← ustringRefF
  let nparams ← natF
  let params ← many typeRefF nparams
  pure { name := name, nparams := nparams, params := params, size := 0, hasptr := false, offsets := [] }

/-- A function type. -/
def funcTypeF : F ValueTypeU := do
  let nargs ← ok byteG
  let args ← many typeRefF nargs
  let ret ← typeRefF
  pure (.func args nargs ret)

/-- An object type.  The super type must be right. -/
def objTypeF : F ValueTypeU := do
  let name ← ustringRefF
  let sup ← ok superG
  let global ← natF
  let nfields ← natF
  let nproto ← natF
  let nbindings ← natF
  let fields ← many fieldF nfields
  let proto ← many protoF nproto
  let bindings ← many bindingF nbindings
  pure (.obj name sup fields nfields nproto nbindings proto (bindings.flatMap fun b => [b.1, b.2]) [(global : Int)] none)

/-- A virtual type. -/
def virtualTypeF : F ValueTypeU := do
  let nfields ← natF
  let fields ← many fieldF nfields
  pure (.virt nfields fields)

/-- An enum type. -/
def enumTypeF : F ValueTypeU := do
  let name ← ustringRefF
  let global ← natF
  let nconstructs ← natF
  let constructs ← many constructF nconstructs
  pure (.enum name nconstructs constructs [(global : Int)])

/-- A type after its kind byte. -/
def typeBodyF (t : ValueType) : F ValueType :=
  match t.kind with
  | .HFUN | .HMETHOD => do
    let u ← funcTypeF
    pure { t with union := u }
  | .HOBJ | .HSTRUCT => do
    let u ← objTypeF
    pure { t with union := u }
  | .HREF => do
    let p ← typeRefF
    pure { t with tparam := some p }
  | .HVIRTUAL => do
    let u ← virtualTypeF
    pure { t with union := u }
  | .HABSTRACT => do
    let n ← ustringRefF
    pure { t with absName := some n }
  | .HENUM => do
    let u ← enumTypeF
    pure { t with union := u }
  | .HNULL | .HPACKED => do
    let p ← typeRefF
    pure { t with tparam := some p }
  | _ => pure t

/-- A type; one of an unknown kind has no body. -/
def typeF : F ValueType := do
  let v ← ok byteG
  if 23 ≤ v then do
    mark .invalidType
    pure noType
  else do
    let k ← ok (G.some hlKinds[v]?)
    typeBodyF { noType with kind := k }

/-- Strings in a blob (see `poolG`). -/
def poolF (st : Str) : Nat → Nat → F (List Str)
  | 0, _ => pure []
  | n + 1, cursor => do
    let sz ← natF
    let s ← ok (sliceG st cursor sz)
    if cursor + sz ≥ st.length then pure [s]
    else do
      let l ← poolF st n (cursor + sz + 1)
      pure (s :: l)

/-- A string table. -/
def stringsF (n : Nat) : F (List Str) := do
  let size ← ok i32G
  ok (guard (0 ≤ size))
  let blob ← ok (bytesG size.toNat)
  let st ← ok (lossyG blob)
  poolF st n 0

/-- Operands of `OSwitch`; the operands of the other instructions cannot be faulty. -/
def switchF (res : Opcode) : F Opcode := do
  let p1 ← natIF
  let p2 ← natF
  let l ← many natIF p2
  let p3 ← natIF
  pure { res with p1 := some p1, p2 := some (p2 : Int), p3 := some p3, extra := l ++ List.replicate p2 0 }

/-- An instruction; an unknown one has no operands. -/
def opcodeF : F Opcode := do
  let n ← ok byteG
  if 99 ≤ n then do
    mark .invalidOpcode
    pure (bare .ONop)
  else do
    let op ← ok (G.some hlOps[n]?)
    if op = .OSwitch then switchF (bare op)
    else ok (operandsG (bare op) (hlShape op).arity)

/-- A function.  If there has been a fault in the section of the functions, up to the registers of this one, then it has no
instructions. -/
def functionF : F HLFunction := do
  let t ← typeRefF
  let findex ← natF
  let nregs ← natF
  let nops ← natF
  let regs ← many typeRefF nregs
  let b ← before
  let ops ← if b then pure [] else many opcodeF nops
  pure { t := t, findex := findex, nregs := nregs, nops := nops, rf := 0, regs := regs, ops := ops,
         debug := [], obj := none, field := none }

/-- One item of the debug stream (see `debugItemG`). -/
def debugItemF (p : Profile) (nops : Nat) (d : Dbg) : F Dbg := do
  let b ← ok byteG
  if b % 2 = 1 then do
    let b2 ← ok byteG
    let c ← ok code
    ok (guard (c.ndebugfiles < 2 ^ 31))
    markIf (c.ndebugfiles ≤ b / 2 * 256 + b2) .invalidDebugFile
    pure { d with file := ((b / 2 * 256 + b2 : Nat) : Int) }
  else if b / 2 % 2 = 1 then do
    markIf (nops < d.words.length / 2 + b / 4 % 16) .outsideRange
    let l ← ok (i32AddG p d.line ((b / 64 : Nat) : Int))
    pure { d with line := l }
  else if b / 4 % 2 = 1 then do
    let l ← ok (i32AddG p d.line ((b / 8 : Nat) : Int))
    pure { d with line := l }.emit
  else do
    let b2 ← ok byteG
    let b3 ← ok byteG
    pure { d with line := ((b / 8 ||| b2 % 8 * 32 ||| b3 : Nat) : Int) }.emit

/-- Debug items until `nops` instructions have their two words. -/
inductive DebugF (p : Profile) (nops : Nat) : Dbg → Code → Bool → Marked → Dbg → Code → Prop where
  | done (d : Dbg) (c : Code) (b : Bool) : nops ≤ d.words.length / 2 → DebugF p nops d c b [] d c
  | item (d d' d'' : Dbg) (c c' c'' : Code) (b : Bool) (w w' : Marked) : d.words.length / 2 < nops →
      (debugItemF p nops d).parse c b w d' c' → DebugF p nops d' c' (b || faulty w) w' d'' c'' → DebugF p nops d c b (w ++ w') d'' c''

/-- Debug items until one cannot be read. -/
inductive DebugStop (p : Profile) (nops : Nat) : Dbg → Code → Bool → Marked → List UInt8 → Prop where
  | here (d : Dbg) (c : Code) (b : Bool) (w : Marked) (rest : List UInt8) : d.words.length / 2 < nops →
      (debugItemF p nops d).stop c b w rest → DebugStop p nops d c b w rest
  | item (d d' : Dbg) (c c' : Code) (b : Bool) (w w' : Marked) (rest : List UInt8) : d.words.length / 2 < nops →
      (debugItemF p nops d).parse c b w d' c' → DebugStop p nops d' c' (b || faulty w) w' rest → DebugStop p nops d c b (w ++ w') rest

/-- The debug words of a function. -/
def debugInfosF (p : Profile) (nops : Nat) : F (List Int) := do
  let d ← ({ parse := DebugF p nops { file := -1, line := 0, words := [] },
             stop := DebugStop p nops { file := -1, line := 0, words := [] } } : F Dbg)
  pure d.words

/-- Assignments, which are skipped. -/
def assignsF : F Unit := do
  let n ← natF
  let _ ← many (do let _ ← natF; let _ ← ok idxG; pure ()) n
  pure ()

/-- A count that is present only if `b`. -/
def natIfF (b : Prop) [Decidable b] : F Nat := if b then natF else pure 0

/-- The counts. -/
def countsF (version : Nat) : F Code := do
  let flags ← natF
  let nints ← natF
  let nfloats ← natF
  let nstrings ← natF
  let nbytes ← natIfF (version ≥ 5)
  let ntypes ← natF
  let nglobals ← natF
  let nnatives ← natF
  let nfunctions ← natF
  let nconstants ← natIfF (version ≥ 4)
  let entrypoint ← natF
  pure { noCode with
    version := version, nints := nints, nfloats := nfloats, nstrings := nstrings, nbytes := nbytes, ntypes := ntypes,
    nglobals := nglobals, nnatives := nnatives, nfunctions := nfunctions, nconstants := nconstants,
    entrypoint := entrypoint, hasdebug := flags % 2 }

/-- The names of the debug files. -/
def debugFilesF : F (List Str) := do
  let n ← natF
  stringsF n

/-- One type. -/
def typesStepF (i : Nat) (c : Code) : F Code := do
  ok (setCode c)
  let t ← typeF
  let d ← ok code
  ok (guard (i ≤ d.types.length))
  let c := { d with types := d.types.insertIdx i t }
  ok (setCode c)
  pure c

/-- The types. -/
def typesF (c : Code) : F Code :=
  loop typesStepF 0 c.ntypes { c with types := List.replicate c.ntypes noType }

/-- One global. -/
def globalsStepF (i : Nat) (c : Code) : F Code := do
  ok (setCode c)
  let t ← typeRefF
  ok (guard (i ≤ c.globals.length))
  let c := { c with globals := c.globals.insertIdx i t }
  ok (setCode c)
  pure c

/-- The globals. -/
def globalsF (c : Code) : F Code :=
  loop globalsStepF 0 c.nglobals { c with globals := List.replicate c.nglobals noType }

/-- One native. -/
def nativesStepF (_i : Nat) (c : Code) : F Code := do
  let lib ← stringRefF
  let name ← stringRefF
  let t ← typeRefF
  let findex ← natF
  let c := { c with natives := c.natives ++ [{ lib := lib, name := name, t := t, findex := findex }] }
  ok (setCode c)
  pure c

/-- The natives. -/
def nativesF (c : Code) : F Code :=
  loop nativesStepF 0 c.nnatives { c with natives := [] }

/-- One function, with its debug information. -/
def functionsStepF (p : Profile) (_i : Nat) (c : Code) : F Code := do
  ok (setCode c)
  let f ← functionF
  if c.hasdebug ≠ 0 then do
    let w ← debugInfosF p f.nops
    if c.version ≥ 3 then assignsF else pure ()
    let c := { c with functions := c.functions ++ [{ f with debug := w }] }
    ok (setCode c)
    pure c
  else do
    let c := { c with functions := c.functions ++ [f] }
    ok (setCode c)
    pure c

/-- The functions. -/
def functionsF (p : Profile) (c : Code) : F Code := loop (functionsStepF p) 0 c.nfunctions c

/-- A constant. -/
def constantF : F Constant := do
  let global ← natF
  let nfields ← natF
  let fields ← many natF nfields
  pure { global := global, nfields := nfields, fields := fields }

/-! ## Files -/

/-- Magic and version. -/
def upToCountsG : G Code := do
  magicG
  let v ← versionG
  pure { noCode with version := v }

/-- A file up to its string table. -/
def upToFloatsG : G Code := do
  let c ← headerG
  let ints ← many i32G c.nints
  let floats ← many f64G c.nfloats
  pure { c with ints := ints, floats := floats }

/-- A file up to the end of the bytes of its byte table. -/
def upToPositionsG : G Code := do
  let c ← upToStringsG
  guard (5 ≤ c.version)
  let size ← i32G
  guard (0 ≤ size)
  let _ ← bytesG size.toNat
  pure c

/-- A file up to the names of the debug files. -/
def upToDebugFilesG : G Code := do
  let c ← upToStringsG
  let c ← bytesSectionG c
  guard (c.hasdebug ≠ 0)
  pure c

/-- A file up to its natives. -/
def upToNativesG : G Code := do
  let c ← upToTypesG
  let c ← typesG c
  globalsG c

/-- A file up to its functions. -/
def upToFunctionsG : G Code := do
  let c ← upToNativesG
  nativesG c

/-- A file up to its constant `i`. -/
def upToConstantG (p : Profile) (i : Nat) : G Code := do
  let c ← upToFunctionsG
  let c ← functionsG p c
  guard (i < c.nconstants)
  G.loop constantsStepG 0 i c

/-- The sections of a file at the end of which faults are reported: what comes before, and the section. -/
inductive Section (p : Profile) : G Code → {α : Type} → (Code → F α) → Prop where
  | counts : Section p upToCountsG (fun c => countsF c.version)
  | strings : Section p upToFloatsG (fun c => stringsF c.nstrings)
  | positions : Section p upToPositionsG (fun c => many natF c.nbytes)
  | debugFiles : Section p upToDebugFilesG (fun _ => debugFilesF)
  | typesAndGlobals : Section p upToTypesG (fun c => do let c ← typesF c; globalsF c)
  | natives : Section p upToNativesG nativesF
  | functions : Section p upToFunctionsG (functionsF p)
  | constant (i : Nat) : Section p (upToConstantG p i) (fun _ => constantF)

/-- `file` is rejected with the error `e`. -/
inductive Rejected (p : Profile) (file : List UInt8) : DecodeError → Prop where
  /-- The byte before the position is the first one that differs from `HLB`. -/
  | header (pre rest : List UInt8) (b b' : UInt8) : file = pre ++ b :: rest → pre ++ [b'] <+: [0x48, 0x4C, 0x42] →
      b ≠ b' → Rejected p file ⟨.invalidBytecodeHeader, pre.length + 1⟩
  /-- The byte before the position is the version, and it is not 2, 3, 4 or 5. -/
  | version (b : UInt8) (rest : List UInt8) : file = [0x48, 0x4C, 0x42, b] ++ rest → b.toNat < 2 ∨ 5 < b.toNat →
      Rejected p file ⟨.unsupportedBytecodeVersion, 4⟩
  /-- The file ends before or in one of its integers. -/
  | noInt (k m r : List UInt8) (c : Code) (i : Nat) : Opens headerG k c → file = k ++ m ++ r → i < c.nints →
      m.length = 4 * i → r.length < 4 → Rejected p file ⟨.noMoreData, (k ++ m).length⟩
  /-- The file ends before or in one of its floats. -/
  | noFloat (k m r : List UInt8) (c : Code) (i : Nat) : Opens headerG k c → file = k ++ m ++ r → i < c.nfloats →
      m.length = 4 * c.nints + 8 * i → r.length < 8 → Rejected p file ⟨.noMoreData, (k ++ m).length⟩
  /-- The file ends before or in the size of its byte table. -/
  | noSize (k r : List UInt8) (c : Code) : Opens upToStringsG k c → file = k ++ r → 5 ≤ c.version → r.length < 4 →
      Rejected p file ⟨.noMoreData, k.length⟩
  /-- There are faults in a section. -/
  | inSection {α : Type} (g : G Code) (f : Code → F α) (k rest : List UInt8) (w : Marked) (c c' c'' : Code) (a : α) (e : DecodeError) :
      Section p g f → g noCode k c c' → f c c' false w a c'' → file = k ++ text w ++ rest →
      reported (faults k.length w) = some e → Rejected p file e

/-- A byte of the magic or the version of `file` is wrong. -/
def BadStart (file : List UInt8) : Prop :=
  (∃ pre rest b b', file = pre ++ b :: rest ∧ pre ++ [b'] <+: [0x48, 0x4C, 0x42] ∧ b ≠ b') ∨
  ∃ b rest, file = [0x48, 0x4C, 0x42, b] ++ rest ∧ (b.toNat < 2 ∨ 5 < b.toNat)

/-- `file` ends before or in the size of its byte table. -/
def NoTableSize (file : List UInt8) : Prop :=
  ∃ k r c, Opens upToStringsG k c ∧ file = k ++ r ∧ 5 ≤ c.version ∧ r.length < 4

/-- `file`, read when the error `x` is recorded already, is rejected with the error `e`.  (The first check is at the end of the
counts.) -/
inductive RejectedAfter (x : DecodeError) (file : List UInt8) : DecodeError → Prop where
  /-- As in `Rejected`. -/
  | header (pre rest : List UInt8) (b b' : UInt8) : file = pre ++ b :: rest → pre ++ [b'] <+: [0x48, 0x4C, 0x42] →
      b ≠ b' → RejectedAfter x file ⟨.invalidBytecodeHeader, pre.length + 1⟩
  /-- As in `Rejected`. -/
  | version (b : UInt8) (rest : List UInt8) : file = [0x48, 0x4C, 0x42, b] ++ rest → b.toNat < 2 ∨ 5 < b.toNat →
      RejectedAfter x file ⟨.unsupportedBytecodeVersion, 4⟩
  /-- `x` counts as the first fault. -/
  | counts (k rest : List UInt8) (w : Marked) (c c' c'' a : Code) (e : DecodeError) :
      upToCountsG noCode k c c' → countsF c.version c' true w a c'' → file = k ++ text w ++ rest →
      reported (x :: faults k.length w) = some e → RejectedAfter x file e

/-- How many counts there are in a file of version `v`. -/
def numCounts (v : Nat) : Nat := 9 + (if 4 ≤ v then 1 else 0) + (if 5 ≤ v then 1 else 0)

end Verif.Brass.Spec
