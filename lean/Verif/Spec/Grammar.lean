import Verif.Brass.Decoder
import Verif.Spec.Base

/-!
# The bytecode format accepted by `Code::read`, as an attribute grammar

`G α` is a set of parses: `g c k a c'` says that the bytes `k`, read when the module decoded so far is `c`, have the
value `a` and leave the module `c'`.  There are no errors, no positions and no panics here: a phrase either belongs to
the grammar or it does not.  Every reference (string, type, debug file) in a phrase is in range *by definition* of the
grammar.  `Props/Decode.lean` (C38) proves that the decoder accepts exactly these phrases, with these values.
-/

namespace Verif.Brass.Spec

open Verif Verif.Brass

/-- A set of parses. -/
def G (α : Type) := Code → List UInt8 → α → Code → Prop

namespace G

/-- The empty phrase. -/
protected def pure {α : Type} (a : α) : G α := fun c k b c' => k = [] ∧ b = a ∧ c' = c

/-- A phrase of `x` followed by a phrase of `f`. -/
protected def bind {α β : Type} (x : G α) (f : α → G β) : G β := fun c k b c'' =>
  ∃ k1 k2 a c', k = k1 ++ k2 ∧ x c k1 a c' ∧ f a c' k2 b c''

/-- `do` notation for the grammar. -/
instance : Monad G where
  pure := G.pure
  bind := G.bind

/-- The condition `P`. -/
def guard (P : Prop) : G Unit := fun c k _ c' => k = [] ∧ P ∧ c' = c

/-- The module decoded so far. -/
def code : G Code := fun c k a c' => k = [] ∧ a = c ∧ c' = c

/-- Replace the module decoded so far. -/
def setCode (d : Code) : G Unit := fun _ k _ c' => k = [] ∧ c' = d

/-- The value of a defined option. -/
def some {α : Type} (o : Option α) : G α := fun c k a c' => k = [] ∧ o = Option.some a ∧ c' = c

/-- `n` phrases of `g`. -/
def many {α : Type} (g : G α) : Nat → G (List α)
  | 0 => pure []
  | n + 1 => do
    let a ← g
    let l ← many g n
    pure (a :: l)

/-- `for i in a..a+n { b = g(i, b) }` -/
def loop {β : Type} (g : Nat → β → G β) : (a n : Nat) → β → G β
  | _, 0, b => pure b
  | a, n + 1, b => do
    let b ← g a b
    loop g (a + 1) n b

end G

open G

/-- One byte. -/
def byteG : G Nat := fun c k a c' => c' = c ∧ ∃ b : UInt8, k = [b] ∧ a = b.toNat

/-- `n` bytes. -/
def bytesG (n : Nat) : G (List UInt8) := fun c k a c' => c' = c ∧ k.length = n ∧ a = k

/-- Little-endian `i32`. -/
def i32G : G Int := fun c k a c' => c' = c ∧ k.length = 4 ∧ a = twos32 (unsignedLE k)

/-- Little-endian bits of an `f64`. -/
def f64G : G Nat := fun c k a c' => c' = c ∧ k.length = 8 ∧ a = unsignedLE k

/-- The bytes of an index: one byte below `0x80`; two bytes, the first one below `0xC0` with the sign in bit 5; or a
little-endian `i32` whose lowest byte is at least `0xC0` (this third form is *not* HashLink's). -/
inductive IdxBytes : List UInt8 → Int → Prop where
  | short (b : UInt8) : b.toNat < 0x80 → IdxBytes [b] b.toNat
  | mediumPos (b x : UInt8) : 0x80 ≤ b.toNat → b.toNat < 0xA0 → IdxBytes [b, x] ((b.toNat - 0x80) * 256 + x.toNat : Nat)
  | mediumNeg (b x : UInt8) : 0xA0 ≤ b.toNat → b.toNat < 0xC0 → IdxBytes [b, x] (-((b.toNat - 0xA0) * 256 + x.toNat : Nat))
  | long (b x y z : UInt8) : 0xC0 ≤ b.toNat →
      IdxBytes [b, x, y, z] (twos32 (unsignedLE [b, x, y, z]))

/-- An index. -/
def idxG : G Int := fun c k a c' => c' = c ∧ IdxBytes k a

/-- A non-negative index. -/
def natG : G Nat := fun c k a c' => c' = c ∧ IdxBytes k (a : Int)

/-- A non-negative index, as an `i32`. -/
def natIG : G Int := do
  let n ← natG
  pure (n : Int)

/-- A reference to a string of the pool. -/
def stringRefG : G Str := fun c k a c' => c' = c ∧ c.nstrings < 2 ^ 31 ∧
  ∃ j : Nat, IdxBytes k j ∧ j < c.nstrings ∧ c.strings[j]? = Option.some a

/-- A reference to a string of the pool through the cache `ustrings`: a filled slot is used; an empty slot is filled by
*inserting* the string, which moves the later slots. -/
def ustringRefG : G Str := fun c k a c' => c.nstrings < 2 ^ 31 ∧
  ∃ j : Nat, IdxBytes k j ∧ j < c.nstrings ∧
    ((c.ustrings[j]? = Option.some (Option.some a) ∧ c' = c) ∨
     (c.ustrings[j]? = Option.some none ∧ a = c.strings[j]?.getD [] ∧
       c' = { c with ustrings := c.ustrings.insertIdx j c.strings[j]? }))

/-- A reference to a type. -/
def typeRefG : G ValueType := fun c k a c' => c' = c ∧ c.ntypes < 2 ^ 31 ∧
  ∃ j : Nat, IdxBytes k j ∧ j < c.ntypes ∧ c.types[j]? = Option.some a

/-- A field. -/
def fieldG : G ObjField := do
  let name ← ustringRefG
  let t ← typeRefG
  pure { name := name, hashedName := crc name, t := t }

/-- A method. -/
def protoG : G ObjProto := do
  let name ← ustringRefG
  let findex ← natG
  let pindex ← idxG
  pure { name := name, hashedName := crc name, findex := findex, pindex := pindex }

/-- A pair of numbers. -/
def bindingG : G (Nat × Nat) := do
  let a ← natG
  let b ← natG
  pure (a, b)

/-- An enum construct. -/
def constructG : G EnumConstruct := do
  let name ← ustringRefG
  let nparams ← natG
  let params ← many typeRefG nparams
  pure { name := name, nparams := nparams, params := params, size := 0, hasptr := false, offsets := [] }

/-- A function type. -/
def funcTypeG : G ValueTypeU := do
  let nargs ← byteG
  let args ← many typeRefG nargs
  let ret ← typeRefG
  pure (.func args nargs ret)

/-- The super type: a negative index stands for none. -/
def superG : G ValueType := fun c k a c' => c' = c ∧
  ∃ i, IdxBytes k i ∧ ((i < 0 ∧ a = noType) ∨ (0 ≤ i ∧ c.types[i.toNat]? = Option.some a))

/-- An object type. -/
def objTypeG : G ValueTypeU := do
  let name ← ustringRefG
  let sup ← superG
  let global ← natG
  let nfields ← natG
  let nproto ← natG
  let nbindings ← natG
  let fields ← many fieldG nfields
  let proto ← many protoG nproto
  let bindings ← many bindingG nbindings
  pure (.obj name sup fields nfields nproto nbindings proto (bindings.flatMap fun b => [b.1, b.2]) [(global : Int)] none)

/-- A virtual type. -/
def virtualTypeG : G ValueTypeU := do
  let nfields ← natG
  let fields ← many fieldG nfields
  pure (.virt nfields fields)

/-- An enum type. -/
def enumTypeG : G ValueTypeU := do
  let name ← ustringRefG
  let global ← natG
  let nconstructs ← natG
  let constructs ← many constructG nconstructs
  pure (.enum name nconstructs constructs [(global : Int)])

/-- A type after its kind byte. -/
def typeBodyG (t : ValueType) : G ValueType :=
  match t.kind with
  | .HFUN | .HMETHOD => do
    let u ← funcTypeG
    pure { t with union := u }
  | .HOBJ | .HSTRUCT => do
    let u ← objTypeG
    pure { t with union := u }
  | .HREF => do
    let p ← typeRefG
    pure { t with tparam := Option.some p }
  | .HVIRTUAL => do
    let u ← virtualTypeG
    pure { t with union := u }
  | .HABSTRACT => do
    let n ← ustringRefG
    pure { t with absName := Option.some n }
  | .HENUM => do
    let u ← enumTypeG
    pure { t with union := u }
  | .HNULL | .HPACKED => do
    let p ← typeRefG
    pure { t with tparam := Option.some p }
  | _ => pure t

/-- A type. -/
def typeG : G ValueType := do
  let v ← byteG
  guard (v < 23)
  let k ← G.some hlKinds[v]?
  typeBodyG { noType with kind := k }

/-- The substring of `st` of `n` bytes at `cursor`; both ends are character boundaries. -/
def sliceG (st : Str) (cursor n : Nat) : G Str := do
  guard (Boundary st cursor ∧ Boundary (st.drop cursor) n)
  pure ((st.drop cursor).take n)

/-- The sizes of up to `n` strings that lie one after the other in `st`, separated by one byte; the list stops early
when `st` is used up. -/
def poolG (st : Str) : Nat → Nat → G (List Str)
  | 0, _ => pure []
  | n + 1, cursor => do
    let sz ← natG
    let s ← sliceG st cursor sz
    if cursor + sz ≥ st.length then pure [s]
    else do
      let l ← poolG st n (cursor + sz + 1)
      pure (s :: l)

/-- The text read from a blob, in UTF-8. -/
def lossyG (blob : List UInt8) : G Str := fun c k a c' => k = [] ∧ c' = c ∧ ∃ s, Lossy blob s ∧ a = utf8 s

/-- A string table: the size of the blob, the blob, the sizes of the strings. -/
def stringsG (n : Nat) : G (List Str) := do
  let size ← i32G
  guard (0 ≤ size)
  let blob ← bytesG size.toNat
  let st ← lossyG blob
  poolG st n 0

/-- `n` operands, followed in the result by `n` zeros. -/
def extraG (g : G Int) (n : Nat) : G (List Int) := do
  let l ← many g n
  pure (l ++ List.replicate n 0)

/-- Operands of the call-like instructions. -/
def callLikeG (res : Opcode) : G Opcode := do
  let p1 ← idxG
  let p2 ← idxG
  let p3 ← byteG
  let extra ← extraG idxG p3
  pure { res with p1 := Option.some p1, p2 := Option.some p2, p3 := Option.some (p3 : Int), extra := extra }

/-- Operands of `OSwitch`. -/
def switchG (res : Opcode) : G Opcode := do
  let p1 ← natIG
  let p2 ← natG
  let extra ← extraG natIG p2
  let p3 ← natIG
  pure { res with p1 := Option.some p1, p2 := Option.some (p2 : Int), p3 := Option.some p3, extra := extra }

/-- Operands of an instruction with `i` of them (`-1`: variable). -/
def operandsG (res : Opcode) (i : Int) : G Opcode :=
  if i = 0 then pure res
  else if i = 1 then do
    let p1 ← idxG
    pure { res with p1 := Option.some p1 }
  else if i = 2 then do
    let p1 ← idxG
    let p2 ← idxG
    pure { res with p1 := Option.some p1, p2 := Option.some p2 }
  else if i = 3 then do
    let p1 ← idxG
    let p2 ← idxG
    let p3 ← idxG
    pure { res with p1 := Option.some p1, p2 := Option.some p2, p3 := Option.some p3 }
  else if i = 4 then do
    let p1 ← idxG
    let p2 ← idxG
    let p3 ← idxG
    let x ← idxG
    pure { res with p1 := Option.some p1, p2 := Option.some p2, p3 := Option.some p3, extra := x :: res.extra }
  else if i = -1 then
    match res.op with
    | .OCallN | .OCallClosure | .OCallMethod | .OCallThis | .OMakeEnum => callLikeG res
    | .OSwitch => switchG res
    | _ => fun _ _ _ _ => False
  else do
    let p1 ← idxG
    let p2 ← idxG
    let p3 ← idxG
    guard (0 ≤ i - 3)
    let extra ← extraG idxG (i - 3).toNat
    pure { res with p1 := Option.some p1, p2 := Option.some p2, p3 := Option.some p3, extra := extra }

/-- An instruction. -/
def opcodeG : G Opcode := do
  let n ← byteG
  guard (n < 99)
  let op ← G.some hlOps[n]?
  operandsG (bare op) (hlShape op).arity

/-- A function. -/
def functionG : G HLFunction := do
  let t ← typeRefG
  let findex ← natG
  let nregs ← natG
  let nops ← natG
  let regs ← many typeRefG nregs
  let ops ← many opcodeG nops
  pure { t := t, findex := findex, nregs := nregs, nops := nops, rf := 0, regs := regs, ops := ops,
         debug := [], obj := none, field := none }

/-- `a + b` on `i32` -/
def i32AddG (p : Profile) (a b : Int) : G Int := fun c k r c' => k = [] ∧ c' = c ∧
  ((a + b < 2 ^ 31 ∧ r = a + b) ∨ (2 ^ 31 ≤ a + b ∧ p = .release ∧ r = a + b - 2 ^ 32))

/-- State of the debug stream: current file and line, the words of the instructions done so far. -/
structure Dbg where
  file : Int
  line : Int
  words : List Int

/-- Give the current file and line to the next instruction. -/
def Dbg.emit (d : Dbg) : Dbg := { d with words := d.words ++ [d.file, d.line] }

/-- One item of the debug stream as *brass* reads it, when `nops` instructions are wanted. -/
def debugItemG (p : Profile) (nops : Nat) (d : Dbg) : G Dbg := do
  let b ← byteG
  if b % 2 = 1 then do
    let b2 ← byteG
    let c ← code
    guard (c.ndebugfiles < 2 ^ 31 ∧ b / 2 * 256 + b2 < c.ndebugfiles)
    pure { d with file := ((b / 2 * 256 + b2 : Nat) : Int) }
  else if b / 2 % 2 = 1 then do
    guard (d.words.length / 2 + b / 4 % 16 ≤ nops)
    let l ← i32AddG p d.line ((b / 64 : Nat) : Int)
    pure { d with line := l }
  else if b / 4 % 2 = 1 then do
    let l ← i32AddG p d.line ((b / 8 : Nat) : Int)
    pure { d with line := l }.emit
  else do
    let b2 ← byteG
    let b3 ← byteG
    pure { d with line := ((b / 8 ||| b2 % 8 * 32 ||| b3 : Nat) : Int) }.emit

/-- Debug items until `nops` instructions have their two words. -/
inductive DebugG (p : Profile) (nops : Nat) : Dbg → G Dbg where
  | done (d : Dbg) (c : Code) : nops ≤ d.words.length / 2 → DebugG p nops d c [] d c
  | item (d d' d'' : Dbg) (c c' c'' : Code) (k k' : List UInt8) : d.words.length / 2 < nops →
      debugItemG p nops d c k d' c' → DebugG p nops d' c' k' d'' c'' → DebugG p nops d c (k ++ k') d'' c''

/-- The debug words of a function. -/
def debugInfosG (p : Profile) (nops : Nat) : G (List Int) := do
  let d ← (DebugG p nops { file := -1, line := 0, words := [] } : G Dbg)
  pure d.words

/-- Assignments, which are skipped. -/
def assignsG : G Unit := do
  let n ← natG
  let _ ← many (do let _ ← natG; let _ ← idxG; pure ()) n
  pure ()

/-- Debug information of a function: the words, and the assignments from version 3 on. -/
def functionDebugG (p : Profile) (version nops : Nat) : G (List Int) := do
  let w ← debugInfosG p nops
  if version ≥ 3 then do
    assignsG
    pure w
  else pure w

/-- A function with its debug information. -/
def functionWithDebugG (p : Profile) (c : Code) : G HLFunction := do
  let f ← functionG
  if c.hasdebug ≠ 0 then do
    let w ← functionDebugG p c.version f.nops
    pure { f with debug := w }
  else pure f

/-- `HLB` -/
def magicG : G Unit := fun c k _ c' => c' = c ∧ k = [0x48, 0x4C, 0x42]

/-- The version -/
def versionG : G Nat := do
  let v ← byteG
  guard (2 ≤ v ∧ v ≤ 5)
  pure v

/-- A count that is present only if `b`. -/
def natIfG (b : Prop) [Decidable b] : G Nat := if b then natG else pure 0

/-- The counts. -/
def countsG (version : Nat) : G Code := do
  let flags ← natG
  let nints ← natG
  let nfloats ← natG
  let nstrings ← natG
  let nbytes ← natIfG (version ≥ 5)
  let ntypes ← natG
  let nglobals ← natG
  let nnatives ← natG
  let nfunctions ← natG
  let nconstants ← natIfG (version ≥ 4)
  let entrypoint ← natG
  pure { noCode with
    version := version, nints := nints, nfloats := nfloats, nstrings := nstrings, nbytes := nbytes, ntypes := ntypes,
    nglobals := nglobals, nnatives := nnatives, nfunctions := nfunctions, nconstants := nconstants,
    entrypoint := entrypoint, hasdebug := flags % 2 }

/-- The pools. -/
def poolsG (c : Code) : G Code := do
  let ints ← many i32G c.nints
  let floats ← many f64G c.nfloats
  let strings ← stringsG c.nstrings
  pure { c with ints := ints, floats := floats, strings := strings, stringsLens := strings.map List.length }

/-- The bytes, from version 5 on; the string cache starts empty. -/
def bytesSectionG (c : Code) : G Code :=
  if c.version ≥ 5 then do
    let size ← i32G
    guard (0 ≤ size)
    let bytes ← bytesG size.toNat
    let bytesPos ← many natG c.nbytes
    pure { c with ustrings := List.replicate c.nstrings none, bytes := bytes, bytesPos := bytesPos }
  else pure { c with ustrings := List.replicate c.nstrings none }

/-- The debug file names. -/
def debugFilesG (c : Code) : G Code :=
  if c.hasdebug ≠ 0 then do
    let n ← natG
    let files ← stringsG n
    let c := { c with ndebugfiles := n, debugfiles := files }
    setCode c
    pure c
  else pure c

/-- One type: it is decoded in the module `c` and *inserted* at position `i`. -/
def typesStepG (i : Nat) (c : Code) : G Code := do
  setCode c
  let t ← typeG
  let d ← code
  guard (i ≤ d.types.length)
  let c := { d with types := d.types.insertIdx i t }
  setCode c
  pure c

/-- The types. -/
def typesG (c : Code) : G Code :=
  loop typesStepG 0 c.ntypes { c with types := List.replicate c.ntypes noType }

/-- One global. -/
def globalsStepG (i : Nat) (c : Code) : G Code := do
  setCode c
  let t ← typeRefG
  guard (i ≤ c.globals.length)
  let c := { c with globals := c.globals.insertIdx i t }
  setCode c
  pure c

/-- The globals. -/
def globalsG (c : Code) : G Code :=
  loop globalsStepG 0 c.nglobals { c with globals := List.replicate c.nglobals noType }

/-- A native. -/
def nativeG : G Native := do
  let lib ← stringRefG
  let name ← stringRefG
  let t ← typeRefG
  let findex ← natG
  pure { lib := lib, name := name, t := t, findex := findex }

/-- One native. -/
def nativesStepG (_i : Nat) (c : Code) : G Code := do
  let n ← nativeG
  let c := { c with natives := c.natives ++ [n] }
  setCode c
  pure c

/-- The natives. -/
def nativesG (c : Code) : G Code :=
  loop nativesStepG 0 c.nnatives { c with natives := [] }

/-- One function. -/
def functionsStepG (p : Profile) (_i : Nat) (c : Code) : G Code := do
  setCode c
  let f ← functionWithDebugG p c
  let c := { c with functions := c.functions ++ [f] }
  setCode c
  pure c

/-- The functions. -/
def functionsG (p : Profile) (c : Code) : G Code := loop (functionsStepG p) 0 c.nfunctions c

/-- A constant. -/
def constantG : G Constant := do
  let global ← natG
  let nfields ← natG
  let fields ← many natG nfields
  pure { global := global, nfields := nfields, fields := fields }

/-- One constant. -/
def constantsStepG (i : Nat) (c : Code) : G Code := do
  let k ← constantG
  guard (i ≤ c.constants.length)
  let c := { c with constants := c.constants.insertIdx i k }
  setCode c
  pure c

/-- The constants. -/
def constantsG (c : Code) : G Code := loop constantsStepG 0 c.nconstants c

/-- A bytecode file. -/
def fileG (p : Profile) : G Code := do
  magicG
  let v ← versionG
  let c ← countsG v
  let c ← poolsG c
  let c ← bytesSectionG c
  let c ← debugFilesG c
  let c ← typesG c
  let c ← globalsG c
  let c ← nativesG c
  let c ← functionsG p c
  let _ ← constantsG c
  code

end Verif.Brass.Spec
