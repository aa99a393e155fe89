import Verif.Brass.Threads

/-!
# Calls of the API

How the API is used in the properties: one call, sequences of calls, several threads.
-/

namespace Verif.Brass

open Verif

/-- The state an outcome ends in, if it is not a panic. -/
def Out.state? {α : Type} : Out α → Option St
  | .ok _ s => some s
  | .err _ s => some s
  | .panic => none

/-- The functions of `decoder.rs` and `code.rs` that read from a decoder. -/
inductive EntryPoint : Type → Type 1 where
  | advance (n : Nat) : EntryPoint Unit
  | readBytes (n : Nat) : EntryPoint (List UInt8)
  | decodeUnsigned (n : Nat) : EntryPoint Nat
  | decodeSigned (n : Nat) : EntryPoint Int
  | decodeF64 : EntryPoint Nat
  | readIndex : EntryPoint Int
  | index : EntryPoint Int
  | uindex : EntryPoint Nat
  | readString : EntryPoint Str
  | readUstring : EntryPoint Str
  | getType : EntryPoint ValueType
  | readType (t : ValueType) : EntryPoint ValueType
  | readStrings (n : Nat) : EntryPoint (List Str × List Nat)
  | readFunction : EntryPoint HLFunction
  | readOpcode : EntryPoint Opcode
  | debugInfos (p : Profile) (n : Nat) : EntryPoint (List Int)
  | read (p : Profile) : EntryPoint Code

/-- The model of each of them. -/
def EntryPoint.run {α : Type} : EntryPoint α → M α
  | .advance n => Brass.advance n
  | .readBytes n => Brass.readBytes n
  | .decodeUnsigned n => Brass.decodeUnsigned n
  | .decodeSigned n => Brass.decodeSigned n
  | .decodeF64 => Brass.decodeF64
  | .readIndex => Brass.readIndex
  | .index => Brass.index
  | .uindex => Brass.uindex
  | .readString => Brass.readString
  | .readUstring => Brass.readUstring
  | .getType => Brass.getType
  | .readType t => Brass.readType t
  | .readStrings n => Brass.readStrings n
  | .readFunction => Brass.readFunction
  | .readOpcode => Brass.readOpcode
  | .debugInfos p n => Brass.debugInfos p n
  | .read p => Brass.readM p

/-- The loop of `debug_infos` (code.rs:544), run for at most `fuel` rounds; `none` if it has not ended by then. -/
def debugRounds (p : Profile) (nops : Nat) : Nat → DebugState → St → Option (Out DebugState)
  | 0, _, _ => none
  | fuel + 1, d, s =>
    if d.i < nops then
      match debugBody p nops d s with
      | .ok d' s' => debugRounds p nops fuel d' s'
      | .err e s' => some (.err e s')
      | .panic => some .panic
    else some (.ok d s)

/-- A sequence of calls `get_ustring(i)`: the strings returned and the module afterwards. -/
def lookups (c : Code) : List Nat → Rust (List Str × Code)
  | [] => .ret ([], c)
  | i :: l =>
    match getUstring c i with
    | .panic => .panic
    | .ret (s, c) =>
      match lookups c l with
      | .panic => .panic
      | .ret (r, c) => .ret (s :: r, c)

/-- The cache has just been created (code.rs:704). -/
def Code.Fresh (c : Code) : Prop := c.ustrings = List.replicate c.nstrings none

/-- Read alone in a fresh process, the file `b` is accepted and decoded to `c`. -/
def Accepts (p : Profile) (b : List UInt8) (c : Code) : Prop := ∃ s, Code.read p none b = .ok c s

/-- `a` is `Ok(..)`. -/
def Answer.isOk : Answer → Bool
  | .ok _ => true
  | _ => false

/-- The process after the first `n` steps of an infinite schedule. -/
def Process.after (p : Profile) (s : Process) (schedule : Nat → Nat) (n : Nat) : Process :=
  s.run p ((List.range n).map schedule)

/-- The answer to `Code::read(b)` in a fresh process. -/
def IsAlone (p : Profile) (b : List UInt8) (a : Answer) : Prop := ∃ e, history p none [b] = ([a], e)

/-- Read in a fresh process, `b` leaves no error recorded, whatever the answer. -/
def Quiet (p : Profile) (b : List UInt8) : Prop := (history p none [b]).2 = none

/-- The same answer, except that another error may be reported. -/
def Answer.SameButError : Answer → Answer → Prop
  | .ok c, .ok c' => c = c'
  | .err _, .err _ => True
  | .panic, .panic => True
  | _, _ => False

end Verif.Brass
