import Verif.Rust
import Verif.Brass.Types
import Verif.Brass.Crc

/-!
# Model of `ValueType::hash` (`brass/src/types.rs`)
-/

namespace Verif

/-- `for i in a..a+n { b = f(i, b) }` -/
def Rust.forRange {β : Type} (f : Nat → β → Rust β) : (a n : Nat) → β → Rust β
  | _, 0, b => .ret b
  | a, n + 1, b => do
    let b ← f a b
    Rust.forRange f (a + 1) n b

/-- `v[i]`, `v.get(i).unwrap()` -/
def Rust.get {α : Type} (v : List α) (i : Nat) : Rust α := Rust.unwrap v[i]?

/-- `v[i] = x` -/
def Rust.set {α : Type} (v : List α) (i : Nat) (x : α) : Rust (List α) := if i < v.length then .ret (v.set i x) else .panic

end Verif

namespace Verif.Brass

open Verif

/-- types.rs:114-119: one argument of a function type.  `recur` is the call `hash(true)`. -/
def hashArg (recur : ValueType → Rust UInt32) (isrec : Bool) (args : List ValueType) (i : Nat) (h : Hasher) : Rust Hasher :=
  if isrec then .ret h
  else do
    let a ← Rust.get args i
    let x ← recur a
    pure (h.writeU32 x)

/-- types.rs:143-148, 159-164: one field of an object or virtual type -/
def hashField (recur : ValueType → Rust UInt32) (isrec : Bool) (fields : List ObjField) (i : Nat) (h : Hasher) : Rust Hasher := do
  let f ← Rust.get fields i
  let h := h.writeU32 f.hashedName
  if isrec then pure h
  else do
    let x ← recur f.t
    pure (h.writeU32 x)

/-- types.rs:180-185: one parameter of an enum construct -/
def hashParam (recur : ValueType → Rust UInt32) (isrec : Bool) (params : List ValueType) (k : Nat) (h : Hasher) : Rust Hasher := do
  let p ← Rust.get params k
  if isrec then pure h
  else do
    let x ← recur p
    pure (h.writeU32 x)

/-- types.rs:176-186: one construct of an enum type -/
def hashConstruct (recur : ValueType → Rust UInt32) (isrec : Bool) (constructs : List EnumConstruct) (i : Nat) (h : Hasher) : Rust Hasher := do
  let con ← Rust.get constructs i
  let h := (h.writeUsize con.nparams).write con.name
  Rust.forRange (hashParam recur isrec con.params) 0 con.nparams h

/-- types.rs:109-193: the match on the kind; `recur` is the call `hash(true)` of a component. -/
def hashKind (recur : ValueType → Rust UInt32) (isrec : Bool) (t : ValueType) : Rust Hasher :=
  match t.kind with
  | .HFUN | .HMETHOD =>
    match t.union with
    | .func args nargs ret => do
      let h ← Rust.forRange (hashArg recur isrec args) 0 nargs (Hasher.new.writeUsize nargs)
      if isrec then pure h
      else do
        let x ← recur ret
        pure (h.writeU32 x)
    | _ => .ret Hasher.new
  | .HOBJ | .HSTRUCT =>
    match t.union with
    | .obj name _ fields nfields nproto _ _ _ _ _ =>
      Rust.forRange (hashField recur isrec fields) 0 nfields (((Hasher.new.write name).writeUsize nfields).writeUsize nproto)
    | _ => .ret Hasher.new
  | .HREF | .HNULL =>
    if isrec then .ret Hasher.new
    else do
      let p ← Rust.unwrap t.tparam
      let x ← recur p
      pure (Hasher.new.writeU32 x)
  | .HVIRTUAL =>
    match t.union with
    | .virt nfields fields => Rust.forRange (hashField recur isrec fields) 0 nfields (Hasher.new.writeUsize nfields)
    | _ => .ret Hasher.new
  | .HENUM =>
    match t.union with
    | .enum name nconstructs constructs _ => Rust.forRange (hashConstruct recur isrec constructs) 0 nconstructs (Hasher.new.write name)
    | _ => .ret Hasher.new
  | .HABSTRACT => do
    let n ← Rust.unwrap t.absName
    pure (Hasher.new.write n)
  | _ => .ret Hasher.new

/-- types.rs:105-196 `ValueType::hash(true)`: makes no further call of `hash`. -/
def ValueType.hashRec (t : ValueType) : Rust UInt32 := do
  let h ← hashKind (fun _ => .panic) true t
  pure h.finalize

/-- types.rs:105-196 `ValueType::hash(isrec)` -/
def ValueType.hash (t : ValueType) (isrec : Bool) : Rust UInt32 := do
  let h ← hashKind ValueType.hashRec isrec t
  pure h.finalize

end Verif.Brass
