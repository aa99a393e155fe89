import Verif.Spec.CodeHash

/-!
# Specification of what is hashed (C65-C69)

For every hash that the code computes, the byte string whose CRC-32 (`Spec/Crc.lean`) it is.  Where the computation can fail,
the byte string is given by a relation: if no byte string is related, the computation panics.
-/

namespace Verif.Brass.Spec

open Verif Verif.Brass

/-- `n` bytes of the number `v`, lowest first. -/
def le (n v : Nat) : List UInt8 := (List.range n).map fun i => UInt8.ofNat (v / 256 ^ i % 256)

/-- A 32-bit word. -/
def word (x : UInt32) : List UInt8 := le 4 x.toNat
/-- A 32-bit signed number. -/
def signed32 (v : Int) : List UInt8 := le 4 (v % 2 ^ 32).toNat
/-- A 64-bit signed number. -/
def signed64 (v : Int) : List UInt8 := le 8 (v % 2 ^ 64).toNat
/-- A 64-bit count. -/
def count (n : Nat) : List UInt8 := le 8 n

/-- The magnitude of the IEEE 754 double with these bits (not a NaN), in units of 2^-1075: significand times 2^exponent. -/
def doubleScaled (bits : Nat) : Nat :=
  let e := bits / 2 ^ 52 % 2 ^ 11
  let m := bits % 2 ^ 52
  if e = 0 then m * 2 else (2 ^ 52 + m) * 2 ^ e

/-- A double as a 32-bit integer: rounded towards zero, then to the nearest value in range; 0 for a NaN. -/
def truncate (bits : Nat) : Int :=
  if bits / 2 ^ 52 % 2 ^ 11 = 2047 ∧ bits % 2 ^ 52 ≠ 0 then 0
  else
    let n : Nat := doubleScaled bits / 2 ^ 1075
    max (-2 ^ 31) (min (2 ^ 31 - 1) (if bits / 2 ^ 63 % 2 = 1 then -(n : Int) else n))

/-! ## Types -/

/-- The outline of a type: its names and counts, without its components. -/
def outline (t : ValueType) : List UInt8 :=
  match t.kind, t.union with
  | .HFUN, .func args _ _ | .HMETHOD, .func args _ _ => count args.length
  | .HOBJ, .obj name _ fields _ _ _ proto _ _ _ | .HSTRUCT, .obj name _ fields _ _ _ proto _ _ _ =>
    name ++ count fields.length ++ count proto.length ++ fields.flatMap fun f => word f.hashedName
  | .HVIRTUAL, .virt _ fields => count fields.length ++ fields.flatMap fun f => word f.hashedName
  | .HENUM, .enum name _ constructs _ => name ++ constructs.flatMap fun c => count c.params.length ++ c.name
  | .HABSTRACT, _ => t.absName.getD []
  | _, _ => []

/-- The bytes hashed for a type: its outline, with the hash of the outline of each component at its place. -/
def contents (t : ValueType) : List UInt8 :=
  match t.kind, t.union with
  | .HFUN, .func args _ ret | .HMETHOD, .func args _ ret =>
    count args.length ++ (args.flatMap fun a => word (crc (outline a))) ++ word (crc (outline ret))
  | .HOBJ, .obj name _ fields _ _ _ proto _ _ _ | .HSTRUCT, .obj name _ fields _ _ _ proto _ _ _ =>
    name ++ count fields.length ++ count proto.length ++ fields.flatMap fun f => word f.hashedName ++ word (crc (outline f.t))
  | .HVIRTUAL, .virt _ fields => count fields.length ++ fields.flatMap fun f => word f.hashedName ++ word (crc (outline f.t))
  | .HENUM, .enum name _ constructs _ =>
    name ++ constructs.flatMap fun c => count c.params.length ++ c.name ++ c.params.flatMap fun a => word (crc (outline a))
  | .HREF, _ | .HNULL, _ => t.tparam.toList.flatMap fun a => word (crc (outline a))
  | .HABSTRACT, _ => t.absName.getD []
  | _, _ => []

/-- The hash of a type in the table of type hashes: the hash of its contents combined with that of the contents of its
components. -/
def tableHash (t : ValueType) : UInt32 :=
  crc (contents t) ^^^ crc ((hashedRefs t).flatMap fun r => word (crc (contents r)))

/-! ## Functions and natives -/

/-- Something of an instruction or a function that is hashed. -/
inductive Item where
  /-- an operand -/
  | num (p : Option Int)
  /-- a further operand -/
  | wide (p : Option Int)
  /-- the integer constant an operand refers to -/
  | int (p : Option Int)
  /-- the float constants with twice the index an operand gives, and the one after it -/
  | floats (p : Option Int)
  /-- the text an operand refers to -/
  | text (p : Option Int)
  /-- the type an operand refers to -/
  | type (p : Option Int)
  /-- the function an operand refers to -/
  | callee (p : Option Int)
  /-- the opcode -/
  | opcode (n : Nat)
  /-- a type -/
  | typ (t : ValueType)
  /-- a name -/
  | name (s : Str)
  /-- a 32-bit number -/
  | number (x : UInt32)

/-- The element of a table an operand refers to. -/
def At {α : Type} (l : List α) (p : Option Int) (x : α) : Prop := ∃ i : Nat, p = some (i : Int) ∧ l[i]? = some x

/-- The bytes hashed for an item. -/
def ItemBytes (s : CodeHash) : Item → List UInt8 → Prop
  | .num p, b => ∃ v, p = some v ∧ b = signed32 v
  | .wide p, b => ∃ v, p = some v ∧ b = signed64 v
  | .int p, b => ∃ v, At s.code.ints p v ∧ b = signed32 v
  | .floats p, b => ∃ (i : Nat) (u v : Nat), p = some (i : Int) ∧ s.code.floats[2 * i]? = some u ∧ s.code.floats[2 * i + 1]? = some v ∧
      b = signed32 (truncate u) ++ signed32 (truncate v)
  | .text p, b => At s.code.strings p b
  | .type p, b => ∃ t x, At s.code.types p t ∧ TypeEntry s t x ∧ b = word x
  | .callee p, b => ∃ (j : Nat) (x : UInt32), At s.functionsIndexes p (j : Int) ∧ s.functionsHashes[j]? = some x ∧ b = word x
  | .opcode n, b => b = [UInt8.ofNat n]
  | .typ t, b => ∃ x, TypeEntry s t x ∧ b = word x
  | .name n, b => b = n
  | .number x, b => b = word x

/-- The bytes hashed for a list of items, one after the other. -/
def ItemsBytes (s : CodeHash) : List Item → List UInt8 → Prop
  | [], b => b = []
  | i :: l, b => ∃ x y, ItemBytes s i x ∧ ItemsBytes s l y ∧ b = x ++ y

/-- The operands after the third one. -/
def wides (o : Opcode) : List Item := (List.range (extraOperands o)).map fun i => .wide o.extra[i]?

/-- How many of the first three operands an instruction has. -/
def plainOperands (o : Opcode) : Nat :=
  match hlShape o.op with
  | .args n => min 3 n
  | .call | .switch => 3

/-- What is hashed for an instruction: the opcode and its operands, but the constants, texts and types instead of their
indexes, and the hash of the callee instead of its index. -/
def instrItems (o : Opcode) : List Item :=
  .opcode (opNumber o.op) ::
  match o.op with
  | .OInt => [.num o.p1, .int o.p2]
  | .OFloat => [.num o.p1, .floats o.p2]
  | .OString => [.num o.p1, .text o.p2]
  | .OType => [.num o.p1, .type o.p2]
  | .ODynGet => [.num o.p1, .num o.p2, .text o.p3]
  | .ODynSet => [.num o.p1, .text o.p2, .num o.p3]
  | .OSwitch => [.num o.p1, .num o.p2] ++ wides o ++ [.num o.p3]
  | _ => [.num o.p1, if o.op ∈ secondCalls then .callee o.p2 else .num o.p2, .num o.p3].take (plainOperands o) ++ wides o

/-- What is hashed for a function: the types of its registers and its instructions. -/
def funItems (f : HLFunction) : List Item := f.regs.map .typ ++ f.ops.flatMap instrItems

/-- What is hashed for the signature of a native. -/
def nativeItems (n : Native) : List Item := [.name n.lib, .name n.name, .typ n.t]

/-- The name of the owner, if it is an object. -/
def ownerName : Option ValueTypeU → List Item
  | some (.obj name _ _ _ _ _ _ _ _ _) => [Item.name name]
  | _ => []

/-- What is hashed for the signature of a function: its type, the name of its owner and its own name in it (if the owner is an
object), and, if it refers to another function, the name of the owner of that one, its name and the reference. -/
def SignItems (f : HLFunction) (items : List Item) : Prop :=
  ∃ field, f.field = some field ∧ ∃ more,
    items = .typ f.t :: (if (ownerName f.obj).isEmpty then [] else ownerName f.obj ++ [.name field.name]) ++ more ∧
    ((field.rf = none ∧ more = []) ∨
      ∃ r g, field.rf = some r ∧ r.field = some g ∧ more = ownerName r.obj ++ [.name g.name, .number f.rf])

/-- The numbers are those of a machine: operands are 32-bit, tables have fewer than 2^31 entries, and counts are lengths. -/
structure MachineSized (s : CodeHash) (f : HLFunction) : Prop where
  nregs : f.nregs = f.regs.length
  nops : f.nops = f.ops.length
  operands : ∀ o ∈ f.ops, ∀ x, o.p1 = some x ∨ o.p2 = some x ∨ o.p3 = some x → IsI32 x
  strings : s.code.strings.length < 2 ^ 31
  hashes : s.functionsHashes.length < 2 ^ 31
  indexes : ∀ j ∈ s.functionsIndexes, IsI32 j

/-- What `finalize` computes: the signatures and hashes of the functions and natives.  (The signature of a native is stored at
its own position, not after those of the functions, so that of the function at that position is lost: C53.) -/
structure Finalized (s s' : CodeHash) : Prop where
  /-- nothing else is changed -/
  same : s' = { s with functionsSigns := s'.functionsSigns, functionsHashes := s'.functionsHashes }
  signsLength : s'.functionsSigns.length = s.code.nfunctions + s.code.nnatives
  hashesLength : s'.functionsHashes.length = s.code.nfunctions
  nativeSigns : ∀ i, i < s.code.nnatives → ∃ n b, s.code.natives[i]? = some n ∧ ItemsBytes s (nativeItems n) b ∧ s'.functionsSigns[i]? = some (crc b)
  functionSigns : ∀ i, i < s.code.nfunctions → ∃ f items b, s.code.functions[i]? = some f ∧ SignItems f items ∧ ItemsBytes s items b ∧
    (s.code.nnatives ≤ i → s'.functionsSigns[i]? = some (crc b))
  zeros : ∀ i, s.code.nnatives ≤ i → s.code.nfunctions ≤ i → i < s.code.nfunctions + s.code.nnatives → s'.functionsSigns[i]? = some 0
  /-- when a function is hashed, the hashes of the earlier functions are there, the others are still 0 -/
  hashes : ∀ i, i < s.code.nfunctions → ∃ f b, s.code.functions[i]? = some f ∧
    ItemsBytes { s with functionsHashes := s'.functionsHashes.take i ++ List.replicate (s.code.nfunctions - i) 0 } (funItems f) b ∧
    s'.functionsHashes[i]? = some (crc b)

/-! ## Globals -/

/-- The bytes hashed for a constant whose global has type `g`: the integers and texts its fields refer to. -/
def constantBytes (c : Code) (k : Constant) (g : ValueType) : List UInt8 :=
  ((objectFields g).getD []).zip k.fields |>.flatMap fun (t, x) =>
    match t.kind with
    | .HI32 => c.ints[x]?.toList.flatMap signed32
    | .HBYTES => c.strings[x]?.toList.flatten
    | _ => []

/-- What is hashed for a type as the type of a global. -/
def typeSign (t : ValueType) : UInt32 := crc (word (tableHash t))

/-- Type `j` is the one of global `i`. -/
def SetByType (c : Code) (i j : Nat) : Prop := j < c.ntypes ∧ ∃ t, c.types[j]? = some t ∧ globalOf t = some ((i : Int) + 1)
/-- Constant `j` is the one of global `i`. -/
def SetByConstant (c : Code) (i j : Nat) : Prop := ∃ k, c.constants[j]? = some k ∧ k.global = i
/-- Instruction `j` of the boot function (supposedly) stores an enum value into global `i`. -/
def SetByBoot (c : Code) (f : HLFunction) (i j : Nat) : Prop := 4 ≤ j ∧ enumSet c f j ∧ ∃ o, f.ops[j]? = some o ∧ o.p1 = some (i : Int)

/-- `j` is the last number with `P`. -/
def Last (P : Nat → Prop) (j : Nat) : Prop := P j ∧ ∀ k, j < k → ¬ P k

/-- The source of the signature of global `i`: the last instruction of the boot function that stores an enum value into it, or
else its last constant, or else the last type it belongs to, or else its type, if that is abstract, or else its position. -/
inductive GlobalSource (c : Code) (f : HLFunction) (i : Nat) : UInt32 → Prop where
  | boot (j : Nat) (b : Opcode) (y : Nat) (x : Int) : Last (SetByBoot c f i) j → f.ops[j - 3]? = some b → b.p2 = some (y : Int) → c.ints[y]? = some x →
      GlobalSource c f i (UInt32.ofNat (x % 2 ^ 32).toNat)
  | constant (j : Nat) (k : Constant) (g : ValueType) : (∀ j, ¬ SetByBoot c f i j) → Last (SetByConstant c i) j → c.constants[j]? = some k →
      c.globals[i]? = some g → GlobalSource c f i (crc (constantBytes c k g))
  | type (j : Nat) (t : ValueType) : (∀ j, ¬ SetByBoot c f i j) → (∀ j, ¬ SetByConstant c i j) → Last (SetByType c i) j → c.types[j]? = some t →
      GlobalSource c f i (typeSign t)
  | abstract (g : ValueType) : (∀ j, ¬ SetByBoot c f i j) → (∀ j, ¬ SetByConstant c i j) → (∀ j, ¬ SetByType c i j) → c.globals[i]? = some g → g.kind = .HABSTRACT →
      GlobalSource c f i (typeSign g)
  | position (g : ValueType) : (∀ j, ¬ SetByBoot c f i j) → (∀ j, ¬ SetByConstant c i j) → (∀ j, ¬ SetByType c i j) → c.globals[i]? = some g → g.kind ≠ .HABSTRACT →
      GlobalSource c f i (UInt32.ofNat (i + 2 ^ 31))

end Verif.Brass.Spec
