import Verif.Brass.Lookups
import Verif.Spec.Copies

/-!
# The tables that are copied to look up an entry

For C108.
-/

namespace Verif.Brass.Spec

open Verif.Brass

/-- The lengths of the copied type tables, in order. -/
def typeTables (l : List TableCopy) : List Nat := l.filterMap fun | .types n => some n | _ => none
/-- The lengths of the copied string tables, in order. -/
def stringTables (l : List TableCopy) : List Nat := l.filterMap fun | .strings n => some n | _ => none
/-- The lengths of the copied caches of strings, in order. -/
def cacheTables (l : List TableCopy) : List Nat := l.filterMap fun | .cache n => some n | _ => none

/-- `n` types are looked up to read a type: all those it refers to; a super type that is missing in the result may have been looked up or
not (it is missing also if its index was that of a type which had not been read yet). -/
def Looks (t : ValueType) (n : Nat) : Prop :=
  n = t.refs.length ∨ (n + 1 = t.refs.length ∧ ∃ name fields a b c d e f g, t.union = .obj name noType fields a b c d e f g)

/-- The number of names in a type: its own, those of its fields, methods or constructs. -/
def names (t : ValueType) : Nat :=
  (match t.union with
   | .obj _ _ fields _ _ _ protos _ _ _ => 1 + fields.length + protos.length
   | .virt _ fields => fields.length
   | .enum _ _ constructs _ => 1 + constructs.length
   | _ => 0) + t.absName.toList.length

/-- The number of types looked up outside of types: one for each global, native and function, and the registers. -/
def otherLooks (c : Code) : Nat := c.nglobals + c.nnatives + (c.functions.map fun f => 1 + f.regs.length).sum

/-- A file that declares `n` strings (`k` are the bytes of `n`) in an empty blob, and `m` types (`j` are the bytes of `m`), all of them
abstract types with the first string as name. -/
def abstractTypes (k : List UInt8) (m : Nat) (j : List UInt8) : List UInt8 :=
  [0x48, 0x4C, 0x42, 2, 0, 0, 0] ++ k ++ j ++ [0, 0, 0, 0] ++ [0, 0, 0, 0, 0] ++ (List.replicate m [17, 0]).flatten

end Verif.Brass.Spec
