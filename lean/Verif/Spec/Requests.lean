import Verif.Spec.Base

/-!
# The tables of a decoded module that are requested with their full length

For C99.  Lengths of the tables that `Code::read` creates with `vec![x; n]`, written down for a `Code`.
-/

namespace Verif.Brass.Spec

/-- Operand lists of an instruction: argument lists and jump tables have the length given in the instruction, five and six fixed
operands are kept as three and a list. -/
def instrTable (o : Opcode) : List Nat :=
  match hlShape o.op with
  | .args n => if 4 < n then [n - 3] else []
  | .call => [(o.p3.getD 0).toNat]
  | .switch => [(o.p2.getD 0).toNat]

/-- The operand lists of a function, in order, and two debug words for each instruction. -/
def functionTables (debug : Bool) (f : HLFunction) : List Nat :=
  f.ops.flatMap instrTable ++ if debug then [2 * f.nops] else []

/-- All tables: the cache of strings, the bytes (from version 5 on), the types, the globals, and the tables of the functions. -/
def tables (c : Code) : List Nat :=
  [c.nstrings] ++ (if 5 ≤ c.version then [c.bytes.length] else []) ++ [c.ntypes, c.nglobals] ++
    c.functions.flatMap (functionTables (c.hasdebug != 0))

/-- A file that declares `n` types (`k` are the bytes of `n`) and then ends, after an empty pool of strings. -/
def manyTypes (k : List UInt8) : List UInt8 := [0x48, 0x4C, 0x42, 2, 0, 0, 0, 0] ++ k ++ [0, 0, 0, 0, 0, 0, 0, 0]

end Verif.Brass.Spec
