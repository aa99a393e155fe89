import Verif.Spec.Size

/-!
# The modules that are copied when a file is read

For C105.
-/

namespace Verif.Brass.Spec

open Verif.Brass

/-- The module without its cache of strings. -/
def noCache (c : Code) : Code := { c with ustrings := [] }

/-- A table of `n` entries is read entry by entry, and the module is copied before and after each of them; `m i` is the module when
`i` entries have been read. -/
def beforeAndAfter (n : Nat) (m : Nat → Code) : List Code := (List.range n).flatMap fun i => [m i, m (i + 1)]

/-- … and the module is copied after each of them. -/
def afterEach (n : Nat) (m : Nat → Code) : List Code := (List.range n).flatMap fun i => [m (i + 1)]

/-- The copies made for a file that is read as `c`, without their caches of strings. -/
def copiesOf (c : Code) : List Code :=
  let c0 : Code := { noCache c with types := [], globals := [], natives := [], functions := [], constants := [] }
  let c1 : Code := { c0 with types := c.types }
  let c2 : Code := { c1 with globals := c.globals }
  let c3 : Code := { c2 with natives := c.natives }
  let c4 : Code := { c3 with functions := c.functions }
  (if c.hasdebug ≠ 0 then [{ c0 with debugfiles := [] }, c0] else []) ++
  beforeAndAfter c.ntypes (fun i => { c0 with types := c.types.take i ++ List.replicate c.ntypes noType }) ++
  beforeAndAfter c.nglobals (fun i => { c1 with globals := c.globals.take i ++ List.replicate c.nglobals noType }) ++
  afterEach c.nnatives (fun i => { c2 with natives := c.natives.take i }) ++
  beforeAndAfter c.nfunctions (fun i => { c3 with functions := c.functions.take i }) ++
  afterEach c.nconstants (fun i => { c4 with constants := c.constants.take i })

/-- A file that declares `n` types and nothing else (`k` are the bytes of `n`), each of them `HVOID`. -/
def voidTypes (n : Nat) (k : List UInt8) : List UInt8 :=
  [0x48, 0x4C, 0x42, 2, 0, 0, 0, 0] ++ k ++ [0, 0, 0, 0, 0, 0, 0, 0] ++ List.replicate n 0

end Verif.Brass.Spec
