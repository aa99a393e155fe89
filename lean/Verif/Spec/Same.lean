import Verif.Spec.Elab

/-!
# When two modules are the same for a reader

For C98.  A decoded type contains the types it refers to, and a name is its text, so that the index of a type or of a string
can only be found again if no other type or string of the module is equal.
-/

namespace Verif.Brass.Spec

/-- No two strings of the module are equal, no two types are equal when the references in them are followed, and types
only refer to types before them. -/
structure RModule.Distinct (m : RModule) : Prop where
  strings : m.strings.Nodup
  types : m.typeTable.Nodup
  backward : ∀ (i : Nat) (t : RType), m.types[i]? = some t → ∀ j ∈ t.refs, j < i

/-- The functions have the same type, index, registers and instructions, and their debug streams (if there are any) give each
instruction the same file and line.  The assignments of the debug information may differ. -/
structure RFunction.Same (debug : Bool) (f f' : RFunction) : Prop where
  type : f.type = f'.type
  findex : f.findex = f'.findex
  regs : f.regs = f'.regs
  ops : f.ops = f'.ops
  debug : debug = true → dbgMeaning (-1) 0 f.debug = dbgMeaning (-1) 0 f'.debug

/-- The modules are equal, but for the form of the debug information of functions, and its assignments. -/
structure RModule.Same (m m' : RModule) : Prop where
  version : m.version = m'.version
  hasDebug : m.hasDebug = m'.hasDebug
  entrypoint : m.entrypoint = m'.entrypoint
  ints : m.ints = m'.ints
  floats : m.floats = m'.floats
  strings : m.strings = m'.strings
  bytes : m.bytes = m'.bytes
  bytesPos : m.bytesPos = m'.bytesPos
  debugFiles : m.debugFiles = m'.debugFiles
  types : m.types = m'.types
  globals : m.globals = m'.globals
  natives : m.natives = m'.natives
  nfunctions : m.functions.length = m'.functions.length
  functions : ∀ (i : Nat) (f f' : RFunction), m.functions[i]? = some f → m'.functions[i]? = some f' → f.Same m.hasDebug f'
  constants : m.constants = m'.constants

end Verif.Brass.Spec
