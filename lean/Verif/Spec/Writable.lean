import Verif.Spec.Elab

/-!
# Which modules can be written to a file
-/

namespace Verif.Brass.Spec

/-- The numbers of a type can be written. -/
def RType.Writable : RType → Prop
  | .prim k => k ∈ primKinds
  | .func _ args _ => args.length < 256
  | .obj _ _ _ global fields protos bindings => global < 2 ^ 29 ∧ fields.length < 2 ^ 29 ∧ protos.length < 2 ^ 29 ∧
      bindings.length < 2 ^ 29 ∧ (∀ f ∈ protos, f.findex < 2 ^ 29 ∧ f.pindex.natAbs < 2 ^ 29) ∧ ∀ b ∈ bindings, b.1 < 2 ^ 29 ∧ b.2 < 2 ^ 29
  | .virt fields => fields.length < 2 ^ 29
  | .enum _ global constructs => global < 2 ^ 29 ∧ constructs.length < 2 ^ 29 ∧ ∀ c ∈ constructs, c.params.length < 2 ^ 29
  | _ => True

/-- The operands have the layout of the opcode and can be written. -/
def Instr.Writable : Instr → Prop
  | .plain op args => op ≠ .OLast ∧ hlShape op = .args args.length ∧ ∀ a ∈ args, a.natAbs < 2 ^ 29
  | .call op dst fn args => hlShape op = .call ∧ args.length < 256 ∧ dst.natAbs < 2 ^ 29 ∧ fn.natAbs < 2 ^ 29 ∧ ∀ a ∈ args, a.natAbs < 2 ^ 29
  | .switch reg targets end_ => reg < 2 ^ 29 ∧ targets.length < 2 ^ 29 ∧ end_ < 2 ^ 29 ∧ ∀ a ∈ targets, a < 2 ^ 29

/-- A function that can be written; its debug stream is of the supported form and the numbers of its assignments (which are
skipped) are small. -/
structure RFunction.Writable (m : RModule) (f : RFunction) : Prop where
  type : f.type < m.types.length
  findex : f.findex < 2 ^ 29
  nregs : f.regs.length < 2 ^ 29
  regs : ∀ t ∈ f.regs, t < m.types.length
  nops : f.ops.length < 2 ^ 29
  ops : ∀ o ∈ f.ops, o.Writable
  debug : m.hasDebug = true → DbgStream f.ops.length m.debugFiles.length f.debug ∧ (∀ i ∈ f.debug, i.Supported) ∧ f.debug.length < 2 ^ 24
  assigns : f.assigns.length < 0x2000 ∧ ∀ a ∈ f.assigns, a.1 < 0x2000 ∧ a.2.natAbs < 0x2000

/-- A module that can be written to a file: numbers and sizes fit in an index (below `2^29`) and references are to what there
is.  Nothing is said about its version, its integers and floats, and of what the version or the debug flag excludes.  (Debug
streams are of the forms that brass supports, and the numbers of assignments, which are skipped, are small.) -/
structure RModule.Writable (m : RModule) : Prop where
  entrypoint : m.entrypoint < 2 ^ 29
  nints : m.ints.length < 2 ^ 29
  nfloats : m.floats.length < 2 ^ 29
  nstrings : m.strings.length < 2 ^ 29
  strings : (∀ s ∈ m.strings, (utf8 s).length < 2 ^ 29) ∧ (blob m.strings).length < 2 ^ 31
  nbytes : m.bytesPos.length < 2 ^ 29
  bytesPos : ∀ v ∈ m.bytesPos, v < 2 ^ 29
  ndebugFiles : m.debugFiles.length < 2 ^ 29
  debugFiles : (∀ s ∈ m.debugFiles, (utf8 s).length < 2 ^ 29) ∧ (blob m.debugFiles).length < 2 ^ 31
  ntypes : m.types.length < 2 ^ 29
  types : ∀ t ∈ m.types, t.Writable ∧ (∀ j ∈ t.refs, j < m.types.length) ∧ ∀ j ∈ t.names, j < m.strings.length
  nglobals : m.globals.length < 2 ^ 29
  globals : ∀ t ∈ m.globals, t < m.types.length
  nnatives : m.natives.length < 2 ^ 29
  natives : ∀ n ∈ m.natives, n.lib < m.strings.length ∧ n.name < m.strings.length ∧ n.type < m.types.length ∧ n.findex < 2 ^ 29
  nfunctions : m.functions.length < 2 ^ 29
  functions : ∀ f ∈ m.functions, f.Writable m
  nconstants : m.constants.length < 2 ^ 29
  constants : ∀ c ∈ m.constants, c.global < 2 ^ 29 ∧ c.fields.length < 2 ^ 29 ∧ ∀ f ∈ c.fields, f < 2 ^ 29

end Verif.Brass.Spec
