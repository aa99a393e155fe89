import Verif.Brass.CodeHash

/-!
# Model of `brass/src/compiler.rs`

Of cranelift's `JITModule` and `Context` only what `init_globals` does to them is kept: the names of the declared data
objects and the global values created in the function.  `declare_data` on a fresh name cannot fail; on a name already
declared as data it returns the old id (cranelift-module 0.84 `ModuleDeclarations::declare_data`).
-/

namespace Verif.Brass

open Verif

/-- compiler.rs:111-117: the fields of `GlobalValueData::Load` that vary (`base` is the data object; the type is `I8`). -/
structure GlobalLoad where
  base : Nat
  offset : Int
  deriving DecidableEq

/-- compiler.rs:15-26 `HLModule`; `data` are the declared data objects (name and `writable`), `values` the global values. -/
structure HLModule where
  code : Code
  codesize : Nat
  data : List (String × Bool)
  values : List GlobalLoad
  functionsPtrs : List Nat
  functionsIndexes : List Int
  codeHash : Option CodeHash

/-- compiler.rs:29-59 `HLModule::new` -/
def HLModule.new (c : Code) : HLModule where
  code := c
  codesize := 0
  data := []
  values := []
  functionsPtrs := List.replicate (c.nfunctions + c.nnatives) 0
  functionsIndexes := List.replicate (c.nfunctions + c.nnatives) 0
  codeHash := none

/-- `declare_data`: the id of the data object. -/
def HLModule.declareData (m : HLModule) (name : String) (writable : Bool) : Nat × HLModule :=
  match m.data.findIdx? (fun d => d.1 == name) with
  | some i => (i, m)
  | none => (m.data.length, { m with data := m.data ++ [(name, writable)] })

/-- compiler.rs:103-119 `translate_global` -/
def HLModule.translateGlobal (m : HLModule) (name : String) (writable : Bool) (offset : Int) : HLModule :=
  let (sym, m) := m.declareData name writable
  { m with values := m.values ++ [{ base := sym, offset := offset }] }

/-- compiler.rs:70-99: one global -/
def HLModule.initGlobal (i : Nat) (m : HLModule) : Rust HLModule := do
  let t ← Rust.get m.code.globals i
  match t.kind with
  | .HUI8 => pure (m.translateGlobal ("$global" ++ toString i) true (asI32 i))
  | .HVOID => pure m
  | _ => .panic

/-- compiler.rs:68-101 `init_globals` -/
def HLModule.initGlobals (m : HLModule) : Rust HLModule := Rust.forRange HLModule.initGlobal 0 m.code.nglobals m

/-- compiler.rs:60-66 `init` -/
def HLModule.init (m : HLModule) (hotReload : Bool) : Rust HLModule := do
  if hotReload then do
    let h ← CodeHash.alloc m.code
    HLModule.initGlobals { m with codeHash := some h }
  else HLModule.initGlobals m

end Verif.Brass
