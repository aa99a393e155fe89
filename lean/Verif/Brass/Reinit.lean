import Verif.Brass.Compiler

/-!
# `HLModule` after a panic

`init` and `init_globals` take `&mut self`: a caller that catches a panic keeps the module.  The two functions once more, with the
module they leave behind in either case (`true`: returned).  A round of the loop panics before it changes anything: the table access
and the choice of the kind come first, and `declare_data` cannot fail (see `Brass/Compiler.lean`; a name is always declared with the same
linkage and flags).
-/

namespace Verif.Brass

open Verif

/-- compiler.rs:68-101: the rounds `a..a+n` of the loop of `init_globals` -/
def HLModule.globalsLoopS : (a n : Nat) → HLModule → Bool × HLModule
  | _, 0, m => (true, m)
  | a, n + 1, m =>
    match HLModule.initGlobal a m with
    | .ret m => HLModule.globalsLoopS (a + 1) n m
    | .panic => (false, m)

/-- compiler.rs:68-101 `init_globals` -/
def HLModule.initGlobalsS (m : HLModule) : Bool × HLModule := HLModule.globalsLoopS 0 m.code.nglobals m

/-- compiler.rs:60-66 `init` (`self.code_hash = Some(..)`: nothing is assigned if `CodeHash::alloc` panics) -/
def HLModule.initS (m : HLModule) (hotReload : Bool) : Bool × HLModule :=
  if hotReload then
    match CodeHash.alloc m.code with
    | .ret h => HLModule.initGlobalsS { m with codeHash := some h }
    | .panic => (false, m)
  else HLModule.initGlobalsS m

/-- The public functions that change a module. -/
inductive InitCall where
  | init (hotReload : Bool)
  | initGlobals

/-- One call. -/
def InitCall.run (m : HLModule) : InitCall → Bool × HLModule
  | .init hot => m.initS hot
  | .initGlobals => m.initGlobalsS

/-- Calls one after the other, panics being caught: which of them return, and the module in the end. -/
def InitCall.runs : HLModule → List InitCall → List Bool × HLModule
  | m, [] => ([], m)
  | m, k :: l => ((k.run m).1 :: (InitCall.runs (k.run m).2 l).1, (InitCall.runs (k.run m).2 l).2)

/-! ## Nothing else was changed -/

theorem HLModule.globalsLoopS_eq : ∀ (n a : Nat) (m m' : HLModule), HLModule.globalsLoopS a n m = (true, m') ↔ Rust.forRange HLModule.initGlobal a n m = .ret m'
  | 0, a, m, m' => by
    constructor
    · intro h; cases h; rfl
    · intro h; cases h; rfl
  | n + 1, a, m, m' => by
    simp only [HLModule.globalsLoopS, Rust.forRange]
    cases h : HLModule.initGlobal a m with
    | panic =>
      constructor
      · intro h; cases h
      · intro h; cases h
    | ret b => exact HLModule.globalsLoopS_eq n (a + 1) b m'

theorem HLModule.initGlobalsS_eq (m m' : HLModule) : m.initGlobalsS = (true, m') ↔ m.initGlobals = .ret m' := HLModule.globalsLoopS_eq _ _ _ _

theorem HLModule.initS_eq (m m' : HLModule) (hot : Bool) : m.initS hot = (true, m') ↔ m.init hot = .ret m' := by
  cases hot with
  | false => exact HLModule.initGlobalsS_eq m m'
  | true =>
    unfold HLModule.initS HLModule.init
    simp only [if_true]
    cases h : CodeHash.alloc m.code with
    | panic =>
      constructor
      · intro h; cases h
      · intro h; cases h
    | ret x => exact HLModule.initGlobalsS_eq _ m'

end Verif.Brass
