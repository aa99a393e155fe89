import Verif.Brass.Code

/-!
# The reader, with what it prints

`Code::read` writes to standard output in two places: when it does not know the version of a file (code.rs:623), and for every
function it has read (code.rs:768).  The functions that print and their callers, written once more with the list of lines printed;
all other functions are taken from the model as they are (they print nothing).  `Prints.readM` shows that nothing else was changed.

A line holds what it shows: the number of the version, or the function in the state it has then.  Its text is modelled in `DebugText.lean`.
-/

namespace Verif.Brass

open Verif

/-- A line of output. -/
inductive Line
  /-- code.rs:623-629 `println!("Found version {} while HL {}.{} supports up to {}", …)` -/
  | version (v : Nat)
  /-- code.rs:768 `println!("{:?}", f)` -/
  | function (f : HLFunction)

/-- A decoding function with the lines it prints. -/
def W (α : Type) := St → Out α × List Line

namespace W

/-- `Ok(a)` -/
protected def pure {α : Type} (a : α) : W α := fun s => (.ok a s, [])

/-- `let a = x?; f(a)` -/
protected def bind {α β : Type} (x : W α) (f : α → W β) : W β := fun s =>
  match x s with
  | (.ok a s, l) => ((f a s).1, l ++ (f a s).2)
  | (.err e s, l) => (.err e s, l)
  | (.panic, l) => (.panic, l)

/-- The `do` notation for sequences of Rust statements (a `?` or a panic ends the sequence); no code of its own. -/
instance : Monad W where
  pure := W.pure
  bind := W.bind

/-- A function that prints nothing. -/
def lift {α : Type} (x : M α) : W α := fun s => (x s, [])

/-- `println!` -/
def print (l : Line) : W Unit := fun s => (.ok () s, [l])

/-- `for i in a..a+n { b = f(i, b) }` -/
def forRange {β : Type} (f : Nat → β → W β) : (a n : Nat) → β → W β
  | _, 0, b => W.pure b
  | a, n + 1, b => W.bind (f a b) (fun b => forRange f (a + 1) n b)

end W

/-- code.rs:621-634 (line 623: `println!`) -/
def readVersionW : W Nat := do
  let v ← W.lift (M.unwrap decodeU8)
  if v ≤ 1 ∨ v > 5 then do
    W.print (.version v)
    W.lift (M.failAt .unsupportedBytecodeVersion)
  else pure v

/-- code.rs:766-784 (line 768: `println!`) -/
def readFunctionsStepW (p : Profile) (i : Nat) (c : Code) : W Code := do
  W.lift (M.setCode c)
  let f ← W.lift readFunction
  W.print (.function f)
  let d ← W.lift M.getCode
  W.lift (M.setCode { d with functions := d.functions ++ [f] })
  W.lift (readFunctionDebug p i)
  W.lift M.getCode

/-- code.rs:765-787 -/
def readFunctionsW (p : Profile) (c : Code) : W Code := do
  let a ← W.forRange (readFunctionsStepW p) 0 c.nfunctions c
  W.lift M.checkError
  pure a

/-- code.rs:607-806 `Code::read` on a fresh decoder -/
def readMW (p : Profile) : W Code := do
  W.lift readMagic
  let v ← readVersionW
  let c ← W.lift (checked (readCounts v))
  let c ← W.lift (readPools c)
  let c ← W.lift (readBytesSection c)
  let c ← W.lift (readDebugFiles c)
  let c ← W.lift (readTypes c)
  let c ← W.lift (readGlobals c)
  let c ← W.lift (readNatives c)
  let c ← readFunctionsW p c
  let _ ← W.lift (readConstants c)
  W.lift M.getCode

/-- What `Code::read(buf)` prints, line by line, when `ERRORS` holds `errors`. -/
def printed (p : Profile) (errors : Option DecodeError) (buf : List UInt8) : List Line := (readMW p (St.new buf errors)).2

/-! ## Nothing else was changed -/

/-- Without its output, `x` is `y`. -/
def Prints {α : Type} (x : W α) (y : M α) : Prop := ∀ s, (x s).1 = y s

namespace Prints

theorem pure {α : Type} (a : α) : Prints (Pure.pure a : W α) (Pure.pure a) := fun _ => rfl

theorem lift {α : Type} (x : M α) : Prints (W.lift x) x := fun _ => rfl

theorem bind {α β : Type} {x : W α} {y : M α} {f : α → W β} {g : α → M β} (h : Prints x y) (hf : ∀ a, Prints (f a) (g a)) :
    Prints (x >>= f) (y >>= g) := fun s => by
  show (W.bind x f s).1 = M.bind y g s
  unfold W.bind M.bind
  have := h s
  rcases hx : x s with ⟨o, l⟩
  rw [hx] at this
  simp only at this
  rw [← this]
  cases o with
  | ok a s => exact hf a s
  | err e s => rfl
  | panic => rfl

/-- printing leaves the rest as it is -/
theorem print {β : Type} {l : Line} {f : Unit → W β} {y : M β} (h : Prints (f ()) y) : Prints (W.print l >>= f) y := fun s => h s

theorem ite {α : Type} {c : Prop} [Decidable c] {x x' : W α} {y y' : M α} (h : Prints x y) (h' : Prints x' y') :
    Prints (if c then x else x') (if c then y else y') := by
  split
  · exact h
  · exact h'

theorem forRange {β : Type} {f : Nat → β → W β} {g : Nat → β → M β} (h : ∀ i b, Prints (f i b) (g i b)) :
    ∀ (n a : Nat) (b : β), Prints (W.forRange f a n b) (M.forRange g a n b)
  | 0, _, _ => fun _ => rfl
  | n + 1, a, b => bind (h a b) fun b => forRange h n (a + 1) b

theorem readVersion : Prints readVersionW readVersion := bind (lift _) fun _ => ite (print (lift _)) (pure _)

theorem readFunctionsStep (p : Profile) (i : Nat) (c : Code) : Prints (readFunctionsStepW p i c) (readFunctionsStep p i c) :=
  bind (lift _) fun _ => bind (lift _) fun _ => print (bind (lift _) fun _ => bind (lift _) fun _ => bind (lift _) fun _ => lift _)

theorem readFunctions (p : Profile) (c : Code) : Prints (readFunctionsW p c) (readFunctions p c) :=
  bind (forRange (fun i c => readFunctionsStep p i c) _ _ _) fun _ => bind (lift _) fun _ => pure _

theorem readM (p : Profile) : Prints (readMW p) (readM p) :=
  bind (lift _) fun _ => bind readVersion fun _ => bind (lift _) fun _ => bind (lift _) fun _ => bind (lift _) fun _ =>
    bind (lift _) fun _ => bind (lift _) fun _ => bind (lift _) fun _ => bind (lift _) fun _ =>
      bind (readFunctions p _) fun _ => bind (lift _) fun _ => lift _

end Prints

end Verif.Brass
