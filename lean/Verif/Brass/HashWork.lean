import Verif.Brass.CodeHash

/-!
# `CodeHash::alloc`, with the comparisons and copies it makes

`alloc` and the functions it calls, written once more with a log: every comparison `*v == t` of two types in a search through the type table
adds an entry, and so does every `clone()` of a table.  Everything else is taken from the model as it is; `Logged.alloc` shows that nothing
else was changed.  (Copies of single entries are not logged; a comparison itself is described by `ValueType.compare` below.)
-/

namespace Verif.Brass

open Verif

/-! ## One comparison -/

/-- `x && y`, where the second is only evaluated if the first holds; the numbers are those of the comparisons made. -/
def andThen (x y : Bool × Nat) : Bool × Nat := if x.1 then (y.1, x.2 + y.2) else (false, x.2)

/-- A comparison of values that contain no types. -/
def plain (b : Bool) : Bool × Nat := (b, 0)

mutual
/-- derived `PartialEq for ValueType` (types.rs:95), and how many pairs of types are compared: the fields are compared in the order of their
declaration until two differ. -/
def ValueType.compare : ValueType → ValueType → Bool × Nat
  | ⟨u, a, t, k⟩, ⟨u', a', t', k'⟩ =>
    andThen (true, 1) (andThen (u.compare u') (andThen (plain (a == a')) (andThen (compareOpt t t') (plain (k == k')))))
/-- derived `PartialEq for ValueTypeU` (types.rs:59) -/
def ValueTypeU.compare : ValueTypeU → ValueTypeU → Bool × Nat
  | .func a n r, .func a' n' r' => andThen (plain (a.length == a'.length)) (andThen (compareTypes a a') (andThen (plain (n == n')) (r.compare r')))
  | .obj n s f nf np nb p b g r, .obj n' s' f' nf' np' nb' p' b' g' r' =>
    andThen (plain (n == n')) (andThen (s.compare s') (andThen (plain (f.length == f'.length)) (andThen (compareFields f f')
      (plain (nf == nf' && np == np' && nb == nb' && p == p' && b == b' && g == g' && r == r')))))
  | .virt n f, .virt n' f' => andThen (plain (n == n')) (andThen (plain (f.length == f'.length)) (compareFields f f'))
  | .enum n k c g, .enum n' k' c' g' =>
    andThen (plain (n == n' && k == k')) (andThen (plain (c.length == c'.length)) (andThen (compareConstructs c c') (plain (g == g'))))
  | .ref t, .ref t' => t.compare t'
  | .abstract n, .abstract n' => plain (n == n')
  | .null, .null => plain true
  | .void, .void => plain true
  | _, _ => plain false
/-- derived `PartialEq for ObjField` (types.rs:210) -/
def ObjField.compare : ObjField → ObjField → Bool × Nat
  | ⟨n, h, t⟩, ⟨n', h', t'⟩ => andThen (plain (n == n' && h == h')) (t.compare t')
/-- derived `PartialEq for EnumConstruct` (types.rs:226) -/
def EnumConstruct.compare : EnumConstruct → EnumConstruct → Bool × Nat
  | ⟨n, k, p, s, h, o⟩, ⟨n', k', p', s', h', o'⟩ =>
    andThen (plain (n == n' && k == k')) (andThen (plain (p.length == p'.length)) (andThen (compareTypes p p') (plain (s == s' && h == h' && o == o'))))
/-- `PartialEq for Option<Box<ValueType>>` -/
def compareOpt : Option ValueType → Option ValueType → Bool × Nat
  | none, none => plain true
  | some a, some b => a.compare b
  | _, _ => plain false
/-- `PartialEq for Vec<ValueType>`, after the comparison of the lengths -/
def compareTypes : List ValueType → List ValueType → Bool × Nat
  | [], [] => plain true
  | a :: l, b :: l' => andThen (a.compare b) (compareTypes l l')
  | _, _ => plain false
/-- `PartialEq for Vec<ObjField>`, after the comparison of the lengths -/
def compareFields : List ObjField → List ObjField → Bool × Nat
  | [], [] => plain true
  | a :: l, b :: l' => andThen (a.compare b) (compareFields l l')
  | _, _ => plain false
/-- `PartialEq for Vec<EnumConstruct>`, after the comparison of the lengths -/
def compareConstructs : List EnumConstruct → List EnumConstruct → Bool × Nat
  | [], [] => plain true
  | a :: l, b :: l' => andThen (a.compare b) (compareConstructs l l')
  | _, _ => plain false
end

/-! ## The log -/

/-- Something `alloc` does that takes time. -/
inductive HashStep where
  /-- `*v == t`: an entry of the type table is compared with the type that is searched for -/
  | compare (v t : ValueType)
  /-- `clone()` of the module -/
  | copyModule
  /-- `clone()` of the functions, with their number -/
  | copyFunctions (n : Nat)
  /-- `clone()` of the natives -/
  | copyNatives (n : Nat)
  /-- `clone()` of the types -/
  | copyTypes (n : Nat)
  /-- `clone()` of the globals -/
  | copyGlobals (n : Nat)

/-- A function with a log of its steps, in order. -/
def HW (α : Type) := Rust α × List HashStep

namespace HW

/-- `Ok(a)` -/
protected def pure {α : Type} (a : α) : HW α := (.ret a, [])

/-- `let a = x; f(a)` -/
protected def bind {α β : Type} (x : HW α) (f : α → HW β) : HW β :=
  match x with
  | (.ret a, l) => ((f a).1, l ++ (f a).2)
  | (.panic, l) => (.panic, l)

/-- The `do` notation for sequences of Rust statements (a `?` or a panic ends the sequence); no code of its own. -/
instance : Monad HW where
  pure := HW.pure
  bind := HW.bind

/-- A function without logged steps. -/
def lift {α : Type} (x : Rust α) : HW α := (x, [])

/-- A step. -/
def log (e : HashStep) : HW Unit := (.ret (), [e])

/-- `for i in a..a+n { b = f(i, b) }` -/
def forRange {β : Type} (f : Nat → β → HW β) : (a n : Nat) → β → HW β
  | _, 0, b => HW.pure b
  | a, n + 1, b => HW.bind (f a b) (fun b => forRange f (a + 1) n b)

end HW

namespace CodeHash

/-- `types.iter().position(|v| *v == t)` from position `i` on -/
def searchW (t : ValueType) : List ValueType → Nat → HW (Option Nat)
  | [], _ => HW.pure none
  | v :: l, i => do
    HW.log (.compare v t)
    if v.beq t then pure (some i) else searchW t l (i + 1)

/-- `self.code.types.iter().position(|v| *v == t).unwrap()` -/
def positionW (types : List ValueType) (t : ValueType) : HW Nat := do
  let i ← searchW t types 0
  HW.lift (Rust.unwrap i)

/-- `self.type_hashes[self.code.types.iter().position(|v| *v == t).unwrap()]` -/
def typeHashW (s : CodeHash) (t : ValueType) : HW UInt32 := do
  let i ← positionW s.code.types t
  HW.lift (Rust.get s.typeHashes i)

/-- `hasher.write_u32(self.type_hashes[…])` -/
def writeTypeW (s : CodeHash) (h : Hasher) (t : ValueType) : HW Hasher := do
  let x ← s.typeHashW t
  pure (h.writeU32 x)

/-- code_hash.rs:453-458 `code_hash_type` -/
def codeHashTypeW (s : CodeHash) (t : ValueType) : HW UInt32 := do
  let h ← s.writeTypeW Hasher.new t
  pure h.finalize

/-- code_hash.rs:167-171, 215-219 -/
def recTypeW (s : CodeHash) (ts : List ValueType) (i : Nat) (h : Hasher) : HW Hasher := do
  let t ← HW.lift (Rust.get ts i)
  s.writeTypeW h t

/-- code_hash.rs:192-195 -/
def recFieldW (s : CodeHash) (fields : List ObjField) (i : Nat) (h : Hasher) : HW Hasher := do
  let f ← HW.lift (Rust.get fields i)
  s.writeTypeW h f.t

/-- code_hash.rs:218-225 -/
def recConstructW (s : CodeHash) (constructs : List EnumConstruct) (i : Nat) (h : Hasher) : HW Hasher := do
  let con ← HW.lift (Rust.get constructs i)
  HW.forRange (s.recTypeW con.params) 0 con.nparams h

/-- code_hash.rs:162-230: the match of `hash_type_rec` -/
def recKindW (s : CodeHash) (t : ValueType) : HW Hasher :=
  match t.kind with
  | .HFUN | .HMETHOD =>
    match t.union with
    | .func args nargs ret => do
      let h ← HW.forRange (s.recTypeW args) 0 nargs Hasher.new
      s.writeTypeW h ret
    | _ => HW.lift (.ret Hasher.new)
  | .HOBJ | .HSTRUCT =>
    match t.union with
    | .obj _ _ fields nfields _ _ _ _ _ _ => HW.forRange (s.recFieldW fields) 0 nfields Hasher.new
    | _ => HW.lift (.ret Hasher.new)
  | .HREF | .HNULL => do
    let p ← HW.lift (Rust.unwrap t.tparam)
    s.writeTypeW Hasher.new p
  | .HENUM =>
    match t.union with
    | .enum _ nconstructs constructs _ => HW.forRange (s.recConstructW constructs) 0 nconstructs Hasher.new
    | _ => HW.lift (.ret Hasher.new)
  | _ => HW.lift (.ret Hasher.new)

/-- code_hash.rs:160-232 `hash_type_rec` -/
def hashTypeRecW (s : CodeHash) (pos : Nat) : HW UInt32 := do
  let t ← HW.lift (Rust.get s.code.types pos)
  let h ← s.recKindW t
  pure h.finalize

/-- code_hash.rs:35-37 (line 35: `functions.clone()`) -/
def indexFunctionW (c : Code) (i : Nat) (v : List Int) : HW (List Int) := do
  HW.log (.copyFunctions c.functions.length)
  HW.lift (indexFunction c i v)

/-- code_hash.rs:41-43 (line 41: `natives.clone()`) -/
def indexNativeW (c : Code) (i : Nat) (v : List Int) : HW (List Int) := do
  HW.log (.copyNatives c.natives.length)
  HW.lift (indexNative c i v)

/-- code_hash.rs:34-44 -/
def indexesW (c : Code) (v : List Int) : HW (List Int) := do
  let v ← HW.forRange (indexFunctionW c) 0 c.nfunctions v
  HW.forRange (indexNativeW c) 0 c.nnatives v

/-- code_hash.rs:47-48 (line 47: `types.clone()`) -/
def typeHashStepW (c : Code) (i : Nat) (v : List UInt32) : HW (List UInt32) := do
  HW.log (.copyTypes c.types.length)
  HW.lift (typeHashStep c i v)

/-- code_hash.rs:53 -/
def typeHashStep2W (s : CodeHash) (i : Nat) (v : List UInt32) : HW (List UInt32) := do
  let x ← HW.lift (Rust.get s.typeHashes i)
  let y ← s.hashTypeRecW i
  if i ≤ v.length then pure (v.insertIdx i (x ^^^ y)) else HW.lift .panic

/-- code_hash.rs:46-56 -/
def typesW (s : CodeHash) : HW CodeHash := do
  let v ← HW.forRange (typeHashStepW s.code) 0 s.code.ntypes s.typeHashes
  let s := { s with typeHashes := v }
  let w ← HW.forRange s.typeHashStep2W 0 s.code.ntypes (List.replicate s.code.ntypes 0)
  pure { s with typeHashes := w }

/-- code_hash.rs:59-64 (line 59: `globals.clone()`) -/
def globalStepW (i : Nat) (s : CodeHash) : HW CodeHash := do
  HW.log (.copyGlobals s.code.globals.length)
  let v ← HW.lift (Rust.set s.globalsSigns i (UInt32.ofNat (i ||| 0x80000000)))
  let t ← HW.lift (Rust.get s.code.globals i)
  if t.kind = .HABSTRACT then do
    let x ← s.codeHashTypeW t
    let v ← HW.lift (Rust.set v i x)
    pure { s with globalsSigns := v }
  else pure { s with globalsSigns := v }

/-- code_hash.rs:84-85, 96-97 -/
def signGlobalOfW (s : CodeHash) (t : ValueType) (globalValue : List Int) : HW CodeHash := do
  let x ← s.codeHashTypeW t
  let g ← HW.lift (Rust.get globalValue 0)
  let v ← HW.lift (Rust.set s.globalsSigns (asUsize (g - 1)) x)
  pure { s with globalsSigns := v }

/-- code_hash.rs:68-102 (line 68: `types.clone()`) -/
def typeGlobalStepW (i : Nat) (s : CodeHash) : HW CodeHash := do
  HW.log (.copyTypes s.code.types.length)
  let t ← HW.lift (Rust.get s.code.types i)
  match t.kind with
  | .HOBJ | .HSTRUCT =>
    match t.union with
    | .obj _ _ _ _ _ _ _ _ g _ => s.signGlobalOfW t g
    | _ => HW.lift (.ret s)
  | .HENUM =>
    match t.union with
    | .enum _ _ _ g => s.signGlobalOfW t g
    | _ => HW.lift (.ret s)
  | _ => HW.lift (.ret s)

/-- code_hash.rs:155 -/
def globalTypeStepW (i : Nat) (s : CodeHash) : HW CodeHash := do
  let t ← HW.lift (Rust.get s.code.globals i)
  let x ← s.codeHashTypeW t
  let g ← HW.lift (Rust.get s.globalsSigns i)
  let v ← HW.lift (Rust.set s.globalsSigns i (g ^^^ x))
  pure { s with globalsSigns := v }

/-- code_hash.rs:22-159 `CodeHash::alloc` (line 26: `c.clone()`) -/
def allocW (c : Code) : HW CodeHash := do
  HW.log .copyModule
  let v ← indexesW c (init c).functionsIndexes
  let s ← typesW { init c with functionsIndexes := v }
  let s ← HW.forRange globalStepW 0 c.nglobals s
  let s ← HW.forRange typeGlobalStepW 0 c.ntypes s
  let s ← HW.lift (Rust.forRange constantStep 0 c.nconstants s)
  let s ← HW.lift (boot s)
  HW.forRange globalTypeStepW 0 c.nglobals s

/-- The steps of `CodeHash::alloc(c)`, in order. -/
def hashSteps (c : Code) : List HashStep := (allocW c).2

end CodeHash

/-! ## Nothing else was changed -/

/-- Without its log, `x` is `y`. -/
def Logged {α : Type} (x : HW α) (y : Rust α) : Prop := x.1 = y

namespace Logged

theorem pure {α : Type} (a : α) : Logged (Pure.pure a : HW α) (Pure.pure a) := rfl

theorem lift {α : Type} (x : Rust α) : Logged (HW.lift x) x := rfl

theorem bind {α β : Type} {x : HW α} {y : Rust α} {f : α → HW β} {g : α → Rust β} (h : Logged x y) (hf : ∀ a, Logged (f a) (g a)) :
    Logged (x >>= f) (y >>= g) := by
  show (HW.bind x f).1 = Rust.bind y g
  unfold HW.bind
  unfold Logged at h
  rcases x with ⟨o, l⟩
  simp only at h
  subst h
  cases o with
  | ret a => exact hf a
  | panic => rfl

/-- A step is not seen. -/
theorem log {β : Type} {e : HashStep} {f : Unit → HW β} {y : Rust β} (h : Logged (f ()) y) : Logged (HW.log e >>= f) y := h

theorem forRange {β : Type} {f : Nat → β → HW β} {g : Nat → β → Rust β} (h : ∀ i b, Logged (f i b) (g i b)) :
    ∀ (n a : Nat) (b : β), Logged (HW.forRange f a n b) (Rust.forRange g a n b)
  | 0, _, _ => rfl
  | n + 1, a, b => bind (h a b) fun b => forRange h n (a + 1) b

theorem ite {α : Type} {b : Prop} [Decidable b] {x x' : HW α} {y y' : Rust α} (h : Logged x y) (h' : Logged x' y') :
    Logged (if b then x else x') (if b then y else y') := by split <;> assumption

theorem search (t : ValueType) : ∀ (l : List ValueType) (i : Nat), (CodeHash.searchW t l i).1 = .ret ((l.findIdx? fun v => v.beq t).map (i + ·))
  | [], _ => rfl
  | v :: l, i => by
    unfold CodeHash.searchW
    show (if v.beq t = true then (Pure.pure (some i) : HW (Option Nat)) else CodeHash.searchW t l (i + 1)).1 = _
    rw [List.findIdx?_cons]
    by_cases h : v.beq t = true
    · rw [if_pos h, if_pos h]; rfl
    · rw [if_neg h, if_neg h, search t l (i + 1), Option.map_map]
      congr 2
      funext j
      simp only [Function.comp]
      omega

theorem position (types : List ValueType) (t : ValueType) : Logged (CodeHash.positionW types t) (CodeHash.position types t) := by
  have h := search t types 0
  unfold CodeHash.positionW CodeHash.position Logged
  show (HW.bind (CodeHash.searchW t types 0) _).1 = _
  unfold HW.bind
  rcases hx : CodeHash.searchW t types 0 with ⟨o, l⟩
  rw [hx] at h
  simp only at h
  subst h
  simp [HW.lift]

theorem typeHash (s : CodeHash) (t : ValueType) : Logged (s.typeHashW t) (s.typeHash t) := bind (position _ _) fun _ => lift _
theorem writeType (s : CodeHash) (h : Hasher) (t : ValueType) : Logged (s.writeTypeW h t) (s.writeType h t) := bind (typeHash _ _) fun _ => pure _
theorem codeHashType (s : CodeHash) (t : ValueType) : Logged (s.codeHashTypeW t) (s.codeHashType t) := bind (writeType _ _ _) fun _ => pure _
theorem recType (s : CodeHash) (ts : List ValueType) (i : Nat) (h : Hasher) : Logged (s.recTypeW ts i h) (s.recType ts i h) :=
  bind (lift _) fun _ => writeType _ _ _
theorem recField (s : CodeHash) (fs : List ObjField) (i : Nat) (h : Hasher) : Logged (s.recFieldW fs i h) (s.recField fs i h) :=
  bind (lift _) fun _ => writeType _ _ _
theorem recConstruct (s : CodeHash) (ks : List EnumConstruct) (i : Nat) (h : Hasher) : Logged (s.recConstructW ks i h) (s.recConstruct ks i h) :=
  bind (lift _) fun _ => forRange (recType s _) _ _ _

theorem recKind (s : CodeHash) (t : ValueType) : Logged (s.recKindW t) (s.recKind t) := by
  unfold CodeHash.recKindW CodeHash.recKind
  cases t.kind <;> cases t.union <;> first
    | exact lift _
    | exact bind (forRange (recType s _) _ _ _) fun _ => writeType _ _ _
    | exact forRange (recField s _) _ _ _
    | exact bind (lift _) fun _ => writeType _ _ _
    | exact forRange (recConstruct s _) _ _ _

theorem hashTypeRec (s : CodeHash) (i : Nat) : Logged (s.hashTypeRecW i) (s.hashTypeRec i) := bind (lift _) fun _ => bind (recKind _ _) fun _ => pure _

theorem indexes (c : Code) (v : List Int) : Logged (CodeHash.indexesW c v) (CodeHash.indexes c v) :=
  bind (forRange (fun _ _ => log (lift _)) _ _ _) fun _ => forRange (fun _ _ => log (lift _)) _ _ _

theorem typeHashStep2 (s : CodeHash) (i : Nat) (v : List UInt32) : Logged (s.typeHashStep2W i v) (s.typeHashStep2 i v) :=
  bind (lift _) fun _ => bind (hashTypeRec _ _) fun _ => ite (pure _) (lift _)

theorem types (s : CodeHash) : Logged s.typesW s.types :=
  bind (forRange (fun _ _ => log (lift _)) _ _ _) fun _ => bind (forRange (typeHashStep2 _) _ _ _) fun _ => pure _

theorem globalStep (i : Nat) (s : CodeHash) : Logged (CodeHash.globalStepW i s) (CodeHash.globalStep i s) :=
  log (bind (lift _) fun _ => bind (lift _) fun _ => ite (bind (codeHashType _ _) fun _ => bind (lift _) fun _ => pure _) (pure _))

theorem signGlobalOf (s : CodeHash) (t : ValueType) (g : List Int) : Logged (s.signGlobalOfW t g) (s.signGlobalOf t g) :=
  bind (codeHashType _ _) fun _ => bind (lift _) fun _ => bind (lift _) fun _ => pure _

theorem typeGlobalStep (i : Nat) (s : CodeHash) : Logged (CodeHash.typeGlobalStepW i s) (CodeHash.typeGlobalStep i s) := by
  refine log (bind (lift _) fun t => ?_)
  cases t.kind <;> cases t.union <;> first
    | exact lift _
    | exact signGlobalOf _ _ _

theorem globalTypeStep (i : Nat) (s : CodeHash) : Logged (CodeHash.globalTypeStepW i s) (CodeHash.globalTypeStep i s) :=
  bind (lift _) fun _ => bind (codeHashType _ _) fun _ => bind (lift _) fun _ => bind (lift _) fun _ => pure _

theorem alloc (c : Code) : Logged (CodeHash.allocW c) (CodeHash.alloc c) :=
  log (bind (indexes _ _) fun _ => bind (types _) fun _ => bind (forRange globalStep _ _ _) fun _ => bind (forRange typeGlobalStep _ _ _) fun _ =>
    bind (lift _) fun _ => bind (lift _) fun _ => forRange globalTypeStep _ _ _)

end Logged

end Verif.Brass
