import Verif.Brass.TypeHash

/-!
# Model of `brass/src/code_hash.rs`

`i32` and `u32` hashes are `UInt32` (an `i32` is its two's complement bits, so `as i32`/`as u32` do nothing);
`functions_indexes : Vec<i32>` are integers.
-/

namespace Verif.Brass

open Verif

/-- `x as i32` for a `usize` -/
def asI32 (n : Nat) : Int := if n % 2 ^ 32 < 2 ^ 31 then (n % 2 ^ 32 : Nat) else (n % 2 ^ 32 : Nat) - 2 ^ 32

/-- `x as usize` for an `i32` or `isize` -/
def asUsize (i : Int) : Nat := (i % 2 ^ 64).toNat

/-- `x.try_into().unwrap()` from `i32` to `usize` -/
def intoUsize (i : Int) : Rust Nat := if 0 ≤ i then .ret i.toNat else .panic

/-- The bits of an `i32`. -/
def i32Bits (i : Int) : UInt32 := UInt32.ofNat (wrapBits 32 i)

/-- `x as i32` for an `f64` given by its bits: truncation, saturating; NaN gives 0. -/
def f64AsI32 (bits : Nat) : Int :=
  let e := bits / 2 ^ 52 % 2 ^ 11
  let m := bits % 2 ^ 52
  let neg := bits / 2 ^ 63 % 2 = 1
  let mag : Nat := if e = 0 then 0 else if e < 1075 then (2 ^ 52 + m) / 2 ^ (1075 - e) else (2 ^ 52 + m) * 2 ^ (e - 1075)
  if e = 2047 ∧ m ≠ 0 then 0
  else if neg then (if mag ≤ 2 ^ 31 then -(mag : Int) else -2 ^ 31)
  else (if mag < 2 ^ 31 then (mag : Int) else 2 ^ 31 - 1)

/-- code_hash.rs:12-19 `CodeHash` -/
structure CodeHash where
  code : Code
  typeHashes : List UInt32
  globalsSigns : List UInt32
  functionsSigns : List UInt32
  functionsHashes : List UInt32
  functionsIndexes : List Int

namespace CodeHash

/-- `self.code.types.iter().position(|v| *v == t).unwrap()` -/
def position (types : List ValueType) (t : ValueType) : Rust Nat := Rust.unwrap (types.findIdx? fun v => v.beq t)

/-- `self.type_hashes[self.code.types.iter().position(|v| *v == t).unwrap()]` -/
def typeHash (s : CodeHash) (t : ValueType) : Rust UInt32 := do
  let i ← position s.code.types t
  Rust.get s.typeHashes i

/-- `hasher.write_u32(self.type_hashes[…])` -/
def writeType (s : CodeHash) (h : Hasher) (t : ValueType) : Rust Hasher := do
  let x ← s.typeHash t
  pure (h.writeU32 x)

/-- code_hash.rs:453-458 `code_hash_type` -/
def codeHashType (s : CodeHash) (t : ValueType) : Rust UInt32 := do
  let h ← s.writeType Hasher.new t
  pure h.finalize

/-- code_hash.rs:167-171, 215-219: the `i`-th of a list of types -/
def recType (s : CodeHash) (ts : List ValueType) (i : Nat) (h : Hasher) : Rust Hasher := do
  let t ← Rust.get ts i
  s.writeType h t

/-- code_hash.rs:192-195: the type of the `i`-th field -/
def recField (s : CodeHash) (fields : List ObjField) (i : Nat) (h : Hasher) : Rust Hasher := do
  let f ← Rust.get fields i
  s.writeType h f.t

/-- code_hash.rs:218-225: the types of the `i`-th construct -/
def recConstruct (s : CodeHash) (constructs : List EnumConstruct) (i : Nat) (h : Hasher) : Rust Hasher := do
  let con ← Rust.get constructs i
  Rust.forRange (s.recType con.params) 0 con.nparams h

/-- code_hash.rs:162-230: the match of `hash_type_rec` -/
def recKind (s : CodeHash) (t : ValueType) : Rust Hasher :=
  match t.kind with
  | .HFUN | .HMETHOD =>
    match t.union with
    | .func args nargs ret => do
      let h ← Rust.forRange (s.recType args) 0 nargs Hasher.new
      s.writeType h ret
    | _ => .ret Hasher.new
  | .HOBJ | .HSTRUCT =>
    match t.union with
    | .obj _ _ fields nfields _ _ _ _ _ _ => Rust.forRange (s.recField fields) 0 nfields Hasher.new
    | _ => .ret Hasher.new
  | .HREF | .HNULL => do
    let p ← Rust.unwrap t.tparam
    s.writeType Hasher.new p
  | .HENUM =>
    match t.union with
    | .enum _ nconstructs constructs _ => Rust.forRange (s.recConstruct constructs) 0 nconstructs Hasher.new
    | _ => .ret Hasher.new
  | _ => .ret Hasher.new

/-- code_hash.rs:160-232 `hash_type_rec` -/
def hashTypeRec (s : CodeHash) (pos : Nat) : Rust UInt32 := do
  let t ← Rust.get s.code.types pos
  let h ← s.recKind t
  pure h.finalize

/-! ## `alloc` -/

/-- code_hash.rs:25-32 -/
def init (c : Code) : CodeHash where
  code := c
  typeHashes := List.replicate c.ntypes 0
  globalsSigns := List.replicate c.nglobals 0
  functionsSigns := []
  functionsHashes := []
  functionsIndexes := List.replicate (c.nfunctions + c.nnatives) 0

/-- code_hash.rs:35-37 -/
def indexFunction (c : Code) (i : Nat) (v : List Int) : Rust (List Int) := do
  let f ← Rust.get c.functions i
  Rust.set v f.findex (asI32 i)

/-- code_hash.rs:41-43 -/
def indexNative (c : Code) (i : Nat) (v : List Int) : Rust (List Int) := do
  let n ← Rust.get c.natives i
  Rust.set v n.findex (asI32 (i + c.nfunctions))

/-- code_hash.rs:34-44: `functions_indexes` -/
def indexes (c : Code) (v : List Int) : Rust (List Int) := do
  let v ← Rust.forRange (indexFunction c) 0 c.nfunctions v
  Rust.forRange (indexNative c) 0 c.nnatives v

/-- code_hash.rs:47-48 -/
def typeHashStep (c : Code) (i : Nat) (v : List UInt32) : Rust (List UInt32) := do
  let t ← Rust.get c.types i
  let x ← t.hash false
  Rust.set v i x

/-- code_hash.rs:53: `type_hashes.insert(i, …)`; `s` holds the first round of hashes. -/
def typeHashStep2 (s : CodeHash) (i : Nat) (v : List UInt32) : Rust (List UInt32) := do
  let x ← Rust.get s.typeHashes i
  let y ← s.hashTypeRec i
  if i ≤ v.length then pure (v.insertIdx i (x ^^^ y)) else .panic

/-- code_hash.rs:46-56: the type hashes.  The second buffer ends up with `2 * ntypes` entries. -/
def types (s : CodeHash) : Rust CodeHash := do
  let v ← Rust.forRange (typeHashStep s.code) 0 s.code.ntypes s.typeHashes
  let s := { s with typeHashes := v }
  let w ← Rust.forRange s.typeHashStep2 0 s.code.ntypes (List.replicate s.code.ntypes 0)
  pure { s with typeHashes := w }

/-- code_hash.rs:60-64: the first signature of a global -/
def globalStep (i : Nat) (s : CodeHash) : Rust CodeHash := do
  let v ← Rust.set s.globalsSigns i (UInt32.ofNat (i ||| 0x80000000))
  let t ← Rust.get s.code.globals i
  if t.kind = .HABSTRACT then do
    let x ← s.codeHashType t
    let v ← Rust.set v i x
    pure { s with globalsSigns := v }
  else pure { s with globalsSigns := v }

/-- code_hash.rs:84-85, 96-97: `globals_signs[(global_value[0] - 1) as usize] = code_hash_type(t)` -/
def signGlobalOf (s : CodeHash) (t : ValueType) (globalValue : List Int) : Rust CodeHash := do
  let x ← s.codeHashType t
  let g ← Rust.get globalValue 0
  let v ← Rust.set s.globalsSigns (asUsize (g - 1)) x
  pure { s with globalsSigns := v }

/-- code_hash.rs:68-102: the global of a type -/
def typeGlobalStep (i : Nat) (s : CodeHash) : Rust CodeHash := do
  let t ← Rust.get s.code.types i
  match t.kind with
  | .HOBJ | .HSTRUCT =>
    match t.union with
    | .obj _ _ _ _ _ _ _ _ g _ => s.signGlobalOf t g
    | _ => .ret s
  | .HENUM =>
    match t.union with
    | .enum _ _ _ g => s.signGlobalOf t g
    | _ => .ret s
  | _ => .ret s

/-- code_hash.rs:109-134: one field of a constant of type `tt` -/
def constantField (c : Code) (con : Constant) (tt : ValueType) (k : Nat) (h : Hasher) : Rust Hasher := do
  let index ← Rust.get con.fields k
  match tt.union with
  | .obj _ _ fields _ _ _ _ _ _ _ => do
    let f ← Rust.get fields k
    match f.t.kind with
    | .HI32 => do
      let x ← Rust.get c.ints index
      pure (h.writeI32 x)
    | .HBYTES => do
      let x ← Rust.get c.strings index
      pure (h.write x)
    | _ => .ret h
  | _ => .ret h

/-- code_hash.rs:104-136: one constant -/
def constantStep (i : Nat) (s : CodeHash) : Rust CodeHash := do
  let con ← Rust.get s.code.constants i
  let tt ← Rust.get s.code.globals con.global
  let h ← Rust.forRange (constantField s.code con tt) 0 con.nfields Hasher.new
  let v ← Rust.set s.globalsSigns con.global h.finalize
  pure { s with globalsSigns := v }

/-- code_hash.rs:142-152: one instruction of the entry function.  Line 144: the *instruction* index is used as a global
index.  The tests of lines 146-147 are made from left to right. -/
def bootStep (f : HLFunction) (i : Nat) (s : CodeHash) : Rust CodeHash := do
  let op ← Rust.get f.ops i
  if op.op = .OSetGlobal then do
    let t ← Rust.get s.code.globals i
    if t.kind = .HENUM then do
      let a ← Rust.get f.ops (i - 2)
      if a.op = .OGetArray then do
        let b ← Rust.get f.ops (i - 3)
        if b.op = .OInt then do
          let p2 ← Rust.unwrap b.p2
          let x ← Rust.get s.code.ints (asUsize p2)
          let p1 ← Rust.unwrap op.p1
          let v ← Rust.set s.globalsSigns (asUsize p1) (i32Bits x)
          pure { s with globalsSigns := v }
        else pure s
      else pure s
    else pure s
  else pure s

/-- code_hash.rs:138-152 -/
def boot (s : CodeHash) : Rust CodeHash := do
  let j ← Rust.get s.functionsIndexes s.code.entrypoint
  let f ← Rust.get s.code.functions (asUsize j)
  Rust.forRange (bootStep f) 4 (f.nops - 4) s

/-- code_hash.rs:155: `globals_signs[i] ^= code_hash_type(globals[i])` -/
def globalTypeStep (i : Nat) (s : CodeHash) : Rust CodeHash := do
  let t ← Rust.get s.code.globals i
  let x ← s.codeHashType t
  let g ← Rust.get s.globalsSigns i
  let v ← Rust.set s.globalsSigns i (g ^^^ x)
  pure { s with globalsSigns := v }

/-- code_hash.rs:22-159 `CodeHash::alloc` -/
def alloc (c : Code) : Rust CodeHash := do
  let v ← indexes c (init c).functionsIndexes
  let s ← types { init c with functionsIndexes := v }
  let s ← Rust.forRange globalStep 0 c.nglobals s
  let s ← Rust.forRange typeGlobalStep 0 c.ntypes s
  let s ← Rust.forRange constantStep 0 c.nconstants s
  let s ← boot s
  Rust.forRange globalTypeStep 0 c.nglobals s

/-! ## Functions and natives -/

/-- code_hash.rs:234-241 `hash_native` -/
def hashNative (s : CodeHash) (n : Native) : Rust UInt32 := do
  let h := (Hasher.new.write n.lib).write n.name
  let h ← s.writeType h n.t
  pure h.finalize

/-- code_hash.rs:248-264: the name of the object and of the field, if the function belongs to an object -/
def signObj (obj : Option ValueTypeU) (field : Option FuncField) (h : Hasher) : Rust Hasher :=
  match obj with
  | some (.obj name _ _ _ _ _ _ _ _ _) => do
    let f ← Rust.unwrap field
    pure ((h.write name).write f.name)
  | _ => .ret h

/-- code_hash.rs:266-284: the referred function of the field -/
def signRef (rf : UInt32) (field : Option FuncField) (h : Hasher) : Rust Hasher := do
  let f ← Rust.unwrap field
  match f.rf with
  | none => pure h
  | some r => do
    let h := match r.obj with
      | some (.obj name _ _ _ _ _ _ _ _ _) => h.write name
      | _ => h
    let g ← Rust.unwrap r.field
    pure ((h.write g.name).writeU32 rf)

/-- code_hash.rs:243-286 `hash_fun_sign` -/
def hashFunSign (s : CodeHash) (f : HLFunction) : Rust UInt32 := do
  let h ← s.writeType Hasher.new f.t
  let h ← signObj f.obj f.field h
  let h ← signRef f.rf f.field h
  pure h.finalize

/-- code_hash.rs:288-290 `hfun` -/
def hfun (s : CodeHash) (h : Hasher) (idx : Nat) : Rust Hasher := do
  let j ← Rust.get s.functionsIndexes idx
  let x ← Rust.get s.functionsHashes (asUsize j)
  pure (h.writeU32 x)

/-- `hasher.write_i32(o.p.unwrap())` -/
def writeP (h : Hasher) (p : Option Int) : Rust Hasher := do
  let x ← Rust.unwrap p
  pure (h.writeI32 x)

/-- `self.hfun(&mut hasher, o.p2.unwrap().try_into().unwrap())` -/
def callP (s : CodeHash) (h : Hasher) (p : Option Int) : Rust Hasher := do
  let x ← Rust.unwrap p
  let i ← intoUsize x
  s.hfun h i

/-- `hasher.write_isize(o.extra[i])` -/
def writeExtra (extra : List Int) (i : Nat) (h : Hasher) : Rust Hasher := do
  let x ← Rust.get extra i
  pure (h.writeIsize x)

/-- code_hash.rs:389-447: the operands of the other opcodes, by their layout -/
def hashOperands (h : Hasher) (o : Opcode) : Rust Hasher := do
  let n ← Rust.get OP_NARGS o.op.toNat
  if n = 0 then pure h
  else if n = 1 then writeP h o.p1
  else if n = 2 then do
    let h ← writeP h o.p1
    writeP h o.p2
  else if n = 3 then do
    let h ← writeP h o.p1
    let h ← writeP h o.p2
    writeP h o.p3
  else if n = 4 then do
    let h ← writeP h o.p1
    let h ← writeP h o.p2
    let h ← writeP h o.p3
    writeExtra o.extra 0 h
  else if n = -1 then
    match o.op with
    | .OCallN | .OCallClosure | .OCallMethod | .OCallThis | .OMakeEnum => do
      let h ← writeP h o.p1
      let h ← writeP h o.p2
      let h ← writeP h o.p3
      let m ← Rust.unwrap o.p3
      Rust.forRange (writeExtra o.extra) 0 m.toNat h
    | .OSwitch => do
      let h ← writeP h o.p1
      let h ← writeP h o.p2
      let m ← Rust.unwrap o.p2
      let h ← Rust.forRange (writeExtra o.extra) 0 m.toNat h
      writeP h o.p3
    | _ => pure h
  else do
    let h ← writeP h o.p1
    let h ← writeP h o.p2
    let h ← writeP h o.p3
    Rust.forRange (writeExtra o.extra) 0 (n - 3).toNat h

/-- code_hash.rs:307-448: one instruction, after its opcode byte -/
def hashArgs (s : CodeHash) (h : Hasher) (o : Opcode) : Rust Hasher :=
  match o.op with
  | .OInt => do
    let h ← writeP h o.p1
    let p2 ← Rust.unwrap o.p2
    let i ← intoUsize p2
    let x ← Rust.get s.code.ints i
    pure (h.writeI32 x)
  | .OFloat => do
    let h ← writeP h o.p1
    let p2 ← Rust.unwrap o.p2
    let i ← intoUsize p2
    let x ← Rust.get s.code.floats (i <<< 1)
    let h := h.writeI32 (f64AsI32 x)
    let y ← Rust.get s.code.floats ((i <<< 1) ||| 1)
    pure (h.writeI32 (f64AsI32 y))
  | .OString => do
    let h ← writeP h o.p1
    let p2 ← Rust.unwrap o.p2
    let i ← intoUsize p2
    let x ← Rust.get s.code.strings i
    pure (h.write x)
  | .OType => do
    let h ← writeP h o.p1
    let p2 ← Rust.unwrap o.p2
    let i ← intoUsize p2
    let t ← Rust.get s.code.types i
    s.writeType h t
  | .OCall0 => do
    let h ← writeP h o.p1
    s.callP h o.p2
  | .OCall1 => do
    let h ← writeP h o.p1
    let h ← s.callP h o.p2
    writeP h o.p3
  | .OCall2 => do
    let h ← writeP h o.p1
    let h ← s.callP h o.p2
    let h ← writeP h o.p3
    writeExtra o.extra 0 h
  | .OCall3 => do
    let h ← writeP h o.p1
    let h ← s.callP h o.p2
    let h ← writeP h o.p3
    let h ← writeExtra o.extra 0 h
    writeExtra o.extra 1 h
  | .OCall4 => do
    let h ← writeP h o.p1
    let h ← s.callP h o.p2
    let h ← writeP h o.p3
    let h ← writeExtra o.extra 0 h
    let h ← writeExtra o.extra 1 h
    writeExtra o.extra 2 h
  | .OCallN => do
    let h ← writeP h o.p1
    let h ← s.callP h o.p2
    let h ← writeP h o.p3
    let m ← Rust.unwrap o.p3
    Rust.forRange (writeExtra o.extra) 0 m.toNat h
  | .OStaticClosure => do
    let h ← writeP h o.p1
    s.callP h o.p2
  | .OInstanceClosure => do
    let h ← writeP h o.p1
    let h ← s.callP h o.p2
    writeP h o.p3
  | .ODynGet => do
    let h ← writeP h o.p1
    let h ← writeP h o.p2
    let p3 ← Rust.unwrap o.p3
    let x ← Rust.get s.code.strings (asUsize p3)
    pure (h.write x)
  | .ODynSet => do
    let h ← writeP h o.p1
    let p2 ← Rust.unwrap o.p2
    let x ← Rust.get s.code.strings (asUsize p2)
    writeP (h.write x) o.p3
  | _ => hashOperands h o

/-- code_hash.rs:295-303 -/
def hashReg (s : CodeHash) (regs : List ValueType) (i : Nat) (h : Hasher) : Rust Hasher := do
  let t ← Rust.get regs i
  s.writeType h t

/-- code_hash.rs:304-449 -/
def hashOp (s : CodeHash) (ops : List Opcode) (k : Nat) (h : Hasher) : Rust Hasher := do
  let o ← Rust.get ops k
  s.hashArgs (h.writeU8 (UInt8.ofNat o.op.toNat)) o

/-- code_hash.rs:292-452 `hash_fun` -/
def hashFun (s : CodeHash) (f : HLFunction) : Rust UInt32 := do
  let h ← Rust.forRange (s.hashReg f.regs) 0 f.nregs Hasher.new
  let h ← Rust.forRange (s.hashOp f.ops) 0 f.nops h
  pure h.finalize

/-! ## `finalize` -/

/-- code_hash.rs:463-466 -/
def signFunction (s : CodeHash) (i : Nat) (v : List UInt32) : Rust (List UInt32) := do
  let f ← Rust.get s.code.functions i
  let x ← s.hashFunSign f
  Rust.set v i x

/-- code_hash.rs:467-470; the index is not shifted by the number of functions. -/
def signNative (s : CodeHash) (i : Nat) (v : List UInt32) : Rust (List UInt32) := do
  let f ← Rust.get s.code.natives i
  let x ← s.hashNative f
  Rust.set v i x

/-- code_hash.rs:473-476: `functions_hashes[i] = hash_fun(f)`, where `hash_fun` reads the hashes so far. -/
def hashFunction (i : Nat) (s : CodeHash) : Rust CodeHash := do
  let f ← Rust.get s.code.functions i
  let x ← s.hashFun f
  let v ← Rust.set s.functionsHashes i x
  pure { s with functionsHashes := v }

/-- code_hash.rs:460-477 `finalize` -/
def finalize (s : CodeHash) : Rust CodeHash := do
  let v ← Rust.forRange s.signFunction 0 s.code.nfunctions (List.replicate (s.code.nfunctions + s.code.nnatives) 0)
  let v ← Rust.forRange s.signNative 0 s.code.nnatives v
  let s := { s with functionsSigns := v, functionsHashes := List.replicate s.code.nfunctions 0 }
  Rust.forRange hashFunction 0 s.code.nfunctions s

end CodeHash

end Verif.Brass
