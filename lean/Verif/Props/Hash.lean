import Verif.Brass.HashLemmas
import Verif.Brass.SpecEq

/-!
# Hashes of byte strings and functions (C46, C47, C54)
-/

namespace Verif.Brass

open Verif Verif.Brass.Spec

/-! ## C46: CRC-32 -/

/-- **C46** Writing in pieces is writing the concatenation, whatever was written before. -/
theorem c46_incremental (h : Hasher) (pieces : List (List UInt8)) :
    pieces.foldl Hasher.write h = h.write pieces.flatten := by
  induction pieces generalizing h with
  | nil => simp [Hasher.write_nil]
  | cons a l ih => rw [List.foldl_cons, ih, Hasher.write_append, List.flatten_cons]

/-- **C46** The hash of a string fed in any number of pieces is the CRC-32 of the string: the remainder of the division of
the message polynomial by the IEEE generator (`Spec/Crc.lean`). -/
theorem c46_crc32 (pieces : List (List UInt8)) :
    (List.range 32).map (fun i => (pieces.foldl Hasher.write Hasher.new).finalize.toNat.testBit i) = Spec.crc32 pieces.flatten := by
  rw [c46_incremental]
  exact bits32_crcHash pieces.flatten

/-- The specification gives the published check value of CRC-32 on "123456789": 0xCBF43926. -/
example : Spec.crc32 [0x31, 0x32, 0x33, 0x34, 0x35, 0x36, 0x37, 0x38, 0x39] =
    (List.range 32).map (fun i => (0xCBF43926 : Nat).testBit i) := by decide +kernel

example : ([[0x31, 0x32], [], [0x33, 0x34, 0x35, 0x36, 0x37], [0x38, 0x39]].foldl Hasher.write Hasher.new).finalize = 0xCBF43926 := by
  decide +kernel

/-! ## C47: a changed word changes the hash -/

/-- **C47** Two byte strings that differ only in a window of at most four bytes have different hashes. -/
theorem c47_word_detected (pre w w' post : List UInt8) (hl : w.length = w'.length) (h4 : w.length ≤ 4) (hne : w ≠ w') :
    crc (pre ++ w ++ post) ≠ crc (pre ++ w' ++ post) := by
  rw [crc_fun]
  intro h
  have e : Hasher.new.write (pre ++ w ++ post) = Hasher.new.write (pre ++ w' ++ post) := by
    have : (Hasher.new.write (pre ++ w ++ post)).state = (Hasher.new.write (pre ++ w' ++ post)).state := h
    cases h1 : Hasher.new.write (pre ++ w ++ post)
    cases h2 : Hasher.new.write (pre ++ w' ++ post)
    rw [h1, h2] at this
    simpa using this
  rw [← Hasher.write_append, ← Hasher.write_append, ← Hasher.write_append Hasher.new, ← Hasher.write_append Hasher.new] at e
  exact hne (Hasher.write_inj_bytes h4 hl (Hasher.write_inj e))

/-- The bound is sharp: two strings of five bytes that differ only in one window of five bytes can collide. -/
theorem c47_five_bytes_can_collide : ∃ w w' : List UInt8, w.length = 5 ∧ w'.length = 5 ∧ w ≠ w' ∧ crc w = crc w' :=
  ⟨[0, 0, 0, 0, 0], [0x41, 0x06, 0x71, 0xdb, 0x01], rfl, rfl, by decide, by rw [crc_fun]; decide +kernel⟩

/-! ### Functions -/

namespace CodeHash

/-- Functions that differ only in the instruction `k`, which is told apart, are told apart. -/
theorem fun_op_differ {s : CodeHash} {f : HLFunction} {k : Nat} {o o' : Opcode} (hk : f.ops[k]? = some o) (hn : k < f.nops)
    (hS : Sep (fun h => s.hashArgs (h.writeU8 (UInt8.ofNat o.op.toNat)) o) (fun h => s.hashArgs (h.writeU8 (UInt8.ofNat o'.op.toNat)) o'))
    {x x' : UInt32} (e : s.hashFun f = .ret x) (e' : s.hashFun { f with ops := f.ops.set k o' } = .ret x') : x ≠ x' := by
  rintro rfl
  have hl : k < f.ops.length := (List.getElem?_eq_some_iff.1 hk).1
  have H : Sep (fun h => Rust.forRange (s.hashOp f.ops) 0 f.nops h) (fun h => Rust.forRange (s.hashOp (f.ops.set k o')) 0 f.nops h) := by
    refine Sep.forRange hn (fun i => app_op s f.ops i) (fun i hi h => ?_) ?_
    · unfold hashOp Rust.get
      rw [List.getElem?_set_ne (Ne.symm hi)]
    · intro h y a b
      unfold hashOp Rust.get at a b
      rw [hk] at a
      rw [List.getElem?_set_self hl] at b
      exact hS h y a b
  unfold hashFun at e e'
  cases hr : Rust.forRange (s.hashReg f.regs) 0 f.nregs Hasher.new with
  | panic => rw [hr] at e; cases e
  | ret r =>
    rw [hr] at e e'
    simp only [Rust.bind_ret] at e e'
    cases h1 : Rust.forRange (s.hashOp f.ops) 0 f.nops r with
    | panic => rw [h1] at e; cases e
    | ret y =>
      cases h2 : Rust.forRange (s.hashOp (f.ops.set k o')) 0 f.nops r with
      | panic => rw [h2] at e'; cases e'
      | ret y' =>
        rw [h1] at e; rw [h2] at e'
        have e1 : y.state = x := Rust.ret.inj e
        have e2 : y'.state = x := Rust.ret.inj e'
        have : y = y' := by cases y; cases y'; simp only at e1 e2; rw [e1, e2]
        subst this
        exact H _ _ h1 h2

/-- The same with the same opcode. -/
theorem fun_args_differ {s : CodeHash} {f : HLFunction} {k : Nat} {o o' : Opcode} (hk : f.ops[k]? = some o) (hn : k < f.nops)
    (ho : o'.op = o.op) (hS : Sep (fun h => s.hashArgs h o) (fun h => s.hashArgs h o'))
    {x x' : UInt32} (e : s.hashFun f = .ret x) (e' : s.hashFun { f with ops := f.ops.set k o' } = .ret x') : x ≠ x' :=
  fun_op_differ hk hn (by rw [ho]; intro h y a b; exact hS _ y a b) e e'

theorem i32_mod {v v' : Int} (h : IsI32 v) (h' : IsI32 v') (hne : v ≠ v') : v % 2 ^ 32 ≠ v' % 2 ^ 32 := by
  obtain ⟨a, b⟩ := h
  obtain ⟨c, d⟩ := h'
  omega

theorem plain_args (s : CodeHash) (h : Hasher) (o : Opcode) (hp : o.op ∉ secondRefers) (hg : o.op ≠ .ODynGet) :
    s.hashArgs h o = hashOperands h o := by
  unfold hashArgs
  split <;> rename_i e
  all_goals first
    | rfl
    | exact absurd e hg
    | (rw [e] at hp; exact absurd (by decide) hp)

theorem plain_operands (h : Hasher) (o : Opcode) (op' : Op) (hsize : OP_NARGS[op'.toNat]? = OP_NARGS[o.op.toNat]?)
    (hfix : OP_NARGS[o.op.toNat]? ≠ some (-1)) : hashOperands h { o with op := op' } = hashOperands h o := by
  have e : Rust.get OP_NARGS op'.toNat = Rust.get OP_NARGS o.op.toNat := by unfold Rust.get; rw [hsize]
  unfold hashOperands
  simp only [e]
  cases hn : Rust.get OP_NARGS o.op.toNat with
  | panic => rfl
  | ret n =>
    have : n ≠ -1 := by
      rintro rfl
      exact hfix (get_ret hn)
    simp only [Rust.bind_ret, this, if_false]

end CodeHash

open CodeHash

theorem nargs_ne {op : Op} {n : Nat} (h : hlShape op ≠ .args n) : OP_NARGS[op.toNat]? ≠ some (n : Int) := by
  rw [arity_eq]
  intro e
  apply h
  cases hs : hlShape op with
  | args m => rw [hs] at e; simp only [Shape.arity, Option.some.injEq] at e; congr 1; omega
  | call => rw [hs] at e; simp only [Shape.arity, Option.some.injEq] at e; omega
  | switch => rw [hs] at e; simp only [Shape.arity, Option.some.injEq] at e; omega

/-- **C47** Changing the first operand of one instruction (any instruction with operands) changes the hash of the function. -/
theorem c47_operand1 (s : CodeHash) (f : HLFunction) (k : Nat) (o : Opcode) (v v' : Int) (x x' : UInt32)
    (hk : f.ops[k]? = some o) (hn : k < f.nops) (hv : o.p1 = some v) (iv : IsI32 v) (iv' : IsI32 v') (hne : v ≠ v')
    (h0 : hlShape o.op ≠ .args 0)
    (e : s.hashFun f = .ret x) (e' : s.hashFun { f with ops := f.ops.set k { o with p1 := some v' } } = .ret x') : x ≠ x' := by
  refine fun_args_differ (o' := { o with p1 := some v' }) hk hn rfl ?_ e e'
  have := sep_p1 s o (nargs_ne h0) (i32_mod iv iv' hne)
  rw [← hv] at this
  exact this

/-- **C47** Changing the second operand of one instruction changes the hash, unless it is a reference or a count. -/
theorem c47_operand2 (s : CodeHash) (f : HLFunction) (k : Nat) (o : Opcode) (v v' : Int) (x x' : UInt32)
    (hk : f.ops[k]? = some o) (hn : k < f.nops) (hv : o.p2 = some v) (iv : IsI32 v) (iv' : IsI32 v') (hne : v ≠ v')
    (h0 : hlShape o.op ≠ .args 0) (h1 : hlShape o.op ≠ .args 1) (hr : o.op ∉ secondRefers) (hs : o.op ≠ .OSwitch)
    (e : s.hashFun f = .ret x) (e' : s.hashFun { f with ops := f.ops.set k { o with p2 := some v' } } = .ret x') : x ≠ x' := by
  refine fun_args_differ (o' := { o with p2 := some v' }) hk hn rfl ?_ e e'
  have := sep_p2 s o (nargs_ne h0) (nargs_ne h1) hr hs (i32_mod iv iv' hne)
  rw [← hv] at this
  exact this

/-- **C47** Changing the third operand of one instruction changes the hash, unless it is a string reference or a count. -/
theorem c47_operand3 (s : CodeHash) (f : HLFunction) (k : Nat) (o : Opcode) (v v' : Int) (x x' : UInt32)
    (hk : f.ops[k]? = some o) (hn : k < f.nops) (hv : o.p3 = some v) (iv : IsI32 v) (iv' : IsI32 v') (hne : v ≠ v')
    (h0 : hlShape o.op ≠ .args 0) (h1 : hlShape o.op ≠ .args 1) (h2 : hlShape o.op ≠ .args 2)
    (hr : o.op ∉ thirdCounts) (hs : o.op ≠ .ODynGet)
    (e : s.hashFun f = .ret x) (e' : s.hashFun { f with ops := f.ops.set k { o with p3 := some v' } } = .ret x') : x ≠ x' := by
  refine fun_args_differ (o' := { o with p3 := some v' }) hk hn rfl ?_ e e'
  have := sep_p3 s o (nargs_ne h0) (nargs_ne h1) (nargs_ne h2) hr hs (i32_mod iv iv' hne)
  rw [← hv] at this
  exact this

/-- **C47** Changing one further operand (a register, argument or jump target: not negative) changes the hash. -/
theorem c47_extra_operand (s : CodeHash) (f : HLFunction) (k i : Nat) (o : Opcode) (v v' : Int) (x x' : UInt32)
    (hk : f.ops[k]? = some o) (hn : k < f.nops) (hi : i < extraOperands o) (hv : o.extra[i]? = some v)
    (iv : 0 ≤ v ∧ v < 2 ^ 32) (iv' : 0 ≤ v' ∧ v' < 2 ^ 32) (hne : v ≠ v')
    (e : s.hashFun f = .ret x) (e' : s.hashFun { f with ops := f.ops.set k { o with extra := o.extra.set i v' } } = .ret x') : x ≠ x' := by
  exact fun_args_differ (o' := { o with extra := o.extra.set i v' }) hk hn rfl (sep_args_extra s o hi hv (by omega) (by omega)) e e'

/-- **C47** Making an instruction `OInt` load another constant changes the hash if the constants are different. -/
theorem c47_int_constant (s : CodeHash) (f : HLFunction) (k : Nat) (o : Opcode) (i j : Nat) (v v' : Int) (x x' : UInt32)
    (hk : f.ops[k]? = some o) (hn : k < f.nops) (ho : o.op = .OInt) (hi : o.p2 = some (i : Int))
    (hv : s.code.ints[i]? = some v) (hv' : s.code.ints[j]? = some v') (iv : IsI32 v) (iv' : IsI32 v') (hne : v ≠ v')
    (e : s.hashFun f = .ret x) (e' : s.hashFun { f with ops := f.ops.set k { o with p2 := some (j : Int) } } = .ret x') : x ≠ x' := by
  refine fun_args_differ (o' := { o with p2 := some (j : Int) }) hk hn rfl ?_ e e'
  obtain ⟨op, p1, p2, p3, extra⟩ := o
  simp only at ho hi
  subst ho hi
  refine Sep.tail ?_
  intro h y a b
  have a' : (Rust.ret (h.writeI32 v)) = Rust.ret y := by
    rw [← a]; simp [intoUsize, Rust.get, hv]
  have b' : (Rust.ret (h.writeI32 v')) = Rust.ret y := by
    rw [← b]; simp [intoUsize, Rust.get, hv']
  exact Sep.i32 (i32_mod iv iv' hne) h y a' b'

/-- **C47** Making an instruction `OType` refer to another type changes the hash if the hashes of the types are different. -/
theorem c47_type_reference (s : CodeHash) (f : HLFunction) (k : Nat) (o : Opcode) (i j : Nat) (t t' : ValueType) (v v' x x' : UInt32)
    (hk : f.ops[k]? = some o) (hn : k < f.nops) (ho : o.op = .OType) (hi : o.p2 = some (i : Int))
    (ht : s.code.types[i]? = some t) (ht' : s.code.types[j]? = some t') (hv : TypeEntry s t v) (hv' : TypeEntry s t' v')
    (hne : v ≠ v')
    (e : s.hashFun f = .ret x) (e' : s.hashFun { f with ops := f.ops.set k { o with p2 := some (j : Int) } } = .ret x') : x ≠ x' := by
  rw [← typeHash_iff] at hv hv'
  refine fun_args_differ (o' := { o with p2 := some (j : Int) }) hk hn rfl ?_ e e'
  obtain ⟨op, p1, p2, p3, extra⟩ := o
  simp only at ho hi
  subst ho hi
  refine Sep.tail ?_
  intro h y a b
  have a' : (Rust.ret (h.writeU32 v)) = Rust.ret y := by
    rw [← a]; simp [intoUsize, Rust.get, ht, writeType, hv]
  have b' : (Rust.ret (h.writeU32 v')) = Rust.ret y := by
    rw [← b]; simp [intoUsize, Rust.get, ht', writeType, hv']
  exact Sep.u32 hne h y a' b'

/-- **C47** Making a call or closure instruction refer to another function changes the hash of the caller if the current
hashes of the functions are different. -/
theorem c47_callee (s : CodeHash) (f : HLFunction) (k : Nat) (o : Opcode) (i j : Nat) (a b : Nat) (v v' x x' : UInt32)
    (hk : f.ops[k]? = some o) (hn : k < f.nops) (ho : o.op ∈ secondCalls) (hi : o.p2 = some (i : Int))
    (ha : s.functionsIndexes[i]? = some (a : Int)) (hb : s.functionsIndexes[j]? = some (b : Int)) (la : a < 2 ^ 64) (lb : b < 2 ^ 64)
    (hv : s.functionsHashes[a]? = some v) (hv' : s.functionsHashes[b]? = some v') (hne : v ≠ v')
    (e : s.hashFun f = .ret x) (e' : s.hashFun { f with ops := f.ops.set k { o with p2 := some (j : Int) } } = .ret x') : x ≠ x' := by
  refine fun_args_differ (o' := { o with p2 := some (j : Int) }) hk hn rfl ?_ e e'
  have S : Sep (fun h => s.callP h (some (i : Int))) (fun h => s.callP h (some (j : Int))) := by
    intro h y e1 e2
    have ha' : asUsize (a : Int) = a := by unfold asUsize; omega
    have hb' : asUsize (b : Int) = b := by unfold asUsize; omega
    have e1' : (Rust.ret (h.writeU32 v)) = Rust.ret y := by
      rw [← e1]; simp [callP, intoUsize, hfun, Rust.get, ha, ha', hv]
    have e2' : (Rust.ret (h.writeU32 v')) = Rust.ret y := by
      rw [← e2]; simp [callP, intoUsize, hfun, Rust.get, hb, hb', hv']
    exact Sep.u32 hne h y e1' e2'
  have w := app_writeP
  obtain ⟨op, p1, p2, p3, extra⟩ := o
  simp only at ho hi
  subst hi
  simp only [secondCalls, List.mem_cons, List.not_mem_nil, or_false] at ho
  rcases ho with rfl | rfl | rfl | rfl | rfl | rfl | rfl | rfl
  · exact .tail S
  · exact .tail (.head S (w _))
  · exact .tail (.head S (.seq (w _) (app_extra _ _)))
  · exact .tail (.head S (.seq (w _) (.seq (app_extra _ _) (app_extra _ _))))
  · exact .tail (.head S (.seq (w _) (.seq (app_extra _ _) (.seq (app_extra _ _) (app_extra _ _)))))
  · exact .tail (.head S (.seq (w _) (.read fun _ => app_extras _ _)))
  · exact .tail S
  · exact .tail (.head S (w _))

/-- **C47** Replacing the opcode of one instruction by another one whose operands are hashed alike (the same number of plain
operands) changes the hash: `OAdd` and `OSub` are told apart. -/
theorem c47_opcode (s : CodeHash) (f : HLFunction) (k : Nat) (o : Opcode) (op' : Op) (x x' : UInt32)
    (hk : f.ops[k]? = some o) (hn : k < f.nops) (hne : op' ≠ o.op)
    (hp : o.op ∉ secondRefers ∧ o.op ≠ .ODynGet) (hp' : op' ∉ secondRefers ∧ op' ≠ .ODynGet)
    (n : Nat) (hsize : hlShape op' = .args n) (hfix : hlShape o.op = .args n)
    (e : s.hashFun f = .ret x) (e' : s.hashFun { f with ops := f.ops.set k { o with op := op' } } = .ret x') : x ≠ x' := by
  refine fun_op_differ (o' := { o with op := op' }) hk hn ?_ e e'
  have hsame : ∀ h, s.hashArgs h { o with op := op' } = s.hashArgs h o := fun h => by
    rw [plain_args s h o hp.1 hp.2, plain_args s h _ hp'.1 hp'.2]
    exact plain_operands h o op' (by rw [arity_eq, arity_eq, hsize, hfix]) (by rw [arity_eq, hfix]; simp [Shape.arity])
  have h1 : (fun h : Hasher => s.hashArgs (h.writeU8 (UInt8.ofNat op'.toNat)) { o with op := op' }) =
      (fun h : Hasher => s.hashArgs (h.writeU8 (UInt8.ofNat op'.toNat)) o) := funext fun h => hsame _
  show Sep _ (fun h : Hasher => s.hashArgs (h.writeU8 (UInt8.ofNat op'.toNat)) { o with op := op' })
  rw [h1]
  refine Sep.head (F := fun h => .ret (h.writeU8 (UInt8.ofNat o.op.toNat))) (G := fun h => .ret (h.writeU8 (UInt8.ofNat op'.toNat)))
    (K := fun h => s.hashArgs h o) (Sep.u8 ?_) (app_args s o)
  intro h
  apply hne
  have := congrArg UInt8.toNat h
  have h1 := o.op.toNat_lt
  have h2 := op'.toNat_lt
  simp at this
  exact Op.toNat_inj (by omega)

/-- **C47** Changing the type of one register changes the hash if the hashes of the types are different. -/
theorem c47_register (s : CodeHash) (f : HLFunction) (i : Nat) (t t' : ValueType) (v v' x x' : UInt32)
    (hi : f.regs[i]? = some t) (hn : i < f.nregs) (hv : TypeEntry s t v) (hv' : TypeEntry s t' v') (hne : v ≠ v')
    (e : s.hashFun f = .ret x) (e' : s.hashFun { f with regs := f.regs.set i t' } = .ret x') : x ≠ x' := by
  rw [← typeHash_iff] at hv hv'
  rintro rfl
  have hl : i < f.regs.length := (List.getElem?_eq_some_iff.1 hi).1
  have S : Sep (fun h => Rust.forRange (s.hashReg f.regs) 0 f.nregs h) (fun h => Rust.forRange (s.hashReg (f.regs.set i t')) 0 f.nregs h) := by
    refine Sep.forRange hn (fun j => app_reg s f.regs j) (fun j hj h => ?_) ?_
    · unfold hashReg Rust.get
      rw [List.getElem?_set_ne (Ne.symm hj)]
    · intro h y a b
      unfold hashReg Rust.get writeType at a b
      rw [hi] at a
      rw [List.getElem?_set_self hl] at b
      simp only [Rust.unwrap_some, Rust.bind_ret, hv, hv'] at a b
      exact Sep.u32 hne h y a b
  have S2 := S.head (Appends.forRange (fun k => app_op s f.ops k) f.nops 0)
  unfold hashFun at e e'
  cases h1 : Rust.forRange (s.hashReg f.regs) 0 f.nregs Hasher.new >>= fun h => Rust.forRange (s.hashOp f.ops) 0 f.nops h with
  | panic =>
    have : (Rust.forRange (s.hashReg f.regs) 0 f.nregs Hasher.new >>= fun h => Rust.forRange (s.hashOp f.ops) 0 f.nops h >>=
      fun h => pure h.finalize) = .panic := by
        cases h3 : Rust.forRange (s.hashReg f.regs) 0 f.nregs Hasher.new with
        | panic => rfl
        | ret y => rw [h3] at h1; simp only [Rust.bind_ret] at h1 ⊢; rw [h1]; rfl
    rw [this] at e; cases e
  | ret y =>
    cases h2 : Rust.forRange (s.hashReg (f.regs.set i t')) 0 f.nregs Hasher.new >>= fun h => Rust.forRange (s.hashOp f.ops) 0 f.nops h with
    | panic =>
      have : (Rust.forRange (s.hashReg (f.regs.set i t')) 0 f.nregs Hasher.new >>= fun h => Rust.forRange (s.hashOp f.ops) 0 f.nops h >>=
        fun h => pure h.finalize) = .panic := by
          cases h3 : Rust.forRange (s.hashReg (f.regs.set i t')) 0 f.nregs Hasher.new with
          | panic => rfl
          | ret y => rw [h3] at h2; simp only [Rust.bind_ret] at h2 ⊢; rw [h2]; rfl
      rw [this] at e'; cases e'
    | ret y' =>
      have e1 : y.state = x := by
        cases h3 : Rust.forRange (s.hashReg f.regs) 0 f.nregs Hasher.new with
        | panic => rw [h3] at e; cases e
        | ret z => rw [h3] at e h1; simp only [Rust.bind_ret] at e h1; rw [h1] at e; exact Rust.ret.inj e
      have e2 : y'.state = x := by
        cases h3 : Rust.forRange (s.hashReg (f.regs.set i t')) 0 f.nregs Hasher.new with
        | panic => rw [h3] at e'; cases e'
        | ret z => rw [h3] at e' h2; simp only [Rust.bind_ret] at e' h2; rw [h2] at e'; exact Rust.ret.inj e'
      have : y = y' := by cases y; cases y'; simp only at e1 e2; rw [e1, e2]
      subst this
      exact S2 _ _ h1 h2

/-! ### A concrete module: the hypotheses of C47 are met -/

/-- A primitive type. -/
def prim (k : TypeKind) : ValueType := { ValueType.default with kind := k }

/-- The hasher state of a small module: two types with different hashes, two functions of which the first is hashed. -/
def hashEx : CodeHash where
  code := { Code.new with types := [prim .HI32, prim .HF64], ntypes := 2, ints := [7, -7], strings := [[0x61], [0x62]], floats := [0, 0] }
  typeHashes := [1, 2]
  globalsSigns := []
  functionsSigns := []
  functionsHashes := [0x1234, 0x5678]
  functionsIndexes := [1, 0]

/-- A function with instructions of several layouts. -/
def funEx : HLFunction where
  t := prim .HI32
  findex := 0
  nregs := 2
  nops := 6
  rf := 0
  regs := [prim .HI32, prim .HF64]
  ops := [⟨.OInt, some 0, some 0, none, []⟩, ⟨.OAdd, some 0, some 1, some 0, []⟩, ⟨.OType, some 0, some 1, none, []⟩,
    ⟨.OCall2, some 0, some 1, some 0, [1]⟩, ⟨.OSwitch, some 0, some 2, some 3, [4, 5, 0, 0]⟩, ⟨.ODynGet, some 0, some 1, some 1, []⟩]
  debug := []
  obj := none
  field := none

/-- Does it return? -/
def Rust.returns {α : Type} : Rust α → Bool
  | .ret _ => true
  | .panic => false

/-- The hypotheses of `c47_operand1..3`, `c47_opcode`, `c47_extra_operand`, `c47_int_constant`, `c47_type_reference`, `c47_callee`
and `c47_register` are met: all the functions involved can be hashed. -/
example : Rust.returns (hashEx.hashFun funEx) = true
    ∧ Rust.returns (hashEx.hashFun { funEx with ops := funEx.ops.set 1 ⟨.OAdd, some 5, some 1, some 0, []⟩ }) = true
    ∧ Rust.returns (hashEx.hashFun { funEx with ops := funEx.ops.set 1 ⟨.OSub, some 0, some 1, some 0, []⟩ }) = true
    ∧ Rust.returns (hashEx.hashFun { funEx with ops := funEx.ops.set 4 ⟨.OSwitch, some 0, some 2, some 3, [4, 6, 0, 0]⟩ }) = true
    ∧ Rust.returns (hashEx.hashFun { funEx with ops := funEx.ops.set 0 ⟨.OInt, some 0, some 1, none, []⟩ }) = true
    ∧ Rust.returns (hashEx.hashFun { funEx with ops := funEx.ops.set 2 ⟨.OType, some 0, some 0, none, []⟩ }) = true
    ∧ Rust.returns (hashEx.hashFun { funEx with ops := funEx.ops.set 3 ⟨.OCall2, some 0, some 0, some 0, [1]⟩ }) = true
    ∧ Rust.returns (hashEx.hashFun { funEx with regs := funEx.regs.set 1 (prim .HI32) }) = true
    ∧ hashEx.typeHash (prim .HI32) = .ret 1 ∧ hashEx.typeHash (prim .HF64) = .ret 2 := by decide +kernel

/-! ## C54: what the hash of a function ignores -/

/-- **C54** Two functions with the same registers and the same instructions, up to the numbering of what they refer to
(`Spec.SameFun`), have the same hash — or both cannot be hashed — whatever their debug information, index, type and owner. -/
theorem c54_renumbering (s s' : CodeHash) (f f' : HLFunction) (h : SameFun s s' f f') : s'.hashFun f' = s.hashFun f := by
  unfold hashFun
  rw [h.nregs, h.nops]
  have e1 : Rust.forRange (s'.hashReg f'.regs) 0 f.nregs Hasher.new = Rust.forRange (s.hashReg f.regs) 0 f.nregs Hasher.new := by
    refine forRange_congr _ _ _ fun i _ hi b => ?_
    obtain ⟨t, t', h1, h2, h3⟩ := h.regs i (by omega)
    simp [hashReg, Rust.get, h1, h2, writeType, typeHash_eq h3]
  rw [e1]
  cases Rust.forRange (s.hashReg f.regs) 0 f.nregs Hasher.new with
  | panic => rfl
  | ret r =>
    simp only [Rust.bind_ret]
    have e2 : Rust.forRange (s'.hashOp f'.ops) 0 f.nops r = Rust.forRange (s.hashOp f.ops) 0 f.nops r := by
      refine forRange_congr _ _ _ fun i _ hi b => ?_
      obtain ⟨o, o', h1, h2, h3⟩ := h.ops i (by omega)
      have ho : o'.op = o.op := h3.1
      simp [hashOp, Rust.get, h1, h2, ho, sameInstr_args h3]
    rw [e2]

/-- **C54** In particular debug information, index, type, owner and field do not matter. -/
theorem c54_ignores (s : CodeHash) (f : HLFunction) (debug : List Int) (findex : Nat) (t : ValueType) (rf : UInt32) (obj : Option ValueTypeU)
    (field : Option FuncField) :
    s.hashFun { f with debug := debug, findex := findex, t := t, rf := rf, obj := obj, field := field } = s.hashFun f := rfl

/-- The module of `hashEx` with renumbered pools and functions. -/
def hashEx' : CodeHash where
  code := { Code.new with types := [prim .HF64, prim .HI32], ntypes := 2, ints := [5, 6, 7], strings := [[0x62]], floats := [] }
  typeHashes := [2, 1]
  globalsSigns := []
  functionsSigns := []
  functionsHashes := [0x5678, 0x1234]
  functionsIndexes := [0, 1]

/-- `funEx` for the renumbered module. -/
def funEx' : HLFunction := { funEx with
  findex := 5
  debug := [1, 2, 3]
  ops := [⟨.OInt, some 0, some 2, none, []⟩, ⟨.OAdd, some 0, some 1, some 0, []⟩, ⟨.OType, some 0, some 0, none, []⟩,
    ⟨.OCall2, some 0, some 1, some 0, [1]⟩, ⟨.OSwitch, some 0, some 2, some 3, [4, 5, 0, 0]⟩, ⟨.ODynGet, some 0, some 1, some 0, []⟩] }

/-- The hypothesis of C54 is met by a real renumbering, of a function that can be hashed. -/
example : SameFun hashEx hashEx' funEx funEx' ∧ Rust.returns (hashEx.hashFun funEx) = true := by
  have e1 : SameEntry hashEx hashEx' (prim .HI32) (prim .HI32) := fun x => by
    rw [← typeHash_iff, ← typeHash_iff, show hashEx'.typeHash (prim .HI32) = hashEx.typeHash (prim .HI32) from by decide +kernel]
  have e2 : SameEntry hashEx hashEx' (prim .HF64) (prim .HF64) := fun x => by
    rw [← typeHash_iff, ← typeHash_iff, show hashEx'.typeHash (prim .HF64) = hashEx.typeHash (prim .HF64) from by decide +kernel]
  refine ⟨⟨rfl, rfl, ?_, ?_⟩, by decide +kernel⟩
  · intro i hi
    match i, hi with
    | 0, _ => exact ⟨_, _, rfl, rfl, e1⟩
    | 1, _ => exact ⟨_, _, rfl, rfl, e2⟩
  · intro i hi
    match i, hi with
    | 0, _ => exact ⟨_, _, rfl, rfl, rfl, rfl, 7, rfl, rfl⟩
    | 1, _ => exact ⟨_, _, rfl, rfl, rfl, rfl, rfl, rfl, rfl⟩
    | 2, _ => exact ⟨_, _, rfl, rfl, rfl, rfl, _, _, rfl, rfl, e2⟩
    | 3, _ => exact ⟨_, _, rfl, rfl, rfl, rfl, rfl, rfl, 0x1234, rfl, rfl⟩
    | 4, _ => exact ⟨_, _, rfl, rfl, rfl, rfl, rfl, rfl, rfl⟩
    | 5, _ => exact ⟨_, _, rfl, rfl, rfl, rfl, rfl, [0x62], rfl, rfl⟩

/-! ## C58, C59: instructions that cannot be hashed -/

/-- A function with an instruction that cannot be hashed cannot be hashed. -/
theorem fun_op_panics {s : CodeHash} {f : HLFunction} {k : Nat} {o : Opcode} (hk : f.ops[k]? = some o) (hn : k < f.nops)
    (hp : ∀ h, s.hashArgs h o = .panic) : s.hashFun f = .panic := by
  unfold hashFun
  cases Rust.forRange (s.hashReg f.regs) 0 f.nregs Hasher.new with
  | panic => rfl
  | ret r =>
    simp only [Rust.bind_ret]
    rw [show f.nops = k + (1 + (f.nops - k - 1)) from by omega, forRange_add]
    cases Rust.forRange (s.hashOp f.ops) 0 k r with
    | panic => rfl
    | ret y =>
      simp only [Rust.bind_ret, Nat.zero_add]
      rw [forRange_add]
      simp [Rust.forRange, hashOp, Rust.get, hk, hp]

/-- **C58** `OFloat` reads the constants `2i` and `2i + 1` instead of the constant `i`: a function that loads a float constant
of the upper half of the pool cannot be hashed. -/
theorem c58_float_panics (s : CodeHash) (f : HLFunction) (k i : Nat) (o : Opcode) (hk : f.ops[k]? = some o) (hn : k < f.nops)
    (ho : o.op = .OFloat) (hi : o.p2 = some (i : Int)) (hf : s.code.floats.length ≤ 2 * i + 1) : s.hashFun f = .panic := by
  refine fun_op_panics hk hn fun h => ?_
  obtain ⟨op, p1, p2, p3, extra⟩ := o
  simp only at ho hi
  subst ho hi
  unfold hashArgs
  simp only
  cases writeP h p1 with
  | panic => rfl
  | ret a =>
    have e : (i <<< 1) ||| 1 = 2 * i + 1 := by
      rw [← Nat.shiftLeft_add_eq_or_of_lt (by decide) i, Nat.shiftLeft_eq]; omega
    simp only [Rust.bind_ret, Rust.unwrap_some, intoUsize, Int.natCast_nonneg, if_true, Int.toNat_natCast]
    cases Rust.get s.code.floats (i <<< 1) with
    | panic => rfl
    | ret x =>
      have : Rust.get s.code.floats (i <<< 1 ||| 1) = .panic := by
        rw [e]; unfold Rust.get; rw [List.getElem?_eq_none hf]; rfl
      simp [this]

/-- **C58** A change of the float pool is noticed only through the entries `2i` and `2i + 1` of the operands `i`: a pool that
differs elsewhere gives the same hash. -/
theorem c58_constant_not_covered (s : CodeHash) (f : HLFunction) (floats : List Nat)
    (h : ∀ o ∈ f.ops, o.op = .OFloat → ∀ i : Nat, o.p2 = some (i : Int) → floats[2 * i]? = s.code.floats[2 * i]? ∧ floats[2 * i + 1]? = s.code.floats[2 * i + 1]?) :
    hashFun { s with code := { s.code with floats := floats } } f = s.hashFun f := by
  have key : ∀ o ∈ f.ops, ∀ b, hashArgs { s with code := { s.code with floats := floats } } b o = s.hashArgs b o := by
    intro o ho b
    by_cases hf : o.op = .OFloat
    · have h := h o ho hf
      obtain ⟨op, p1, p2, p3, extra⟩ := o
      simp only at hf h
      subst hf
      simp only [hashArgs]
      cases writeP b p1 with
      | panic => rfl
      | ret a =>
        simp only [Rust.bind_ret]
        cases p2 with
        | none => rfl
        | some x =>
          simp only [Rust.unwrap_some, Rust.bind_ret, intoUsize]
          split
          · rename_i hx
            obtain ⟨i, rfl⟩ := Int.eq_ofNat_of_zero_le hx
            obtain ⟨h1, h2⟩ := h i rfl
            have e1 : i <<< 1 = 2 * i := by rw [Nat.shiftLeft_eq]; omega
            have e : (i <<< 1) ||| 1 = 2 * i + 1 := by
              rw [← Nat.shiftLeft_add_eq_or_of_lt (by decide) i, Nat.shiftLeft_eq]; omega
            simp only [Rust.bind_ret, Int.toNat_natCast, e, Rust.get, h2]
            rw [e1, h1]
          · rfl
    · unfold hashArgs
      split <;> first | rfl | (exfalso; rename_i e; exact hf e)
  unfold hashFun
  have er : Rust.forRange (hashReg { s with code := { s.code with floats := floats } } f.regs) 0 f.nregs Hasher.new = Rust.forRange (s.hashReg f.regs) 0 f.nregs Hasher.new := rfl
  rw [er]
  cases Rust.forRange (s.hashReg f.regs) 0 f.nregs Hasher.new with
  | panic => rfl
  | ret r =>
    simp only [Rust.bind_ret]
    rw [forRange_congr (g := s.hashOp f.ops) _ _ _ fun k _ _ b => ?_]
    unfold hashOp Rust.get
    cases e : f.ops[k]? with
    | none => rfl
    | some o => exact key o (List.mem_of_getElem? e) _

/-- The module of `hashEx` with four float constants. -/
def floatEx (floats : List Nat) : CodeHash := { hashEx with code := { hashEx.code with floats := floats } }

/-- C58: a function that loads the constant 1 is hashed from the constants 2 and 3; one that loads the constant 2 cannot be hashed. -/
example : Rust.returns ((floatEx [0, 1, 2, 3]).hashFun { funEx with nops := 1, ops := [⟨.OFloat, some 0, some 1, none, []⟩] }) = true ∧
    (floatEx [0, 1, 2, 3]).hashFun { funEx with nops := 1, ops := [⟨.OFloat, some 0, some 1, none, []⟩] } =
      (floatEx [0, 7, 2, 3]).hashFun { funEx with nops := 1, ops := [⟨.OFloat, some 0, some 1, none, []⟩] } ∧
    Rust.returns ((floatEx [0, 1, 2, 3]).hashFun { funEx with nops := 1, ops := [⟨.OFloat, some 0, some 2, none, []⟩] }) = false := by
  refine ⟨by decide +kernel, by decide +kernel, by decide +kernel⟩

end Verif.Brass
