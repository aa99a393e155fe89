import Verif.Brass.ModuleEnc
import Verif.Brass.NoErr
import Verif.Brass.Refs
import Verif.Props.File

/-!
# Round trips: strings, opcodes, debug information, whole modules (C33, C39–C43)
-/

namespace Verif.Brass

open Verif Verif.Brass.Spec

/-! ## C33: string pools -/

/-- **C33** `read_strings` on a serialised string table gives exactly the strings and their lengths in bytes, and stops
right after it.  Each string is shorter than `0x2000` bytes (see C25 for longer sizes), and the blob below `2^31`. -/
theorem c33_strings_roundtrip (ss : List Text) (h : ∀ s ∈ ss, (utf8 s).length < 0x2000) (hb : (blob ss).length < 2 ^ 31)
    (rest : List UInt8) (pos : Nat) (c : Code) :
    readStrings ss.length ⟨hlStrings ss ++ rest, pos, c, none⟩ =
      .ok (ss.map utf8, ss.map fun s => (utf8 s).length) ⟨rest, pos + (hlStrings ss).length, c, none⟩ := by
  refine (Sem.readStrings ss.length).complete c (hlStrings ss) _ c trivial ?_ rest pos
  refine ⟨hlStrings ss, [], _, c, by simp, strings_enc ss h hb c, rfl, ?_, rfl⟩
  simp

/-- The hypotheses of C33 are satisfiable: a two-byte character, the empty string and a NUL inside a string. -/
example : ∃ ss : List Text, (∀ s ∈ ss, (utf8 s).length < 0x2000) ∧ (blob ss).length < 2 ^ 31 ∧ ss.length = 4 ∧
    hlStrings ss = [9, 0, 0, 0, 0xC3, 0xA9, 0, 0, 97, 0, 0, 98, 0, 2, 0, 2, 1] :=
  ⟨[['é'], [], ['a', '\x00'], ['b']], by decide +kernel, by decide +kernel, rfl, by decide +kernel⟩

/-- The loop of `read_strings` keeps the strings it has. -/
theorem readStringsLoop_keeps (st : Str) : ∀ n cursor strs lens s r s', readStringsLoop st n cursor strs lens s = .ok r s' → strs <+: r.1
  | 0, _, strs, lens, s, r, s', h => by cases h; exact List.prefix_refl _
  | n + 1, cursor, strs, lens, s, r, s', h => by
    obtain ⟨sz, s1, _, h⟩ := M.bind_eq_ok h
    obtain ⟨tl, s2, _, h⟩ := M.bind_eq_ok h
    obtain ⟨x, s3, _, h⟩ := M.bind_eq_ok h
    split at h
    · cases h; exact List.prefix_append _ _
    · exact (List.prefix_append _ _).trans (readStringsLoop_keeps st n _ _ _ _ _ _ h)

theorem sliceTo_length {s x : Str} {n : Nat} {t t' : St} (h : sliceTo s n t = .ok x t') : x.length = n := by
  unfold sliceTo at h
  split at h
  · next hb =>
    cases h
    have : n ≤ s.length := by
      unfold isCharBoundary at hb
      split at hb
      · omega
      · split at hb
        · next h0 _ _ => exact Nat.le_of_lt (List.getElem?_eq_some_iff.1 (by assumption)).1
        · simpa using Nat.le_of_eq (by simpa using hb)
    simp [this]
  · cases h

/-- If the sizes of the strings are those of HashLink, then only sizes below `0x2000` are read back. -/
theorem readStringsLoop_short (st : Str) (rest : List UInt8) : ∀ (ss : List Text) cursor strs lens s l s',
    (∀ t ∈ ss, (utf8 t).length < 2 ^ 29) → s.buf = (ss.flatMap fun t => hlIndex (utf8 t).length) ++ rest →
    readStringsLoop st ss.length cursor strs lens s = .ok (strs ++ ss.map utf8, l) s' → ∀ t ∈ ss, (utf8 t).length < 0x2000
  | [], _, _, _, _, _, _, _, _, _ => by simp
  | t :: ss, cursor, strs, lens, s, l, s', hs, hb, h => by
    have h0 := h
    simp only [List.length_cons] at h
    obtain ⟨sz, s1, h1, hA⟩ := M.bind_eq_ok h
    obtain ⟨tl, s2, h2, hB⟩ := M.bind_eq_ok hA
    obtain ⟨x, s3, h3, hC⟩ := M.bind_eq_ok hB
    clear h hA hB h0
    have hx := sliceTo_length h3
    have e2 : s2 = s1 := by unfold sliceFrom at h2; split at h2 <;> cases h2; rfl
    have e3 : s3 = s2 := by unfold sliceTo at h3; split at h3 <;> cases h3; rfl
    have hp : strs ++ [x] <+: strs ++ (t :: ss).map utf8 := by
      split at hC
      · have : (strs ++ (t :: ss).map utf8, l) = (strs ++ [x], lens ++ [x.length]) := (Out.ok.inj hC).1.symm
        rw [(Prod.mk.inj this).1]
        exact List.prefix_refl _
      · exact readStringsLoop_keeps _ _ _ _ _ _ _ _ hC
    have ex : x = utf8 t := by
      rw [List.prefix_append_right_inj, List.map_cons, List.cons_prefix_cons] at hp
      exact hp.1
    have hb' : s.buf = hlIndex (utf8 t).length ++ ((ss.flatMap fun t => hlIndex (utf8 t).length) ++ rest) := by
      rw [hb]; simp
    by_cases hlen : (utf8 t).length < 0x2000
    · have hi := c25_small (utf8 t).length (by simpa using hlen) _ s hb'
      have hu : uindex s = .ok (utf8 t).length { s with buf := (ss.flatMap fun t => hlIndex (utf8 t).length) ++ rest, pos := s.pos + (hlIndex (utf8 t).length).length } := by
        unfold uindex index
        rw [M.bind_ok (by unfold M.unwrap; rw [hi])]
        rfl
      rw [hu] at h1
      cases h1
      have hsz : (utf8 t).length = x.length := by rw [ex]
      rw [List.forall_mem_cons]
      refine ⟨hlen, ?_⟩
      split at hC
      · next hc =>
        have h5 : ss = [] := by
          have : (strs ++ (t :: ss).map utf8, l) = (strs ++ [x], lens ++ [x.length]) := (Out.ok.inj hC).1.symm
          simpa [ex] using (Prod.mk.inj this).1
        subst h5
        simp
      · next hc =>
        refine readStringsLoop_short st rest ss (cursor + (utf8 t).length + 1) (strs ++ [x]) (lens ++ [x.length]) s3 l s' (fun u hu => hs u (List.mem_cons_of_mem _ hu)) (by rw [e3, e2]) ?_
        rw [hC]
        simp [ex]
    · exfalso
      obtain ⟨m, hm, hi⟩ := c25_large_wrong (utf8 t).length (by simpa using hlen) (by simpa using hs t (by simp)) _ s hb'
      have hne : sz ≠ (utf8 t).length := by
        unfold uindex index at h1
        rw [M.bind_ok (by unfold M.unwrap; rw [hi])] at h1
        split at h1
        · cases h1; omega
        · cases h1; omega
      exact hne (by rw [← hx, ex])

/-- **C33** The bound on the sizes is exact: if some string has `0x2000` bytes or more (and all fewer than `2^29`, more than which
HashLink cannot express), then `read_strings` does not return the strings. -/
theorem c33_exactly_short (ss : List Text) (h : ∀ s ∈ ss, (utf8 s).length < 2 ^ 29) (hb : (blob ss).length < 2 ^ 31)
    (rest : List UInt8) (pos : Nat) (c : Code) :
    (∃ l s', readStrings ss.length ⟨hlStrings ss ++ rest, pos, c, none⟩ = .ok (ss.map utf8, l) s') ↔ ∀ s ∈ ss, (utf8 s).length < 0x2000 := by
  constructor
  · rintro ⟨l, s', hr⟩
    unfold readStrings at hr
    obtain ⟨size, s1, h1, hr⟩ := M.bind_eq_ok hr
    have hi := (Sem.unwrap Sem.decodeI32).complete c (leBytesSigned 4 (blob ss).length) (blob ss).length c trivial
      ⟨rfl, leBytes_length _ _, (i32_enc (by omega) (by omega)).symm⟩ (blob ss ++ (ss.flatMap fun s => hlIndex (utf8 s).length) ++ rest) pos
    rw [show hlStrings ss ++ rest = leBytesSigned 4 (blob ss).length ++ (blob ss ++ (ss.flatMap fun s => hlIndex (utf8 s).length) ++ rest) by
      simp [hlStrings], hi] at h1
    cases h1
    rw [if_neg (by omega)] at hr
    obtain ⟨bytes, s2, h2, hr⟩ := M.bind_eq_ok hr
    have hp := (Sem.peekAdvance (blob ss).length).complete c (blob ss) (blob ss) c trivial ⟨rfl, rfl, rfl⟩ ((ss.flatMap fun s => hlIndex (utf8 s).length) ++ rest)
      (pos + (leBytesSigned 4 ((blob ss).length : Int)).length)
    rw [List.append_assoc, Int.toNat_natCast, hp] at h2
    cases h2
    exact readStringsLoop_short _ rest ss 0 [] [] _ l s' h rfl hr
  · intro hs
    exact ⟨_, _, c33_strings_roundtrip ss hs hb rest pos c⟩

/-! ## C39: opcodes round-trip -/

/-- **C39** `read_opcode` on the serialisation of an instruction gives its opcode and operands and consumes exactly its
bytes, whatever the decoder knows. -/
theorem c39_opcode_roundtrip (i : Instr) (hi : i.Ok) (rest : List UInt8) (pos : Nat) (c : Code) :
    readOpcode ⟨i.encode ++ rest, pos, c, none⟩ = .ok i.decoded ⟨rest, pos + i.encode.length, c, none⟩ := by
  have h := (Enc.opcode (e := env0) i hi).run0 (KeepsOn.opcodeG (f := fun _ => ()))
  have h' := (KeepsOn.opcodeG (f := fun _ => ()) _ _ _ _ h).2 c rfl
  exact Sem.readOpcode.complete c i.encode i.decoded c trivial h' rest pos

theorem instrOf_decoded (i : Instr) (hi : i.Ok) : instrOf i.decoded = i := by
  cases i with
  | plain op args =>
    obtain ⟨_, h1, _⟩ := hi
    have h2 := (Enc.nargs_plain op _ h1).2
    simp only [instrOf, Instr.decoded, h1, Instr.plain.injEq, true_and]
    match args, h2 with
    | [], _ => simp
    | [_], _ => simp
    | [_, _], _ => simp
    | [_, _, _], _ => simp
    | [_, _, _, _], _ => simp
    | [_, _, _, _, _], _ => simp [padded]
    | [_, _, _, _, _, _], _ => simp [padded]
    | _ :: _ :: _ :: _ :: _ :: _ :: _ :: _, h2 => simp at h2
  | call op dst fn args =>
    obtain ⟨h1, _⟩ := hi
    simp [instrOf, Instr.decoded, h1, padded]
  | switch reg targets end_ =>
    simp [instrOf, Instr.decoded, hlShape, padded, Function.comp_def]

/-- **C39** The decoded opcode determines the instruction: no operand is lost, moved or changed. -/
theorem c39_operands_recovered (i : Instr) (hi : i.Ok) (rest : List UInt8) (pos : Nat) (c : Code) :
    ∃ o, readOpcode ⟨i.encode ++ rest, pos, c, none⟩ = .ok o ⟨rest, pos + i.encode.length, c, none⟩ ∧ instrOf o = i :=
  ⟨i.decoded, c39_opcode_roundtrip i hi rest pos c, instrOf_decoded i hi⟩

/-- **C39** The list `extra` is not the operand list: argument lists (and jump tables, and the operands from the fourth on if there are
five or more) are followed by as many zeros. -/
theorem c39_extra_padded (i : Instr) (hi : i.Ok) (rest : List UInt8) (pos : Nat) (c : Code) (o : Opcode) (s : St)
    (h : readOpcode ⟨i.encode ++ rest, pos, c, none⟩ = .ok o s) :
    (∀ op dst fn args, i = .call op dst fn args → o.extra = args ++ List.replicate args.length 0) ∧
    (∀ reg targets end_, i = .switch reg targets end_ → o.extra = targets.map (Int.ofNat ·) ++ List.replicate targets.length 0) ∧
    (∀ op args, i = .plain op args → 4 < args.length → o.extra = args.drop 3 ++ List.replicate (args.length - 3) 0) := by
  rw [c39_opcode_roundtrip i hi] at h
  cases h
  refine ⟨?_, ?_, ?_⟩
  · rintro op dst fn args rfl; rfl
  · rintro reg targets end_ rfl
    show padded _ = _
    simp [padded]
  · rintro op args rfl h
    show (if args.length ≤ 4 then _ else _) = _
    rw [if_neg (by omega)]
    simp [padded]

/-- The hypotheses of C39 are satisfiable: one instruction per layout. -/
example : (Instr.plain .OCall4 [1, -2, 300, 4, 5, 0x1FFF]).Ok ∧ (Instr.call .OCallMethod 1 2 [3, -4, 500]).Ok ∧
    (Instr.switch 1 [2, 3, 400] 5).Ok := by
  refine ⟨⟨by decide, rfl, by decide⟩, ⟨rfl, by decide, by decide, by decide, by decide⟩, ⟨by decide, by decide, by decide, by decide⟩⟩

/-! ## C40: every valid opcode byte is decodable -/

/-- `read_opcode` without the opcode byte never returns `Err`, for the layouts and opcodes that occur. -/
theorem readOperands_noErr (o : Opcode) (i : Int)
    (h : i = -1 → o.op = .OCallN ∨ o.op = .OCallClosure ∨ o.op = .OCallMethod ∨ o.op = .OCallThis ∨ o.op = .OMakeEnum ∨ o.op = .OSwitch) :
    NoErr (readOperands o i) := by
  unfold readOperands
  refine NoErr.ite (NoErr.pure' _) <| NoErr.ite ?_ <| NoErr.ite ?_ <| NoErr.ite ?_ <| NoErr.ite ?_ ?_
  · exact NoErr.bind NoErr.index fun _ => NoErr.pure _
  · exact NoErr.bind NoErr.index fun _ => NoErr.bind NoErr.index fun _ => NoErr.pure _
  · exact NoErr.bind NoErr.index fun _ => NoErr.bind NoErr.index fun _ => NoErr.bind NoErr.index fun _ => NoErr.pure _
  · exact NoErr.bind NoErr.index fun _ => NoErr.bind NoErr.index fun _ => NoErr.bind NoErr.index fun _ => NoErr.bind NoErr.index fun _ => NoErr.pure _
  · by_cases hi : i = -1
    · rw [if_pos hi]
      rcases h hi with h | h | h | h | h | h <;> rw [h]
      · exact NoErr.readCallLike o
      · exact NoErr.readCallLike o
      · exact NoErr.readCallLike o
      · exact NoErr.readCallLike o
      · exact NoErr.readCallLike o
      · exact NoErr.readSwitch o
    · rw [if_neg hi]
      exact NoErr.bind NoErr.index fun _ => NoErr.bind NoErr.index fun _ => NoErr.bind NoErr.index fun _ =>
        NoErr.ite NoErr.panic (NoErr.bind (NoErr.readExtra NoErr.index _) fun _ => NoErr.pure _)

theorem readOperands_op (o : Opcode) (i : Int) : Ens (readOperands o i) (fun r => r.op = o.op) := by
  unfold readOperands
  refine Ens.ite (Ens.pure' rfl) <| Ens.ite ?_ <| Ens.ite ?_ <| Ens.ite ?_ <| Ens.ite ?_ <| Ens.ite ?_ ?_
  · exact Ens.bind_ fun _ => Ens.pure rfl
  · exact Ens.bind_ fun _ => Ens.bind_ fun _ => Ens.pure rfl
  · exact Ens.bind_ fun _ => Ens.bind_ fun _ => Ens.bind_ fun _ => Ens.pure rfl
  · exact Ens.bind_ fun _ => Ens.bind_ fun _ => Ens.bind_ fun _ => Ens.bind_ fun _ => Ens.pure rfl
  · have hc : Ens (readCallLike o) (fun r => r.op = o.op) := Ens.bind_ fun _ => Ens.bind_ fun _ => Ens.bind_ fun _ => Ens.bind_ fun _ => Ens.pure rfl
    split
    · exact hc
    · exact hc
    · exact hc
    · exact hc
    · exact hc
    · exact Ens.bind_ fun _ => Ens.bind_ fun _ => Ens.bind_ fun _ => Ens.bind_ fun _ => Ens.pure rfl
    · exact Ens.failAt _
  · exact Ens.bind_ fun _ => Ens.bind_ fun _ => Ens.bind_ fun _ => Ens.ite Ens.panic (Ens.bind_ fun _ => Ens.pure rfl)

/-- The tables cover every opcode byte below 99. -/
theorem opcode_tables (n : Nat) (hn : n < 99) : ∃ op i, Op.ofNat? n = some op ∧ op.toNat = n ∧ OP_NARGS[n]? = some i ∧
    (i = -1 → op = .OCallN ∨ op = .OCallClosure ∨ op = .OCallMethod ∨ op = .OCallThis ∨ op = .OMakeEnum ∨ op = .OSwitch) := by
  have h : ∀ n : Fin 99, ((Op.ofNat? n.val).elim false fun op => decide (op.toNat = n.val) && (OP_NARGS[n.val]?).elim false fun i =>
    decide (i = -1 → op = .OCallN ∨ op = .OCallClosure ∨ op = .OCallMethod ∨ op = .OCallThis ∨ op = .OMakeEnum ∨ op = .OSwitch)) = true := by
    decide +kernel
  have := h ⟨n, hn⟩
  simp only at this
  cases ho : Op.ofNat? n with
  | none => simp [ho] at this
  | some op =>
    cases hi : OP_NARGS[n]? with
    | none => simp [ho, hi] at this
    | some i =>
      simp only [ho, hi, Option.elim, Bool.and_eq_true, decide_eq_true_eq] at this
      exact ⟨op, i, rfl, this.1, rfl, this.2⟩

theorem decodeU8_cons (b : UInt8) (r : List UInt8) (pos : Nat) (c : Code) (e : Option DecodeError) :
    M.unwrap decodeU8 ⟨b :: r, pos, c, e⟩ = .ok b.toNat ⟨r, pos + 1, c, e⟩ := rfl

/-- `read_opcode` after its first byte. -/
theorem readOpcode_cons (b : UInt8) (r : List UInt8) (pos : Nat) (c : Code) (e : Option DecodeError) :
    readOpcode ⟨b :: r, pos, c, e⟩ =
      (if b.toNat ≥ 99 then (do M.setError .invalidOpcode; pure Opcode.default : M Opcode)
       else do
        let op ← M.unwrapOpt (Op.ofNat? b.toNat)
        let i ← M.unwrapOpt OP_NARGS[b.toNat]?
        readOperands { Opcode.default with op := op } i) ⟨r, pos + 1, c, e⟩ := rfl

/-- **C40** `read_opcode` never returns `Err`, on any input and in any state: `CouldNotProcessOpcode` is unreachable. -/
theorem c40_opcode_never_err (s : St) (e : DecodeError) (s' : St) : readOpcode s ≠ .err e s' := by
  obtain ⟨buf, pos, c, er⟩ := s
  cases buf with
  | nil => intro h; cases h
  | cons b r =>
    rw [readOpcode_cons]
    by_cases hb : b.toNat ≥ 99
    · rw [if_pos hb]; intro h; cases h
    · rw [if_neg hb]
      obtain ⟨op, i, h1, _, h3, h4⟩ := opcode_tables b.toNat (by omega)
      rw [h1, h3]
      exact readOperands_noErr _ _ h4 _ _ _

/-- **C40** A byte below 99 decodes to the opcode with that number in HashLink's table. -/
theorem c40_discriminant (b : UInt8) (hb : b.toNat < 99) (r : List UInt8) (pos : Nat) (c : Code) (e : Option DecodeError) (o : Opcode) (s' : St)
    (h : readOpcode ⟨b :: r, pos, c, e⟩ = .ok o s') : hlOps[b.toNat]? = some o.op := by
  rw [readOpcode_cons, if_neg (by omega)] at h
  obtain ⟨op, i, h1, h2, h3, _⟩ := opcode_tables b.toNat hb
  rw [h1, h3] at h
  rw [readOperands_op _ _ _ _ _ h, hlOps_eq hb]
  exact h1

/-- **C40** For each opcode byte below 99 there are operand bytes with which it decodes. -/
theorem c40_decodable (b : UInt8) (hb : b.toNat < 99) : ∃ k o, ∀ rest pos c,
    readOpcode ⟨b :: k ++ rest, pos, c, none⟩ = .ok o ⟨rest, pos + 1 + k.length, c, none⟩ := by
  obtain ⟨op, _, h1, h2, _, _⟩ := opcode_tables b.toNat hb
  have hop : op ≠ .OLast := by rintro rfl; simp [Op.toNat] at h2; omega
  have hb' : UInt8.ofNat (opNumber op) = b := by rw [opNumber_eq, h2]; simp
  have key : ∀ i : Instr, i.Ok → (∃ k, i.encode = b :: k) → ∃ k o, ∀ rest pos c,
      readOpcode ⟨b :: k ++ rest, pos, c, none⟩ = .ok o ⟨rest, pos + 1 + k.length, c, none⟩ := by
    rintro i hi ⟨k, hk⟩
    refine ⟨k, i.decoded, fun rest pos c => ?_⟩
    have := c39_opcode_roundtrip i hi rest pos c
    rw [hk] at this
    simpa [Nat.add_assoc, Nat.add_comm 1] using this
  cases hs : hlShape op with
  | args n => exact key (.plain op (List.replicate n 0)) ⟨hop, by simpa using hs, by simp⟩ ⟨_, by simp [Instr.encode, hb']; rfl⟩
  | call => exact key (.call op 0 0 []) ⟨hs, by decide, by decide, by decide, by simp⟩ ⟨_, by simp only [Instr.encode, hb']; rfl⟩
  | switch =>
    have : op = .OSwitch := by cases op <;> simp_all [hlShape]
    subst this
    exact key (.switch 0 [] 0) ⟨by decide, by decide, by decide, by simp⟩ ⟨_, by simp only [Instr.encode, hb']; rfl⟩

/-- **C40** An opcode byte from 99 on records `InvalidOpcode` (and the read ends with an error, C29). -/
theorem c40_invalid_recorded (b : UInt8) (hb : 99 ≤ b.toNat) (r : List UInt8) (pos : Nat) (c : Code) (e : Option DecodeError) :
    readOpcode ⟨b :: r, pos, c, e⟩ = .ok (bare .ONop) ⟨r, pos + 1, c, some { kind := .invalidOpcode, position := pos + 1 }⟩ := by
  rw [readOpcode_cons, if_pos hb]
  rfl

/-! ## C41: debug information, on every input -/

theorem debugRounds_eq (p : Profile) (nops : Nat) : ∀ (fuel : Nat) (d : DebugState) (s : St), s.buf.length < fuel →
    debugRounds p nops fuel d s = some (M.whileReading (fun d => decide (d.i < nops)) (debugBody p nops) d s)
  | 0, _, _, h => by omega
  | fuel + 1, d, s, h => by
    unfold M.whileReading debugRounds
    by_cases hd : d.i < nops
    · simp only [hd, decide_true, if_true]
      cases hb : debugBody p nops d s with
      | ok d' s' =>
        have hc := debugBody_consumes p nops d d' s s' hb
        simp only [hc, if_true]
        exact debugRounds_eq p nops fuel d' s' (by omega)
      | err e s' => rfl
      | panic => rfl
    · simp [hd]

/-- **C41** `debug_infos` ends on every input, after at most as many rounds as there are bytes left, plus one. -/
theorem c41_debug_terminates (p : Profile) (nops : Nat) (s : St) :
    ∃ o, debugRounds p nops (s.buf.length + 1) { curfile := -1, curline := 0, debug := List.replicate (nops * 2) 0, i := 0 } s = some o ∧
      debugInfos p nops s = (match o with | .ok d s' => .ok d.debug s' | .err e s' => .err e s' | .panic => .panic) := by
  refine ⟨_, debugRounds_eq p nops _ _ s (by omega), ?_⟩
  refine Eq.trans (M.bind_def _ _ s) ?_
  split <;> simp_all

/-- **C41** `debug_infos(n)` returns exactly `2n` words, whatever the input and the state. -/
theorem c41_two_words_per_instruction (p : Profile) (nops : Nat) (s s' : St) (w : List Int) (h : debugInfos p nops s = .ok w s') :
    w.length = 2 * nops := by
  obtain ⟨d, s1, h1, h2⟩ := M.bind_eq_ok h
  cases h2
  have st : ∀ d : DebugState, d.debug.length = 2 * nops → Ens (debugStore d) (fun d' => d'.debug.length = 2 * nops) := by
    intro d hd
    exact Ens.ite (Ens.pure' (by simpa using hd)) Ens.panic
  refine (Ens.whileReading (Q := fun d : DebugState => d.debug.length = 2 * nops) ?_ _ _ _ _ (by simp [Nat.mul_comm]) h1).1
  intro d hd
  refine Ens.bind_ fun c => Ens.ite ?_ (Ens.ite ?_ (Ens.ite ?_ ?_))
  · exact Ens.bind_ fun _ => Ens.bind_ fun _ => Ens.bind_ fun _ => Ens.bind_ fun _ => Ens.pure hd
  · exact Ens.bind_ fun _ => Ens.bind_ fun _ => Ens.pure hd
  · exact Ens.bind_ fun _ => st _ hd
  · exact Ens.bind_ fun _ => Ens.bind_ fun _ => st _ hd


/-! ## C42: debug information of HashLink streams -/

theorem wordsOf_def (l : List (Int × Int)) : wordsOf l = l.flatMap fun w => [w.1, w.2] := rfl

/-- **C42** `debug_infos` on the debug stream of a function gives file and line of each instruction and consumes exactly
the stream, if and only if the stream has no run of instructions (`run` with a positive count) and no absolute line
beyond 255.  (The list of items is shorter than `2^24`, so that lines stay within `i32`.) -/
theorem c42_debug_iff_supported (p : Profile) (nops : Nat) (items : List DbgItem) (c : Code) (hn : c.ndebugfiles < 2 ^ 31)
    (h : DbgStream nops c.ndebugfiles items) (hl : items.length < 2 ^ 24) (rest : List UInt8) (pos : Nat) :
    debugInfos p nops ⟨items.flatMap DbgItem.encode ++ rest, pos, c, none⟩ =
        .ok ((dbgMeaning (-1) 0 items).flatMap fun w => [w.1, w.2]) ⟨rest, pos + (items.flatMap DbgItem.encode).length, c, none⟩ ↔
      ∀ i ∈ items, i.Supported := by
  obtain ⟨h1, h2, h3, h4⟩ := h
  rw [← wordsOf_def]
  constructor
  · intro e
    obtain ⟨_, k, hk, _, hg⟩ := (Sem.debugInfos p nops).sound _ _ _ trivial e rfl
    have hk' : k = items.flatMap DbgItem.encode := by simpa using hk.symm
    subst hk'
    obtain ⟨k1, k2, d, c1, hkk, hd, hp, hw, hc⟩ := hg
    subst hp
    simp only [List.append_nil] at hkk
    subst hkk
    obtain ⟨e1, e2⟩ := stream_inv items _ _ _ _ h1 hl (by simp; omega) hd
    have e3 := foldl_words items { file := -1, line := 0, words := [] }
    rw [← e1] at e3
    have e4 := meaning_count items (-1) 0
    have hz : runCount items = 0 := by simp at e3; omega
    refine words_right items { file := -1, line := 0, words := [] } h1 hz ?_
    rw [← e1, ← hw]; simp
  · intro hs
    obtain ⟨d', hd, hw⟩ := stream_mem (p := p) (nops := nops) (c := c) hn items { file := -1, line := 0, words := [] } h1 h2 hs h4 (by simpa using h3) rfl hl
      (by simp; omega)
    refine (Sem.debugInfos p nops).complete c _ _ c trivial ?_ rest pos
    exact ⟨_, [], d', c, by simp, hd, rfl, by simpa using hw.symm, rfl⟩

/-- Both sides of C42 occur: a supported stream for three instructions, and one with a run. -/
example : (∃ items, DbgStream 3 2 items ∧ (∀ i ∈ items, i.Supported) ∧ items.flatMap DbgItem.encode = [0x01, 0x01, 0x50, 0, 0, 0x1C, 0x82, 0x0C]) ∧
    (∃ items, DbgStream 3 2 items ∧ ¬ ∀ i ∈ items, i.Supported) := by
  refine ⟨⟨[.file 1, .abs 10, .step 3, .run 0 2, .step 1], ?_, by decide, by decide⟩,
    ⟨[.file 1, .abs 10, .run 1 1, .step 0], ?_, by decide⟩⟩
  · refine ⟨by decide, ?_, by decide, by intro i hi; cases hi; decide⟩
    simp
  · refine ⟨by decide, ?_, by decide, by intro i hi; cases hi; decide⟩
    simp

/-! ## C43: whole modules -/

/-- **C43** `Code::read` on the serialisation of a module gives the module, whatever follows it: version, entry point,
debug flag, pools, types, globals, natives, functions with opcodes and debug information, and constants.  `RModule.Good`
says which modules; `RModule.decoded` is what the user expects. -/
theorem c43_file_roundtrip (m : RModule) (hm : m.Good) (hb : m.NotBare) (p : Profile) (rest : List UInt8) :
    ∃ u, Code.read p none (m.encode ++ rest) =
      .ok { m.decoded with ustrings := u } ⟨rest, m.encode.length, { m.decoded with ustrings := u }, none⟩ := by
  obtain ⟨u, h⟩ := module_enc hm p hb
  refine ⟨u, ?_⟩
  have := (Sem.readM p).complete _ _ _ _ trivial h rest 0
  rw [Nat.zero_add] at this
  exact this

/-- A module with an int, a float, strings, a byte, debug files, an object, an enum and a function type, a global, a
native, a function with debug information and assignments, and a constant. -/
def exampleModule : RModule where
  version := 5
  hasDebug := true
  entrypoint := 1
  ints := [-7]
  floats := [0x3FF0000000000000]
  strings := [['A'], ['x'], ['é'], ['m']]
  bytes := [1, 0]
  bytesPos := [0]
  debugFiles := [['a', '.', 'h', 'x']]
  types := [.prim .HI32, .obj false 0 none 1 [⟨1, 0⟩] [⟨3, 1, -1⟩] [(0, 1)], .enum 3 0 [⟨3, [0, 1]⟩], .func false [1, 0] 0, .null 1]
  globals := [1, 2]
  natives := [⟨0, 2, 3, 0⟩]
  functions := [{ type := 3, findex := 1, regs := [1, 0], ops := [.plain .OInt [0, 0], .call .OCallN 0 0 [1, 0], .plain .ORet [0]],
                  debug := [.file 0, .abs 10, .step 1, .run 0 1, .step 2], assigns := [(1, 0)] }]
  constants := [⟨0, [0]⟩]

theorem exampleModule_good : exampleModule.Good where
  version := by decide
  bytes := by decide
  noConstants := by decide
  noDebug := by decide
  entrypoint := by decide
  nints := by decide
  ints := by decide
  nfloats := by decide
  floats := by decide
  nstrings := by decide
  strings := by decide +kernel
  nbytes := by decide
  bytesPos := by decide
  ndebugFiles := by decide
  debugFiles := by decide +kernel
  ntypes := by decide
  types := by
    intro t ht
    simp only [exampleModule, List.mem_cons, List.not_mem_nil, or_false] at ht
    rcases ht with rfl | rfl | rfl | rfl | rfl <;>
      refine ⟨?_, by decide, by decide⟩ <;> simp only [RType.Small] <;> decide
  order := by decide
  nglobals := by decide
  globals := by decide
  nnatives := by decide
  natives := by
    intro t ht
    simp only [exampleModule, List.mem_cons, List.not_mem_nil, or_false] at ht
    subst ht; decide
  nfunctions := by decide
  functions := by
    intro t ht
    simp only [exampleModule, List.mem_cons, List.not_mem_nil, or_false] at ht
    subst ht
    exact {
      type := by decide
      findex := by decide
      nregs := by decide
      regs := by decide
      nops := by decide
      ops := by
        intro o ho
        simp only [List.mem_cons, List.not_mem_nil, or_false] at ho
        rcases ho with rfl | rfl | rfl
        · exact ⟨by decide, rfl, by decide⟩
        · exact ⟨rfl, by decide, by decide, by decide, by decide⟩
        · exact ⟨by decide, rfl, by decide⟩
      debug := fun _ => by
        refine ⟨⟨by decide, ?_, by decide, by intro i hi; cases hi; decide⟩, by decide, by decide⟩
        simp [exampleModule]
      assigns := by decide }
  nconstants := by decide
  constants := by
    intro t ht
    simp only [exampleModule, List.mem_cons, List.not_mem_nil, or_false] at ht
    subst ht; decide

/-- The hypotheses of C43 are satisfiable, by a module that uses every section. -/
theorem exampleModule_witness : exampleModule.Good ∧ exampleModule.NotBare ∧ exampleModule.encode.length = 131 :=
  ⟨exampleModule_good, Or.inl rfl, by decide +kernel⟩

end Verif.Brass
