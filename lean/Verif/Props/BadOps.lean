import Verif.Props.BadKinds

/-!
# Unknown instructions, in plain words (C87)
-/

namespace Verif.Brass

open Verif Verif.Brass.Spec

namespace Flagless

theorem natI : Flagless natIF := bind nat fun _ => pure _

theorem opcode : Flagless opcodeF :=
  bind (ok _) fun _ => ite (bind (mark _) fun _ => pure _) (bind (ok _) fun _ =>
    ite (bind natI fun _ => bind nat fun _ => bind (many natI _) fun _ => bind natI fun _ => pure _) (ok _))

end Flagless

/-- The marked text of an instruction, or of a byte that is none. -/
def opW : Instr ⊕ UInt8 → Marked
  | .inl i => plain i.encode
  | .inr v => plain [v] ++ [.fault .invalidOpcode]

theorem text_opWs (l : List (Instr ⊕ UInt8)) : text (l.flatMap opW) = l.flatMap instrOrByte := by
  induction l with
  | nil => rfl
  | cons x l ih =>
    rw [List.flatMap_cons, List.flatMap_cons, text_append, ih]
    cases x with
    | inl t => rw [show opW (.inl t) = plain t.encode from rfl, text_plain]; rfl
    | inr v => rfl

theorem opcodeF_good {i : Instr} (hi : i.Ok) (e : Env) (c : Code) (slots) (hf : e.Fits c) (hc : CacheOk e.strs c.ustrings slots) (b : Bool) :
    opcodeF c b (plain i.encode) i.decoded c := by
  have hG : opcodeG c i.encode i.decoded c := (Enc.opcode (e := e) i hi).run (f := fun _ => ()) KeepsOn.opcodeG hf hc
  exact Flagless.opcode _ _ b _ _ _ ((unmarked_iff (.ofSim Sim.readOpcode PSem.readOpcode) Sem.readOpcode c (plain i.encode) i.decoded c).2 ⟨_, rfl, hG⟩).1

theorem opcodeF_bad (v : UInt8) (hv : 99 ≤ v.toNat) (c : Code) (b : Bool) : opcodeF c b (opW (.inr v)) (bare .ONop) c := by
  refine ⟨plain [v], [.fault .invalidOpcode], v.toNat, c, rfl, ⟨[v], rfl, rfl, v, rfl, rfl⟩, ?_⟩
  dsimp only
  rw [if_pos hv]
  exact ⟨[.fault .invalidOpcode], [], (), c, rfl, ⟨rfl, rfl⟩, rfl, rfl, rfl⟩

theorem opcodesF (e : Env) (c : Code) (slots) (hf : e.Fits c) (hc : CacheOk e.strs c.ustrings slots) : ∀ (l : List (Instr ⊕ UInt8)) (b : Bool),
    (∀ i, .inl i ∈ l → i.Ok) → (∀ v, .inr v ∈ l → 99 ≤ v.toNat) → ∃ ops, F.many opcodeF l.length c b (l.flatMap opW) ops c
  | [], _, _, _ => ⟨[], rfl, rfl, rfl⟩
  | x :: l, b, hi, hv => by
    have hx : ∃ o, opcodeF c b (opW x) o c := by
      cases x with
      | inl i => exact ⟨_, opcodeF_good (hi i (by simp)) e c slots hf hc b⟩
      | inr v => exact ⟨_, opcodeF_bad v (hv v (by simp)) c b⟩
    obtain ⟨o, ho⟩ := hx
    obtain ⟨ops, h⟩ := opcodesF e c slots hf hc l (b || faulty (opW x)) (fun i h => hi i (List.mem_cons_of_mem _ h)) (fun v h => hv v (List.mem_cons_of_mem _ h))
    exact ⟨o :: ops, _, _, o, c, rfl, ho, _, [], ops, c, (List.append_nil _).symm, h, rfl, rfl, rfl⟩

theorem typeW_good {n : Nat} {q : List UInt8 × Int} (h : 0 ≤ q.2 ∧ q.2 < (n : Int)) : typeW n q = plain q.1 := by
  unfold typeW
  rw [if_pos h, List.append_nil]

theorem natW_good {q : List UInt8 × Int} (h : 0 ≤ q.2) : natW q = plain q.1 := by
  unfold natW
  rw [if_neg (by omega), List.append_nil]

theorem manyF_good (c : Code) (h0 : c.ntypes ≠ 0) (h1 : c.ntypes < 2 ^ 31) (h2 : c.ntypes ≤ c.types.length) :
    ∀ (l : List Nat), (∀ g ∈ l, g < 0x2000) → (∀ g ∈ l, g < c.ntypes) → ∃ ts, F.many typeRefF l.length c false (plain (l.flatMap ix)) ts c
  | [], _, _ => ⟨[], rfl, rfl, rfl⟩
  | g :: l, h, hr => by
    obtain ⟨t, ht⟩ := typeRefF_typeW c false (ix g, (g : Int)) (ix_bytes (h g (by simp))) h0 h1 h2
    rw [typeW_good ⟨by simp, by have := hr g (by simp); simp only; omega⟩] at ht
    obtain ⟨ts, hts⟩ := manyF_good c h0 h1 h2 l (fun q hq => h q (List.mem_cons_of_mem _ hq)) (fun q hq => hr q (List.mem_cons_of_mem _ hq))
    refine ⟨t :: ts, plain (ix g), plain (l.flatMap ix), t, c, by simp [plain], ht, _, [], ts, c, (List.append_nil _).symm, ?_, rfl, rfl, rfl⟩
    rw [faulty_plain]
    exact hts

/-- A function whose numbers are right, with any marked text for its instructions. -/
theorem functionF_ops (c : Code) (h0 : c.ntypes ≠ 0) (h1 : c.ntypes < 2 ^ 31) (h2 : c.ntypes ≤ c.types.length)
    (t f n : Nat) (regs : List Nat) (ht : t < c.ntypes ∧ t < 0x2000) (hf : f < 0x2000) (hr : regs.length < 0x2000) (hn : n < 0x2000)
    (hs : ∀ g ∈ regs, g < 0x2000) (hg : ∀ g ∈ regs, g < c.ntypes) (w : Marked) (ops : List Opcode) (hw : F.many opcodeF n c false w ops c) :
    ∃ x, functionF c false (plain (ix t ++ ix f ++ ix regs.length ++ ix n ++ regs.flatMap ix) ++ w) x c := by
  obtain ⟨ty, e1⟩ := typeRefF_typeW c false (ix t, (t : Int)) (ix_bytes ht.2) h0 h1 h2
  rw [typeW_good ⟨by simp, by have := ht.1; simp only; omega⟩] at e1
  have nat : ∀ i : Nat, i < 0x2000 → natF c false (plain (ix i)) i c := fun i hi => by
    have := natF_natW c false (ix i, (i : Int)) (ix_bytes hi)
    rw [natW_good (by simp)] at this
    simpa using this
  obtain ⟨ts, e5⟩ := manyF_good c h0 h1 h2 regs hs hg
  have fl : ∀ k : List UInt8, (false || faulty (plain k)) = false := fun k => by rw [faulty_plain]; rfl
  refine ⟨{ t := ty, findex := f, nregs := regs.length, nops := n, rf := 0, regs := ts, ops := ops, debug := [], obj := none, field := none },
    plain (ix t), plain (ix f) ++ (plain (ix regs.length) ++ (plain (ix n) ++ (plain (regs.flatMap ix) ++ w))), ty, c, ?_, e1,
    plain (ix f), _, f, c, rfl, ?_, plain (ix regs.length), _, regs.length, c, rfl, ?_, plain (ix n), _, n, c, rfl, ?_, plain (regs.flatMap ix), w, ts, c, rfl, ?_,
    [], w, false, c, rfl, ⟨rfl, ?_, rfl⟩, w, [], ops, c, (List.append_nil _).symm, ?_, rfl, rfl, rfl⟩
  · simp [plain]
  all_goals simp only [fl]
  · exact nat f hf
  · exact nat _ hr
  · exact nat _ hn
  · exact e5
  · simpa [faulty] using hw

/-- After a fault a function ends with its registers. -/
theorem functionF_head (c : Code) (h0 : c.ntypes ≠ 0) (h1 : c.ntypes < 2 ^ 31) (h2 : c.ntypes ≤ c.types.length) (hc : c.ntypes < 0x2000)
    (f : RFunction) (ht : f.type < c.ntypes) (hf : f.findex < 0x2000) (hr : f.regs.length < 0x2000) (hn : f.ops.length < 0x2000)
    (hg : ∀ g ∈ f.regs, g < c.ntypes) : ∃ x, functionF c true (plain (functionHead f)) x c := by
  obtain ⟨ty, e1⟩ := typeRefF_typeW c true (ix f.type, (f.type : Int)) (ix_bytes (Nat.lt_trans ht hc)) h0 h1 h2
  rw [typeW_good ⟨by simp, by simp only; omega⟩] at e1
  have nat : ∀ i : Nat, i < 0x2000 → natF c true (plain (ix i)) i c := fun i hi => by
    have := natF_natW c true (ix i, (i : Int)) (ix_bytes hi)
    rw [natW_good (by simp)] at this
    simpa using this
  obtain ⟨ts, e5⟩ := manyF_good c h0 h1 h2 f.regs (fun g h => Nat.lt_trans (hg g h) hc) hg
  have e5 := Flagless.many Flagless.typeRef _ _ _ true _ _ _ e5
  refine ⟨{ t := ty, findex := f.findex, nregs := f.regs.length, nops := f.ops.length, rf := 0, regs := ts, ops := [], debug := [], obj := none, field := none },
    plain (ix f.type), plain (ix f.findex) ++ (plain (ix f.regs.length) ++ (plain (ix f.ops.length) ++ (plain (f.regs.flatMap ix) ++ []))), ty, c, ?_, e1,
    plain (ix f.findex), _, f.findex, c, rfl, ?_, plain (ix f.regs.length), _, f.regs.length, c, rfl, ?_, plain (ix f.ops.length), _, f.ops.length, c, rfl, ?_,
    plain (f.regs.flatMap ix), [], ts, c, rfl, ?_, [], [], true, c, rfl, ⟨rfl, ?_, rfl⟩, [], [], [], c, rfl, ⟨rfl, rfl, rfl⟩, rfl, rfl, rfl⟩
  · simp [plain, functionHead]
  all_goals simp only [Bool.true_or]
  · exact nat _ hf
  · exact nat _ hr
  · exact nat _ hn
  · exact e5

theorem loop_append {β : Type} {g : Nat → β → F β} {r' : β} {s' : Code} {w2 : Marked} {k : Nat} :
    ∀ (n a : Nat) (b : β) (c : Code) (f : Bool) (w1 : Marked) (r : β) (s : Code), F.loop g a n b c f w1 r s →
      F.loop g (a + n) k r s (f || faulty w1) w2 r' s' → F.loop g a (n + k) b c f (w1 ++ w2) r' s'
  | 0, a, b, c, f, w1, r, s, ⟨h1, h2, h3⟩, h => by
    subst h1 h2 h3
    rw [Nat.zero_add]
    simpa [faulty] using h
  | n + 1, a, b, c, f, w1, r, s, ⟨u, v, b1, c1, h1, h2, h3⟩, h => by
    subst h1
    rw [Nat.succ_add]
    refine ⟨u, v ++ w2, b1, c1, by simp, h2, loop_append n (a + 1) b1 c1 _ v r s h3 ?_⟩
    rw [Bool.or_assoc, ← faulty_append, show a + 1 + n = a + (n + 1) by omega]
    exact h

/-- After a fault only the numbers of the functions are read. -/
theorem headsF (p : Profile) (n : Nat) (h0 : n ≠ 0) (hc : n < 0x2000) : ∀ (gs : List RFunction) (i : Nat) (d d' : Code), d.ntypes = n →
    n ≤ d.types.length → d.hasdebug = 0 →
    (∀ f ∈ gs, f.type < n ∧ f.findex < 0x2000 ∧ f.regs.length < 0x2000 ∧ f.ops.length < 0x2000 ∧ ∀ g ∈ f.regs, g < n) →
    ∃ r s, F.loop (functionsStepF p) i gs.length d d' true (plain (gs.flatMap functionHead)) r s
  | [], _, d, d', _, _, _, _ => ⟨d, d', rfl, rfl, rfl⟩
  | f :: gs, i, d, d', hn, ht, hd, h => by
    obtain ⟨f1, f2, f3, f4, f5⟩ := h f (by simp)
    obtain ⟨x, hx⟩ := functionF_head d (by omega) (by omega) (by omega) (by omega) f (by omega) f2 f3 f4 (fun g hg => by rw [hn]; exact f5 g hg)
    obtain ⟨r, s, hl⟩ := headsF p n h0 hc gs (i + 1) { d with functions := d.functions ++ [x] } { d with functions := d.functions ++ [x] } hn ht hd
      (fun g hg => h g (List.mem_cons_of_mem _ hg))
    refine ⟨r, s, plain (functionHead f), plain (gs.flatMap functionHead), { d with functions := d.functions ++ [x] }, { d with functions := d.functions ++ [x] },
      by simp [plain], ?_, by simpa using hl⟩
    refine ⟨[], _, (), d, rfl, ⟨[], rfl, rfl, rfl⟩, _, [], x, d, (List.append_nil _).symm, hx, ?_⟩
    dsimp only
    rw [if_neg (by simpa using hd)]
    exact ⟨[], [], (), _, rfl, ⟨[], rfl, rfl, rfl⟩, rfl, rfl, rfl⟩

/-- A function of a file without debug information is any marked text of a function with a fault; only the numbers of those after it are read. -/
theorem function_rejected (p : Profile) (k1 k2 : List UInt8) (c c' : Code) (h1 : upToFunctionsG noCode k1 c c')
    (n : Nat) (gs : List RFunction) (hn : c.nfunctions = n + 1 + gs.length) (d d' : Code) (h2 : G.loop (functionsStepG p) 0 n c c' k2 d d') (hd : d.hasdebug = 0)
    (w : Marked) (x : HLFunction) (hx : functionF d false w x d) (hw : faulty w = true) (h0 : d.ntypes ≠ 0) (hc : d.ntypes < 0x2000) (ht : d.ntypes ≤ d.types.length)
    (hgs : ∀ f ∈ gs, f.type < d.ntypes ∧ f.findex < 0x2000 ∧ f.regs.length < 0x2000 ∧ f.ops.length < 0x2000 ∧ ∀ g ∈ f.regs, g < d.ntypes)
    (rest : List UInt8) (e : DecodeError) (he : reported (faults (k1 ++ k2).length w) = some e) :
    ∃ s, Code.read p none (k1 ++ k2 ++ text w ++ gs.flatMap functionHead ++ rest) = .err e s := by
  rw [c87_rejected_iff]
  have hc0 : c.functions = [] := upToFunctionsG_functions h1
  have hgood : F.loop (functionsStepF p) 0 n c c' false (plain k2) d d' := by
    have hF : PSem (P.forRange (Par.readFunctionsStep p) 0 n c) (F.loop (functionsStepF p) 0 n c) :=
      PSem.forRange (fun i c => c.functions.length = i) (fun i c hi => PSem.readFunctionsStep p i c hi)
        (fun i c _ _ _ _ _ hi h => by rw [PSem.functionsStep_length h, hi]) _ _ _ (by rw [hc0]; rfl)
    have hG : Sem (M.forRange (readFunctionsStep p) 0 n c) (G.loop (functionsStepG p) 0 n c) :=
      Sem.forRange (fun i c => c.functions.length = i) (fun i c hi => Sem.readFunctionsStep p i c hi)
        (fun i c => Good.readFunctionsStep p i c) _ _ _ (by simp [hc0])
        (fun i c _ _ _ _ hi h => by rw [(Sem.functionsStep_length h).1, hi])
    exact ((unmarked_iff (.ofSim (Sim.forRange (Sim.readFunctionsStep p) _ _ _) hF) hG c' (plain k2) d d').2 ⟨k2, rfl, h2⟩).1
  have hd' : ¬ d.hasdebug ≠ 0 := by simpa using hd
  have hstep : functionsStepF p (0 + n) d d' (false || faulty (plain k2)) w
      { d with functions := d.functions ++ [x] } { d with functions := d.functions ++ [x] } := by
    rw [faulty_plain]
    refine ⟨[], _, (), d, rfl, ⟨[], rfl, rfl, rfl⟩, w, [], x, d, (List.append_nil _).symm, ?_, ?_⟩
    · simpa [faulty] using hx
    · dsimp only
      rw [if_neg hd']
      exact ⟨[], [], (), _, rfl, ⟨[], rfl, rfl, rfl⟩, rfl, rfl, rfl⟩
  have hfl : (false || faulty (plain k2 ++ w)) = true := by rw [faulty_append, hw]; simp
  obtain ⟨r, s, hrest⟩ := headsF p d.ntypes h0 hc gs (0 + (n + 1)) { d with functions := d.functions ++ [x] } { d with functions := d.functions ++ [x] } rfl ht hd hgs
  rw [← hfl] at hrest
  have hfun : functionsF p c c' false ((plain k2 ++ w) ++ plain (gs.flatMap functionHead)) r s := by
    unfold functionsF
    rw [hn]
    exact loop_append (n + 1) 0 c c' false _ _ _ (loop_snoc n 0 c c' false _ d d' hgood hstep) hrest
  refine .inSection _ _ k1 rest _ c c' _ _ _ .functions h1 hfun ?_ ?_
  · rw [text_append, text_append, text_plain, text_plain]; simp only [List.append_assoc]
  · rw [text_faults_append, text_faults_append, faults_plain, faults_plain, List.nil_append, List.append_nil, text_plain]
    rw [List.length_append] at he
    exact he

/-- **C87** Take any module without debug information that can be read, and write bytes that are no instructions in the place of some
instructions of one of its functions.  An unknown instruction counts as one without operands, and the instructions of this function after it are still read,
but of the functions after this one only the numbers before their instructions.  So if this function is followed by the remaining ones without
their instructions (for instance if it is the last one) the file is rejected with `InvalidOpcode` after the last such byte, whatever comes after them. -/
theorem c87_module_unknown_instructions (p : Profile) (m : RModule) (hm : m.Readable) (hd : m.hasDebug = false)
    (fs gs : List RFunction) (f : RFunction) (hfs : fs.length + 1 + gs.length = m.functions.length)
    (hfg : ∀ g ∈ fs ++ f :: gs, g ∈ m.functions) (before : List (Instr ⊕ UInt8)) (v : UInt8) (after : List Instr)
    (hn : before.length + 1 + after.length < 0x2000) (hb : ∀ i, .inl i ∈ before → i.Ok) (hbv : ∀ x, .inr x ∈ before → 99 ≤ x.toNat)
    (hv : 99 ≤ v.toNat) (ha : ∀ i ∈ after, i.Ok) (rest : List UInt8) :
    ∃ s, Code.read p none (beforeTypes m ++ m.types.flatMap RType.encode ++ m.globals.flatMap ix ++ m.natives.flatMap RNative.encode ++
        fs.flatMap (RFunction.encode m) ++
        (ix f.type ++ ix f.findex ++ ix f.regs.length ++ ix (before.length + 1 + after.length) ++ f.regs.flatMap ix) ++
        (before.flatMap instrOrByte ++ [v] ++ after.flatMap Instr.encode) ++ gs.flatMap functionHead ++ rest) =
      .err ⟨.invalidOpcode, (beforeTypes m ++ m.types.flatMap RType.encode ++ m.globals.flatMap ix ++ m.natives.flatMap RNative.encode ++
        fs.flatMap (RFunction.encode m) ++
        (ix f.type ++ ix f.findex ++ ix f.regs.length ++ ix (before.length + 1 + after.length) ++ f.regs.flatMap ix) ++
        before.flatMap instrOrByte ++ [v]).length⟩ s := by
  have hm' := asAnswered_readable hm
  have hf := hm.functions f (hfg f (by simp))
  have h00 : m.types.length ≠ 0 := by have := hf.type; omega
  have h0 : m.types ≠ [] := fun h => h00 (by rw [h]; rfl)
  obtain ⟨u, s4, h4, ⟨slots, hu⟩, _, h4b⟩ := types_enc hm (if m.hasDebug then RModule.c3 m.asAnswered else Code.new)
  obtain ⟨s5, h5, h5a, h5b⟩ := globals_enc hm' u slots hu s4
  have hs5 : s5 = RModule.c5 m.asAnswered u := by
    by_cases hg : m.asAnswered.globals = []
    · rw [(h5a hg).1, (h5a hg).2, h4b h0]
    · exact h5b hg
  obtain ⟨s6, h6, _⟩ := natives_enc hm' u slots hu s5 (.inl hs5)
  have e1 : (RModule.c6 m.asAnswered u).ntypes = m.types.length := asAnswered_types m
  have hup : upToFunctionsG noCode (beforeTypes m ++ (m.types.flatMap RType.encode ++ m.globals.flatMap ix) ++ m.natives.flatMap RNative.encode)
      (RModule.c6 m.asAnswered u) s6 :=
    ⟨_, _, _, _, rfl, ⟨_, _, _, _, rfl, beforeTypes_enc hm, _, _, _, _, rfl, h4, h5⟩, h6⟩
  let dd : Code := { RModule.c6 m.asAnswered u with functions := fs.map (RFunction.decoded m.asAnswered) }
  have hloop : ∃ d', G.loop (functionsStepG p) 0 fs.length (RModule.c6 m.asAnswered u) s6 (fs.flatMap (RFunction.encode m)) dd d' := by
    let V : List RFunction → Code → Prop := fun pre c => c = { RModule.c6 m.asAnswered u with functions := pre.map (RFunction.decoded m.asAnswered) }
    have key := loop_enc (g := functionsStepG p) V (fun _ _ => True) (RFunction.encode m) fs (fun _ => trivial) ?_ fs []
      (RModule.c6 m.asAnswered u) s6 rfl rfl trivial
    · obtain ⟨d, d', h1, h2, _⟩ := key
      obtain rfl : d = dd := h2
      exact ⟨d', h1⟩
    · rintro pre f post c s e rfl _
      have hf := hm'.functions f (hfg f (by rw [e]; simp))
      refine ⟨{ RModule.c6 m.asAnswered u with functions := (pre ++ [f]).map (RFunction.decoded m.asAnswered) }, ?_, rfl⟩
      refine ⟨[], _, (), _, rfl, ⟨rfl, rfl⟩, _, [], _, _, (List.append_nil _).symm,
        function_enc hm' p hf hu (fits4 hm' _ rfl rfl rfl rfl) rfl rfl rfl, ?_⟩
      rw [List.map_append]
      exact ⟨[], [], (), _, rfl, ⟨rfl, rfl⟩, rfl, rfl, rfl⟩
  obtain ⟨d', hloop⟩ := hloop
  obtain ⟨n1, n2⟩ := upToFunctionsG_facts hup (by rw [e1]; exact h00)
  let l : List (Instr ⊕ UInt8) := before ++ .inr v :: after.map .inl
  have ll : l.length = before.length + 1 + after.length := by simp [l]; omega
  obtain ⟨ops, hops⟩ := opcodesF ⟨m.strings, m.asAnswered.typeTable, m.asAnswered.types.length⟩ dd slots (fits4 hm' _ rfl rfl rfl rfl) hu l false
    (by
      intro i hi
      simp only [l, List.mem_append, List.mem_map, List.mem_cons] at hi
      rcases hi with h | h | ⟨j, h, e⟩
      · exact hb i h
      · cases h
      · cases e; exact ha _ h)
    (by
      intro x hx
      simp only [l, List.mem_append, List.mem_map, List.mem_cons] at hx
      rcases hx with h | h | ⟨j, h, e⟩
      · exact hbv x h
      · cases h; exact hv
      · cases e)
  rw [ll] at hops
  have hnt := hm.ntypes
  obtain ⟨x, hx⟩ := functionF_ops dd (by show (RModule.c6 m.asAnswered u).ntypes ≠ 0; rw [e1]; exact h00) n1 n2 f.type f.findex _ f.regs
    ⟨by show _ < (RModule.c6 m.asAnswered u).ntypes; rw [e1]; exact hf.type, Nat.lt_trans hf.type hnt⟩ hf.findex hf.nregs hn
    (fun g hg => Nat.lt_trans (hf.regs g hg) hnt) (fun g hg => by show _ < (RModule.c6 m.asAnswered u).ntypes; rw [e1]; exact hf.regs g hg) _ ops hops
  have hnf : (RModule.c6 m.asAnswered u).nfunctions = fs.length + 1 + gs.length := hfs.symm
  have hfy : faulty (plain (ix f.type ++ ix f.findex ++ ix f.regs.length ++ ix (before.length + 1 + after.length) ++ f.regs.flatMap ix) ++ l.flatMap opW) = true := by
    simp [l, opW, faulty_append, faulty]
  have el : l.flatMap opW = before.flatMap opW ++ (plain [v] ++ (.fault .invalidOpcode :: plain (after.flatMap Instr.encode))) := by
    have e2 : (after.map Sum.inl).flatMap opW = plain (after.flatMap Instr.encode) := by
      rw [List.flatMap_map]
      show after.flatMap (fun t => plain t.encode) = _
      unfold plain
      rw [List.map_flatMap]
    simp only [l, List.flatMap_append, List.flatMap_cons, e2]
    rfl
  obtain ⟨s, hread⟩ := function_rejected p _ _ _ _ hup fs.length gs hnf dd d' hloop (by show (if m.hasDebug then 1 else 0) = 0; rw [hd]; rfl) _ x hx hfy
    (by show (RModule.c6 m.asAnswered u).ntypes ≠ 0; rw [e1]; exact h00) (by show (RModule.c6 m.asAnswered u).ntypes < _; rw [e1]; exact hnt) n2
    (by
      intro g hg
      have h := hm.functions g (hfg g (by simp [hg]))
      rw [show dd.ntypes = m.types.length from e1]
      exact ⟨h.type, h.findex, h.nregs, h.nops, h.regs⟩) rest
    ⟨.invalidOpcode, (beforeTypes m ++ m.types.flatMap RType.encode ++ m.globals.flatMap ix ++ m.natives.flatMap RNative.encode ++
        fs.flatMap (RFunction.encode m) ++
        (ix f.type ++ ix f.findex ++ ix f.regs.length ++ ix (before.length + 1 + after.length) ++ f.regs.flatMap ix) ++
        before.flatMap instrOrByte ++ [v]).length⟩
    (by
      rw [el, text_faults_append, faults_plain, List.nil_append, text_faults_append, text_faults_append, faults_plain, List.nil_append]
      simp only [faults, faults_plain]
      rw [reported_concat _ _ (by simp)]
      simp only [text_plain, text_opWs, List.length_append, Nat.add_assoc])
  refine ⟨s, ?_⟩
  have et : l.flatMap instrOrByte = before.flatMap instrOrByte ++ [v] ++ after.flatMap Instr.encode := by
    simp only [l, List.flatMap_append, List.flatMap_cons, List.flatMap_map, List.append_assoc]
    rfl
  rw [text_append, text_plain, text_opWs, et] at hread
  simp only [List.append_assoc] at hread ⊢
  exact hread

/-! ## Example -/

-- The second function has the instructions `ORet 0`, 200, 99 and `ORet 0`: the byte 99 is reported.
example : ∃ s, Code.read .dev none (beforeTypes plainModule ++ plainModule.types.flatMap RType.encode ++ plainModule.globals.flatMap ix ++
    plainModule.natives.flatMap RNative.encode ++ exampleModule.functions.flatMap (RFunction.encode plainModule) ++
    (ix exampleModule.functions[0].type ++ ix exampleModule.functions[0].findex ++ ix exampleModule.functions[0].regs.length ++ ix 4 ++
      exampleModule.functions[0].regs.flatMap ix) ++ (((Instr.plain .ORet [0]).encode ++ [200]) ++ [99] ++ (Instr.plain .ORet [0]).encode) ++ [7]) =
    .err ⟨.invalidOpcode, 116⟩ s := by
  have h := c87_module_unknown_instructions .dev plainModule plainModule_readable rfl exampleModule.functions [] exampleModule.functions[0] (by rfl) (by simp [plainModule, exampleModule])
    [.inl (.plain .ORet [0]), .inr 200] 99 [.plain .ORet [0]] (by decide) (by simp [Instr.Ok, hlShape]) (by simp) (by decide) (by simp [Instr.Ok, hlShape]) [7]
  have e : (beforeTypes plainModule ++ plainModule.types.flatMap RType.encode ++ plainModule.globals.flatMap ix ++ plainModule.natives.flatMap RNative.encode ++
    exampleModule.functions.flatMap (RFunction.encode plainModule) ++
    (ix exampleModule.functions[0].type ++ ix exampleModule.functions[0].findex ++ ix exampleModule.functions[0].regs.length ++
      ix ([Sum.inl (Instr.plain .ORet [0]), Sum.inr (200 : UInt8)].length + 1 + [Instr.plain .ORet [0]].length) ++ exampleModule.functions[0].regs.flatMap ix) ++
    [Sum.inl (Instr.plain .ORet [0]), Sum.inr (200 : UInt8)].flatMap instrOrByte ++ [99]).length = 116 := by decide +kernel
  rw [e] at h
  simpa [instrOrByte] using h

-- The first function has only the instruction 255, and is followed by the numbers of the second one.
example : ∃ s, Code.read .dev none (beforeTypes plainModule ++ plainModule.types.flatMap RType.encode ++ plainModule.globals.flatMap ix ++
    plainModule.natives.flatMap RNative.encode ++ [].flatMap (RFunction.encode plainModule) ++
    (ix exampleModule.functions[0].type ++ ix exampleModule.functions[0].findex ++ ix exampleModule.functions[0].regs.length ++ ix 1 ++
      exampleModule.functions[0].regs.flatMap ix) ++ [255] ++
    exampleModule.functions.flatMap functionHead ++ [7]) = .err ⟨.invalidOpcode, 96⟩ s := by
  have h := c87_module_unknown_instructions .dev plainModule plainModule_readable rfl [] exampleModule.functions exampleModule.functions[0] (by rfl)
    (by simp [plainModule, exampleModule]) [] 255 [] (by decide) (by simp) (by simp) (by decide) (by simp) [7]
  have e : (beforeTypes plainModule ++ plainModule.types.flatMap RType.encode ++ plainModule.globals.flatMap ix ++ plainModule.natives.flatMap RNative.encode ++
    [].flatMap (RFunction.encode plainModule) ++
    (ix exampleModule.functions[0].type ++ ix exampleModule.functions[0].findex ++ ix exampleModule.functions[0].regs.length ++
      ix (([] : List (Instr ⊕ UInt8)).length + 1 + ([] : List Instr).length) ++ exampleModule.functions[0].regs.flatMap ix) ++
    [].flatMap instrOrByte ++ [255]).length = 96 := by decide +kernel
  rw [e] at h
  simpa using h

end Verif.Brass
