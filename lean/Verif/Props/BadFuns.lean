import Verif.Props.BadRefs

/-!
# Bad numbers in the last function, and in the constants, in plain words (C87)
-/

namespace Verif.Brass

open Verif Verif.Brass.Spec

/-- The mark of the `j`-th number, if `φ` says what is wrong with the numbers. -/
def markOf (φ : Nat → Int → Option DecodeErrorKind) (j : Nat) (i : Int) : Marked :=
  match φ j i with
  | none => []
  | some e => [.fault e]

/-- The marked text of some numbers. -/
def markW (φ : Nat → Int → Option DecodeErrorKind) : Nat → List (List UInt8 × Int) → Marked
  | _, [] => []
  | j, q :: l => plain q.1 ++ markOf φ j q.2 ++ markW φ (j + 1) l

theorem text_markOf (φ j i) : text (markOf φ j i) = [] := by
  unfold markOf
  split <;> rfl

theorem text_markW (φ) : ∀ (l : List (List UInt8 × Int)) (j : Nat), text (markW φ j l) = l.flatMap (·.1)
  | [], _ => rfl
  | q :: l, j => by
    simp only [markW, text_append, text_plain, text_markOf, text_markW φ l, List.append_nil, List.flatMap_cons]

theorem markW_append (φ) (l' : List (List UInt8 × Int)) : ∀ (l : List (List UInt8 × Int)) (j : Nat),
    markW φ j (l ++ l') = markW φ j l ++ markW φ (j + l.length) l'
  | [], _ => rfl
  | q :: l, j => by
    simp only [List.cons_append, markW, markW_append φ l' l, List.append_assoc, List.length_cons]
    congr 4
    omega

theorem faults_markW_nil (φ) : ∀ (l : List (List UInt8 × Int)) (j pos : Nat),
    (∀ n q, l[n]? = some q → φ (j + n) q.2 = none) → faults pos (markW φ j l) = []
  | [], _, _, _ => rfl
  | q :: l, j, pos, h => by
    have hq : markOf φ j q.2 = [] := by
      have := h 0 q rfl
      unfold markOf
      rw [Nat.add_zero] at this
      rw [this]
    rw [markW, hq, List.append_nil, text_faults_append, faults_plain, List.nil_append]
    refine faults_markW_nil φ l (j + 1) _ fun n q' hn => ?_
    have := h (n + 1) q' (by simpa using hn)
    rwa [Nat.add_assoc, Nat.add_comm 1 n]

/-- The error reported for numbers of which the one at `before.length` is the last that is wrong. -/
theorem reported_markW (φ) (before after : List (List UInt8 × Int)) (k : List UInt8) (i : Int) (kind : DecodeErrorKind) (pos : Nat)
    (hk : kind ≠ .invalidType) (hi : φ before.length i = some kind)
    (ha : ∀ n q, after[n]? = some q → φ (before.length + 1 + n) q.2 = none) :
    reported (faults pos (markW φ 0 (before ++ [(k, i)] ++ after))) = some ⟨kind, pos + (before.flatMap (·.1)).length + k.length⟩ := by
  have hm : markOf φ before.length i = [.fault kind] := by unfold markOf; rw [hi]
  rw [markW_append, markW_append]
  simp only [Nat.zero_add, text_faults_append, List.length_append, List.length_cons, List.length_nil]
  rw [faults_markW_nil φ after _ _ ha, List.append_nil]
  simp only [markW, hm, List.append_nil, text_faults_append, faults_plain, List.nil_append, text_markW, text_plain, faults]
  rw [reported_concat _ _ hk]

theorem faulty_markW (φ) (before after : List (List UInt8 × Int)) (k : List UInt8) (i : Int) (kind : DecodeErrorKind) (hi : φ before.length i = some kind) :
    faulty (markW φ 0 (before ++ [(k, i)] ++ after)) = true := by
  have hm : markOf φ before.length i = [.fault kind] := by unfold markOf; rw [hi]
  rw [markW_append, markW_append]
  simp [markW, hm, faulty_append, faulty]

/-! ## The last function -/

theorem loop_snoc {β : Type} {g : Nat → β → F β} {r' : β} {s' : Code} {w2 : Marked} :
    ∀ (n a : Nat) (b : β) (c : Code) (f : Bool) (w1 : Marked) (r : β) (s : Code), F.loop g a n b c f w1 r s →
      g (a + n) r s (f || faulty w1) w2 r' s' → F.loop g a (n + 1) b c f (w1 ++ w2) r' s'
  | 0, a, b, c, f, w1, r, s, ⟨h1, h2, h3⟩, h => by
    subst h1 h2 h3
    exact ⟨w2, [], r', s', by simp, by simpa [faulty] using h, rfl, rfl, rfl⟩
  | n + 1, a, b, c, f, w1, r, s, ⟨u, v, b1, c1, h1, h2, h3⟩, h => by
    subst h1
    refine ⟨u, v ++ w2, b1, c1, by simp, h2, loop_snoc n (a + 1) b1 c1 _ v r s h3 ?_⟩
    rw [Bool.or_assoc, ← faulty_append, show a + 1 + n = a + (n + 1) by omega]
    exact h

theorem typeRefF_markW (c : Code) (b : Bool) (j : Nat) (q : List UInt8 × Int) (h : IdxBytes q.1 q.2) (hj : j = 0 ∨ 4 ≤ j) (h0 : c.ntypes ≠ 0)
    (h1 : c.ntypes < 2 ^ 31) (h2 : c.ntypes ≤ c.types.length) : ∃ t, typeRefF c b (plain q.1 ++ markOf (functionFault c) j q.2) t c := by
  have : plain q.1 ++ markOf (functionFault c) j q.2 = typeW c.ntypes q := by
    unfold typeW markOf functionFault
    rw [if_neg (by omega)]
    congr 1
    split <;> simp_all
  rw [this]
  exact typeRefF_typeW c b q h h0 h1 h2

theorem natF_markW (c : Code) (b : Bool) (j : Nat) (q : List UInt8 × Int) (h : IdxBytes q.1 q.2) (hj : j = 1 ∨ j = 2 ∨ j = 3) (d : Code) :
    natF c b (plain q.1 ++ markOf (functionFault d) j q.2) q.2.toNat c := by
  have : plain q.1 ++ markOf (functionFault d) j q.2 = natW q := by
    unfold natW markOf functionFault
    rw [if_pos hj]
    congr 1
    split <;> simp_all
  rw [this]
  exact natF_natW c b q h

theorem manyF_markW (c : Code) (h0 : c.ntypes ≠ 0) (h1 : c.ntypes < 2 ^ 31) (h2 : c.ntypes ≤ c.types.length) :
    ∀ (l : List (List UInt8 × Int)) (j : Nat) (b : Bool), (∀ q ∈ l, IdxBytes q.1 q.2) → 4 ≤ j →
      ∃ ts, F.many typeRefF l.length c b (markW (functionFault c) j l) ts c
  | [], _, _, _, _ => ⟨[], rfl, rfl, rfl⟩
  | q :: l, j, b, h, hj => by
    obtain ⟨t, ht⟩ := typeRefF_markW c b j q (h q (by simp)) (.inr hj) h0 h1 h2
    obtain ⟨ts, hts⟩ := manyF_markW c h0 h1 h2 l (j + 1) (b || faulty (plain q.1 ++ markOf (functionFault c) j q.2))
      (fun q hq => h q (List.mem_cons_of_mem _ hq)) (by omega)
    exact ⟨t :: ts, _, _, t, c, rfl, ht, _, [], ts, c, (List.append_nil _).symm, hts, rfl, rfl, rfl⟩

theorem functionF_markW (c : Code) (h0 : c.ntypes ≠ 0) (h1 : c.ntypes < 2 ^ 31) (h2 : c.ntypes ≤ c.types.length)
    (t f r o : List UInt8 × Int) (regs : List (List UInt8 × Int)) (b : Bool) (h : ∀ q ∈ t :: f :: r :: o :: regs, IdxBytes q.1 q.2)
    (hr : regs.length = r.2.toNat) (hf : faulty (markW (functionFault c) 0 (t :: f :: r :: o :: regs)) = true) :
    ∃ x, functionF c b (markW (functionFault c) 0 (t :: f :: r :: o :: regs)) x c := by
  let φ := functionFault c
  let w1 := plain t.1 ++ markOf φ 0 t.2
  let w2 := plain f.1 ++ markOf φ 1 f.2
  let w3 := plain r.1 ++ markOf φ 2 r.2
  let w4 := plain o.1 ++ markOf φ 3 o.2
  let w5 := markW φ 4 regs
  obtain ⟨ty, e1⟩ := typeRefF_markW c b 0 t (h t (by simp)) (.inl rfl) h0 h1 h2
  have e2 := natF_markW c (b || faulty w1) 1 f (h f (by simp)) (by simp) c
  have e3 := natF_markW c ((b || faulty w1) || faulty w2) 2 r (h r (by simp)) (by simp) c
  have e4 := natF_markW c (((b || faulty w1) || faulty w2) || faulty w3) 3 o (h o (by simp)) (by simp) c
  obtain ⟨ts, e5⟩ := manyF_markW c h0 h1 h2 regs 4 ((((b || faulty w1) || faulty w2) || faulty w3) || faulty w4)
    (fun q hq => h q (by simp [hq])) (by omega)
  rw [hr] at e5
  have hB : (((((b || faulty w1) || faulty w2) || faulty w3) || faulty w4) || faulty w5) = true := by
    have : markW φ 0 (t :: f :: r :: o :: regs) = w1 ++ (w2 ++ (w3 ++ (w4 ++ w5))) := by
      simp only [markW, List.append_assoc, w1, w2, w3, w4, w5]
    rw [this] at hf
    simp only [faulty_append, Bool.or_eq_true] at hf ⊢
    rcases hf with h | h | h | h | h <;> simp [h]
  refine ⟨_, w1, w2 ++ (w3 ++ (w4 ++ w5)), ty, c, ?_, e1, w2, _, _, c, rfl, e2, w3, _, _, c, rfl, e3, w4, _, _, c, rfl, e4, w5, [], ts, c,
    (List.append_nil _).symm, e5, [], [], true, c, rfl, ⟨rfl, hB.symm, rfl⟩, [], [], [], c, rfl, ⟨rfl, rfl, rfl⟩, rfl, rfl, rfl⟩
  simp only [markW, List.append_assoc, w1, w2, w3, w4, w5, φ]

theorem upToFunctionsG_facts {k : List UInt8} {c c' : Code} (h : upToFunctionsG noCode k c c') (h0 : c.ntypes ≠ 0) :
    c.ntypes < 2 ^ 31 ∧ c.ntypes ≤ c.types.length := by
  obtain ⟨_, _, c1, s1, _, h1, h2⟩ := h
  obtain ⟨ns, rfl⟩ := nativesG_value h2
  obtain ⟨_, h3, _, h4⟩ := upToNativesG_facts h1 h0
  exact ⟨h3, h4⟩

/-- **C87** If a file without debug information is right up to its last function, and one of the numbers before the instructions of this function (its
type, number, counts, and the types of its registers) is out of range, then it is rejected, and the error is that of the last such
number, whatever comes after these numbers: the instructions are not read. -/
theorem c87_bad_function (p : Profile) (k1 k2 : List UInt8) (c c' : Code) (h1 : upToFunctionsG noCode k1 c c') (hd : c.hasdebug = 0)
    (n : Nat) (hn : c.nfunctions = n + 1) (h2 : ∃ d d', G.loop (functionsStepG p) 0 n c c' k2 d d') (h0 : c.ntypes ≠ 0)
    (t f r o : List UInt8 × Int) (regs : List (List UInt8 × Int)) (hr : regs.length = r.2.toNat)
    (before after : List (List UInt8 × Int)) (k : List UInt8) (i : Int) (kind : DecodeErrorKind) (rest : List UInt8)
    (hl : t :: f :: r :: o :: regs = before ++ [(k, i)] ++ after) (h : ∀ q ∈ before ++ [(k, i)] ++ after, IdxBytes q.1 q.2)
    (hi : functionFault c before.length i = some kind)
    (ha : ∀ j q, after[j]? = some q → functionFault c (before.length + 1 + j) q.2 = none) :
    ∃ s, Code.read p none (k1 ++ k2 ++ (before ++ [(k, i)] ++ after).flatMap (·.1) ++ rest) =
      .err ⟨kind, (k1 ++ k2 ++ before.flatMap (·.1) ++ k).length⟩ s := by
  rw [c87_rejected_iff]
  obtain ⟨d, d', h2⟩ := h2
  obtain ⟨n1, n2⟩ := upToFunctionsG_facts h1 h0
  have hfs : ∃ fs, d = { c with functions := fs } := by
    refine loop_inv (fun _ b => ∃ fs, b = { c with functions := fs }) ?_ _ _ _ _ _ _ _ ⟨_, rfl⟩ h2
    rintro i b c k b' c' ⟨gs, rfl⟩ ⟨_, _, _, _, rfl, _, _, _, _, _, rfl, _, _, _, _, _, rfl, _, rfl, rfl, rfl⟩
    exact ⟨_, rfl⟩
  obtain ⟨fs, hfs⟩ := hfs
  have hc0 : c.functions = [] := upToFunctionsG_functions h1
  have hgood : F.loop (functionsStepF p) 0 n c c' false (plain k2) d d' := by
    have hF : PSem (P.forRange (Par.readFunctionsStep p) 0 n c) (F.loop (functionsStepF p) 0 n c) :=
      PSem.forRange (fun i c => c.functions.length = i) (fun i c hi => PSem.readFunctionsStep p i c hi)
        (fun i c _ _ _ _ _ hi h => by rw [PSem.functionsStep_length h, hi]) _ _ _ (by rw [hc0]; rfl)
    have hG : Sem (M.forRange (readFunctionsStep p) 0 n c) (G.loop (functionsStepG p) 0 n c) :=
      Sem.forRange (fun i c => c.functions.length = i) (fun i c hi => Sem.readFunctionsStep p i c hi)
        (fun i c => Good.readFunctionsStep p i c) _ _ _ (by simp [hc0])
        (fun i c _ _ _ _ hi h => by rw [(Sem.functionsStep_length h).1, hi])
    exact ((unmarked_iff (.ofSim (Sim.forRange (Sim.readFunctionsStep p) _ _ _) hF) hG c' (plain k2) d d').2 ⟨k2, rfl, h2⟩).1
  have ed : functionFault d = functionFault c := by rw [hfs]; rfl
  have hfaulty : faulty (markW (functionFault d) 0 (t :: f :: r :: o :: regs)) = true := by
    rw [hl, ed]
    exact faulty_markW _ _ _ _ _ _ hi
  obtain ⟨x, hx⟩ := functionF_markW d (by rw [hfs]; exact h0) (by rw [hfs]; exact n1) (by rw [hfs]; exact n2) t f r o regs false
    (by rw [hl]; exact h) hr hfaulty
  have hd' : ¬ d.hasdebug ≠ 0 := by rw [hfs]; simpa using hd
  have hstep : functionsStepF p (0 + n) d d' (false || faulty (plain k2)) (markW (functionFault c) 0 (before ++ [(k, i)] ++ after))
      { d with functions := d.functions ++ [x] } { d with functions := d.functions ++ [x] } := by
    rw [faulty_plain]
    refine ⟨[], _, (), d, rfl, ⟨[], rfl, rfl, rfl⟩, markW (functionFault c) 0 (before ++ [(k, i)] ++ after), [], x, d, (List.append_nil _).symm, ?_, ?_⟩
    · rw [← hl, ← ed]
      simpa [faulty] using hx
    · dsimp only
      rw [if_neg hd']
      exact ⟨[], [], (), _, rfl, ⟨[], rfl, rfl, rfl⟩, rfl, rfl, rfl⟩
  have hfun : functionsF p c c' false (plain k2 ++ markW (functionFault c) 0 (before ++ [(k, i)] ++ after))
      { d with functions := d.functions ++ [x] } { d with functions := d.functions ++ [x] } := by
    unfold functionsF
    rw [hn]
    exact loop_snoc n 0 c c' false _ d d' hgood hstep
  refine .inSection _ _ k1 rest _ c c' _ _ _ .functions h1 hfun ?_ ?_
  · rw [text_append, text_plain, text_markW]; simp only [List.append_assoc]
  · have hk : kind ≠ .invalidType := by
      unfold functionFault at hi
      intro hk
      rw [hk] at hi
      split at hi <;> split at hi <;> simp at hi
    rw [text_faults_append, faults_plain, List.nil_append, text_plain, reported_markW _ _ _ _ _ _ _ hk hi ha]
    simp only [List.length_append]

/-- **C87** In particular: take any module without debug information that can be read, and change its last function, so that the type
of a register does not exist.  Its serialisation is rejected, and the position is the end of the last such type; it does not matter
what the instructions are. -/
theorem c87_module_bad_register (p : Profile) (m : RModule) (hm : m.Readable) (h0 : m.types ≠ []) (hd : m.hasDebug = false)
    (fs : List RFunction) (f0 f : RFunction) (hfs : m.functions = fs ++ [f0]) (rest : List UInt8)
    (hf : f.type < 0x2000 ∧ f.findex < 0x2000 ∧ f.regs.length < 0x2000 ∧ f.ops.length < 0x2000)
    (before after : List Nat) (g : Nat) (hr : f.regs = before ++ [g] ++ after) (h : ∀ x ∈ f.regs, x < 0x2000)
    (hg : m.types.length ≤ g) (ha : ∀ x ∈ after, x < m.types.length) :
    ∃ s, Code.read p none ({ m with functions := fs ++ [f] }.encode ++ rest) =
      .err ⟨.invalidTypeIndex, (beforeTypes m ++ m.types.flatMap RType.encode ++ m.globals.flatMap ix ++ m.natives.flatMap RNative.encode ++
        fs.flatMap (RFunction.encode m) ++ ix f.type ++ ix f.findex ++ ix f.regs.length ++ ix f.ops.length ++ (before ++ [g]).flatMap ix).length⟩ s := by
  have hm' := asAnswered_readable hm
  obtain ⟨u, s4, h4, ⟨slots, hu⟩, _, h4b⟩ := types_enc hm (if m.hasDebug then RModule.c3 m.asAnswered else Code.new)
  obtain ⟨s5, h5, h5a, h5b⟩ := globals_enc hm' u slots hu s4
  have hs5 : s5 = RModule.c5 m.asAnswered u := by
    by_cases hg : m.asAnswered.globals = []
    · rw [(h5a hg).1, (h5a hg).2, h4b h0]
    · exact h5b hg
  obtain ⟨s6, h6, _⟩ := natives_enc hm' u slots hu s5 (.inl hs5)
  have e1 : (RModule.c6 m.asAnswered u).ntypes = m.types.length := asAnswered_types m
  have h00 : m.types.length ≠ 0 := fun h => h0 (List.eq_nil_of_length_eq_zero h)
  have hup : upToFunctionsG noCode (beforeTypes m ++ (m.types.flatMap RType.encode ++ m.globals.flatMap ix) ++ m.natives.flatMap RNative.encode)
      (RModule.c6 m.asAnswered u) s6 :=
    ⟨_, _, _, _, rfl, ⟨_, _, _, _, rfl, beforeTypes_enc hm, _, _, _, _, rfl, h4, h5⟩, h6⟩
  have hloop : ∃ d d', G.loop (functionsStepG p) 0 fs.length (RModule.c6 m.asAnswered u) s6 (fs.flatMap (RFunction.encode m)) d d' := by
    let V : List RFunction → Code → Prop := fun pre c => c = { RModule.c6 m.asAnswered u with functions := pre.map (RFunction.decoded m.asAnswered) }
    have key := loop_enc (g := functionsStepG p) V (fun _ _ => True) (RFunction.encode m) fs (fun _ => trivial) ?_ fs []
      (RModule.c6 m.asAnswered u) s6 rfl rfl trivial
    · obtain ⟨d, d', h1, _⟩ := key
      exact ⟨d, d', h1⟩
    · rintro pre f post c s e rfl _
      have hf := hm'.functions f (by show f ∈ m.functions; rw [hfs, e]; simp)
      refine ⟨{ RModule.c6 m.asAnswered u with functions := (pre ++ [f]).map (RFunction.decoded m.asAnswered) }, ?_, rfl⟩
      refine ⟨[], _, (), _, rfl, ⟨rfl, rfl⟩, _, [], _, _, (List.append_nil _).symm,
        function_enc hm' p hf hu (fits4 hm' _ rfl rfl rfl rfl) rfl rfl rfl, ?_⟩
      rw [List.map_append]
      exact ⟨[], [], (), _, rfl, ⟨rfl, rfl⟩, rfl, rfl, rfl⟩
  let q : Nat → List UInt8 × Int := fun g => (ix g, (g : Int))
  have ef : ∀ l : List Nat, (l.map q).flatMap (·.1) = l.flatMap ix := fun l => by rw [List.flatMap_map]
  have hn : (RModule.c6 m.asAnswered u).nfunctions = fs.length + 1 := by
    show m.functions.length = _
    rw [hfs]; simp
  obtain ⟨s, hread⟩ := c87_bad_function p _ _ _ _ hup (by show (if m.hasDebug then 1 else 0) = 0; rw [hd]; rfl) fs.length hn hloop
    (by rw [e1]; exact h00) (q f.type) (q f.findex) (q f.regs.length) (q f.ops.length) (f.regs.map q) (by simp [q])
    (q f.type :: q f.findex :: q f.regs.length :: q f.ops.length :: before.map q) (after.map q) (ix g) (g : Int) .invalidTypeIndex
    (f.ops.flatMap Instr.encode ++ (if 4 ≤ m.version then m.constants.flatMap RConstant.encode else []) ++ rest)
    (by rw [hr]; simp [q])
    (by
      intro x hx
      have hx : x ∈ (f.type :: f.findex :: f.regs.length :: f.ops.length :: f.regs).map q := by
        rw [hr] at *
        simpa [q] using hx
      obtain ⟨y, hy, rfl⟩ := List.mem_map.1 hx
      refine ix_bytes ?_
      obtain ⟨f1, f2, f3, f4⟩ := hf
      simp only [List.mem_cons] at hy
      rcases hy with rfl | rfl | rfl | rfl | hy
      · exact f1
      · exact f2
      · exact f3
      · exact f4
      · exact h _ hy)
    (by
      unfold functionFault
      rw [if_neg (by simp only [List.length_cons]; omega), if_neg (by rw [e1]; omega)])
    (by
      intro j x hx
      obtain ⟨y, hy, rfl⟩ := List.mem_map.1 (List.mem_of_getElem? hx)
      have := ha y hy
      unfold functionFault
      rw [if_neg (by simp only [List.length_cons]; omega), if_pos (by rw [e1]; exact ⟨by simp [q], by simp only [q]; omega⟩)])
  refine ⟨s, ?_⟩
  have ec : RModule.counts { m with functions := fs ++ [f] } = m.counts := by
    simp only [RModule.counts, hfs, List.length_append, List.length_cons, List.length_nil]
  have em : RFunction.encode { m with functions := fs ++ [f] } = RFunction.encode m := rfl
  have ee : ({ m with functions := fs ++ [f] } : RModule).encode = beforeTypes m ++ m.types.flatMap RType.encode ++
      m.globals.flatMap ix ++ m.natives.flatMap RNative.encode ++ fs.flatMap (RFunction.encode m) ++ f.encode m ++
      (if 4 ≤ m.version then m.constants.flatMap RConstant.encode else []) := by
    unfold RModule.encode beforeTypes
    rw [ec, em]
    simp only [List.append_assoc, List.flatMap_append, List.flatMap_cons, List.flatMap_nil, List.append_nil]
  have ef2 : f.encode m = ix f.type ++ ix f.findex ++ ix f.regs.length ++ ix f.ops.length ++ (before ++ [g] ++ after).flatMap ix ++ f.ops.flatMap Instr.encode := by
    unfold RFunction.encode
    rw [hd, ← hr]
    simp
  rw [ee, ef2]
  simp only [List.flatMap_append, List.flatMap_cons, List.flatMap_nil, List.append_nil, ef, q, List.append_assoc] at hread ⊢
  exact hread

/-! ## The constants -/

/-- What is wrong with a number that should not be negative. -/
def negFault (_ : Nat) (i : Int) : Option DecodeErrorKind := if i < 0 then some .negativeIndex else none

theorem natF_neg (c : Code) (b : Bool) (j : Nat) (q : List UInt8 × Int) (h : IdxBytes q.1 q.2) :
    natF c b (plain q.1 ++ markOf negFault j q.2) q.2.toNat c := by
  have : plain q.1 ++ markOf negFault j q.2 = natW q := by
    unfold natW markOf negFault
    congr 1
    split <;> simp_all
  rw [this]
  exact natF_natW c b q h

theorem manyF_neg (c : Code) : ∀ (l : List (List UInt8 × Int)) (j : Nat) (b : Bool), (∀ q ∈ l, IdxBytes q.1 q.2) →
    F.many natF l.length c b (markW negFault j l) (l.map fun q => q.2.toNat) c
  | [], _, _, _ => ⟨rfl, rfl, rfl⟩
  | q :: l, j, b, h =>
    ⟨_, _, _, c, rfl, natF_neg c b j q (h q (by simp)), _, [], _, c, (List.append_nil _).symm,
      manyF_neg c l (j + 1) _ (fun q hq => h q (List.mem_cons_of_mem _ hq)), rfl, rfl, rfl⟩

/-- **C87** If a file is right up to one of its constants, and one of the numbers of this constant (its global, the number of its
fields, and the fields; a negative number of fields counts as 0) is negative, then it is rejected, and the position is the end of the
last such number, whatever comes after it. -/
theorem c87_bad_constant (p : Profile) (i : Nat) (k1 : List UInt8) (c c' : Code) (h1 : upToConstantG p i noCode k1 c c')
    (g n : List UInt8 × Int) (fields : List (List UInt8 × Int)) (hn : fields.length = n.2.toNat)
    (before after : List (List UInt8 × Int)) (k : List UInt8) (x : Int) (rest : List UInt8)
    (hl : g :: n :: fields = before ++ [(k, x)] ++ after) (h : ∀ q ∈ before ++ [(k, x)] ++ after, IdxBytes q.1 q.2)
    (hx : x < 0) (ha : ∀ q ∈ after, 0 ≤ q.2) :
    ∃ s, Code.read p none (k1 ++ (before ++ [(k, x)] ++ after).flatMap (·.1) ++ rest) =
      .err ⟨.negativeIndex, (k1 ++ before.flatMap (·.1) ++ k).length⟩ s := by
  rw [c87_rejected_iff]
  rw [← hl] at h
  have e1 := natF_neg c' false 0 g (h g (by simp))
  have e2 := natF_neg c' (false || faulty (plain g.1 ++ markOf negFault 0 g.2)) 1 n (h n (by simp))
  have e3 := manyF_neg c' fields 2 ((false || faulty (plain g.1 ++ markOf negFault 0 g.2)) || faulty (plain n.1 ++ markOf negFault 1 n.2))
    (fun q hq => h q (by simp [hq]))
  rw [hn] at e3
  have hc : constantF c' false (markW negFault 0 (g :: n :: fields)) { global := g.2.toNat, nfields := n.2.toNat, fields := fields.map fun q => q.2.toNat } c' :=
    ⟨_, _, _, c', rfl, e1, _, _, _, c', rfl, e2, _, [], _, c', (List.append_nil _).symm, e3, rfl, rfl, rfl⟩
  refine .inSection _ _ k1 rest _ c c' _ _ _ (.constant i) h1 hc ?_ ?_
  · rw [text_markW, hl]
  · rw [hl, reported_markW negFault before after k x .negativeIndex _ (by simp) (by unfold negFault; rw [if_pos hx]) ?_]
    · simp only [List.length_append]
    · intro j q hq
      have := ha q (List.mem_of_getElem? hq)
      unfold negFault
      rw [if_neg (by omega)]

/-- **C87** In particular: take any module that can be read, of a version with constants, and write a constant with a negative field in
the place of one of its constants.  What is written is rejected, and the position is the end of the last negative field, whatever
comes after this constant. -/
theorem c87_module_bad_constant (p : Profile) (m : RModule) (hm : m.Readable) (h0 : m.types ≠ []) (pre post : List RConstant) (c0 : RConstant)
    (hc : m.constants = pre ++ [c0] ++ post) (g : Int) (fields before after : List Int) (x : Int) (rest : List UInt8)
    (hfs : fields = before ++ [x] ++ after) (hg : g.natAbs < 0x2000) (hn : fields.length < 0x2000) (h : ∀ y ∈ fields, y.natAbs < 0x2000)
    (hx : x < 0) (ha : ∀ y ∈ after, 0 ≤ y) :
    let start := beforeTypes m ++ m.types.flatMap RType.encode ++ m.globals.flatMap ix ++ m.natives.flatMap RNative.encode ++
      m.functions.flatMap (RFunction.encode m) ++ pre.flatMap RConstant.encode
    ∃ s, Code.read p none (start ++ (hlIndex g ++ ix fields.length ++ fields.flatMap hlIndex) ++ rest) =
      .err ⟨.negativeIndex, (start ++ (hlIndex g ++ ix fields.length ++ (before ++ [x]).flatMap hlIndex)).length⟩ s := by
  intro start
  have hm' := asAnswered_readable hm
  obtain ⟨u, s4, h4, ⟨slots, hu⟩, _, h4b⟩ := types_enc hm (if m.hasDebug then RModule.c3 m.asAnswered else Code.new)
  obtain ⟨s5, h5, h5a, h5b⟩ := globals_enc hm' u slots hu s4
  have hs5 : s5 = RModule.c5 m.asAnswered u := by
    by_cases hg : m.asAnswered.globals = []
    · rw [(h5a hg).1, (h5a hg).2, h4b h0]
    · exact h5b hg
  obtain ⟨s6, h6, _⟩ := natives_enc hm' u slots hu s5 (.inl hs5)
  obtain ⟨s7, h7, _⟩ := functions_enc hm' p u slots hu s6
  have hloop : ∃ d d', G.loop constantsStepG 0 pre.length (RModule.c7 m.asAnswered u) s7 (pre.flatMap RConstant.encode) d d' := by
    let V : List RConstant → Code → Prop := fun l c => c = { RModule.c7 m.asAnswered u with constants := l.map RConstant.decoded }
    have key := loop_enc (g := constantsStepG) V (fun _ _ => True) RConstant.encode pre (fun _ => trivial) ?_ pre []
      (RModule.c7 m.asAnswered u) s7 rfl rfl trivial
    · obtain ⟨d, d', h1, _⟩ := key
      exact ⟨d, d', h1⟩
    · rintro l k post c s e rfl _
      have hk := hm'.constants k (by show k ∈ m.constants; rw [hc, e]; simp)
      refine ⟨{ RModule.c7 m.asAnswered u with constants := (l ++ [k]).map RConstant.decoded }, ?_, rfl⟩
      have h0 := (Enc.constant hk).run0 (f := fun _ => ()) KeepsOn.constantG
      refine ⟨_, [], _, _, (List.append_nil _).symm, (KeepsOn.constantG (f := fun _ => ()) _ _ _ _ h0).2 s rfl,
        [], [], (), _, rfl, ⟨rfl, by simp, rfl⟩, ?_⟩
      have e3 : (l.map RConstant.decoded).insertIdx l.length k.decoded = (l ++ [k]).map RConstant.decoded := by
        have := insertIdx_append_length (l.map RConstant.decoded) [] k.decoded
        rw [List.length_map] at this
        simpa using this
      show (G.setCode { RModule.c7 m.asAnswered u with constants := (l.map RConstant.decoded).insertIdx l.length k.decoded } >>= _) _ _ _ _
      rw [e3]
      exact ⟨[], [], (), _, rfl, ⟨rfl, rfl⟩, rfl, rfl, rfl⟩
  obtain ⟨d, d', hloop⟩ := hloop
  have hlt : pre.length < (RModule.c7 m.asAnswered u).nconstants := by
    show pre.length < m.constants.length
    rw [hc]; simp
  have hup : upToConstantG p pre.length noCode ((beforeTypes m ++ (m.types.flatMap RType.encode ++ m.globals.flatMap ix) ++ m.natives.flatMap RNative.encode) ++
      (m.functions.flatMap (RFunction.encode m) ++ pre.flatMap RConstant.encode)) d d' :=
    ⟨_, _, _, _, rfl, ⟨_, _, _, _, rfl, ⟨_, _, _, _, rfl, beforeTypes_enc hm, _, _, _, _, rfl, h4, h5⟩, h6⟩,
      _, _, _, _, rfl, h7, [], _, (), _, rfl, ⟨rfl, hlt, rfl⟩, hloop⟩
  let q : Int → List UInt8 × Int := fun y => (hlIndex y, y)
  have ef : ∀ l : List Int, (l.map q).flatMap (·.1) = l.flatMap hlIndex := fun l => by rw [List.flatMap_map]
  obtain ⟨s, hread⟩ := c87_bad_constant p pre.length _ _ _ hup (q g) (ix fields.length, (fields.length : Int)) (fields.map q) (by simp)
    (q g :: (ix fields.length, (fields.length : Int)) :: before.map q) (after.map q) (hlIndex x) x rest (by rw [hfs]; simp [q])
    (by
      have e : q g :: (ix fields.length, (fields.length : Int)) :: before.map q ++ [(hlIndex x, x)] ++ after.map q =
          q g :: (ix fields.length, (fields.length : Int)) :: fields.map q := by rw [hfs]; simp [q]
      rw [e]
      intro y hy
      simp only [List.mem_cons, List.mem_map] at hy
      rcases hy with rfl | rfl | ⟨z, hz, rfl⟩
      · exact small_idx hg
      · exact ix_bytes hn
      · exact small_idx (h z hz))
    hx (by
      intro y hy
      obtain ⟨z, hz, rfl⟩ := List.mem_map.1 hy
      exact ha z hz)
  refine ⟨s, ?_⟩
  have efs : fields.flatMap hlIndex = before.flatMap hlIndex ++ (hlIndex x ++ after.flatMap hlIndex) := by rw [hfs]; simp
  rw [efs]
  simp only [start, List.flatMap_append, List.flatMap_cons, List.flatMap_nil, List.append_nil, ef, q, List.append_assoc, List.cons_append, List.nil_append] at hread ⊢
  exact hread

/-! ## Examples -/

/-- The module of the examples without debug information, and with its function twice. -/
def plainModule : RModule := { exampleModule with hasDebug := false, debugFiles := [], functions := exampleModule.functions ++ exampleModule.functions }

theorem plainModule_readable : plainModule.Readable :=
  have h := exampleModule_good.toReadable
  { version := h.version, bytes := h.bytes, noConstants := h.noConstants, noDebug := fun _ => rfl, entrypoint := h.entrypoint, nints := h.nints, ints := h.ints
    nfloats := h.nfloats, floats := h.floats, nstrings := h.nstrings, strings := h.strings, nbytes := h.nbytes, bytesPos := h.bytesPos
    ndebugFiles := by decide, debugFiles := by intro s hs; cases hs
    ntypes := h.ntypes, types := h.types, nglobals := h.nglobals, globals := h.globals, nnatives := h.nnatives, natives := h.natives
    nfunctions := by decide
    functions := fun f hf => by
      have hf : f ∈ exampleModule.functions := by simpa [plainModule] using hf
      have g := h.functions f hf
      exact { type := g.type, findex := g.findex, nregs := g.nregs, regs := g.regs, nops := g.nops, ops := g.ops
              debug := fun hd => (by cases hd), assigns := g.assigns }
    nconstants := h.nconstants, constants := h.constants }

/-- A function with two registers of types that do not exist. -/
def badFunction : RFunction := { type := 9, findex := 1, regs := [7, 6, 0], ops := [.plain .ORet [0]], debug := [], assigns := [] }

-- The second bad register of the second function is reported (the type of the function does not exist either).
example : ∃ s, Code.read .dev none ({ plainModule with functions := exampleModule.functions ++ [badFunction] }.encode) = .err ⟨.invalidTypeIndex, 112⟩ s := by
  have h := c87_module_bad_register .dev plainModule plainModule_readable (by decide) rfl exampleModule.functions exampleModule.functions[0] badFunction (by rfl) []
    (by decide) [7] [0] 6 rfl (by decide) (by decide) (by decide)
  rw [List.append_nil] at h
  have e : (beforeTypes plainModule ++ plainModule.types.flatMap RType.encode ++ plainModule.globals.flatMap ix ++ plainModule.natives.flatMap RNative.encode ++
    exampleModule.functions.flatMap (RFunction.encode plainModule) ++ ix badFunction.type ++ ix badFunction.findex ++ ix badFunction.regs.length ++
    ix badFunction.ops.length ++ ([7] ++ [6]).flatMap ix).length = 112 := by decide +kernel
  rw [e] at h
  exact h

-- A constant of three fields, the second one negative, in the place of the constant of the module of the examples.
example : ∃ s, Code.read .release none ((beforeTypes exampleModule ++ exampleModule.types.flatMap RType.encode ++ exampleModule.globals.flatMap ix ++
    exampleModule.natives.flatMap RNative.encode ++ exampleModule.functions.flatMap (RFunction.encode exampleModule) ++ [].flatMap RConstant.encode) ++
    (hlIndex 0 ++ ix 3 ++ [4, -1, 2].flatMap hlIndex) ++ [9]) = .err ⟨.negativeIndex, 133⟩ s := by
  have h := c87_module_bad_constant .release exampleModule exampleModule_good.toReadable (by decide) [] [] ⟨0, [0]⟩ (by rfl) 0 [4, -1, 2] [4] [2] (-1) [9]
    (by decide) (by decide) (by decide) (by decide) (by decide) (by decide)
  have e : (beforeTypes exampleModule ++ exampleModule.types.flatMap RType.encode ++ exampleModule.globals.flatMap ix ++
    exampleModule.natives.flatMap RNative.encode ++ exampleModule.functions.flatMap (RFunction.encode exampleModule) ++ [].flatMap RConstant.encode ++
    (hlIndex 0 ++ ix [(4 : Int), -1, 2].length ++ ([4] ++ [-1]).flatMap hlIndex)).length = 133 := by decide +kernel
  simp only [e] at h
  exact h

end Verif.Brass
