import Verif.Props.BadOps

/-!
# Bad debug information, in plain words (C87)
-/

namespace Verif.Brass

open Verif Verif.Brass.Spec

/-- The mark of an item. -/
def itemMark (nfiles nops n : Nat) (i : DbgItem) : Marked :=
  match debugFault nfiles nops n i with
  | none => []
  | some e => [.fault e]

/-- The marked text of some items, after those for `n` instructions. -/
def streamW (nfiles nops : Nat) : Nat → List DbgItem → Marked
  | _, [] => []
  | n, i :: r => plain i.encode ++ itemMark nfiles nops n i ++ streamW nfiles nops (n + (oneInstr i).toNat) r

theorem text_itemMark (nfiles nops n i) : text (itemMark nfiles nops n i) = [] := by
  unfold itemMark
  split <;> rfl

theorem text_streamW (nfiles nops) : ∀ (l : List DbgItem) (n : Nat), text (streamW nfiles nops n l) = l.flatMap DbgItem.encode
  | [], _ => rfl
  | i :: r, n => by simp only [streamW, text_append, text_plain, text_itemMark, text_streamW nfiles nops r, List.append_nil, List.flatMap_cons]

theorem streamW_append (nfiles nops) (l' : List DbgItem) : ∀ (l : List DbgItem) (n : Nat),
    streamW nfiles nops n (l ++ l') = streamW nfiles nops n l ++ streamW nfiles nops (n + l.countP oneInstr) l'
  | [], _ => rfl
  | i :: r, n => by
    simp only [List.cons_append, streamW, streamW_append nfiles nops l' r, List.append_assoc, List.countP_cons]
    congr 4
    cases oneInstr i <;> simp <;> omega

theorem faults_streamW_nil (nfiles nops) : ∀ (l : List DbgItem) (n pos : Nat),
    (∀ j i, l[j]? = some i → debugFault nfiles nops (n + (l.take j).countP oneInstr) i = none) → faults pos (streamW nfiles nops n l) = []
  | [], _, _, _ => rfl
  | i :: r, n, pos, h => by
    have hi : itemMark nfiles nops n i = [] := by
      have := h 0 i rfl
      unfold itemMark
      simp only [List.take_zero, List.countP_nil, Nat.add_zero] at this
      rw [this]
    rw [streamW, hi, List.append_nil, text_faults_append, faults_plain, List.nil_append]
    refine faults_streamW_nil nfiles nops r _ _ fun j q hj => ?_
    have := h (j + 1) q (by simpa using hj)
    rw [List.take_succ_cons, List.countP_cons] at this
    rw [← this]
    congr 1
    cases oneInstr i <;> simp <;> omega

theorem bindBF {β : Type} {f : Nat → F β} {b : UInt8} {n : Nat} (hb : b.toNat = n) {c : Code} {fl : Bool} {w : Marked} {x : β} {c' : Code}
    (h : f n c fl w x c') : (F.ok byteG >>= f) c fl (plain [b] ++ w) x c' :=
  ⟨plain [b], w, n, c, rfl, ⟨[b], rfl, rfl, b, rfl, hb.symm⟩, by rw [faulty_plain, Bool.or_false]; exact h⟩

theorem bindOk0 {α β : Type} {g : G α} {f : α → F β} {a : α} {c : Code} {fl : Bool} {w : Marked} {x : β} {c' : Code}
    (hg : g c [] a c) (h : f a c fl w x c') : (F.ok g >>= f) c fl w x c' :=
  ⟨[], w, a, c, rfl, ⟨[], rfl, hg⟩, by simpa [faulty] using h⟩

/-- Each item is read with its mark. -/
theorem itemF {p : Profile} {nops : Nat} {d : Dbg} {c : Code} (i : DbgItem) (hi : i.Ok) (hn : c.ndebugfiles < 2 ^ 31) (hl : d.line < 2 ^ 30) (fl : Bool) :
    debugItemF p nops d c fl (plain i.encode ++ itemMark c.ndebugfiles nops (d.words.length / 2) i) (brassStep d i) c := by
  cases i with
  | file f =>
    have h1 : f < 0x8000 := hi
    refine bindBF (n := f / 256 * 2 + 1) (ofNat8 (by omega)) ?_
    rw [if_pos (by omega)]
    refine bindBF (n := f % 256) (ofNat8 (by omega)) ?_
    have e : (f / 256 * 2 + 1) / 2 * 256 + f % 256 = f := by omega
    simp only [e]
    refine bindOk0 (a := c) ⟨rfl, rfl, rfl⟩ (bindOk0 (a := ()) ⟨rfl, hn, rfl⟩ ?_)
    by_cases h : c.ndebugfiles ≤ f
    · simp only [F.markIf, if_pos h, itemMark, debugFault]
      exact ⟨[.fault .invalidDebugFile], [], (), c, rfl, ⟨rfl, rfl⟩, rfl, rfl, rfl⟩
    · simp only [F.markIf, if_neg h, itemMark, debugFault]
      exact ⟨[], [], (), c, rfl, ⟨rfl, rfl, rfl⟩, rfl, rfl, rfl⟩
  | run count delta =>
    obtain ⟨h1, h2⟩ : count < 16 ∧ delta < 4 := hi
    refine bindBF (n := delta * 64 + count * 4 + 2) (ofNat8 (by omega)) ?_
    rw [if_neg (by omega), if_pos (by omega)]
    have e : (delta * 64 + count * 4 + 2) / 4 % 16 = count := by omega
    have e' : (delta * 64 + count * 4 + 2) / 64 = delta := by omega
    simp only [e, e']
    have hadd : i32AddG p d.line (delta : Int) c [] (d.line + (delta : Int)) c := ⟨rfl, rfl, Or.inl ⟨by omega, rfl⟩⟩
    by_cases h : nops < d.words.length / 2 + count
    · simp only [F.markIf, if_pos h, itemMark, debugFault]
      exact ⟨[.fault .outsideRange], [], (), c, rfl, ⟨rfl, rfl⟩, bindOk0 hadd ⟨rfl, rfl, rfl⟩⟩
    · simp only [F.markIf, if_neg h, itemMark, debugFault]
      exact ⟨[], [], (), c, rfl, ⟨rfl, rfl, rfl⟩, bindOk0 hadd ⟨rfl, rfl, rfl⟩⟩
  | step delta =>
    have h1 : delta < 32 := hi
    refine bindBF (n := delta * 8 + 4) (ofNat8 (by omega)) ?_
    rw [if_neg (by omega), if_neg (by omega), if_pos (by omega)]
    have e' : (delta * 8 + 4) / 8 = delta := by omega
    simp only [e']
    have hadd : i32AddG p d.line (delta : Int) c [] (d.line + (delta : Int)) c := ⟨rfl, rfl, Or.inl ⟨by omega, rfl⟩⟩
    exact bindOk0 hadd ⟨rfl, rfl, rfl⟩
  | abs line =>
    have h1 : line < 0x200000 := hi
    refine bindBF (n := line % 32 * 8) (ofNat8 (by omega)) ?_
    rw [if_neg (by omega), if_neg (by omega), if_neg (by omega)]
    refine bindBF (n := line / 32 % 256) (ofNat8 (by omega)) ?_
    refine bindBF (n := line / 8192) (ofNat8 (by omega)) ?_
    have e' : line % 32 * 8 / 8 = line % 32 := by omega
    simp only [e', or_bytes]
    exact ⟨rfl, rfl, rfl⟩

theorem stepF_words (d : Dbg) (i : DbgItem) : (brassStep d i).words.length = d.words.length + 2 * (oneInstr i).toNat := by
  cases i <;> simp [brassStep, oneInstr, Dbg.emit]

/-- All items are read if they are for as many instructions as there are, and the last one is for an instruction. -/
theorem streamF {p : Profile} {nops : Nat} {c : Code} (hn : c.ndebugfiles < 2 ^ 31) : ∀ (items : List DbgItem) (d : Dbg) (fl : Bool),
    (∀ i ∈ items, i.Ok) → (∀ i, items.getLast? = some i → oneInstr i = true) → d.words.length / 2 + items.countP oneInstr = nops →
    d.words.length % 2 = 0 → items.length < 2 ^ 24 → d.line + 31 * items.length < 2 ^ 30 →
    ∃ d', DebugF p nops d c fl (streamW c.ndebugfiles nops (d.words.length / 2) items) d' c
  | [], d, fl, _, _, h, _, _, _ => ⟨d, .done _ _ _ (by simp at h; omega)⟩
  | i :: r, d, fl, h1, h4, h5, h6, h7, h8 => by
    have hpos : 1 ≤ (i :: r).countP oneInstr := by
      obtain ⟨x, hx⟩ : ∃ x, (i :: r).getLast? = some x := ⟨_, List.getLast?_cons⟩
      exact List.countP_pos_iff.2 ⟨x, List.mem_of_getLast? hx, h4 x hx⟩
    have hlt : d.words.length / 2 < nops := by omega
    simp only [List.length_cons] at h7 h8
    have hit := h1 i (by simp)
    have hw := stepF_words d i
    have hline : (brassStep d i).line + 31 * r.length < 2 ^ 30 := by
      cases i with
      | file f => show d.line + _ < _; omega
      | run count delta =>
        obtain ⟨_, _⟩ : count < 16 ∧ delta < 4 := hit
        show d.line + (delta : Int) + _ < _
        omega
      | step delta =>
        have : delta < 32 := hit
        show d.line + (delta : Int) + _ < _
        omega
      | abs line =>
        have := or_lt line hit
        show ((line % 256 ||| line / 8192 : Nat) : Int) + _ < _
        omega
    have hcount : (i :: r).countP oneInstr = r.countP oneInstr + (oneInstr i).toNat := by
      rw [List.countP_cons]
      cases oneInstr i <;> simp
    have eh : (brassStep d i).words.length / 2 = d.words.length / 2 + (oneInstr i).toNat := by omega
    obtain ⟨d', hd⟩ := streamF (p := p) (nops := nops) hn r (brassStep d i) (fl || faulty (plain i.encode ++ itemMark c.ndebugfiles nops (d.words.length / 2) i))
      (fun j hj => h1 j (by simp [hj])) (fun j hj => by
        apply h4 j
        cases r with
        | nil => simp at hj
        | cons a r => rw [List.getLast?_cons_cons]; exact hj) (by omega) (by omega) (by omega) hline
    rw [eh] at hd
    exact ⟨d', .item _ _ _ _ _ _ _ _ _ hlt (itemF i hit hn (by omega) fl) hd⟩

namespace Flagless

theorem assigns : Flagless assignsF := bind nat fun _ => bind (many (bind nat fun _ => bind (ok _) fun _ => pure _) _) fun _ => pure _

end Flagless

/-- **C87** Take any module with debug information that can be read, and change the debug information of its last function, so that items refer to files that do not exist, or
are for more instructions than are left.  The file is rejected with the error of the last such item, after this item, whatever comes after the function. -/
theorem c87_module_bad_debug (p : Profile) (m : RModule) (hm : m.Readable) (hd : m.hasDebug = true)
    (fs : List RFunction) (f : RFunction) (hfs : m.functions = fs ++ [f]) (before after : List DbgItem) (i : DbgItem) (kind : DecodeErrorKind)
    (hok : ∀ j ∈ before ++ [i] ++ after, j.Ok) (hlen : (before ++ [i] ++ after).length < 2 ^ 24)
    (hops : (before ++ [i] ++ after).countP oneInstr = f.ops.length) (hlast : ∀ j, after.getLast? = some j → oneInstr j = true) (hne : after ≠ [])
    (hi : debugFault m.debugFiles.length f.ops.length (before.countP oneInstr) i = some kind)
    (ha : ∀ n j, after[n]? = some j → debugFault m.debugFiles.length f.ops.length ((before ++ [i] ++ after.take n).countP oneInstr) j = none)
    (rest : List UInt8) :
    ∃ s, Code.read p none (beforeTypes m ++ m.types.flatMap RType.encode ++ m.globals.flatMap ix ++ m.natives.flatMap RNative.encode ++
        fs.flatMap (RFunction.encode m) ++ (functionHead f ++ f.ops.flatMap Instr.encode) ++ (before ++ [i] ++ after).flatMap DbgItem.encode ++
        (if 3 ≤ m.version then ix f.assigns.length ++ f.assigns.flatMap (fun a => ix a.1 ++ hlIndex a.2) else []) ++ rest) =
      .err ⟨kind, (beforeTypes m ++ m.types.flatMap RType.encode ++ m.globals.flatMap ix ++ m.natives.flatMap RNative.encode ++
        fs.flatMap (RFunction.encode m) ++ (functionHead f ++ f.ops.flatMap Instr.encode) ++ (before ++ [i]).flatMap DbgItem.encode).length⟩ s := by
  have hm' := asAnswered_readable hm
  have hf := hm.functions f (by rw [hfs]; simp)
  have hf' := hm'.functions f (by show f ∈ m.functions; rw [hfs]; simp)
  have h00 : m.types.length ≠ 0 := by have := hf.type; omega
  have h0 : m.types ≠ [] := fun h => h00 (by rw [h]; rfl)
  obtain ⟨u, s4, h4, ⟨slots, hu⟩, _, h4b⟩ := types_enc hm (if m.hasDebug then RModule.c3 m.asAnswered else Code.new)
  obtain ⟨s5, h5, h5a, h5b⟩ := globals_enc hm' u slots hu s4
  have hs5 : s5 = RModule.c5 m.asAnswered u := by
    by_cases hg : m.asAnswered.globals = []
    · rw [(h5a hg).1, (h5a hg).2, h4b h0]
    · exact h5b hg
  obtain ⟨s6, h6, _⟩ := natives_enc hm' u slots hu s5 (.inl hs5)
  have hup : upToFunctionsG noCode (beforeTypes m ++ (m.types.flatMap RType.encode ++ m.globals.flatMap ix) ++ m.natives.flatMap RNative.encode)
      (RModule.c6 m.asAnswered u) s6 :=
    ⟨_, _, _, _, rfl, ⟨_, _, _, _, rfl, beforeTypes_enc hm, _, _, _, _, rfl, h4, h5⟩, h6⟩
  let dd : Code := { RModule.c6 m.asAnswered u with functions := fs.map (RFunction.decoded m.asAnswered) }
  have hloop : ∃ d', G.loop (functionsStepG p) 0 fs.length (RModule.c6 m.asAnswered u) s6 (fs.flatMap (RFunction.encode m)) dd d' := by
    let V : List RFunction → Code → Prop := fun pre c => c = { RModule.c6 m.asAnswered u with functions := pre.map (RFunction.decoded m.asAnswered) }
    have key := loop_enc (g := functionsStepG p) V (fun _ _ => True) (RFunction.encode m) fs (fun _ => trivial) ?_ fs []
      (RModule.c6 m.asAnswered u) s6 rfl rfl trivial
    · obtain ⟨d, d', h1, h2, _⟩ := key
      obtain rfl : d = dd := h2
      exact ⟨d', h1⟩
    · rintro pre f post c s e rfl _
      have hf := hm'.functions f (by show f ∈ m.functions; rw [hfs, e]; simp)
      refine ⟨{ RModule.c6 m.asAnswered u with functions := (pre ++ [f]).map (RFunction.decoded m.asAnswered) }, ?_, rfl⟩
      refine ⟨[], _, (), _, rfl, ⟨rfl, rfl⟩, _, [], _, _, (List.append_nil _).symm,
        function_enc hm' p hf hu (fits4 hm' _ rfl rfl rfl rfl) rfl rfl rfl, ?_⟩
      rw [List.map_append]
      exact ⟨[], [], (), _, rfl, ⟨rfl, rfl⟩, rfl, rfl, rfl⟩
  obtain ⟨d', hloop⟩ := hloop
  have hfits : (Env.mk m.asAnswered.strings m.asAnswered.typeTable m.asAnswered.types.length).Fits dd := fits4 hm' _ rfl rfl rfl rfl
  -- the function
  have hfunG : functionG dd (functionHead f ++ f.ops.flatMap Instr.encode) (Enc.coreDecoded m.asAnswered f) dd :=
    (Enc.function hf').run KeepsOn.functionG hfits hu
  have hfunF : functionF dd false (plain (functionHead f ++ f.ops.flatMap Instr.encode)) (Enc.coreDecoded m.asAnswered f) dd :=
    ((unmarked_iff (.ofSim Sim.readFunction PSem.readFunction) Sem.readFunction dd _ _ dd).2 ⟨_, rfl, hfunG⟩).1
  have hnops : (Enc.coreDecoded m.asAnswered f).nops = f.ops.length := rfl
  -- its debug information
  have hnd : dd.ndebugfiles = m.debugFiles.length := rfl
  have hndl := hm.ndebugFiles
  obtain ⟨dw, hdbg⟩ := streamF (p := p) (nops := f.ops.length) (c := dd) (by omega) (before ++ [i] ++ after) ⟨-1, 0, []⟩ false hok
    (by
      intro j hj
      rw [List.getLast?_append, List.getLast?_eq_some_getLast hne, Option.some_or] at hj
      exact hlast j (by rw [List.getLast?_eq_some_getLast hne, hj])) (by simpa using hops) rfl hlen (by simp only; omega)
  rw [hnd] at hdbg
  let w := streamW m.debugFiles.length f.ops.length 0 (before ++ [i] ++ after)
  have hw : faulty w = true := by
    simp [w, streamW_append, streamW, faulty_append, itemMark, hi, faulty]
  let k3 := if 3 ≤ m.version then ix f.assigns.length ++ f.assigns.flatMap (fun a => ix a.1 ++ hlIndex a.2) else []
  have hassG : (if dd.version ≥ 3 then assignsG else Pure.pure ()) dd k3 () dd := by
    show (if m.version ≥ 3 then assignsG else Pure.pure ()) dd k3 () dd
    by_cases h3v : 3 ≤ m.version
    · simp only [ge_iff_le, h3v, if_true, k3]
      exact (Enc.assigns hf.assigns.1 hf.assigns.2).run (f := fun _ => ()) KeepsOn.assignsG hfits hu
    · simp only [ge_iff_le, h3v, if_false, k3]
      exact ⟨rfl, rfl, rfl⟩
  have hassF : (if dd.version ≥ 3 then assignsF else Pure.pure ()) dd true (plain k3) () dd := by
    by_cases h3v : dd.version ≥ 3
    · rw [if_pos h3v] at hassG ⊢
      exact Flagless.assigns _ _ true _ _ _ ((unmarked_iff (.ofSim Sim.skipAssigns PSem.skipAssigns) Sem.skipAssigns dd _ _ dd).2 ⟨_, rfl, hassG⟩).1
    · rw [if_neg h3v] at hassG ⊢
      obtain ⟨h, _, _⟩ := hassG
      rw [h]
      exact ⟨rfl, rfl, rfl⟩
  rw [c87_rejected_iff]
  have hc0 := upToFunctionsG_functions hup
  have hnf : (RModule.c6 m.asAnswered u).nfunctions = fs.length + 1 := by
    show m.functions.length = _
    rw [hfs]; simp
  have hgood : F.loop (functionsStepF p) 0 fs.length (RModule.c6 m.asAnswered u) s6 false (plain (fs.flatMap (RFunction.encode m))) dd d' := by
    have hF : PSem (P.forRange (Par.readFunctionsStep p) 0 fs.length (RModule.c6 m.asAnswered u)) (F.loop (functionsStepF p) 0 fs.length (RModule.c6 m.asAnswered u)) :=
      PSem.forRange (fun i c => c.functions.length = i) (fun i c hi => PSem.readFunctionsStep p i c hi)
        (fun i c _ _ _ _ _ hi h => by rw [PSem.functionsStep_length h, hi]) _ _ _ (by rw [hc0]; rfl)
    have hG : Sem (M.forRange (readFunctionsStep p) 0 fs.length (RModule.c6 m.asAnswered u)) (G.loop (functionsStepG p) 0 fs.length (RModule.c6 m.asAnswered u)) :=
      Sem.forRange (fun i c => c.functions.length = i) (fun i c hi => Sem.readFunctionsStep p i c hi)
        (fun i c => Good.readFunctionsStep p i c) _ _ _ (by simp [hc0])
        (fun i c _ _ _ _ hi h => by rw [(Sem.functionsStep_length h).1, hi])
    exact ((unmarked_iff (.ofSim (Sim.forRange (Sim.readFunctionsStep p) _ _ _) hF) hG s6 _ dd d').2 ⟨_, rfl, hloop⟩).1
  let x : HLFunction := { Enc.coreDecoded m.asAnswered f with debug := dw.words }
  have hdd : dd.hasdebug ≠ 0 := by
    show (if m.hasDebug then 1 else 0) ≠ 0
    rw [hd]; simp
  have hstep : functionsStepF p (0 + fs.length) dd d' (false || faulty (plain (fs.flatMap (RFunction.encode m))))
      (plain (functionHead f ++ f.ops.flatMap Instr.encode) ++ (w ++ plain k3))
      { dd with functions := dd.functions ++ [x] } { dd with functions := dd.functions ++ [x] } := by
    rw [faulty_plain]
    refine ⟨[], _, (), dd, rfl, ⟨[], rfl, rfl, rfl⟩, plain (functionHead f ++ f.ops.flatMap Instr.encode), w ++ plain k3, _, dd, rfl, hfunF, ?_⟩
    dsimp only
    rw [if_pos hdd]
    refine ⟨w, plain k3, dw.words, dd, rfl, ⟨w, [], dw, dd, (List.append_nil _).symm, ?_, rfl, rfl, rfl⟩, ?_⟩
    · rw [faulty_plain]; exact hdbg
    · rw [hw, Bool.or_true]
      dsimp only
      by_cases h3v : dd.version ≥ 3
      · rw [if_pos h3v] at hassF ⊢
        exact ⟨plain k3, [], (), dd, (List.append_nil _).symm, hassF, [], [], (), _, rfl, ⟨[], rfl, rfl, rfl⟩, rfl, rfl, rfl⟩
      · rw [if_neg h3v] at hassF ⊢
        obtain ⟨e, _, _⟩ := hassF
        rw [e]
        exact ⟨[], [], (), _, rfl, ⟨[], rfl, rfl, rfl⟩, rfl, rfl, rfl⟩
  clear_value dd
  have hfun : functionsF p (RModule.c6 m.asAnswered u) s6 false (plain (fs.flatMap (RFunction.encode m)) ++
      (plain (functionHead f ++ f.ops.flatMap Instr.encode) ++ (w ++ plain k3)))
      { dd with functions := dd.functions ++ [x] } { dd with functions := dd.functions ++ [x] } := by
    unfold functionsF
    rw [hnf]
    exact loop_snoc fs.length 0 _ s6 false _ dd d' hgood hstep
  refine .inSection _ _ _ rest _ _ s6 _ _ _ .functions hup hfun ?_ ?_
  · simp only [text_append, text_plain, w, text_streamW, List.append_assoc, k3]
  · have hk : kind ≠ .invalidType := by
      intro hk
      rw [hk] at hi
      cases i <;> simp only [debugFault] at hi <;> (try split at hi) <;> simp at hi
    simp only [text_faults_append, faults_plain, List.nil_append, List.append_nil, text_plain, w, streamW_append, streamW, itemMark, Nat.zero_add, hi, faults]
    rw [faults_streamW_nil _ _ after _ _ (fun n j hj => by
      have := ha n j hj
      rw [List.countP_append] at this
      rw [← List.countP_append] at *
      exact this), List.append_nil, reported_concat _ _ hk]
    simp only [text_streamW, List.length_append, List.flatMap_append, List.flatMap_cons, List.flatMap_nil, List.append_nil, Nat.add_assoc]

/-! ## Examples -/

-- A run beyond the end comes after a file that does not exist.
example : ∃ s, Code.read .release none (beforeTypes exampleModule ++ exampleModule.types.flatMap RType.encode ++ exampleModule.globals.flatMap ix ++
    exampleModule.natives.flatMap RNative.encode ++ [].flatMap (RFunction.encode exampleModule) ++
    (functionHead exampleModule.functions[0] ++ exampleModule.functions[0].ops.flatMap Instr.encode) ++
    ([DbgItem.file 0, DbgItem.abs 10, DbgItem.file 3, DbgItem.step 1] ++ [DbgItem.run 9 1] ++ [DbgItem.step 2]).flatMap DbgItem.encode ++
    (if 3 ≤ exampleModule.version then ix exampleModule.functions[0].assigns.length ++
      exampleModule.functions[0].assigns.flatMap (fun a => ix a.1 ++ hlIndex a.2) else []) ++ [1, 2]) = .err ⟨.outsideRange, 126⟩ s := by
  have h := c87_module_bad_debug .release exampleModule exampleModule_good.toReadable rfl [] exampleModule.functions[0] (by rfl)
    [DbgItem.file 0, DbgItem.abs 10, DbgItem.file 3, DbgItem.step 1] [DbgItem.step 2] (DbgItem.run 9 1) .outsideRange (by decide) (by decide) (by decide) (by simp [oneInstr]) (by simp) (by decide)
    (by
      intro n j hn
      match n with
      | 0 => simp at hn; subst hn; decide
      | 1 => simp at hn; try (subst hn; decide)
      | n + 2 => simp at hn)
    [1, 2]
  have e : (beforeTypes exampleModule ++ exampleModule.types.flatMap RType.encode ++ exampleModule.globals.flatMap ix ++
    exampleModule.natives.flatMap RNative.encode ++ [].flatMap (RFunction.encode exampleModule) ++
    (functionHead exampleModule.functions[0] ++ exampleModule.functions[0].ops.flatMap Instr.encode) ++
    ([DbgItem.file 0, DbgItem.abs 10, DbgItem.file 3, DbgItem.step 1] ++ [DbgItem.run 9 1]).flatMap DbgItem.encode).length = 126 := by decide +kernel
  rw [e] at h
  exact h

-- A file that does not exist comes after a run beyond the end.
example : ∃ s, Code.read .release none (beforeTypes exampleModule ++ exampleModule.types.flatMap RType.encode ++ exampleModule.globals.flatMap ix ++
    exampleModule.natives.flatMap RNative.encode ++ [].flatMap (RFunction.encode exampleModule) ++
    (functionHead exampleModule.functions[0] ++ exampleModule.functions[0].ops.flatMap Instr.encode) ++
    ([DbgItem.file 0, DbgItem.abs 10, DbgItem.run 9 0] ++ [DbgItem.file 1] ++ [DbgItem.step 1, DbgItem.step 2]).flatMap DbgItem.encode ++
    (if 3 ≤ exampleModule.version then ix exampleModule.functions[0].assigns.length ++
      exampleModule.functions[0].assigns.flatMap (fun a => ix a.1 ++ hlIndex a.2) else []) ++ [1, 2]) = .err ⟨.invalidDebugFile, 125⟩ s := by
  have h := c87_module_bad_debug .release exampleModule exampleModule_good.toReadable rfl [] exampleModule.functions[0] (by rfl)
    [DbgItem.file 0, DbgItem.abs 10, DbgItem.run 9 0] [DbgItem.step 1, DbgItem.step 2] (DbgItem.file 1) .invalidDebugFile (by decide) (by decide) (by decide) (by simp [oneInstr]) (by simp) (by decide)
    (by
      intro n j hn
      match n with
      | 0 => simp at hn; subst hn; decide
      | 1 => simp at hn; try (subst hn; decide)
      | n + 2 => simp at hn)
    [1, 2]
  have e : (beforeTypes exampleModule ++ exampleModule.types.flatMap RType.encode ++ exampleModule.globals.flatMap ix ++
    exampleModule.natives.flatMap RNative.encode ++ [].flatMap (RFunction.encode exampleModule) ++
    (functionHead exampleModule.functions[0] ++ exampleModule.functions[0].ops.flatMap Instr.encode) ++
    ([DbgItem.file 0, DbgItem.abs 10, DbgItem.run 9 0] ++ [DbgItem.file 1]).flatMap DbgItem.encode).length = 125 := by decide +kernel
  rw [e] at h
  exact h

end Verif.Brass
