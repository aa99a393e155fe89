import Verif.Brass.RequestLemmas

/-!
# Builds with and without overflow checks (C100)
-/

namespace Verif.Brass

open Verif Verif.Brass.Spec

/-! ## A panic or the same -/

/-- `x` panics, or does what `y` does. -/
def PanicOr {α : Type} (x y : M α) : Prop := ∀ s, x s = .panic ∨ x s = y s

namespace PanicOr

theorem refl {α : Type} (x : M α) : PanicOr x x := fun _ => .inr rfl

theorem bind {α β : Type} {x y : M α} {f g : α → M β} (h : PanicOr x y) (hf : ∀ a, PanicOr (f a) (g a)) : PanicOr (x >>= f) (y >>= g) := by
  intro s
  rcases h s with h | h
  · exact .inl (by rw [M.bind_def, h])
  · rw [M.bind_def, M.bind_def, h]
    cases y s with
    | ok a s1 => exact hf a s1
    | err e s1 => exact .inr rfl
    | panic => exact .inr rfl

theorem ite {α : Type} {b : Prop} [Decidable b] {x y x' y' : M α} (h : PanicOr x y) (h' : PanicOr x' y') :
    PanicOr (if b then x else x') (if b then y else y') := by
  split
  · exact h
  · exact h'

theorem okOrRecord {α : Type} {x y : M α} (h : PanicOr x y) : PanicOr (M.okOrRecord x) (M.okOrRecord y) := by
  intro s
  unfold M.okOrRecord
  rcases h s with h | h <;> rw [h]
  · exact .inl rfl
  · exact .inr rfl

theorem forRange {β : Type} {f g : Nat → β → M β} (h : ∀ i b, PanicOr (f i b) (g i b)) : ∀ n a b, PanicOr (M.forRange f a n b) (M.forRange g a n b)
  | 0, _, _ => refl _
  | n + 1, a, b => bind (h a b) fun b => forRange h n (a + 1) b

theorem checked {α : Type} {x y : M α} (h : PanicOr x y) : PanicOr (checked x) (checked y) := bind h fun _ => refl _

theorem whileReading {β : Type} {c : β → Bool} {f g : β → M β} (h : ∀ b, PanicOr (f b) (g b)) (b : β) (s : St) :
    M.whileReading c f b s = .panic ∨ M.whileReading c f b s = M.whileReading c g b s := by
  unfold M.whileReading
  split
  · rcases h b s with e | e <;> rw [e]
    · exact .inl rfl
    · cases hg : g b s with
      | ok b1 s1 =>
        simp only
        split
        · exact whileReading h b1 s1
        · exact .inl rfl
      | err e s1 => exact .inr rfl
      | panic => exact .inr rfl
  · exact .inr rfl
termination_by s.buf.length

theorem i32Add (a b : Int) : PanicOr (i32Add .dev a b) (i32Add .release a b) := by
  intro s
  unfold Brass.i32Add
  split
  · exact .inr rfl
  · exact .inl rfl

theorem debugBody (n : Nat) (d : DebugState) : PanicOr (debugBody .dev n d) (debugBody .release n d) :=
  bind (refl _) fun _ => ite (refl _) (ite (bind (refl _) fun _ => bind (i32Add _ _) fun _ => refl _)
    (ite (bind (i32Add _ _) fun _ => refl _) (refl _)))

theorem debugInfos (n : Nat) : PanicOr (debugInfos .dev n) (debugInfos .release n) :=
  bind (fun s => whileReading (debugBody n) _ s) fun _ => refl _

theorem readFunctions (c : Code) : PanicOr (readFunctions .dev c) (readFunctions .release c) :=
  checked (forRange (fun i _ => bind (refl _) fun _ => bind (refl _) fun _ => bind (refl _) fun _ => bind (refl _) fun _ =>
    bind (bind (refl _) fun _ => ite (bind (refl _) fun _ => bind (okOrRecord (debugInfos _)) fun _ => refl _) (refl _)) fun _ => refl _) _ _ _)

theorem readM : PanicOr (readM .dev) (readM .release) :=
  bind (refl _) fun _ => bind (refl _) fun _ => bind (refl _) fun _ => bind (refl _) fun _ => bind (refl _) fun _ =>
    bind (refl _) fun _ => bind (refl _) fun _ => bind (refl _) fun _ => bind (refl _) fun _ => bind (readFunctions _) fun _ => refl _

end PanicOr

/-! ## The same, for at most `L` bytes -/

/-- `x` and `y` do the same on at most `L` bytes. -/
def Agree {α : Type} (L : Nat) (x y : M α) : Prop := ∀ s, s.buf.length ≤ L → x s = y s

theorem good_shrinks {α : Type} {x : M α} (h : Good x) {s s' : St} {a : α} (e : x s = .ok a s') : s'.buf.length ≤ s.buf.length := by
  obtain ⟨k, hk, -⟩ := h.reads s s' (by rw [e]; rfl)
  rw [hk]
  simp

namespace Agree

variable {L : Nat} {α β : Type}

theorem refl (x : M α) : Agree L x x := fun _ _ => rfl

theorem bind {x y : M α} {f g : α → M β} (h : Agree L x y) (hx : Good x) (hf : ∀ a, Agree L (f a) (g a)) : Agree L (x >>= f) (y >>= g) := by
  intro s hs
  rw [M.bind_def, M.bind_def, ← h s hs]
  cases e : x s with
  | ok a s1 => exact hf a s1 (Nat.le_trans (good_shrinks hx e) hs)
  | err e s1 => rfl
  | panic => rfl

/-- The same function comes first. -/
theorem seq {x : M α} {f g : α → M β} (hx : Good x) (hf : ∀ a, Agree L (f a) (g a)) : Agree L (x >>= f) (x >>= g) := bind (refl x) hx hf

theorem ite {b : Prop} [Decidable b] {x y x' y' : M α} (h : Agree L x y) (h' : Agree L x' y') :
    Agree L (if b then x else x') (if b then y else y') := by
  split
  · exact h
  · exact h'

theorem okOrRecord {x y : M α} (h : Agree L x y) : Agree L (M.okOrRecord x) (M.okOrRecord y) := by
  intro s hs
  unfold M.okOrRecord
  rw [h s hs]

theorem forRange {f g : Nat → β → M β} (h : ∀ i b, Agree L (f i b) (g i b)) (hf : ∀ i b, Good (f i b)) :
    ∀ n a b, Agree L (M.forRange f a n b) (M.forRange g a n b)
  | 0, _, _ => refl _
  | n + 1, a, b => bind (h a b) (hf a b) fun b => forRange h hf n (a + 1) b

end Agree

/-- A round of the loop. -/
theorem debugBody_agree (n : Nat) (d : DebugState) (s : St) (K : Int) (hK : K < 2 ^ 31) (h : d.curline + 31 * s.buf.length ≤ K) :
    debugBody .dev n d s = debugBody .release n d s := by
  unfold debugBody
  rw [M.bind_def, M.bind_def]
  cases e : M.unwrap decodeU8 s with
  | err e s1 => rfl
  | panic => rfl
  | ok c s1 =>
    have hc : c < 256 := Ens.unwrap decodeU8_lt _ _ _ e
    have hl := decodeU8_consumes _ _ _ e
    have key : ∀ x : Nat, x ≤ 31 → i32Add .dev d.curline (x : Int) = i32Add .release d.curline x := by
      intro x hx
      unfold i32Add
      rw [if_pos (by omega), if_pos (by omega)]
    have h3 : c >>> 3 ≤ 31 := by rw [Nat.shiftRight_eq_div_pow]; omega
    have h6 : c >>> 6 ≤ 31 := by rw [Nat.shiftRight_eq_div_pow]; omega
    simp only [key _ h3, key _ h6]

/-- After a round. -/
theorem debugBody_line (n : Nat) (d d' : DebugState) (s s' : St) (K : Int) (hK : K < 2 ^ 31) (h : d.curline + 31 * s.buf.length ≤ K)
    (h' : 255 + 31 * s.buf.length ≤ K) (e : debugBody .release n d s = .ok d' s') : d'.curline + 31 * s'.buf.length ≤ K := by
  have hl := debugBody_consumes .release n d d' s s' e
  have store : ∀ x : DebugState, Ens (debugStore x) (fun d' => d'.curline = x.curline) := fun x => Ens.ite (Ens.pure' rfl) Ens.panic
  have add : ∀ x : Nat, x ≤ 31 → 0 < s.buf.length → Ens (i32Add .release d.curline (x : Int)) (fun l => l ≤ d.curline + 31) := by
    intro x hx h0
    unfold i32Add
    rw [if_pos (by omega)]
    exact Ens.pure' (by omega)
  have hq : d'.curline ≤ d.curline + 31 ∨ d'.curline ≤ 255 := by
    have : Ens (debugBody .release n d) (fun d' => d'.curline ≤ d.curline + 31 ∨ d'.curline ≤ 255) := by
      refine Ens.bind (Ens.unwrap decodeU8_lt) fun c hc => ?_
      have h3 : c >>> 3 ≤ 31 := by rw [Nat.shiftRight_eq_div_pow]; omega
      have h6 : c >>> 6 ≤ 31 := by rw [Nat.shiftRight_eq_div_pow]; omega
      refine Ens.ite (Ens.bind_ fun _ => Ens.bind_ fun _ => Ens.bind_ fun _ => Ens.bind_ fun _ => Ens.pure (.inl (by show d.curline ≤ _; omega))) (Ens.ite ?_ (Ens.ite ?_ ?_))
      · exact Ens.bind_ fun _ => Ens.bind (add _ h6 (by omega)) fun l hl => Ens.pure (.inl hl)
      · refine Ens.bind (add _ h3 (by omega)) fun l hl => ?_
        exact Ens.mono (store _) fun d' h => .inl (by rw [h]; exact hl)
      · refine Ens.bind (Ens.unwrap decodeU8_lt) fun b hb => Ens.bind (Ens.unwrap decodeU8_lt) fun b' hb' => Ens.mono (store _) fun d' h => .inr ?_
        rw [h]
        have h1 := Nat.or_lt_two_pow (n := 8) (show c >>> 3 < 2 ^ 8 by omega) (show (b <<< 5) % 256 < 2 ^ 8 by omega)
        have h2 := Nat.or_lt_two_pow (n := 8) h1 (show b' < 2 ^ 8 by omega)
        show ((c >>> 3 ||| (b <<< 5) % 256 ||| b' : Nat) : Int) ≤ 255
        omega
    exact this _ _ _ e
  omega

theorem debugLoop_agree (n : Nat) (K : Int) (hK : K < 2 ^ 31) (d : DebugState) (s : St) (h : d.curline + 31 * s.buf.length ≤ K) (h' : 255 + 31 * s.buf.length ≤ K) :
    M.whileReading (fun d => decide (d.i < n)) (debugBody .dev n) d s = M.whileReading (fun d => decide (d.i < n)) (debugBody .release n) d s := by
  unfold M.whileReading
  split
  · rw [debugBody_agree n d s K hK h]
    cases e : debugBody .release n d s with
    | ok d1 s1 =>
      simp only
      split
      · exact debugLoop_agree n K hK d1 s1 (debugBody_line n d d1 s s1 K hK h h' e) (by omega)
      · rfl
    | err e s1 => rfl
    | panic => rfl
  · rfl
termination_by s.buf.length

namespace Agree

variable {L : Nat} (hL : 31 * L + 255 < 2 ^ 31)
include hL

theorem debugInfos (n : Nat) : Agree L (debugInfos .dev n) (debugInfos .release n) := by
  intro s hs
  unfold Brass.debugInfos
  refine (M.bind_def _ _ s).trans (Eq.trans ?_ (M.bind_def _ _ s).symm)
  rw [debugLoop_agree n (255 + 31 * s.buf.length) (by omega) _ s (by simp; omega) (by omega)]

theorem readFunctionDebug (i : Nat) : Agree L (readFunctionDebug .dev i) (readFunctionDebug .release i) :=
  seq Good.getCode fun _ => ite (seq (Good.unwrapOpt _) fun _ => bind (okOrRecord (debugInfos hL _)) (Good.okOrRecord (Good.debugInfos _ _)) fun _ => refl _) (refl _)

theorem readFunctionsStep (i : Nat) (c : Code) : Agree L (readFunctionsStep .dev i c) (readFunctionsStep .release i c) :=
  seq (Good.setCode _) fun _ => seq Good.readFunction fun _ => seq Good.getCode fun _ => seq (Good.setCode _) fun _ =>
    bind (readFunctionDebug hL i) (Good.readFunctionDebug _ _) fun _ => refl _

theorem readFunctions (c : Code) : Agree L (readFunctions .dev c) (readFunctions .release c) :=
  bind (forRange (fun i b => readFunctionsStep hL i b) (fun i b => Good.readFunctionsStep _ i b) _ _ _)
    (Good.forRange (fun i b => Good.readFunctionsStep _ i b) _ _ _) fun _ => refl _

theorem readM : Agree L (readM .dev) (readM .release) :=
  seq Good.readMagic fun _ => seq Good.readVersion fun _ => seq (Good.checked (Good.readCounts _)) fun _ => seq (Good.readPools _) fun _ =>
    seq (Good.readBytesSection _) fun _ => seq (Good.readDebugFiles _) fun _ => seq (Good.readTypes _) fun _ => seq (Good.readGlobals _) fun _ =>
    seq (Good.readNatives _) fun _ => bind (readFunctions hL _) (Good.readFunctions _ _) fun _ => refl _

end Agree

/-! ## C100 -/

/-- **C100** With overflow checks a read does the same as without, unless it panics. -/
theorem c100_panic_or_same (e : Option DecodeError) (buf : List UInt8) : Code.read .dev e buf = .panic ∨ Code.read .dev e buf = Code.read .release e buf :=
  PanicOr.readM _

/-- **C100** On files of at most 69273657 bytes it always does the same. -/
theorem c100_same (e : Option DecodeError) (buf : List UInt8) (h : buf.length ≤ 69273657) : Code.read .dev e buf = Code.read .release e buf :=
  Agree.readM (L := 69273657) (by decide) _ h

/-! ## Files on which the builds differ -/

/-- Header (version 2, debug flag), empty pools and one type of a file with one function. -/
def oneFunction : List UInt8 := [0x48, 0x4C, 0x42, 2, 1, 0, 0, 0, 1, 0, 0, 1, 0, 0, 0, 0, 0, 0, 0, 0, 0, 0, 0]

/-- … what is decoded from it -/
def oneFunctionCode : Code := { Code.new with
  version := 2, hasdebug := 1, ntypes := 1, nfunctions := 1, types := [{ ValueType.default with kind := .HVOID }, ValueType.default] }

theorem read_oneFunction (p : Profile) (T : List UInt8) : Code.read p none (oneFunction ++ T) =
    (readFunctions p oneFunctionCode >>= fun c => readConstants c >>= fun _ => M.getCode) ⟨T, 23, oneFunctionCode, none⟩ := by
  have h1 : readMagic (St.new (oneFunction ++ T) none) = .ok () ⟨(oneFunction ++ T).drop 3, 3, Code.new, none⟩ := by with_unfolding_all rfl
  have h2 : readVersion ⟨(oneFunction ++ T).drop 3, 3, Code.new, none⟩ = .ok 2 ⟨(oneFunction ++ T).drop 4, 4, Code.new, none⟩ := by with_unfolding_all rfl
  have h3 : checked (readCounts 2) ⟨(oneFunction ++ T).drop 4, 4, Code.new, none⟩ =
    .ok { oneFunctionCode with types := [] } ⟨(oneFunction ++ T).drop 13, 13, Code.new, none⟩ := by with_unfolding_all rfl
  have h4 : readPools { oneFunctionCode with types := [] } ⟨(oneFunction ++ T).drop 13, 13, Code.new, none⟩ =
    .ok { oneFunctionCode with types := [] } ⟨(oneFunction ++ T).drop 17, 17, Code.new, none⟩ := by with_unfolding_all rfl
  have h5 : readBytesSection { oneFunctionCode with types := [] } ⟨(oneFunction ++ T).drop 17, 17, Code.new, none⟩ =
    .ok { oneFunctionCode with types := [] } ⟨(oneFunction ++ T).drop 17, 17, Code.new, none⟩ := by with_unfolding_all rfl
  have h6 : readDebugFiles { oneFunctionCode with types := [] } ⟨(oneFunction ++ T).drop 17, 17, Code.new, none⟩ =
    .ok { oneFunctionCode with types := [] } ⟨(oneFunction ++ T).drop 22, 22, { oneFunctionCode with types := [] }, none⟩ := by with_unfolding_all rfl
  have h7 : readTypes { oneFunctionCode with types := [] } ⟨(oneFunction ++ T).drop 22, 22, { oneFunctionCode with types := [] }, none⟩ =
    .ok oneFunctionCode ⟨T, 23, oneFunctionCode, none⟩ := by with_unfolding_all rfl
  have h8 : readGlobals oneFunctionCode ⟨T, 23, oneFunctionCode, none⟩ = .ok oneFunctionCode ⟨T, 23, oneFunctionCode, none⟩ := by with_unfolding_all rfl
  have h9 : readNatives oneFunctionCode ⟨T, 23, oneFunctionCode, none⟩ = .ok oneFunctionCode ⟨T, 23, oneFunctionCode, none⟩ := by with_unfolding_all rfl
  unfold Code.read readM
  rw [M.bind_ok h1, M.bind_ok h2, M.bind_ok h3, M.bind_ok h4, M.bind_ok h5, M.bind_ok h6, M.bind_ok h7, M.bind_ok h8, M.bind_ok h9]

/-- One function: what happens depends on its debug information. -/
theorem read_debug {p : Profile} {k T : List UInt8} {f : HLFunction} {e : Option DecodeError} {q : Nat}
    (h : readFunction ⟨k ++ T, 23, oneFunctionCode, none⟩ = .ok f ⟨T, q, oneFunctionCode, e⟩) :
    (debugInfos p f.nops ⟨T, q, { oneFunctionCode with functions := [f] }, e⟩ = .panic → Code.read p none (oneFunction ++ (k ++ T)) = .panic) ∧
    ∀ w r q' e', debugInfos p f.nops ⟨T, q, { oneFunctionCode with functions := [f] }, e⟩ = .ok w ⟨r, q', { oneFunctionCode with functions := [f] }, e'⟩ →
      Code.read p none (oneFunction ++ (k ++ T)) = match e' with
        | none => .ok { oneFunctionCode with functions := [{ f with debug := w }] } ⟨r, q', { oneFunctionCode with functions := [{ f with debug := w }] }, none⟩
        | some e => .err e ⟨r, q', { oneFunctionCode with functions := [{ f with debug := w }] }, some e⟩ := by
  have h1 : readFunctionsStep p 0 oneFunctionCode ⟨k ++ T, 23, oneFunctionCode, none⟩ =
      (readFunctionDebug p 0 >>= fun _ => M.getCode) ⟨T, q, { oneFunctionCode with functions := [f] }, e⟩ := by
    unfold readFunctionsStep
    rw [M.bind_ok (x := M.setCode oneFunctionCode) (s' := ⟨k ++ T, 23, oneFunctionCode, none⟩) rfl, M.bind_ok h]
    rfl
  have h2 : ∀ o, (M.okOrRecord (debugInfos p f.nops) >>= fun r => storeDebug 0 r >>= fun _ => M.getCode >>= fun d => skipAssignsIf (decide (d.version ≥ 3)))
      ⟨T, q, { oneFunctionCode with functions := [f] }, e⟩ = o → readFunctionDebug p 0 ⟨T, q, { oneFunctionCode with functions := [f] }, e⟩ = o := fun o h => h
  rw [read_oneFunction, M.bind_def]
  unfold readFunctions checked
  rw [M.bind_def]
  have h3 : M.forRange (readFunctionsStep p) 0 oneFunctionCode.nfunctions oneFunctionCode = (readFunctionsStep p 0 oneFunctionCode >>= fun b => M.pure b) := rfl
  rw [h3, M.bind_def, h1, M.bind_def]
  constructor
  · intro hd
    rw [h2 .panic (by rw [M.bind_def]; unfold M.okOrRecord; rw [hd])]
  · intro w r q' e' hd
    rw [h2 (.ok () ⟨r, q', { oneFunctionCode with functions := [{ f with debug := w }] }, e'⟩) (by rw [M.bind_def]; unfold M.okOrRecord; rw [hd]; rfl)]
    cases e' <;> rfl

theorem byte_read (b : UInt8) (T : List UInt8) (q : Nat) (c : Code) (e : Option DecodeError) :
    M.unwrap decodeU8 ⟨b :: T, q, c, e⟩ = .ok b.toNat ⟨T, q + 1, c, e⟩ := by with_unfolding_all rfl

/-- A round that only adds 3 to the line. -/
theorem run_round (p : Profile) (n : Nat) (d : DebugState) (T : List UInt8) (q : Nat) (c : Code) (e : Option DecodeError) (hi : d.i < n) :
    debugBody p n d ⟨0xC2 :: T, q, c, e⟩ = (i32Add p d.curline 3 >>= fun l => pure { d with curline := l }) ⟨T, q + 1, c, e⟩ := by
  unfold debugBody
  rw [M.bind_ok (byte_read _ _ _ _ _)]
  simp only [show (0xC2 : UInt8).toNat = 194 from rfl, show ¬ (194 &&& 1 ≠ 0) by decide, show 194 &&& 2 ≠ 0 by decide, if_true, if_false]
  have : decide (d.i + (194 >>> 2 &&& 15) > n) = false := by
    rw [show 194 >>> 2 &&& 15 = 0 from rfl]
    simp; omega
  rw [this]
  rfl

/-- A round that adds to the line and stores. -/
theorem step_round (p : Profile) (n : Nat) (d : DebugState) (b : UInt8) (k : Nat) (hb : b = 4 ∧ k = 0 ∨ b = 0xFC ∧ k = 31) (T : List UInt8) (q : Nat)
    (c : Code) (e : Option DecodeError) :
    debugBody p n d ⟨b :: T, q, c, e⟩ = (i32Add p d.curline k >>= fun l => debugStore { d with curline := l }) ⟨T, q + 1, c, e⟩ := by
  unfold debugBody
  rw [M.bind_ok (byte_read _ _ _ _ _)]
  rcases hb with ⟨rfl, rfl⟩ | ⟨rfl, rfl⟩ <;> rfl

theorem i32Add_small {p : Profile} {a b : Int} (h : a + b < 2 ^ 31) (s : St) : i32Add p a b s = .ok (a + b) s := by
  unfold i32Add
  rw [if_pos h]
  rfl

theorem i32Add_dev {a b : Int} (h : ¬ a + b < 2 ^ 31) (s : St) : i32Add .dev a b s = .panic := by
  unfold i32Add
  rw [if_neg h]
  rfl

theorem i32Add_release {a b : Int} (h : ¬ a + b < 2 ^ 31) (s : St) : i32Add .release a b s = .ok (a + b - 2 ^ 32) s := by
  unfold i32Add
  rw [if_neg h]
  rfl

/-- A round of the loop. -/
theorem loop_round {p : Profile} {n : Nat} {d d' : DebugState} {s s' : St} (hi : d.i < n) (h : debugBody p n d s = .ok d' s')
    : M.whileReading (fun d => decide (d.i < n)) (debugBody p n) d s = M.whileReading (fun d => decide (d.i < n)) (debugBody p n) d' s' := by
  rw [M.whileReading, if_pos (by simpa using hi), h]
  simp only
  rw [if_pos (debugBody_consumes _ _ _ _ _ _ h)]

theorem loop_panic {p : Profile} {n : Nat} {d : DebugState} {s : St} (hi : d.i < n) (h : debugBody p n d s = .panic)
    : M.whileReading (fun d => decide (d.i < n)) (debugBody p n) d s = .panic := by
  rw [M.whileReading, if_pos (by simpa using hi), h]

theorem loop_done {p : Profile} {n : Nat} {d : DebugState} {s : St} (hi : ¬ d.i < n)
    : M.whileReading (fun d => decide (d.i < n)) (debugBody p n) d s = .ok d s := by
  rw [M.whileReading, if_neg (by simpa using hi)]

/-- Rounds of the loop that only add 3 to the line. -/
theorem run_rounds (p : Profile) (n : Nat) (T : List UInt8) (c : Code) (e : Option DecodeError) : ∀ (N : Nat) (d : DebugState) (q : Nat), d.i < n →
    d.curline + 3 * N < 2 ^ 31 →
    M.whileReading (fun d => decide (d.i < n)) (debugBody p n) d ⟨List.replicate N 0xC2 ++ T, q, c, e⟩ =
      M.whileReading (fun d => decide (d.i < n)) (debugBody p n) { d with curline := d.curline + 3 * N } ⟨T, q + N, c, e⟩
  | 0, d, q, _, _ => by simp
  | N + 1, d, q, hi, hl => by
    have hb : debugBody p n d ⟨List.replicate (N + 1) 0xC2 ++ T, q, c, e⟩ =
        .ok { d with curline := d.curline + 3 } ⟨List.replicate N 0xC2 ++ T, q + 1, c, e⟩ := by
      rw [List.replicate_succ, List.cons_append, run_round p n d _ _ _ _ hi, M.bind_ok (i32Add_small (by omega) _)]
      rfl
    rw [loop_round hi hb, run_rounds p n T c e N { d with curline := d.curline + 3 } (q + 1) hi (by show d.curline + 3 + 3 * (N : Int) < 2 ^ 31; omega),
      show d.curline + 3 + 3 * (N : Int) = d.curline + 3 * ((N + 1 : Nat) : Int) by omega, show q + 1 + N = q + (N + 1) by omega]

theorem debugStore_ok {n : Nat} {d : DebugState} (hi : d.i < n) (hl : d.debug.length = 2 * n) (s : St) : ∃ d', debugStore d s = .ok d' s ∧ d'.i = d.i + 1 ∧
    d'.debug.length = 2 * n ∧ d'.curline = d.curline := by
  have h2 : (d.i <<< 1) = 2 * d.i := by rw [Nat.shiftLeft_eq]; omega
  have h3 : (d.i <<< 1) ||| 1 = 2 * d.i + 1 := by rw [← Nat.shiftLeft_add_eq_or_of_lt (by decide), h2]
  unfold debugStore
  rw [if_pos (by rw [h3, h2]; omega)]
  exact ⟨_, rfl, rfl, by simp [hl], rfl⟩

/-- Rounds of the loop that add to the line and store. -/
theorem step_rounds (p : Profile) (n : Nat) (b : UInt8) (k : Nat) (hb : b = 4 ∧ k = 0 ∨ b = 0xFC ∧ k = 31) (T : List UInt8) (c : Code) (e : Option DecodeError) :
    ∀ (N : Nat) (d : DebugState) (q : Nat), d.i + N ≤ n → d.debug.length = 2 * n → d.curline + k * N < 2 ^ 31 →
    ∃ d', d'.i = d.i + N ∧ d'.debug.length = 2 * n ∧ d'.curline = d.curline + k * N ∧
      M.whileReading (fun d => decide (d.i < n)) (debugBody p n) d ⟨List.replicate N b ++ T, q, c, e⟩ =
      M.whileReading (fun d => decide (d.i < n)) (debugBody p n) d' ⟨T, q + N, c, e⟩
  | 0, d, q, _, hd, _ => ⟨d, rfl, hd, by simp, rfl⟩
  | N + 1, d, q, hi, hd, hl => by
    have hkN : (k : Int) * ((N + 1 : Nat) : Int) = k + k * N := by rw [Int.natCast_add, Int.mul_add]; omega
    have hk0 : (0 : Int) ≤ k * N := by exact Int.mul_nonneg (by omega) (by omega)
    obtain ⟨d1, e1, e2, e3, e4⟩ := debugStore_ok (n := n) (d := { d with curline := d.curline + k }) (by show d.i < n; omega) hd
      ⟨List.replicate N b ++ T, q + 1, c, e⟩
    have hb' : debugBody p n d ⟨List.replicate (N + 1) b ++ T, q, c, e⟩ = .ok d1 ⟨List.replicate N b ++ T, q + 1, c, e⟩ := by
      rw [List.replicate_succ, List.cons_append, step_round p n d b k hb, M.bind_ok (i32Add_small (by omega) _)]
      exact e1
    have e2 : d1.i = d.i + 1 := e2
    have e4 : d1.curline = d.curline + k := e4
    obtain ⟨d', f1, f2, f3, f4⟩ := step_rounds p n b k hb T c e N d1 (q + 1) (by omega) e3 (by omega)
    refine ⟨d', by omega, f2, by omega, ?_⟩
    rw [loop_round (by omega) hb', f4, show q + 1 + N = q + (N + 1) by omega]

/-! ### An accepted file -/

/-- A file with one function, one instruction and debug information with `N + 1` times 3 added to the line. -/
def longLine (N : Nat) : List UInt8 := oneFunction ++ ([0, 0, 0, 1, 98] ++ (List.replicate N 0xC2 ++ [0xC2, 4]))

theorem longLine_differs (N : Nat) (h1 : 3 * N < 2 ^ 31) (h2 : 2 ^ 31 ≤ 3 * (N + 1)) :
    Code.read .dev none (longLine N) = .panic ∧
    ∃ c s, Code.read .release none (longLine N) = .ok c s ∧ c.functions.map (·.debug) = [[-1, (3 * (N + 1) - 2 ^ 32 : Int)]] := by
  let f : HLFunction := { t := { ValueType.default with kind := .HVOID }, findex := 0, nregs := 0, nops := 1, rf := 0, regs := [],
                          ops := [{ Opcode.default with op := .ONop }], debug := [], obj := none, field := none }
  let T : List UInt8 := List.replicate N 0xC2 ++ [0xC2, 4]
  have hf : readFunction ⟨[0, 0, 0, 1, 98] ++ T, 23, oneFunctionCode, none⟩ = .ok f ⟨T, 28, oneFunctionCode, none⟩ := by with_unfolding_all rfl
  have hr : ∀ p, M.whileReading (fun d => decide (d.i < 1)) (debugBody p 1) { curfile := -1, curline := 0, debug := [0, 0], i := 0 }
      ⟨T, 28, { oneFunctionCode with functions := [f] }, none⟩ =
      M.whileReading (fun d => decide (d.i < 1)) (debugBody p 1) { curfile := -1, curline := 3 * N, debug := [0, 0], i := 0 }
      ⟨[0xC2, 4], 28 + N, { oneFunctionCode with functions := [f] }, none⟩ := by
    intro p
    rw [run_rounds p 1 [0xC2, 4] _ none N _ 28 (by decide) (by show 0 + 3 * (N : Int) < 2 ^ 31; omega)]
    simp
  have hu : ∀ p, debugInfos p 1 = (M.whileReading (fun d => decide (d.i < 1)) (debugBody p 1) { curfile := -1, curline := 0, debug := [0, 0], i := 0 } >>= fun d => pure d.debug) :=
    fun _ => rfl
  have hst : ∀ (x : Int) (s : St), debugStore { curfile := -1, curline := x, debug := [0, 0], i := 0 } s =
    .ok { curfile := -1, curline := x, debug := [-1, x], i := 1 } s := fun x s => by with_unfolding_all rfl
  constructor
  · refine (read_debug hf).1 ?_
    show debugInfos .dev 1 _ = _
    rw [hu]
    refine (M.bind_def _ _ _).trans ?_
    rw [hr, loop_panic (by decide : (0 : Nat) < 1)]
    rw [run_round _ _ _ _ _ _ _ (by decide : (0 : Nat) < 1), M.bind_panic (i32Add_dev (by show ¬ (3 * (N : Int)) + 3 < 2 ^ 31; omega) _)]
  · refine ⟨_, _, (read_debug hf).2 [-1, 3 * (N + 1) - 2 ^ 32] [] (30 + N) none ?_, rfl⟩
    show debugInfos .release 1 _ = _
    rw [hu]
    refine (M.bind_def _ _ _).trans ?_
    rw [hr]
    rw [loop_round (d' := { curfile := -1, curline := 3 * N + 3 - 2 ^ 32, debug := [0, 0], i := 0 }) (s' := ⟨[4], 28 + N + 1, { oneFunctionCode with functions := [f] }, none⟩)
      (by decide : (0 : Nat) < 1) (by
        rw [run_round _ _ _ _ _ _ _ (by decide : (0 : Nat) < 1), M.bind_ok (i32Add_release (by show ¬ (3 * (N : Int)) + 3 < 2 ^ 31; omega) _)]; rfl)]
    rw [loop_round (d' := { curfile := -1, curline := 3 * N + 3 - 2 ^ 32, debug := [-1, 3 * N + 3 - 2 ^ 32], i := 1 }) (s' := ⟨[], 28 + N + 2, { oneFunctionCode with functions := [f] }, none⟩)
      (by decide : (0 : Nat) < 1) (by
        rw [step_round _ _ _ _ 0 (.inl ⟨rfl, rfl⟩), M.bind_ok (i32Add_small (by show (3 * (N : Int)) + 3 - 2 ^ 32 + 0 < 2 ^ 31; omega) _)]
        simp only [Int.natCast_zero, Int.add_zero]
        exact hst _ _)]
    rw [loop_done (by decide : ¬ (1 : Nat) < 1)]
    show Out.ok _ _ = Out.ok _ _
    rw [show 3 * (N : Int) + 3 - 2 ^ 32 = 3 * (N + 1) - 2 ^ 32 by omega, show 28 + N + 2 = 30 + N by omega]

/-! ### A rejected file, of nearly minimal length -/

/-- Debug information of a function with `N + 126` instructions. -/
def steepLines (N : Nat) : List UInt8 := List.replicate 125 4 ++ (List.replicate N 0xFC ++ [0xFC])

theorem steepLines_differs (N : Nat) (h1 : 31 * N < 2 ^ 31) (h2 : 2 ^ 31 ≤ 31 * (N + 1)) (k : List UInt8) (f : HLFunction) (e : DecodeError) (q : Nat)
    (hn : f.nops = N + 126) (hf : ∀ T, readFunction ⟨k ++ T, 23, oneFunctionCode, none⟩ = .ok f ⟨T, q, oneFunctionCode, some e⟩) :
    Code.read .dev none (oneFunction ++ (k ++ steepLines N)) = .panic ∧
    ∃ s, Code.read .release none (oneFunction ++ (k ++ steepLines N)) = .err e s := by
  have hr : ∀ p, ∃ d : DebugState, d.i = N + 125 ∧ d.debug.length = 2 * f.nops ∧ d.curline = 31 * N ∧
      M.whileReading (fun d => decide (d.i < f.nops)) (debugBody p f.nops) { curfile := -1, curline := 0, debug := List.replicate (f.nops * 2) 0, i := 0 }
      ⟨steepLines N, q, { oneFunctionCode with functions := [f] }, some e⟩ =
      M.whileReading (fun d => decide (d.i < f.nops)) (debugBody p f.nops) d ⟨[0xFC], q + 125 + N, { oneFunctionCode with functions := [f] }, some e⟩ := by
    intro p
    obtain ⟨d1, a1, a2, a3, a4⟩ := step_rounds p f.nops 4 0 (.inl ⟨rfl, rfl⟩) (List.replicate N 0xFC ++ [0xFC]) { oneFunctionCode with functions := [f] } (some e)
      125 { curfile := -1, curline := 0, debug := List.replicate (f.nops * 2) 0, i := 0 } q (by show 0 + 125 ≤ _; omega) (by simp; omega) (by show (0 : Int) + _ < _; omega)
    have a1 : d1.i = 0 + 125 := a1
    have a3 : d1.curline = 0 + ((0 : Nat) : Int) * (125 : Nat) := a3
    obtain ⟨d2, b1, b2, b3, b4⟩ := step_rounds p f.nops 0xFC 31 (.inr ⟨rfl, rfl⟩) [0xFC] { oneFunctionCode with functions := [f] } (some e)
      N d1 (q + 125) (by omega) a2 (by omega)
    exact ⟨d2, by omega, b2, by omega, a4.trans b4⟩
  have hu : ∀ p, debugInfos p f.nops = (M.whileReading (fun d => decide (d.i < f.nops)) (debugBody p f.nops)
      { curfile := -1, curline := 0, debug := List.replicate (f.nops * 2) 0, i := 0 } >>= fun d => pure d.debug) := fun _ => rfl
  constructor
  · refine (read_debug (hf _)).1 ?_
    obtain ⟨d, d1, d2, d3, d4⟩ := hr .dev
    rw [hu]
    refine (M.bind_def _ _ _).trans ?_
    rw [d4, loop_panic (by omega)]
    rw [step_round _ _ _ _ 31 (.inr ⟨rfl, rfl⟩), M.bind_panic (i32Add_dev (by omega) _)]
  · obtain ⟨d, d1, d2, d3, d4⟩ := hr .release
    obtain ⟨d', e1, e2, e3, e4⟩ := debugStore_ok (n := f.nops) (d := { d with curline := d.curline + (31 : Nat) - 2 ^ 32 }) (by show d.i < _; omega) d2
      ⟨[], q + 125 + N + 1, { oneFunctionCode with functions := [f] }, some e⟩
    have e2 : d'.i = d.i + 1 := e2
    refine ⟨_, (read_debug (hf _)).2 d'.debug [] (q + 125 + N + 1) (some e) ?_⟩
    rw [hu]
    refine (M.bind_def _ _ _).trans ?_
    rw [d4, loop_round (by omega) ((step_round _ _ _ _ 31 (.inr ⟨rfl, rfl⟩) _ _ _ _).trans ((M.bind_ok (i32Add_release (by omega) _)).trans e1)), loop_done (by omega)]
    rfl

theorem index_long (b x y z : UInt8) (h : ¬ b.toNat &&& 0x80 = 0) (h' : ¬ b.toNat &&& 0x40 = 0) (T : List UInt8) (q : Nat) (c : Code) (e : Option DecodeError) :
    index ⟨[b, x, y, z] ++ T, q, c, e⟩ = .ok (toSigned 32 (b.toNat + 256 * (x.toNat + 256 * (y.toNat + 256 * z.toNat)))) ⟨T, q + 4, c, e⟩ := by
  have hd : ∀ (b : UInt8) (T : List UInt8) (q : Nat), decodeU8 ⟨b :: T, q, c, e⟩ = .ok b.toNat ⟨T, q + 1, c, e⟩ := fun b T q => by with_unfolding_all rfl
  unfold index M.unwrap readIndex
  rw [show [b, x, y, z] ++ T = b :: x :: y :: z :: T from rfl, M.bind_ok (hd _ _ _), if_neg h, if_neg h', M.bind_ok (hd _ _ _), M.bind_ok (hd _ _ _), M.bind_ok (hd _ _ _)]
  rfl

/-- **C100** The builds differ on an accepted file: the line number becomes negative without overflow checks. -/
theorem c100_differs : ∃ buf : List UInt8, buf.length = 715827912 ∧ Code.read .dev none buf = .panic ∧
    ∃ c s, Code.read .release none buf = .ok c s ∧ c.functions.map (·.debug) = [[-1, -2147483647]] := by
  refine ⟨longLine 715827882, ?_, longLine_differs 715827882 (by decide) (by decide)⟩
  unfold longLine
  simp only [List.length_append, List.length_replicate]
  rfl

/-- **C100** The bound of `c100_same` is nearly exact: 165 bytes more are enough for a difference. -/
theorem c100_differs_early : ∃ buf : List UInt8, buf.length = 69273822 ∧ Code.read .dev none buf = .panic ∧
    ∃ e s, Code.read .release none buf = .err e s := by
  let f : HLFunction := { t := { ValueType.default with kind := .HVOID }, findex := 0, nregs := 0, nops := 69273792, rf := 0, regs := [],
                          ops := [], debug := [], obj := none, field := none }
  have hf : ∀ T, readFunction ⟨[1, 0, 0, 0xC0, 0x08, 0x21, 0x04] ++ T, 23, oneFunctionCode, none⟩ = .ok f ⟨T, 30, oneFunctionCode, some { kind := .invalidTypeIndex, position := 24 }⟩ := by
    intro T
    have h1 : getType ⟨[1, 0, 0, 0xC0, 0x08, 0x21, 0x04] ++ T, 23, oneFunctionCode, none⟩ = .ok { ValueType.default with kind := .HVOID }
      ⟨[0, 0, 0xC0, 0x08, 0x21, 0x04] ++ T, 24, oneFunctionCode, some { kind := .invalidTypeIndex, position := 24 }⟩ := by with_unfolding_all rfl
    have h0 : ∀ T q e, uindex ⟨0 :: T, q, oneFunctionCode, e⟩ = .ok 0 ⟨T, q + 1, oneFunctionCode, e⟩ := fun T q e => by with_unfolding_all rfl
    have h4 : ∀ q e, uindex ⟨[0xC0, 0x08, 0x21, 0x04] ++ T, q, oneFunctionCode, e⟩ = .ok 69273792 ⟨T, q + 4, oneFunctionCode, e⟩ := by
      intro q e
      have hi : index ⟨[0xC0, 0x08, 0x21, 0x04] ++ T, q, oneFunctionCode, e⟩ = .ok (toSigned 32 (192 + 256 * (8 + 256 * (33 + 256 * 4)))) ⟨T, q + 4, oneFunctionCode, e⟩ :=
        index_long 0xC0 0x08 0x21 0x04 (by decide) (by decide) T q oneFunctionCode e
      rw [show toSigned 32 (192 + 256 * (8 + 256 * (33 + 256 * 4))) = 69273792 by decide] at hi
      unfold uindex
      rw [M.bind_ok hi, if_neg (by decide)]
      have hz : (69273792 : Int).toNat = 69273792 := by decide
      show Out.ok (69273792 : Int).toNat _ = _
      rw [hz]
    unfold readFunction
    rw [M.bind_ok h1]
    refine (M.bind_ok (h0 _ _ _)).trans ((M.bind_ok (h0 _ _ _)).trans ((M.bind_ok (h4 _ _)).trans ?_))
    rfl
  have h := steepLines_differs 69273666 (by decide) (by decide) [1, 0, 0, 0xC0, 0x08, 0x21, 0x04] f { kind := .invalidTypeIndex, position := 24 } 30 rfl
    hf
  refine ⟨_, ?_, h.1, _, h.2⟩
  unfold steepLines
  simp only [List.length_append, List.length_replicate]
  rfl

/-- A case of `c100_same`. -/
example : Code.read .dev none exampleModule.encode = Code.read .release none exampleModule.encode ∧
    ∃ c s, Code.read .dev none exampleModule.encode = .ok c s ∧ c.functions.map (·.debug) = [[0, 10, 0, 11, 0, 14]] := by
  obtain ⟨u, h⟩ := c43_file_roundtrip _ exampleModule_good (.inl rfl) .dev []
  rw [List.append_nil] at h
  have hl : exampleModule.encode.length ≤ 69273657 := by decide +kernel
  exact ⟨c100_same none _ hl, _, _, h, rfl⟩

end Verif.Brass
