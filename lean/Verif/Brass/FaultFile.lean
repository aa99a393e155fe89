import Verif.Brass.FaultLemmas

/-!
# The errors of a whole file (C86)
-/

namespace Verif.Brass

open Verif Verif.Brass.Spec

namespace Jf

/-! ## From the types to the constants -/

section
variable {X : Scene} {I : DecodeError → Prop} {st : Bool} {k : List UInt8} {c : Code}

theorem readCode : Jf X I st k P.getCode X.agree := fun _ _ hd => ⟨hd.nil, hd.2⟩

/-- The scene with something else known of the module. -/
def _root_.Verif.Brass.Scene.with (X : Scene) (agree : Code → Prop) : Scene := { X with agree := agree }

/-- The scene without what is known of the module. -/
abbrev _root_.Verif.Brass.Scene.loose (X : Scene) : Scene := X.with fun _ => True

/-- After `setCode` more is known of the module. -/
theorem setThen {α : Type} {strong : Code → Prop} (hw : ∀ d, strong d → X.agree d) {d : Code} (hd : strong d) {x : P α} {Q : α → Prop}
    (h : Jf (X.with strong) I st [] x Q) :
    Tri I (fun _ e => X.loose.At k e) (P.bind (P.setCode d) fun _ => x) (fun _ a e => X.At [] e ∧ Q a) (X.Fails I st) :=
  Tri.bind (B := fun _ _ e => (X.with strong).At [] e) (fun _ _ he => ⟨he.nil.1, hd⟩) fun _ => h.conseq (fun _ _ h => h)
    (fun _ _ _ h => ⟨⟨h.1.1, hw _ h.1.2⟩, h.2⟩) (fun _ _ _ h hs => ⟨(h hs).1, (h hs).2.1, hw _ (h hs).2.2⟩)

/-- The same, when something is known of the module before. -/
theorem setThen' {α : Type} {strong : Code → Prop} (hw : ∀ d, strong d → X.agree d) {d : Code} (hd : strong d) {x : P α} {Q : α → Prop}
    (h : Jf (X.with strong) I st [] x Q) : Jf X I st k (P.bind (P.setCode d) fun _ => x) Q :=
  fun fl e he => setThen hw hd h fl e ⟨he.1, trivial⟩

variable {strong : Code → Prop} (hw : ∀ d, strong d → X.agree d) (hs : Late (X.with strong) I c)
include hw hs

theorem readTypesStep {i d} (h0 : c.ntypes ≠ 0) (hd : strong d) :
    Tri I (fun _ d => X.loose.At [] d) (Par.readTypesStep i d) (fun _ a d => X.At [] d ∧ strong a) (X.Fails I st) :=
  setThen hw hd (seq (readType hs h0) fun _ => getCode fun e he => seq insertAt fun _ =>
    have := hs.stable e _ _ _ _ _ _ he
    seq (setCode this) fun _ => pure this)

theorem readTypes {d} (hd : strong d) :
    Tri I (fun _ e => X.loose.At [] e ∧ (c.ntypes = 0 → X.agree e.code)) (Par.readTypes d)
      (fun _ a d => X.At [] d ∧ strong a) (X.Fails I st) := by
  have hd' := hs.stable d d.ustrings (List.replicate d.ntypes ValueType.default) d.globals d.natives d.functions d.constants hd
  unfold Par.readTypes
  simp only
  have hn : d.ntypes = c.ntypes := hs.ntypes d hd
  rw [hn]
  cases h : c.ntypes with
  | zero => rintro fl e ⟨h1, h2⟩; exact ⟨⟨h1.1, h2 rfl⟩, by rw [hn, h] at hd'; exact hd'⟩
  | succ n =>
    refine Tri.bind ((readTypesStep hw hs (by omega) (by rw [hn, h] at hd'; exact hd')).conseq (fun _ _ h => h.1) (fun _ _ _ h => h)
      (fun _ _ _ h => h)) fun a => ?_
    intro fl e he
    refine forRange (Q := strong) ?_ n 1 a he.2 fl e he.1
    intro i b hb fl e he
    exact readTypesStep hw hs (by omega) hb fl e ⟨he.1, trivial⟩

theorem readGlobalsStep {i d} (hd : strong d) : Jf X I st [] (Par.readGlobalsStep i d) strong :=
  setThen' hw hd (seq (getType hs) fun _ => getCode fun e he => seq insertAt fun _ =>
    have := hs.stable e _ _ _ _ _ _ he
    seq (setCode this) fun _ => pure this)
theorem readGlobals {d} (hd : strong d) : Jf X I st [] (Par.readGlobals d) strong :=
  checked (forRange (fun _ _ hb => readGlobalsStep hw hs hb) _ _ _ (hs.stable d _ _ _ _ _ _ hd))
omit hw hs in
theorem readNative (hl : Late X I c) : Jf X I st k Par.readNative Any :=
  seq (readString hl) fun _ => seq (readString hl) fun _ => seq (getType hl) fun _ => seq (uindex hl.toNeg) fun _ => pure trivial
theorem readNativesStep (hl : Late X I c) {i d} (hd : strong d) : Jf X I st [] (Par.readNativesStep i d) strong :=
  seq (readNative hl) fun _ =>
    have := hs.stable d _ _ _ _ _ _ hd
    seq (setCode (hw _ this)) fun _ => pure this
theorem readNatives (hl : Late X I c) {d} (hd : strong d) : Jf X I st [] (Par.readNatives d) strong :=
  checked (forRange (fun _ _ hb => readNativesStep hw hs hl hb) _ _ _ (hs.stable d _ _ _ _ _ _ hd))
omit hw hs in
theorem storeDebug (hl : Late X I c) {i o} : Jf X I st k (Par.storeDebug i o) Any := by
  cases o
  · exact pure' trivial
  · refine getCode (f := fun d => P.bind (P.unwrapOpt d.functions[i]?) fun f => P.setCode
      { d with functions := d.functions.set i { f with debug := _ } }) fun d hd => ?_
    exact seq unwrapOpt fun _ => setCode (hl.stable d d.ustrings d.types d.globals d.natives _ d.constants hd)
omit hw hs in
theorem readFunctionDebug (hl : Late X I c) {p i} : Jf X I st [] (Par.readFunctionDebug p i) Any :=
  getCode (f := fun d => if d.hasdebug ≠ 0 then P.bind (P.unwrapOpt d.functions[i]?) fun f =>
      P.bind (P.okOrRecord (Par.debugInfos p f.nops)) fun r => P.bind (Par.storeDebug i r) fun _ =>
      P.bind P.getCode fun d => Par.skipAssignsIf (decide (d.version ≥ 3)) else P.pure ())
    fun d hd => ite (fun h => seq unwrapOpt fun _ => seq (okOrRecord (debugInfos hl (hl.hasdebug d hd ▸ h))) fun _ =>
    seq (storeDebug hl) fun _ => getCode fun _ _ => skipAssignsIf hl.toNeg) fun _ => pure trivial
theorem readFunctionsStep {p i d} (h0 : c.nfunctions ≠ 0) (hd : strong d) : Jf X I st [] (Par.readFunctionsStep p i d) strong :=
  setThen' hw hd (seq (readFunction hs h0) fun _ => getCode fun e he =>
    seq (setCode (hs.stable e _ _ _ _ _ _ he)) fun _ => seq (readFunctionDebug hs) fun _ => readCode)
theorem readFunctions {p d} (hd : strong d) (h : d.nfunctions = c.nfunctions) : Jf X I st [] (Par.readFunctions p d) strong := by
  unfold Par.readFunctions
  rw [h]
  refine checked ?_
  by_cases h0 : c.nfunctions = 0
  · rw [h0]; exact pure' hd
  · exact forRange (fun _ _ hb => readFunctionsStep hw hs h0 hb) _ _ _ hd
theorem readConstantsStep {i d} (hd : strong d) : Jf X I st [] (Par.readConstantsStep i d) strong :=
  seq (checked (readConstant ⟨hs.hI⟩)) fun _ => seq insertAt fun _ =>
    have := hs.stable d _ _ _ _ _ _ hd
    seq (setCode (hw _ this)) fun _ => pure this
theorem readConstants {d} (hd : strong d) : Jf X I st [] (Par.readConstants d) strong :=
  forRange (fun _ _ hb => readConstantsStep hw hs hb) _ _ _ hd

end

end Jf

/-! ## From the beginning to the debug file names -/

/-- A function that ends without having recorded or seen an error has read a phrase of its grammar. -/
theorem Tri.parse {I : DecodeError → Prop} {A : Bool → Dec → Prop} {α : Type} {x : P α} {y : M α} {g : G α}
    {B : Bool → α → Dec → Prop} {E : Bool → DecodeError → Dec → Prop} (h : Tri I A x B E) (hs : Sim x y) (hg : Sem y g) :
    Tri I A x (fun fl a d => B fl a d ∧ (fl = false → ∃ d0 k, A false d0 ∧ d0.buf = k ++ d.buf ∧ d.pos = d0.pos + k.length ∧
      g d0.code k a d.code)) E := fun fl d ha =>
  (h fl d ha).alone.mono fun fl' r hr => by
    cases r with
    | ok a d' =>
      refine ⟨hr.1, fun hf => ?_⟩
      obtain ⟨rfl, h1⟩ := hr.2 hf
      have h2 := hs d none
      rw [h1] at h2
      obtain ⟨_, k, h3, h4, h5⟩ := hg.sound _ _ _ trivial h2.symm rfl
      exact ⟨d, k, ha, h3, h4, h5⟩
    | err e d' => exact hr.1
    | panic => trivial

/-- In the end only the error reported matters. -/
abbrev Ends (I : DecodeError → Prop) : Bool → DecodeError → Dec → Prop := fun _ e _ => I e

section
variable {I : DecodeError → Prop} {file : List UInt8} (hI : ∀ e, Fault file e → I e)
include hI

theorem magic_tri : Tri I (fun fl d => fl = false ∧ d = ⟨file, 0, Code.new⟩) Par.readMagic
    (fun fl _ d => fl = false ∧ ∃ rest, file = [0x48, 0x4C, 0x42] ++ rest ∧ d = ⟨rest, 3, Code.new⟩) (Ends I) := by
  rintro _ _ ⟨rfl, rfl⟩
  have hne : ∀ (b : UInt8) (n : UInt8), b.toNat ≠ n.toNat → b ≠ n := fun b n h e => h (by rw [e])
  have heq : ∀ (b : UInt8) (n : UInt8), b.toNat = n.toNat → b = n := fun b n h => UInt8.toNat_inj.1 h
  show (Tree.andThen (P.unwrap Par.decodeU8 _) _).Just I _ false
  rw [Par.byte_eq]
  cases file with
  | nil => trivial
  | cons b1 r1 =>
  simp only [Tree.andThen]
  split
  · next h => exact hI _ (.header [] r1 b1 0x48 rfl (by decide) (hne _ _ h))
  · next h =>
    have h1 := heq b1 0x48 (by simpa using h)
    show (Tree.andThen (P.unwrap Par.decodeU8 _) _).Just I _ false
    rw [Par.byte_eq]
    cases r1 with
    | nil => trivial
    | cons b2 r2 =>
    simp only [Tree.andThen]
    split
    · next h => exact hI _ (.header [0x48] r2 b2 0x4C (by simp [h1]) (by decide) (hne _ _ h))
    · next h =>
      have h2 := heq b2 0x4C (by simpa using h)
      show (Tree.andThen (P.unwrap Par.decodeU8 _) _).Just I _ false
      rw [Par.byte_eq]
      cases r2 with
      | nil => trivial
      | cons b3 r3 =>
      simp only [Tree.andThen]
      split
      · next h => exact hI _ (.header [0x48, 0x4C] r3 b3 0x42 (by simp [h1, h2]) (by decide) (hne _ _ h))
      · next h =>
        have h3 := heq b3 0x42 (by simpa using h)
        exact ⟨rfl, r3, by simp [h1, h2, h3], rfl⟩

theorem version_tri : Tri I (fun fl d => fl = false ∧ ∃ rest, file = [0x48, 0x4C, 0x42] ++ rest ∧ d = ⟨rest, 3, Code.new⟩)
    Par.readVersion (fun fl v d => fl = false ∧ ∃ (b : UInt8) (rest : List UInt8), v = b.toNat ∧ 2 ≤ v ∧ v ≤ 5 ∧
      file = [0x48, 0x4C, 0x42, b] ++ rest ∧ d = ⟨rest, 4, Code.new⟩) (Ends I) := by
  rintro _ _ ⟨rfl, rest, hf, rfl⟩
  show (Tree.andThen (P.unwrapRecord Par.decodeU8 _) _).Just I _ false
  unfold P.unwrapRecord
  cases rest with
  | nil => exact ⟨fun _ => ⟨⟨_, rfl, hI _ (.noVersion (by simpa using hf))⟩, trivial⟩, fun _ _ => trivial⟩
  | cons b r =>
    show (Tree.andThen (Tree.done (.ok (leNat [b]) ⟨r, 4, Code.new⟩)) _).Just I _ false
    have hb : leNat [b] = b.toNat := by simp [leNat]
    rw [hb]
    simp only [Tree.andThen]
    split
    · next h => exact hI _ (.version b r (by simpa using hf) (by omega))
    · next h => exact ⟨rfl, b, r, rfl, by omega, by omega, by simpa using hf, rfl⟩

theorem neg_of {base : List UInt8} {agree : Code → Prop} (h : 4 ≤ base.length) : Jf.Neg ⟨file, base, agree⟩ I where
  hI m w r i e hw hi := hI _ (.negative (base ++ m) w r i e hw hi (by rw [List.length_append]; omega))

/-- The reader is at the end of a phrase `k` of `g` with value `c`. -/
def Opened (file : List UInt8) (g : G Code) (c : Code) (fl : Bool) (d : Dec) : Prop :=
  fl = false ∧ ∃ k, file = k ++ d.buf ∧ d.pos = k.length ∧ g Code.new k c d.code ∧ 4 ≤ k.length

theorem counts_tri (v : Nat) : Tri I (fun fl d => fl = false ∧ ∃ (b : UInt8) (rest : List UInt8), v = b.toNat ∧ 2 ≤ v ∧ v ≤ 5 ∧
      file = [0x48, 0x4C, 0x42, b] ++ rest ∧ d = ⟨rest, 4, Code.new⟩)
    (Par.checked (Par.readCounts v)) (fun fl c d => Opened file headerG c fl d) (Ends I) := by
  have h1 : Tri I (fun fl d => fl = false ∧ ∃ (b : UInt8) (rest : List UInt8), v = b.toNat ∧ 2 ≤ v ∧ v ≤ 5 ∧
      file = [0x48, 0x4C, 0x42, b] ++ rest ∧ d = ⟨rest, 4, Code.new⟩)
    (Par.checked (Par.readCounts v)) (fun fl _ _ => fl = false) (Ends I) := by
    rintro _ _ ⟨rfl, b, rest, h1, h2, h3, h4, rfl⟩
    have hn := neg_of hI (base := [0x48, 0x4C, 0x42, b]) (agree := fun _ => True) (by simp)
    have hj := Jf.readCounts (st := true) (k := []) hn (v := v)
    refine ((Tri.checked hj (fun a e d he hb _ => ⟨he, hb.1⟩) (fun a e d he hb _ => ⟨he, hb.1⟩)).conseq (fun _ _ h => h)
      (fun _ _ _ h => h.1) (fun _ _ _ h => (h rfl).1)) false _ ⟨⟨[], by simpa using h4, rfl⟩, trivial⟩
  refine (h1.parse (Sim.checked (Sim.readCounts v)) (Sem.checked (Sem.readCounts v))).conseq (fun _ _ h => h) ?_ (fun _ _ _ h => h)
  rintro fl c d ⟨rfl, h⟩
  obtain ⟨_, k, ⟨_, b, rest, h1, h2, h3, h4, rfl⟩, h5, h6, h7⟩ := h rfl
  refine ⟨rfl, [0x48, 0x4C, 0x42, b] ++ k, by rw [h4]; simp [show rest = k ++ d.buf from h5], by simp [h6]; omega, ?_, by simp⟩
  refine ⟨[0x48, 0x4C, 0x42], [b] ++ k, (), _, rfl, ⟨rfl, rfl⟩, [b], k, v, _, rfl, ?_, h7⟩
  exact ⟨[b], [], v, _, rfl, ⟨rfl, b, rfl, h1⟩, [], [], (), _, rfl, ⟨rfl, ⟨h2, h3⟩, rfl⟩, rfl, rfl, rfl⟩

end

/-- The pools of numbers: `rd` reads `w` bytes or fails for lack of them. -/
theorem pool_tri {I : DecodeError → Prop} {file base : List UInt8} {α : Type} {rd : P α} {w n : Nat}
    (hrd : ∀ d, (d.buf.length < w ∧ rd d = .done (.err ⟨.noMoreData, d.pos⟩ d)) ∨
      (w ≤ d.buf.length ∧ ∃ a, rd d = .done (.ok a { d with buf := d.buf.drop w, pos := d.pos + w })))
    (hI : ∀ m r j, file = base ++ m ++ r → j < n → m.length = w * j → r.length < w → I ⟨.noMoreData, (base ++ m).length⟩)
    {E : Bool → DecodeError → Dec → Prop} :
    ∀ l i v, i + l = n → Tri I (fun fl d => ∃ m j, file = base ++ m ++ d.buf ∧ d.pos = (base ++ m).length ∧ m.length = w * j ∧
        j ≤ i ∧ (fl = false → j = i))
      (P.forRange (fun i v => do
        let x ← P.okOrRecord rd
        Par.insertIfSome v i x) i l v)
      (fun fl _ d => ∃ m j, file = base ++ m ++ d.buf ∧ d.pos = (base ++ m).length ∧ m.length = w * j ∧ j ≤ n ∧ (fl = false → j = n)) E
  | 0, i, v, hl => by
    rintro fl d ⟨m, j, h1, h2, h3, h4, h5⟩
    exact ⟨m, j, h1, h2, h3, by omega, fun e => by rw [h5 e]; omega⟩
  | l + 1, i, v, hl => by
    refine Tri.bind (B := fun fl _ d => ∃ m j, file = base ++ m ++ d.buf ∧ d.pos = (base ++ m).length ∧ m.length = w * j ∧
        j ≤ i + 1 ∧ (fl = false → j = i + 1)) ?_ (fun v => pool_tri hrd hI l (i + 1) v (by omega))
    refine Tri.bind (B := fun fl _ d => ∃ m j, file = base ++ m ++ d.buf ∧ d.pos = (base ++ m).length ∧ m.length = w * j ∧
        j ≤ i + 1 ∧ (fl = false → j = i + 1)) ?_ ?_
    · rintro fl d ⟨m, j, h1, h2, h3, h4, h5⟩
      show (Tree.andThen (rd d) _).Just I _ fl
      rcases hrd d with ⟨h6, h7⟩ | ⟨h6, a, h7⟩ <;> rw [h7]
      · refine recordError_just ?_ ⟨m, j, h1, h2, h3, by omega, nofun⟩
        rw [h2]
        exact hI m d.buf j h1 (by omega) h3 h6
      · refine ⟨m ++ d.buf.take w, j + 1, ?_, ?_, ?_, by omega, fun e => by rw [h5 e]⟩
        · simp [h1]
        · simp only [h2, List.length_append, List.length_take]; omega
        · simp only [List.length_append, List.length_take, h3]; rw [Nat.mul_succ]; omega
    · intro o fl d hd
      cases o with
      | none => exact hd
      | some a =>
        show (Par.insertIfSome v i (some a) d).Just I _ fl
        show (P.insertAt v i a d).Just I _ fl
        unfold P.insertAt
        split
        · exact hd
        · trivial

theorem decodeI32_eq (d : Dec) : (d.buf.length < 4 ∧ Par.decodeI32 d = .done (.err ⟨.noMoreData, d.pos⟩ d)) ∨
    (4 ≤ d.buf.length ∧ Par.decodeI32 d = .done (.ok (toSigned 32 (leNat (d.buf.take 4))) { d with buf := d.buf.drop 4, pos := d.pos + 4 })) := by
  show _ ∧ Tree.andThen (Par.readBytes 4 d) _ = _ ∨ _ ∧ Tree.andThen (Par.readBytes 4 d) _ = _
  unfold Par.readBytes
  by_cases h : 4 > d.buf.length
  · left; rw [if_pos h]; exact ⟨h, rfl⟩
  · right; rw [if_neg h]; exact ⟨by omega, rfl⟩

theorem decodeF64_eq (d : Dec) : (d.buf.length < 8 ∧ Par.decodeF64 d = .done (.err ⟨.noMoreData, d.pos⟩ d)) ∨
    (8 ≤ d.buf.length ∧ Par.decodeF64 d = .done (.ok (leNat (d.buf.take 8)) { d with buf := d.buf.drop 8, pos := d.pos + 8 })) := by
  show _ ∧ Tree.andThen (Par.readBytes 8 d) _ = _ ∨ _ ∧ Tree.andThen (Par.readBytes 8 d) _ = _
  unfold Par.readBytes
  by_cases h : 8 > d.buf.length
  · left; rw [if_pos h]; exact ⟨h, rfl⟩
  · right; rw [if_neg h]; exact ⟨by omega, rfl⟩

section
variable {I : DecodeError → Prop} {file : List UInt8} (hI : ∀ e, Fault file e → I e)
include hI

theorem pools_tri (c : Code) : Tri I (Opened file headerG c) (Par.readPools c) (fun fl c' d => Opened file upToStringsG c' fl d) (Ends I) := by
  have h1 : Tri I (Opened file headerG c) (Par.readPools c) (fun fl _ _ => fl = false) (Ends I) := by
    rintro _ d ⟨rfl, k, h1, h2, h3, h4⟩
    have ints : Tri I (fun fl d => ∃ m j, file = k ++ m ++ d.buf ∧ d.pos = (k ++ m).length ∧ m.length = 4 * j ∧ j ≤ 0 ∧ (fl = false → j = 0))
        (Par.checked (Par.readPool Par.decodeI32 c.nints))
        (fun fl _ d => fl = false ∧ ∃ m, file = k ++ m ++ d.buf ∧ d.pos = (k ++ m).length ∧ m.length = 4 * c.nints) (Ends I) := by
      refine (Tri.checked (pool_tri (rd := Par.decodeI32) (w := 4) (n := c.nints) (base := k) (file := file) (E := Ends I) ?_ ?_ c.nints 0 [] (by omega))
        (fun _ _ _ h _ => h) (fun _ _ _ h _ => h)).conseq (fun _ _ h => h) ?_ (fun _ _ _ h => h)
      · exact fun d => (decodeI32_eq d).imp id fun h => ⟨h.1, _, h.2⟩
      · exact fun m r j h5 h6 h7 h8 => hI _ (.noInt k m r c j ⟨_, h3⟩ h5 h6 h7 h8)
      · rintro _ _ d ⟨rfl, m, j, h5, h6, h7, _, h8⟩
        exact ⟨rfl, m, h5, h6, by rw [h7, h8 rfl]⟩
    have floats : Tri I (fun fl d => fl = false ∧ ∃ m, file = k ++ m ++ d.buf ∧ d.pos = (k ++ m).length ∧ m.length = 4 * c.nints)
        (Par.checked (Par.readPool Par.decodeF64 c.nfloats))
        (fun fl _ d => fl = false ∧ ∃ m, file = k ++ m ++ d.buf ∧ d.pos = (k ++ m).length) (Ends I) := by
      rintro _ d ⟨rfl, m0, h5, h6, h7⟩
      refine (Tri.checked (pool_tri (rd := Par.decodeF64) (w := 8) (n := c.nfloats) (base := k ++ m0) (file := file) (E := Ends I) ?_ ?_ c.nfloats 0 [] (by omega))
        (fun _ _ _ h _ => h) (fun _ _ _ h _ => h)).conseq (fun _ _ h => h) ?_ (fun _ _ _ h => h) false d
        ⟨[], 0, by simpa using h5, by simpa using h6, rfl, Nat.le_refl _, fun _ => rfl⟩
      · exact fun d => (decodeF64_eq d).imp id fun h => ⟨h.1, _, h.2⟩
      · intro m r j h8 h9 h10 h11
        have := hI _ (.noFloat k (m0 ++ m) r c j ⟨_, h3⟩ (by simpa using h8) h9 (by simp [h7, h10]) h11)
        simpa using this
      · rintro _ _ d ⟨rfl, m, j, h8, h9, _⟩
        exact ⟨rfl, m0 ++ m, by simpa using h8, by simpa using h9⟩
    have strings : Tri I (fun fl d => fl = false ∧ ∃ m, file = k ++ m ++ d.buf ∧ d.pos = (k ++ m).length)
        (Par.checked (P.okOrRecord (Par.readStrings c.nstrings))) (fun fl _ _ => fl = false) (Ends I) := by
      have hn := neg_of hI (base := k) (agree := fun _ => True) h4
      have hj := Jf.okOrRecord (st := true) (Jf.readStrings (st := true) (k := []) hn (n := c.nstrings))
      refine (Tri.checked hj (fun a e d he hb _ => ⟨he, hb.1⟩) (fun a e d he hb _ => ⟨he, hb.1⟩)).conseq ?_
        (fun _ _ _ h => h.1) (fun _ _ _ h => (h rfl).1)
      rintro _ d ⟨rfl, m, h5, h6⟩
      exact ⟨⟨m, by simpa using h5, by simpa using h6⟩, trivial⟩
    have all : Tri I _ (Par.readPools c) (fun fl _ _ => fl = false) (Ends I) :=
      Tri.bind ints fun _ => Tri.bind floats fun _ => Tri.bind strings fun _ => fun fl d h => h
    exact all false d ⟨[], 0, by simpa using h1, by simpa using h2, rfl, Nat.le_refl _, fun _ => rfl⟩
  refine (h1.parse (Sim.readPools c) (Sem.readPools c)).conseq (fun _ _ h => h) ?_ (fun _ _ _ h => h)
  rintro fl c' d ⟨rfl, h⟩
  obtain ⟨d0, k', ⟨_, k, h3, h4, h5, h6⟩, h7, h8, h9⟩ := h rfl
  exact ⟨rfl, k ++ k', by simp [h3, h7], by simp [h8, h4], ⟨k, k', c, d0.code, rfl, h5, h9⟩, by simp; omega⟩

/-- A file up to the end of its bytes. -/
def upToBytesG : G Code := do
  let c ← upToStringsG
  bytesSectionG c

theorem bytes_tri (c : Code) : Tri I (Opened file upToStringsG c) (Par.readBytesSection c) (fun fl c' d => Opened file upToBytesG c' fl d) (Ends I) := by
  have h1 : Tri I (Opened file upToStringsG c) (Par.readBytesSection c) (fun fl _ _ => fl = false) (Ends I) := by
    rintro _ d ⟨rfl, k, h1, h2, h3, h4⟩
    unfold Par.readBytesSection
    simp only
    split
    · next hv =>
      show (Tree.andThen (Par.decodeI32 d) _).Just I _ false
      rcases decodeI32_eq d with ⟨h5, h6⟩ | ⟨h5, h6⟩ <;> rw [h6]
      · show I _
        rw [h2]
        exact hI _ (.noSize k d.buf c ⟨_, h3⟩ h1 hv h5)
      · simp only [Tree.andThen]
        split
        · trivial
        · next hs =>
          show (Tree.andThen (P.unwrapRecord (Par.readBytes _) _) _).Just I _ false
          unfold P.unwrapRecord Par.readBytes
          split
          · next hb =>
            refine Tree.Just.andThen (Q := fun _ r => r = Res.panic) (fun _ _ h => by subst h; trivial) ?_
            refine recordError_just ?_ rfl
            show I ⟨_, d.pos + 4⟩
            have hs' : 0 ≤ twos32 (unsignedLE (d.buf.take 4)) := by rw [twos32_eq, unsignedLE_eq]; omega
            have := hI _ (.noBytes k (d.buf.take 4) (d.buf.drop 4) c ⟨_, h3⟩ (by simp [h1]) hv (by simp [h5]) hs' ?_)
            · simpa [h2, Nat.min_eq_left h5] using this
            · simp only [] at hb
              rw [twos32_eq, unsignedLE_eq]; omega
          · next hb =>
            have hn := neg_of hI (base := k) (agree := fun _ => True) h4
            have hj := Jf.readBytesPos (st := true) hn (n := c.nbytes)
            have hc := Tri.bind ((Tri.checked hj (fun a e d he hb _ => ⟨he, hb.1⟩) (fun a e d he hb _ => ⟨he, hb.1⟩)).conseq
              (B' := fun fl _ _ => fl = false) (E' := Ends I) (fun _ _ h => h) (fun _ _ _ h => h.1) (fun _ _ _ h => (h rfl).1))
              (f := fun bp => P.pure ({ c with ustrings := List.replicate c.nstrings none,
                                               bytes := (d.buf.drop 4).take (toSigned 32 (leNat (d.buf.take 4))).toNat,
                                               bytesPos := bp } : Code))
              (R := fun fl _ _ => fl = false) (fun a fl d h => h)
            refine hc false _ ⟨⟨d.buf.take 4 ++ (d.buf.drop 4).take (toSigned 32 (leNat (d.buf.take 4))).toNat, ?_, ?_⟩, trivial⟩
            · simp only [h1, List.append_assoc, List.append_nil, List.take_append_drop]
            · simp only [] at hb
              simp only [h2, List.length_append, List.length_take, List.append_nil]; omega
    · exact rfl
  refine (h1.parse (Sim.readBytesSection c) (Sem.readBytesSection c)).conseq (fun _ _ h => h) ?_ (fun _ _ _ h => h)
  rintro fl c' d ⟨rfl, h⟩
  obtain ⟨d0, k', ⟨_, k, h3, h4, h5, h6⟩, h7, h8, h9⟩ := h rfl
  exact ⟨rfl, k ++ k', by simp [h3, h7], by simp [h8, h4], ⟨k, k', c, d0.code, rfl, h5, h9⟩, by simp; omega⟩

omit hI in
theorem countsG_debug {v : Nat} {c : Code} {k : List UInt8} {a d : Code} (h : countsG v c k a d) : a.ndebugfiles = 0 := by
  obtain ⟨_, _, _, _, rfl, _, _, _, _, _, rfl, _, _, _, _, _, rfl, _, _, _, _, _, rfl, _, _, _, _, _, rfl, _, _, _, _, _, rfl, _,
    _, _, _, _, rfl, _, _, _, _, _, rfl, _, _, _, _, _, rfl, _, _, _, _, _, rfl, _, _, _, _, _, rfl, _, _, rfl, _⟩ := h
  rfl

omit hI in
theorem upToBytes_code {k : List UInt8} {c d : Code} (h : upToBytesG Code.new k c d) : d = Code.new ∧ c.ndebugfiles = 0 := by
  constructor
  · have hk : KeepsOn (fun _ => ()) upToBytesG := KeepsOn.bind (KeepsOn.bind (KeepsOn.bind KeepsOn.magicG fun _ =>
      KeepsOn.bind KeepsOn.versionG fun v => KeepsOn.countsG v) fun _ => KeepsOn.poolsG _) fun _ => KeepsOn.bytesSectionG _
    exact (hk _ _ _ _ h).1
  · obtain ⟨_, _, c1, _, rfl, ⟨_, _, c2, _, rfl, ⟨_, _, _, _, rfl, _, _, _, _, _, rfl, _, h2⟩, h3⟩, h4⟩ := h
    obtain ⟨_, _, rfl⟩ := bytesSectionG_value h4
    obtain ⟨_, _, _, _, rfl⟩ := poolsG_value h3
    have := countsG_debug h2; exact this

theorem debugFiles_tri (c : Code) : Tri I (Opened file upToBytesG c) (Par.readDebugFiles c)
    (fun fl c' d => Opened file upToTypesG c' fl d ∧ (d.code = c' ∨ d.code = Code.new ∧ c'.hasdebug = 0 ∧ c'.ndebugfiles = 0)) (Ends I) := by
  have h1 : Tri I (Opened file upToBytesG c) (Par.readDebugFiles c) (fun fl _ _ => fl = false) (Ends I) := by
    rintro _ d ⟨rfl, k, h1, h2, h3, h4⟩
    unfold Par.readDebugFiles
    split
    · have hn := neg_of hI (base := k) (agree := fun _ => True) h4
      have hc : ∀ a : Code, Tri I (fun _ d => Scene.At ⟨file, k, fun _ => True⟩ [] d) (P.bind P.checkError fun _ => P.pure a)
          (fun fl _ _ => fl = false) (Scene.Fails ⟨file, k, fun _ => True⟩ I true) := by
        intro a fl d hd
        exact ⟨fun _ => rfl, fun e he _ => ⟨he, hd⟩⟩
      have h5 : Tri I (fun _ d => Scene.At ⟨file, k, fun _ => True⟩ [] d) (P.bind Par.uindex fun n =>
          P.bind (P.setCode { c with ndebugfiles := n }) fun _ =>
          P.bind (P.okOrRecord (Par.readStrings n)) fun r => P.bind P.getCode fun d => P.bind (P.setCode (setDebugFiles d r)) fun _ =>
          P.bind P.checkError fun _ => P.pure (setDebugFiles d r)) (fun fl _ _ => fl = false) (Scene.Fails ⟨file, k, fun _ => True⟩ I true) :=
        Tri.bind (Jf.uindex hn) fun _ => Tri.bind ((Jf.setCode trivial).conseq (fun _ _ h => h.1) (fun _ _ _ h => h) (fun _ _ _ h => h)) fun _ =>
        Tri.bind ((Jf.okOrRecord (Jf.readStrings hn)).conseq (fun _ _ h => h.1) (fun _ _ _ h => h) (fun _ _ _ h => h)) fun _ =>
        Tri.bind (Jf.readCode.conseq (fun _ _ h => h.1) (fun _ _ _ h => h) (fun _ _ _ h => h)) fun _ =>
        Tri.bind ((Jf.setCode trivial).conseq (fun _ _ h => h.1) (fun _ _ _ h => h) (fun _ _ _ h => h)) fun _ =>
        (hc _).conseq (fun _ _ h => h.1) (fun _ _ _ h => h) (fun _ _ _ h => h)
      exact h5.conseq (fun _ _ h => h) (fun _ _ _ h => h) (fun _ _ _ h => (h rfl).1) false d ⟨⟨[], by simpa using h1, by simpa using h2⟩, trivial⟩
    · exact rfl
  refine (h1.parse (Sim.readDebugFiles c) (Sem.readDebugFiles c)).conseq (fun _ _ h => h) ?_ (fun _ _ _ h => h)
  rintro fl c' d ⟨rfl, h⟩
  obtain ⟨d0, k', ⟨_, k, h3, h4, h5, h6⟩, h7, h8, h9⟩ := h rfl
  obtain ⟨h10, h11⟩ := upToBytes_code h5
  refine ⟨⟨rfl, k ++ k', by simp [h3, h7], by simp [h8, h4], ?_, by simp; omega⟩, ?_⟩
  · obtain ⟨k1, k2, c1, c2, rfl, h12, h13⟩ := h5
    exact ⟨k1, k2 ++ k', c1, c2, by simp, h12, k2, k', c, d0.code, rfl, h13, h9⟩
  · unfold debugFilesG at h9
    split at h9
    · left
      obtain ⟨_, _, _, _, _, _, _, _, _, _, _, _, _, _, _, _, _, ⟨_, rfl⟩, _, rfl, h12⟩ := h9
      exact h12
    · next hd =>
      obtain ⟨_, rfl, h12⟩ := h9
      exact .inr ⟨h12.trans h10, by simpa using hd, h11⟩

/-- What is known of a module that is being decoded, if `c` was it before the types. -/
def Strong (c d : Code) : Prop :=
  d.ntypes = c.ntypes ∧ d.ndebugfiles = c.ndebugfiles ∧ d.hasdebug = c.hasdebug ∧ d.nstrings = c.nstrings ∧ d.nfunctions = c.nfunctions

/-- The same, if it may still be the empty module. -/
def Weak (c d : Code) : Prop :=
  d.ntypes = c.ntypes ∧ d.ndebugfiles = c.ndebugfiles ∧ d.hasdebug = c.hasdebug ∧ (d.nstrings = c.nstrings ∨ c.ntypes = 0)

theorem late_of {k : List UInt8} {c : Code} {agree : Code → Prop} (hk : Opens upToTypesG k c) (h4 : 4 ≤ k.length)
    (hw : ∀ d, agree d → Weak c d)
    (hs : ∀ d u t g n f k, agree d → agree { d with ustrings := u, types := t, globals := g, natives := n, functions := f, constants := k }) :
    Jf.Late ⟨file, k, agree⟩ I c where
  toNeg := neg_of hI h4
  item m w r kd h1 h2 := hI _ (.item k m w r c kd hk h1 h2)
  ntypes d h := (hw d h).1
  ndebugfiles d h := (hw d h).2.1
  hasdebug d h := (hw d h).2.2.1
  nstrings d h := (hw d h).2.2.2
  stable := hs

theorem rest_tri (p : Profile) (c : Code) :
    Tri I (fun fl d => Opened file upToTypesG c fl d ∧ (d.code = c ∨ d.code = Code.new ∧ c.hasdebug = 0 ∧ c.ndebugfiles = 0))
      (P.bind (Par.readTypes c) fun c => P.bind (Par.readGlobals c) fun c => P.bind (Par.readNatives c) fun c =>
        P.bind (Par.readFunctions p c) fun c => P.bind (Par.readConstants c) fun _ => P.getCode)
      (fun _ _ _ => True) (Ends I) := by
  rintro _ d ⟨⟨rfl, k, h1, h2, h3, h4⟩, h5⟩
  have hX : Jf.Late ⟨file, k, Weak c⟩ I c := late_of hI ⟨_, h3⟩ h4 (fun _ h => h) (fun _ _ _ _ _ _ _ h => h)
  have hY : Jf.Late (Scene.with ⟨file, k, Weak c⟩ (Strong c)) I c :=
    late_of hI ⟨_, h3⟩ h4 (fun _ h => ⟨h.1, h.2.1, h.2.2.1, .inl h.2.2.2.1⟩) (fun _ _ _ _ _ _ _ h => h)
  have hw : ∀ d, Strong c d → Scene.agree ⟨file, k, Weak c⟩ d := fun _ h => ⟨h.1, h.2.1, h.2.2.1, .inl h.2.2.2.1⟩
  have ht := Tri.bind (Jf.readTypes (st := true) hw hY (d := c) ⟨rfl, rfl, rfl, rfl, rfl⟩) fun a fl e h =>
    (Jf.bind (Jf.readGlobals hw hY h.2) fun a ha => Jf.bind (Jf.readNatives hw hY hX ha) fun a ha =>
      Jf.bind (Jf.readFunctions hw hY (p := p) ha ha.2.2.2.2) fun a ha => Jf.bind (Jf.readConstants hw hY ha) fun a ha =>
        Jf.readCode) fl e h.1
  refine ht.conseq (fun _ _ h => h) (fun _ _ _ _ => trivial) (fun _ _ _ h => (h rfl).1) false d ⟨⟨⟨[], by simpa [Scene.with] using h1, by simpa [Scene.with] using h2⟩, trivial⟩, ?_⟩
  intro h0
  rcases h5 with h5 | ⟨h5, h6, h7⟩ <;> rw [h5]
  · exact ⟨rfl, rfl, rfl, .inl rfl⟩
  · exact ⟨h0.symm, h7.symm, h6.symm, .inr h0⟩

/-- Every error that is recorded or reported while a file is read is true of it (or an error that another reader has recorded). -/
theorem read_just (p : Profile) : (Par.read p file).Just I (Post (fun _ _ _ => True) (Ends I)) false :=
  Tri.bind (magic_tri hI) (fun _ => Tri.bind (version_tri hI) fun v => Tri.bind (counts_tri hI v) fun c =>
    Tri.bind (pools_tri hI c) fun c => Tri.bind (bytes_tri hI c) fun c => Tri.bind (debugFiles_tri hI c) fun c => rest_tri hI p c)
    false _ ⟨rfl, rfl⟩

end

end Verif.Brass
