import Verif.Brass.StopFile

/-!
# Cutting a good file does not create faults (C94)

If a section of a file can be read without a fault, then the reads of its beginnings have no faults either: they just stop.
-/

namespace Verif.Brass

open Verif Verif.Brass.Spec

/-! ## Phrases are determined by the text -/

/-- There is at most one phrase of `g` at the beginning of a text. -/
def GDet {α : Type} (g : G α) : Prop := ∀ {c k a c1 k' a' c2 r r'}, g c k a c1 → g c k' a' c2 → k ++ r = k' ++ r' →
  k = k' ∧ a = a' ∧ c1 = c2

theorem GDet.ofSem {α : Type} {x : M α} {g : G α} (h : Sem x g) : GDet g := by
  intro c k a c1 k' a' c2 r r' h1 h2 e
  have e1 := h.complete _ _ _ _ trivial h1 r 0
  have e2 := h.complete _ _ _ _ trivial h2 r' 0
  rw [e, e2] at e1
  injection e1 with e3 e4
  injection e4 with e5 _ e6 _
  subst e3 e5 e6
  exact ⟨List.append_cancel_right e, rfl, rfl⟩

theorem plain_append_inv {k : List UInt8} {w1 w2 : Marked} (h : plain k = w1 ++ w2) : ∃ k1 k2, k = k1 ++ k2 ∧ w1 = plain k1 ∧ w2 = plain k2 := by
  obtain ⟨k1, k2, rfl, h1, h2⟩ := List.map_eq_append_iff.1 h
  exact ⟨k1, k2, rfl, h1.symm, h2.symm⟩

theorem plain_inj {k k' : List UInt8} (h : plain k = plain k') : k = k' := by
  rw [← text_plain k, h, text_plain]

theorem eq_plain {w : Marked} (h : faulty w = false) : w = plain (text w) := by
  induction w with
  | nil => rfl
  | cons m w ih =>
    cases m with
    | byte b => show Mark.byte b :: w = Mark.byte b :: plain (text w); rw [← ih h]
    | fault k => cases h

/-- In a text that begins with a phrase of `f` without faults, that is the only phrase, and a cut makes no fault. -/
structure Coh {α : Type} (f : F α) : Prop where
  det : ∀ {c w a c1 k a' c2 r r'}, f.parse c false w a c1 → f.parse c false (plain k) a' c2 → text w ++ r = k ++ r' →
    w = plain k ∧ a = a' ∧ c1 = c2
  ext : ∀ {c w rest z k a c' r}, f.stop c false w rest → f.parse c false (plain k) a c' → text w ++ rest ++ z = k ++ r →
    faulty w = false

namespace Coh

theorem pure {α : Type} (a : α) : Coh (Pure.pure a : F α) where
  det := by
    rintro c w b c1 k b' c2 r r' ⟨rfl, rfl, rfl⟩ ⟨hk, rfl, rfl⟩ _
    exact ⟨hk.symm, rfl, rfl⟩
  ext := by rintro _ _ _ _ _ _ _ _ ⟨⟩

theorem before : Coh F.before where
  det := by
    rintro c w b c1 k b' c2 r r' ⟨rfl, rfl, rfl⟩ ⟨hk, rfl, rfl⟩ _
    exact ⟨hk.symm, rfl, rfl⟩
  ext := by rintro _ _ _ _ _ _ _ _ ⟨⟩

theorem ok {α : Type} {g : G α} (h : GDet g) : Coh (F.ok g) where
  det := by
    rintro c w b c1 k b' c2 r r' ⟨k1, rfl, h1⟩ ⟨k2, hk, h2⟩ e
    rw [plain_inj hk] at *
    rw [text_plain] at e
    obtain ⟨rfl, rfl, rfl⟩ := h h1 h2 e
    exact ⟨rfl, rfl, rfl⟩
  ext := by rintro _ _ _ _ _ _ _ _ ⟨rfl, _⟩ _ _; rfl

theorem mark (k : DecodeErrorKind) : Coh (F.mark k) where
  det := by
    rintro c w b c1 k b' c2 r r' h ⟨hk, rfl⟩ e
    exfalso
    cases k <;> cases hk
  ext := by rintro _ _ _ _ _ _ _ _ ⟨⟩

theorem bind {α β : Type} {x : F α} {f : α → F β} (hx : Coh x) (hf : ∀ a, Coh (f a)) : Coh (x >>= f) where
  det := by
    rintro c w b c1 k b' c2 r r' ⟨w1, w2, a, c', rfl, h1, h2⟩ ⟨u1, u2, a', c'', hk, h1', h2'⟩ e
    obtain ⟨k1, k2, rfl, rfl, rfl⟩ := plain_append_inv hk
    rw [text_append] at e
    obtain ⟨rfl, rfl, rfl⟩ := hx.det h1 h1' (r := text w2 ++ r) (r' := k2 ++ r') (by simpa using e)
    rw [faulty_plain] at h2 h2'
    rw [text_plain] at e
    obtain ⟨rfl, rfl, rfl⟩ := (hf a).det h2 h2' (r := r) (r' := r') (by simpa using e)
    exact ⟨(plain_append _ _).symm, rfl, rfl⟩
  ext := by
    rintro c w rest z k b c1 r (h1 | ⟨w1, w2, a, c', rfl, h1, h2⟩) ⟨u1, u2, a', c'', hk, h1', h2'⟩ e
    · obtain ⟨k1, k2, rfl, rfl, rfl⟩ := plain_append_inv hk
      exact hx.ext h1 h1' (z := z) (r := k2 ++ r) (by simpa using e)
    · obtain ⟨k1, k2, rfl, rfl, rfl⟩ := plain_append_inv hk
      rw [text_append] at e
      obtain ⟨rfl, rfl, rfl⟩ := hx.det h1 h1' (r := text w2 ++ rest ++ z) (r' := k2 ++ r) (by simpa using e)
      rw [faulty_plain] at h2 h2'
      rw [text_plain] at e
      have := (hf a).ext h2 h2' (z := z) (r := r) (by simpa using e)
      rw [faulty_append, faulty_plain, this]; rfl

theorem ite {α : Type} {b : Prop} [Decidable b] {x y : F α} (hx : b → Coh x) (hy : ¬ b → Coh y) : Coh (if b then x else y) := by
  split
  · exact hx ‹_›
  · exact hy ‹_›

theorem many {α : Type} {g : F α} (h : Coh g) : ∀ n, Coh (F.many g n)
  | 0 => pure _
  | n + 1 => bind h fun _ => bind (many h n) fun _ => pure _

theorem loop {β : Type} {g : Nat → β → F β} (h : ∀ i b, Coh (g i b)) : ∀ n a b, Coh (F.loop g a n b)
  | 0, _, _ => pure _
  | n + 1, _, _ => bind (h _ _) fun _ => loop h n _ _

theorem idx : Coh (F.ok idxG) := ok (GDet.ofSem Sem.index)
theorem code : Coh (F.ok G.code) := ok (GDet.ofSem Sem.getCode)
theorem setCode (c) : Coh (F.ok (G.setCode c)) := ok (GDet.ofSem (Sem.setCode c))
theorem opt {α : Type} (o : Option α) : Coh (F.ok (G.some o)) := ok (GDet.ofSem (Sem.unwrapOpt o))
theorem byte : Coh (F.ok byteG) := ok (GDet.ofSem Sem.decodeU8)
theorem i32 : Coh (F.ok i32G) := ok (GDet.ofSem Sem.decodeI32)
theorem bytes (n) : Coh (F.ok (bytesG n)) := ok (GDet.ofSem (Sem.readBytes n))
theorem guard (P) : Coh (F.ok (G.guard P)) := ok fun ⟨h1, _, h2⟩ ⟨h3, _, h4⟩ _ => ⟨h1.trans h3.symm, rfl, h2.trans h4.symm⟩
theorem superT : Coh (F.ok superG) := ok (GDet.ofSem Sem.readSuper)
theorem slice (st i n) : Coh (F.ok (sliceG st i n)) := ok (GDet.ofSem (Sem.slice st i n))
theorem lossy (l) : Coh (F.ok (lossyG l)) := ok fun ⟨h1, h2, _, h5, h6⟩ ⟨h3, h4, _, h7, h8⟩ _ =>
  ⟨h1.trans h3.symm, by rw [h6, h8, h5.unique h7], h2.trans h4.symm⟩
theorem i32Add (p a b) : Coh (F.ok (i32AddG p a b)) := ok (GDet.ofSem (Sem.i32Add p a b))
theorem operands (r i) : Coh (F.ok (operandsG r i)) := ok (GDet.ofSem (Sem.readOperands r i))

theorem markIf (P : Prop) [Decidable P] (k) : Coh (F.markIf P k) := ite (fun _ => mark k) fun _ => pure _

theorem cached (c j) : Coh (F.ok (cachedG c j)) := ok <| by
  rintro d k a c1 k' a' c2 r r' ⟨rfl, h⟩ ⟨rfl, h'⟩ _
  refine ⟨rfl, ?_⟩
  rcases h with ⟨h, rfl⟩ | ⟨h, rfl, rfl⟩ <;> rcases h' with ⟨h', rfl⟩ | ⟨h', rfl, rfl⟩
  · rw [h] at h'; cases h'; exact ⟨rfl, rfl⟩
  · rw [h] at h'; cases h'
  · rw [h] at h'; cases h'
  · exact ⟨rfl, rfl⟩

theorem nat : Coh natF := bind idx fun _ => ite (fun _ => bind (mark _) fun _ => pure _) fun _ => pure _
theorem natI : Coh natIF := bind nat fun _ => pure _

theorem ref {α : Type} (n kind) {get : Code → Nat → F α} {other : Code → F α} (h1 : ∀ c i, Coh (get c i)) (h2 : ∀ c, Coh (other c)) :
    Coh (refF n kind get other) :=
  bind idx fun _ => bind code fun _ => ite (fun _ => bind (mark _) fun _ => h2 _) fun _ => bind (guard _) fun _ =>
    ite (fun _ => bind (mark _) fun _ => h2 _) fun _ => h1 _ _

theorem stringRef : Coh stringRefF := ref _ _ (fun _ _ => opt _) fun _ => pure _
theorem ustringRef : Coh ustringRefF := ref _ _ (fun _ _ => cached _ _) fun _ => pure _
theorem typeRef : Coh typeRefF := ref _ _ (fun _ _ => opt _) fun _ => opt _
theorem field : Coh fieldF := bind ustringRef fun _ => bind typeRef fun _ => pure _
theorem proto : Coh protoF := bind ustringRef fun _ => bind nat fun _ => bind idx fun _ => pure _
theorem binding : Coh bindingF := bind nat fun _ => bind nat fun _ => pure _
theorem construct : Coh constructF := bind ustringRef fun _ => bind nat fun _ => bind (many typeRef _) fun _ => pure _
theorem funcType : Coh funcTypeF := bind byte fun _ => bind (many typeRef _) fun _ => bind typeRef fun _ => pure _
theorem objType : Coh objTypeF := bind ustringRef fun _ => bind superT fun _ => bind nat fun _ => bind nat fun _ => bind nat fun _ => bind nat fun _ =>
  bind (many field _) fun _ => bind (many proto _) fun _ => bind (many binding _) fun _ => pure _
theorem virtualType : Coh virtualTypeF := bind nat fun _ => bind (many field _) fun _ => pure _
theorem enumType : Coh enumTypeF := bind ustringRef fun _ => bind nat fun _ => bind nat fun _ => bind (many construct _) fun _ => pure _
theorem typeBody (t) : Coh (typeBodyF t) := by
  unfold typeBodyF
  split
  · exact bind funcType fun _ => pure _
  · exact bind funcType fun _ => pure _
  · exact bind objType fun _ => pure _
  · exact bind objType fun _ => pure _
  · exact bind typeRef fun _ => pure _
  · exact bind virtualType fun _ => pure _
  · exact bind ustringRef fun _ => pure _
  · exact bind enumType fun _ => pure _
  · exact bind typeRef fun _ => pure _
  · exact bind typeRef fun _ => pure _
  · exact pure _
theorem type : Coh typeF := bind byte fun _ => ite (fun _ => bind (mark _) fun _ => pure _) fun _ => bind (opt _) fun _ => typeBody _
theorem pool (st) : ∀ n i, Coh (poolF st n i)
  | 0, _ => pure _
  | n + 1, _ => bind nat fun _ => bind (slice _ _ _) fun _ => ite (fun _ => pure _) fun _ => bind (pool st n _) fun _ => pure _
theorem strings (n) : Coh (stringsF n) := bind i32 fun _ => bind (guard _) fun _ => bind (bytes _) fun _ => bind (lossy _) fun _ => pool _ _ _
theorem switch (r) : Coh (switchF r) := bind natI fun _ => bind nat fun _ => bind (many natI _) fun _ => bind natI fun _ => pure _
theorem opcode : Coh opcodeF := bind byte fun _ => ite (fun _ => bind (mark _) fun _ => pure _) fun _ => bind (opt _) fun _ =>
  ite (fun _ => switch _) fun _ => operands _ _
theorem function : Coh functionF := bind typeRef fun _ => bind nat fun _ => bind nat fun _ => bind nat fun _ => bind (many typeRef _) fun _ =>
  bind before fun _ => ite (fun _ => bind (pure _) fun _ => pure _) fun _ => bind (many opcode _) fun _ => pure _
theorem debugItem (p nops d) : Coh (debugItemF p nops d) := bind byte fun _ =>
  ite (fun _ => bind byte fun _ => bind code fun _ => bind (guard _) fun _ => bind (markIf _ _) fun _ => pure _) fun _ =>
  ite (fun _ => bind (markIf _ _) fun _ => bind (i32Add _ _ _) fun _ => pure _) fun _ =>
  ite (fun _ => bind (i32Add _ _ _) fun _ => pure _) fun _ => bind byte fun _ => bind byte fun _ => pure _

theorem debug_det {p nops d c b w a c1} (h : DebugF p nops d c b w a c1) (hb : b = false) : ∀ {k a' c2 r r'},
    DebugF p nops d c false (plain k) a' c2 → text w ++ r = k ++ r' → w = plain k ∧ a = a' ∧ c1 = c2 := by
  induction h with
  | done d c b hd =>
    intro k a' c2 r r' h' e
    generalize hu : plain k = u at h'
    cases h' with
    | done => exact ⟨rfl, rfl, rfl⟩
    | item _ _ _ _ _ _ _ _ _ hd' => omega
  | item d d' d'' c c' c'' b w w' hd h1 h2 ih =>
    subst hb
    intro k a' c2 r r' h' e
    generalize hu : plain k = u at h'
    cases h' with
    | done _ _ _ hd' => omega
    | item _ x _ _ y _ _ u u' hd' h1' h2' =>
      obtain ⟨k1, k2, rfl, rfl, rfl⟩ := plain_append_inv hu
      rw [text_append] at e
      obtain ⟨rfl, rfl, rfl⟩ := (debugItem p nops d).det h1 h1' (r := text w' ++ r) (r' := k2 ++ r') (by simpa using e)
      rw [faulty_plain] at h2'
      rw [text_plain] at e
      obtain ⟨rfl, rfl, rfl⟩ := ih (by rw [faulty_plain]; rfl) h2' (r := r) (r' := r') (by simpa using e)
      exact ⟨rfl, rfl, rfl⟩

theorem debug_ext {p nops d c b w rest} (h : DebugStop p nops d c b w rest) (hb : b = false) : ∀ {z k a c' r},
    DebugF p nops d c false (plain k) a c' → text w ++ rest ++ z = k ++ r → faulty w = false := by
  induction h with
  | here d c b w rest hd h1 =>
    subst hb
    intro z k a c' r h' e
    generalize hu : plain k = u at h'
    cases h' with
    | done _ _ _ hd' => omega
    | item _ x _ _ y _ _ u u' hd' h1' h2' =>
      obtain ⟨k1, k2, rfl, rfl, rfl⟩ := plain_append_inv hu
      exact (debugItem p nops d).ext h1 h1' (z := z) (r := k2 ++ r) (by simpa using e)
  | item d d' c c' b w w' rest hd h1 h2 ih =>
    subst hb
    intro z k a c2 r h' e
    generalize hu : plain k = u at h'
    cases h' with
    | done _ _ _ hd' => omega
    | item _ x _ _ y _ _ u u' hd' h1' h2' =>
      obtain ⟨k1, k2, rfl, rfl, rfl⟩ := plain_append_inv hu
      rw [text_append] at e
      obtain ⟨rfl, rfl, rfl⟩ := (debugItem p nops d).det h1 h1' (r := text w' ++ rest ++ z) (r' := k2 ++ r) (by simpa using e)
      rw [faulty_plain] at h2'
      rw [text_plain] at e
      have := ih (by rw [faulty_plain]; rfl) h2' (z := z) (r := r) (by simpa using e)
      rw [faulty_append, faulty_plain, this]; rfl

theorem debugInfos (p nops) : Coh (debugInfosF p nops) :=
  bind ⟨fun h => debug_det h rfl, fun h => debug_ext h rfl⟩ fun _ => pure _

theorem assigns : Coh assignsF := bind nat fun _ => bind (many (bind nat fun _ => bind idx fun _ => pure _) _) fun _ => pure _
theorem natIf (b : Prop) [Decidable b] : Coh (natIfF b) := ite (fun _ => nat) fun _ => pure _
theorem counts (v) : Coh (countsF v) := bind nat fun _ => bind nat fun _ => bind nat fun _ => bind nat fun _ => bind (natIf _) fun _ =>
  bind nat fun _ => bind nat fun _ => bind nat fun _ => bind nat fun _ => bind (natIf _) fun _ => bind nat fun _ => pure _
theorem debugFiles (c) : Coh (debugFilesF' c) := bind nat fun _ => bind (setCode _) fun _ => bind (strings _) fun _ => bind code fun _ =>
  bind (setCode _) fun _ => pure _
theorem types (c) : Coh (typesF c) := loop (fun _ _ => bind (setCode _) fun _ => bind type fun _ => bind code fun _ => bind (guard _) fun _ =>
  bind (setCode _) fun _ => pure _) _ _ _
theorem globals (c) : Coh (globalsF c) := loop (fun _ _ => bind (setCode _) fun _ => bind typeRef fun _ => bind (guard _) fun _ =>
  bind (setCode _) fun _ => pure _) _ _ _
theorem natives (c) : Coh (nativesF c) := loop (fun _ _ => bind stringRef fun _ => bind stringRef fun _ => bind typeRef fun _ => bind nat fun _ =>
  bind (setCode _) fun _ => pure _) _ _ _
theorem functionsStep (p i c) : Coh (functionsStepF p i c) := by
  unfold functionsStepF
  refine bind (setCode _) fun _ => bind function fun f => ?_
  split
  · refine bind (debugInfos _ _) fun w => ?_
    split
    · exact bind assigns fun _ => bind (setCode _) fun _ => pure _
    · exact bind (setCode _) fun _ => pure _
  · exact bind (setCode _) fun _ => pure _
theorem functions (p c) : Coh (functionsF p c) := loop (functionsStep p) _ _ _
theorem constant : Coh constantF := bind nat fun _ => bind nat fun _ => bind (many nat _) fun _ => pure _

end Coh

/-! ## Programs -/

/-- If `x` panics on a text, something being recorded, and is all right on a longer text, then what is recorded is that the text is
too short. -/
def CutOK {α : Type} (x : P α) : Prop := ∀ c buf pos z e a d', (x ⟨buf, pos, c⟩).run none = (.panic, some e) →
  (x ⟨buf ++ z, pos, c⟩).run none = (.ok a d', none) → e.kind = .noMoreData

namespace CutOK

theorem bind {α β : Type} {x : P α} {y : M α} {f : α → P β} {g : G α} (sim : Sim x y) (hs : Sem y g) (hc : Clean y) (hx : CutOK x)
    (hf : ∀ a, (∃ c k c', g c k a c') → CutOK (f a)) : CutOK (x >>= f) := by
  intro c buf pos z e b d'' h1 h2
  rw [P_bind_run] at h1 h2
  rcases sim.cases ⟨buf ++ z, pos, c⟩ none with ⟨a2, d2, e2, h3, h4⟩ | ⟨y', d2, e2, h3, h4⟩ | ⟨e2, h3, h4⟩
  · rw [h3] at h2
    have hn : e2 = none := hc _ _ _ h4 rfl
    subst hn
    rcases sim.cases ⟨buf, pos, c⟩ none with ⟨a, d', e', h5, h6⟩ | ⟨y', d', e', h5, h6⟩ | ⟨e', h5, h6⟩
    · rw [h5] at h1
      have hn : e' = none := hc _ _ _ h6 rfl
      subst hn
      obtain ⟨_, k, b', q, r⟩ := hs.sound _ _ _ trivial h6 rfl
      have b' : buf = k ++ d'.buf := b'
      have q : d'.pos = pos + k.length := q
      have r : g c k a d'.code := r
      have h7 := hs.complete _ _ _ _ trivial r (d'.buf ++ z) pos
      rw [← List.append_assoc, ← b', ← q] at h7
      have h7 : y ((⟨buf ++ z, pos, c⟩ : Dec).st none) = .ok a ((⟨d'.buf ++ z, d'.pos, d'.code⟩ : Dec).st none) := h7
      rw [h7] at h4
      injection h4 with h8 h9
      subst h8
      obtain ⟨b2, p2, c2⟩ := d2
      injection h9 with h10 h11 h12 _
      subst h10 h11 h12
      exact hf a ⟨_, _, _, r⟩ _ _ _ _ _ _ _ h1 h2
    · rw [h5] at h1; cases h1
    · rw [h5] at h1; cases h1
      exact hx _ _ _ _ _ _ _ h5 h3
  · rw [h3] at h2; cases h2
  · rw [h3] at h2; cases h2

theorem plain {α : Type} {x : P α} {f : F α} (h : PSem x f) (hf : Coh f) : CutOK x := by
  intro c buf pos z e a d' h1 h2
  exfalso
  obtain ⟨w, rest, b, q, r⟩ := h.stuck _ _ _ _ h1 rfl
  obtain ⟨u, b2, _, q2, r2⟩ := h.sound _ _ _ _ _ h2
  have hw : faulty w = true := by
    have := errAfter_isSome w none pos
    rw [← q] at this
    simpa using this.symm
  have hu : faulty u = false := by
    have := errAfter_isSome u none pos
    rw [← q2] at this
    simpa using this.symm
  rw [eq_plain hu] at r2
  have b : buf = text w ++ rest := b
  have b2 : buf ++ z = text u ++ d'.buf := b2
  have := hf.ext r r2 (z := z) (r := d'.buf) (by rw [← b, b2])
  rw [hw] at this
  cases this

theorem checked {α : Type} {x : P α} (h : CutOK x) : CutOK (Par.checked x) := by
  intro c buf pos z e a d' h1 h2
  unfold Par.checked at h1 h2
  rw [P_bind_run] at h1 h2
  cases h3 : (x ⟨buf, pos, c⟩).run none with
  | mk r e1 =>
    rw [h3] at h1
    cases r with
    | ok _ _ => exfalso; cases e1 <;> cases h1
    | err _ _ => cases h1
    | panic =>
      cases h1
      cases h4 : (x ⟨buf ++ z, pos, c⟩).run none with
      | mk r2 e2 =>
        rw [h4] at h2
        cases r2 with
        | ok a2 d2 =>
          cases e2 with
          | none => exact h _ _ _ _ _ _ _ h3 h4
          | some _ => cases h2
        | err _ _ => cases h2
        | panic => cases h2

theorem ofPanics {α : Type} {x : P α} {S} (h : Panics x S) (hs : ∀ c buf pos e, S c buf pos (some e) → e.kind = .noMoreData) : CutOK x :=
  fun _ _ _ _ _ _ _ h1 _ => hs _ _ _ _ ((h _ _ _ _).1 h1)

theorem pure {α : Type} (a : α) : CutOK (Pure.pure a : P α) := ofPanics (.pure a) fun _ _ _ _ h => h.elim

theorem readPools (c) : CutOK (Par.readPools c) := by
  unfold Par.readPools
  exact bind (.checked (.readPool .decodeI32 _)) (.checked (Sem.readPool Good.decodeI32 Sem.decodeI32 _)) (.checked _)
    (checked (ofPanics (.readPool .decodeI32 .decodeI32 (by decide) _) fun _ _ _ _ h => h.elim)) fun ints _ =>
    bind (.checked (.readPool .decodeF64 _)) (.checked (Sem.readPool Good.decodeF64 Sem.decodeF64 _)) (.checked _)
    (checked (ofPanics (.readPool .decodeF64 .decodeF64 (by decide) _) fun _ _ _ _ h => h.elim)) fun floats _ =>
    bind (.checked (.okOrRecord (.readStrings _))) (.checked (Sem.okOrRecord (Sem.readStrings _))) (.checked _)
      (checked (plain (.okOrRecord (.readStrings c.nstrings) (.readStrings _) (.readStrings _)) (.bind (.bind (.strings _) fun _ => .pure _) fun _ => .pure _)))
      fun r _ => pure _

theorem readBytesSection (c) : CutOK (Par.readBytesSection c) := by
  rw [Par.readBytesSection_eq]
  split
  · refine bind .readBlob readBlob_sem readBlob_clean (ofPanics .readBlob ?_) fun _ _ =>
      bind (.checked (.readBytesPos _)) (.checked (Sem.readBytesPos _)) (.checked _) (checked (plain (.readBytesPos _) (.many .nat _)))
        fun _ _ => pure _
    rintro _ _ _ _ ⟨_, _, _, _, (⟨_, h⟩ | ⟨_, _, h⟩)⟩
    · cases h
    · cases h; rfl
  · exact pure _

theorem readDebugFiles (c) : CutOK (Par.readDebugFiles c) := by
  rw [Par.readDebugFiles_eq]
  split
  · exact checked (plain (.readDebugFiles' c) (.debugFiles c))
  · exact pure _

theorem readTypesGlobals (c) : CutOK (Par.readTypesGlobals c) := by
  rw [Par.readTypesGlobals_eq]
  exact checked (plain (.bind (.readTypes c) fun c => .readGlobals c) (.bind (.types c) fun c => .globals c))

theorem readNatives (c) : CutOK (Par.readNatives c) := checked (plain (.readNatives c) (.natives c))

theorem readFunctions (p c) (h : c.functions = []) : CutOK (Par.readFunctions p c) := checked (plain (.readFunctions p c h) (.functions p c))

theorem readConstantsStep (i c) : CutOK (Par.readConstantsStep i c) := by
  refine bind (.checked .readConstant) (.checked Sem.readConstant) (.checked _) (checked (plain .readConstant .constant)) fun k _ => ?_
  intro d buf pos z e a d' h1 _
  exfalso
  unfold P.insertAt at h1
  split at h1 <;> cases h1

theorem constants : ∀ n a c, CutOK (P.forRange Par.readConstantsStep a n c)
  | 0, _, _ => pure _
  | n + 1, a, c => bind (.readConstantsStep a c) (.readConstantsStep a c) (.readConstantsStep a c) (readConstantsStep a c) fun c' _ => constants n (a + 1) c'

theorem readM (p) : CutOK (Par.readM p) := by
  rw [Par.readM_eq]
  have m1 : Sim (Par.readHeader >>= Par.readPools) (readHeader >>= Brass.readPools) := .bind .readHeader .readPools
  have m2 := Sim.bind m1 .readBytesSection
  have m3 := Sim.bind m2 .readDebugFiles
  have m4 := Sim.bind m3 .readTypesGlobals
  have m5 := Sim.bind m4 .readNatives
  have m6 := Sim.bind m5 (.readFunctions p)
  have s1 : Sem (readHeader >>= Brass.readPools) upToStringsG := Sem.bind readHeader_sem fun c => Sem.readPools c
  have s2 : Sem (readHeader >>= Brass.readPools >>= Brass.readBytesSection) (upToStringsG >>= bytesSectionG) := Sem.bind s1 fun c => Sem.readBytesSection c
  have s3 : Sem (readHeader >>= Brass.readPools >>= Brass.readBytesSection >>= Brass.readDebugFiles) upToTypesG := by
    rw [upToTypesG_eq]; exact Sem.bind s2 fun c => Sem.readDebugFiles c
  have s4 : Sem (readHeader >>= Brass.readPools >>= Brass.readBytesSection >>= Brass.readDebugFiles >>= Brass.readTypesGlobals) upToNativesG :=
    Sem.bind s3 fun c => Sem.bind (Sem.readTypes c) fun c => Sem.readGlobals c
  have s5 : Sem (readHeader >>= Brass.readPools >>= Brass.readBytesSection >>= Brass.readDebugFiles >>= Brass.readTypesGlobals >>= Brass.readNatives)
      upToFunctionsG := Sem.bind s4 fun c => Sem.readNatives c
  have s6 : Sem (readHeader >>= Brass.readPools >>= Brass.readBytesSection >>= Brass.readDebugFiles >>= Brass.readTypesGlobals >>= Brass.readNatives >>=
      Brass.readFunctions p) (upToFunctionsG >>= functionsG p) :=
    Sem.bindQ (fun c => c.functions = []) s5 (fun _ _ _ _ h => upToFunctionsG_functions h) (fun c => Good.readFunctions p c)
      fun c h => Sem.readFunctions p c h
  have c0 := readHeader_clean
  have c1 := Clean.bind c0 fun c => .readPools c
  have c2 := Clean.bind c1 fun c => .readBytesSection c
  have c3 := Clean.bind c2 fun c => .readDebugFiles c
  have c4 := Clean.bind c3 fun c => .readTypesGlobals c
  have c5 := Clean.bind c4 (f := Brass.readNatives) fun c => .checked _
  have c6 := Clean.bind c5 (f := Brass.readFunctions p) fun c => .checked _
  have e0 : CutOK Par.readHeader := bind .readStart readStart_sem readStart_clean
    (ofPanics (fun c buf pos e => readStart_panic c none buf pos e) (by
      rintro _ _ _ _ (⟨_, h⟩ | ⟨_, h⟩)
      · cases h
      · cases h; rfl))
    fun c _ => checked (plain (.readCounts c.version) (.counts _))
  have e1 := bind .readHeader readHeader_sem c0 e0 fun c _ => readPools c
  have e2 := bind m1 s1 c1 e1 fun c _ => readBytesSection c
  have e3 := bind m2 s2 c2 e2 fun c _ => readDebugFiles c
  have e4 := bind m3 s3 c3 e3 fun c _ => readTypesGlobals c
  have e5 := bind m4 s4 c4 e4 fun c _ => readNatives c
  have e6 := bind m5 s5 c5 e5 fun c ⟨_, _, _, h⟩ => readFunctions p c (upToFunctionsG_functions h)
  have e7 : ∀ c, CutOK (Par.readConstants c >>= fun _ => P.getCode) := fun c =>
    bind (.readConstants c) (Sem.readConstants c) (.forRange (fun _ _ => .readConstantsStep _ _) _ _ _) (constants c.nconstants 0 c)
      fun _ _ => ofPanics (S := fun _ _ _ _ => False) (fun _ _ _ _ => ⟨fun h => (by cases h), False.elim⟩) fun _ _ _ _ h => h.elim
  exact bind m6 s6 c6 e6 fun c _ => e7 c

end CutOK

end Verif.Brass
