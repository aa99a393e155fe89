import Verif.Brass.ReportFile
import Verif.Spec.LeftBehind

/-!
# What panicking reads leave behind (C93)
-/

namespace Verif.Brass

open Verif Verif.Brass.Spec

/-- `x`, started without a recorded error, panics and leaves `e'` exactly if `S` holds of the module, the rest of the file, the
position and `e'`. -/
def Panics {α : Type} (x : P α) (S : Code → List UInt8 → Nat → Option DecodeError → Prop) : Prop :=
  ∀ c buf pos e', (x ⟨buf, pos, c⟩).run none = (.panic, e') ↔ S c buf pos e'

/-- A section cannot be read to its end. -/
def InStop {α : Type} (f : F α) (c : Code) (buf : List UInt8) (pos : Nat) (e : Option DecodeError) : Prop :=
  ∃ w rest, buf = text w ++ rest ∧ f.stop c false w rest ∧ e = reported (faults pos w)

namespace Panics

theorem congr {α : Type} {x : P α} {S S' : Code → List UInt8 → Nat → Option DecodeError → Prop} (h : Panics x S)
    (e : ∀ c buf pos e, S c buf pos e ↔ S' c buf pos e) : Panics x S' :=
  fun c buf pos e' => (h c buf pos e').trans (e c buf pos e')

theorem pure {α : Type} (a : α) : Panics (Pure.pure a : P α) (fun _ _ _ _ => False) :=
  fun _ _ _ _ => ⟨fun h => (by cases h), False.elim⟩

theorem bind {α β : Type} {x : P α} {y : M α} {f : α → P β} {g : G α} {S : Code → List UInt8 → Nat → Option DecodeError → Prop}
    {S' : α → Code → List UInt8 → Nat → Option DecodeError → Prop} (sim : Sim x y) (hs : Sem y g) (hc : Clean y) (hx : Panics x S)
    (hf : ∀ a, (∃ c k c', g c k a c') → Panics (f a) (S' a)) :
    Panics (x >>= f) (fun c buf pos e => S c buf pos e ∨ Then g S' c buf pos e) := by
  intro c buf pos e
  rw [P_bind_run]
  rcases sim.cases ⟨buf, pos, c⟩ none with ⟨a, d', e', h1, h2⟩ | ⟨z, d', e', h1, h2⟩ | ⟨e', h1, h2⟩
  · rw [h1]
    have hn : e' = none := hc _ _ _ h2 rfl
    subst hn
    obtain ⟨_, k, b, q, r⟩ := hs.sound _ _ _ trivial h2 rfl
    have q : d'.pos = pos + k.length := q
    have b : buf = k ++ d'.buf := b
    have r : g c k a d'.code := r
    have key := hf a ⟨_, _, _, r⟩ d'.code d'.buf d'.pos e
    rw [show (⟨d'.buf, d'.pos, d'.code⟩ : Dec) = d' from rfl] at key
    refine key.trans ⟨fun h => .inr ⟨k, d'.buf, a, d'.code, b, r, by rw [← q]; exact h⟩, ?_⟩
    rintro (h | ⟨k', rest, a', c', hb, hg, h⟩)
    · rw [← hx, h1] at h; cases h
    · have h3 := hs.complete _ _ _ _ trivial hg rest pos
      rw [← hb] at h3
      have h3 : y ((⟨buf, pos, c⟩ : Dec).st none) = .ok a' ⟨rest, pos + k'.length, c', none⟩ := h3
      rw [h3] at h2
      injection h2 with h4 h5
      subst h4
      obtain ⟨b', p', c''⟩ := d'
      injection h5 with h6 h7 h8 _
      subst h6 h7 h8
      exact h
  · rw [h1]
    refine ⟨fun h => (by cases h), ?_⟩
    rintro (h | ⟨k', rest, a', c', hb, hg, h⟩)
    · rw [← hx, h1] at h; cases h
    · have h3 := hs.complete _ _ _ _ trivial hg rest pos
      rw [← hb] at h3
      have h3 : y ((⟨buf, pos, c⟩ : Dec).st none) = .ok a' ⟨rest, pos + k'.length, c', none⟩ := h3
      rw [h3] at h2
      cases h2
  · rw [h1]
    refine ⟨fun h => (by cases h; exact .inl ((hx _ _ _ _).1 h1)), ?_⟩
    rintro (h | ⟨k', rest, a', c', hb, hg, h⟩)
    · rw [← hx, h1] at h; cases h; rfl
    · have h3 := hs.complete _ _ _ _ trivial hg rest pos
      rw [← hb] at h3
      have h3 : y ((⟨buf, pos, c⟩ : Dec).st none) = .ok a' ⟨rest, pos + k'.length, c', none⟩ := h3
      rw [h3] at h2
      cases h2

theorem plain {α : Type} {x : P α} {y : M α} {f : F α} (h : PSem x f) (sim : Sim x y) (n : NoErr y) : Panics x (InStop f) := by
  intro c buf pos e
  constructor
  · intro h1
    obtain ⟨w, rest, b, q, r⟩ := h.stuck _ _ _ _ h1 rfl
    exact ⟨w, rest, b, r, by rw [q, ← errAfter_none]⟩
  · rintro ⟨w, rest, rfl, hf, rfl⟩
    obtain ⟨r, h1, h2⟩ := h.sticks _ _ _ _ hf pos none rfl
    rw [← errAfter_none]
    rcases sim.cases ⟨text w ++ rest, pos, c⟩ none with ⟨a, d', e', h3, h4⟩ | ⟨z, d', e', h3, h4⟩ | ⟨e', h3, h4⟩
    · rw [h1] at h3; cases h3; cases h2
    · exact absurd h4 (n _ _ _)
    · rw [h1] at h3; cases h3; exact h1

theorem checked {α : Type} {x : P α} {S} (h : Panics x S) : Panics (Par.checked x) S := by
  intro c buf pos e
  unfold Par.checked
  rw [P_bind_run, ← h c buf pos e]
  cases h1 : (x ⟨buf, pos, c⟩).run none with
  | mk r e' =>
    cases r with
    | ok a d =>
      refine ⟨fun h2 => ?_, fun h2 => (by cases h2)⟩
      exfalso
      cases e' <;> cases h2
    | err z d => exact ⟨fun h2 => (by cases h2), fun h2 => (by cases h2)⟩
    | panic => exact ⟨fun h2 => h2, fun h2 => h2⟩

end Panics

/-! ## Magic and version -/

/-- Magic and version, with a module that has the version. -/
def Par.readStart : P Code := do
  Par.readMagic
  let v ← Par.readVersion
  pure { Code.new with version := v }

theorem Sim.readStart : Sim Par.readStart readStart := .bind .readMagic fun _ => .bind .readVersion fun _ => .pure _

/-- The panics of `readStart`. -/
def StartStop (e : Option DecodeError) (buf : List UInt8) (pos : Nat) (e' : Option DecodeError) : Prop :=
  (buf <+: [0x48, 0x4C] ∧ e' = e) ∨ (buf = [0x48, 0x4C, 0x42] ∧ e' = some (e.getD ⟨.noMoreData, pos + 3⟩))

theorem P_bind_ok {α β : Type} {x : P α} {f : α → P β} {d d' a} (h : x d = .done (.ok a d')) : (x >>= f) d = f a d' := by
  show (x d).andThen _ = _
  rw [h]; rfl

theorem P_bind_panic {α β : Type} {x : P α} {f : α → P β} {d} (h : x d = .done .panic) : (x >>= f) d = .done .panic := by
  show (x d).andThen _ = _
  rw [h]; rfl

theorem Par.u8_nil (pos c) : P.unwrap Par.decodeU8 ⟨[], pos, c⟩ = .done .panic := rfl

theorem Par.u8_cons (b : UInt8) (t pos c) : P.unwrap Par.decodeU8 ⟨b :: t, pos, c⟩ = .done (.ok b.toNat ⟨t, pos + 1, c⟩) := by
  have h : Par.decodeU8 ⟨b :: t, pos, c⟩ = .done (.ok b.toNat ⟨t, pos + 1, c⟩) := by
    show (do let bs ← Par.readBytes 1; Pure.pure (leNat bs) : P Nat) ⟨b :: t, pos, c⟩ = _
    rw [P_bind_ok (show Par.readBytes 1 ⟨b :: t, pos, c⟩ = .done (.ok [b] ⟨t, pos + 1, c⟩) by simp [Par.readBytes])]
    simp [leNat]; rfl
  show (Par.decodeU8 _).andThen _ = _
  rw [h]; rfl

theorem Par.u8r_cons (b : UInt8) (t pos c) : P.unwrapRecord Par.decodeU8 ⟨b :: t, pos, c⟩ = .done (.ok b.toNat ⟨t, pos + 1, c⟩) := by
  have h : Par.decodeU8 ⟨b :: t, pos, c⟩ = .done (.ok b.toNat ⟨t, pos + 1, c⟩) := by
    show (do let bs ← Par.readBytes 1; Pure.pure (leNat bs) : P Nat) ⟨b :: t, pos, c⟩ = _
    rw [P_bind_ok (show Par.readBytes 1 ⟨b :: t, pos, c⟩ = .done (.ok [b] ⟨t, pos + 1, c⟩) by simp [Par.readBytes])]
    simp [leNat]; rfl
  show (Par.decodeU8 _).andThen _ = _
  rw [h]; rfl

theorem readStart_panic (c : Code) (e : Option DecodeError) (buf : List UInt8) (pos : Nat) (e' : Option DecodeError) :
    (Par.readStart ⟨buf, pos, c⟩).run e = (.panic, e') ↔ StartStop e buf pos e' := by
  have key : ∀ (b : UInt8) (n : Nat) (hn : n < 256), b.toNat = n ↔ b = UInt8.ofNat n := by
    intro b n hn
    constructor
    · rintro rfl; simp
    · rintro rfl; simp [Nat.mod_eq_of_lt hn]
  unfold Par.readStart Par.readMagic Par.readVersion StartStop
  simp only [P_bind_assoc]
  match buf with
  | [] =>
    rw [P_bind_panic (Par.u8_nil _ _)]
    constructor
    · intro h; cases h; exact .inl ⟨⟨_, rfl⟩, rfl⟩
    · rintro (⟨_, rfl⟩ | ⟨h, _⟩)
      · rfl
      · cases h
  | x :: t =>
    rw [P_bind_ok (Par.u8_cons _ _ _ _)]
    by_cases hx : x.toNat = 0x48
    · rw [if_neg (by omega)]
      obtain rfl := (key _ _ (by decide)).1 hx
      simp only [P_bind_assoc]
      match t with
      | [] =>
        rw [P_bind_panic (Par.u8_nil _ _)]
        constructor
        · intro h; cases h; exact .inl ⟨⟨[0x4C], rfl⟩, rfl⟩
        · rintro (⟨_, rfl⟩ | ⟨h, _⟩)
          · rfl
          · cases h
      | y :: t =>
        rw [P_bind_ok (Par.u8_cons _ _ _ _)]
        by_cases hy : y.toNat = 0x4C
        · rw [if_neg (by omega)]
          obtain rfl := (key _ _ (by decide)).1 hy
          simp only [P_bind_assoc]
          match t with
          | [] =>
            rw [P_bind_panic (Par.u8_nil _ _)]
            constructor
            · intro h; cases h; exact .inl ⟨⟨[], rfl⟩, rfl⟩
            · rintro (⟨_, rfl⟩ | ⟨h, _⟩)
              · rfl
              · cases h
          | z :: t =>
            rw [P_bind_ok (Par.u8_cons _ _ _ _)]
            by_cases hz : z.toNat = 0x42
            · rw [if_neg (by omega)]
              obtain rfl := (key _ _ (by decide)).1 hz
              rw [P_bind_ok (show (Pure.pure () : P Unit) _ = .done (.ok () _) from rfl)]
              match t with
              | [] =>
                constructor
                · intro h
                  cases e <;> cases h <;> exact .inr ⟨rfl, rfl⟩
                · rintro (⟨⟨t, h⟩, _⟩ | ⟨_, rfl⟩)
                  · simp at h
                  · cases e <;> rfl
              | v :: t =>
                rw [P_bind_ok (Par.u8r_cons _ _ _ _)]
                refine ⟨fun h => ?_, ?_⟩
                · exfalso
                  split at h <;> cases h
                · rintro (⟨⟨t, h⟩, _⟩ | ⟨h, _⟩)
                  · simp at h
                  · simp at h
            · rw [if_pos hz]
              refine ⟨fun h => (by cases h), ?_⟩
              rintro (⟨⟨t, h⟩, _⟩ | ⟨h, _⟩)
              · simp at h
              · simp at h; exact absurd (by rw [h.1]; rfl) hz
        · rw [if_pos hy]
          refine ⟨fun h => (by cases h), ?_⟩
          rintro (⟨⟨t, h⟩, _⟩ | ⟨h, _⟩)
          · simp at h; exact absurd (by rw [h.1]; rfl) hy
          · simp at h; exact absurd (by rw [h.1]; rfl) hy
    · rw [if_pos hx]
      refine ⟨fun h => (by cases h), ?_⟩
      rintro (⟨⟨t, h⟩, _⟩ | ⟨h, _⟩)
      · simp at h; exact absurd (by rw [h.1]; rfl) hx
      · simp at h; exact absurd (by rw [h.1]; rfl) hx

/-! ## The pools -/

theorem Panics.readPool {α : Type} {rd : P α} {rd' : M α} {sz : Nat} (sim : Sim rd rd') (h : ReadsN rd' sz) (hz : 0 < sz) (n) :
    Panics (Par.readPool rd n) (fun _ _ _ _ => False) := by
  intro c buf pos e
  refine ⟨fun h1 => ?_, False.elim⟩
  obtain ⟨v', s', h2, _⟩ := poolStep_result h hz n [] ⟨buf, pos, c, none⟩ rfl
  have h2 : Brass.readPool rd' n ((⟨buf, pos, c⟩ : Dec).st none) = .ok v' s' := h2
  have h3 := Sim.readPool sim n ⟨buf, pos, c⟩ none
  rw [h1, h2] at h3
  cases h3

theorem InStop_map {α β : Type} (f : F α) (m : α → β) (c buf pos e) :
    InStop (do let a ← f; Pure.pure (m a)) c buf pos e ↔ InStop f c buf pos e := by
  constructor
  · rintro ⟨w, rest, rfl, (h | ⟨_, _, _, _, _, _, h⟩), hr⟩
    · exact ⟨w, rest, rfl, h, hr⟩
    · exact h.elim
  · rintro ⟨w, rest, rfl, h, hr⟩
    exact ⟨w, rest, rfl, .inl h, hr⟩

/-- The panics of `readPools`. -/
def PoolsStop (c : Code) (d : Code) (buf : List UInt8) (pos : Nat) (e : Option DecodeError) : Prop :=
  Then (G.many i32G c.nints) (fun _ d buf pos e =>
    Then (G.many f64G c.nfloats) (fun _ => InStop (stringsF c.nstrings)) d buf pos e) d buf pos e

theorem Panics.readPools (c) : Panics (Par.readPools c) (PoolsStop c) := by
  unfold Par.readPools PoolsStop
  refine congr (bind (.checked (.readPool .decodeI32 _)) (.checked (Sem.readPool Good.decodeI32 Sem.decodeI32 _)) (.checked _)
    (.checked (.readPool .decodeI32 .decodeI32 (by decide) _)) fun ints _ =>
    bind (.checked (.readPool .decodeF64 _)) (.checked (Sem.readPool Good.decodeF64 Sem.decodeF64 _)) (.checked _)
    (.checked (.readPool .decodeF64 .decodeF64 (by decide) _)) fun floats _ =>
    bind (.checked (.okOrRecord (.readStrings _))) (.checked (Sem.okOrRecord (Sem.readStrings _))) (.checked _)
      (.checked (.plain (.okOrRecord (.readStrings c.nstrings) (.readStrings _) (.readStrings _)) (.okOrRecord (.readStrings _)) (.okOrRecord _)))
      fun r _ => .pure _) ?_
  intro d buf pos e
  constructor
  · rintro (h | ⟨k, r, a, c', rfl, h1, (h | ⟨k', r', a', c'', rfl, h1', (h | ⟨_, _, _, _, _, _, h⟩)⟩)⟩)
    · exact h.elim
    · exact h.elim
    · rw [InStop_map, InStop_map] at h
      exact ⟨k, _, a, c', rfl, h1, k', r', a', c'', rfl, h1', h⟩
    · exact h.elim
  · rintro ⟨k, _, a, c', rfl, h1, k', r', a', c'', rfl, h1', h⟩
    refine .inr ⟨k, _, a, c', rfl, h1, .inr ⟨k', r', a', c'', rfl, h1', .inl ?_⟩⟩
    rw [InStop_map, InStop_map]
    exact h

/-! ## The byte table and the debug files -/

/-- The byte table up to its positions. -/
def Par.readBlob : P (List UInt8) := do
  let size ← Par.decodeI32
  if size < 0 then P.panic else P.unwrapRecord (Par.readBytes size.toNat)

theorem Sim.readBlob : Sim Par.readBlob readBlob :=
  .bind .decodeI32 fun _ => .ite .panic (.unwrapRecord (.readBytes _))

/-- The panics of `readBlob`. -/
def BlobStop (buf : List UInt8) (pos : Nat) (e : Option DecodeError) : Prop :=
  ∃ m r, buf = m ++ r ∧ m.length = 4 ∧ ((twos32 (unsignedLE m) < 0 ∧ e = none) ∨
    ((r.length : Int) < twos32 (unsignedLE m) ∧ 0 ≤ twos32 (unsignedLE m) ∧ e = some ⟨.noMoreData, pos + 4⟩))

theorem Panics.decodeI32 : Panics Par.decodeI32 (fun _ _ _ _ => False) := by
  intro c buf pos e
  refine ⟨fun h => ?_, False.elim⟩
  change ((do let bs ← Par.readBytes 4; Pure.pure _ : P Int) ⟨buf, pos, c⟩).run none = _ at h
  rw [P_bind_run] at h
  by_cases hb : buf.length < 4
  · rw [show Par.readBytes 4 ⟨buf, pos, c⟩ = .done (.err _ _) from if_pos hb] at h
    cases h
  · rw [show Par.readBytes 4 ⟨buf, pos, c⟩ = .done (.ok _ _) from if_neg hb] at h
    cases h

theorem Panics.readBlob : Panics Par.readBlob (fun _ => BlobStop) := by
  have h1 : ∀ size : Int, Panics (if size < 0 then P.panic else P.unwrapRecord (Par.readBytes size.toNat))
      (fun _ buf pos e => (size < 0 ∧ e = none) ∨ ((buf.length : Int) < size ∧ 0 ≤ size ∧ e = some ⟨.noMoreData, pos⟩)) := by
    intro size c buf pos e
    by_cases h : size < 0
    · rw [if_pos h]
      constructor
      · intro h1; cases h1; exact .inl ⟨h, rfl⟩
      · rintro (⟨_, rfl⟩ | ⟨_, h', _⟩)
        · rfl
        · omega
    · rw [if_neg h]
      unfold P.unwrapRecord Par.readBytes
      by_cases h2 : buf.length < size.toNat
      · simp only [h2, if_true, Tree.andThen]
        constructor
        · intro h1; cases h1; exact .inr ⟨by omega, by omega, rfl⟩
        · rintro (⟨h', _⟩ | ⟨_, _, rfl⟩)
          · exact absurd h' h
          · rfl
      · simp only [h2, if_false, Tree.andThen]
        refine ⟨fun h1 => (by cases h1), ?_⟩
        rintro (⟨h', _⟩ | ⟨h', _⟩)
        · exact absurd h' h
        · omega
  refine congr (bind .decodeI32 Sem.decodeI32 (.ofSilent .decodeI32) .decodeI32 fun size _ => h1 size) ?_
  intro c buf pos e
  constructor
  · rintro (h | ⟨k, r, a, c', rfl, ⟨rfl, h1, rfl⟩, h⟩)
    · exact h.elim
    · exact ⟨k, r, rfl, h1, by rw [h1] at h; exact h⟩
  · rintro ⟨k, r, rfl, h1, h⟩
    exact .inr ⟨k, r, _, c, rfl, ⟨rfl, h1, rfl⟩, by rw [h1]; exact h⟩

theorem Par.readBytesSection_eq (c : Code) : Par.readBytesSection c = if c.version ≥ 5 then do
    let bytes ← Par.readBlob
    let bytesPos ← Par.checked (Par.readBytesPos c.nbytes)
    pure { c with ustrings := List.replicate c.nstrings none, bytes := bytes, bytesPos := bytesPos }
  else pure { c with ustrings := List.replicate c.nstrings none } := by
  unfold Par.readBytesSection Par.readBlob
  simp only [P_bind_assoc]
  split
  · congr 1; funext size
    split <;> rfl
  · rfl

/-- The panics of `readBytesSection`. -/
def BytesStop (c : Code) (d : Code) (buf : List UInt8) (pos : Nat) (e : Option DecodeError) : Prop :=
  5 ≤ c.version ∧ (BlobStop buf pos e ∨ Then blobG (fun _ => InStop (F.many natF c.nbytes)) d buf pos e)

theorem Panics.readBytesSection (c) : Panics (Par.readBytesSection c) (BytesStop c) := by
  rw [Par.readBytesSection_eq]
  unfold BytesStop
  by_cases h : c.version ≥ 5
  · rw [if_pos h]
    refine congr (bind .readBlob readBlob_sem readBlob_clean .readBlob fun _ _ =>
      bind (.checked (.readBytesPos _)) (.checked (Sem.readBytesPos _)) (.checked _) (.checked (.plain (.readBytesPos _) (.readBytesPos _) (.readBytesPos _)))
        fun _ _ => .pure _) ?_
    intro d buf pos e
    constructor
    · rintro (h1 | ⟨k, r, a, c', rfl, h1, (h2 | ⟨_, _, _, _, _, _, h⟩)⟩)
      · exact ⟨h, .inl h1⟩
      · exact ⟨h, .inr ⟨k, r, a, c', rfl, h1, h2⟩⟩
      · exact h.elim
    · rintro ⟨_, (h1 | ⟨k, r, a, c', rfl, h1, h2⟩)⟩
      · exact .inl h1
      · exact .inr ⟨k, r, a, c', rfl, h1, .inl h2⟩
  · rw [if_neg h]
    exact congr (pure _) fun _ _ _ _ => ⟨False.elim, fun h' => absurd h'.1 h⟩

theorem Par.readDebugFiles_eq (c : Code) : Par.readDebugFiles c = if c.hasdebug ≠ 0 then Par.checked (Par.readDebugFiles' c) else pure c := by
  unfold Par.readDebugFiles Par.readDebugFiles' Par.checked
  simp only [P_bind_assoc]
  rfl

theorem debugFilesF_stop (c d : Code) (w rest) : (debugFilesF' c).stop d false w rest ↔ debugFilesF.stop d false w rest := by
  unfold debugFilesF debugFilesF'
  constructor
  · rintro (h | ⟨w1, w2, n, d', rfl, h1, (⟨_, h⟩ | ⟨_, _, _, _, rfl, ⟨_, rfl, rfl, rfl⟩, (h | ⟨_, _, _, _, _, _, h⟩)⟩)⟩)
    · exact .inl h
    · exact absurd ⟨[], rest, (), _, rfl, rfl, rfl⟩ h
    · refine .inr ⟨w1, _, n, d', rfl, h1, ?_⟩
      simp only [plain_nil, List.nil_append, EqAt.or_nil] at *
      exact (FKeeps.stringsF (f := fun _ => ()) _).stop _ _ _ _ h _ rfl
    · exfalso
      rcases h with ⟨_, h⟩ | ⟨_, _, _, _, _, ⟨_, _, _, _, rfl⟩, (⟨_, h⟩ | ⟨_, _, _, _, _, _, h⟩)⟩
      · exact h ⟨[], rest, _, _, rfl, rfl, rfl, rfl⟩
      · exact h ⟨[], rest, (), _, rfl, rfl, rfl⟩
      · exact h
  · rintro (h | ⟨w1, w2, n, d', rfl, h1, h2⟩)
    · exact .inl h
    · exact .inr ⟨w1, w2, n, d', rfl, h1, .inr ⟨[], w2, (), _, rfl, ⟨[], rfl, rfl, rfl⟩, .inl
        (by simpa only [EqAt.or_nil] using (FKeeps.stringsF (f := fun _ => ()) _).stop _ _ _ _ h2 _ rfl)⟩⟩

theorem Panics.readDebugFiles (c) : Panics (Par.readDebugFiles c) (fun d buf pos e => c.hasdebug ≠ 0 ∧ InStop debugFilesF d buf pos e) := by
  rw [Par.readDebugFiles_eq]
  by_cases h : c.hasdebug ≠ 0
  · rw [if_pos h]
    refine congr (checked (.plain (.readDebugFiles' c) (.readDebugFiles' c) (.readDebugFiles' c))) ?_
    intro d buf pos e
    simp only [InStop, debugFilesF_stop]
    exact ⟨fun h' => ⟨h, h'⟩, fun h' => h'.2⟩
  · rw [if_neg h]
    exact congr (pure _) fun _ _ _ _ => ⟨False.elim, fun h' => absurd h'.1 h⟩

/-! ## The other sections -/

/-- The types and the globals. -/
def Par.readTypesGlobals (c : Code) : P Code := Par.readTypes c >>= Par.readGlobals

theorem Sim.readTypesGlobals (c) : Sim (Par.readTypesGlobals c) (readTypesGlobals c) := .bind (.readTypes c) .readGlobals

theorem Par.readTypesGlobals_eq (c : Code) : Par.readTypesGlobals c = Par.checked (Par.readTypes c >>= fun c =>
    P.forRange Par.readGlobalsStep 0 c.nglobals { c with globals := List.replicate c.nglobals ValueType.default }) := by
  unfold Par.readTypesGlobals Par.readGlobals Par.checked
  rw [P_bind_assoc]

theorem Panics.readTypesGlobals (c) : Panics (Par.readTypesGlobals c) (InStop (do let c ← typesF c; globalsF c)) := by
  rw [Par.readTypesGlobals_eq]
  exact checked (.plain (.bind (.readTypes c) fun c => .readGlobals c) (.bind (.readTypes c) fun c => .forRange (fun _ _ => .readGlobalsStep _ _) _ _ _)
    (.bind (.readTypes c) fun c => .forRange (fun _ _ => .readGlobalsStep _ _) _ _ _))

theorem Panics.readNatives (c) : Panics (Par.readNatives c) (InStop (nativesF c)) :=
  checked (.plain (.readNatives c) (.forRange (fun _ _ => .readNativesStep _ _) _ _ _) (.forRange (fun _ _ => .readNativesStep _ _) _ _ _))

theorem Panics.readFunctions (p c) (h : c.functions = []) : Panics (Par.readFunctions p c) (InStop (functionsF p c)) :=
  checked (.plain (.readFunctions p c h) (.forRange (fun _ _ => .readFunctionsStep _ _ _) _ _ _) (.forRange (fun _ _ => .readFunctionsStep _ _ _) _ _ _))

theorem Panics.readConstantsStep (i c) (h : i ≤ c.constants.length) : Panics (Par.readConstantsStep i c) (InStop constantF) := by
  have h1 : ∀ k, Panics (do
      let constants ← P.insertAt c.constants i k
      let c := { c with constants := constants }
      P.setCode c
      Pure.pure c : P Code) (fun _ _ _ _ => False) := by
    intro k d buf pos e
    refine ⟨fun h2 => ?_, False.elim⟩
    unfold P.insertAt at h2
    rw [if_pos h] at h2
    cases h2
  exact congr (bind (.checked .readConstant) (.checked Sem.readConstant) (.checked _) (checked (.plain .readConstant .readConstant .readConstant)) fun k _ => h1 k)
    fun _ _ _ _ => ⟨fun h => h.elim id (fun ⟨_, _, _, _, _, _, h⟩ => h.elim), .inl⟩

/-- The panics of the constants. -/
def ConstStop (a n : Nat) (c : Code) (d : Code) (buf : List UInt8) (pos : Nat) (e : Option DecodeError) : Prop :=
  ∃ i, i < n ∧ Then (G.loop constantsStepG a i c) (fun _ => InStop constantF) d buf pos e

theorem constantsStep_length {i c d k c' d'} (h : constantsStepG i c d k c' d') : i + 1 ≤ c'.constants.length := by
  obtain ⟨_, _, x, _, _, _, _, _, _, _, _, ⟨_, h, _⟩, _, _, _, _, _, _, _, rfl, _⟩ := h
  show i + 1 ≤ (c.constants.insertIdx i x).length
  rw [List.length_insertIdx, if_pos h]; omega

theorem Panics.constants : ∀ n a c, a ≤ c.constants.length → Panics (P.forRange Par.readConstantsStep a n c) (ConstStop a n c)
  | 0, a, c, _ => congr (pure _) fun _ _ _ _ => ⟨False.elim, fun ⟨_, h, _⟩ => absurd h (by omega)⟩
  | n + 1, a, c, ha => by
    refine congr (bind (.readConstantsStep a c) (.readConstantsStep a c) (.readConstantsStep a c) (readConstantsStep a c ha)
      fun c' ⟨_, _, _, h⟩ => constants n (a + 1) c' (constantsStep_length h)) ?_
    intro d buf pos e
    constructor
    · rintro (h | ⟨k, r, c', d', rfl, h1, i, hi, k', r', c'', d'', rfl, h2, h3⟩)
      · exact ⟨0, by omega, [], buf, c, d, rfl, ⟨rfl, rfl, rfl⟩, h⟩
      · exact ⟨i + 1, by omega, k ++ k', r', c'', d'', by simp, ⟨k, k', c', d', rfl, h1, h2⟩, by rwa [List.length_append, ← Nat.add_assoc]⟩
    · rintro ⟨i, hi, k, r, c'', d'', rfl, h1, h2⟩
      cases i with
      | zero =>
        obtain ⟨rfl, rfl, rfl⟩ := h1
        exact .inl h2
      | succ i =>
        obtain ⟨k, k', c', d', rfl, h1, h3⟩ := h1
        exact .inr ⟨k, k' ++ r, c', d', by simp, h1, i, by omega, k', r, c'', d'', rfl, h3, by rwa [List.length_append, ← Nat.add_assoc] at h2⟩

/-! ## Files -/

/-- The start of `Code.read`, up to the counts. -/
def Par.readHeader : P Code := Par.readStart >>= fun c => Par.checked (Par.readCounts c.version)

theorem Sim.readHeader : Sim Par.readHeader readHeader := .bind .readStart fun _ => .checked (.readCounts _)

theorem Par.readM_eq (p) : Par.readM p = Par.readHeader >>= Par.readPools >>= Par.readBytesSection >>= Par.readDebugFiles >>= Par.readTypesGlobals >>=
    Par.readNatives >>= Par.readFunctions p >>= (fun c => Par.readConstants c >>= fun _ => P.getCode) := by
  unfold Par.readM Par.readHeader Par.readStart Par.readTypesGlobals
  simp only [P_bind_assoc]
  rfl

/-- The panics of a file, section by section. -/
def FileStop (p : Profile) (c : Code) (buf : List UInt8) (pos : Nat) (e : Option DecodeError) : Prop :=
  (((((((StartStop none buf pos e ∨ Then upToCountsG (fun c => InStop (countsF c.version)) c buf pos e) ∨
    Then headerG PoolsStop c buf pos e) ∨
    Then upToStringsG BytesStop c buf pos e) ∨
    Then (upToStringsG >>= bytesSectionG) (fun c d buf pos e => c.hasdebug ≠ 0 ∧ InStop debugFilesF d buf pos e) c buf pos e) ∨
    Then upToTypesG (fun c => InStop (do let c ← typesF c; globalsF c)) c buf pos e) ∨
    Then upToNativesG (fun c => InStop (nativesF c)) c buf pos e) ∨
    Then upToFunctionsG (fun c => InStop (functionsF p c)) c buf pos e) ∨
    Then (upToFunctionsG >>= functionsG p) (fun c => ConstStop 0 c.nconstants c) c buf pos e

theorem Panics.readM (p) : Panics (Par.readM p) (FileStop p) := by
  rw [Par.readM_eq]
  have m1 : Sim (Par.readHeader >>= Par.readPools) (readHeader >>= Brass.readPools) := .bind .readHeader .readPools
  have m2 := Sim.bind m1 .readBytesSection
  have m3 := Sim.bind m2 .readDebugFiles
  have m4 := Sim.bind m3 .readTypesGlobals
  have m5 := Sim.bind m4 .readNatives
  have m6 := Sim.bind m5 (.readFunctions p)
  have s1 : Sem (readHeader >>= Brass.readPools) upToStringsG := Sem.bind readHeader_sem fun c => Sem.readPools c
  have s2 : Sem (readHeader >>= Brass.readPools >>= Brass.readBytesSection) (upToStringsG >>= bytesSectionG) := Sem.bind s1 fun c => Sem.readBytesSection c
  have s3 : Sem (readHeader >>= Brass.readPools >>= Brass.readBytesSection >>= Brass.readDebugFiles) upToTypesG := by
    rw [upToTypesG_eq]; exact Sem.bind s2 fun c => Sem.readDebugFiles c
  have s4 : Sem (readHeader >>= Brass.readPools >>= Brass.readBytesSection >>= Brass.readDebugFiles >>= Brass.readTypesGlobals) upToNativesG :=
    Sem.bind s3 fun c => Sem.bind (Sem.readTypes c) fun c => Sem.readGlobals c
  have s5 : Sem (readHeader >>= Brass.readPools >>= Brass.readBytesSection >>= Brass.readDebugFiles >>= Brass.readTypesGlobals >>= Brass.readNatives)
      upToFunctionsG := Sem.bind s4 fun c => Sem.readNatives c
  have s6 : Sem (readHeader >>= Brass.readPools >>= Brass.readBytesSection >>= Brass.readDebugFiles >>= Brass.readTypesGlobals >>= Brass.readNatives >>=
      Brass.readFunctions p) (upToFunctionsG >>= functionsG p) :=
    Sem.bindQ (fun c => c.functions = []) s5 (fun _ _ _ _ h => upToFunctionsG_functions h) (fun c => Good.readFunctions p c)
      fun c h => Sem.readFunctions p c h
  have c0 := readHeader_clean
  have c1 := Clean.bind c0 fun c => .readPools c
  have c2 := Clean.bind c1 fun c => .readBytesSection c
  have c3 := Clean.bind c2 fun c => .readDebugFiles c
  have c4 := Clean.bind c3 fun c => .readTypesGlobals c
  have c5 := Clean.bind c4 (f := Brass.readNatives) fun c => .checked _
  have c6 := Clean.bind c5 (f := Brass.readFunctions p) fun c => .checked _
  have e0 : Panics Par.readHeader _ := bind .readStart readStart_sem readStart_clean (fun c buf pos e => readStart_panic c _ buf pos e)
    fun c _ => checked (.plain (.readCounts c.version) (.readCounts _) (.readCounts _))
  have e1 := bind .readHeader readHeader_sem c0 e0 fun c _ => readPools c
  have e2 := bind m1 s1 c1 e1 fun c _ => readBytesSection c
  have e3 := bind m2 s2 c2 e2 fun c _ => readDebugFiles c
  have e4 := bind m3 s3 c3 e3 fun c _ => readTypesGlobals c
  have e5 := bind m4 s4 c4 e4 fun c _ => readNatives c
  have e6 := bind m5 s5 c5 e5 fun c ⟨_, _, _, h⟩ => readFunctions p c (upToFunctionsG_functions h)
  have e7 : ∀ c, Panics (Par.readConstants c >>= fun _ => P.getCode) (ConstStop 0 c.nconstants c) := fun c =>
    congr (bind (.readConstants c) (Sem.readConstants c) (.forRange (fun _ _ => .readConstantsStep _ _) _ _ _) (constants c.nconstants 0 c (Nat.zero_le _))
      (S' := fun _ _ _ _ _ => False) fun _ _ _ _ _ _ => ⟨fun h => (by cases h), False.elim⟩)
      fun _ _ _ _ => ⟨fun h => h.elim id (fun ⟨_, _, _, _, _, _, h⟩ => h.elim), .inl⟩
  exact bind m6 s6 c6 e6 fun c _ => e7 c


theorem leftBehind_iff (p : Profile) (file : List UInt8) (e : Option DecodeError) : FileStop p Code.new file 0 e ↔ LeftBehind p file e := by
  constructor
  · rintro (((((((((⟨h, rfl⟩ | ⟨rfl, rfl⟩) |
      ⟨k, _, c, c', rfl, hg, w, rest, rfl, hf, rfl⟩) | ⟨k, _, c, c', rfl, hg,
        ⟨k1, _, ints, c1, rfl, hg1, ⟨k2, _, floats, c2, rfl, hg2, w, rest, rfl, hf, rfl⟩⟩⟩) |
      ⟨k, _, c, c', rfl, hg, hv, (⟨m, r, rfl, hm, (⟨hs, rfl⟩ | ⟨hs, h0, rfl⟩)⟩ |
        ⟨k1, _, b, c1, rfl, ⟨k2, _, size, _, rfl, hz, _, k3, _, _, rfl, ⟨rfl, h0, rfl⟩, hb⟩, w, rest, rfl, hf, rfl⟩)⟩) |
      ⟨k, _, c, c', rfl, ⟨k1, k2, c0, c0', rfl, hg1, hg2⟩, hd, w, rest, rfl, hf, rfl⟩) |
      ⟨k, _, c, c', rfl, hg, w, rest, rfl, hf, rfl⟩) |
      ⟨k, _, c, c', rfl, hg, w, rest, rfl, hf, rfl⟩) |
      ⟨k, _, c, c', rfl, hg, w, rest, rfl, hf, rfl⟩) |
      ⟨k, _, c, c', rfl, ⟨k1, k2, c0, c0', rfl, hg1, hg2⟩, i, hi, k3, _, c1, c1', rfl, hl, w, rest, rfl, hf, rfl⟩)
    · exact .magic h
    · exact .version rfl
    · have := LeftBehind.inSection _ _ k rest w c c' (.counts (p := p)) hg hf rfl
      simpa using this
    · have := LeftBehind.inSection _ _ (k ++ k1 ++ k2) rest w { c with ints := ints, floats := floats } c2 (.strings (p := p))
        ⟨k, k1 ++ k2, c, c', by simp, hg, k1, k2, ints, c1, rfl, hg1, k2, [], floats, c2, by simp, hg2, rfl, rfl, rfl⟩ hf rfl
      simpa [Nat.add_assoc] using this
    · exact .tableSize k m r c ⟨_, hg⟩ (by simp) hv hm hs
    · have := LeftBehind.table (p := p) (file := k ++ (m ++ r)) k m r c ⟨_, hg⟩ (by simp) hv hm hs
      simpa [hm] using this
    · have := LeftBehind.inSection _ _ (k ++ k2 ++ k3) rest w c c1 (.positions (p := p))
        ⟨k, k2 ++ k3, c, c', by simp, hg, [], k2 ++ k3, (), c', rfl, ⟨rfl, hv, rfl⟩, k2, k3, size, _, rfl, hz, [], k3, (), _, rfl, ⟨rfl, h0, rfl⟩,
          k3, [], b, c1, by simp, hb, rfl, rfl, rfl⟩ hf rfl
      simpa [Nat.add_assoc] using this
    · have := LeftBehind.inSection _ _ (k1 ++ k2) rest w c c' (.debugFiles (p := p))
        ⟨k1, k2, c0, c0', rfl, hg1, k2, [], c, c', by simp, hg2, [], [], (), c', rfl, ⟨rfl, hd, rfl⟩, rfl, rfl, rfl⟩ hf rfl
      simpa using this
    · have := LeftBehind.inSection _ _ k rest w c c' (.typesAndGlobals (p := p)) hg hf rfl
      simpa using this
    · have := LeftBehind.inSection _ _ k rest w c c' (.natives (p := p)) hg hf rfl
      simpa using this
    · have := LeftBehind.inSection _ _ k rest w c c' (.functions (p := p)) hg hf rfl
      simpa using this
    · have := LeftBehind.inSection _ _ (k1 ++ k2 ++ k3) rest w c1 c1' (.constant (p := p) i)
        ⟨k1, k2 ++ k3, c0, c0', by simp, hg1, k2, k3, c, c', rfl, hg2, [], k3, (), c', rfl, ⟨rfl, hi, rfl⟩, hl⟩ hf rfl
      simpa [Nat.add_assoc] using this
  · intro h
    cases h with
    | magic h => exact .inl <| .inl <| .inl <| .inl <| .inl <| .inl <| .inl <| .inl <| .inl ⟨h, rfl⟩
    | version h => exact .inl <| .inl <| .inl <| .inl <| .inl <| .inl <| .inl <| .inl <| .inr ⟨h, rfl⟩
    | tableSize k m r c hg hf hv hm hs =>
      obtain ⟨c', hg⟩ := hg
      exact .inl <| .inl <| .inl <| .inl <| .inl <| .inr ⟨k, m ++ r, c, c', by simp [hf], hg, hv, .inl ⟨m, r, rfl, hm, .inl ⟨hs, rfl⟩⟩⟩
    | table k m r c hg hf hv hm hs =>
      obtain ⟨c', hg⟩ := hg
      exact .inl <| .inl <| .inl <| .inl <| .inl <| .inr ⟨k, m ++ r, c, c', by simp [hf], hg, hv, .inl ⟨m, r, rfl, hm, .inr ⟨hs, by omega, by simp [hm]⟩⟩⟩
    | inSection g f k rest w c c' hs hg hf hfile =>
      subst hfile
      cases hs with
      | counts => exact .inl <| .inl <| .inl <| .inl <| .inl <| .inl <| .inl <| .inr ⟨k, text w ++ rest, c, c', by simp, hg, w, rest, rfl, hf, by simp⟩
      | strings =>
        obtain ⟨k, _, c, c', rfl, hg, k1, _, ints, c1, rfl, hg1, k2, _, floats, c2, rfl, hg2, rfl, rfl, rfl⟩ := hg
        exact .inl <| .inl <| .inl <| .inl <| .inl <| .inl <| .inr ⟨k, k1 ++ (k2 ++ (text w ++ rest)), c, c', by simp, hg, k1, _, ints, c1, rfl, hg1,
          k2, _, floats, _, rfl, hg2, w, rest, rfl, hf, by simp [Nat.add_assoc]⟩
      | positions =>
        obtain ⟨k, _, c, c', rfl, hg, _, _, _, _, rfl, ⟨rfl, hv, rfl⟩, k2, _, size, _, rfl, hz, _, _, _, _, rfl, ⟨rfl, h0, rfl⟩,
          k3, _, b, c1, rfl, hb, rfl, rfl, rfl⟩ := hg
        exact .inl <| .inl <| .inl <| .inl <| .inl <| .inr ⟨k, k2 ++ k3 ++ (text w ++ rest), c, _, by simp, hg, hv, .inr ⟨k2 ++ k3, _, b, _, rfl,
          ⟨k2, k3, size, _, rfl, hz, [], k3, (), _, rfl, ⟨rfl, h0, rfl⟩, hb⟩, w, rest, rfl, hf, by simp [Nat.add_assoc]⟩⟩
      | debugFiles =>
        obtain ⟨k1, _, c0, c0', rfl, hg1, k2, _, c, c', rfl, hg2, _, _, _, _, rfl, ⟨rfl, hd, rfl⟩, rfl, rfl, rfl⟩ := hg
        exact .inl <| .inl <| .inl <| .inl <| .inr ⟨k1 ++ k2, text w ++ rest, _, _, by simp, ⟨k1, k2, c0, c0', rfl, hg1, hg2⟩, hd, w, rest, rfl, hf,
          by simp⟩
      | typesAndGlobals => exact .inl <| .inl <| .inl <| .inr ⟨k, text w ++ rest, c, c', by simp, hg, w, rest, rfl, hf, by simp⟩
      | natives => exact .inl <| .inl <| .inr ⟨k, text w ++ rest, c, c', by simp, hg, w, rest, rfl, hf, by simp⟩
      | functions => exact .inl <| .inr ⟨k, text w ++ rest, c, c', by simp, hg, w, rest, rfl, hf, by simp⟩
      | constant i =>
        obtain ⟨k1, _, c0, c0', rfl, hg1, k2, _, c, c', rfl, hg2, _, k3, _, _, rfl, ⟨rfl, hi, rfl⟩, hl⟩ := hg
        exact .inr ⟨k1 ++ k2, k3 ++ (text w ++ rest), c, _, by simp, ⟨k1, k2, c0, c0', rfl, hg1, hg2⟩, i, hi, k3, _, _, _, rfl, hl, w, rest, rfl, hf,
          by simp [Nat.add_assoc]⟩

/-! ## With an error recorded before -/

theorem checkedCounts_panic (v : Nat) (c buf pos x e') : ((Par.checked (Par.readCounts v)) ⟨buf, pos, c⟩).run (some x) = (.panic, e') ↔
    ∃ w rest, buf = text w ++ rest ∧ (countsF v).stop c true w rest ∧ e' = errAfter (some x) pos w := by
  have h := PSem.readCounts v
  unfold Par.checked
  rw [P_bind_run]
  constructor
  · intro h1
    cases h2 : (Par.readCounts v ⟨buf, pos, c⟩).run (some x) with
    | mk r e =>
      rw [h2] at h1
      cases r with
      | ok a d => exfalso; cases e <;> cases h1
      | err z d => cases h1
      | panic =>
        cases h1
        obtain ⟨w, rest, b, q, r⟩ := h.stuck _ _ _ _ h2 rfl
        exact ⟨w, rest, b, r, q⟩
  · rintro ⟨w, rest, rfl, hf, rfl⟩
    obtain ⟨r, h1, h2⟩ := h.sticks _ _ _ _ hf pos (some x) rfl
    rcases (Sim.readCounts v).cases ⟨text w ++ rest, pos, c⟩ (some x) with ⟨a, d', e', h3, h4⟩ | ⟨z, d', e', h3, h4⟩ | ⟨e', h3, h4⟩
    · rw [h1] at h3; cases h3; cases h2
    · exact absurd h4 (NoErr.readCounts v _ _ _)
    · rw [h1] at h3; cases h3; rw [h1]

end Verif.Brass
