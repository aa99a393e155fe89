import Verif.Brass.Report
import Verif.Brass.NoErr

/-!
# `FSem` for globals, debug information and functions
-/

namespace Verif.Brass

open Verif Verif.Brass.Spec

/-! ## Phrases that leave the module alone -/

/-- `g` leaves the module alone, and all it sees of it is what `f` shows. -/
structure FKeeps {β : Type} (f : Code → β) {α : Type} (g : F α) : Prop where
  parse : ∀ c b w a c', g.parse c b w a c' → c' = c ∧ ∀ d, f d = f c → g.parse d b w a d
  stop : ∀ c b w rest, g.stop c b w rest → ∀ d, f d = f c → g.stop d b w rest

namespace FKeeps
variable {β : Type} {f : Code → β}

theorem pure {α : Type} (a : α) : FKeeps f (Pure.pure a : F α) where
  parse := by rintro c b w r c' ⟨rfl, rfl, rfl⟩; exact ⟨rfl, fun d _ => ⟨rfl, rfl, rfl⟩⟩
  stop := fun _ _ _ _ h => h.elim
theorem bind {α γ : Type} {x : F α} {h : α → F γ} (hx : FKeeps f x) (hf : ∀ a, FKeeps f (h a)) : FKeeps f (x >>= h) where
  parse := by
    rintro c b w r c'' ⟨w1, w2, a, c', rfl, h1, h2⟩
    obtain ⟨rfl, e1⟩ := hx.parse _ _ _ _ _ h1
    obtain ⟨rfl, e2⟩ := (hf a).parse _ _ _ _ _ h2
    exact ⟨rfl, fun d hd => ⟨w1, w2, a, d, rfl, e1 d hd, e2 d hd⟩⟩
  stop := by
    rintro c b w rest (h1 | ⟨w1, w2, a, c', rfl, h1, h2⟩) d hd
    · exact .inl (hx.stop _ _ _ _ h1 d hd)
    · obtain ⟨rfl, e1⟩ := hx.parse _ _ _ _ _ h1
      exact .inr ⟨w1, w2, a, d, rfl, e1 d hd, (hf a).stop _ _ _ _ h2 d hd⟩
theorem ok {α : Type} {g : G α} (h : KeepsOn f g) : FKeeps f (F.ok g) where
  parse := by
    rintro c b w a c' ⟨k, rfl, h1⟩
    obtain ⟨rfl, e⟩ := h _ _ _ _ h1
    exact ⟨rfl, fun d hd => ⟨k, rfl, e d hd⟩⟩
  stop := by
    rintro c b w rest ⟨rfl, h1⟩ d hd
    refine ⟨rfl, ?_⟩
    rintro ⟨k, r, a, c', hk, h2⟩
    exact h1 ⟨k, r, a, c, hk, (h _ _ _ _ h2).2 c hd.symm⟩
theorem code {γ : Type} {h : Code → F γ} (e : ∀ c d, f c = f d → h c = h d) (hf : ∀ c, FKeeps f (h c)) :
    FKeeps f (F.ok G.code >>= h) where
  parse := by
    rintro c b w r c'' ⟨_, w2, _, _, rfl, ⟨k, rfl, rfl, rfl, rfl⟩, h2⟩
    obtain ⟨rfl, e2⟩ := (hf _).parse _ _ _ _ _ h2
    refine ⟨rfl, fun d hd => ⟨[], w2, d, d, rfl, ⟨[], rfl, rfl, rfl, rfl⟩, ?_⟩⟩
    rw [e d _ hd]
    exact e2 d hd
  stop := by
    rintro c b w rest (⟨_, h1⟩ | ⟨_, w2, _, _, rfl, ⟨k, rfl, rfl, rfl, rfl⟩, h2⟩) d hd
    · exact absurd ⟨[], rest, c, c, rfl, rfl, rfl, rfl⟩ h1
    · refine .inr ⟨[], w2, d, d, rfl, ⟨[], rfl, rfl, rfl, rfl⟩, ?_⟩
      rw [e d _ hd]
      exact (hf _).stop _ _ _ _ h2 d hd
theorem mark (k) : FKeeps f (F.mark k) where
  parse := by rintro c b w a c' ⟨rfl, rfl⟩; exact ⟨rfl, fun d _ => ⟨rfl, rfl⟩⟩
  stop := fun _ _ _ _ h => h.elim
theorem ite {α : Type} {b : Prop} [Decidable b] {x y : F α} (hx : FKeeps f x) (hy : FKeeps f y) : FKeeps f (if b then x else y) := by
  split
  · exact hx
  · exact hy
theorem markIf (P : Prop) [Decidable P] (k) : FKeeps f (F.markIf P k) := ite (mark k) (pure _)
theorem before : FKeeps f F.before where
  parse := by rintro c b w a c' ⟨rfl, rfl, rfl⟩; exact ⟨rfl, fun d _ => ⟨rfl, rfl, rfl⟩⟩
  stop := fun _ _ _ _ h => h.elim
theorem many {α : Type} {g : F α} (h : FKeeps f g) : ∀ n, FKeeps f (F.many g n)
  | 0 => pure _
  | n + 1 => bind h fun _ => bind (many h n) fun _ => pure _
theorem natF : FKeeps f natF := bind (ok .idxG) fun _ => ite (bind (mark _) fun _ => pure _) (pure _)
theorem natIF : FKeeps f natIF := bind natF fun _ => pure _
theorem typeRefF : FKeeps Refs typeRefF := by
  refine bind (ok .idxG) fun i => code ?_ fun c => ite (bind (mark _) fun _ => ok (.some _))
    (bind (ok (.guard _)) fun _ => ite (bind (mark _) fun _ => ok (.some _)) (ok (.some _)))
  intro c d h
  simp only [Refs, Prod.mk.injEq] at h
  simp only [h]
theorem opcodeF : FKeeps f opcodeF :=
  bind (ok .byteG) fun _ => ite (bind (mark _) fun _ => pure _) (bind (ok (.some _)) fun _ => ite
    (bind natIF fun _ => bind natF fun _ => bind (many natIF _) fun _ => bind natIF fun _ => pure _)
    (ok (.operandsG _ _)))
theorem functionF : FKeeps Refs functionF :=
  bind typeRefF fun _ => bind natF fun _ => bind natF fun _ => bind natF fun _ => bind (many typeRefF _) fun _ => bind before fun b => by
    exact ite (bind (pure _) fun _ => pure _) (bind (many opcodeF _) fun _ => pure _)
theorem debugItemF (p nops d) : FKeeps Refs (debugItemF p nops d) := by
  refine bind (ok .byteG) fun _ => ite (bind (ok .byteG) fun _ => code ?_ fun c => bind (ok (.guard _)) fun _ => bind (markIf _ _) fun _ => pure _)
    (ite (bind (markIf _ _) fun _ => bind (ok (.i32AddG _ _ _)) fun _ => pure _) (ite (bind (ok (.i32AddG _ _ _)) fun _ => pure _)
      (bind (ok .byteG) fun _ => bind (ok .byteG) fun _ => pure _)))
  intro c d h
  simp only [Refs, Prod.mk.injEq] at h
  rw [h.2.2.2.2]
theorem DebugF (p nops d) : FKeeps Refs { parse := DebugF p nops d, stop := DebugStop p nops d } where
  parse := by
    intro c b w a c' h
    induction h with
    | done d c b h => exact ⟨rfl, fun e _ => .done d e b h⟩
    | item d d' d'' c c' c'' b w w' h1 h2 h3 ih =>
      obtain ⟨rfl, e1⟩ := (debugItemF p nops d).parse _ _ _ _ _ h2
      obtain ⟨rfl, e2⟩ := ih
      exact ⟨rfl, fun e he => .item d d' d'' e e e b w w' h1 (e1 e he) (e2 e he)⟩
  stop := by
    intro c b w rest h
    induction h with
    | here d c b w rest h1 h2 => exact fun e he => .here d e b w rest h1 ((debugItemF p nops d).stop _ _ _ _ h2 e he)
    | item d d' c c' b w w' rest h1 h2 h3 ih =>
      obtain ⟨rfl, e1⟩ := (debugItemF p nops d).parse _ _ _ _ _ h2
      exact fun e he => .item d d' e e b w w' rest h1 (e1 e he) (ih e he)
theorem debugInfosF (p nops) : FKeeps Refs (debugInfosF p nops) := bind (DebugF p nops _) fun _ => pure _
theorem assignsF : FKeeps f assignsF := bind natF fun _ => bind (many (bind natF fun _ => bind (ok .idxG) fun _ => pure _) _) fun _ => pure _

end FKeeps

/-! ## Phrases that agree when the module is `c` -/

/-- `g` and `h` agree when the module is `c`. -/
structure EqAt (c : Code) {α : Type} (g h : F α) : Prop where
  parse : ∀ b w a c', g.parse c b w a c' ↔ h.parse c b w a c'
  stop : ∀ b w rest, g.stop c b w rest ↔ h.stop c b w rest

namespace EqAt

theorem refl {α : Type} (c : Code) (g : F α) : EqAt c g g := ⟨fun _ _ _ _ => .rfl, fun _ _ _ => .rfl⟩
theorem of_eq {α : Type} {c : Code} {g h : F α} (e : g = h) : EqAt c g h := e ▸ refl c g
theorem trans {α : Type} {c : Code} {g h k : F α} (h1 : EqAt c g h) (h2 : EqAt c h k) : EqAt c g k :=
  ⟨fun _ _ _ _ => (h1.parse _ _ _ _).trans (h2.parse _ _ _ _), fun _ _ _ => (h1.stop _ _ _).trans (h2.stop _ _ _)⟩

theorem or_plain (b : Bool) : (b || faulty (plain [])) = b := by simp [plain, faulty]
theorem or_nil (b : Bool) : (b || faulty []) = b := by simp [faulty]

/-- After `setCode`. -/
theorem setParse {α : Type} (c d : Code) (g : F α) (b w a c') :
    (do F.ok (G.setCode c); g : F α).parse d b w a c' ↔ g.parse c b w a c' := by
  constructor
  · rintro ⟨_, w2, _, _, rfl, ⟨_, rfl, rfl, rfl⟩, h⟩; rw [or_plain] at h; exact h
  · intro h; exact ⟨[], w, (), c, rfl, ⟨[], rfl, rfl, rfl⟩, by rw [or_nil]; exact h⟩
theorem setStop {α : Type} (c d : Code) (g : F α) (b w rest) :
    (do F.ok (G.setCode c); g : F α).stop d b w rest ↔ g.stop c b w rest := by
  constructor
  · rintro (⟨_, h⟩ | ⟨_, w2, _, _, rfl, ⟨_, rfl, rfl, rfl⟩, h⟩)
    · exact absurd ⟨[], rest, (), c, rfl, rfl, rfl⟩ h
    · rw [or_plain] at h; exact h
  · intro h; exact .inr ⟨[], w, (), c, rfl, ⟨[], rfl, rfl, rfl⟩, by rw [or_nil]; exact h⟩
theorem set {α : Type} {c : Code} {g h : F α} (e : EqAt c g h) :
    (do F.ok (G.setCode c); g : F α) = (do F.ok (G.setCode c); h) := by
  apply F.ext
  · funext d b w a c'; apply propext; rw [setParse, setParse]; exact e.parse _ _ _ _
  · funext d b w rest; apply propext; rw [setStop, setStop]; exact e.stop _ _ _
theorem bind {α γ β : Type} {f : Code → β} {c : Code} {x : F α} {g h : α → F γ} (k : FKeeps f x) (e : ∀ a, EqAt c (g a) (h a)) :
    EqAt c (x >>= g) (x >>= h) where
  parse := fun b w r c' => by
    constructor
    · rintro ⟨w1, w2, a, _, rfl, h1, h2⟩
      obtain ⟨rfl, _⟩ := k.parse _ _ _ _ _ h1
      exact ⟨w1, w2, a, _, rfl, h1, ((e a).parse _ _ _ _).1 h2⟩
    · rintro ⟨w1, w2, a, _, rfl, h1, h2⟩
      obtain ⟨rfl, _⟩ := k.parse _ _ _ _ _ h1
      exact ⟨w1, w2, a, _, rfl, h1, ((e a).parse _ _ _ _).2 h2⟩
  stop := fun b w rest => by
    constructor
    · rintro (h1 | ⟨w1, w2, a, _, rfl, h1, h2⟩)
      · exact .inl h1
      · obtain ⟨rfl, _⟩ := k.parse _ _ _ _ _ h1
        exact .inr ⟨w1, w2, a, _, rfl, h1, ((e a).stop _ _ _).1 h2⟩
    · rintro (h1 | ⟨w1, w2, a, _, rfl, h1, h2⟩)
      · exact .inl h1
      · obtain ⟨rfl, _⟩ := k.parse _ _ _ _ _ h1
        exact .inr ⟨w1, w2, a, _, rfl, h1, ((e a).stop _ _ _).2 h2⟩
theorem code {γ : Type} (c : Code) (h : Code → F γ) : EqAt c (F.ok G.code >>= h) (h c) where
  parse := fun b w r c' => by
    constructor
    · rintro ⟨_, w2, _, _, rfl, ⟨_, rfl, rfl, rfl, rfl⟩, h2⟩; rw [or_plain] at h2; exact h2
    · intro h1; exact ⟨[], w, c, c, rfl, ⟨[], rfl, rfl, rfl, rfl⟩, by rw [or_nil]; exact h1⟩
  stop := fun b w rest => by
    constructor
    · rintro (⟨_, h⟩ | ⟨_, w2, _, _, rfl, ⟨_, rfl, rfl, rfl, rfl⟩, h2⟩)
      · exact absurd ⟨[], rest, c, c, rfl, rfl, rfl, rfl⟩ h
      · rw [or_plain] at h2; exact h2
    · intro h1; exact .inr ⟨[], w, c, c, rfl, ⟨[], rfl, rfl, rfl, rfl⟩, by rw [or_nil]; exact h1⟩
theorem codePure (c : Code) : EqAt c (F.ok G.code) (Pure.pure c) := by
  have := code c (fun d => Pure.pure d)
  rwa [F_bind_pure] at this
theorem codeSet (c : Code) : EqAt c (F.ok G.code) (do F.ok (G.setCode c); Pure.pure c) where
  parse := fun b w a c' => ((codePure c).parse b w a c').trans (setParse _ _ _ _ _ _ _).symm
  stop := fun b w rest => ((codePure c).stop b w rest).trans (setStop _ _ _ _ _ _).symm
/-- The module set before a phrase that does not see the difference, if another one is set afterwards. -/
theorem drop {α γ β : Type} {f : Code → β} {c c1 : Code} {x : F α} {c2 : α → Code} {g : α → F γ} (k : FKeeps f x) (hc : f c1 = f c) :
    EqAt c (do F.ok (G.setCode c1); let a ← x; F.ok (G.setCode (c2 a)); g a) (do let a ← x; F.ok (G.setCode (c2 a)); g a) where
  parse := fun b w r c' => by
    rw [setParse]
    constructor
    · rintro ⟨w1, w2, a, _, rfl, h1, h2⟩
      obtain ⟨rfl, e⟩ := k.parse _ _ _ _ _ h1
      exact ⟨w1, w2, a, c, rfl, e c hc.symm, (setParse _ _ _ _ _ _ _).2 ((setParse _ _ _ _ _ _ _).1 h2)⟩
    · rintro ⟨w1, w2, a, _, rfl, h1, h2⟩
      obtain ⟨rfl, e⟩ := k.parse _ _ _ _ _ h1
      exact ⟨w1, w2, a, c1, rfl, e c1 hc, (setParse _ _ _ _ _ _ _).2 ((setParse _ _ _ _ _ _ _).1 h2)⟩
  stop := fun b w rest => by
    rw [setStop]
    constructor
    · rintro (h1 | ⟨w1, w2, a, _, rfl, h1, h2⟩)
      · exact .inl (k.stop _ _ _ _ h1 c hc.symm)
      · obtain ⟨rfl, e⟩ := k.parse _ _ _ _ _ h1
        exact .inr ⟨w1, w2, a, c, rfl, e c hc.symm, (setStop _ _ _ _ _ _).2 ((setStop _ _ _ _ _ _).1 h2)⟩
    · rintro (h1 | ⟨w1, w2, a, _, rfl, h1, h2⟩)
      · exact .inl (k.stop _ _ _ _ h1 c1 hc)
      · obtain ⟨rfl, e⟩ := k.parse _ _ _ _ _ h1
        exact .inr ⟨w1, w2, a, c1, rfl, e c1 hc, (setStop _ _ _ _ _ _).2 ((setStop _ _ _ _ _ _).1 h2)⟩

end EqAt

namespace PSem

theorem F_code_set {α γ : Type} (c : Code) {g : F α} {h : α → Code → F γ} (k : FKeeps Refs g) :
    (do F.ok (G.setCode c); let t ← g; let d ← F.ok G.code; h t d) = (do F.ok (G.setCode c); let t ← g; h t c) :=
  EqAt.set (EqAt.bind k fun _ => EqAt.code _ _)

theorem readGlobalsStep (i c) : PSem (Par.readGlobalsStep i c) (globalsStepF i c) := by
  have := (bind (setCode c) fun _ => bind getType fun t => bind getCode fun d => bind (insertAt d.globals i t) fun gs =>
    bind (setCode { d with globals := gs }) fun _ => pure { d with globals := gs })
  simp only [F_bind_assoc, F_pure_bind] at this
  rw [F_code_set c FKeeps.typeRefF] at this
  exact this

theorem readGlobals (c : Code) : PSem (P.forRange Par.readGlobalsStep 0 c.nglobals { c with globals := List.replicate c.nglobals ValueType.default })
    (globalsF c) :=
  forRange (fun _ _ => True) (fun i c _ => readGlobalsStep i c) (fun _ _ _ _ _ _ _ _ _ => trivial) _ _ _ trivial

theorem setErrorIf {b : Prop} [Decidable b] {b' : Prop} [Decidable b'] {e} (he : e ≠ .invalidType) (h : b ↔ b') :
    PSem (Par.setErrorIf (decide b) e) (F.markIf b' e) := by
  unfold Par.setErrorIf F.markIf
  by_cases hb : b
  · rw [if_pos (h.1 hb)]; simp only [hb, decide_true, if_true]; exact setError he
  · rw [if_neg (fun h1 => hb (h.2 h1))]; simp only [hb, decide_false]; exact pure' _

theorem toI32 {α : Type} (n : Nat) {f : Int → P α} {g : F α} (h : PSem (f n) g) :
    PSem (Par.toI32 n >>= f) (do F.ok (G.guard (n < 2 ^ 31)); g) := by
  have e : (Par.toI32 n >>= f) = if ¬ n < 2 ^ 31 then P.panic else f n := by
    unfold Par.toI32
    by_cases hn : n < 2 ^ 31
    · rw [if_pos hn, if_neg (by simpa using hn)]; rfl
    · rw [if_neg hn, if_pos hn]; rfl
  rw [e]
  exact guardIf (by simp) fun _ => h

/-- Bind after one byte. -/
theorem bindByte {β : Type} {f : Nat → P β} {h : Nat → F β} (hf : ∀ b : UInt8, PSem (f b.toNat) (h b.toNat)) :
    PSem (P.unwrap Par.decodeU8 >>= f) (F.ok byteG >>= h) :=
  bindQ decodeU8 fun _ ⟨_, _, _, _, _, _, _, x, _, e⟩ => e ▸ hf x

open Sem (conc bits1 bits2 bits4 bits15 bits5 DbgOk)

theorem debugStore_conc (nops : Nat) (w : Dbg) (h : w.words.length % 2 = 0) (h' : w.words.length / 2 < nops) :
    Par.debugStore (conc nops w) = P.pure (conc nops w.emit) := by
  have h1 := Sim.debugStore (conc nops w)
  rw [Sem.debugStore_conc nops w h h'] at h1
  have hq : Untouched (Par.debugStore (conc nops w)) := .ite (.pure' _) .panic
  funext d
  obtain ⟨r, hr⟩ := hq d
  have h2 := h1 d none
  rw [hr] at h2 ⊢
  obtain ⟨buf, pos, c⟩ := d
  cases r with
  | ok a d' =>
    obtain ⟨buf', pos', c'⟩ := d'
    have h2 : Out.ok a (⟨buf', pos', c', none⟩ : St) = .ok (conc nops w.emit) ⟨buf, pos, c, none⟩ := h2
    cases h2; rfl
  | err y d' => cases h2
  | panic => cases h2

theorem debugBody (p : Profile) (nops : Nat) (w : Dbg) (h : w.words.length % 2 = 0) (h' : w.words.length / 2 < nops) :
    PSem (Par.debugBody p nops (conc nops w)) (do let w' ← debugItemF p nops w; Pure.pure (conc nops w')) := by
  unfold Par.debugBody debugItemF
  rw [F_bind_assoc]
  refine bindByte fun c => ?_
  simp only [F_bind_ite, F_bind_assoc, F_pure_bind]
  refine iteIff (bits1 c) (fun hc => ?_) (fun hc => iteIff (bits2 c) (fun hc2 => ?_) (fun hc2 => iteIff (bits4 c) (fun hc3 => ?_) (fun hc3 => ?_)))
  · refine bindByte fun b => bind getCode fun k => ?_
    have e : ((c.toNat >>> 1) <<< 8 ||| b.toNat) = c.toNat / 2 * 256 + b.toNat := by
      rw [← Nat.shiftLeft_add_eq_or_of_lt (b := b.toNat) (i := 8) (by simpa using b.toNat_lt), Nat.shiftLeft_eq,
        Nat.shiftRight_eq_div_pow]
    simp only [e]
    exact toI32 _ (bind (setErrorIf (by decide) (by omega)) fun _ => pure _)
  · rw [bits15]
    simp only [Nat.shiftRight_eq_div_pow]
    exact bind (setErrorIf (by decide) (by show w.words.length / 2 + _ > nops ↔ _; omega)) fun _ => bind (i32Add p w.line _) fun l => pure _
  · simp only [Nat.shiftRight_eq_div_pow]
    refine bind (i32Add p w.line _) fun l => ?_
    show PSem (Par.debugStore (conc nops { w with line := l })) _
    rw [debugStore_conc nops { w with line := l } h h']
    exact pure' _
  · refine bindByte fun b2 => bindByte fun b3 => ?_
    rw [bits5, Nat.shiftRight_eq_div_pow]
    show PSem (Par.debugStore (conc nops { w with line := ((c.toNat / 8 ||| b2.toNat % 8 * 32 ||| b3.toNat : Nat) : Int) })) _
    rw [debugStore_conc nops { w with line := ((c.toNat / 8 ||| b2.toNat % 8 * 32 ||| b3.toNat : Nat) : Int) } h h']
    exact pure' _

theorem item_facts {p nops} {w w' : Dbg} {c b k c'} (h : (debugItemF p nops w).parse c b k w' c') (hw : DbgOk nops w)
    (hi : w.words.length / 2 < nops) : DbgOk nops w' ∧ text k ≠ [] := by
  unfold debugItemF at h
  obtain ⟨_, k2, _, _, rfl, ⟨_, rfl, rfl, x, rfl, rfl⟩, h⟩ := h
  refine ⟨?_, by rw [text_append, text_plain]; simp⟩
  have hem : ∀ l, DbgOk nops (Dbg.emit { w with line := l }) := by
    intro l
    simp only [DbgOk, Dbg.emit, List.length_append, List.length_cons, List.length_nil] at hw ⊢
    omega
  dsimp only at h
  split at h
  · obtain ⟨_, _, _, _, rfl, _, _, _, _, _, rfl, _, _, _, _, _, rfl, _, _, _, _, _, rfl, _, rfl, rfl, rfl⟩ := h
    exact hw
  · split at h
    · obtain ⟨_, _, _, _, rfl, _, _, _, _, _, rfl, _, rfl, rfl, rfl⟩ := h
      exact hw
    · split at h
      · obtain ⟨_, _, _, _, rfl, _, rfl, rfl, rfl⟩ := h
        exact hem _
      · obtain ⟨_, _, _, _, rfl, _, _, _, _, _, rfl, _, rfl, rfl, rfl⟩ := h
        exact hem _

theorem debug_facts {p nops} {w w' : Dbg} {c b k c'} (h : DebugF p nops w c b k w' c') (hw : DbgOk nops w) :
    w'.words.length = 2 * nops := by
  induction h with
  | done d c b h => unfold DbgOk at hw; omega
  | item d d' d'' c c' c'' b k k' h1 h2 h3 ih => exact ih (item_facts h2 hw h1).1

theorem while_run {β : Type} (cond : β → Bool) (body : β → P β) (n : Nat) (b : β) (d : Dec) (e : Option DecodeError) :
    (P.whileFuel cond body (n + 1) b d).run e = if cond b then (match (body b d).run e with
      | (.ok b' d', e') => if d'.buf.length < d.buf.length then (P.whileFuel cond body n b' d').run e' else (.panic, e')
      | (.err y d', e') => (.err y d', e')
      | (.panic, e') => (.panic, e')) else (.ok b d, e) := by
  rw [P.whileFuel]
  split
  · rw [Tree.run_andThen]
    cases h : (body b d).run e with
    | mk r e' =>
      cases r with
      | ok b' d' =>
        show (if d'.buf.length < d.buf.length then _ else _ : Tree β).run e' = _
        simp only
        split <;> rfl
      | err y d' => rfl
      | panic => rfl
  · rfl

/-- The loop over the debug items. -/
abbrev debugWhile (p : Profile) (nops n : Nat) : DebugState → P DebugState :=
  P.whileFuel (fun d => decide (d.i < nops)) (Par.debugBody p nops) n

theorem item_pure {p nops} {w w' : Dbg} {c b k c'} (h : (debugItemF p nops w).parse c b k w' c') :
    (do let w' ← debugItemF p nops w; Pure.pure (conc nops w') : F DebugState).parse c b k (conc nops w') c' :=
  ⟨k, [], w', c', by simp, h, rfl, rfl, rfl⟩

theorem while_sound (p nops) : ∀ (n : Nat) (d : Dec) (e : Option DecodeError) (w : Dbg) (_ : DbgOk nops w) (x : DebugState) (d' : Dec) (e' : Option DecodeError)
    (_ : (debugWhile p nops n (conc nops w) d).run e = (.ok x d', e')),
    ∃ k w', d.buf = text k ++ d'.buf ∧ d'.pos = d.pos + (text k).length ∧ e' = errAfter e d.pos k ∧
      DebugF p nops w d.code e.isSome k w' d'.code ∧ x = conc nops w' := by
  intro n
  induction n with
  | zero => intro d e w hw x d' e' h; cases h
  | succ n ih =>
    intro d e w hw x d' e' h
    rw [while_run] at h
    split at h
    · next hc =>
      have hc : w.words.length / 2 < nops := of_decide_eq_true hc
      split at h
      · next d1 s1 e1 h1 =>
        split at h
        · obtain ⟨_, b1, p1, rfl, k1, _, w1, _, rfl, h2, rfl, rfl, h3⟩ := (debugBody p nops w hw.1 hc).sound _ _ _ _ _ h1
          simp only [List.append_nil] at b1 p1 h
          obtain ⟨k3, w3, b3, p3, rfl, h4, h5⟩ := ih s1 _ w1 (item_facts h2 hw hc).1 x d' e' h
          refine ⟨k1 ++ k3, w3, by simp [text_append, b1, b3], by simp [text_append, p1, p3]; omega, ?_, ?_, h5⟩
          · rw [errAfter_append, p1]
          · rw [h3, errAfter_isSome] at h4
            exact .item w w1 w3 _ _ _ _ _ _ hc h2 h4
        · cases h
      · cases h
      · cases h
    · next hc =>
      have hc : nops ≤ w.words.length / 2 := Nat.le_of_not_lt (fun h1 => hc (decide_eq_true h1))
      cases h
      exact ⟨[], w, rfl, rfl, rfl, .done w _ _ hc, rfl⟩

theorem while_complete {p nops} {w w' : Dbg} {c b k c'} (h : DebugF p nops w c b k w' c') (hw : DbgOk nops w) :
    ∀ n rest pos e, e.isSome = b → (text k ++ rest).length < n →
      (debugWhile p nops n (conc nops w) ⟨text k ++ rest, pos, c⟩).run e
      = (.ok (conc nops w') ⟨rest, pos + (text k).length, c'⟩, errAfter e pos k) := by
  induction h with
  | done d c b h =>
    intro n rest pos e _ hn
    obtain ⟨m, rfl⟩ : ∃ m, n = m + 1 := ⟨n - 1, by omega⟩
    rw [while_run, if_neg (show ¬ decide ((conc nops d).i < nops) = true from fun h1 => Nat.not_lt.2 h (of_decide_eq_true h1))]
    rfl
  | item d d' d'' c c' c'' b k k' h1 h2 h3 ih =>
    intro n rest pos e he hn
    obtain ⟨m, rfl⟩ : ∃ m, n = m + 1 := ⟨n - 1, by omega⟩
    have hf := item_facts h2 hw h1
    have hk : 0 < (text k).length := List.length_pos_iff.2 hf.2
    rw [while_run, if_pos (show decide ((conc nops d).i < nops) = true from decide_eq_true h1)]
    have := (debugBody p nops d hw.1 h1).complete c b k (conc nops d') c' (item_pure h2) (text k' ++ rest) pos e he
    simp only [text_append, List.append_assoc] at this hn ⊢
    rw [this]
    simp only [List.length_append] at hn ⊢
    rw [if_pos (by omega), ih hf.1 _ _ _ _ (by rw [errAfter_isSome, he]) (by simp only [List.length_append]; omega)]
    simp [Nat.add_assoc, errAfter_append]

theorem while_stuck (p nops) : ∀ (n : Nat) (d : Dec) (e : Option DecodeError) (w : Dbg) (_ : DbgOk nops w) (r : Res DebugState) (e' : Option DecodeError)
    (_ : d.buf.length < n) (_ : (debugWhile p nops n (conc nops w) d).run e = (r, e')), r.isOk = false →
    ∃ k rest, d.buf = text k ++ rest ∧ e' = errAfter e d.pos k ∧ DebugStop p nops w d.code e.isSome k rest := by
  intro n
  induction n with
  | zero => intro d e w hw r e' hn h; omega
  | succ n ih =>
    intro d e w hw r e' hn h hr
    rw [while_run] at h
    split at h
    · next hc =>
      have hc : w.words.length / 2 < nops := of_decide_eq_true hc
      have hb := debugBody p nops w hw.1 hc
      have key : ∀ r1 e1, (Par.debugBody p nops (conc nops w) d).run e = (r1, e1) → r1.isOk = false →
          ∃ k rest, d.buf = text k ++ rest ∧ e1 = errAfter e d.pos k ∧ DebugStop p nops w d.code e.isSome k rest := by
        intro r1 e1 h1 h2
        obtain ⟨k, rest, b1, q1, (h3 | ⟨_, _, _, _, _, _, h3⟩)⟩ := hb.stuck _ _ _ _ h1 h2
        · exact ⟨k, rest, b1, q1, .here w _ _ _ _ hc h3⟩
        · exact h3.elim
      split at h
      · next d1 s1 e1 h1 =>
        obtain ⟨_, b1, p1, rfl, k1, _, w1, _, rfl, h2, rfl, rfl, h3⟩ := hb.sound _ _ _ _ _ h1
        have hf := item_facts h2 hw hc
        have hk : 0 < (text k1).length := List.length_pos_iff.2 hf.2
        simp only [List.append_nil] at b1 p1 h
        have hl : s1.buf.length < d.buf.length := by rw [b1, List.length_append]; omega
        rw [if_pos hl] at h
        obtain ⟨k3, rest, b3, rfl, h4⟩ := ih s1 _ w1 hf.1 r e' (by omega) h hr
        refine ⟨k1 ++ k3, rest, by simp [text_append, b1, b3], ?_, ?_⟩
        · rw [errAfter_append, p1]
        · rw [h3, errAfter_isSome] at h4
          exact .item w w1 _ _ _ _ _ _ hc h2 h4
      · next h1 => cases h; exact key _ _ h1 rfl
      · next h1 => cases h; exact key _ _ h1 rfl
    · cases h; cases hr

theorem while_sticks {p nops} {w : Dbg} {c b k rest} (h : DebugStop p nops w c b k rest) (hw : DbgOk nops w) :
    ∀ n pos e, e.isSome = b → (text k ++ rest).length < n →
      ∃ r, (debugWhile p nops n (conc nops w) ⟨text k ++ rest, pos, c⟩).run e = (r, errAfter e pos k) ∧ r.isOk = false := by
  induction h with
  | here d c b k rest h1 h2 =>
    intro n pos e he hn
    obtain ⟨m, rfl⟩ : ∃ m, n = m + 1 := ⟨n - 1, by omega⟩
    rw [while_run, if_pos (show decide ((conc nops d).i < nops) = true from decide_eq_true h1)]
    obtain ⟨r, h3, h4⟩ := (debugBody p nops d hw.1 h1).sticks c b k rest (.inl h2) pos e he
    rw [h3]
    cases r with
    | ok a d => cases h4
    | err y d => exact ⟨_, rfl, rfl⟩
    | panic => exact ⟨_, rfl, rfl⟩
  | item d d' c c' b k k' rest h1 h2 h3 ih =>
    intro n pos e he hn
    obtain ⟨m, rfl⟩ : ∃ m, n = m + 1 := ⟨n - 1, by omega⟩
    have hf := item_facts h2 hw h1
    have hk : 0 < (text k).length := List.length_pos_iff.2 hf.2
    rw [while_run, if_pos (show decide ((conc nops d).i < nops) = true from decide_eq_true h1)]
    have := (debugBody p nops d hw.1 h1).complete c b k (conc nops d') c' (item_pure h2) (text k' ++ rest) pos e he
    simp only [text_append, List.append_assoc] at this hn ⊢
    rw [this]
    simp only [List.length_append] at hn ⊢
    rw [if_pos (by omega), errAfter_append]
    exact ih hf.1 _ _ _ (by rw [errAfter_isSome, he]) (by simp only [List.length_append]; omega)

theorem debugLoop (p nops w) (hw : DbgOk nops w) : PSem (P.whileReading (fun d => decide (d.i < nops)) (Par.debugBody p nops) (conc nops w))
    (do let w' ← ({ parse := DebugF p nops w, stop := DebugStop p nops w } : F Dbg); Pure.pure (conc nops w')) where
  sound := by
    rintro d e a d' e' h
    obtain ⟨k, w', b, q, r, h1, rfl⟩ := while_sound p nops _ d e w hw a d' e' h
    exact ⟨k, b, q, r, k, [], w', _, by simp, h1, rfl, rfl, rfl⟩
  complete := by
    rintro c b k a c' ⟨_, _, w', _, rfl, h, rfl, rfl, rfl⟩ rest pos e he
    rw [List.append_nil]
    exact while_complete h hw _ rest pos e he (Nat.lt_succ_self _)
  stuck := by
    rintro d e r e' h hr
    obtain ⟨k, rest, b, q, h1⟩ := while_stuck p nops _ d e w hw r e' (Nat.lt_succ_self _) h hr
    exact ⟨k, rest, b, q, .inl h1⟩
  sticks := by
    rintro c b k rest (h | ⟨_, _, _, _, _, _, h⟩) pos e he
    · exact while_sticks h hw _ pos e he (Nat.lt_succ_self _)
    · exact h.elim

theorem debugInfos (p nops) : PSem (Par.debugInfos p nops) (debugInfosF p nops) := by
  have hw : DbgOk nops { file := -1, line := 0, words := [] } := ⟨rfl, Nat.zero_le _⟩
  have e0 : conc nops { file := -1, line := 0, words := [] } =
      { curfile := -1, curline := 0, debug := List.replicate (nops * 2) 0, i := 0 } := by
    simp [conc, Nat.mul_comm]
  have h1 := debugLoop p nops _ hw
  rw [e0] at h1
  have h2 := bind h1 fun d => pure d.debug
  have e1 : (do
      let d ← (do
        let w' ← ({ parse := DebugF p nops { file := -1, line := 0, words := [] },
                    stop := DebugStop p nops { file := -1, line := 0, words := [] } } : F Dbg)
        Pure.pure (conc nops w'))
      Pure.pure d.debug : F (List Int)) = debugInfosF p nops := by
    unfold debugInfosF
    simp only [F_bind_assoc, F_pure_bind]
    apply F.ext
    · funext c b k a c'
      apply propext
      constructor
      · rintro ⟨k, _, w', _, rfl, h, rfl, rfl, rfl⟩
        exact ⟨k, [], w', _, rfl, h, rfl, by simp [conc, debug_facts h hw], rfl⟩
      · rintro ⟨k, _, w', _, rfl, h, rfl, rfl, rfl⟩
        exact ⟨k, [], w', _, rfl, h, rfl, by simp [conc, debug_facts h hw], rfl⟩
    · funext c b k rest
      apply propext
      constructor
      · rintro (h | ⟨_, _, _, _, _, _, h⟩)
        · exact .inl h
        · exact h.elim
      · rintro (h | ⟨_, _, _, _, _, _, h⟩)
        · exact .inl h
        · exact h.elim
  rw [e1] at h2
  exact h2

theorem loop_unit (g : F Unit) : ∀ (n a : Nat), F.loop (fun _ _ => g) a n () = (do let _ ← F.many g n; Pure.pure () : F Unit)
  | 0, a => by
    show _ = (do let _ ← (Pure.pure [] : F (List Unit)); Pure.pure () : F Unit)
    rw [F_pure_bind]; rfl
  | n + 1, a => by
    rw [many_succ]
    simp only [F_bind_assoc, F_pure_bind]
    show (g >>= fun _ => F.loop (fun _ _ => g) (a + 1) n ()) = _
    rw [loop_unit g n (a + 1)]

theorem skipAssigns : PSem Par.skipAssigns assignsF := by
  unfold Par.skipAssigns assignsF
  refine bind uindex fun n => ?_
  rw [← loop_unit _ n 0]
  exact forRange (fun _ _ => True) (fun _ _ _ => bind uindex fun _ => bind index fun _ => pure ()) (fun _ _ _ _ _ _ _ _ _ => trivial) n 0 () trivial

theorem skipAssignsIf {b : Prop} [Decidable b] : PSem (Par.skipAssignsIf (decide b)) (if b then assignsF else Pure.pure ()) := by
  unfold Par.skipAssignsIf
  by_cases h : b
  · simp only [h, decide_true, if_true]; exact skipAssigns
  · simp only [h, decide_false, if_false]; exact pure' _

end PSem

namespace NoErr

theorem decodeU8u : NoErr (M.unwrap Brass.decodeU8) := unwrap _
theorem setErrorIf (b k) : NoErr (setErrorIf b k) := ite (setError _) (pure' _)
theorem toI32 (n) : NoErr (toI32 n) := ite (pure' _) panic
theorem i32Add (p a b) : NoErr (i32Add p a b) := by
  unfold Brass.i32Add
  split
  · exact pure' _
  · cases p
    · exact panic
    · exact pure' _
theorem debugStore (d) : NoErr (debugStore d) := ite (pure' _) panic
theorem debugBody (p n d) : NoErr (debugBody p n d) :=
  bind decodeU8u fun _ => ite (bind decodeU8u fun _ => bind getCode fun _ => bind (toI32 _) fun _ => bind (setErrorIf _ _) fun _ => pure _)
    (ite (bind (setErrorIf _ _) fun _ => bind (i32Add _ _ _) fun _ => pure _)
      (ite (bind (i32Add _ _ _) fun _ => debugStore _) (bind decodeU8u fun _ => bind decodeU8u fun _ => debugStore _)))

theorem whileReading {β : Type} {c : β → Bool} {f : β → M β} (hf : ∀ b, NoErr (f b)) (b : β) (s : St) (e : DecodeError) (s' : St)
    (h : M.whileReading c f b s = .err e s') : False := by
  unfold M.whileReading at h
  split at h
  · split at h
    · split at h
      · exact whileReading hf _ _ _ _ h
      · cases h
    · next h1 => exact hf _ _ _ _ h1
    · cases h
  · cases h
termination_by s.buf.length

/-- `debug_infos` does not return `Err`. -/
theorem debugInfos (p n) : NoErr (debugInfos p n) :=
  bind (fun s e s' h => whileReading (debugBody p n) _ s e s' h) fun _ => pure _

theorem sliceFrom (s i) : NoErr (sliceFrom s i) := ite (pure' _) panic
theorem sliceTo (s i) : NoErr (sliceTo s i) := ite (pure' _) panic
theorem readStringsLoop (st) : ∀ n cursor strs lens, NoErr (readStringsLoop st n cursor strs lens)
  | 0, _, _, _ => pure' _
  | n + 1, _, _, _ => bind uindex fun _ => bind (sliceFrom _ _) fun _ => bind (sliceTo _ _) fun _ => ite (pure _) (readStringsLoop st n _ _ _)
theorem peekAdvance (n) : NoErr (peekAdvance n) := by
  intro s e s' h
  unfold Brass.peekAdvance at h
  rw [M.bind_def] at h
  unfold M.peek at h
  by_cases hn : n ≤ s.buf.length
  · rw [if_pos hn] at h
    have h : (Brass.advance n >>= fun _ => Pure.pure (List.take n s.buf)) s = .err e s' := h
    rw [M.bind_def] at h
    unfold Brass.advance at h
    rw [if_neg (by omega)] at h
    cases h
  · rw [if_neg hn] at h; cases h
/-- `read_strings` does not return `Err`. -/
theorem readStrings (n) : NoErr (readStrings n) :=
  bind (unwrap _) fun _ => ite panic (bind (peekAdvance _) fun _ => readStringsLoop _ _ _ _ _)

end NoErr

namespace PSem

theorem okOrRecord {α : Type} {x : P α} {y : M α} {g : F α} (hx : PSem x g) (s : Sim x y) (h : NoErr y) :
    PSem (P.okOrRecord x) (do let a ← g; Pure.pure (some a)) := by
  have e : ∀ d e, ((P.okOrRecord x) d).run e = ((x >>= fun a => Pure.pure (some a)) d).run e := by
    intro d e
    rw [P_bind_run]
    show ((x d).andThen _).run e = _
    rw [Tree.run_andThen]
    rcases s.cases d e with ⟨a, d', e', h1, _⟩ | ⟨z, d', e', _, h2⟩ | ⟨e', h1, _⟩
    · rw [h1]; rfl
    · exact absurd h2 (h _ _ _)
    · rw [h1]; rfl
  have hy := bind hx fun a => pure (some a)
  constructor
  · intro d e' a d' e'' h0; rw [e] at h0; exact hy.sound _ _ _ _ _ h0
  · intro c b w a c' h0 rest pos e' he; rw [e]; exact hy.complete _ _ _ _ _ h0 rest pos e' he
  · intro d e' r e'' h0; rw [e] at h0; exact hy.stuck _ _ _ _ h0
  · intro c b w rest h0 pos e' he; rw [e]; exact hy.sticks _ _ _ _ h0 pos e' he

/-- Storing the debug words, as a grammar. -/
def storeF (i : Nat) : Option (List Int) → F Unit
  | none => Pure.pure ()
  | some w => do
    let d ← F.ok G.code
    let f ← F.ok (G.some d.functions[i]?)
    F.ok (G.setCode { d with functions := d.functions.set i { f with debug := w } })

theorem storeDebug (i o) : PSem (Par.storeDebug i o) (storeF i o) := by
  cases o with
  | none => exact pure' _
  | some w => exact bind getCode fun d => bind (unwrapOpt _) fun f => setCode _

/-- The debug part of a function as the code does it. -/
def readFunctionDebugF (p : Profile) (i : Nat) : F Unit := do
  let d ← F.ok G.code
  if d.hasdebug ≠ 0 then do
    let f ← F.ok (G.some d.functions[i]?)
    let w ← debugInfosF p f.nops
    storeF i (some w)
    let d ← F.ok G.code
    if d.version ≥ 3 then assignsF else Pure.pure ()
  else Pure.pure ()

theorem readFunctionDebug (p i) : PSem (Par.readFunctionDebug p i) (readFunctionDebugF p i) := by
  have := (bind getCode fun d => ite (b := d.hasdebug ≠ 0) (fun _ => bind (unwrapOpt d.functions[i]?) fun f => bind (okOrRecord (debugInfos p f.nops) (.debugInfos p _) (NoErr.debugInfos p _)) fun r =>
    bind (storeDebug i r) fun _ => bind getCode fun d => skipAssignsIf (b := d.version ≥ 3)) (fun _ => pure ()))
  simp only [F_bind_assoc, F_pure_bind] at this
  exact this

theorem readFunctionsStep (p : Profile) (i : Nat) (c : Code) (hi : c.functions.length = i) :
    PSem (Par.readFunctionsStep p i c) (functionsStepF p i c) := by
  have hget : ∀ f, (c.functions ++ [f])[i]? = some f := by intro f; simp [← hi]
  have hset : ∀ f w, (c.functions ++ [f]).set i { f with debug := w } = c.functions ++ [{ f with debug := w }] := by
    intro f w; simp [← hi]
  have h0 := (bind (setCode c) fun _ => bind readFunction fun f => bind getCode fun d => bind (setCode { d with functions := d.functions ++ [f] }) fun _ =>
    bind (readFunctionDebug p i) fun _ => getCode)
  rw [F_code_set c FKeeps.functionF] at h0
  have e : (do
      F.ok (G.setCode c)
      let f ← functionF
      F.ok (G.setCode { c with functions := c.functions ++ [f] })
      readFunctionDebugF p i
      F.ok G.code) = functionsStepF p i c := by
    unfold functionsStepF readFunctionDebugF storeF
    simp only [F_bind_assoc, F_bind_ite, F_pure_bind]
    refine EqAt.set (EqAt.bind FKeeps.functionF fun f => ?_)
    refine EqAt.trans (EqAt.of_eq (EqAt.set (EqAt.code _ _))) ?_
    by_cases hd : c.hasdebug ≠ 0
    · simp only [if_pos hd]
      rw [F_some (hget f), F_pure_bind]
      refine EqAt.trans (EqAt.of_eq (EqAt.set (EqAt.bind (FKeeps.debugInfosF p f.nops) fun w => EqAt.code _ _))) ?_
      simp only [F_some (hget f), F_pure_bind, hset]
      refine EqAt.trans (EqAt.drop (FKeeps.debugInfosF p f.nops) rfl) ?_
      refine EqAt.bind (FKeeps.debugInfosF p f.nops) fun w => ?_
      refine EqAt.trans (EqAt.of_eq (EqAt.set (EqAt.code _ _))) ?_
      by_cases hv : c.version ≥ 3
      · simp only [if_pos hv]
        refine EqAt.trans (EqAt.of_eq (EqAt.set (EqAt.bind (FKeeps.assignsF (f := fun _ => ())) fun _ => EqAt.codeSet _)))
          (EqAt.drop (FKeeps.assignsF (f := fun _ => ())) rfl)
      · simp only [if_neg hv]
        exact EqAt.of_eq (EqAt.set (EqAt.codePure _))
    · simp only [if_neg hd]
      exact EqAt.of_eq (EqAt.set (EqAt.codePure _))
  rw [e] at h0
  exact h0

theorem functionsStep_length {p i c c0 b w a c0'} (h : (functionsStepF p i c).parse c0 b w a c0') :
    a.functions.length = c.functions.length + 1 := by
  obtain ⟨_, _, _, _, rfl, _, _, _, f, _, rfl, _, h⟩ := h
  dsimp only at h
  split at h
  · obtain ⟨_, _, _, _, rfl, _, h⟩ := h
    dsimp only at h
    split at h
    · obtain ⟨_, _, _, _, rfl, _, _, _, _, _, rfl, _, rfl, rfl, rfl⟩ := h
      simp
    · obtain ⟨_, _, _, _, rfl, _, rfl, rfl, rfl⟩ := h
      simp
  · obtain ⟨_, _, _, _, rfl, _, rfl, rfl, rfl⟩ := h
    simp

theorem readFunctions (p) (c : Code) (h0 : c.functions = []) : PSem (P.forRange (Par.readFunctionsStep p) 0 c.nfunctions c) (functionsF p c) :=
  forRange (fun i c => c.functions.length = i) (fun i c hi => readFunctionsStep p i c hi)
    (fun i c _ _ _ _ _ hi h => by rw [functionsStep_length h, hi]) _ _ _ (by rw [h0]; rfl)

end PSem

end Verif.Brass
