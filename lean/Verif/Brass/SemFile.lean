import Verif.Brass.SemDebug

/-!
# `Sem` for whole files
-/

namespace Verif.Brass

open Verif Verif.Brass.Spec

/-- The phrases of `g` leave the module decoded so far as it is, and depend on it only through `f`. -/
def KeepsOn {β : Type} (f : Code → β) {α : Type} (g : G α) : Prop :=
  ∀ c k a c', g c k a c' → c' = c ∧ ∀ d, f d = f c → g d k a d

/-- What a phrase after the pools depends on. -/
abbrev Refs (c : Code) := (c.nstrings, c.strings, c.ntypes, c.types, c.ndebugfiles)

/-- The phrases of `g` do not depend on the module decoded so far. -/
abbrev Free {α : Type} (g : G α) : Prop := KeepsOn (fun _ => ()) g

namespace KeepsOn

variable {β : Type} {f : Code → β}

theorem pure {α : Type} (a : α) : KeepsOn f (Pure.pure a : G α) := by
  rintro c k b c' ⟨rfl, rfl, rfl⟩; exact ⟨rfl, fun d _ => ⟨rfl, rfl, rfl⟩⟩
theorem bind {α γ : Type} {x : G α} {h : α → G γ} (hx : KeepsOn f x) (hf : ∀ a, KeepsOn f (h a)) : KeepsOn f (x >>= h) := by
  rintro c k b c' ⟨k1, k2, a, c1, rfl, h1, h2⟩
  obtain ⟨rfl, h3⟩ := hx _ _ _ _ h1
  obtain ⟨rfl, h4⟩ := hf _ _ _ _ _ h2
  exact ⟨rfl, fun d e => ⟨k1, k2, a, d, rfl, h3 d e, h4 d e⟩⟩
theorem code {γ : Type} {h : Code → G γ} (e : ∀ c d, f c = f d → h c = h d) (hf : ∀ c, KeepsOn f (h c)) : KeepsOn f (G.code >>= h) := by
  rintro c k b c' ⟨_, k2, a, c1, rfl, ⟨rfl, rfl, rfl⟩, h2⟩
  obtain ⟨rfl, h4⟩ := hf _ _ _ _ _ h2
  exact ⟨rfl, fun d e' => ⟨[], k2, d, d, rfl, ⟨rfl, rfl, rfl⟩, e _ _ e' ▸ h4 d e'⟩⟩
theorem guard (P : Prop) : KeepsOn f (G.guard P) := by
  rintro c k b c' ⟨rfl, h, rfl⟩; exact ⟨rfl, fun d _ => ⟨rfl, h, rfl⟩⟩
theorem some {α : Type} (o : Option α) : KeepsOn f (G.some o) := by
  rintro c k b c' ⟨rfl, h, rfl⟩; exact ⟨rfl, fun d _ => ⟨rfl, h, rfl⟩⟩
theorem ite {α : Type} {b : Prop} [Decidable b] {x y : G α} (hx : KeepsOn f x) (hy : KeepsOn f y) : KeepsOn f (if b then x else y) := by
  split
  · exact hx
  · exact hy
theorem none {α : Type} : KeepsOn f (fun _ _ _ _ => False : G α) := fun _ _ _ _ h => absurd h id
theorem many {α : Type} {g : G α} (h : KeepsOn f g) : ∀ n, KeepsOn f (G.many g n)
  | 0 => pure _
  | n + 1 => bind h fun _ => bind (many h n) fun _ => pure _
theorem fst {α : Type} {P : List UInt8 → α → Prop} : KeepsOn f (fun c k a c' => c' = c ∧ P k a : G α) := by
  rintro c k b c' ⟨rfl, h⟩; exact ⟨rfl, fun d _ => ⟨rfl, h⟩⟩
theorem byteG : KeepsOn f byteG := fst
theorem bytesG (n) : KeepsOn f (bytesG n) := fst
theorem i32G : KeepsOn f i32G := fst
theorem f64G : KeepsOn f f64G := fst
theorem idxG : KeepsOn f idxG := fst
theorem natG : KeepsOn f natG := fst
theorem magicG : KeepsOn f magicG := fst (P := fun k _ => k = [0x48, 0x4C, 0x42])
theorem natIG : KeepsOn f natIG := bind natG fun _ => pure _
theorem stringRefG : KeepsOn Refs stringRefG := by
  rintro c k b c' ⟨rfl, h⟩
  refine ⟨rfl, fun d e => ⟨rfl, ?_⟩⟩
  simp only [Refs, Prod.mk.injEq] at e
  rw [e.1, e.2.1]; exact h
theorem typeRefG : KeepsOn Refs typeRefG := by
  rintro c k b c' ⟨rfl, h⟩
  refine ⟨rfl, fun d e => ⟨rfl, ?_⟩⟩
  simp only [Refs, Prod.mk.injEq] at e
  rw [e.2.2.1, e.2.2.2.1]; exact h
theorem sliceG (st cu n) : KeepsOn f (sliceG st cu n) := bind (guard _) fun _ => pure _
theorem poolG (st) : ∀ n cu, KeepsOn f (poolG st n cu)
  | 0, _ => pure _
  | n + 1, _ => bind natG fun _ => bind (sliceG _ _ _) fun _ => ite (pure _) (bind (poolG st n _) fun _ => pure _)
theorem stringsG (n) : KeepsOn f (stringsG n) :=
  stringsG_eq n ▸ bind i32G fun _ => bind (guard _) fun _ => bind (bytesG _) fun _ => poolG _ _ _
theorem extraG {g : G Int} (h : KeepsOn f g) (n) : KeepsOn f (extraG g n) := bind (many h n) fun _ => pure _
theorem callLikeG (r) : KeepsOn f (callLikeG r) :=
  bind idxG fun _ => bind idxG fun _ => bind byteG fun _ => bind (extraG idxG _) fun _ => pure _
theorem switchG (r) : KeepsOn f (switchG r) :=
  bind natIG fun _ => bind natG fun _ => bind (extraG natIG _) fun _ => bind natIG fun _ => pure _
theorem operandsG (r i) : KeepsOn f (operandsG r i) := by
  unfold Spec.operandsG
  refine ite (pure _) <| ite (bind idxG fun _ => pure _) <| ite (bind idxG fun _ => bind idxG fun _ => pure _) <|
    ite (bind idxG fun _ => bind idxG fun _ => bind idxG fun _ => pure _) <|
    ite (bind idxG fun _ => bind idxG fun _ => bind idxG fun _ => bind idxG fun _ => pure _) <|
    ite ?_ <| bind idxG fun _ => bind idxG fun _ => bind idxG fun _ => bind (guard _) fun _ => bind (extraG idxG _) fun _ => pure _
  obtain ⟨op, a, b, c, d⟩ := r
  cases op
  case OCallN => exact callLikeG _
  case OCallClosure => exact callLikeG _
  case OCallMethod => exact callLikeG _
  case OCallThis => exact callLikeG _
  case OMakeEnum => exact callLikeG _
  case OSwitch => exact switchG _
  all_goals exact none
theorem opcodeG : KeepsOn f opcodeG :=
  opcodeG_eq ▸ bind byteG fun _ => bind (guard _) fun _ => bind (some _) fun _ => bind (some _) fun _ => operandsG _ _
theorem functionG : KeepsOn Refs functionG :=
  bind typeRefG fun _ => bind natG fun _ => bind natG fun _ => bind natG fun _ => bind (many typeRefG _) fun _ =>
    bind (many opcodeG _) fun _ => pure _
theorem nativeG : KeepsOn Refs nativeG :=
  bind stringRefG fun _ => bind stringRefG fun _ => bind typeRefG fun _ => bind natG fun _ => pure _
theorem constantG : KeepsOn f constantG := bind natG fun _ => bind natG fun _ => bind (many natG _) fun _ => pure _
theorem assignsG : KeepsOn f assignsG :=
  bind natG fun _ => bind (many (bind natG fun _ => bind idxG fun _ => pure _) _) fun _ => pure _
theorem i32AddG (p a b) : KeepsOn f (i32AddG p a b) := by
  rintro c k r c' ⟨rfl, rfl, h⟩; exact ⟨rfl, fun d _ => ⟨rfl, rfl, h⟩⟩
theorem debugItemG (p nops d) : KeepsOn Refs (debugItemG p nops d) := by
  refine bind byteG fun _ => ite (bind byteG fun _ => code ?_ fun _ => bind (guard _) fun _ => pure _) <|
    ite (bind (guard _) fun _ => bind (i32AddG _ _ _) fun _ => pure _) <|
    ite (bind (i32AddG _ _ _) fun _ => pure _) <| bind byteG fun _ => bind byteG fun _ => pure _
  intro c d e
  simp only [Refs, Prod.mk.injEq] at e
  rw [e.2.2.2.2]
theorem DebugG (p nops d) : KeepsOn Refs (DebugG p nops d) := by
  intro c k a c' h
  induction h with
  | done d c h => exact ⟨rfl, fun d' _ => .done d d' h⟩
  | item d d' d'' c c' c'' k k' h1 h2 h3 ih =>
    obtain ⟨rfl, h4⟩ := debugItemG _ _ _ _ _ _ _ h2
    exact ⟨ih.1, fun x e => .item d d' d'' x x x k k' h1 (h4 x e) (ih.2 x e)⟩
theorem debugInfosG (p nops) : KeepsOn Refs (debugInfosG p nops) := bind (DebugG _ _ _) fun _ => pure _
theorem functionDebugG (p v nops) : KeepsOn Refs (functionDebugG p v nops) :=
  bind (debugInfosG _ _) fun _ => ite (bind assignsG fun _ => pure _) (pure _)
theorem functionWithDebugG (p c) : KeepsOn Refs (functionWithDebugG p c) :=
  bind functionG fun _ => ite (bind (functionDebugG _ _ _) fun _ => pure _) (pure _)
theorem versionG : KeepsOn f versionG := bind byteG fun _ => bind (guard _) fun _ => pure _
theorem natIfG (b) [Decidable b] : KeepsOn f (natIfG b) := ite natG (pure _)
theorem countsG (v) : KeepsOn f (countsG v) :=
  bind natG fun _ => bind natG fun _ => bind natG fun _ => bind natG fun _ => bind (natIfG _) fun _ => bind natG fun _ =>
  bind natG fun _ => bind natG fun _ => bind natG fun _ => bind (natIfG _) fun _ => bind natG fun _ => pure _
theorem poolsG (c) : KeepsOn f (poolsG c) :=
  bind (many i32G _) fun _ => bind (many f64G _) fun _ => bind (stringsG _) fun _ => pure _
theorem bytesSectionG (c) : KeepsOn f (bytesSectionG c) :=
  ite (bind i32G fun _ => bind (guard _) fun _ => bind (bytesG _) fun _ => bind (many natG _) fun _ => pure _) (pure _)

end KeepsOn

namespace Sem

/-- Give up the precondition by proving it on the way. -/
theorem readMagic : Sem readMagic magicG := by
  unfold Brass.readMagic
  refine congr (bind (unwrap decodeU8) fun h => guardIf (Q := h = 0x48) (by omega) (fun _ => failAt _ (fun _ _ _ _ _ h => h)) fun _ =>
    bind (unwrap decodeU8) fun l => guardIf (Q := l = 0x4C) (by omega) (fun _ => failAt _ (fun _ _ _ _ _ h => h)) fun _ =>
    bind (unwrap decodeU8) fun b => guardIf (Q := b = 0x42) (by omega) (fun _ => failAt _ (fun _ _ _ _ _ h => h)) fun _ => pure ()) ?_
  intro c k a c' _
  constructor
  · rintro ⟨_, _, _, _, rfl, ⟨rfl, h, rfl, rfl⟩, _, _, _, _, rfl, ⟨rfl, hh, rfl⟩, _, _, _, _, rfl, ⟨rfl, l, rfl, rfl⟩, _, _, _, _, rfl, ⟨rfl, hl, rfl⟩,
      _, _, _, _, rfl, ⟨rfl, b, rfl, rfl⟩, _, _, _, _, rfl, ⟨rfl, hb, rfl⟩, rfl, _, rfl⟩
    have e1 : h = 0x48 := UInt8.toNat_inj.1 hh
    have e2 : l = 0x4C := UInt8.toNat_inj.1 hl
    have e3 : b = 0x42 := UInt8.toNat_inj.1 hb
    subst e1 e2 e3
    exact ⟨rfl, rfl⟩
  · rintro ⟨rfl, rfl⟩
    exact ⟨[0x48], [0x4C, 0x42], 0x48, c', rfl, ⟨rfl, _, rfl, rfl⟩, [], [0x4C, 0x42], (), c', rfl, ⟨rfl, rfl, rfl⟩,
      [0x4C], [0x42], 0x4C, c', rfl, ⟨rfl, _, rfl, rfl⟩, [], [0x42], (), c', rfl, ⟨rfl, rfl, rfl⟩,
      [0x42], [], 0x42, c', rfl, ⟨rfl, _, rfl, rfl⟩, [], [], (), c', rfl, ⟨rfl, rfl, rfl⟩, rfl, rfl, rfl⟩

theorem readVersion : Sem readVersion versionG :=
  bind (unwrap decodeU8) fun _ => guardIf (by omega) (fun _ => failAt _ (fun _ _ _ _ _ h => h)) fun _ => pure _

theorem uindexIf {b : Prop} [Decidable b] : Sem (uindexIf (decide b)) (natIfG b) := by
  unfold Brass.uindexIf natIfG
  by_cases h : b
  · simp only [h, decide_true, if_true]; exact uindex
  · simp only [h, decide_false, if_false]; exact pure' _

theorem readCounts (v) : Sem (readCounts v) (countsG v) := by
  unfold Brass.readCounts countsG
  simp only [Nat.and_one_is_mod]
  exact bind uindex fun _ => bind uindex fun _ => bind uindex fun _ => bind uindex fun _ => bind uindexIf fun _ =>
    bind uindex fun _ => bind uindex fun _ => bind uindex fun _ => bind uindex fun _ => bind uindexIf fun _ =>
    bind uindex fun _ => pure _

/-- A loop of the grammar that appends one value per round. -/
theorem loop_many {α : Type} (g : G α) : ∀ (n a : Nat) (acc : List α) c k r c',
    G.loop (fun _ v => (do let x ← g; Pure.pure (v ++ [x]) : G (List α))) a n acc c k r c' ↔
      (do let l ← G.many g n; Pure.pure (acc ++ l) : G (List α)) c k r c'
  | 0, a, acc, c, k, r, c' => by
    constructor
    · rintro ⟨rfl, rfl, rfl⟩; exact ⟨[], [], [], c', rfl, ⟨rfl, rfl, rfl⟩, rfl, by simp, rfl⟩
    · rintro ⟨_, _, _, _, rfl, ⟨rfl, rfl, rfl⟩, rfl, rfl, rfl⟩; exact ⟨rfl, by simp, rfl⟩
  | n + 1, a, acc, c, k, r, c' => by
    rw [many_succ_map g n (fun l => acc ++ l)]
    constructor
    · rintro ⟨_, k2, _, _, rfl, ⟨k1, _, x, c1, rfl, h1, rfl, rfl, rfl⟩, h2⟩
      obtain ⟨k3, _, l, _, rfl, h3, rfl, rfl, rfl⟩ := (loop_many g n _ _ _ _ _ _).1 h2
      exact ⟨k1, k3, x, _, by simp, h1, k3, [], l, _, by simp, h3, rfl, by simp, rfl⟩
    · rintro ⟨k1, _, x, c1, rfl, h1, k3, _, l, _, rfl, h3, rfl, rfl, rfl⟩
      exact ⟨k1, k3, acc ++ [x], c1, by simp, ⟨k1, [], x, c1, by simp, h1, rfl, rfl, rfl⟩,
        (loop_many g n _ _ _ _ _ _).2 ⟨k3, [], l, _, by simp, h3, rfl, by simp, rfl⟩⟩

theorem readPool {α : Type} {rd : M α} {g : G α} (hg : Good rd) (h : Sem rd g) (n) : Sem (readPool rd n) (G.many g n) := by
  unfold Brass.readPool
  have hgood : ∀ (i : Nat) (v : List α), Good (do let x ← M.okOrRecord rd; insertIfSome v i x : M (List α)) := by
    intro i v
    refine Good.bind (Good.okOrRecord hg) (fun o => ?_)
    cases o
    · exact Good.pure _
    · exact Good.insertAt _ _ _
  refine congr (forRange (g := fun _ v => (do let x ← g; Pure.pure (v ++ [x]))) (fun i v => v.length = i)
    (fun i v hv => ?_) hgood n 0 [] rfl ?_) ?_
  · constructor
    · rintro s a s' _ e e'
      obtain ⟨o, s1, h1, h2⟩ := M.bind_eq_ok e
      have hgo : Good (insertIfSome v i o) := by
        cases o
        · exact Good.pure _
        · exact Good.insertAt _ _ _
      obtain ⟨n0, k, b, p, k1, _, x, _, rfl, h3, rfl, rfl, h4⟩ := (okOrRecord h).sound _ _ _ trivial h1 (hgo.none_of h2 e')
      have : insertIfSome v i (some x) = M.pure (v ++ [x]) := insertAt_ok _ _ _ hv.symm
      rw [this] at h2
      cases h2
      exact ⟨n0, _, b, p, k1, [], x, _, rfl, h4 ▸ h3, rfl, rfl, rfl⟩
    · rintro c k a c' _ ⟨k1, _, x, _, rfl, h3, rfl, rfl, rfl⟩ rest pos
      rw [M.bind_ok ((okOrRecord h).complete _ _ _ _ trivial ⟨k1, [], x, _, rfl, h3, rfl, rfl, rfl⟩ rest pos)]
      have : insertIfSome v i (some x) = M.pure (v ++ [x]) := insertAt_ok _ _ _ hv.symm
      rw [this]; rfl
  · rintro i v c k v' c' hv ⟨_, _, x, _, rfl, _, rfl, rfl, rfl⟩
    simp [hv]
  · intro c k a c' _
    rw [loop_many]
    constructor
    · rintro ⟨k1, _, l, _, rfl, h, rfl, rfl, rfl⟩; simpa using h
    · intro h; exact ⟨k, [], a, _, by simp, h, rfl, by simp, rfl⟩

theorem readPools (c) : Sem (readPools c) (poolsG c) := by
  unfold Brass.readPools
  refine congr (bind (checked (readPool Good.decodeI32 decodeI32 _)) fun ints =>
    bind (checked (readPool Good.decodeF64 decodeF64 _)) fun floats =>
    bind (checked (okOrRecord (readStrings _))) fun r => pure _) ?_
  intro d k a d' _
  unfold poolsG
  simp only [G_bind_assoc, G_pure_bind, Option.getD_some]

theorem readBytesPos (n) : Sem (readBytesPos n) (G.many natG n) := pushLoop0 uindex n

theorem readBytesSection (c) : Sem (readBytesSection c) (bytesSectionG c) := by
  unfold Brass.readBytesSection bytesSectionG
  exact ite (fun _ => bind decodeI32 fun _ => guardIf (by omega) (fun _ => panic (fun _ _ _ _ _ h => h)) fun _ =>
    bind (unwrap (readBytes _)) fun _ => bind (checked (readBytesPos _)) fun _ => pure _) (fun _ => pure _)

theorem checkError : Sem M.checkError (Pure.pure ()) where
  sound := by
    rintro s a s' _ h h'
    unfold M.checkError at h
    split at h <;> cases h
    exact ⟨h', [], by simp, by simp, rfl, rfl, rfl⟩
  complete := by rintro c k a c' _ ⟨rfl, _, rfl⟩ rest pos; rfl

theorem readDebugFiles (c) : Sem (readDebugFiles c) (debugFilesG c) := by
  unfold Brass.readDebugFiles debugFilesG
  refine ite (fun _ => ?_) (fun _ => pure _)
  refine congr (bind uindex fun n => bind (setCode _) fun _ => bind (okOrRecord (readStrings _)) fun r => bind getCode fun d =>
    bind (setCode _) fun _ => bind checkError fun _ => pure _) ?_
  intro d k a d' _
  simp only [G_bind_assoc, G_pure_bind]
  constructor
  · rintro ⟨k1, _, n, _, rfl, ⟨rfl, h1⟩, _, _, _, _, rfl, ⟨rfl, rfl⟩, k2, _, l, _, rfl, h2, _, _, _, _, rfl, ⟨rfl, rfl, rfl⟩,
      _, _, _, _, rfl, ⟨rfl, rfl⟩, rfl, rfl, rfl⟩
    obtain ⟨rfl, e⟩ := KeepsOn.stringsG (f := fun _ => ()) _ _ _ _ _ h2
    exact ⟨k1, k2, n, _, by simp, ⟨rfl, h1⟩, k2, [], l, _, by simp, e _ rfl, [], [], (), _, rfl, ⟨rfl, rfl⟩, rfl, rfl, rfl⟩
  · rintro ⟨k1, _, n, _, rfl, ⟨rfl, h1⟩, k2, _, l, _, rfl, h2, _, _, _, _, rfl, ⟨rfl, rfl⟩, rfl, rfl, rfl⟩
    obtain ⟨rfl, e⟩ := KeepsOn.stringsG (f := fun _ => ()) _ _ _ _ _ h2
    exact ⟨k1, k2, n, _, by simp, ⟨rfl, h1⟩, [], k2, (), _, rfl, ⟨rfl, rfl⟩, k2, [], l, _, by simp, e _ rfl, [], [], _, _, rfl,
      ⟨rfl, rfl, rfl⟩, [], [], (), _, rfl, ⟨rfl, rfl⟩, rfl, rfl, rfl⟩

theorem readTypesStep (i c) : Sem (readTypesStep i c) (typesStepG i c) := by
  refine congr (bind (setCode c) fun _ => bind readType fun t => bind getCode fun d => bind (insertAt _ _ _) fun ts =>
    bind (setCode _) fun _ => pure _) ?_
  intro d k a d' _
  unfold typesStepG
  simp only [G_bind_assoc, G_pure_bind]

theorem readTypes (c) : Sem (readTypes c) (typesG c) :=
  forRange (fun _ _ => True) (fun i c _ => readTypesStep i c) (fun i c => Good.readTypesStep i c) _ _ _ trivial (fun _ _ _ _ _ _ _ _ => trivial)

theorem readGlobalsStep (i c) : Sem (readGlobalsStep i c) (globalsStepG i c) := by
  refine congr (bind (setCode c) fun _ => bind getType fun t => bind getCode fun d => bind (insertAt _ _ _) fun ts =>
    bind (setCode _) fun _ => pure _) ?_
  intro d k a d' _
  unfold globalsStepG
  simp only [G_bind_assoc, G_pure_bind]
  constructor
  · rintro ⟨_, k2, _, _, rfl, ⟨rfl, rfl⟩, k3, k4, t, _, rfl, ⟨rfl, h⟩, _, k5, _, _, rfl, ⟨rfl, rfl, rfl⟩, h2⟩
    exact ⟨[], _, (), _, rfl, ⟨rfl, rfl⟩, k3, _, t, _, rfl, ⟨rfl, h⟩, h2⟩
  · rintro ⟨_, k2, _, _, rfl, ⟨rfl, rfl⟩, k3, k4, t, _, rfl, ⟨rfl, h⟩, h2⟩
    exact ⟨[], _, (), _, rfl, ⟨rfl, rfl⟩, k3, _, t, _, rfl, ⟨rfl, h⟩, [], _, _, _, rfl, ⟨rfl, rfl, rfl⟩, h2⟩

theorem readGlobals (c) : Sem (readGlobals c) (globalsG c) :=
  checked <| forRange (fun _ _ => True) (fun i c _ => readGlobalsStep i c) (fun i c => Good.readGlobalsStep i c) _ _ _ trivial
    (fun _ _ _ _ _ _ _ _ => trivial)

theorem readNative : Sem readNative nativeG :=
  bind readString fun _ => bind readString fun _ => bind getType fun _ => bind uindex fun _ => pure _
theorem readNativesStep (i c) : Sem (readNativesStep i c) (nativesStepG i c) :=
  bind readNative fun _ => bind (setCode _) fun _ => pure _
theorem readNatives (c) : Sem (readNatives c) (nativesG c) :=
  checked <| forRange (fun _ _ => True) (fun i c _ => readNativesStep i c) (fun i c => Good.readNativesStep i c) _ _ _ trivial
    (fun _ _ _ _ _ _ _ _ => trivial)

theorem loop_unit (g : G Unit) : ∀ (n a : Nat) c k r c',
    G.loop (fun _ _ => g) a n () c k r c' ↔ (do let _ ← G.many g n; Pure.pure () : G Unit) c k r c'
  | 0, a, c, k, r, c' => by
    constructor
    · rintro ⟨rfl, rfl, rfl⟩; exact ⟨[], [], [], c', rfl, ⟨rfl, rfl, rfl⟩, rfl, rfl, rfl⟩
    · rintro ⟨_, _, _, _, rfl, ⟨rfl, rfl, rfl⟩, rfl, rfl, rfl⟩; exact ⟨rfl, rfl, rfl⟩
  | n + 1, a, c, k, r, c' => by
    rw [many_succ_map g n (fun _ => ())]
    constructor
    · rintro ⟨k1, k2, x, c1, rfl, h1, h2⟩
      exact ⟨k1, k2, x, c1, rfl, h1, (loop_unit g n _ _ _ _ _).1 h2⟩
    · rintro ⟨k1, k2, x, c1, rfl, h1, h2⟩
      exact ⟨k1, k2, x, c1, rfl, h1, (loop_unit g n _ _ _ _ _).2 h2⟩

theorem skipAssigns : Sem skipAssigns assignsG := by
  unfold Brass.skipAssigns assignsG
  refine bind uindex fun n => congr (forRange (fun _ _ => True) (g := fun _ _ => (do let _ ← natG; let _ ← idxG; Pure.pure ()))
    (fun _ _ _ => bind uindex fun _ => bind index fun _ => pure ()) (fun _ _ => ?_) n 0 () trivial (fun _ _ _ _ _ _ _ _ => trivial)) ?_
  · exact Good.bind Good.uindex fun _ => Good.bind Good.index fun _ => Good.pure _
  · intro c k a c' _; exact loop_unit _ _ _ _ _ _ _

/-- Storing the debug words, as a grammar. -/
def storeG (i : Nat) : Option (List Int) → G Unit
  | none => Pure.pure ()
  | some w => do
    let d ← G.code
    let f ← G.some d.functions[i]?
    G.setCode { d with functions := d.functions.set i { f with debug := w } }

theorem storeDebug (i o) : Sem (storeDebug i o) (storeG i o) := by
  cases o with
  | none => exact pure' _
  | some w => exact bind getCode fun d => bind (unwrapOpt _) fun f => setCode _

theorem skipAssignsIf {b : Prop} [Decidable b] : Sem (skipAssignsIf (decide b)) (if b then assignsG else Pure.pure ()) := by
  unfold Brass.skipAssignsIf
  by_cases h : b
  · simp only [h, decide_true, if_true]; exact skipAssigns
  · simp only [h, decide_false, if_false]; exact pure' _

/-- The debug part of a function as the code does it. -/
def readFunctionDebugG (p : Profile) (i : Nat) : G Unit := do
  let d ← G.code
  if d.hasdebug ≠ 0 then do
    let f ← G.some d.functions[i]?
    let w ← debugInfosG p f.nops
    storeG i (some w)
    let d ← G.code
    if d.version ≥ 3 then assignsG else Pure.pure ()
  else Pure.pure ()

theorem readFunctionDebug (p i) : Sem (readFunctionDebug p i) (readFunctionDebugG p i) := by
  refine congr (bind getCode fun d => ite (fun _ => bind (unwrapOpt _) fun f => bind (okOrRecord (debugInfos p _)) fun r =>
    bind (storeDebug i r) fun _ => bind getCode fun d => skipAssignsIf) (fun _ => pure _)) ?_
  intro c k a c' _
  unfold readFunctionDebugG
  simp only [G_bind_assoc, G_pure_bind]

theorem readFunctionsStep (p : Profile) (i : Nat) (c : Code) (hi : c.functions.length = i) :
    Sem (readFunctionsStep p i c) (functionsStepG p i c) := by
  refine congr (bind (setCode c) fun _ => bind readFunction fun f => bind getCode fun d => bind (setCode _) fun _ =>
    bind (readFunctionDebug p i) fun _ => getCode) ?_
  have hget : ∀ f, (c.functions ++ [f])[i]? = some f := by intro f; simp [← hi]
  have hset : ∀ f w, (c.functions ++ [f]).set i { f with debug := w } = c.functions ++ [{ f with debug := w }] := by
    intro f w; simp [← hi]
  intro c0 k a c0' _
  unfold readFunctionDebugG functionsStepG functionWithDebugG functionDebugG storeG
  simp only [G_bind_assoc]
  constructor
  · rintro ⟨_, _, _, _, rfl, ⟨rfl, rfl⟩, k1, _, f, _, rfl, h1, _, _, _, _, rfl, ⟨rfl, rfl, rfl⟩, _, _, _, _, rfl, ⟨rfl, rfl⟩,
      _, k2, d, _, rfl, ⟨rfl, rfl, rfl⟩, h2⟩
    obtain ⟨rfl, _⟩ := KeepsOn.functionG _ _ _ _ h1
    refine ⟨[], _, (), _, rfl, ⟨rfl, rfl⟩, k1, k2, f, _, by simp, h1, ?_⟩
    simp only [G_bind_ite, G_bind_assoc, G_pure_bind] at h2 ⊢
    split at h2
    · next hd =>
      refine gpos hd ?_
      obtain ⟨_, _, f', _, rfl, ⟨rfl, hf, rfl⟩, k3, _, w, _, rfl, h3, _, _, _, _, rfl, ⟨rfl, rfl, rfl⟩, _, _, f', _, rfl, ⟨rfl, hf', rfl⟩,
        _, _, _, _, rfl, ⟨rfl, rfl⟩, _, k4, _, _, rfl, ⟨rfl, rfl, rfl⟩, h4⟩ := h2
      have hf := hf.symm.trans (hget f); cases hf
      obtain ⟨rfl, h5⟩ := KeepsOn.debugInfosG _ _ _ _ _ _ h3
      have hf := hf'.symm.trans (hget f); cases hf
      refine ⟨k3, k4, w, _, by simp, h5 _ rfl, ?_⟩
      rw [hset] at h4
      split at h4
      · next hv =>
        refine gpos hv ?_
        obtain ⟨k5, _, _, _, rfl, h6, rfl, rfl, rfl⟩ := h4
        obtain ⟨rfl, h7⟩ := KeepsOn.assignsG (f := fun _ => ()) _ _ _ _ h6
        exact ⟨k5, [], (), _, rfl, h7 _ rfl, [], [], (), _, rfl, ⟨rfl, rfl⟩, rfl, rfl, rfl⟩
      · next hv =>
        refine gneg hv ?_
        obtain ⟨rfl, rfl, rfl⟩ := h4
        exact ⟨[], [], (), _, rfl, ⟨rfl, rfl⟩, rfl, rfl, rfl⟩
    · next hd =>
      refine gneg hd ?_
      obtain ⟨rfl, rfl, rfl⟩ := h2
      exact ⟨[], [], (), _, rfl, ⟨rfl, rfl⟩, rfl, rfl, rfl⟩
  · rintro ⟨_, _, _, _, rfl, ⟨rfl, rfl⟩, k1, k2, f, _, rfl, h1, h2⟩
    obtain ⟨rfl, _⟩ := KeepsOn.functionG _ _ _ _ h1
    refine ⟨[], _, (), _, rfl, ⟨rfl, rfl⟩, k1, k2, f, _, by simp, h1, [], k2, _, _, rfl, ⟨rfl, rfl, rfl⟩, [], k2, (), _, rfl, ⟨rfl, rfl⟩,
      [], k2, _, _, rfl, ⟨rfl, rfl, rfl⟩, ?_⟩
    simp only [G_bind_ite, G_bind_assoc, G_pure_bind] at h2 ⊢
    split at h2
    · next hd =>
      refine gpos hd ?_
      obtain ⟨k3, k4, w, _, rfl, h3, h4⟩ := h2
      obtain ⟨rfl, h5⟩ := KeepsOn.debugInfosG _ _ _ _ _ _ h3
      refine ⟨[], _, f, _, rfl, ⟨rfl, hget f, rfl⟩, k3, k4, w, _, rfl, h5 _ rfl, [], k4, _, _, rfl, ⟨rfl, rfl, rfl⟩,
        [], k4, f, _, rfl, ⟨rfl, hget f, rfl⟩, [], k4, (), _, rfl, ⟨rfl, rfl⟩, [], k4, _, _, rfl, ⟨rfl, rfl, rfl⟩, ?_⟩
      split at h4
      · next hv =>
        refine gpos hv ?_
        obtain ⟨k5, _, _, _, rfl, h6, _, _, _, _, rfl, ⟨rfl, rfl⟩, rfl, rfl, rfl⟩ := h4
        obtain ⟨rfl, h7⟩ := KeepsOn.assignsG (f := fun _ => ()) _ _ _ _ h6
        rw [hset]
        exact ⟨k5, [], (), _, rfl, h7 _ rfl, rfl, rfl, rfl⟩
      · next hv =>
        refine gneg hv ?_
        obtain ⟨_, _, _, _, rfl, ⟨rfl, rfl⟩, rfl, rfl, rfl⟩ := h4
        rw [hset]
        exact ⟨rfl, rfl, rfl⟩
    · next hd =>
      refine gneg hd ?_
      obtain ⟨_, _, _, _, rfl, ⟨rfl, rfl⟩, rfl, rfl, rfl⟩ := h2
      exact ⟨rfl, rfl, rfl⟩

theorem functionsStep_length {p i c c0 k a c0'} (h : functionsStepG p i c c0 k a c0') :
    a.functions.length = c.functions.length + 1 ∧ a.nfunctions = c.nfunctions := by
  obtain ⟨_, _, _, _, rfl, _, _, _, f, _, rfl, _, _, _, _, _, rfl, _, rfl, rfl, rfl⟩ := h
  simp

theorem readFunctions (p c) (h0 : c.functions = []) : Sem (readFunctions p c) (functionsG p c) :=
  checked <| forRange (fun i c => c.functions.length = i) (fun i c hi => readFunctionsStep p i c hi)
    (fun i c => Good.readFunctionsStep p i c) _ _ _ (by simp [h0])
    (fun i c _ _ _ _ hi h => by rw [(functionsStep_length h).1, hi])

theorem readConstant : Sem readConstant constantG :=
  bind uindex fun _ => bind uindex fun _ => bind (pushLoop0 uindex _) fun _ => pure _

theorem readConstantsStep (i c) : Sem (readConstantsStep i c) (constantsStepG i c) := by
  refine congr (bind (checked readConstant) fun _ => bind (insertAt _ _ _) fun _ => bind (setCode _) fun _ => pure _) ?_
  intro d k a d' _
  unfold constantsStepG
  simp only [G_bind_assoc, G_pure_bind]

theorem readConstants (c) : Sem (readConstants c) (constantsG c) :=
  forRange (fun _ _ => True) (fun i c _ => readConstantsStep i c) (fun i c => Good.readConstantsStep i c) _ _ _ trivial
    (fun _ _ _ _ _ _ _ _ => trivial)

/-- Bind, using what is known about the value. -/
theorem bindQ {α β : Type} {x : M α} {f : α → M β} {g : G α} {h : α → G β} (Q : α → Prop) (hx : Sem x g)
    (hQ : ∀ c k a c', g c k a c' → Q a) (hgood : ∀ a, Good (f a)) (hf : ∀ a, Q a → Sem (f a) (h a)) :
    Sem (x >>= f) (g >>= h) := by
  refine bindP hgood hx (fun a => ?_)
  by_cases hq : Q a
  · exact (hf a hq).toP
  · exact ⟨fun _ _ _ ⟨c, k, _, hg⟩ => absurd (hQ _ _ _ _ hg) hq, fun _ _ _ _ ⟨c, k, _, hg⟩ => absurd (hQ _ _ _ _ hg) hq⟩

end Sem

/-- The phrases of `g` change at most the string cache of the module. -/
def KeepsButCache {α : Type} (g : G α) : Prop := ∀ c k a c', g c k a c' → ∃ u, c' = { c with ustrings := u }

namespace KeepsButCache

theorem of {β : Type} {f : Code → β} {α : Type} {g : G α} (h : KeepsOn f g) : KeepsButCache g := by
  intro c k a c' hg
  obtain ⟨rfl, _⟩ := h _ _ _ _ hg
  exact ⟨_, rfl⟩
theorem bind {α γ : Type} {x : G α} {h : α → G γ} (hx : KeepsButCache x) (hf : ∀ a, KeepsButCache (h a)) : KeepsButCache (x >>= h) := by
  rintro c k b c' ⟨k1, k2, a, c1, rfl, h1, h2⟩
  obtain ⟨u, rfl⟩ := hx _ _ _ _ h1
  obtain ⟨v, rfl⟩ := hf _ _ _ _ _ h2
  exact ⟨v, rfl⟩
theorem pure {α : Type} (a : α) : KeepsButCache (Pure.pure a : G α) := of (f := fun _ => ()) (.pure a)
theorem many {α : Type} {g : G α} (h : KeepsButCache g) : ∀ n, KeepsButCache (G.many g n)
  | 0 => pure _
  | n + 1 => bind h fun _ => bind (many h n) fun _ => pure _
theorem natG : KeepsButCache natG := of (f := fun _ => ()) .natG
theorem idxG : KeepsButCache idxG := of (f := fun _ => ()) .idxG
theorem byteG : KeepsButCache byteG := of (f := fun _ => ()) .byteG
theorem guard (P) : KeepsButCache (G.guard P) := of (f := fun _ => ()) (.guard P)
theorem some {α : Type} (o : Option α) : KeepsButCache (G.some o) := of (f := fun _ => ()) (.some o)
theorem typeRefG : KeepsButCache typeRefG := of .typeRefG
theorem ustringRefG : KeepsButCache ustringRefG := by
  rintro c k a c' ⟨_, j, _, _, (⟨_, rfl⟩ | ⟨_, _, rfl⟩)⟩
  · exact ⟨_, rfl⟩
  · exact ⟨_, rfl⟩
theorem superG : KeepsButCache superG := by rintro c k a c' ⟨rfl, _⟩; exact ⟨_, rfl⟩
theorem fieldG : KeepsButCache fieldG := bind ustringRefG fun _ => bind typeRefG fun _ => pure _
theorem protoG : KeepsButCache protoG := bind ustringRefG fun _ => bind natG fun _ => bind idxG fun _ => pure _
theorem bindingG : KeepsButCache bindingG := bind natG fun _ => bind natG fun _ => pure _
theorem constructG : KeepsButCache constructG :=
  bind ustringRefG fun _ => bind natG fun _ => bind (many typeRefG _) fun _ => pure _
theorem funcTypeG : KeepsButCache funcTypeG := bind byteG fun _ => bind (many typeRefG _) fun _ => bind typeRefG fun _ => pure _
theorem objTypeG : KeepsButCache objTypeG :=
  bind ustringRefG fun _ => bind superG fun _ => bind natG fun _ => bind natG fun _ => bind natG fun _ => bind natG fun _ =>
    bind (many fieldG _) fun _ => bind (many protoG _) fun _ => bind (many bindingG _) fun _ => pure _
theorem virtualTypeG : KeepsButCache virtualTypeG := bind natG fun _ => bind (many fieldG _) fun _ => pure _
theorem enumTypeG : KeepsButCache enumTypeG :=
  bind ustringRefG fun _ => bind natG fun _ => bind natG fun _ => bind (many constructG _) fun _ => pure _
theorem typeBodyG (t) : KeepsButCache (typeBodyG t) := by
  obtain ⟨u, a, tp, k⟩ := t
  cases k
  case HFUN => exact bind funcTypeG fun _ => pure _
  case HMETHOD => exact bind funcTypeG fun _ => pure _
  case HOBJ => exact bind objTypeG fun _ => pure _
  case HSTRUCT => exact bind objTypeG fun _ => pure _
  case HREF => exact bind typeRefG fun _ => pure _
  case HVIRTUAL => exact bind virtualTypeG fun _ => pure _
  case HABSTRACT => exact bind ustringRefG fun _ => pure _
  case HENUM => exact bind enumTypeG fun _ => pure _
  case HNULL => exact bind typeRefG fun _ => pure _
  case HPACKED => exact bind typeRefG fun _ => pure _
  all_goals exact pure _
theorem typeG : KeepsButCache typeG :=
  bind byteG fun _ => bind (guard _) fun _ => bind (some _) fun _ => typeBodyG _

end KeepsButCache

/-- An invariant of a loop of the grammar. -/
theorem loop_inv {β : Type} {g : Nat → β → G β} (I : Nat → β → Prop)
    (hg : ∀ i b c k b' c', I i b → g i b c k b' c' → I (i + 1) b') :
    ∀ (n a : Nat) (b : β) c k b' c', I a b → G.loop g a n b c k b' c' → I (a + n) b'
  | 0, _, b, c, k, b', c', h, ⟨_, h1, _⟩ => by subst h1; exact h
  | n + 1, a, b, c, k, b', c', h, ⟨_, _, b1, c1, _, h1, h2⟩ => by
    have := loop_inv I hg n (a + 1) b1 _ _ _ _ (hg _ _ _ _ _ _ h h1) h2
    rwa [Nat.add_assoc, Nat.add_comm 1 n] at this

theorem countsG_functions {v c k a c'} (h : countsG v c k a c') : a.functions = [] := by
  obtain ⟨_, _, _, _, rfl, _, _, _, _, _, rfl, _, _, _, _, _, rfl, _, _, _, _, _, rfl, _, _, _, _, _, rfl, _, _, _, _, _, rfl, _,
    _, _, _, _, rfl, _, _, _, _, _, rfl, _, _, _, _, _, rfl, _, _, _, _, _, rfl, _, _, _, _, _, rfl, _, rfl, rfl, rfl⟩ := h
  rfl

theorem poolsG_value {d c k a c'} (h : poolsG d c k a c') : ∃ ints floats strings lens,
    a = { d with ints := ints, floats := floats, strings := strings, stringsLens := lens } := by
  obtain ⟨_, _, _, _, rfl, _, _, _, _, _, rfl, _, _, _, _, _, rfl, _, rfl, rfl, rfl⟩ := h
  exact ⟨_, _, _, _, rfl⟩

theorem bytesSectionG_value {d c k a c'} (h : bytesSectionG d c k a c') : ∃ b bp,
    a = { d with ustrings := List.replicate d.nstrings none, bytes := b, bytesPos := bp } := by
  unfold bytesSectionG at h
  split at h
  · obtain ⟨_, _, _, _, rfl, _, _, _, _, _, rfl, _, _, _, _, _, rfl, _, _, _, _, _, rfl, _, rfl, rfl, rfl⟩ := h
    exact ⟨_, _, rfl⟩
  · obtain ⟨rfl, rfl, rfl⟩ := h
    exact ⟨_, _, rfl⟩

theorem debugFilesG_value {d c k a c'} (h : debugFilesG d c k a c') : ∃ n files,
    a = { d with ndebugfiles := n, debugfiles := files } := by
  unfold debugFilesG at h
  split at h
  · obtain ⟨_, _, _, _, rfl, _, _, _, _, _, rfl, _, _, _, _, _, rfl, _, rfl, rfl, rfl⟩ := h
    exact ⟨_, _, rfl⟩
  · obtain ⟨rfl, rfl, rfl⟩ := h
    exact ⟨_, _, rfl⟩

theorem typesStepG_value {i d c k a c'} (h : typesStepG i d c k a c') : c' = a ∧ ∃ u ts, a = { d with ustrings := u, types := ts } := by
  obtain ⟨_, _, _, _, rfl, ⟨rfl, rfl⟩, _, _, _, _, rfl, h, _, _, _, _, rfl, ⟨rfl, rfl, rfl⟩, _, _, _, _, rfl, ⟨rfl, _, rfl⟩, _, _, _, _, rfl, ⟨rfl, rfl⟩, rfl, rfl, rfl⟩ := h
  obtain ⟨u, rfl⟩ := KeepsButCache.typeG _ _ _ _ h
  exact ⟨rfl, _, _, rfl⟩

theorem typesG_value {d c k a c'} (h : typesG d c k a c') : ∃ u ts, a = { d with ustrings := u, types := ts } := by
  refine loop_inv (fun _ b => ∃ u ts, b = { d with ustrings := u, types := ts }) ?_ _ _ _ _ _ _ _ ⟨_, _, rfl⟩ h
  rintro i b c k b' c' ⟨u, ts, rfl⟩ h
  obtain ⟨_, u, ts, rfl⟩ := typesStepG_value h
  exact ⟨_, _, rfl⟩

theorem globalsG_value {d c k a c'} (h : globalsG d c k a c') : ∃ gs, a = { d with globals := gs } := by
  refine loop_inv (fun _ b => ∃ gs, b = { d with globals := gs }) ?_ _ _ _ _ _ _ _ ⟨_, rfl⟩ h
  rintro i b c k b' c' ⟨gs, rfl⟩ ⟨_, _, _, _, rfl, _, _, _, _, _, rfl, _, _, _, _, _, rfl, _, _, _, _, _, rfl, _, rfl, rfl, rfl⟩
  exact ⟨_, rfl⟩

theorem nativesG_value {d c k a c'} (h : nativesG d c k a c') : ∃ ns, a = { d with natives := ns } := by
  refine loop_inv (fun _ b => ∃ ns, b = { d with natives := ns }) ?_ _ _ _ _ _ _ _ ⟨_, rfl⟩ h
  rintro i b c k b' c' ⟨gs, rfl⟩ ⟨_, _, _, _, rfl, _, _, _, _, _, rfl, _, rfl, rfl, rfl⟩
  exact ⟨_, rfl⟩

namespace Sem

/-- The decoder accepts exactly the files of the grammar, with the module the grammar gives them. -/
theorem readM (p) : Sem (readM p) (fileG p) := by
  have g0 : Good M.getCode := Good.getCode
  have g1 := fun (c : Code) => Good.bind (Good.readConstants c) fun _ => g0
  have g2 := fun (c : Code) => Good.bind (Good.readFunctions p c) g1
  have g3 := fun (c : Code) => Good.bind (Good.readNatives c) g2
  have g4 := fun (c : Code) => Good.bind (Good.readGlobals c) g3
  have g5 := fun (c : Code) => Good.bind (Good.readTypes c) g4
  have g6 := fun (c : Code) => Good.bind (Good.readDebugFiles c) g5
  have g7 := fun (c : Code) => Good.bind (Good.readBytesSection c) g6
  have g8 := fun (c : Code) => Good.bind (Good.readPools c) g7
  refine bind readMagic fun _ => bind readVersion fun v => bindQ (fun c => c.functions = []) (checked (readCounts v))
    (fun _ _ _ _ h => countsG_functions h) g8 fun c h => ?_
  refine bindQ (fun c => c.functions = []) (readPools c)
    (fun _ _ _ _ h' => by obtain ⟨_, _, _, _, rfl⟩ := poolsG_value h'; exact h) g7 fun c h => ?_
  refine bindQ (fun c => c.functions = []) (readBytesSection c)
    (fun _ _ _ _ h' => by obtain ⟨_, _, rfl⟩ := bytesSectionG_value h'; exact h) g6 fun c h => ?_
  refine bindQ (fun c => c.functions = []) (readDebugFiles c)
    (fun _ _ _ _ h' => by obtain ⟨_, _, rfl⟩ := debugFilesG_value h'; exact h) g5 fun c h => ?_
  refine bindQ (fun c => c.functions = []) (readTypes c)
    (fun _ _ _ _ h' => by obtain ⟨_, _, rfl⟩ := typesG_value h'; exact h) g4 fun c h => ?_
  refine bindQ (fun c => c.functions = []) (readGlobals c)
    (fun _ _ _ _ h' => by obtain ⟨_, rfl⟩ := globalsG_value h'; exact h) g3 fun c h => ?_
  refine bindQ (fun c => c.functions = []) (readNatives c)
    (fun _ _ _ _ h' => by obtain ⟨_, rfl⟩ := nativesG_value h'; exact h) g2 fun c h => ?_
  exact bind (readFunctions p c h) fun c => bind (readConstants c) fun _ => getCode

end Sem

end Verif.Brass
