import Verif.Brass.CopyLemmas

/-!
# The last copy
-/

namespace Verif.Brass

open Verif Verif.Brass.Spec

/-- On success `decoder.code` is the last module that was copied, if any was. -/
def LastCopy {α : Type} (x : K α) : Prop := ∀ s a s' l, x s = (.ok a s', l) → s'.code = l.getLast?.getD s.code

namespace LastCopy

theorem bind {α β : Type} {x : K α} {f : α → K β} (h1 : LastCopy x) (h2 : ∀ a, LastCopy (f a)) : LastCopy (x >>= f) := by
  intro s b s' l h
  obtain ⟨a, s1, l1, l2, e1, e2, rfl⟩ := K.bind_eq_ok h
  have k1 := h1 _ _ _ _ e1
  have k2 := h2 a _ _ _ _ e2
  rw [k2, k1, List.getLast?_append]
  cases l2.getLast? <;> rfl

theorem pure {α : Type} (a : α) : LastCopy (Pure.pure a : K α) := by
  intro s a s' l h
  cases h; rfl

theorem check : LastCopy (K.lift M.checkError) := by
  intro s a s' l h
  obtain ⟨h2, rfl⟩ := K.lift_eq_ok h
  rw [(checkError_ok h2).1]
  rfl

theorem getCode : LastCopy (K.lift M.getCode) := by
  intro s a s' l h
  obtain ⟨h2, rfl⟩ := K.lift_eq_ok h
  cases h2; rfl

theorem forRange {β : Type} {f : Nat → β → K β} (h : ∀ i b, LastCopy (f i b)) : ∀ (n a : Nat) (b : β), LastCopy (K.forRange f a n b)
  | 0, _, b => pure b
  | n + 1, a, b => bind (h a b) fun b => forRange h n (a + 1) b

theorem of_both {x : K Code} {b : Code} (h : ∀ s b' s' l, x s = (.ok b' s', l) → l = [b, b'] ∧ s'.code = b') : LastCopy x := by
  intro s a s' l e
  obtain ⟨rfl, k⟩ := h _ _ _ _ e
  exact k

theorem of_last {x : K Code} (h : ∀ s b' s' l, x s = (.ok b' s', l) → l = [b'] ∧ s'.code = b') : LastCopy x := by
  intro s a s' l e
  obtain ⟨rfl, k⟩ := h _ _ _ _ e
  exact k

theorem readDebugFiles (c : Code) : LastCopy (readDebugFilesK c) := by
  intro s c' s' l h
  unfold readDebugFilesK at h
  split at h
  · obtain ⟨n, _, _, _, e1, h1, rfl⟩ := K.bind_eq_ok h
    obtain ⟨-, rfl⟩ := K.lift_eq_ok e1
    obtain ⟨_, _, _, _, e2, h2, rfl⟩ := K.bind_eq_ok h1
    cases e2
    obtain ⟨_, _, _, _, e3, h3, rfl⟩ := K.bind_eq_ok h2
    obtain ⟨-, rfl⟩ := K.lift_eq_ok e3
    obtain ⟨_, _, _, _, e4, h4, rfl⟩ := K.bind_eq_ok h3
    obtain ⟨-, rfl⟩ := K.lift_eq_ok e4
    obtain ⟨_, _, _, _, e5, h5, rfl⟩ := K.bind_eq_ok h4
    obtain ⟨-, rfl⟩ := K.lift_eq_ok e5
    obtain ⟨_, _, _, _, e6, h6, rfl⟩ := K.bind_eq_ok h5
    cases e6
    obtain ⟨_, _, _, _, e7, h7, rfl⟩ := K.bind_eq_ok h6
    obtain ⟨h8, rfl⟩ := K.lift_eq_ok e7
    cases h7
    rw [(checkError_ok h8).1]
    rfl
  · cases h; rfl

/-- Everything after the pools and the bytes. -/
theorem rest (p : Profile) (c : Code) : LastCopy (do
    let c ← readDebugFilesK c
    let c ← readTypesK c
    let c ← readGlobalsK c
    let c ← readNativesK c
    let c ← readFunctionsK p c
    let _ ← readConstantsK c
    K.lift M.getCode) :=
  bind (readDebugFiles _) fun _ => bind (forRange (fun _ b => of_both (b := b) fun _ _ _ _ h => copies_types h) _ _ _) fun _ =>
    bind (bind (forRange (fun _ b => of_both (b := b) fun _ _ _ _ h => copies_globals h) _ _ _) fun _ => bind check fun _ => pure _) fun _ =>
    bind (bind (forRange (fun _ _ => of_last fun _ _ _ _ h => copies_natives h) _ _ _) fun _ => bind check fun _ => pure _) fun _ =>
    bind (bind (forRange (fun _ b => of_both (b := b) fun _ _ _ _ h => copies_functions h) _ _ _) fun _ => bind check fun _ => pure _) fun _ =>
    bind (forRange (fun _ _ => of_last fun _ _ _ _ h => copies_constants h) _ _ _) fun _ => getCode

end LastCopy

/-- The module that is returned is the last that was copied. -/
theorem copies_last {p : Profile} {buf : List UInt8} {c : Code} {s : St} (h : Code.read p none buf = .ok c s) (he : s.errors = none) :
    c = (copied p none buf).getLast?.getD Code.new := by
  have hrun : readMK p (St.new buf none) = (.ok c s, copied p none buf) := (Copying.readM p).run h
  generalize copied p none buf = l at hrun ⊢
  unfold readMK at hrun
  obtain ⟨_, s1, _, _, e1, h1, rfl⟩ := K.bind_eq_ok hrun
  obtain ⟨m1, rfl⟩ := K.lift_eq_ok e1
  obtain ⟨v, s2, _, _, e2, h2, rfl⟩ := K.bind_eq_ok h1
  obtain ⟨m2, rfl⟩ := K.lift_eq_ok e2
  obtain ⟨c0, s3, _, _, e3, h3, rfl⟩ := K.bind_eq_ok h2
  obtain ⟨m3, rfl⟩ := K.lift_eq_ok e3
  obtain ⟨c1, s4, _, _, e4, h4, rfl⟩ := K.bind_eq_ok h3
  obtain ⟨m4, rfl⟩ := K.lift_eq_ok e4
  obtain ⟨c2, s5, _, l5, e5, h5, rfl⟩ := K.bind_eq_ok h4
  obtain ⟨m5, rfl⟩ := K.lift_eq_ok e5
  have hlast := LastCopy.rest p c2 _ _ _ _ h5
  have hc : s.code = c := by
    obtain ⟨_, _, _, _, _, h6, -⟩ := K.bind_eq_ok h5
    obtain ⟨_, _, _, _, _, h7, -⟩ := K.bind_eq_ok h6
    obtain ⟨_, _, _, _, _, h8, -⟩ := K.bind_eq_ok h7
    obtain ⟨_, _, _, _, _, h9, -⟩ := K.bind_eq_ok h8
    obtain ⟨_, _, _, _, _, h10, -⟩ := K.bind_eq_ok h9
    obtain ⟨_, _, _, _, _, h11, -⟩ := K.bind_eq_ok h10
    obtain ⟨h12, -⟩ := K.lift_eq_ok h11
    cases h12; rfl
  have n5 : s5.errors = none := Good.none_of (x := do
      let c ← readDebugFiles c2
      let c ← readTypes c
      let c ← readGlobals c
      let c ← readNatives c
      let c ← readFunctions p c
      let _ ← readConstants c
      M.getCode) (.bind (.readDebugFiles _) fun _ => .bind (.readTypes _) fun _ => .bind (.readGlobals _) fun _ => .bind (.readNatives _) fun _ =>
        .bind (.readFunctions _ _) fun _ => .bind (.readConstants _) fun _ => .getCode)
    ((Copying.bind (Copying.readDebugFiles _) fun _ => Copying.bind (Copying.readTypes _) fun _ => Copying.bind (Copying.readGlobals _) fun _ =>
      Copying.bind (Copying.readNatives _) fun _ => Copying.bind (Copying.readFunctions p _) fun _ => Copying.bind (Copying.readConstants _) fun _ =>
        Copying.lift _).ok h5) he
  obtain ⟨n4, k2, -, -, g5⟩ := (Sem.readBytesSection _).sound _ _ _ trivial m5 n5
  obtain ⟨n3, k1, -, -, g4⟩ := (Sem.readPools _).sound _ _ _ trivial m4 n4
  obtain ⟨n2, kc, -, -, g3⟩ := (Sem.checked (Sem.readCounts v)).sound _ _ _ trivial m3 n3
  obtain ⟨n1, kv, -, -, g2⟩ := Sem.readVersion.sound _ _ _ trivial m2 n2
  obtain ⟨n0, km, -, -, g1⟩ := Sem.readMagic.sound _ _ _ trivial m1 n1
  obtain ⟨z0, hd, hh, rfl, hv⟩ := header_of g1 g2 g3
  obtain ⟨z1, -⟩ := KeepsOn.poolsG (f := fun _ => ()) _ _ _ _ _ g4
  obtain ⟨z2, -⟩ := KeepsOn.bytesSectionG (f := fun _ => ()) _ _ _ _ _ g5
  have z0 : s3.code = Code.new := z0
  rw [← hc, hlast, z2, z1, z0]
  simp

end Verif.Brass
