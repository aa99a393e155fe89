import Verif.Brass.Good

/-!
# Functions that never return `Err`, and simple postconditions
-/

namespace Verif.Brass

open Verif

/-- `x` never returns `Err`. -/
def NoErr {α : Type} (x : M α) : Prop := ∀ s e s', x s ≠ .err e s'

/-- Every value returned by `x` satisfies `Q`. -/
def Ens {α : Type} (x : M α) (Q : α → Prop) : Prop := ∀ s a s', x s = .ok a s' → Q a

namespace NoErr

theorem pure {α : Type} (a : α) : NoErr (pure a : M α) := by intro s e s' h; cases h
theorem pure' {α : Type} (a : α) : NoErr (M.pure a : M α) := by intro s e s' h; cases h
theorem panic {α : Type} : NoErr (M.panic : M α) := by intro s e s' h; cases h
theorem getCode : NoErr M.getCode := by intro s e s' h; cases h
theorem getErrors : NoErr M.getErrors := by intro s e s' h; cases h
theorem setCode (c) : NoErr (M.setCode c) := by intro s e s' h; cases h
theorem setError (c) : NoErr (M.setError c) := by intro s e s' h; cases h
theorem unwrap {α : Type} (x : M α) : NoErr (M.unwrap x) := by
  intro s e s' h; unfold M.unwrap at h; split at h <;> cases h
theorem unwrapOpt {α : Type} (o : Option α) : NoErr (M.unwrapOpt o) := by cases o; exact panic; exact pure' _
theorem insertAt {α : Type} (v : List α) (i x) : NoErr (M.insertAt v i x) := by
  unfold M.insertAt; split; exact pure' _; exact panic
theorem bind {α β : Type} {x : M α} {f : α → M β} (hx : NoErr x) (hf : ∀ a, NoErr (f a)) : NoErr (x >>= f) := by
  intro s e s' h
  rw [M.bind_def] at h
  split at h
  · exact hf _ _ _ _ h
  · next e1 => exact hx _ _ _ e1
  · cases h
theorem bind' {α β : Type} {x : M α} {f : α → M β} (hx : NoErr x) (hf : ∀ a, NoErr (f a)) : NoErr (M.bind x f) := bind hx hf
theorem ite {α : Type} {b : Prop} [Decidable b] {x y : M α} (hx : NoErr x) (hy : NoErr y) : NoErr (if b then x else y) := by
  split; exact hx; exact hy
theorem forRange {β : Type} {f : Nat → β → M β} (hf : ∀ i b, NoErr (f i b)) : ∀ n a b, NoErr (M.forRange f a n b)
  | 0, _, _ => pure' _
  | n + 1, a, b => bind (hf a b) fun b => forRange hf n (a + 1) b

theorem index : NoErr index := unwrap _
theorem uindex : NoErr uindex := bind index fun _ => ite (bind (setError _) fun _ => pure _) (pure _)
theorem badIndex (i n) : NoErr (badIndex i n) := by
  unfold Brass.badIndex
  refine ite (pure' _) (bind ?_ fun _ => pure _)
  unfold toI32
  exact ite (pure' _) panic
theorem readString : NoErr readString :=
  bind index fun _ => bind getCode fun _ => bind (badIndex _ _) fun b => by
    cases b
    · exact unwrapOpt _
    · exact bind (setError _) fun _ => pure _
theorem readUstring : NoErr readUstring :=
  bind index fun i => bind getCode fun d => bind (badIndex _ _) fun b => by
    cases b
    · show NoErr (match getUstring d i.toNat with | .panic => M.panic | .ret (r, c) => do M.setCode c; Pure.pure r)
      cases getUstring d i.toNat with
      | panic => exact panic
      | ret r => exact bind (setCode _) fun _ => pure _
    · exact bind (setError _) fun _ => pure _
theorem getType : NoErr getType :=
  bind index fun _ => bind getCode fun _ => bind (badIndex _ _) fun b => by
    cases b
    · exact unwrapOpt _
    · exact bind (setError _) fun _ => unwrapOpt _
theorem readTypeRefs (n) : NoErr (readTypeRefs n) := forRange (fun _ _ => bind getType fun _ => insertAt _ _ _) _ _ _
theorem readOpcodes (n) : NoErr (readOpcodes n) := forRange (fun _ _ => bind (unwrap _) fun _ => insertAt _ _ _) _ _ _
theorem readFunction : NoErr readFunction :=
  bind getType fun _ => bind uindex fun _ => bind uindex fun _ => bind uindex fun _ => bind (readTypeRefs _) fun _ =>
    bind getErrors fun _ => ite (pure _) (bind (readOpcodes _) fun _ => pure _)
theorem uindexI : NoErr uindexI := bind uindex fun _ => pure _
theorem readExtra {rd : M Int} (h : NoErr rd) (n) : NoErr (readExtra rd n) := forRange (fun _ _ => bind h fun _ => insertAt _ _ _) _ _ _
theorem readCallLike (r) : NoErr (readCallLike r) :=
  bind index fun _ => bind index fun _ => bind (unwrap _) fun _ => bind (readExtra index _) fun _ => pure _
theorem readSwitch (r) : NoErr (readSwitch r) :=
  bind uindexI fun _ => bind uindex fun _ => bind (readExtra uindexI _) fun _ => bind uindexI fun _ => pure _

end NoErr

/-- A function that never returns `Err` is not changed by `unwrap`. -/
theorem NoErr.unwrap_eq {α : Type} {x : M α} (h : NoErr x) : M.unwrap x = x := by
  funext s
  unfold M.unwrap
  cases hx : x s with
  | ok a s => rfl
  | err e s' => exact absurd hx (h _ _ _)
  | panic => rfl

theorem unwrap_index : M.unwrap index = index := NoErr.index.unwrap_eq
theorem unwrap_uindex : M.unwrap uindex = uindex := NoErr.uindex.unwrap_eq
theorem unwrap_readString : M.unwrap readString = readString := NoErr.readString.unwrap_eq
theorem unwrap_readUstring : M.unwrap readUstring = readUstring := NoErr.readUstring.unwrap_eq
theorem unwrap_getType : M.unwrap getType = getType := NoErr.getType.unwrap_eq
theorem unwrap_readFunction : M.unwrap readFunction = readFunction := NoErr.readFunction.unwrap_eq

namespace Ens

theorem mono {α : Type} {x : M α} {Q R : α → Prop} (h : Ens x Q) (hr : ∀ a, Q a → R a) : Ens x R := fun s a s' e => hr a (h s a s' e)
theorem pure {α : Type} {a : α} {Q : α → Prop} (h : Q a) : Ens (pure a : M α) Q := by intro s b s' e; cases e; exact h
theorem pure' {α : Type} {a : α} {Q : α → Prop} (h : Q a) : Ens (M.pure a : M α) Q := pure h
theorem panic {α : Type} {Q : α → Prop} : Ens (M.panic : M α) Q := by intro s b s' e; cases e
theorem failAt {α : Type} {Q : α → Prop} (k) : Ens (M.failAt k : M α) Q := by intro s b s' e; cases e
theorem bind {α β : Type} {x : M α} {f : α → M β} {Q : α → Prop} {R : β → Prop} (hx : Ens x Q) (hf : ∀ a, Q a → Ens (f a) R) : Ens (x >>= f) R := by
  intro s b s'' h
  obtain ⟨a, s', h1, h2⟩ := M.bind_eq_ok h
  exact hf a (hx _ _ _ h1) _ _ _ h2
theorem bind_ {α β : Type} {x : M α} {f : α → M β} {R : β → Prop} (hf : ∀ a, Ens (f a) R) : Ens (x >>= f) R :=
  bind (Q := fun _ => True) (fun _ _ _ _ => trivial) fun a _ => hf a
theorem ite {α : Type} {b : Prop} [Decidable b] {x y : M α} {Q : α → Prop} (hx : Ens x Q) (hy : Ens y Q) : Ens (if b then x else y) Q := by
  split; exact hx; exact hy
theorem unwrap {α : Type} {x : M α} {Q : α → Prop} (hx : Ens x Q) : Ens (M.unwrap x) Q := by
  intro s a s' h; unfold M.unwrap at h; split at h <;> cases h
  next e => exact hx _ _ _ e
theorem unwrapOpt {α : Type} (o : Option α) : Ens (M.unwrapOpt o) (fun a => o = some a) := by
  cases o; exact panic; exact pure' rfl
theorem whileReading {β : Type} {c : β → Bool} {f : β → M β} {Q : β → Prop} (hf : ∀ b, Q b → Ens (f b) Q) (b : β) (s : St) (a : β) (s' : St)
    (h0 : Q b) (h : M.whileReading c f b s = .ok a s') : Q a ∧ c a = false := by
  unfold M.whileReading at h
  split at h
  · split at h
    · next b1 s1 e =>
      split at h
      · next hlt => exact whileReading hf b1 s1 a s' (hf b h0 _ _ _ e) h
      · cases h
    · cases h
    · cases h
  · next hc => cases h; exact ⟨h0, by simpa using hc⟩
termination_by s.buf.length

end Ens

/-! ## The loop of `debug_infos` reads at least one byte per round -/

theorem decodeU8_consumes (s s' : St) (a : Nat) (h : M.unwrap decodeU8 s = .ok a s') : s'.buf.length < s.buf.length := by
  unfold M.unwrap at h
  split at h <;> cases h
  next e =>
    obtain ⟨k, s1, h1, h2⟩ := M.bind_eq_ok (x := readBytes 1) e
    cases h2
    unfold readBytes at h1
    split at h1
    · cases h1
    · cases h1
      simp only [List.length_drop]
      omega

theorem debugBody_consumes (p : Profile) (n : Nat) (d d' : DebugState) (s s' : St) (h : debugBody p n d s = .ok d' s') :
    s'.buf.length < s.buf.length := by
  unfold debugBody at h
  obtain ⟨c, s1, h1, h2⟩ := M.bind_eq_ok h
  have h3 := decodeU8_consumes _ _ _ h1
  have key : ∀ (x : M DebugState), Good x → x s1 = .ok d' s' → s'.buf.length ≤ s1.buf.length := by
    intro x hx e
    obtain ⟨k, hk, _⟩ := hx.reads s1 s' (by simp [e, Out.state?])
    rw [hk]; simp
  have : s'.buf.length ≤ s1.buf.length := by
    refine key _ ?_ h2
    goodw [Good.decodeU8, Good.toI32, Good.setErrorIf, Good.i32Add, Good.debugStore]
  omega

end Verif.Brass
