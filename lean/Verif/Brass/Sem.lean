import Verif.Brass.Good
import Verif.Spec.Grammar
import Verif.Brass.SpecEq

/-!
# The decoder and the grammar

`Sem x g`: the runs of `x` that end without a recorded error are exactly the parses of `g`.
-/

namespace Verif.Brass

open Verif Verif.Brass.Spec

/-- When the module decoded so far satisfies `P`, `x` returns without recording an error exactly on the phrases of `g`,
whatever follows. -/
structure SemP (P : Code → Prop) {α : Type} (x : M α) (g : G α) : Prop where
  sound : ∀ s a s', P s.code → x s = .ok a s' → s'.errors = none →
    s.errors = none ∧ ∃ k, s.buf = k ++ s'.buf ∧ s'.pos = s.pos + k.length ∧ g s.code k a s'.code
  complete : ∀ c k a c', P c → g c k a c' → ∀ rest pos,
    x ⟨k ++ rest, pos, c, none⟩ = .ok a ⟨rest, pos + k.length, c', none⟩

/-- `SemP` without precondition. -/
abbrev Sem {α : Type} (x : M α) (g : G α) : Prop := SemP (fun _ => True) x g

theorem Good.none_of {α : Type} {x : M α} (hx : Good x) {s s' : St} {a : α} (h : x s = .ok a s') (h' : s'.errors = none) :
    s.errors = none := by
  cases he : s.errors with
  | none => rfl
  | some e =>
    have := hx.sticky s s' (by simp [h, Out.state?]) (by simp [he])
    simp [h'] at this

theorem insertIdx_append_length {α : Type} (l t : List α) (a : α) : (l ++ t).insertIdx l.length a = l ++ [a] ++ t := by
  induction l with
  | nil => simp
  | cons x l ih => simpa using ih

namespace Sem

theorem toP {α : Type} {x : M α} {g : G α} (h : Sem x g) {P : Code → Prop} : SemP P x g where
  sound s a s' _ := h.sound s a s' trivial
  complete c k a c' _ := h.complete c k a c' trivial

theorem congr {P : Code → Prop} {α : Type} {x : M α} {g h : G α} (hx : SemP P x g)
    (e : ∀ c k a c', P c → (g c k a c' ↔ h c k a c')) : SemP P x h where
  sound s a s' hp h1 h2 := by
    obtain ⟨h3, k, h4, h5, h6⟩ := hx.sound s a s' hp h1 h2
    exact ⟨h3, k, h4, h5, (e _ _ _ _ hp).1 h6⟩
  complete c k a c' hp h1 := hx.complete c k a c' hp ((e _ _ _ _ hp).2 h1)

theorem pure {P : Code → Prop} {α : Type} (a : α) : SemP P (pure a) (Pure.pure a) where
  sound := by rintro s b s' _ h h'; cases h; exact ⟨h', [], by simp, by simp, rfl, rfl, rfl⟩
  complete := by rintro c k b c' _ ⟨rfl, rfl, rfl⟩ rest pos; rfl

theorem pure' {P : Code → Prop} {α : Type} (a : α) : SemP P (M.pure a) (Pure.pure a) := pure a

theorem bind {α β : Type} {x : M α} {f : α → M β} {g : G α} {h : α → G β} (hx : Sem x g) (hf : ∀ a, Sem (f a) (h a)) :
    Sem (x >>= f) (g >>= h) where
  sound := by
    rintro s b s'' _ e e'
    obtain ⟨a, s', h1, h2⟩ := M.bind_eq_ok e
    obtain ⟨n1, k2, b2, p2, r2⟩ := (hf a).sound _ _ _ trivial h2 e'
    obtain ⟨n2, k1, b1, p1, r1⟩ := hx.sound _ _ _ trivial h1 n1
    exact ⟨n2, k1 ++ k2, by simp [b1, b2], by simp [p1, p2]; omega, k1, k2, a, s'.code, rfl, r1, r2⟩
  complete := by
    rintro c k b c'' _ ⟨k1, k2, a, c', rfl, h1, h2⟩ rest pos
    rw [List.append_assoc, M.bind_ok (hx.complete _ _ _ _ trivial h1 (k2 ++ rest) pos),
      (hf a).complete _ _ _ _ trivial h2]
    simp [Nat.add_assoc]

theorem bind' {α β : Type} {x : M α} {f : α → M β} {g : G α} {h : α → G β} (hx : Sem x g) (hf : ∀ a, Sem (f a) (h a)) :
    Sem (M.bind x f) (g >>= h) := bind hx hf

/-- Bind, using what is known about the value and the module. -/
theorem bindP {P : Code → Prop} {α β : Type} {x : M α} {f : α → M β} {g : G α} {h : α → G β} (hg : ∀ a, Good (f a))
    (hx : SemP P x g) (hf : ∀ a, SemP (fun c' => ∃ c k, P c ∧ g c k a c') (f a) (h a)) :
    SemP P (x >>= f) (g >>= h) where
  sound := by
    rintro s b s'' hp e e'
    obtain ⟨a, s', h1, h2⟩ := M.bind_eq_ok e
    obtain ⟨n2, k1, b1, p1, r1⟩ := hx.sound _ _ _ hp h1 ((hg a).none_of h2 e')
    obtain ⟨n1, k2, b2, p2, r2⟩ := (hf a).sound _ _ _ ⟨_, _, hp, r1⟩ h2 e'
    exact ⟨n2, k1 ++ k2, by simp [b1, b2], by simp [p1, p2]; omega, k1, k2, a, s'.code, rfl, r1, r2⟩
  complete := by
    rintro c k b c'' hp ⟨k1, k2, a, c', rfl, h1, h2⟩ rest pos
    rw [List.append_assoc, M.bind_ok (hx.complete _ _ _ _ hp h1 (k2 ++ rest) pos),
      (hf a).complete _ _ _ _ ⟨_, _, hp, h1⟩ h2]
    simp [Nat.add_assoc]

theorem panic {P : Code → Prop} {α : Type} {g : G α} (h : ∀ c k a c', P c → ¬ g c k a c') : SemP P M.panic g where
  sound := by rintro s b s' _ h; cases h
  complete := by rintro c k a c' hp h'; exact absurd h' (h _ _ _ _ hp)

theorem failAt {P : Code → Prop} {α : Type} {g : G α} (e) (h : ∀ c k a c', P c → ¬ g c k a c') :
    SemP P (M.failAt e) g where
  sound := by rintro s b s' _ h; cases h
  complete := by rintro c k a c' hp h'; exact absurd h' (h _ _ _ _ hp)

/-- A function that always records an error when it returns. -/
theorem never {P : Code → Prop} {α : Type} {x : M α} {g : G α} (h : ∀ c k a c', P c → ¬ g c k a c')
    (hx : ∀ s a s', x s = .ok a s' → s'.errors.isSome) : SemP P x g where
  sound := by rintro s b s' _ h h'; have := hx _ _ _ h; simp [h'] at this
  complete := by rintro c k a c' hp h'; exact absurd h' (h _ _ _ _ hp)

theorem getCode {P : Code → Prop} : SemP P M.getCode G.code where
  sound := by rintro s b s' _ h h'; cases h; exact ⟨h', [], by simp, by simp, rfl, rfl, rfl⟩
  complete := by rintro c k b c' _ ⟨rfl, rfl, rfl⟩ rest pos; rfl

theorem setCode {P : Code → Prop} (d) : SemP P (M.setCode d) (G.setCode d) where
  sound := by rintro s b s' _ h h'; cases h; exact ⟨h', [], by simp, by simp, rfl, rfl⟩
  complete := by rintro c k b c' _ ⟨rfl, rfl⟩ rest pos; rfl

theorem unwrap {P : Code → Prop} {α : Type} {x : M α} {g : G α} (hx : SemP P x g) : SemP P (M.unwrap x) g where
  sound := by
    rintro s b s' hp h h'
    unfold M.unwrap at h
    split at h <;> cases h
    next e => exact hx.sound _ _ _ hp e h'
  complete := by
    rintro c k a c' hp h rest pos
    simp [M.unwrap, hx.complete _ _ _ _ hp h]

theorem unwrapOpt {P : Code → Prop} {α : Type} (o : Option α) : SemP P (M.unwrapOpt o) (G.some o) where
  sound := by
    rintro s b s' hp h h'
    cases o with
    | none => cases h
    | some a => cases h; exact ⟨h', [], by simp, by simp, rfl, rfl, rfl⟩
  complete := by rintro c k b c' _ ⟨rfl, rfl, rfl⟩ rest pos; rfl

theorem okOrRecord {P : Code → Prop} {α : Type} {x : M α} {g : G α} (hx : SemP P x g) :
    SemP P (M.okOrRecord x) (do let a ← g; Pure.pure (some a)) where
  sound := by
    rintro s b s' hp h h'
    unfold M.okOrRecord at h
    split at h
    · next e =>
      cases h
      obtain ⟨n, k, h1, h2, h3⟩ := hx.sound _ _ _ hp e h'
      exact ⟨n, k, h1, h2, k, [], _, _, by simp, h3, rfl, rfl, rfl⟩
    · next e s1 _ =>
      injection h with h1 h2
      have := Good.recordError_errors e s1
      rw [h2] at this
      simp [h'] at this
    · cases h
  complete := by
    rintro c k a c' hp ⟨k1, k2, a', c1, rfl, h, rfl, rfl, rfl⟩ rest pos
    simp [M.okOrRecord, hx.complete _ _ _ _ hp h]

theorem checked {P : Code → Prop} {α : Type} {x : M α} {g : G α} (hx : SemP P x g) : SemP P (checked x) g where
  sound := by
    rintro s b s' hp h h'
    unfold Brass.checked at h
    obtain ⟨a, s1, h1, h2⟩ := M.bind_eq_ok h
    obtain ⟨_, s2, h3, h4⟩ := M.bind_eq_ok h2
    unfold M.checkError at h3
    split at h3 <;> cases h3
    cases h4
    exact hx.sound _ _ _ hp h1 h'
  complete := by
    rintro c k a c' hp h rest pos
    unfold Brass.checked
    rw [M.bind_ok (hx.complete _ _ _ _ hp h rest pos)]
    rfl

theorem insertAt {P : Code → Prop} {α : Type} (v : List α) (i : Nat) (x : α) :
    SemP P (M.insertAt v i x) (do G.guard (i ≤ v.length); Pure.pure (v.insertIdx i x)) where
  sound := by
    rintro s b s' hp h h'
    unfold M.insertAt at h
    split at h
    · next h1 => cases h; exact ⟨h', [], by simp, by simp, [], [], (), _, rfl, ⟨rfl, h1, rfl⟩, rfl, rfl, rfl⟩
    · cases h
  complete := by
    rintro c k b c' _ ⟨_, _, _, _, rfl, ⟨rfl, h1, rfl⟩, rfl, rfl, rfl⟩ rest pos
    unfold M.insertAt
    rw [if_pos h1]; rfl

theorem insertAt' {P : Code → Prop} {α : Type} (v : List α) (i : Nat) (x : α) (h : i ≤ v.length) :
    SemP P (M.insertAt v i x) (Pure.pure (v.insertIdx i x)) := by
  unfold M.insertAt
  rw [if_pos h]
  exact pure _

/-- `for i in a.. { x = rd(); v.insert(i, x) }` reads a list. -/
theorem pushLoop {α : Type} {rd : M α} {g : G α} (h : Sem rd g) (tail : List α) : ∀ (n : Nat) (acc : List α),
    Sem (M.forRange (fun i v => do let x ← rd; M.insertAt v i x) acc.length n (acc ++ tail))
      (do let l ← G.many g n; Pure.pure (acc ++ l ++ tail))
  | 0, acc => by
    refine congr (pure (acc ++ tail)) ?_
    intro c k a c' _
    constructor
    · rintro ⟨rfl, rfl, rfl⟩; exact ⟨[], [], [], c', rfl, ⟨rfl, rfl, rfl⟩, rfl, by simp, rfl⟩
    · rintro ⟨_, _, _, _, rfl, ⟨rfl, rfl, rfl⟩, rfl, rfl, rfl⟩; exact ⟨rfl, by simp, rfl⟩
  | n + 1, acc => by
    have ih := fun x => pushLoop h tail n (acc ++ [x])
    have : Sem (M.forRange (fun i v => do let x ← rd; M.insertAt v i x) acc.length (n + 1) (acc ++ tail))
        (g >>= fun x => (do let l ← G.many g n; Pure.pure (acc ++ [x] ++ l ++ tail))) := by
      have e : (M.forRange (fun i v => do let x ← rd; M.insertAt v i x) acc.length (n + 1) (acc ++ tail)) =
          (rd >>= fun x => M.forRange (fun i v => do let x ← rd; M.insertAt v i x) (acc ++ [x]).length n (acc ++ [x] ++ tail)) := by
        funext s
        show M.bind (M.bind rd _) _ s = M.bind rd _ s
        unfold M.bind
        cases rd s with
        | panic => rfl
        | err e s => rfl
        | ok a s =>
          have hi : (acc ++ tail).insertIdx acc.length a = acc ++ [a] ++ tail := by
            exact insertIdx_append_length acc tail a
          simp [M.insertAt, hi]
      rw [e]
      exact bind h (fun x => ih x)
    refine congr this ?_
    intro c k a c' _
    constructor
    · rintro ⟨k1, k2, x, c1, rfl, h1, k3, k4, l, c2, rfl, h2, rfl, rfl, rfl⟩
      exact ⟨k1 ++ k3, [], x :: l, _, by simp, ⟨k1, k3, x, c1, rfl, h1, k3, [], l, _, by simp, h2, rfl, rfl, rfl⟩, rfl, by simp, rfl⟩
    · rintro ⟨_, _, _, c2, rfl, ⟨k1, _, x, c1, rfl, h1, k3, _, l, _, rfl, h2, rfl, rfl, rfl⟩, rfl, rfl, rfl⟩
      exact ⟨k1, k3, x, c1, by simp, h1, k3, [], l, _, by simp, h2, rfl, by simp, rfl⟩

theorem bind_pure {P : Code → Prop} {α : Type} {x : M α} {g : G α} (h : SemP P x (g >>= fun l => Pure.pure l)) : SemP P x g :=
  congr h (by
    intro c k a c' _
    constructor
    · rintro ⟨k1, _, b, _, rfl, h1, rfl, rfl, rfl⟩; simpa using h1
    · intro h; exact ⟨k, [], a, c', by simp, h, rfl, rfl, rfl⟩)

theorem pushLoop0 {α : Type} {rd : M α} {g : G α} (h : Sem rd g) (n : Nat) :
    Sem (M.forRange (fun i v => do let x ← rd; M.insertAt v i x) 0 n []) (G.many g n) := by
  have := pushLoop h [] n []
  simp only [List.append_nil, List.nil_append, List.length_nil] at this
  exact bind_pure this

theorem forRange {β : Type} {f : Nat → β → M β} {g : Nat → β → G β} (I : Nat → β → Prop)
    (hf : ∀ i b, I i b → Sem (f i b) (g i b)) (hgood : ∀ i b, Good (f i b)) :
    ∀ (n a : Nat) (b : β), I a b → (∀ i b c k b' c', I i b → g i b c k b' c' → I (i + 1) b') →
      Sem (M.forRange f a n b) (G.loop g a n b)
  | 0, _, b, _, _ => pure b
  | n + 1, a, b, h, hg => by
    refine bindP (fun b => Good.forRange hgood n (a + 1) b) (hf a b h) (fun b' => ?_)
    by_cases hb : I (a + 1) b'
    · exact (forRange I hf hgood n (a + 1) b' hb hg).toP
    · constructor
      · rintro s x s' ⟨c, k, _, h2⟩; exact absurd (hg _ _ _ _ _ _ h h2) hb
      · rintro c k x c' ⟨c0, k0, _, h2⟩; exact absurd (hg _ _ _ _ _ _ h h2) hb

end Sem

end Verif.Brass
