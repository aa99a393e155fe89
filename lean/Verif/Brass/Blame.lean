import Verif.Brass.Interfere
import Verif.Brass.Threads

/-!
# What an error recorded by somebody else can change

The decoding functions only look at *whether* an error is recorded (`Ind`), and every error they record or return has a
position inside the file being read (`Within`).
-/

namespace Verif.Brass

open Verif

/-! ## Indifference to which error is recorded -/

/-- The same outcome, except possibly for the error reported. -/
def Res.Like {α : Type} : Res α → Res α → Prop
  | .ok a d, .ok a' d' => a = a' ∧ d = d'
  | .err _ d, .err _ d' => d = d'
  | .panic, .panic => True
  | _, _ => False

/-- The same accesses to `ERRORS` and the same outcome, except possibly for the errors recorded and reported. -/
def Tree.Like {α : Type} : Tree α → Tree α → Prop
  | .done r, u => ∃ r', u = .done r' ∧ r.Like r'
  | .get k, u => ∃ k', u = .get k' ∧ (k none).Like (k' none) ∧ ∀ x y, (k (some x)).Like (k' (some y))
  | .set v t, u => ∃ w u', u = .set w u' ∧ v.isSome = w.isSome ∧ t.Like u'

theorem Res.Like.refl {α : Type} (r : Res α) : r.Like r := by
  cases r <;> simp [Res.Like]

theorem Tree.Like.andThen {α β : Type} {t u : Tree α} {k k' : Res α → Tree β} (h : t.Like u)
    (hk : ∀ r r', r.Like r' → (k r).Like (k' r')) : (t.andThen k).Like (u.andThen k') := by
  induction t generalizing u with
  | done r =>
    obtain ⟨r', rfl, hr⟩ := h
    exact hk _ _ hr
  | get g ih =>
    obtain ⟨g', rfl, h1, h2⟩ := h
    exact ⟨_, rfl, ih none h1, fun x y => ih (some x) (h2 x y)⟩
  | set v t ih =>
    obtain ⟨w, u', rfl, h1, h2⟩ := h
    exact ⟨_, _, rfl, h1, ih h2⟩

/-- Run alone from an error or another, the outcome is the same except for the error reported. -/
theorem Tree.Like.run {α : Type} {t u : Tree α} (h : t.Like u) {e e' : Option DecodeError} (he : e.isSome = e'.isSome) :
    (t.run e).1.Like (u.run e').1 := by
  induction t generalizing u e e' with
  | done r =>
    obtain ⟨r', rfl, hr⟩ := h
    exact hr
  | get g ih =>
    obtain ⟨g', rfl, h1, h2⟩ := h
    cases e with
    | none =>
      cases e' with
      | none => exact ih none h1 rfl
      | some y => cases he
    | some x =>
      cases e' with
      | none => cases he
      | some y => exact ih (some x) (h2 x y) rfl
  | set v t ih =>
    obtain ⟨w, u', rfl, h1, h2⟩ := h
    exact ih h2 h1

/-- `x` looks only at whether an error is recorded. -/
def Ind {α : Type} (x : P α) : Prop := ∀ d, (x d).Like (x d)

namespace Ind

theorem done {α : Type} (r : Res α) : (Tree.done r).Like (.done r) := ⟨r, rfl, Res.Like.refl r⟩

theorem recordError {α : Type} (e e' : DecodeError) {r r' : Res α} (h : r.Like r') :
    (P.recordError e r).Like (P.recordError e' r') :=
  ⟨_, rfl, ⟨_, _, rfl, rfl, _, rfl, h⟩, fun _ _ => ⟨_, rfl, h⟩⟩

theorem bind {α β : Type} {x : P α} {f : α → P β} (hx : Ind x) (hf : ∀ a, Ind (f a)) : Ind (P.bind x f) := fun d =>
  (hx d).andThen fun r r' h => by
    cases r <;> cases r' <;> try exact h.elim
    · obtain ⟨rfl, rfl⟩ := h
      exact hf _ _
    · exact ⟨_, rfl, h⟩
    · exact done _

theorem whileFuel {β : Type} {cond : β → Bool} {f : β → P β} (hf : ∀ b, Ind (f b)) : ∀ n b, Ind (P.whileFuel cond f n b)
  | 0, _ => fun _ => done _
  | n + 1, b => fun d => by
    unfold P.whileFuel
    split
    · refine (hf b d).andThen fun r r' h => ?_
      cases r <;> cases r' <;> try exact h.elim
      · obtain ⟨rfl, rfl⟩ := h
        next b' d' =>
        show Tree.Like (if d'.buf.length < d.buf.length then _ else _) (if d'.buf.length < d.buf.length then _ else _)
        split
        · exact whileFuel hf n b' d'
        · exact done _
      · exact ⟨_, rfl, h⟩
      · exact done _
    · exact done _

end Ind

instance : Trav Ind where
  pure' _ _ := Ind.done _
  panic _ := Ind.done _
  getCode _ := Ind.done _
  setCode _ _ := Ind.done _
  setError _ _ := ⟨_, _, rfl, rfl, Ind.done _⟩
  failAt _ _ := Ind.done _
  mapErrAt _ _ := Ind.recordError _ _ (Res.Like.refl _)
  checkError d := ⟨_, rfl, Ind.done _, fun _ _ => ⟨_, rfl, rfl⟩⟩
  peek n d := by unfold P.peek; split <;> exact Ind.done _
  advance n d := by unfold Par.advance; split <;> exact Ind.done _
  readBytes n d := by unfold Par.readBytes; split <;> exact Ind.done _
  bind := Ind.bind
  ifErrors hx hy d := ⟨_, rfl, hy d, fun _ _ => hx d⟩
  unwrap hx d := (hx d).andThen fun r r' h => by
    cases r <;> cases r' <;> try exact h.elim
    · exact ⟨_, rfl, h⟩
    · exact Ind.done _
    · exact Ind.done _
  unwrapRecord hx d := (hx d).andThen fun r r' h => by
    cases r <;> cases r' <;> try exact h.elim
    · exact ⟨_, rfl, h⟩
    · exact Ind.recordError _ _ trivial
    · exact Ind.done _
  okOrRecord hx d := (hx d).andThen fun r r' h => by
    cases r <;> cases r' <;> try exact h.elim
    · obtain ⟨rfl, rfl⟩ := h
      exact Ind.done _
    · exact Ind.recordError _ _ ⟨rfl, h⟩
    · exact Ind.done _
  whileReading hf b d := Ind.whileFuel hf _ b d

theorem Ind.read (p : Profile) (b : List UInt8) : (Par.read p b).Like (Par.read p b) := Trav.readM (Φ := Ind) p _

/-! ## Where errors come from -/

/-- Everything `t` records or reports satisfies `I`, if what it finds in `ERRORS` does; the total number `n` of bytes
read or still to be read is kept. -/
def Tree.Within {α : Type} (n : Nat) (I : DecodeError → Prop) : Tree α → Prop
  | .done (.ok _ d) => d.pos + d.buf.length = n
  | .done (.err e d) => I e ∧ d.pos + d.buf.length = n
  | .done .panic => True
  | .get k => (k none).Within n I ∧ ∀ e, I e → (k (some e)).Within n I
  | .set v t => (∀ e, v = some e → I e) ∧ t.Within n I

section
variable {n : Nat} {I : DecodeError → Prop}

theorem Tree.Within.andThen {α β : Type} {t : Tree α} {k : Res α → Tree β} (h : t.Within n I)
    (hk : ∀ r, (Tree.done r).Within n I → (k r).Within n I) : (t.andThen k).Within n I := by
  induction t with
  | done r => exact hk _ h
  | get g ih => exact ⟨ih none h.1, fun x hx => ih (some x) (h.2 x hx)⟩
  | set v t ih => exact ⟨h.1, ih h.2⟩

/-- `Within` for a decoding function started inside a file of `n` bytes. -/
def WithinP (n : Nat) (I : DecodeError → Prop) {α : Type} (x : P α) : Prop :=
  ∀ d, d.pos + d.buf.length = n → (x d).Within n I

theorem Within.recordError {α : Type} {e : DecodeError} {r : Res α} (he : I e) (h : (Tree.done r).Within n I) :
    (P.recordError e r).Within n I :=
  ⟨⟨fun x hx => by cases hx; exact he, h⟩, fun _ _ => h⟩

theorem Within.whileFuel {β : Type} {cond : β → Bool} {f : β → P β} (hf : ∀ b, WithinP n I (f b)) :
    ∀ m b, WithinP n I (P.whileFuel cond f m b)
  | 0, _ => fun _ _ => trivial
  | m + 1, b => fun d hd => by
    unfold P.whileFuel
    split
    · refine (hf b d hd).andThen fun r h => ?_
      cases r with
      | ok b' d' =>
        show Tree.Within n I (if d'.buf.length < d.buf.length then _ else _)
        split
        · exact whileFuel hf m b' d' h
        · trivial
      | err => exact h
      | panic => trivial
    · exact hd

theorem WithinP.trav (hI : ∀ k pos, pos ≤ n → I { kind := k, position := pos }) : Trav (WithinP n I) where
  pure' _ _ h := h
  panic _ _ := trivial
  getCode _ h := h
  setCode _ _ h := h
  setError _ d h := ⟨fun e he => by cases he; exact hI _ _ (by omega), h⟩
  failAt _ d h := ⟨hI _ _ (by omega), h⟩
  mapErrAt _ d h := Within.recordError (hI _ _ (by omega)) h
  checkError d h := ⟨h, fun e he => ⟨he, h⟩⟩
  peek m d h := by
    unfold P.peek
    split
    · exact h
    · trivial
  advance m d h := by
    unfold Par.advance
    split
    · exact ⟨hI _ _ (by omega), h⟩
    · show d.pos + m + (d.buf.drop m).length = n
      rw [List.length_drop]; omega
  readBytes m d h := by
    unfold Par.readBytes
    split
    · exact ⟨hI _ _ (by omega), h⟩
    · show d.pos + m + (d.buf.drop m).length = n
      rw [List.length_drop]; omega
  bind hx hf d h := (hx d h).andThen fun r hr => by
    cases r with
    | ok a d' => exact hf a d' hr
    | err => exact hr
    | panic => trivial
  ifErrors hx hy d h := ⟨hy d h, fun _ _ => hx d h⟩
  unwrap hx d h := (hx d h).andThen fun r hr => by
    cases r with
    | ok a d' => exact hr
    | err => trivial
    | panic => trivial
  unwrapRecord hx d h := (hx d h).andThen fun r hr => by
    cases r with
    | ok a d' => exact hr
    | err => exact Within.recordError hr.1 trivial
    | panic => trivial
  okOrRecord hx d h := (hx d h).andThen fun r hr => by
    cases r with
    | ok a d' => exact hr
    | err => exact Within.recordError hr.1 hr.2
    | panic => trivial
  whileReading hf b d h := Within.whileFuel hf _ b d h

end

theorem Within.read (p : Profile) (b : List UInt8) (I : DecodeError → Prop)
    (hI : ∀ k pos, pos ≤ b.length → I { kind := k, position := pos }) : (Par.read p b).Within b.length I :=
  have := WithinP.trav hI
  Trav.readM (Φ := WithinP b.length I) p _ (by simp)

end Verif.Brass
