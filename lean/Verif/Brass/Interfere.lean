import Verif.Brass.ParSim
import Verif.Brass.Trav

/-!
# Interference

What can be said about a run of a decoding function while other threads change `ERRORS`.
-/

namespace Verif.Brass

open Verif

/-- `t` never writes `None` to `ERRORS`. -/
def Tree.Records {α : Type} : Tree α → Prop
  | .done _ => True
  | .get k => ∀ v, (k v).Records
  | .set v t => v.isSome ∧ t.Records

/-- `x` never writes `None` to `ERRORS`. -/
def Rec {α : Type} (x : P α) : Prop := ∀ d, (x d).Records

theorem Tree.Records.andThen {α β : Type} {t : Tree α} {k : Res α → Tree β} (h : t.Records) (hk : ∀ r, (k r).Records) :
    (t.andThen k).Records := by
  induction t with
  | done r => exact hk r
  | get g ih => exact fun v => ih v (h v)
  | set v t ih => exact ⟨h.1, ih h.2⟩

namespace Rec

theorem pure {α : Type} (a : α) : Rec (Pure.pure a : P α) := fun _ => trivial
theorem pure' {α : Type} (a : α) : Rec (P.pure a : P α) := fun _ => trivial
theorem panic {α : Type} : Rec (P.panic : P α) := fun _ => trivial
theorem getCode : Rec P.getCode := fun _ => trivial
theorem setCode (c) : Rec (P.setCode c) := fun _ => trivial
theorem getErrors : Rec P.getErrors := fun _ _ => trivial
theorem setError (k) : Rec (P.setError k) := fun _ => ⟨rfl, trivial⟩
theorem failAt {α : Type} (k) : Rec (P.failAt k : P α) := fun _ => trivial
theorem recordError {α : Type} (e : DecodeError) (r : Res α) : (P.recordError e r).Records := by
  intro v
  cases v
  · exact ⟨rfl, trivial⟩
  · trivial
theorem mapErrAt (k) : Rec (P.mapErrAt k) := fun _ => recordError _ _
theorem checkError : Rec P.checkError := by
  intro d v
  cases v <;> trivial
theorem peek (n) : Rec (P.peek n) := by
  intro d
  unfold P.peek
  split <;> trivial
theorem ite {α : Type} {b : Prop} [Decidable b] {x y : P α} (hx : Rec x) (hy : Rec y) : Rec (if b then x else y) := by
  split; exact hx; exact hy
theorem unwrapOpt {α : Type} (o : Option α) : Rec (P.unwrapOpt o) := by
  cases o; exact panic; exact pure' _
theorem insertAt {α : Type} (v : List α) (i : Nat) (x : α) : Rec (P.insertAt v i x) := ite (pure' _) panic
theorem bind {α β : Type} {x : P α} {f : α → P β} (hx : Rec x) (hf : ∀ a, Rec (f a)) : Rec (x >>= f) :=
  fun d => (hx d).andThen fun r => by
    cases r with
    | ok a d => exact hf a d
    | err => trivial
    | panic => trivial
theorem unwrap {α : Type} {x : P α} (h : Rec x) : Rec (P.unwrap x) := fun d => (h d).andThen fun r => by cases r <;> trivial
theorem unwrapRecord {α : Type} {x : P α} (h : Rec x) : Rec (P.unwrapRecord x) := fun d => (h d).andThen fun r => by
  cases r with
  | ok a d => trivial
  | err => exact recordError _ _
  | panic => trivial
theorem okOrRecord {α : Type} {x : P α} (h : Rec x) : Rec (P.okOrRecord x) := fun d => (h d).andThen fun r => by
  cases r with
  | ok a d => trivial
  | err => exact recordError _ _
  | panic => trivial
theorem forRange {β : Type} {f : Nat → β → P β} (hf : ∀ i b, Rec (f i b)) : ∀ n a b, Rec (P.forRange f a n b)
  | 0, _, _ => pure' _
  | n + 1, a, b => bind (hf a b) fun b => forRange hf n (a + 1) b
theorem whileFuel {β : Type} {cond : β → Bool} {f : β → P β} (hf : ∀ b, Rec (f b)) : ∀ n b, Rec (P.whileFuel cond f n b)
  | 0, _ => panic
  | n + 1, b => fun d => by
    unfold P.whileFuel
    split
    · refine (hf b d).andThen fun r => ?_
      cases r with
      | ok b' d' =>
        show Tree.Records (if d'.buf.length < d.buf.length then _ else _)
        split
        · exact whileFuel hf n b' d'
        · trivial
      | err => trivial
      | panic => trivial
    · trivial
theorem whileReading {β : Type} {cond : β → Bool} {f : β → P β} (hf : ∀ b, Rec (f b)) (b : β) :
    Rec (P.whileReading cond f b) := fun d => whileFuel hf _ b d

/-! ## decoder.rs -/

theorem advance (n) : Rec (Par.advance n) := by
  intro d
  unfold Par.advance
  split <;> trivial
theorem readBytes (n) : Rec (Par.readBytes n) := by
  intro d
  unfold Par.readBytes
  split <;> trivial

end Rec

instance : Trav Rec where
  pure' := Rec.pure'
  panic := Rec.panic
  getCode := Rec.getCode
  setCode := Rec.setCode
  setError := Rec.setError
  failAt := Rec.failAt
  mapErrAt := Rec.mapErrAt
  checkError := Rec.checkError
  peek := Rec.peek
  advance := Rec.advance
  readBytes := Rec.readBytes
  bind := Rec.bind
  ifErrors hx hy := Rec.bind Rec.getErrors fun _ => Rec.ite hx hy
  unwrap := Rec.unwrap
  unwrapRecord := Rec.unwrapRecord
  okOrRecord := Rec.okOrRecord
  whileReading := Rec.whileReading

theorem Rec.read (p : Profile) (buf : List UInt8) : (Par.read p buf).Records := Trav.readM (Φ := Rec) p _

/-! ## Runs with interference -/

/-- `Ex t e r e'`: started when `ERRORS` is `e`, `t` can end with `r`, `ERRORS` then being `e'`, if between any two
accesses other threads may record errors (but never erase one). -/
inductive Ex {α : Type} : Tree α → Option DecodeError → Res α → Option DecodeError → Prop
  | done (r e) : Ex (.done r) e r e
  | env {t e e₁ r e'} : (e.isSome → e₁.isSome) → Ex t e₁ r e' → Ex t e r e'
  | get {k e r e'} : Ex (k e) e r e' → Ex (.get k) e r e'
  | set {v t e r e'} : Ex t v r e' → Ex (.set v t) e r e'

namespace Ex

/-- A run alone is a run with interference. -/
theorem of_run {α : Type} (t : Tree α) (e : Option DecodeError) : Ex t e (t.run e).1 (t.run e).2 := by
  induction t generalizing e with
  | done r => exact .done r e
  | get k ih => exact .get (ih e e)
  | set v t ih => exact .set (ih v)

/-- A recorded error is never erased. -/
theorem sticky {α : Type} {t : Tree α} {e e' : Option DecodeError} {r : Res α} (h : Ex t e r e') (ht : t.Records) :
    e.isSome → e'.isSome := by
  induction h with
  | done => exact id
  | env h1 _ ih => exact fun h => ih ht (h1 h)
  | get _ ih => exact ih (ht _)
  | set _ ih => exact fun _ => ih ht.2 ht.1

/-- If no error is recorded at the end, there was no interference. -/
theorem alone {α : Type} {t : Tree α} {e e' : Option DecodeError} {r : Res α} (h : Ex t e r e') (ht : t.Records)
    (he : e' = none) : e = none ∧ t.run none = (r, none) := by
  induction h with
  | done => exact ⟨he, by subst he; rfl⟩
  | @env t e e₁ r e' h1 _ ih =>
    obtain ⟨h2, h3⟩ := ih ht he
    subst h2
    cases e with
    | none => exact ⟨rfl, h3⟩
    | some x => exact absurd (h1 rfl) (by simp)
  | @get k e r e' h1 ih =>
    obtain ⟨h2, h3⟩ := ih (ht _) he
    subst h2
    exact ⟨rfl, h3⟩
  | @set v t e r e' h1 ih =>
    have h2 := h1.sticky ht.2 ht.1
    rw [he] at h2
    cases h2

theorem andThen_inv {α β : Type} {t : Tree α} {k : Res α → Tree β} {e e' : Option DecodeError} {r : Res β}
    (h : Ex (t.andThen k) e r e') : ∃ r₁ e₁, Ex t e r₁ e₁ ∧ Ex (k r₁) e₁ r e' := by
  generalize hu : t.andThen k = u at h
  induction h generalizing t with
  | done r e =>
    cases t with
    | done r₁ => exact ⟨r₁, e, .done _ _, (show k r₁ = _ from hu) ▸ .done _ _⟩
    | get g => cases hu
    | set v t => cases hu
  | env h1 _ ih =>
    obtain ⟨r₁, e₁, h2, h3⟩ := ih hu
    exact ⟨r₁, e₁, .env h1 h2, h3⟩
  | @get g e r e' h1 ih =>
    cases t with
    | done r₁ => exact ⟨r₁, e, .done _ _, (show k r₁ = _ from hu) ▸ .get h1⟩
    | get g' =>
      injection hu with hu
      obtain ⟨r₁, e₁, h2, h3⟩ := ih (t := g' e) (congrFun hu e)
      exact ⟨r₁, e₁, .get h2, h3⟩
    | set v t => cases hu
  | @set v u e r e' h1 ih =>
    cases t with
    | done r₁ => exact ⟨r₁, e, .done _ _, (show k r₁ = _ from hu) ▸ .set h1⟩
    | get g' => cases hu
    | set v' t =>
      injection hu with hv hu
      subst hv
      obtain ⟨r₁, e₁, h2, h3⟩ := ih hu
      exact ⟨r₁, e₁, .set h2, h3⟩

theorem bind_inv {α β : Type} {x : P α} {f : α → P β} {d d' : Dec} {e e' : Option DecodeError} {b : β}
    (h : Ex ((x >>= f) d) e (.ok b d') e') : ∃ a d₁ e₁, Ex (x d) e (.ok a d₁) e₁ ∧ Ex (f a d₁) e₁ (.ok b d') e' := by
  obtain ⟨r₁, e₁, h1, h2⟩ := andThen_inv (t := x d) h
  cases r₁ with
  | ok a d₁ => exact ⟨a, d₁, e₁, h1, h2⟩
  | err z d₁ =>
    exfalso
    have : ∀ (t : Tree β) e r e', Ex t e r e' → t = .done (.err z d₁) → r = .err z d₁ := by
      intro t e r e' h
      induction h with
      | done => intro h; injection h
      | env _ _ ih => exact ih
      | get => intro h; cases h
      | set => intro h; cases h
    cases this _ _ _ _ h2 rfl
  | panic =>
    exfalso
    have : ∀ (t : Tree β) e r e', Ex t e r e' → t = .done .panic → r = .panic := by
      intro t e r e' h
      induction h with
      | done => intro h; injection h
      | env _ _ ih => exact ih
      | get => intro h; cases h
      | set => intro h; cases h
    cases this _ _ _ _ h2 rfl

theorem done_inv {α : Type} {r₀ r : Res α} {e e' : Option DecodeError} (h : Ex (.done r₀) e r e') : r = r₀ := by
  generalize hu : Tree.done r₀ = u at h
  induction h with
  | done => injection hu with hu; exact hu.symm
  | env _ _ ih => exact ih hu
  | get => cases hu
  | set => cases hu

end Ex

/-- Whenever `x` succeeds in spite of interference, it would have done the same alone. -/
structure Solo {α : Type} (x : P α) : Prop where
  records : Rec x
  alone : ∀ {d e a d' e'}, Ex (x d) e (.ok a d') e' → (x d).run none = (.ok a d', none)

/-- Moreover `x` succeeds only if no error was recorded when it started. -/
structure Chk {α : Type} (x : P α) : Prop extends Solo x where
  clean : ∀ {d e a d' e'}, Ex (x d) e (.ok a d') e' → e = none

theorem P.run_bind {α β : Type} {x : P α} {f : α → P β} {d d' : Dec} {a : α} (h : (x d).run none = (.ok a d', none)) :
    ((x >>= f) d).run none = (f a d').run none := by
  show (Tree.andThen (x d) _).run none = _
  rw [Tree.run_andThen, h]

theorem Solo.bind {α β : Type} {x : P α} {f : α → P β} (hx : Solo x) (hf : ∀ a, Solo (f a)) : Solo (x >>= f) where
  records := Rec.bind hx.records fun a => (hf a).records
  alone h := by
    obtain ⟨a, d₁, e₁, h1, h2⟩ := h.bind_inv
    rw [P.run_bind (hx.alone h1)]
    exact (hf a).alone h2

theorem Chk.bind {α β : Type} {x : P α} {f : α → P β} (hx : Chk x) (hf : ∀ a, Solo (f a)) : Chk (x >>= f) where
  toSolo := hx.toSolo.bind hf
  clean h := by
    obtain ⟨a, d₁, e₁, h1, _⟩ := h.bind_inv
    exact hx.clean h1

/-- Something unchecked followed by something checked. -/
theorem Chk.after {α β : Type} {x : P α} {f : α → P β} (hx : Rec x) (hf : ∀ a, Chk (f a)) : Chk (x >>= f) where
  records := Rec.bind hx fun a => (hf a).records
  alone h := by
    obtain ⟨a, d₁, e₁, h1, h2⟩ := h.bind_inv
    rw [P.run_bind (h1.alone (hx _) ((hf a).clean h2)).2]
    exact (hf a).alone h2
  clean h := by
    obtain ⟨a, d₁, e₁, h1, h2⟩ := h.bind_inv
    exact (h1.alone (hx _) ((hf a).clean h2)).1

theorem Solo.pure {α : Type} (a : α) : Solo (Pure.pure a : P α) where
  records := Rec.pure a
  alone h := by rw [h.done_inv]; rfl

theorem Solo.pure' {α : Type} (a : α) : Solo (P.pure a : P α) := Solo.pure a

theorem Solo.panic {α : Type} : Solo (P.panic : P α) where
  records := Rec.panic
  alone h := by cases h.done_inv

theorem Solo.getCode : Solo P.getCode where
  records := Rec.getCode
  alone h := by rw [h.done_inv]; rfl

theorem Solo.setCode (c) : Solo (P.setCode c) where
  records := Rec.setCode c
  alone h := by rw [h.done_inv]; rfl

theorem Solo.ite {α : Type} {b : Prop} [Decidable b] {x y : P α} (hx : Solo x) (hy : Solo y) : Solo (if b then x else y) := by
  split; exact hx; exact hy

theorem Chk.panic {α : Type} : Chk (P.panic : P α) where
  toSolo := Solo.panic
  clean h := by cases h.done_inv

theorem Chk.ite {α : Type} {b : Prop} [Decidable b] {x y : P α} (hx : Chk x) (hy : Chk y) : Chk (if b then x else y) := by
  split; exact hx; exact hy

theorem Solo.insertAt {α : Type} (v : List α) (i : Nat) (x : α) : Solo (P.insertAt v i x) := Solo.ite (Solo.pure' _) Solo.panic

theorem Solo.forRange {β : Type} {f : Nat → β → P β} (hf : ∀ i b, Solo (f i b)) : ∀ n a b, Solo (P.forRange f a n b)
  | 0, _, _ => Solo.pure' _
  | n + 1, a, b => Solo.bind (hf a b) fun b => Solo.forRange hf n (a + 1) b

theorem Ex.get_inv {α : Type} {k : Option DecodeError → Tree α} {e e' : Option DecodeError} {r : Res α}
    (h : Ex (.get k) e r e') : ∃ e₁, (e.isSome → e₁.isSome) ∧ Ex (k e₁) e₁ r e' := by
  generalize hu : Tree.get k = u at h
  induction h with
  | done => cases hu
  | @env t e e₁ r e' h1 _ ih =>
    obtain ⟨e₂, h2, h3⟩ := ih hu
    exact ⟨e₂, fun h => h2 (h1 h), h3⟩
  | @get g e r e' h1 =>
    injection hu with hu
    subst hu
    exact ⟨e, id, h1⟩
  | set => cases hu

theorem Chk.checkError : Chk P.checkError where
  records := Rec.checkError
  alone h := by
    obtain ⟨e₁, _, h2⟩ := h.get_inv
    cases e₁ with
    | none => cases h2.done_inv; rfl
    | some x => cases h2.done_inv
  clean {d e a d' e'} h := by
    obtain ⟨e₁, h1, h2⟩ := h.get_inv
    cases e₁ with
    | none => cases e with
      | none => rfl
      | some x => cases h1 rfl
    | some x => cases h2.done_inv

theorem Chk.checked {α : Type} {x : P α} (h : Rec x) : Chk (Par.checked x) :=
  Chk.after h fun _ => Chk.checkError.bind fun _ => Solo.pure _

namespace Solo

theorem readConstantsStep (i c) : Solo (Par.readConstantsStep i c) :=
  bind (Chk.checked Trav.readConstant).toSolo fun _ => bind (insertAt _ _ _) fun _ => bind (setCode _) fun _ => pure _

theorem readConstants (c) : Solo (Par.readConstants c) := forRange readConstantsStep _ _ _

theorem readBytesSection (c) : Solo (Par.readBytesSection c) :=
  ite (Chk.after Trav.decodeI32 fun _ => Chk.ite Chk.panic (Chk.after (Trav.unwrapRecord (Trav.readBytes _)) fun _ =>
    (Chk.checked (Trav.readBytesPos _)).bind fun _ => pure _)).toSolo (pure _)

theorem readDebugFiles (c) : Solo (Par.readDebugFiles c) :=
  ite (Chk.after Trav.uindex fun _ => Chk.after (Rec.setCode _) fun _ => Chk.after (Trav.okOrRecord (Trav.readStrings _)) fun _ =>
    Chk.after Rec.getCode fun _ => Chk.after (Rec.setCode _) fun _ => Chk.checkError.bind fun _ => pure _).toSolo (pure _)

end Solo

theorem Chk.readPools (c) : Chk (Par.readPools c) :=
  (Chk.checked (Trav.readPool Trav.decodeI32 _)).bind fun _ => Chk.toSolo <|
    (Chk.checked (Trav.readPool Trav.decodeF64 _)).bind fun _ => Chk.toSolo <|
      (Chk.checked (Trav.okOrRecord (Trav.readStrings _))).bind fun _ => Solo.pure _

theorem Chk.readM (p) : Chk (Par.readM p) :=
  Chk.after Trav.readMagic fun _ => Chk.after Trav.readVersion fun _ => (Chk.checked (Trav.readCounts _)).bind fun _ =>
    (Chk.readPools _).toSolo.bind fun _ => (Solo.readBytesSection _).bind fun _ => (Solo.readDebugFiles _).bind fun _ =>
      Chk.toSolo <| Chk.after (Trav.readTypes _) fun _ => (Chk.checked (Trav.forRange Trav.readGlobalsStep _ _ _)).bind fun _ =>
        (Chk.checked (Trav.forRange Trav.readNativesStep _ _ _)).toSolo.bind fun _ =>
          (Chk.checked (Trav.forRange (Trav.readFunctionsStep p) _ _ _)).toSolo.bind fun _ =>
            (Solo.readConstants _).bind fun _ => Solo.getCode

end Verif.Brass
