import Verif.Brass.ParSim
import Verif.Brass.SemFile
import Verif.Spec.Fault

/-!
# Reasoning about the errors recorded by interleaved decoding functions (C86)

`Tree.Just I Q fl t`: started when the flag is `fl`, the running function `t` records only errors that satisfy `I`, and
ends in accordance with `Q`, provided that all errors it finds in `ERRORS` satisfy `I`, and that it always finds one once
it has recorded or seen one (the flag).
-/

namespace Verif.Brass

open Verif Verif.Brass.Spec

/-- See above. -/
def Tree.Just (I : DecodeError → Prop) {α : Type} (Q : Bool → Res α → Prop) : Bool → Tree α → Prop
  | fl, .done r => Q fl r
  | fl, .get k => (fl = false → (k none).Just I Q false) ∧ ∀ e, I e → (k (some e)).Just I Q true
  | _, .set v t => (∃ e, v = some e ∧ I e) ∧ t.Just I Q true

theorem Tree.Just.mono {I : DecodeError → Prop} {α : Type} {Q R : Bool → Res α → Prop} (h : ∀ fl r, Q fl r → R fl r) :
    ∀ {t : Tree α} {fl : Bool}, t.Just I Q fl → t.Just I R fl := by
  intro t
  induction t with
  | done r => exact h _ _
  | get k ih => exact fun h1 => ⟨fun h2 => ih none (h1.1 h2), fun e he => ih (some e) (h1.2 e he)⟩
  | set v t ih => exact fun h1 => ⟨h1.1, ih h1.2⟩

theorem Tree.Just.andThen {I : DecodeError → Prop} {α β : Type} {Q : Bool → Res α → Prop} {R : Bool → Res β → Prop}
    {k : Res α → Tree β} (hk : ∀ fl r, Q fl r → (k r).Just I R fl) :
    ∀ {t : Tree α} {fl : Bool}, t.Just I Q fl → (t.andThen k).Just I R fl := by
  intro t
  induction t with
  | done r => exact hk _ _
  | get g ih => exact fun h1 => ⟨fun h2 => ih none (h1.1 h2), fun e he => ih (some e) (h1.2 e he)⟩
  | set v t ih => exact fun h1 => ⟨h1.1, ih h1.2⟩

/-- A function that ends with the flag down has run as if alone in a fresh process. -/
theorem Tree.Just.alone {I : DecodeError → Prop} {α : Type} {Q : Bool → Res α → Prop} :
    ∀ {t : Tree α} {fl : Bool}, t.Just I Q fl →
      t.Just I (fun fl' r => Q fl' r ∧ (fl' = false → fl = false ∧ t.run none = (r, none))) fl := by
  intro t
  induction t with
  | done r => exact fun h => ⟨h, fun e => ⟨e, rfl⟩⟩
  | get k ih =>
    rintro fl ⟨h1, h2⟩
    refine ⟨fun e => (ih none (h1 e)).mono ?_, fun x hx => (ih (some x) (h2 x hx)).mono ?_⟩
    · exact fun fl' r h => ⟨h.1, fun e' => ⟨e, (h.2 e').2⟩⟩
    · exact fun fl' r h => ⟨h.1, fun e' => by cases (h.2 e').1⟩
  | set v t ih =>
    rintro fl ⟨h1, h2⟩
    exact ⟨h1, (ih h2).mono fun fl' r h => ⟨h.1, fun e' => by cases (h.2 e').1⟩⟩

/-- What holds when a function ends: `B` after `Ok`, `E` after `Err`. -/
def Post {α : Type} (B : Bool → α → Dec → Prop) (E : Bool → DecodeError → Dec → Prop) : Bool → Res α → Prop
  | fl, .ok a d => B fl a d
  | fl, .err e d => E fl e d
  | _, .panic => True

/-- `x`, started in a state that satisfies `A`. -/
def Tri (I : DecodeError → Prop) (A : Bool → Dec → Prop) {α : Type} (x : P α) (B : Bool → α → Dec → Prop)
    (E : Bool → DecodeError → Dec → Prop) : Prop := ∀ fl d, A fl d → (x d).Just I (Post B E) fl

section
variable {I : DecodeError → Prop} {A : Bool → Dec → Prop} {α β : Type}

theorem Tri.bind {x : P α} {f : α → P β} {B : Bool → α → Dec → Prop} {R : Bool → β → Dec → Prop} {E : Bool → DecodeError → Dec → Prop}
    (hx : Tri I A x B E) (hf : ∀ a, Tri I (fun fl d => B fl a d) (f a) R E) : Tri I A (P.bind x f) R E := fun fl d h =>
  (hx fl d h).andThen fun fl' r hr => by
    cases r with
    | ok a d' => exact hf a fl' d' hr
    | err e d' => exact hr
    | panic => trivial

theorem Tri.conseq {x : P α} {A' : Bool → Dec → Prop} {B B' : Bool → α → Dec → Prop} {E E' : Bool → DecodeError → Dec → Prop}
    (h : Tri I A x B E) (hA : ∀ fl d, A' fl d → A fl d) (hB : ∀ fl a d, B fl a d → B' fl a d)
    (hE : ∀ fl e d, E fl e d → E' fl e d) : Tri I A' x B' E' := fun fl d ha =>
  (h fl d (hA fl d ha)).mono fun fl' r hr => by
    cases r with
    | ok a d' => exact hB _ _ _ hr
    | err e d' => exact hE _ _ _ hr
    | panic => trivial

theorem recordError_just {Q : Bool → Res α → Prop} {fl : Bool} {e : DecodeError} {r : Res α} (he : I e) (h : Q true r) :
    (P.recordError e r).Just I Q fl :=
  ⟨fun _ => ⟨⟨e, rfl, he⟩, h⟩, fun _ _ => h⟩

/-- `x; check_error()?`: afterwards no error has been recorded or seen. -/
theorem Tri.checked {x : P α} {B : Bool → α → Dec → Prop} {E : Bool → DecodeError → Dec → Prop} (h : Tri I A x B E)
    (hE : ∀ a e d, I e → B true a d → E true e d) (hE' : ∀ a e d, I e → B false a d → E true e d) :
    Tri I A (Par.checked x) (fun fl a d => fl = false ∧ B fl a d) E := by
  refine Tri.bind h fun a => ?_
  intro fl d hb
  show (Tree.get _).Just I _ fl
  refine ⟨fun e => ?_, fun e he => ?_⟩
  · subst e
    exact ⟨rfl, hb⟩
  · show E true e d
    cases fl
    · exact hE' a e d he hb
    · exact hE a e d he hb

end

/-! ## Functions that do not access `ERRORS` -/

/-- `x` does not access `ERRORS`. -/
def NoAccess {α : Type} (x : P α) : Prop := ∀ d, ∃ r, x d = .done r

namespace NoAccess

theorem pure {α : Type} (a : α) : NoAccess (Pure.pure a : P α) := fun _ => ⟨_, rfl⟩
theorem bind {α β : Type} {x : P α} {f : α → P β} (hx : NoAccess x) (hf : ∀ a, NoAccess (f a)) : NoAccess (x >>= f) := by
  intro d
  obtain ⟨r, hr⟩ := hx d
  show ∃ r, Tree.andThen (x d) _ = .done r
  rw [hr]
  cases r with
  | ok a d' => exact hf a d'
  | err e d' => exact ⟨_, rfl⟩
  | panic => exact ⟨_, rfl⟩
theorem unwrap {α : Type} {x : P α} (hx : NoAccess x) : NoAccess (P.unwrap x) := by
  intro d
  obtain ⟨r, hr⟩ := hx d
  show ∃ r, Tree.andThen (x d) _ = .done r
  rw [hr]
  cases r <;> exact ⟨_, rfl⟩
theorem ite {α : Type} {b : Prop} [Decidable b] {x y : P α} (hx : NoAccess x) (hy : NoAccess y) : NoAccess (if b then x else y) := by
  split; exact hx; exact hy
theorem readBytes (n) : NoAccess (Par.readBytes n) := by
  intro d; unfold Par.readBytes; split <;> exact ⟨_, rfl⟩
theorem decodeU8 : NoAccess Par.decodeU8 := bind (readBytes 1) fun _ => pure _
theorem index : NoAccess Par.index :=
  unwrap (bind decodeU8 fun _ => ite (pure _) (ite (bind (unwrap decodeU8) fun _ => pure _)
    (bind decodeU8 fun _ => bind decodeU8 fun _ => bind decodeU8 fun _ => pure _)))

end NoAccess

/-- What `INDEX` reads. -/
theorem Par.index_eq (d : Dec) : Par.index d = .done .panic ∨
    ∃ w i rest, d.buf = w ++ rest ∧ IdxBytes w i ∧
      Par.index d = .done (.ok i { d with buf := rest, pos := d.pos + w.length }) := by
  obtain ⟨r, hr⟩ := NoAccess.index d
  have hs : Res.out ((Par.index d).run none) = Brass.index (d.st none) := Sim.unwrap Sim.readIndex d none
  rw [hr] at hs ⊢
  cases r with
  | panic => exact .inl rfl
  | err e d' => exact absurd hs.symm (NoErr.index _ _ _)
  | ok i d' =>
    right
    have h2 : Brass.index (d.st none) = .ok i (d'.st none) := hs.symm
    obtain ⟨_, w, h3, h4, h5, h6⟩ := Sem.index.sound _ _ _ trivial h2 rfl
    refine ⟨w, i, d'.buf, h3, h6, ?_⟩
    obtain ⟨b, ps, c⟩ := d'
    cases h4
    cases h5
    rfl

/-- What `u8::decode().unwrap()` reads. -/
theorem Par.byte_eq (d : Dec) : P.unwrap Par.decodeU8 d = match d.buf with
    | [] => .done .panic
    | b :: r => .done (.ok b.toNat { d with buf := r, pos := d.pos + 1 }) := by
  show Tree.andThen (Tree.andThen (Par.readBytes 1 d) _) _ = _
  unfold Par.readBytes
  cases h : d.buf with
  | nil => simp [Tree.andThen]
  | cons b r =>
    simp only [List.length_cons, show ¬ (1 > r.length + 1) by omega, if_false, Tree.andThen]
    simp only [Pure.pure, P.pure, List.take_succ_cons, List.take_zero, leNat, List.drop_succ_cons, List.drop_zero, Nat.mul_zero, Nat.add_zero]
    rfl

/-! ## Rules -/

/-- Where a function is: somewhere after `base`, having just read `k`, with a decoded module that satisfies `agree`. -/
structure Scene where
  file : List UInt8
  base : List UInt8
  agree : Code → Prop

/-- See above. -/
def Scene.At (X : Scene) (k : List UInt8) (d : Dec) : Prop :=
  (∃ m, X.file = X.base ++ m ++ k ++ d.buf ∧ d.pos = (X.base ++ m ++ k).length) ∧ X.agree d.code

theorem Scene.At.nil {X : Scene} {k : List UInt8} {d : Dec} (h : X.At k d) : X.At [] d := by
  obtain ⟨⟨m, h1, h2⟩, h3⟩ := h
  exact ⟨⟨m ++ k, by simpa using h1, by simpa using h2⟩, h3⟩

/-- What holds when `Err` is returned: `strict` says whether it matters. -/
def Scene.Fails (X : Scene) (I : DecodeError → Prop) (strict : Bool) : Bool → DecodeError → Dec → Prop :=
  fun _ e d => strict = true → I e ∧ X.At [] d

/-- `x`, started after `k`, ends at some place with a value that satisfies `Q`. -/
def Jf (X : Scene) (I : DecodeError → Prop) (strict : Bool) (k : List UInt8) {α : Type} (x : P α) (Q : α → Prop) : Prop :=
  Tri I (fun _ d => X.At k d) x (fun _ a d => X.At [] d ∧ Q a) (X.Fails I strict)

/-- No condition. -/
abbrev Any {α : Type} : α → Prop := fun _ => True

namespace Jf

section
variable {X : Scene} {I : DecodeError → Prop} {st : Bool} {k : List UInt8} {α β : Type}

theorem pure' {a : α} {Q : α → Prop} (h : Q a) : Jf X I st k (P.pure a) Q := fun _ _ hd => ⟨hd.nil, h⟩
theorem pure {a : α} {Q : α → Prop} (h : Q a) : Jf X I st k (Pure.pure a) Q := pure' h
theorem panic {Q : α → Prop} : Jf X I st k P.panic Q := fun _ _ _ => trivial
theorem mono {x : P α} {Q R : α → Prop} (h : Jf X I st k x Q) (hq : ∀ a, Q a → R a) : Jf X I st k x R :=
  Tri.conseq h (fun _ _ h => h) (fun _ a _ h => ⟨h.1, hq a h.2⟩) (fun _ _ _ h => h)
theorem bind {x : P α} {f : α → P β} {Q : α → Prop} {R : β → Prop} (hx : Jf X I st k x Q)
    (hf : ∀ a, Q a → Jf X I st [] (f a) R) : Jf X I st k (P.bind x f) R :=
  Tri.bind hx fun a fl d h => hf a h.2 fl d h.1
/-- `bind`, when nothing needs to be known about the value. -/
theorem seq {x : P α} {f : α → P β} {Q : α → Prop} {R : β → Prop} (hx : Jf X I st k x Q) (hf : ∀ a, Jf X I st [] (f a) R) :
    Jf X I st k (P.bind x f) R := bind hx fun a _ => hf a
theorem ite {b : Prop} [Decidable b] {x y : P α} {Q : α → Prop} (hx : b → Jf X I st k x Q) (hy : ¬ b → Jf X I st k y Q) :
    Jf X I st k (if b then x else y) Q := by
  split
  · next h => exact hx h
  · next h => exact hy h
theorem getCode {f : Code → P β} {R : β → Prop} (hf : ∀ c, X.agree c → Jf X I st k (f c) R) :
    Jf X I st k (P.bind P.getCode f) R := fun fl d h => hf d.code h.2 fl d h
theorem setCode {c : Code} (h : X.agree c) : Jf X I st k (P.setCode c) Any := fun _ _ hd => ⟨⟨hd.nil.1, h⟩, trivial⟩
theorem setError {kd : DecodeErrorKind}
    (h : ∀ m rest, X.file = X.base ++ m ++ k ++ rest → I ⟨kd, (X.base ++ m ++ k).length⟩) :
    Jf X I st k (P.setError kd) Any := by
  rintro fl d hd
  obtain ⟨⟨m, h1, h2⟩, _⟩ := id hd
  exact ⟨⟨_, rfl, by rw [h2]; exact h m _ h1⟩, hd.nil, trivial⟩
theorem mapErrAt {kd : DecodeErrorKind}
    (h : ∀ m rest, X.file = X.base ++ m ++ k ++ rest → I ⟨kd, (X.base ++ m ++ k).length⟩) :
    Jf X I st k (P.mapErrAt kd) Any := by
  rintro fl d hd
  obtain ⟨⟨m, h1, h2⟩, _⟩ := id hd
  refine recordError_just ?_ ⟨hd.nil, trivial⟩
  rw [h2]; exact h m _ h1
theorem failAt {kd : DecodeErrorKind} {Q : α → Prop} : Jf X I false k (P.failAt kd : P α) Q := fun _ _ _ => nofun
theorem unwrapOpt {o : Option α} : Jf X I st k (P.unwrapOpt o) (fun a => o = some a) := by
  cases o; exact panic; exact pure' rfl
theorem insertAt {v : List α} {i : Nat} {x : α} : Jf X I st k (P.insertAt v i x) Any := ite (fun _ => pure' trivial) fun _ => panic
theorem unwrap {x : P α} {Q : α → Prop} (h : Jf X I false k x Q) : Jf X I st k (P.unwrap x) Q := fun fl d hd =>
  (h fl d hd).andThen fun fl' r hr => by
    cases r with
    | ok a d' => exact hr
    | err e d' => trivial
    | panic => trivial
theorem okOrRecord {x : P α} {Q : α → Prop} (h : Jf X I true k x Q) :
    Jf X I st k (P.okOrRecord x) (fun o => ∀ a, o = some a → Q a) := fun fl d hd =>
  (h fl d hd).andThen fun fl' r hr => by
    cases r with
    | ok a d' => exact ⟨hr.1, fun b hb => by cases hb; exact hr.2⟩
    | err e d' => exact recordError_just (hr rfl).1 ⟨(hr rfl).2, nofun⟩
    | panic => trivial
theorem checkError : Jf X I st k P.checkError Any := by
  intro fl d hd
  exact ⟨fun _ => ⟨hd.nil, trivial⟩, fun e he _ => ⟨he, hd.nil⟩⟩
theorem checked {x : P α} {Q : α → Prop} (h : Jf X I st k x Q) : Jf X I st k (Par.checked x) Q :=
  bind h fun _ ha => seq checkError fun _ => pure ha
theorem ifErrors {x y : P α} {Q : α → Prop} (hx : Jf X I st k x Q) (hy : Jf X I st k y Q) :
    Jf X I st k (P.bind P.getErrors fun e => if e.isSome then x else y) Q := fun _ d hd =>
  ⟨fun _ => hy _ d hd, fun _ _ => hx _ d hd⟩
theorem forRange {f : Nat → β → P β} {Q : β → Prop} (hf : ∀ i b, Q b → Jf X I st [] (f i b) Q) :
    ∀ n a b, Q b → Jf X I st [] (P.forRange f a n b) Q
  | 0, _, _, h => pure' h
  | n + 1, a, b, h => bind (hf a b h) fun b hb => forRange hf n (a + 1) b hb
theorem whileFuel {cond : β → Bool} {f : β → P β} {Q : β → Prop} (hf : ∀ b, Q b → cond b = true → Jf X I st [] (f b) Q) :
    ∀ n b, Q b → Jf X I st [] (P.whileFuel cond f n b) Q
  | 0, _, _ => panic
  | n + 1, b, hb => by
    intro fl d hd
    unfold P.whileFuel
    split
    · next hc =>
      refine (hf b hb hc fl d hd).andThen fun fl' r hr => ?_
      cases r with
      | ok b' d' =>
        show Tree.Just I _ fl' (if d'.buf.length < d.buf.length then _ else _)
        split
        · exact whileFuel hf n b' hr.2 fl' d' hr.1
        · trivial
      | err => exact hr
      | panic => trivial
    · exact ⟨hd, hb⟩
theorem whileReading {cond : β → Bool} {f : β → P β} {Q : β → Prop} (hf : ∀ b, Q b → cond b = true → Jf X I st [] (f b) Q)
    {b : β} (hb : Q b) : Jf X I st [] (P.whileReading cond f b) Q := fun fl d hd => whileFuel hf _ b hb fl d hd

/-- Read an index and continue knowing its bytes. -/
theorem bindIndex {f : Int → P β} {R : β → Prop} (hf : ∀ w i, IdxBytes w i → Jf X I st w (f i) R) :
    Jf X I st k (P.bind Par.index f) R := by
  intro fl d hd
  obtain ⟨⟨m, h1, h2⟩, h3⟩ := hd
  show (Tree.andThen (Par.index d) _).Just I _ fl
  rcases Par.index_eq d with h | ⟨w, i, rest, h4, h5, h⟩
  · rw [h]; trivial
  · rw [h]
    refine hf w i h5 fl _ ⟨⟨m ++ k, ?_, ?_⟩, h3⟩
    · simp only [h1, h4, List.append_assoc]
    · simp only [h2, List.length_append]; omega

/-- Read a byte and continue knowing it. -/
theorem bindByte {f : Nat → P β} {R : β → Prop} (hf : ∀ b : UInt8, Jf X I st (k ++ [b]) (f b.toNat) R) :
    Jf X I st k (P.bind (P.unwrap Par.decodeU8) f) R := by
  intro fl d hd
  obtain ⟨⟨m, h1, h2⟩, h3⟩ := hd
  show (Tree.andThen (P.unwrap Par.decodeU8 d) _).Just I _ fl
  rw [Par.byte_eq]
  cases h : d.buf with
  | nil => trivial
  | cons b r =>
    refine hf b fl _ ⟨⟨m, ?_, ?_⟩, h3⟩
    · simp only [h1, h, List.append_assoc, List.singleton_append]
    · simp only [h2, List.length_append, List.length_cons, List.length_nil]; omega

theorem byte : Jf X I st k (P.unwrap Par.decodeU8) Any := by
  have : Jf X I st k (P.bind (P.unwrap Par.decodeU8) P.pure) Any := bindByte fun _ => pure' trivial
  intro fl d hd
  have h := this fl d hd
  change (Tree.andThen (P.unwrap Par.decodeU8 d) _).Just I _ fl at h
  rw [Par.byte_eq] at h ⊢
  cases h1 : d.buf with
  | nil => trivial
  | cons b r => rw [h1] at h; exact h

theorem index : Jf X I st k Par.index Any := by
  intro fl d hd
  have h := bindIndex (f := P.pure) (st := st) (I := I) (k := k) (X := X) (R := Any) (fun _ _ _ => pure' trivial) fl d hd
  change (Tree.andThen (Par.index d) _).Just I _ fl at h
  rcases Par.index_eq d with h1 | ⟨w, i, rest, h4, h5, h1⟩
  · rw [h1]; trivial
  · rw [h1] at h ⊢; exact h

theorem readBytes {n : Nat} : Jf X I false k (Par.readBytes n) Any := by
  rintro fl d ⟨⟨m, h1, h2⟩, h3⟩
  unfold Par.readBytes
  split
  · exact nofun
  · next hn =>
    refine ⟨⟨⟨m ++ k ++ d.buf.take n, ?_, ?_⟩, h3⟩, trivial⟩
    · simp [h1]
    · simp only [h2, List.length_append, List.length_take, List.append_nil]; omega

theorem decodeI32 : Jf X I false k Par.decodeI32 Any := seq readBytes fun _ => pure trivial

theorem peekAdvance {n : Nat} : Jf X I st k (Par.peekAdvance n) Any := by
  rintro fl d ⟨⟨m, h1, h2⟩, h3⟩
  show (Tree.andThen (P.peek n d) _).Just I _ fl
  unfold P.peek
  split
  · next hn =>
    show (Tree.andThen (Par.advance n d) _).Just I _ fl
    unfold Par.advance
    rw [if_neg (by omega)]
    refine ⟨⟨⟨m ++ k ++ d.buf.take n, ?_, ?_⟩, h3⟩, trivial⟩
    · simp [h1]
    · simp only [h2, List.length_append, List.length_take, List.append_nil]; omega
  · trivial

theorem toI32 {n : Nat} {f : Int → P β} {R : β → Prop} (hf : Jf X I st k (f n) R) : Jf X I st k (P.bind (Par.toI32 n) f) R := by
  intro fl d hd
  show (Tree.andThen (Par.toI32 n d) _).Just I _ fl
  unfold Par.toI32
  split
  · exact hf fl d hd
  · trivial

theorem badIndex {i : Int} {n : Nat} {f : Bool → P β} {R : β → Prop}
    (hf : ∀ b, (b = true → i < 0 ∨ n ≤ i) → Jf X I st k (f b) R) : Jf X I st k (P.bind (Par.badIndex i n) f) R := by
  intro fl d hd
  show (Tree.andThen (Par.badIndex i n d) _).Just I _ fl
  unfold Par.badIndex
  split
  · next h => exact hf true (fun _ => .inl h) fl d hd
  · show (Tree.andThen (Tree.andThen (Par.toI32 n d) _) _).Just I _ fl
    unfold Par.toI32
    split
    · refine hf _ (fun h => .inr ?_) fl d hd
      simpa using h
    · trivial

end

/-! ## Functions that can only record a negative index -/

section
variable {X : Scene} {I : DecodeError → Prop} {st : Bool} {k : List UInt8}

/-- The scene is after the version, and negative indices may be reported. -/
structure Neg (X : Scene) (I : DecodeError → Prop) : Prop where
  hI : ∀ m w r i, X.file = X.base ++ m ++ w ++ r → IdxBytes w i → i < 0 → I ⟨.negativeIndex, (X.base ++ m ++ w).length⟩

variable (hn : Neg X I)
include hn

theorem uindex : Jf X I st k Par.uindex Any :=
  bindIndex fun w i hw => ite (fun h => seq (setError fun m r e => hn.hI m w r i e hw h) fun _ => pure trivial) fun _ => pure trivial
theorem uindexIf {b : Bool} : Jf X I st k (Par.uindexIf b) Any := ite (fun _ => uindex hn) fun _ => pure' trivial
theorem uindexI : Jf X I st k Par.uindexI Any := seq (uindex hn) fun _ => pure trivial
omit hn in
theorem sliceFrom {s i} : Jf X I st k (Par.sliceFrom s i) Any := ite (fun _ => pure' trivial) fun _ => panic
omit hn in
theorem sliceTo {s i} : Jf X I st k (Par.sliceTo s i) Any := ite (fun _ => pure' trivial) fun _ => panic
theorem readStringsLoop {s : Str} : ∀ n cursor strs lens, Jf X I st [] (Par.readStringsLoop s n cursor strs lens) Any
  | 0, _, _, _ => pure' trivial
  | n + 1, _, _, _ => seq (uindex hn) fun _ => seq sliceFrom fun _ => seq sliceTo fun _ =>
      ite (fun _ => pure trivial) fun _ => readStringsLoop n _ _ _
theorem readStrings {n : Nat} : Jf X I st k (Par.readStrings n) Any :=
  seq (unwrap decodeI32) fun _ => ite (fun _ => panic) fun _ => seq peekAdvance fun _ => readStringsLoop hn _ _ _ _
theorem readCounts {v : Nat} : Jf X I st k (Par.readCounts v) Any :=
  seq (uindex hn) fun _ => seq (uindex hn) fun _ => seq (uindex hn) fun _ => seq (uindex hn) fun _ => seq (uindexIf hn) fun _ =>
    seq (uindex hn) fun _ => seq (uindex hn) fun _ => seq (uindex hn) fun _ => seq (uindex hn) fun _ => seq (uindexIf hn) fun _ =>
      seq (uindex hn) fun _ => pure trivial
theorem readBytesPos {n : Nat} : Jf X I st [] (Par.readBytesPos n) Any :=
  forRange (fun _ _ _ => seq (uindex hn) fun _ => insertAt) _ _ _ trivial
omit hn in
theorem readExtra {rd : P Int} {n : Nat} (h : Jf X I st [] rd Any) : Jf X I st [] (Par.readExtra rd n) Any :=
  forRange (fun _ _ _ => seq h fun _ => insertAt) _ _ _ trivial
omit hn in
theorem readCallLike {r} : Jf X I st k (Par.readCallLike r) Any :=
  seq index fun _ => seq index fun _ => seq byte fun _ => seq (readExtra index) fun _ => pure trivial
theorem readSwitch {r} : Jf X I st k (Par.readSwitch r) Any :=
  seq (uindexI hn) fun _ => seq (uindex hn) fun _ => seq (readExtra (uindexI hn)) fun _ => seq (uindexI hn) fun _ => pure trivial
theorem readOperands {r i} : Jf X I false k (Par.readOperands r i) Any := by
  refine ite (fun _ => pure' trivial) fun _ => ite (fun _ => seq index fun _ => pure trivial) fun _ =>
    ite (fun _ => seq index fun _ => seq index fun _ => pure trivial) fun _ =>
    ite (fun _ => seq index fun _ => seq index fun _ => seq index fun _ => pure trivial) fun _ =>
    ite (fun _ => seq index fun _ => seq index fun _ => seq index fun _ => seq index fun _ => pure trivial) fun _ =>
    ite (fun _ => ?_) fun _ => seq index fun _ => seq index fun _ => seq index fun _ => ite (fun _ => panic) fun _ =>
      seq (readExtra index) fun _ => pure trivial
  cases r.op
  case OCallN => exact readCallLike
  case OCallClosure => exact readCallLike
  case OCallMethod => exact readCallLike
  case OCallThis => exact readCallLike
  case OMakeEnum => exact readCallLike
  case OSwitch => exact readSwitch hn
  all_goals exact failAt
theorem skipAssigns : Jf X I st k Par.skipAssigns Any :=
  seq (uindex hn) fun _ => forRange (fun _ _ _ => seq (uindex hn) fun _ => seq index fun _ => pure trivial) _ _ _ trivial
theorem skipAssignsIf {b : Bool} : Jf X I st k (Par.skipAssignsIf b) Any := ite (fun _ => skipAssigns hn) fun _ => pure' trivial
theorem readConstant : Jf X I st k Par.readConstant Any :=
  seq (uindex hn) fun _ => seq (uindex hn) fun _ => seq (forRange (fun _ _ _ => seq (uindex hn) fun _ => insertAt) _ _ _ trivial) fun _ => pure trivial

end

/-! ## Functions that read types, natives and functions -/

section
variable {X : Scene} {I : DecodeError → Prop} {st : Bool} {k : List UInt8}

/-- The scene is after the debug file names, `c` being the module decoded so far, and bad items may be reported. -/
structure Late (X : Scene) (I : DecodeError → Prop) (c : Code) : Prop extends Neg X I where
  item : ∀ m w r kd, X.file = X.base ++ m ++ w ++ r → BadItem c w kd → I ⟨kd, (X.base ++ m ++ w).length⟩
  ntypes : ∀ d, X.agree d → d.ntypes = c.ntypes
  ndebugfiles : ∀ d, X.agree d → d.ndebugfiles = c.ndebugfiles
  hasdebug : ∀ d, X.agree d → d.hasdebug = c.hasdebug
  nstrings : ∀ d, X.agree d → d.nstrings = c.nstrings ∨ c.ntypes = 0
  stable : ∀ d u t g n f k, X.agree d → X.agree { d with ustrings := u, types := t, globals := g, natives := n, functions := f, constants := k }

variable {c : Code} (hl : Late X I c)
include hl

theorem getType : Jf X I st k Par.getType Any :=
  bindIndex fun w i hw => getCode fun d hd => badIndex fun _ hb => ite
    (fun h => seq (setError fun m r e => hl.item m w r _ e (.typeIndex w i hw (hl.ntypes d hd ▸ hb h))) fun _ => unwrapOpt.mono fun _ _ => trivial)
    fun _ => unwrapOpt.mono fun _ _ => trivial
theorem badString {d : Code} (hd : X.agree d) {w : List UInt8} {i : Int} (hw : IdxBytes w i) (h : i < 0 ∨ d.nstrings ≤ i) :
    BadItem c w .invalidStringIndex := by
  refine .stringIndex w i hw ?_
  rcases h with h | h
  · exact .inl h
  · rcases hl.nstrings d hd with e | e
    · exact .inr (.inl (e ▸ h))
    · exact .inr (.inr e)
theorem readString : Jf X I st k Par.readString Any :=
  bindIndex fun w _ hw => getCode fun _ hd => badIndex fun _ hb => ite
    (fun h => seq (setError fun m r e => hl.item m w r _ e (badString hl hd hw (hb h))) fun _ => pure trivial)
    fun _ => unwrapOpt.mono fun _ _ => trivial
theorem readUstring : Jf X I st k Par.readUstring Any :=
  bindIndex fun w i hw => getCode fun d hd => badIndex fun _ hb => ite
    (fun h => seq (setError fun m r e => hl.item m w r _ e (badString hl hd hw (hb h))) fun _ => pure trivial)
    fun _ => by
      have hg : ∀ r d', getUstring d i.toNat = .ret (r, d') → ∃ u, d' = { d with ustrings := u } := by
        intro r d' h
        unfold getUstring at h
        split at h
        · cases h
        · split at h <;> cases h <;> exact ⟨_, rfl⟩
        · cases h; exact ⟨_, rfl⟩
      cases h : getUstring d i.toNat with
      | panic => exact panic
      | ret r =>
        obtain ⟨r, d'⟩ := r
        obtain ⟨u, rfl⟩ := hg r d' h
        exact seq (setCode (hl.stable d u _ _ _ _ _ hd)) fun _ => pure trivial
theorem readTypeRefs {n : Nat} : Jf X I st [] (Par.readTypeRefs n) Any :=
  forRange (fun _ _ _ => seq (getType hl) fun _ => insertAt) _ _ _ trivial
theorem readField : Jf X I st k Par.readField Any := seq (readUstring hl) fun _ => seq (getType hl) fun _ => pure trivial
theorem readFields {n : Nat} : Jf X I st [] (Par.readFields n) Any :=
  forRange (fun _ _ _ => seq (readField hl) fun _ => insertAt) _ _ _ trivial
theorem readProto : Jf X I st k Par.readProto Any :=
  seq (readUstring hl) fun _ => seq (uindex hl.toNeg) fun _ => seq index fun _ => pure trivial
theorem readProtos {n : Nat} : Jf X I st [] (Par.readProtos n) Any :=
  forRange (fun _ _ _ => seq (readProto hl) fun _ => insertAt) _ _ _ trivial
theorem readBindings {n : Nat} : Jf X I st [] (Par.readBindings n) Any :=
  forRange (fun _ _ _ => seq (uindex hl.toNeg) fun _ => seq insertAt fun _ => seq (uindex hl.toNeg) fun _ => insertAt) _ _ _ trivial
theorem readConstruct : Jf X I st k Par.readConstruct Any :=
  seq (readUstring hl) fun _ => seq (uindex hl.toNeg) fun _ => seq (readTypeRefs hl) fun _ => pure trivial
theorem readConstructs {n : Nat} : Jf X I st [] (Par.readConstructs n) Any :=
  forRange (fun _ _ _ => seq (readConstruct hl) fun _ => insertAt) _ _ _ trivial
theorem readFuncType : Jf X I st k Par.readFuncType Any :=
  seq byte fun _ => seq (readTypeRefs hl) fun _ => seq (getType hl) fun _ => pure trivial
omit hl in
theorem readSuper : Jf X I st k Par.readSuper Any :=
  bindIndex fun _ _ _ => ite (fun _ => pure trivial) fun _ => getCode fun _ _ => unwrapOpt.mono fun _ _ => trivial
theorem readObjType : Jf X I st k Par.readObjType Any :=
  seq (readUstring hl) fun _ => seq readSuper fun _ => seq (uindex hl.toNeg) fun _ => seq (uindex hl.toNeg) fun _ =>
    seq (uindex hl.toNeg) fun _ => seq (uindex hl.toNeg) fun _ => seq (readFields hl) fun _ => seq (readProtos hl) fun _ =>
      seq (readBindings hl) fun _ => pure trivial
theorem readVirtualType : Jf X I st k Par.readVirtualType Any :=
  seq (uindex hl.toNeg) fun _ => seq (readFields hl) fun _ => pure trivial
theorem readEnumType : Jf X I st k Par.readEnumType Any :=
  seq (readUstring hl) fun _ => seq (uindex hl.toNeg) fun _ => seq (uindex hl.toNeg) fun _ => seq (readConstructs hl) fun _ => pure trivial
theorem readTypeBody {t} : Jf X I st k (Par.readTypeBody t) Any := by
  unfold Par.readTypeBody
  cases t.kind
  case HFUN => exact seq (readFuncType hl) fun _ => pure trivial
  case HMETHOD => exact seq (readFuncType hl) fun _ => pure trivial
  case HOBJ => exact seq (readObjType hl) fun _ => pure trivial
  case HSTRUCT => exact seq (readObjType hl) fun _ => pure trivial
  case HREF => exact seq (getType hl) fun _ => pure trivial
  case HVIRTUAL => exact seq (readVirtualType hl) fun _ => pure trivial
  case HABSTRACT => exact seq (readUstring hl) fun _ => pure trivial
  case HENUM => exact seq (readEnumType hl) fun _ => pure trivial
  case HNULL => exact seq (getType hl) fun _ => pure trivial
  case HPACKED => exact seq (getType hl) fun _ => pure trivial
  all_goals exact pure trivial
theorem readType {t} (h0 : c.ntypes ≠ 0) : Jf X I st [] (Par.readType t) Any :=
  bindByte fun b => ite (fun h => seq (mapErrAt fun m r e => hl.item m _ r _ e (.typeKind b h h0)) fun _ => pure trivial)
    fun _ => by
      intro fl d hd
      exact seq unwrapOpt (fun _ => readTypeBody hl) fl d hd
theorem readOpcode (h0 : c.nfunctions ≠ 0) : Jf X I false [] Par.readOpcode Any :=
  bindByte fun b => ite (fun h => seq (setError fun m r e => hl.item m _ r _ e (.opcode b h h0)) fun _ => pure trivial)
    fun _ => seq unwrapOpt fun _ => seq unwrapOpt fun _ => readOperands hl.toNeg
theorem readOpcodes (h0 : c.nfunctions ≠ 0) {n : Nat} : Jf X I st [] (Par.readOpcodes n) Any :=
  forRange (fun _ _ _ => seq (unwrap (readOpcode hl h0)) fun _ => insertAt) _ _ _ trivial
theorem readFunction (h0 : c.nfunctions ≠ 0) : Jf X I st k Par.readFunction Any :=
  seq (getType hl) fun _ => seq (uindex hl.toNeg) fun _ => seq (uindex hl.toNeg) fun _ => seq (uindex hl.toNeg) fun _ =>
    seq (readTypeRefs hl) fun _ => ifErrors (pure trivial) (seq (readOpcodes hl h0) fun _ => pure trivial)
omit hl in
theorem i32Add {p a b} : Jf X I st k (Par.i32Add p a b) Any := by
  refine ite (fun _ => pure' trivial) fun _ => ?_
  cases p; exact panic; exact pure' trivial
omit hl in
theorem debugStore {d} : Jf X I st k (Par.debugStore d) Any := ite (fun _ => pure' trivial) fun _ => panic
theorem debugBody {p nops} {s : DebugState} (hs : s.i < nops) (h0 : c.hasdebug ≠ 0) : Jf X I st [] (Par.debugBody p nops s) Any := by
  refine bindByte fun b => ite (fun h => bindByte fun b' => getCode fun d hd => toI32 ?_) fun h => ite (fun h2 => ?_) fun h2 =>
    ite (fun h3 => seq i32Add fun _ => debugStore) fun h3 => seq byte fun _ => seq byte fun _ => debugStore
  · refine seq (ite (fun hb => setError fun m r e => hl.item m _ r _ e (.debugFile b b' ?_ ?_ h0)) fun _ => pure' trivial) fun _ => pure trivial
    · rw [Nat.and_one_is_mod] at h; omega
    · have hb := of_decide_eq_true hb
      rw [hl.ndebugfiles d hd] at hb
      rw [← Nat.shiftLeft_add_eq_or_of_lt (b := b'.toNat) (i := 8) (by simpa using b'.toNat_lt),
        Nat.shiftLeft_eq, Nat.shiftRight_eq_div_pow] at hb
      omega
  · refine seq (ite (fun hb => setError fun m r e => hl.item m _ r _ e (.debugRange b ?_ ?_ h0)) fun _ => pure' trivial) fun _ =>
      seq i32Add fun _ => pure trivial
    · have := (Sem.bits2 b).1 h2
      rw [Nat.and_one_is_mod] at h; omega
    · have hb := of_decide_eq_true hb
      rw [Sem.bits15] at hb
      omega
theorem debugInfos {p nops} (h0 : c.hasdebug ≠ 0) : Jf X I st [] (Par.debugInfos p nops) Any :=
  seq (whileReading (Q := Any) (fun _ _ hb => debugBody hl (of_decide_eq_true hb) h0) trivial) fun _ => pure trivial

end

end Jf

end Verif.Brass
