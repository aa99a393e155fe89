import Verif.Brass.SemFile
import Verif.Brass.ParSim
import Verif.Spec.Report

/-!
# The decoder and the grammar of marked texts

`PSem x g`: the runs of `x` (in the model with single accesses to `ERRORS`) that end with `Ok`, with or without a recorded error,
are exactly the parses of `g`, the other runs are those where `g` stops, and in both cases the error recorded at the end is the
one that the marks tell.  `FSem x g` is the first half of this for the sequential model.
-/

namespace Verif.Brass

open Verif Verif.Brass.Spec

/-! ## Marked texts -/

/-- The error recorded after a fault. -/
def noted (e : Option DecodeError) (x : DecodeError) : Option DecodeError :=
  if x.kind = .invalidType then (match e with | none => some x | some y => some y) else some x

/-- The error recorded after a marked text. -/
def errAfter : Option DecodeError → Nat → Marked → Option DecodeError
  | e, _, [] => e
  | e, pos, .byte _ :: w => errAfter e (pos + 1) w
  | e, pos, .fault kind :: w => errAfter (noted e { kind := kind, position := pos }) pos w

theorem text_append (w w' : Marked) : text (w ++ w') = text w ++ text w' := by
  induction w with
  | nil => rfl
  | cons m w ih => cases m <;> simp [text, ih]

theorem text_plain (k : List UInt8) : text (plain k) = k := by
  induction k with
  | nil => rfl
  | cons b k ih => simp only [plain, List.map_cons, text]; rw [← plain, ih]

theorem faulty_append (w w' : Marked) : faulty (w ++ w') = (faulty w || faulty w') := by
  induction w with
  | nil => rfl
  | cons m w ih => cases m <;> simp [faulty, ih]

theorem faulty_plain (k : List UInt8) : faulty (plain k) = false := by
  induction k with
  | nil => rfl
  | cons b k ih => exact ih

theorem errAfter_append (w w' : Marked) : ∀ e pos, errAfter e pos (w ++ w') = errAfter (errAfter e pos w) (pos + (text w).length) w' := by
  induction w with
  | nil => intro e pos; rfl
  | cons m w ih =>
    intro e pos
    cases m with
    | byte b => simp only [List.cons_append, errAfter, ih, text, List.length_cons]; congr 1; omega
    | fault k => simp only [List.cons_append, errAfter, ih, text]

theorem errAfter_plain (k : List UInt8) : ∀ e pos, errAfter e pos (plain k) = e := by
  induction k with
  | nil => intro e pos; rfl
  | cons b k ih => intro e pos; exact ih e (pos + 1)

theorem noted_isSome (e x) : (noted e x).isSome = true := by
  unfold noted
  split
  · cases e <;> rfl
  · rfl

theorem errAfter_isSome (w : Marked) : ∀ e pos, (errAfter e pos w).isSome = (e.isSome || faulty w) := by
  induction w with
  | nil => intro e pos; simp [errAfter, faulty]
  | cons m w ih =>
    intro e pos
    cases m with
    | byte b => exact ih e (pos + 1)
    | fault k => simp [errAfter, faulty, ih, noted_isSome]

theorem errAfter_eq (w : Marked) : ∀ e pos, errAfter e pos w =
    match ((faults pos w).filter (fun e => e.kind ≠ .invalidType)).getLast? with
    | some x => some x
    | none => match e with
      | some y => some y
      | none => (faults pos w).head? := by
  induction w with
  | nil => intro e pos; cases e <;> rfl
  | cons m w ih =>
    intro e pos
    cases m with
    | byte b => exact ih e (pos + 1)
    | fault k =>
      simp only [errAfter, faults, ih]
      by_cases hk : k = .invalidType
      · subst hk
        have : noted e { kind := .invalidType, position := pos } =
          match e with | none => some { kind := .invalidType, position := pos } | some y => some y := rfl
        rw [this]
        cases e <;> simp
      · have : noted e { kind := k, position := pos } = some { kind := k, position := pos } := if_neg hk
        rw [this]
        have h : (({ kind := k, position := pos } : DecodeError) :: faults pos w).filter (fun e => decide (e.kind ≠ .invalidType)) =
            { kind := k, position := pos } :: (faults pos w).filter (fun e => decide (e.kind ≠ .invalidType)) := by
          rw [List.filter_cons_of_pos]; simpa using hk
        rw [h, List.getLast?_cons]
        cases ((faults pos w).filter (fun e => decide (e.kind ≠ .invalidType))).getLast? <;> rfl

theorem errAfter_none (pos : Nat) (w : Marked) : errAfter none pos w = reported (faults pos w) := by
  rw [errAfter_eq]; rfl

/-! ## Laws of the grammar -/

theorem F_bind_assoc {α β γ : Type} (x : F α) (f : α → F β) (g : β → F γ) :
    x >>= f >>= g = x >>= fun a => f a >>= g := by
  apply F.ext
  · funext c b w r c'
    apply propext
    constructor
    · rintro ⟨_, w3, y, c2, rfl, ⟨w1, w2, a, c1, rfl, h1, h2⟩, h3⟩
      rw [faulty_append, ← Bool.or_assoc] at h3
      exact ⟨w1, w2 ++ w3, a, c1, by simp, h1, w2, w3, y, c2, rfl, h2, h3⟩
    · rintro ⟨w1, _, a, c1, rfl, h1, w2, w3, y, c2, rfl, h2, h3⟩
      rw [Bool.or_assoc, ← faulty_append] at h3
      exact ⟨w1 ++ w2, w3, y, c2, by simp, ⟨w1, w2, a, c1, rfl, h1, h2⟩, h3⟩
  · funext c b w rest
    apply propext
    constructor
    · rintro ((h | ⟨w1, w2, a, c1, rfl, h1, h2⟩) | ⟨_, w3, y, c2, rfl, ⟨w1, w2, a, c1, rfl, h1, h2⟩, h3⟩)
      · exact .inl h
      · exact .inr ⟨w1, w2, a, c1, rfl, h1, .inl h2⟩
      · rw [faulty_append, ← Bool.or_assoc] at h3
        exact .inr ⟨w1, w2 ++ w3, a, c1, by simp, h1, .inr ⟨w2, w3, y, c2, rfl, h2, h3⟩⟩
    · rintro (h | ⟨w1, _, a, c1, rfl, h1, (h2 | ⟨w2, w3, y, c2, rfl, h2, h3⟩)⟩)
      · exact .inl (.inl h)
      · exact .inl (.inr ⟨w1, _, a, c1, rfl, h1, h2⟩)
      · rw [Bool.or_assoc, ← faulty_append] at h3
        exact .inr ⟨w1 ++ w2, w3, y, c2, by simp, ⟨w1, w2, a, c1, rfl, h1, h2⟩, h3⟩

theorem F_pure_bind {α β : Type} (a : α) (f : α → F β) : (Pure.pure a : F α) >>= f = f a := by
  apply F.ext
  · funext c b w r c'
    apply propext
    constructor
    · rintro ⟨_, w3, y, c2, rfl, ⟨rfl, rfl, rfl⟩, h3⟩
      simpa [faulty] using h3
    · intro h; exact ⟨[], w, a, c, rfl, ⟨rfl, rfl, rfl⟩, by simpa [faulty] using h⟩
  · funext c b w rest
    apply propext
    constructor
    · rintro (h | ⟨_, w3, y, c2, rfl, ⟨rfl, rfl, rfl⟩, h3⟩)
      · exact h.elim
      · simpa [faulty] using h3
    · intro h; exact .inr ⟨[], w, a, c, rfl, ⟨rfl, rfl, rfl⟩, by simpa [faulty] using h⟩

theorem F_bind_pure {α : Type} (x : F α) : (x >>= fun a => Pure.pure a) = x := by
  apply F.ext
  · funext c b w r c'
    apply propext
    constructor
    · rintro ⟨w1, _, y, c2, rfl, h, rfl, rfl, rfl⟩
      simpa using h
    · intro h; exact ⟨w, [], r, c', by simp, h, rfl, rfl, rfl⟩
  · funext c b w rest
    apply propext
    constructor
    · rintro (h | ⟨_, _, _, _, _, _, h⟩)
      · exact h
      · exact h.elim
    · exact .inl

theorem F_bind_ite {α β : Type} {b : Prop} [Decidable b] (x y : F α) (f : α → F β) :
    (if b then x else y) >>= f = if b then x >>= f else y >>= f := by split <;> rfl

theorem plain_append (k k' : List UInt8) : plain (k ++ k') = plain k ++ plain k' := by simp [plain]

theorem plain_nil : plain [] = [] := rfl

/-- What reads nothing and has one value. -/
theorem F_ok_const {α : Type} {g : G α} {a : α} (h : ∀ c k r c', g c k r c' ↔ k = [] ∧ r = a ∧ c' = c) : F.ok g = Pure.pure a := by
  apply F.ext
  · funext c b w r c'
    apply propext
    constructor
    · rintro ⟨k, rfl, h1⟩
      obtain ⟨rfl, rfl, rfl⟩ := (h _ _ _ _).1 h1
      exact ⟨rfl, rfl, rfl⟩
    · rintro ⟨rfl, rfl, rfl⟩; exact ⟨[], rfl, (h _ _ _ _).2 ⟨rfl, rfl, rfl⟩⟩
  · funext c b w rest
    exact eq_false fun ⟨_, h1⟩ => h1 ⟨[], rest, a, c, rfl, (h _ _ _ _).2 ⟨rfl, rfl, rfl⟩⟩

theorem F_guard {Q : Prop} (h : Q) : F.ok (G.guard Q) = Pure.pure () :=
  F_ok_const fun _ _ _ _ => ⟨fun ⟨h1, _, h2⟩ => ⟨h1, rfl, h2⟩, fun ⟨h1, _, h2⟩ => ⟨h1, h, h2⟩⟩

theorem F_some {α : Type} {o : Option α} {a : α} (h : o = some a) : F.ok (G.some o) = Pure.pure a := by
  subst h
  refine F_ok_const fun _ _ _ _ => ⟨fun ⟨h1, h2, h3⟩ => ⟨h1, ?_, h3⟩, fun ⟨h1, h2, h3⟩ => ⟨h1, by rw [h2], h3⟩⟩
  cases h2; rfl

theorem F_lossy (l : List UInt8) : F.ok (lossyG l) = Pure.pure (fromUtf8Lossy l) := by
  rw [lossyG_eq]
  exact F_ok_const fun _ _ _ _ => Iff.rfl

/-- Nothing but a stop at once. -/
structure Halt {α : Type} (g : F α) : Prop where
  parse : ∀ c b w a c', ¬ g.parse c b w a c'
  stop : ∀ c b w rest, g.stop c b w rest ↔ w = []

theorem Halt.bind {α β : Type} {g : F α} (h : Halt g) (f : α → F β) : Halt (g >>= f) where
  parse := fun _ _ _ _ _ ⟨_, _, _, _, _, h1, _⟩ => h.parse _ _ _ _ _ h1
  stop := fun c b w rest => ⟨fun h1 => h1.elim (h.stop _ _ _ _).1 (fun ⟨_, _, _, _, _, h2, _⟩ => (h.parse _ _ _ _ _ h2).elim),
    fun h1 => .inl ((h.stop _ _ _ _).2 h1)⟩

theorem Halt.ok {α : Type} {g : G α} (h : ∀ c k a c', ¬ g c k a c') : Halt (F.ok g) where
  parse := fun _ _ _ _ _ ⟨_, _, h1⟩ => h _ _ _ _ h1
  stop := fun _ _ _ _ => ⟨fun h1 => h1.1, fun h1 => ⟨h1, fun ⟨_, _, _, _, _, h2⟩ => h _ _ _ _ h2⟩⟩

theorem Halt.guard {Q : Prop} (h : ¬ Q) : Halt (F.ok (G.guard Q)) := .ok fun _ _ _ _ h1 => h h1.2.1

theorem Halt.none {α : Type} : Halt (F.ok (G.some (none : Option α))) := .ok fun _ _ _ _ h1 => nomatch h1.2.1

/-! ## Functions that have nothing to do with errors -/

/-- The outcome with another recorded error. -/
def Out.withErrors {α : Type} (e : Option DecodeError) : Out α → Out α
  | .ok a s => .ok a { s with errors := e }
  | .err x s => .err x { s with errors := e }
  | .panic => .panic

/-- `x` neither looks at the recorded error nor records one. -/
def Silent {α : Type} (x : M α) : Prop := ∀ s e, x { s with errors := e } = (x s).withErrors e

namespace Silent

theorem pure {α : Type} (a : α) : Silent (Pure.pure a : M α) := fun _ _ => rfl
theorem panic {α : Type} : Silent (M.panic : M α) := fun _ _ => rfl
theorem failAt {α : Type} (k) : Silent (M.failAt k : M α) := fun _ _ => rfl
theorem getCode : Silent M.getCode := fun _ _ => rfl
theorem setCode (c) : Silent (M.setCode c) := fun _ _ => rfl
theorem unwrapOpt {α : Type} (o : Option α) : Silent (M.unwrapOpt o) := by
  cases o
  · exact panic
  · exact pure _
theorem readBytes (n) : Silent (readBytes n) := by
  intro s e
  unfold Brass.readBytes
  by_cases h : n > s.buf.length
  · simp only [if_pos h]; rfl
  · simp only [if_neg h]; rfl
theorem peek (n) : Silent (M.peek n) := by
  intro s e
  unfold M.peek
  by_cases h : n ≤ s.buf.length
  · simp only [if_pos h]; rfl
  · simp only [if_neg h]; rfl
theorem advance (n) : Silent (advance n) := by
  intro s e
  unfold Brass.advance
  by_cases h : n > s.buf.length
  · simp only [if_pos h]; rfl
  · simp only [if_neg h]; rfl
theorem bind {α β : Type} {x : M α} {f : α → M β} (hx : Silent x) (hf : ∀ a, Silent (f a)) : Silent (x >>= f) := by
  intro s e
  simp only [M.bind_def, hx s e]
  cases x s with
  | ok a s' => exact hf a s' e
  | err y s' => rfl
  | panic => rfl
theorem unwrap {α : Type} {x : M α} (hx : Silent x) : Silent (M.unwrap x) := by
  intro s e
  unfold M.unwrap
  rw [hx s e]
  cases x s <;> rfl
theorem ite {α : Type} {b : Prop} [Decidable b] {x y : M α} (hx : Silent x) (hy : Silent y) : Silent (if b then x else y) := by
  split
  · exact hx
  · exact hy
theorem insertAt {α : Type} (v : List α) (i x) : Silent (M.insertAt v i x) := ite (pure _) panic
theorem forRange {β : Type} {f : Nat → β → M β} (hf : ∀ i b, Silent (f i b)) : ∀ n a b, Silent (M.forRange f a n b)
  | 0, _, _ => pure _
  | n + 1, _, _ => bind (hf _ _) fun _ => forRange hf n _ _
theorem decodeU8 : Silent decodeU8 := bind (readBytes 1) fun _ => pure _
theorem decodeI32 : Silent decodeI32 := bind (readBytes 4) fun _ => pure _
theorem readIndex : Silent readIndex :=
  bind decodeU8 fun _ => ite (pure _) (ite (bind decodeU8.unwrap fun _ => pure _)
    (bind decodeU8 fun _ => bind decodeU8 fun _ => bind decodeU8 fun _ => pure _))
theorem index : Silent index := readIndex.unwrap
theorem readSuper : Silent readSuper := bind index fun _ => ite (pure _) (bind getCode fun _ => unwrapOpt _)
theorem peekAdvance (n) : Silent (peekAdvance n) := bind (peek n) fun _ => bind (advance n) fun _ => pure _
theorem slice (st : Str) (cursor n : Nat) : Silent (do let tail ← sliceFrom st cursor; sliceTo tail n) :=
  bind (ite (pure _) panic) fun _ => ite (pure _) panic
theorem i32Add (p a b) : Silent (i32Add p a b) := by
  unfold Brass.i32Add
  split
  · exact pure _
  · cases p
    · exact panic
    · exact pure _
theorem readExtra {rd} (h : Silent rd) (n) : Silent (readExtra rd n) := forRange (fun _ _ => bind h fun _ => insertAt _ _ _) _ _ _
theorem readCallLike (r) : Silent (readCallLike r) :=
  bind index fun _ => bind index fun _ => bind decodeU8.unwrap fun _ => bind (readExtra index _) fun _ => pure _
theorem readOperands (r i) (h : r.op ≠ .OSwitch) : Silent (readOperands r i) := by
  unfold Brass.readOperands
  refine ite (pure _) (ite (bind index fun _ => pure _) (ite (bind index fun _ => bind index fun _ => pure _)
    (ite (bind index fun _ => bind index fun _ => bind index fun _ => pure _)
    (ite (bind index fun _ => bind index fun _ => bind index fun _ => bind index fun _ => pure _) (ite ?_
      (bind index fun _ => bind index fun _ => bind index fun _ => ite panic (bind (readExtra index _) fun _ => pure _)))))))
  obtain ⟨op, a, b, c, d⟩ := r
  cases op
  case OCallN => exact readCallLike _
  case OCallClosure => exact readCallLike _
  case OCallMethod => exact readCallLike _
  case OCallThis => exact readCallLike _
  case OMakeEnum => exact readCallLike _
  case OSwitch => exact absurd rfl h
  all_goals exact failAt _

end Silent

/-! ## Laws of programs -/

theorem Tree.andThen_assoc {α β γ : Type} (t : Tree α) (k : Res α → Tree β) (l : Res β → Tree γ) :
    (t.andThen k).andThen l = t.andThen fun r => (k r).andThen l := by
  induction t with
  | done r => rfl
  | get g ih => exact congrArg Tree.get (funext ih)
  | set v t ih => exact congrArg (Tree.set v) ih

theorem P_bind_assoc {α β γ : Type} (x : P α) (f : α → P β) (g : β → P γ) : x >>= f >>= g = x >>= fun a => f a >>= g := by
  funext d
  show ((x d).andThen _).andThen _ = (x d).andThen _
  rw [Tree.andThen_assoc]
  congr 1
  funext r
  cases r <;> rfl

theorem P_pure_bind {α β : Type} (a : α) (f : α → P β) : (P.pure a : P α) >>= f = f a := rfl

theorem P_bind_run {α β : Type} (x : P α) (f : α → P β) (d : Dec) (e : Option DecodeError) :
    ((x >>= f) d).run e = match (x d).run e with
      | (.ok a d', e') => (f a d').run e'
      | (.err y d', e') => (.err y d', e')
      | (.panic, e') => (.panic, e') := by
  show ((x d).andThen _).run e = _
  rw [Tree.run_andThen]
  cases h : (x d).run e with
  | mk r e' => cases r <;> rfl

/-- `x` does not touch `ERRORS`. -/
def Untouched {α : Type} (x : P α) : Prop := ∀ d, ∃ r, x d = .done r

namespace Untouched

theorem pure {α : Type} (a : α) : Untouched (Pure.pure a : P α) := fun _ => ⟨_, rfl⟩
theorem pure' {α : Type} (a : α) : Untouched (P.pure a : P α) := fun _ => ⟨_, rfl⟩
theorem panic {α : Type} : Untouched (P.panic : P α) := fun _ => ⟨_, rfl⟩
theorem failAt {α : Type} (k) : Untouched (P.failAt k : P α) := fun _ => ⟨_, rfl⟩
theorem getCode : Untouched P.getCode := fun _ => ⟨_, rfl⟩
theorem setCode (c) : Untouched (P.setCode c) := fun _ => ⟨_, rfl⟩
theorem ite {α : Type} {b : Prop} [Decidable b] {x y : P α} (hx : Untouched x) (hy : Untouched y) : Untouched (if b then x else y) := by
  split
  · exact hx
  · exact hy
theorem unwrapOpt {α : Type} (o : Option α) : Untouched (P.unwrapOpt o) := by
  cases o
  · exact panic
  · exact pure' _
theorem iteDone {α : Type} {b : Prop} [Decidable b] (r r' : Res α) : ∃ q, (if b then Tree.done r else .done r') = .done q := by
  split
  · exact ⟨_, rfl⟩
  · exact ⟨_, rfl⟩
theorem readBytes (n) : Untouched (Par.readBytes n) := fun _ => iteDone _ _
theorem peek (n) : Untouched (P.peek n) := fun _ => iteDone _ _
theorem advance (n) : Untouched (Par.advance n) := fun _ => iteDone _ _
theorem bind {α β : Type} {x : P α} {f : α → P β} (hx : Untouched x) (hf : ∀ a, Untouched (f a)) : Untouched (x >>= f) := by
  intro d
  obtain ⟨r, h⟩ := hx d
  show ∃ q, (x d).andThen _ = _
  rw [h]
  cases r with
  | ok a d' => exact hf a d'
  | err y d' => exact ⟨_, rfl⟩
  | panic => exact ⟨_, rfl⟩
theorem unwrap {α : Type} {x : P α} (hx : Untouched x) : Untouched (P.unwrap x) := by
  intro d
  obtain ⟨r, h⟩ := hx d
  show ∃ q, (x d).andThen _ = _
  rw [h]
  cases r <;> exact ⟨_, rfl⟩
theorem insertAt {α : Type} (v : List α) (i x) : Untouched (P.insertAt v i x) := ite (pure' _) panic
theorem forRange {β : Type} {f : Nat → β → P β} (hf : ∀ i b, Untouched (f i b)) : ∀ n a b, Untouched (P.forRange f a n b)
  | 0, _, _ => pure' _
  | n + 1, _, _ => bind (hf _ _) fun _ => forRange hf n _ _
theorem decodeU8 : Untouched Par.decodeU8 := bind (readBytes 1) fun _ => pure _
theorem decodeI32 : Untouched Par.decodeI32 := bind (readBytes 4) fun _ => pure _
theorem readIndex : Untouched Par.readIndex :=
  bind decodeU8 fun _ => ite (pure _) (ite (bind decodeU8.unwrap fun _ => pure _)
    (bind decodeU8 fun _ => bind decodeU8 fun _ => bind decodeU8 fun _ => pure _))
theorem index : Untouched Par.index := readIndex.unwrap
theorem readSuper : Untouched Par.readSuper := bind index fun _ => ite (pure _) (bind getCode fun _ => unwrapOpt _)
theorem peekAdvance (n) : Untouched (Par.peekAdvance n) := bind (peek n) fun _ => bind (advance n) fun _ => pure _
theorem slice (st : Str) (cursor n : Nat) : Untouched (do let tail ← Par.sliceFrom st cursor; Par.sliceTo tail n) :=
  bind (ite (pure' _) panic) fun _ => ite (pure' _) panic
theorem i32Add (p a b) : Untouched (Par.i32Add p a b) := by
  unfold Par.i32Add
  split
  · exact pure' _
  · cases p
    · exact panic
    · exact pure' _
theorem readExtra {rd} (h : Untouched rd) (n) : Untouched (Par.readExtra rd n) := forRange (fun _ _ => bind h fun _ => insertAt _ _ _) _ _ _
theorem readCallLike (r) : Untouched (Par.readCallLike r) :=
  bind index fun _ => bind index fun _ => bind decodeU8.unwrap fun _ => bind (readExtra index _) fun _ => pure _
theorem readOperands (r i) (h : r.op ≠ .OSwitch) : Untouched (Par.readOperands r i) := by
  unfold Par.readOperands
  refine ite (pure' _) (ite (bind index fun _ => pure _) (ite (bind index fun _ => bind index fun _ => pure _)
    (ite (bind index fun _ => bind index fun _ => bind index fun _ => pure _)
    (ite (bind index fun _ => bind index fun _ => bind index fun _ => bind index fun _ => pure _) (ite ?_
      (bind index fun _ => bind index fun _ => bind index fun _ => ite panic (bind (readExtra index _) fun _ => pure _)))))))
  obtain ⟨op, a, b, c, d⟩ := r
  cases op
  case OCallN => exact readCallLike _
  case OCallClosure => exact readCallLike _
  case OCallMethod => exact readCallLike _
  case OCallThis => exact readCallLike _
  case OMakeEnum => exact readCallLike _
  case OSwitch => exact absurd rfl h
  all_goals exact failAt _

end Untouched

/-! ## `PSem` -/

/-- `Ok(…)` -/
def Res.isOk {α : Type} : Res α → Bool
  | .ok _ _ => true
  | _ => false

/-- `x` returns `Ok` exactly on the phrases of `g`, whatever follows, and does something else exactly where `g` stops; in both
cases it records what the marks say. -/
structure PSem {α : Type} (x : P α) (g : F α) : Prop where
  sound : ∀ d e a d' e', (x d).run e = (.ok a d', e') →
    ∃ w, d.buf = text w ++ d'.buf ∧ d'.pos = d.pos + (text w).length ∧ e' = errAfter e d.pos w ∧
      g.parse d.code e.isSome w a d'.code
  complete : ∀ c b w a c', g.parse c b w a c' → ∀ rest pos e, e.isSome = b →
    (x ⟨text w ++ rest, pos, c⟩).run e = (.ok a ⟨rest, pos + (text w).length, c'⟩, errAfter e pos w)
  stuck : ∀ d e r e', (x d).run e = (r, e') → r.isOk = false →
    ∃ w rest, d.buf = text w ++ rest ∧ e' = errAfter e d.pos w ∧ g.stop d.code e.isSome w rest
  sticks : ∀ c b w rest, g.stop c b w rest → ∀ pos e, e.isSome = b →
    ∃ r, (x ⟨text w ++ rest, pos, c⟩).run e = (r, errAfter e pos w) ∧ r.isOk = false

namespace PSem

theorem pure {α : Type} (a : α) : PSem (Pure.pure a) (Pure.pure a) where
  sound := by rintro d e b d' e' h; cases h; exact ⟨[], rfl, rfl, rfl, rfl, rfl, rfl⟩
  complete := by rintro c b w a' c' ⟨rfl, rfl, rfl⟩ rest pos e _; rfl
  stuck := by rintro d e r e' h h'; cases h; cases h'
  sticks := by rintro c b w rest h; exact h.elim

theorem pure' {α : Type} (a : α) : PSem (P.pure a) (Pure.pure a) := pure a

/-- One after the other, the second one knowing the value of the first one. -/
theorem bindQ {α β : Type} {x : P α} {f : α → P β} {g : F α} {h : α → F β} (hx : PSem x g)
    (hf : ∀ a, (∃ c b w c', g.parse c b w a c') → PSem (f a) (h a)) : PSem (x >>= f) (g >>= h) where
  sound := by
    rintro d e b d'' e'' h0
    rw [P_bind_run] at h0
    split at h0
    · next a d' e' h1 =>
      obtain ⟨w1, b1, p1, rfl, r1⟩ := hx.sound _ _ _ _ _ h1
      obtain ⟨w2, b2, p2, rfl, r2⟩ := (hf a ⟨_, _, _, _, r1⟩).sound _ _ _ _ _ h0
      refine ⟨w1 ++ w2, by simp [text_append, b1, b2], by simp [text_append, p1, p2]; omega, ?_, w1, w2, a, d'.code, rfl, r1, ?_⟩
      · rw [errAfter_append, p1]
      · rw [← errAfter_isSome w1 e d.pos]; exact r2
    · cases h0
    · cases h0
  complete := by
    rintro c b w r c'' ⟨w1, w2, a, c', rfl, h1, h2⟩ rest pos e he
    rw [text_append, List.append_assoc, P_bind_run, hx.complete _ _ _ _ _ h1 (text w2 ++ rest) pos e he]
    show (f a _).run _ = _
    rw [(hf a ⟨_, _, _, _, h1⟩).complete _ _ _ _ _ h2 rest _ _ (by rw [errAfter_isSome, he])]
    simp [Nat.add_assoc, errAfter_append]
  stuck := by
    rintro d e r e'' h0 hr
    rw [P_bind_run] at h0
    split at h0
    · next a d' e' h1 =>
      obtain ⟨w1, b1, p1, rfl, r1⟩ := hx.sound _ _ _ _ _ h1
      obtain ⟨w2, rest, b2, rfl, r2⟩ := (hf a ⟨_, _, _, _, r1⟩).stuck _ _ _ _ h0 hr
      refine ⟨w1 ++ w2, rest, by simp [text_append, b1, b2], ?_, .inr ⟨w1, w2, a, d'.code, rfl, r1, ?_⟩⟩
      · rw [errAfter_append, p1]
      · rw [← errAfter_isSome w1 e d.pos]; exact r2
    · next h1 =>
      cases h0
      obtain ⟨w, rest, b, q, r⟩ := hx.stuck _ _ _ _ h1 rfl
      exact ⟨w, rest, b, q, .inl r⟩
    · next h1 =>
      cases h0
      obtain ⟨w, rest, b, q, r⟩ := hx.stuck _ _ _ _ h1 rfl
      exact ⟨w, rest, b, q, .inl r⟩
  sticks := by
    rintro c b w rest (h1 | ⟨w1, w2, a, c', rfl, h1, h2⟩) pos e he
    · obtain ⟨r, h2, h3⟩ := hx.sticks _ _ _ _ h1 pos e he
      rw [P_bind_run, h2]
      cases r with
      | ok a d => cases h3
      | err y d => exact ⟨_, rfl, rfl⟩
      | panic => exact ⟨_, rfl, rfl⟩
    · rw [text_append, List.append_assoc, P_bind_run, hx.complete _ _ _ _ _ h1 (text w2 ++ rest) pos e he]
      obtain ⟨r, h3, h4⟩ := (hf a ⟨_, _, _, _, h1⟩).sticks _ _ _ _ h2 (pos + (text w1).length) (errAfter e pos w1) (by rw [errAfter_isSome, he])
      refine ⟨r, ?_, h4⟩
      rw [errAfter_append]
      exact h3

theorem bind {α β : Type} {x : P α} {f : α → P β} {g : F α} {h : α → F β} (hx : PSem x g) (hf : ∀ a, PSem (f a) (h a)) :
    PSem (x >>= f) (g >>= h) := bindQ hx fun a _ => hf a

theorem ite {α : Type} {b : Prop} [Decidable b] {x y : P α} {g h : F α} (hx : b → PSem x g) (hy : ¬ b → PSem y h) :
    PSem (if b then x else y) (if b then g else h) := by
  split
  · exact hx ‹_›
  · exact hy ‹_›

theorem iteIff {α : Type} {b b' : Prop} [Decidable b] [Decidable b'] {x y : P α} {g h : F α} (e : b ↔ b')
    (hx : b' → PSem x g) (hy : ¬ b' → PSem y h) : PSem (if b then x else y) (if b' then g else h) := by
  by_cases hb : b
  · rw [if_pos hb, if_pos (e.1 hb)]; exact hx (e.1 hb)
  · rw [if_neg hb, if_neg (fun h => hb (e.2 h))]; exact hy (fun h => hb (e.2 h))

/-- A function that has nothing to do with errors. -/
theorem ofSem {α : Type} {x : P α} {y : M α} {g : G α} (s : Sim x y) (h : Sem y g) (q : Untouched x) : PSem x (F.ok g) where
  sound := by
    rintro d e a d' e' h0
    obtain ⟨r, hr⟩ := q d
    rw [hr] at h0
    cases h0
    have h1 := s d none
    rw [hr] at h1
    obtain ⟨_, k, b, p, r⟩ := h.sound _ _ _ trivial h1.symm rfl
    exact ⟨plain k, by rw [text_plain]; exact b, by rw [text_plain]; exact p, by rw [errAfter_plain], k, rfl, r⟩
  complete := by
    rintro c b w a c' ⟨k, rfl, h1⟩ rest pos e _
    rw [text_plain, errAfter_plain]
    obtain ⟨r, hr⟩ := q ⟨k ++ rest, pos, c⟩
    have h2 := s ⟨k ++ rest, pos, c⟩ none
    rw [hr] at h2 ⊢
    have h3 := h.complete _ _ _ _ trivial h1 rest pos
    have h2 := h2.trans h3
    cases r with
    | ok a' d' =>
      obtain ⟨buf, p', k'⟩ := d'
      have h2 : Out.ok a' (⟨buf, p', k', none⟩ : St) = .ok a ⟨rest, pos + k.length, c', none⟩ := h2
      cases h2; rfl
    | err y d' => cases h2
    | panic => cases h2
  stuck := by
    rintro d e r e' h0 hr
    obtain ⟨r', hr'⟩ := q d
    rw [hr'] at h0
    obtain ⟨rfl, rfl⟩ : r' = r ∧ e = e' := by cases h0; exact ⟨rfl, rfl⟩
    refine ⟨[], d.buf, rfl, rfl, rfl, ?_⟩
    rintro ⟨k, r0, a, c', hb, h1⟩
    have h2 := s d none
    rw [hr'] at h2
    have h3 := h.complete _ _ _ _ trivial h1 r0 d.pos
    rw [← hb] at h3
    have h2 := h2.trans h3
    cases r' with
    | ok a' d' => cases hr
    | err y d' => cases h2
    | panic => cases h2
  sticks := by
    rintro c b w rest ⟨rfl, h1⟩ pos e _
    obtain ⟨r, hr⟩ := q ⟨rest, pos, c⟩
    refine ⟨r, by rw [show text [] ++ rest = rest from rfl, hr]; rfl, ?_⟩
    cases r with
    | ok a d' =>
      have h2 := s ⟨rest, pos, c⟩ none
      rw [hr] at h2
      obtain ⟨_, k, b, p, r⟩ := h.sound _ _ _ trivial h2.symm rfl
      exact absurd ⟨k, _, a, _, b, r⟩ h1
    | err y d' => rfl
    | panic => rfl

theorem setError {k : DecodeErrorKind} (hk : k ≠ .invalidType) : PSem (P.setError k) (F.mark k) where
  sound := by
    rintro d e a d' e' h; cases h
    exact ⟨[.fault k], rfl, rfl, by simp only [errAfter, noted, if_neg hk], rfl, rfl⟩
  complete := by
    rintro c b w a c' ⟨rfl, rfl⟩ rest pos e _
    simp only [errAfter, noted, if_neg hk]
    rfl
  stuck := by rintro d e r e' h h'; cases h; cases h'
  sticks := by rintro c b w rest h; exact h.elim

theorem mapErrAt : PSem (P.mapErrAt .invalidType) (F.mark .invalidType) where
  sound := by
    rintro d e a d' e' h
    cases e <;> cases h
    · exact ⟨[.fault .invalidType], rfl, rfl, rfl, rfl, rfl⟩
    · exact ⟨[.fault .invalidType], rfl, rfl, rfl, rfl, rfl⟩
  complete := by
    rintro c b w a c' ⟨rfl, rfl⟩ rest pos e _
    cases e <;> rfl
  stuck := by rintro d e r e' h h'; cases e <;> cases h <;> cases h'
  sticks := by rintro c b w rest h; exact h.elim

theorem getCode : PSem P.getCode (F.ok G.code) := ofSem .getCode Sem.getCode .getCode
theorem setCode (c) : PSem (P.setCode c) (F.ok (G.setCode c)) := ofSem (.setCode c) (Sem.setCode c) (.setCode c)
theorem unwrapOpt {α : Type} (o : Option α) : PSem (P.unwrapOpt o) (F.ok (G.some o)) := ofSem (.unwrapOpt o) (Sem.unwrapOpt o) (.unwrapOpt o)
theorem decodeU8 : PSem (P.unwrap Par.decodeU8) (F.ok byteG) := ofSem Sim.decodeU8.unwrap (Sem.unwrap Sem.decodeU8) Untouched.decodeU8.unwrap
theorem decodeI32 : PSem (P.unwrap Par.decodeI32) (F.ok i32G) := ofSem Sim.decodeI32.unwrap (Sem.unwrap Sem.decodeI32) Untouched.decodeI32.unwrap
theorem index : PSem Par.index (F.ok idxG) := ofSem .index Sem.index .index
theorem readSuper : PSem Par.readSuper (F.ok superG) := ofSem .readSuper Sem.readSuper .readSuper
theorem peekAdvance (n) : PSem (Par.peekAdvance n) (F.ok (bytesG n)) := ofSem (.peekAdvance n) (Sem.peekAdvance n) (.peekAdvance n)
theorem slice (st : Str) (cursor n : Nat) : PSem (do let tail ← Par.sliceFrom st cursor; Par.sliceTo tail n) (F.ok (sliceG st cursor n)) :=
  ofSem (.bind (.sliceFrom _ _) fun _ => .sliceTo _ _) (Sem.slice st cursor n) (.slice st cursor n)
theorem i32Add (p a b) : PSem (Par.i32Add p a b) (F.ok (i32AddG p a b)) := ofSem (.i32Add p a b) (Sem.i32Add p a b) (.i32Add p a b)

theorem panic {α : Type} {g : F α} (h : Halt g) : PSem P.panic g where
  sound := by rintro d e a d' e' h0; cases h0
  complete := by rintro c b w a c' h1; exact absurd h1 (h.parse _ _ _ _ _)
  stuck := by rintro d e r e' h0 _; cases h0; exact ⟨[], d.buf, rfl, rfl, (h.stop _ _ _ _).2 rfl⟩
  sticks := by
    rintro c b w rest h1 pos e _
    obtain rfl := (h.stop _ _ _ _).1 h1
    exact ⟨.panic, rfl, rfl⟩

/-- A condition that the decoder checks by panicking, and the grammar by a guard. -/
theorem guardIf {α : Type} {b : Prop} [Decidable b] {y : P α} {g : F α} {Q : Prop} (hQ : Q ↔ ¬ b) (hy : ¬ b → PSem y g) :
    PSem (if b then P.panic else y) (do F.ok (G.guard Q); g) := by
  split
  · next h => exact panic (.bind (.guard fun h1 => hQ.1 h1 h) _)
  · next h => rw [F_guard (hQ.2 h), F_pure_bind]; exact hy h

theorem insertAt {α : Type} (v : List α) (i : Nat) (x : α) :
    PSem (P.insertAt v i x) (do F.ok (G.guard (i ≤ v.length)); Pure.pure (v.insertIdx i x)) := by
  have e : P.insertAt v i x = if ¬ i ≤ v.length then P.panic else P.pure (v.insertIdx i x) := by
    unfold P.insertAt
    by_cases h : i ≤ v.length
    · rw [if_pos h, if_neg (fun h1 => h1 h)]
    · rw [if_neg h, if_pos h]
  rw [e]
  exact guardIf (by simp) fun _ => pure' _

theorem uindex : PSem Par.uindex natF :=
  bind index fun _ => ite (fun _ => bind (setError (by decide)) fun _ => pure _) (fun _ => pure _)
theorem uindexI : PSem Par.uindexI natIF := bind uindex fun _ => pure _

/-- Reading a reference. -/
theorem ref {α : Type} {n : Code → Nat} {y : Code → P α} {z : Code → Int → P α} {e : DecodeErrorKind} (he : e ≠ .invalidType)
    {get : Code → Nat → F α} {other : Code → F α} (hy : ∀ d, PSem (y d) (other d)) (hz : ∀ d (j : Nat), PSem (z d j) (get d j)) :
    PSem (do
      let i ← Par.index
      let d ← P.getCode
      let bad ← Par.badIndex i (n d)
      if bad then do
        P.setError e
        y d
      else z d i) (refF n e get other) := by
  refine bind index fun i => bind getCode fun d => ?_
  by_cases hi : i < 0
  · have h1 : Par.badIndex i (n d) = P.pure true := by unfold Par.badIndex; rw [if_pos hi]
    rw [h1, P_pure_bind, if_pos hi]
    exact bind (setError he) fun _ => hy d
  · rw [if_neg hi]
    have h1 : (Par.badIndex i (n d) >>= fun bad => if bad = true then (do P.setError e; y d) else z d i) =
        if ¬ n d < 2 ^ 31 then P.panic else (if (n d : Int) ≤ i then (do P.setError e; y d) else z d i) := by
      unfold Par.badIndex
      rw [if_neg hi]
      unfold Par.toI32
      by_cases hn : n d < 2 ^ 31
      · rw [if_pos hn, if_neg (by simpa using hn)]
        show (if decide (i ≥ (n d : Int)) = true then _ else _) = _
        by_cases h2 : (n d : Int) ≤ i
        · rw [if_pos h2, if_pos (by simpa using h2)]
        · rw [if_neg h2, if_neg (by simpa using h2)]
      · rw [if_neg hn, if_pos hn]; rfl
    rw [h1]
    refine guardIf (by omega) fun _ => ite (fun _ => bind (setError he) fun _ => hy d) fun _ => ?_
    obtain ⟨j, rfl⟩ := Int.eq_ofNat_of_zero_le (show 0 ≤ i by omega)
    exact hz d j

theorem readString : PSem Par.readString stringRefF :=
  ref (n := Code.nstrings) (e := .invalidStringIndex) (y := fun _ => Pure.pure []) (z := fun d i => P.unwrapOpt d.strings[i.toNat]?)
    (by decide) (fun _ => pure _) (fun _ _ => unwrapOpt _)

theorem getType : PSem Par.getType typeRefF :=
  ref (n := Code.ntypes) (e := .invalidTypeIndex) (y := fun d => P.unwrapOpt d.types[0]?) (z := fun d i => P.unwrapOpt d.types[i.toNat]?)
    (by decide) (fun _ => unwrapOpt _) (fun _ _ => unwrapOpt _)

theorem cache (d : Code) (j : Nat) : PSem (match getUstring d ((j : Int).toNat) with
    | .panic => P.panic
    | .ret (r, c) => do
      P.setCode c
      Pure.pure r) (F.ok (cachedG d j)) := by
  refine ofSem (y := match getUstring d ((j : Int).toNat) with
    | .panic => M.panic
    | .ret (r, c) => do
      M.setCode c
      Pure.pure r) ?_ (Sem.cache d j) ?_
  · split
    · exact .panic
    · exact .bind (.setCode _) fun _ => .pure _
  · split
    · exact .panic
    · exact .bind (.setCode _) fun _ => .pure _

theorem readUstring : PSem Par.readUstring ustringRefF :=
  ref (n := Code.nstrings) (e := .invalidStringIndex) (y := fun _ => Pure.pure [])
    (z := fun d i => match getUstring d i.toNat with
      | .panic => P.panic
      | .ret (r, c) => do
        P.setCode c
        Pure.pure r) (by decide) (fun _ => pure _) cache

theorem many_succ {α : Type} (g : F α) (n : Nat) : F.many g (n + 1) = (do let a ← g; let l ← F.many g n; Pure.pure (a :: l)) := rfl

/-- `for i in a.. { x = rd(); v.insert(i, x) }` reads a list. -/
theorem pushLoop {α : Type} {rd : P α} {g : F α} (h : PSem rd g) (tail : List α) : ∀ (n : Nat) (acc : List α),
    PSem (P.forRange (fun i v => do let x ← rd; P.insertAt v i x) acc.length n (acc ++ tail))
      (do let l ← F.many g n; Pure.pure (acc ++ l ++ tail))
  | 0, acc => by
    have : (do let l ← F.many g 0; Pure.pure (acc ++ l ++ tail) : F (List α)) = Pure.pure (acc ++ tail) := by
      show (do let l ← (Pure.pure [] : F (List α)); Pure.pure (acc ++ l ++ tail) : F (List α)) = _
      rw [F_pure_bind, List.append_nil]
    rw [this]
    exact pure _
  | n + 1, acc => by
    have ih := fun x => pushLoop h tail n (acc ++ [x])
    have e : (P.forRange (fun i v => do let x ← rd; P.insertAt v i x) acc.length (n + 1) (acc ++ tail)) =
        (rd >>= fun x => P.forRange (fun i v => do let x ← rd; P.insertAt v i x) (acc ++ [x]).length n (acc ++ [x] ++ tail)) := by
      show (rd >>= fun x => P.insertAt (acc ++ tail) acc.length x) >>= _ = _
      rw [P_bind_assoc]
      congr 1
      funext a
      have hi : (acc ++ tail).insertIdx acc.length a = acc ++ [a] ++ tail := insertIdx_append_length acc tail a
      have h2 : P.insertAt (acc ++ tail) acc.length a = P.pure (acc ++ [a] ++ tail) := by
        unfold P.insertAt
        rw [if_pos (by simp), hi]
      rw [h2, P_pure_bind]
      simp
    rw [e, many_succ]
    simp only [F_bind_assoc, F_pure_bind]
    refine bind h fun x => ?_
    have := ih x
    simp only [List.append_assoc, List.cons_append, List.nil_append] at this ⊢
    exact this

theorem pushLoop0 {α : Type} {rd : P α} {g : F α} (h : PSem rd g) (n : Nat) :
    PSem (P.forRange (fun i v => do let x ← rd; P.insertAt v i x) 0 n []) (F.many g n) := by
  have := pushLoop h [] n []
  simp only [List.append_nil, List.nil_append, List.length_nil, F_bind_pure] at this
  exact this

theorem forRange {β : Type} {f : Nat → β → P β} {g : Nat → β → F β} (I : Nat → β → Prop)
    (hf : ∀ i b, I i b → PSem (f i b) (g i b)) (hg : ∀ i b c d w b' c', I i b → (g i b).parse c d w b' c' → I (i + 1) b') :
    ∀ (n a : Nat) (b : β), I a b → PSem (P.forRange f a n b) (F.loop g a n b)
  | 0, _, b, _ => pure b
  | n + 1, a, b, h => bindQ (hf a b h) fun b1 ⟨_, _, _, _, h1⟩ => forRange I hf hg n (a + 1) b1 (hg _ _ _ _ _ _ _ h h1)

theorem readTypeRefs (n) : PSem (Par.readTypeRefs n) (F.many typeRefF n) := pushLoop0 getType n
theorem readField : PSem Par.readField fieldF := by
  unfold fieldF; rw [crc_fun]; exact bind readUstring fun _ => bind getType fun _ => pure _
theorem readFields (n) : PSem (Par.readFields n) (F.many fieldF n) := pushLoop0 readField n
theorem readProto : PSem Par.readProto protoF := by
  unfold protoF; rw [crc_fun]; exact bind readUstring fun _ => bind uindex fun _ => bind index fun _ => pure _
theorem readProtos (n) : PSem (Par.readProtos n) (F.many protoF n) := pushLoop0 readProto n
theorem readConstruct : PSem Par.readConstruct constructF :=
  bind readUstring fun _ => bind uindex fun _ => bind (readTypeRefs _) fun _ => pure _
theorem readConstructs (n) : PSem (Par.readConstructs n) (F.many constructF n) := pushLoop0 readConstruct n
theorem readFuncType : PSem Par.readFuncType funcTypeF :=
  bind decodeU8 fun _ => bind (readTypeRefs _) fun _ => bind getType fun _ => pure _

theorem insertAt_ok {α : Type} (v : List α) (i : Nat) (x : α) (h : i = v.length) : P.insertAt v i x = P.pure (v ++ [x]) := by
  subst h
  unfold P.insertAt
  rw [if_pos (Nat.le_refl _)]
  have := insertIdx_append_length v [] x
  simp only [List.append_nil] at this
  rw [this]

theorem bindingsLoop : ∀ (n i : Nat) (acc : List Nat), acc.length = 2 * i →
    PSem (P.forRange (fun i v => do
      let a ← Par.uindex
      let v ← P.insertAt v (i <<< 1) a
      let b ← Par.uindex
      P.insertAt v ((i <<< 1) ||| 1) b) i n acc)
      (do let l ← F.many bindingF n; Pure.pure (acc ++ l.flatMap fun b => [b.1, b.2]))
  | 0, i, acc, _ => by
    have : (do let l ← F.many bindingF 0; Pure.pure (acc ++ l.flatMap fun b => [b.1, b.2]) : F (List Nat)) = Pure.pure acc := by
      show (do let l ← (Pure.pure [] : F (List (Nat × Nat))); Pure.pure (acc ++ l.flatMap fun b => [b.1, b.2]) : F (List Nat)) = _
      rw [F_pure_bind]; simp
    rw [this]
    exact pure _
  | n + 1, i, acc, hl => by
    have e1 : i <<< 1 = acc.length := by rw [Nat.shiftLeft_eq]; omega
    have e2 : (i <<< 1) ||| 1 = acc.length + 1 := by
      have := Nat.shiftLeft_add_eq_or_of_lt (b := 1) (i := 1) (by decide) i
      rw [← this, e1]
    have body : (do
        let a ← Par.uindex
        let v ← P.insertAt acc (i <<< 1) a
        let b ← Par.uindex
        P.insertAt v ((i <<< 1) ||| 1) b : P (List Nat)) = (do
        let a ← Par.uindex
        let b ← Par.uindex
        Pure.pure (acc ++ [a, b])) := by
      have : ∀ a, (do
          let v ← P.insertAt acc (i <<< 1) a
          let b ← Par.uindex
          P.insertAt v ((i <<< 1) ||| 1) b : P (List Nat)) = (do
          let b ← Par.uindex
          Pure.pure (acc ++ [a, b])) := by
        intro a
        rw [insertAt_ok _ _ _ e1, P_pure_bind]
        have : ∀ b, P.insertAt (acc ++ [a]) ((i <<< 1) ||| 1) b = P.pure (acc ++ [a, b]) := by
          intro b
          rw [insertAt_ok _ _ _ (by rw [e2]; simp)]
          simp
        simp only [this]
        rfl
      simp only [this]
    have e : ∀ F : Nat → List Nat → P (List Nat), F i acc = (do
        let a ← Par.uindex
        let b ← Par.uindex
        Pure.pure (acc ++ [a, b])) → P.forRange F i (n + 1) acc = (do
        let a ← Par.uindex
        let b ← Par.uindex
        P.forRange F (i + 1) n (acc ++ [a, b])) := by
      intro F hF
      show F i acc >>= _ = _
      rw [hF, P_bind_assoc]
      congr 1; funext a
      rw [P_bind_assoc]
      rfl
    rw [e _ body, many_succ, bindingF]
    simp only [F_bind_assoc, F_pure_bind]
    refine bind uindex fun a => bind uindex fun b => ?_
    have := bindingsLoop n (i + 1) (acc ++ [a, b]) (by simp [hl]; omega)
    simp only [List.append_assoc, List.cons_append, List.nil_append, List.flatMap_cons] at this ⊢
    exact this

theorem readBindings (n) : PSem (Par.readBindings n) (do let l ← F.many bindingF n; Pure.pure (l.flatMap fun b => [b.1, b.2])) := by
  have := bindingsLoop n 0 [] rfl
  simp only [List.nil_append] at this
  exact this

theorem readObjType : PSem Par.readObjType objTypeF := by
  unfold Par.readObjType
  have := (bind readUstring fun name => bind readSuper fun sup => bind uindex fun global => bind uindex fun nf =>
    bind uindex fun np => bind uindex fun nb => bind (readFields nf) fun fs => bind (readProtos np) fun ps =>
    bind (readBindings nb) fun bs => pure (ValueTypeU.obj name sup fs nf np nb ps bs [(global : Int)] none))
  simp only [F_bind_assoc, F_pure_bind] at this
  exact this

theorem readVirtualType : PSem Par.readVirtualType virtualTypeF := bind uindex fun _ => bind (readFields _) fun _ => pure _
theorem readEnumType : PSem Par.readEnumType enumTypeF :=
  bind readUstring fun _ => bind uindex fun _ => bind uindex fun _ => bind (readConstructs _) fun _ => pure _

theorem readTypeBody (t) : PSem (Par.readTypeBody t) (typeBodyF t) := by
  obtain ⟨u, a, tp, k⟩ := t
  cases k
  case HFUN => exact bind readFuncType fun _ => pure _
  case HMETHOD => exact bind readFuncType fun _ => pure _
  case HOBJ => exact bind readObjType fun _ => pure _
  case HSTRUCT => exact bind readObjType fun _ => pure _
  case HREF => exact bind getType fun _ => pure _
  case HVIRTUAL => exact bind readVirtualType fun _ => pure _
  case HABSTRACT => exact bind readUstring fun _ => pure _
  case HENUM => exact bind readEnumType fun _ => pure _
  case HNULL => exact bind getType fun _ => pure _
  case HPACKED => exact bind getType fun _ => pure _
  all_goals exact pure _

theorem readType : PSem (Par.readType ValueType.default) typeF :=
  bind decodeU8 fun _ => ite (fun _ => bind mapErrAt fun _ => pure _) (fun h => by
    rw [hlKinds_eq (Nat.lt_of_not_le h)]
    exact bind (unwrapOpt _) fun _ => readTypeBody _)

theorem readStringsLoop (st) : ∀ n cursor strs lens, PSem (Par.readStringsLoop st n cursor strs lens)
    (do let l ← poolF st n cursor; Pure.pure (strs ++ l, lens ++ l.map List.length))
  | 0, cursor, strs, lens => by
    have : (do let l ← poolF st 0 cursor; Pure.pure (strs ++ l, lens ++ l.map List.length) : F (List Str × List Nat)) = Pure.pure (strs, lens) := by
      show (do let l ← (Pure.pure [] : F (List Str)); Pure.pure (strs ++ l, lens ++ l.map List.length) : F (List Str × List Nat)) = _
      rw [F_pure_bind]; simp
    rw [this]
    exact pure _
  | n + 1, cursor, strs, lens => by
    unfold Par.readStringsLoop poolF
    simp only [F_bind_assoc]
    refine bind uindex fun sz => ?_
    rw [← P_bind_assoc]
    refine bind (slice st cursor sz) fun s => ?_
    simp only [F_bind_ite, F_bind_assoc, F_pure_bind]
    refine ite (fun _ => pure _) (fun _ => ?_)
    have := readStringsLoop st n (cursor + sz + 1) (strs ++ [s]) (lens ++ [s.length])
    simpa only [List.append_assoc, List.cons_append, List.nil_append, List.map_cons] using this

theorem readStrings (n) : PSem (Par.readStrings n) (do let l ← stringsF n; Pure.pure (l, l.map List.length)) := by
  unfold stringsF
  simp only [F_bind_assoc]
  refine bind decodeI32 fun size => guardIf (by omega) (fun _ => bind (peekAdvance _) fun b => ?_)
  rw [F_lossy, F_pure_bind]
  have := readStringsLoop (fromUtf8Lossy b) n 0 [] []
  simpa only [List.nil_append] using this

theorem readExtra {rd : P Int} {g : F Int} (h : PSem rd g) (n) : PSem (Par.readExtra rd n)
    (do let l ← F.many g n; Pure.pure (l ++ List.replicate n 0)) := by
  have := pushLoop h (List.replicate n 0) n []
  simp only [List.nil_append, List.length_nil] at this
  exact this

theorem readSwitch (r) : PSem (Par.readSwitch r) (switchF r) := by
  have := (bind uindexI fun p1 => bind uindex fun p2 => bind (readExtra uindexI p2) fun extra => bind uindexI fun p3 =>
    pure { r with p1 := some p1, p2 := some (p2 : Int), p3 := some p3, extra := extra })
  simp only [F_bind_assoc, F_pure_bind] at this
  exact this

theorem nargs_switch : ∀ n < 99, Op.ofNat? n = some .OSwitch → OP_NARGS[n]? = some (-1) := by decide +kernel

theorem readOpcode : PSem Par.readOpcode opcodeF := by
  refine bind decodeU8 fun n => ite (fun _ => bind (setError (by decide)) fun _ => pure _) (fun hn => ?_)
  rw [hlOps_eq (by omega)]
  cases ho : Op.ofNat? n with
  | none =>
    exact panic (.bind .none _)
  | some op =>
    show PSem (P.unwrapOpt OP_NARGS[n]? >>= fun i => Par.readOperands { Opcode.default with op := op } i) _
    rw [F_some rfl, F_pure_bind]
    split
    · next h =>
      subst h
      rw [nargs_switch n (by omega) ho]
      exact readSwitch _
    · next h =>
      rw [arity_of ho]
      exact ofSem (.readOperands _ _) (Sem.readOperands _ _) (.readOperands _ _ h)

theorem unwrap_run {α : Type} (x : P α) (d : Dec) (e : Option DecodeError) :
    ((P.unwrap x) d).run e = match (x d).run e with
      | (.ok a d', e') => (.ok a d', e')
      | (.err _ _, e') => (.panic, e')
      | (.panic, e') => (.panic, e') := by
  show ((x d).andThen _).run e = _
  rw [Tree.run_andThen]
  cases h : (x d).run e with
  | mk r e' => cases r <;> rfl

theorem unwrap {α : Type} {x : P α} {g : F α} (hx : PSem x g) : PSem (P.unwrap x) g where
  sound := by
    rintro d e b d' e' h
    rw [unwrap_run] at h
    split at h <;> cases h
    next h1 => exact hx.sound _ _ _ _ _ h1
  complete := by
    rintro c b w a c' h rest pos e he
    rw [unwrap_run, hx.complete _ _ _ _ _ h rest pos e he]
  stuck := by
    rintro d e r e' h hr
    rw [unwrap_run] at h
    split at h <;> cases h
    · cases hr
    · next h1 => exact hx.stuck _ _ _ _ h1 rfl
    · next h1 => exact hx.stuck _ _ _ _ h1 rfl
  sticks := by
    rintro c b w rest h pos e he
    obtain ⟨r, h1, h2⟩ := hx.sticks _ _ _ _ h pos e he
    rw [unwrap_run, h1]
    cases r with
    | ok a d => cases h2
    | err y d => exact ⟨_, rfl, rfl⟩
    | panic => exact ⟨_, rfl, rfl⟩

theorem readOpcodes (n) : PSem (Par.readOpcodes n) (F.many opcodeF n) := pushLoop0 (unwrap readOpcode) n

theorem getErrors {α : Type} {x y : P α} {g h : F α} (hx : PSem x g) (hy : PSem y h) :
    PSem (P.getErrors >>= fun e => if e.isSome then x else y) (F.before >>= fun b => if b then g else h) := by
  have key : ∀ b : Bool, PSem (if b then x else y) (if b then g else h) := fun b => ite (fun _ => hx) (fun _ => hy)
  constructor
  · rintro d e a d' e' h0
    obtain ⟨w, b1, p1, e1, r1⟩ := (key e.isSome).sound _ _ _ _ _ (show ((if e.isSome then x else y) d).run e = _ from h0)
    exact ⟨w, b1, p1, e1, [], w, _, _, rfl, ⟨rfl, rfl, rfl⟩, by simpa [faulty] using r1⟩
  · rintro c b w a c' ⟨_, w2, b', _, rfl, ⟨rfl, rfl, rfl⟩, h2⟩ rest pos e he
    simp only [faulty, Bool.or_false] at h2
    subst he
    exact (key e.isSome).complete _ _ _ _ _ h2 rest pos e rfl
  · rintro d e r e' h0 hr
    obtain ⟨w, rest, b1, e1, r1⟩ := (key e.isSome).stuck _ _ _ _ (show ((if e.isSome then x else y) d).run e = _ from h0) hr
    exact ⟨w, rest, b1, e1, .inr ⟨[], w, _, _, rfl, ⟨rfl, rfl, rfl⟩, by simpa [faulty] using r1⟩⟩
  · rintro c b w rest (h1 | ⟨_, w2, b', _, rfl, ⟨rfl, rfl, rfl⟩, h2⟩) pos e he
    · exact h1.elim
    · simp only [faulty, Bool.or_false] at h2
      subst he
      exact (key e.isSome).sticks _ _ _ _ h2 pos e rfl

theorem readFunction : PSem Par.readFunction functionF := by
  unfold Par.readFunction functionF
  refine bind getType fun t => bind uindex fun fi => bind uindex fun nr => bind uindex fun no => bind (readTypeRefs nr) fun regs => ?_
  simp only [F_pure_bind]
  exact getErrors (pure _) (bind (readOpcodes no) fun ops => pure _)

theorem readNative_step (i c) : PSem (Par.readNativesStep i c) (nativesStepF i c) := by
  have := (bind (bind readString fun lib => bind readString fun name => bind getType fun t => bind uindex fun findex =>
      pure ({ lib := lib, name := name, t := t, findex := findex } : Native)) fun n =>
    bind (setCode { c with natives := c.natives ++ [n] }) fun _ => pure { c with natives := c.natives ++ [n] })
  simp only [F_bind_assoc, F_pure_bind] at this
  exact this

theorem readNatives (c : Code) : PSem (P.forRange Par.readNativesStep 0 c.nnatives { c with natives := [] }) (nativesF c) :=
  forRange (fun _ _ => True) (fun i c _ => readNative_step i c) (fun _ _ _ _ _ _ _ _ _ => trivial) _ _ _ trivial

theorem readTypesStep (i c) : PSem (Par.readTypesStep i c) (typesStepF i c) := by
  have := (bind (setCode c) fun _ => bind readType fun t => bind getCode fun d => bind (insertAt d.types i t) fun ts =>
    bind (setCode { d with types := ts }) fun _ => pure { d with types := ts })
  simp only [F_bind_assoc, F_pure_bind] at this
  exact this

theorem readTypes (c) : PSem (Par.readTypes c) (typesF c) :=
  forRange (fun _ _ => True) (fun i c _ => readTypesStep i c) (fun _ _ _ _ _ _ _ _ _ => trivial) _ _ _ trivial

theorem uindexIf {b : Prop} [Decidable b] : PSem (Par.uindexIf (decide b)) (natIfF b) := by
  unfold Par.uindexIf natIfF
  by_cases h : b
  · simp only [h, decide_true, if_true]; exact uindex
  · simp only [h, decide_false, if_false]; exact pure' _

theorem readCounts (v) : PSem (Par.readCounts v) (countsF v) := by
  unfold Par.readCounts countsF
  simp only [Nat.and_one_is_mod]
  exact bind uindex fun _ => bind uindex fun _ => bind uindex fun _ => bind uindex fun _ => bind uindexIf fun _ =>
    bind uindex fun _ => bind uindex fun _ => bind uindex fun _ => bind uindex fun _ => bind uindexIf fun _ =>
    bind uindex fun _ => pure _

theorem readConstant : PSem Par.readConstant constantF :=
  bind uindex fun _ => bind uindex fun _ => bind (pushLoop0 uindex _) fun _ => pure _

theorem readBytesPos (n) : PSem (Par.readBytesPos n) (F.many natF n) := pushLoop0 uindex n

end PSem

/-! ## `FSem` -/

/-- `x` returns `Ok` exactly on the phrases of `g`, whatever follows, and records what the marks say. -/
structure FSem {α : Type} (x : M α) (g : F α) : Prop where
  sound : ∀ s a s', x s = .ok a s' →
    ∃ w, s.buf = text w ++ s'.buf ∧ s'.pos = s.pos + (text w).length ∧ s'.errors = errAfter s.errors s.pos w ∧
      g.parse s.code s.errors.isSome w a s'.code
  complete : ∀ c b w a c', g.parse c b w a c' → ∀ rest pos e, e.isSome = b →
    x ⟨text w ++ rest, pos, c, e⟩ = .ok a ⟨rest, pos + (text w).length, c', errAfter e pos w⟩

theorem FSem.ofSim {α : Type} {x : P α} {y : M α} {g : F α} (s : Sim x y) (h : PSem x g) : FSem y g where
  sound := by
    rintro ⟨buf, pos, c, e⟩ a s' h0
    rcases s.cases ⟨buf, pos, c⟩ e with ⟨a', d', e', h1, h2⟩ | ⟨z, d', e', h1, h2⟩ | ⟨e', h1, h2⟩
    · have h2 := h2.symm.trans h0
      cases h2
      exact h.sound _ _ _ _ _ h1
    · have h2 := h2.symm.trans h0; cases h2
    · have h2 := h2.symm.trans h0; cases h2
  complete := by
    rintro c b w a c' h0 rest pos e he
    have h1 := s ⟨text w ++ rest, pos, c⟩ e
    rw [h.complete _ _ _ _ _ h0 rest pos e he] at h1
    exact h1.symm

end Verif.Brass
