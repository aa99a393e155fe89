import Verif.Brass.Requests
import Verif.Brass.ReportDebug
import Verif.Props.Roundtrip
import Verif.Brass.SpecEq
import Verif.Spec.Requests

/-!
# What the requests are
-/

namespace Verif.Brass

open Verif Verif.Brass.Spec

/-! ## What functions do to `decoder.code` -/

/-- `T` relates `decoder.code` before and after a successful call. -/
def Pres (T : Code → Code → Prop) {α : Type} (x : M α) : Prop := ∀ s a s', x s = .ok a s' → T s.code s'.code

/-- A reflexive and transitive relation. -/
structure Composes (T : Code → Code → Prop) : Prop where
  refl : ∀ c, T c c
  trans : ∀ a b c, T a b → T b c → T a c

namespace Pres

variable {T : Code → Code → Prop} (hT : Composes T) {α β : Type}
include hT

theorem pure {a : α} : Pres T (Pure.pure a : M α) := by intro s b s' e; cases e; exact hT.refl _
theorem pure' {a : α} : Pres T (M.pure a : M α) := pure hT
omit hT in
theorem panic : Pres T (M.panic : M α) := by intro s b s' e; cases e
omit hT in
theorem failAt {k} : Pres T (M.failAt k : M α) := by intro s b s' e; cases e
theorem getCode : Pres T M.getCode := by intro s b s' e; cases e; exact hT.refl _
theorem getErrors : Pres T M.getErrors := by intro s b s' e; cases e; exact hT.refl _
theorem setError {k} : Pres T (M.setError k) := by intro s b s' e; cases e; exact hT.refl _
theorem recordError_code {e : DecodeError} {s : St} : (M.recordError e s).code = s.code := by
  unfold M.recordError; split <;> rfl
theorem mapErrAt {k} : Pres T (M.mapErrAt k) := by
  intro s b s' e; cases e; rw [recordError_code hT]; exact hT.refl _
theorem peek {n} : Pres T (M.peek n) := by
  intro s b s' e; unfold M.peek at e; split at e <;> cases e; exact hT.refl _
theorem checkError : Pres T M.checkError := by
  intro s b s' e; unfold M.checkError at e; split at e <;> cases e; exact hT.refl _
theorem bind {x : M α} {f : α → M β} (hx : Pres T x) (hf : ∀ a, Pres T (f a)) : Pres T (x >>= f) := by
  intro s b s'' h
  obtain ⟨a, s', h1, h2⟩ := M.bind_eq_ok h
  exact hT.trans _ _ _ (hx _ _ _ h1) (hf a _ _ _ h2)
omit hT in
theorem ite {b : Prop} [Decidable b] {x y : M α} (hx : Pres T x) (hy : Pres T y) : Pres T (if b then x else y) := by
  split
  · exact hx
  · exact hy
omit hT in
theorem unwrap {x : M α} (hx : Pres T x) : Pres T (M.unwrap x) := by
  intro s a s' h; unfold M.unwrap at h; split at h <;> cases h
  next e => exact hx _ _ _ e
theorem unwrapOpt {o : Option α} : Pres T (M.unwrapOpt o) := by
  cases o
  · exact panic
  · exact pure' hT
theorem insertAt {v : List α} {i x} : Pres T (M.insertAt v i x) := ite (pure' hT) panic
theorem forRange {f : Nat → β → M β} (hf : ∀ i b, Pres T (f i b)) : ∀ n a b, Pres T (M.forRange f a n b)
  | 0, _, _ => pure' hT
  | n + 1, a, b => bind hT (hf a b) fun b => forRange hf n (a + 1) b
theorem whileReading {c : β → Bool} {f : β → M β} (hf : ∀ b, Pres T (f b)) (b : β) (s : St) (a : β) (s' : St)
    (h : M.whileReading c f b s = .ok a s') : T s.code s'.code := by
  unfold M.whileReading at h
  split at h
  · split at h
    · next b1 s1 e =>
      split at h
      · next hlt => exact hT.trans _ _ _ (hf b _ _ _ e) (whileReading hf b1 s1 a s' h)
      · cases h
    · cases h
    · cases h
  · cases h; exact hT.refl _
termination_by s.buf.length

/-- No error has anything to do with the code, if a failing call leaves it alone. -/
theorem okOrRecord {x : M α} (hx : Pres T x) (he : ∀ s e s', x s = .err e s' → s'.code = s.code) : Pres T (M.okOrRecord x) := by
  intro s a s' h
  unfold M.okOrRecord at h
  split at h <;> cases h
  · next e => exact hx _ _ _ e
  · next e => rw [recordError_code hT, he _ _ _ e]; exact hT.refl _

theorem readBytes {n} : Pres T (readBytes n) := by
  intro s a s' h; unfold Brass.readBytes at h; split at h <;> cases h; exact hT.refl _
theorem advance {n} : Pres T (advance n) := by
  intro s a s' h; unfold Brass.advance at h; split at h <;> cases h; exact hT.refl _
theorem decodeU8 : Pres T decodeU8 := bind hT (readBytes hT) fun _ => pure hT
theorem decodeI32 : Pres T decodeI32 := bind hT (readBytes hT) fun _ => pure hT
theorem decodeF64 : Pres T decodeF64 := bind hT (readBytes hT) fun _ => pure hT
theorem readIndex : Pres T readIndex :=
  bind hT (decodeU8 hT) fun _ => ite (pure hT) (ite (bind hT (unwrap (decodeU8 hT)) fun _ => pure hT)
    (bind hT (decodeU8 hT) fun _ => bind hT (decodeU8 hT) fun _ => bind hT (decodeU8 hT) fun _ => pure hT))
theorem index : Pres T index := unwrap (readIndex hT)
theorem uindex : Pres T uindex := bind hT (index hT) fun _ => ite (bind hT (setError hT) fun _ => pure hT) (pure hT)
theorem uindexI : Pres T uindexI := bind hT (uindex hT) fun _ => pure hT
theorem uindexIf {b} : Pres T (uindexIf b) := ite (uindex hT) (pure' hT)
theorem toI32 {n} : Pres T (toI32 n) := ite (pure' hT) panic
theorem badIndex {i n} : Pres T (badIndex i n) := ite (pure' hT) (bind hT (toI32 hT) fun _ => pure hT)
theorem readString : Pres T readString :=
  bind hT (index hT) fun _ => bind hT (getCode hT) fun _ => bind hT (badIndex hT) fun _ => ite (bind hT (setError hT) fun _ => pure hT) (unwrapOpt hT)
theorem getType : Pres T getType :=
  bind hT (index hT) fun _ => bind hT (getCode hT) fun _ => bind hT (badIndex hT) fun _ => ite (bind hT (setError hT) fun _ => unwrapOpt hT) (unwrapOpt hT)
theorem readTypeRefs {n} : Pres T (readTypeRefs n) := forRange hT (fun _ _ => bind hT (getType hT) fun _ => insertAt hT) _ _ _
theorem readExtra {rd : M Int} (h : Pres T rd) {n} : Pres T (readExtra rd n) := forRange hT (fun _ _ => bind hT h fun _ => insertAt hT) _ _ _
theorem readCallLike {r} : Pres T (readCallLike r) :=
  bind hT (index hT) fun _ => bind hT (index hT) fun _ => bind hT (unwrap (decodeU8 hT)) fun _ => bind hT (readExtra hT (index hT)) fun _ => pure hT
theorem readSwitch {r} : Pres T (readSwitch r) :=
  bind hT (uindexI hT) fun _ => bind hT (uindex hT) fun _ => bind hT (readExtra hT (uindexI hT)) fun _ => bind hT (uindexI hT) fun _ => pure hT
theorem readOperands {r i} : Pres T (readOperands r i) := by
  have hi := index hT
  refine ite (pure' hT) (ite (bind hT hi fun _ => pure hT) (ite (bind hT hi fun _ => bind hT hi fun _ => pure hT)
    (ite (bind hT hi fun _ => bind hT hi fun _ => bind hT hi fun _ => pure hT)
      (ite (bind hT hi fun _ => bind hT hi fun _ => bind hT hi fun _ => bind hT hi fun _ => pure hT)
        (ite ?_ (bind hT hi fun _ => bind hT hi fun _ => bind hT hi fun _ => ite panic (bind hT (readExtra hT hi) fun _ => pure hT)))))))
  generalize r.op = o
  cases o <;> first | exact readCallLike hT | exact readSwitch hT | exact failAt
theorem setErrorIf {b k} : Pres T (setErrorIf b k) := ite (setError hT) (pure' hT)
theorem i32Add {p a b} : Pres T (i32Add p a b) := by
  refine ite (pure' hT) ?_
  cases p
  · exact panic
  · exact pure' hT
theorem debugStore {d} : Pres T (debugStore d) := ite (pure' hT) panic
theorem debugBody {p n d} : Pres T (debugBody p n d) :=
  bind hT (unwrap (decodeU8 hT)) fun _ => ite
    (bind hT (unwrap (decodeU8 hT)) fun _ => bind hT (getCode hT) fun _ => bind hT (toI32 hT) fun _ => bind hT (setErrorIf hT) fun _ => pure hT)
    (ite (bind hT (setErrorIf hT) fun _ => bind hT (i32Add hT) fun _ => pure hT)
      (ite (bind hT (i32Add hT) fun _ => debugStore hT)
        (bind hT (unwrap (decodeU8 hT)) fun _ => bind hT (unwrap (decodeU8 hT)) fun _ => debugStore hT)))
theorem debugInfos {p n} : Pres T (debugInfos p n) :=
  bind hT (fun s a s' h => whileReading hT (fun _ => debugBody hT) _ s a s' h) fun _ => pure hT
theorem skipAssigns : Pres T skipAssigns :=
  bind hT (uindex hT) fun _ => forRange hT (fun _ _ => bind hT (uindex hT) fun _ => bind hT (index hT) fun _ => pure hT) _ _ _
theorem skipAssignsIf {b} : Pres T (skipAssignsIf b) := ite (skipAssigns hT) (pure' hT)
theorem readMagic : Pres T readMagic :=
  bind hT (unwrap (decodeU8 hT)) fun _ => ite failAt (bind hT (unwrap (decodeU8 hT)) fun _ => ite failAt
    (bind hT (unwrap (decodeU8 hT)) fun _ => ite failAt (pure hT)))
theorem readVersion : Pres T readVersion := bind hT (unwrap (decodeU8 hT)) fun _ => ite failAt (pure hT)
theorem readCounts {v} : Pres T (readCounts v) := by
  have h := uindex hT
  exact bind hT h fun _ => bind hT h fun _ => bind hT h fun _ => bind hT h fun _ => bind hT (uindexIf hT) fun _ => bind hT h fun _ =>
    bind hT h fun _ => bind hT h fun _ => bind hT h fun _ => bind hT (uindexIf hT) fun _ => bind hT h fun _ => pure hT
theorem insertIfSome {v : List α} {i o} : Pres T (insertIfSome v i o) := by
  cases o
  · exact pure' hT
  · exact insertAt hT
theorem checked {x : M α} (h : Pres T x) : Pres T (checked x) := bind hT h fun _ => bind hT (checkError hT) fun _ => pure hT
theorem readPool {rd : M α} (h : Pres T rd) (he : ∀ s e s', rd s = .err e s' → s'.code = s.code) {n} : Pres T (readPool rd n) :=
  forRange hT (fun _ _ => bind hT (okOrRecord hT h he) fun _ => insertIfSome hT) _ _ _
omit hT in
theorem bytes_err {n : Nat} {f : List UInt8 → α} (s : St) (e : DecodeError) (s' : St)
    (h : (do let b ← Brass.readBytes n; Pure.pure (f b) : M α) s = .err e s') : s'.code = s.code := by
  rw [M.bind_def] at h
  split at h
  · cases h
  · next e1 =>
    cases h
    unfold Brass.readBytes at e1
    split at e1 <;> cases e1
    rfl
  · cases h
theorem sliceFrom {s i} : Pres T (sliceFrom s i) := ite (pure' hT) panic
theorem sliceTo {s i} : Pres T (sliceTo s i) := ite (pure' hT) panic
theorem readStringsLoop {st} : ∀ n cur a b, Pres T (readStringsLoop st n cur a b)
  | 0, _, _, _ => pure' hT
  | n + 1, _, _, _ => bind hT (uindex hT) fun _ => bind hT (sliceFrom hT) fun _ => bind hT (sliceTo hT) fun _ =>
    ite (pure hT) (readStringsLoop n _ _ _)
theorem readStrings {n} : Pres T (readStrings n) :=
  bind hT (unwrap (decodeI32 hT)) fun _ => ite panic (bind hT (bind hT (peek hT) fun _ => bind hT (advance hT) fun _ => pure hT)
    fun _ => readStringsLoop hT _ _ _ _)

end Pres

/-! ### Functions that leave the code alone -/

theorem composes_eq : Composes (fun c c' : Code => c' = c) := ⟨fun _ => rfl, fun _ _ _ h h' => h'.trans h⟩

/-! ### Functions that only change the cache of strings -/

/-- The code without the cache of strings. -/
def Code.uncached (c : Code) : Code := { c with ustrings := [] }

theorem composes_uncached : Composes (fun c c' : Code => c'.uncached = c.uncached) := ⟨fun _ => rfl, fun _ _ _ h h' => h'.trans h⟩

namespace Pres

/-- Changes of the cache -/
abbrev U {α : Type} (x : M α) : Prop := Pres (fun c c' : Code => c'.uncached = c.uncached) x

theorem readUstring : U readUstring := by
  have hT := composes_uncached
  intro s a s' h
  unfold Brass.readUstring at h
  obtain ⟨i, s1, h1, h⟩ := M.bind_eq_ok h
  obtain ⟨d, s2, h2, h⟩ := M.bind_eq_ok h
  obtain ⟨b, s3, h3, h⟩ := M.bind_eq_ok h
  have e1 := index hT _ _ _ h1
  have e3 : s3.code = s2.code := badIndex composes_eq _ _ _ h3
  cases h2
  cases b with
  | true =>
    have := (Pres.bind hT (setError hT) fun _ => pure hT) _ _ _ h
    rw [e3] at this
    exact this.trans e1
  | false =>
    simp only [Bool.false_eq_true, if_false] at h
    have hg : ∀ r c, getUstring s1.code i.toNat = .ret (r, c) → c.uncached = s1.code.uncached := by
      intro r c hg
      unfold getUstring at hg
      split at hg
      · cases hg
      · split at hg <;> cases hg <;> rfl
      · cases hg; rfl
    cases hr : getUstring s1.code i.toNat with
    | panic => rw [hr] at h; cases h
    | ret r =>
      rw [hr] at h
      cases h
      exact (hg _ _ hr).trans e1

theorem readField : U readField := bind composes_uncached readUstring fun _ => bind composes_uncached (getType composes_uncached) fun _ => pure composes_uncached
theorem readFields {n} : U (readFields n) := forRange composes_uncached (fun _ _ => bind composes_uncached readField fun _ => insertAt composes_uncached) _ _ _
theorem readProto : U readProto := bind composes_uncached readUstring fun _ => bind composes_uncached (uindex composes_uncached) fun _ =>
  bind composes_uncached (index composes_uncached) fun _ => pure composes_uncached
theorem readProtos {n} : U (readProtos n) := forRange composes_uncached (fun _ _ => bind composes_uncached readProto fun _ => insertAt composes_uncached) _ _ _
theorem readBindings {n} : U (readBindings n) := forRange composes_uncached (fun _ _ => bind composes_uncached (uindex composes_uncached) fun _ =>
  bind composes_uncached (insertAt composes_uncached) fun _ => bind composes_uncached (uindex composes_uncached) fun _ => insertAt composes_uncached) _ _ _
theorem readConstruct : U readConstruct := bind composes_uncached readUstring fun _ => bind composes_uncached (uindex composes_uncached) fun _ =>
  bind composes_uncached (readTypeRefs composes_uncached) fun _ => pure composes_uncached
theorem readConstructs {n} : U (readConstructs n) := forRange composes_uncached (fun _ _ => bind composes_uncached readConstruct fun _ => insertAt composes_uncached) _ _ _
theorem readFuncType : U readFuncType := bind composes_uncached (unwrap (decodeU8 composes_uncached)) fun _ =>
  bind composes_uncached (readTypeRefs composes_uncached) fun _ => bind composes_uncached (getType composes_uncached) fun _ => pure composes_uncached
theorem readSuper : U readSuper := bind composes_uncached (index composes_uncached) fun _ => ite (pure composes_uncached)
  (bind composes_uncached (getCode composes_uncached) fun _ => unwrapOpt composes_uncached)
theorem readObjType : U readObjType := by
  have hT := composes_uncached
  have h := uindex hT
  exact bind hT readUstring fun _ => bind hT readSuper fun _ => bind hT h fun _ => bind hT h fun _ => bind hT h fun _ => bind hT h fun _ =>
    bind hT readFields fun _ => bind hT readProtos fun _ => bind hT readBindings fun _ => pure hT
theorem readVirtualType : U readVirtualType := bind composes_uncached (uindex composes_uncached) fun _ => bind composes_uncached readFields fun _ => pure composes_uncached
theorem readEnumType : U readEnumType := by
  have hT := composes_uncached
  have h := uindex hT
  exact bind hT readUstring fun _ => bind hT h fun _ => bind hT h fun _ => bind hT readConstructs fun _ => pure hT
theorem readTypeBody {t} : U (readTypeBody t) := by
  have hT := composes_uncached
  unfold Brass.readTypeBody
  generalize t.kind = k
  cases k <;> first
    | exact bind hT readFuncType fun _ => pure hT
    | exact bind hT readObjType fun _ => pure hT
    | exact bind hT readVirtualType fun _ => pure hT
    | exact bind hT readEnumType fun _ => pure hT
    | exact bind hT readUstring fun _ => pure hT
    | exact bind hT (getType hT) fun _ => pure hT
    | exact pure hT
theorem readType {t} : U (readType t) := bind composes_uncached (unwrap (decodeU8 composes_uncached)) fun _ =>
  ite (bind composes_uncached (mapErrAt composes_uncached) fun _ => pure composes_uncached)
    (bind composes_uncached (unwrapOpt composes_uncached) fun _ => readTypeBody)

end Pres

/-! ## Sizes of numbers -/

theorem decodeU8_lt : Ens decodeU8 (· < 256) := by
  intro s a s' h
  obtain ⟨b, s1, h1, h2⟩ := M.bind_eq_ok (x := readBytes 1) h
  cases h2
  unfold readBytes at h1
  split at h1 <;> cases h1
  rcases hb : s.buf with _ | ⟨x, l⟩
  · simp [leNat]
  · simp [leNat]; exact x.toNat_lt

theorem decodeI32_lt : Ens decodeI32 (· < 2 ^ 31) := by
  intro s a s' h
  obtain ⟨b, s1, h1, h2⟩ := M.bind_eq_ok (x := readBytes 4) h
  cases h2
  unfold readBytes at h1
  split at h1 <;> cases h1
  have h3 := leNat_lt (s.buf.take 4)
  have h4 : (s.buf.take 4).length = 4 := by rw [List.length_take]; omega
  rw [h4] at h3
  unfold toSigned
  split <;> omega

theorem readIndex_lt : Ens readIndex (· < 2 ^ 31) := by
  refine Ens.bind decodeU8_lt fun b hb => Ens.ite (Ens.pure ?_) (Ens.ite (Ens.bind (Ens.unwrap decodeU8_lt) fun x hx => Ens.pure ?_)
    (Ens.bind decodeU8_lt fun c hc => Ens.bind decodeU8_lt fun d hd => Ens.bind decodeU8_lt fun e he => Ens.pure ?_))
  · have : b &&& 0x7F ≤ b := Nat.and_le_left
    omega
  · have h1 : b &&& 31 ≤ 31 := Nat.and_le_right
    have h2 : (b &&& 31) <<< 8 < 2 ^ 13 := by rw [Nat.shiftLeft_eq]; omega
    have h3 := Nat.or_lt_two_pow (n := 13) (show x < 2 ^ 13 by omega) h2
    split <;> omega
  · unfold toSigned
    split <;> omega

theorem uindex_lt : Ens uindex (· < 2 ^ 31) :=
  Ens.bind (Ens.unwrap readIndex_lt) fun i hi => Ens.ite (Ens.bind_ fun _ => Ens.pure (by decide)) (Ens.pure (by omega))

theorem uindexIf_lt (b : Bool) : Ens (uindexIf b) (· < 2 ^ 31) := Ens.ite uindex_lt (Ens.pure' (by decide))

/-! ## Requests -/

/-- No request is longer than this: two words for each of `2^31 - 1` instructions. -/
def maxRequest : Nat := 2 * (2 ^ 31 - 1)

/-- Called when `decoder.code` is `c`, `x` requests at most `maxRequest` at once, and if it returns, then its value, the
new `decoder.code` and the requests satisfy `Q`. -/
def Logs {α : Type} (c : Code) (x : R α) (Q : α → Code → List Nat → Prop) : Prop :=
  ∀ s, s.code = c → (∀ n ∈ (x s).2, n ≤ maxRequest) ∧ ∀ a s', (x s).1 = .ok a s' → Q a s'.code (x s).2

namespace Logs

variable {α β : Type} {c : Code}

theorem mono {x : R α} {Q Q' : α → Code → List Nat → Prop} (h : Logs c x Q) (hq : ∀ a c' l, Q a c' l → Q' a c' l) : Logs c x Q' :=
  fun s hs => ⟨(h s hs).1, fun a s' e => hq _ _ _ ((h s hs).2 a s' e)⟩

theorem pure {a : α} {Q : α → Code → List Nat → Prop} (h : Q a c []) : Logs c (Pure.pure a : R α) Q :=
  fun s hs => ⟨(by intro n hn; cases hn), fun b s' e => by cases e; rw [hs]; exact h⟩

theorem lift {x : M α} {Q : α → Code → List Nat → Prop} (h : ∀ s a s', s.code = c → x s = .ok a s' → Q a s'.code []) : Logs c (R.lift x) Q :=
  fun s hs => ⟨(by intro n hn; cases hn), fun a s' e => h s a s' hs e⟩

/-- A function that leaves the code alone. -/
theorem keep {x : M α} {V : α → Prop} (hx : Pres (fun c c' => c' = c) x) (hv : Ens x V) :
    Logs c (R.lift x) (fun a c' l => c' = c ∧ l = [] ∧ V a) :=
  lift fun s a s' hs e => ⟨(hx s a s' e).trans hs, rfl, hv s a s' e⟩

theorem bind {x : R α} {f : α → R β} {Q : α → Code → List Nat → Prop} {Q' : β → Code → List Nat → Prop} (hx : Logs c x Q)
    (hf : ∀ a c' l, Q a c' l → Logs c' (f a) (fun b c'' l' => Q' b c'' (l ++ l'))) : Logs c (x >>= f) Q' := by
  intro s hs
  have hx := hx s hs
  have hb : (x >>= f) s = R.bind x f s := rfl
  rw [hb]
  unfold R.bind
  rcases h : x s with ⟨o, l⟩
  rw [h] at hx
  cases o with
  | ok a s1 =>
    have hf := hf a s1.code l (hx.2 a s1 rfl) s1 rfl
    exact ⟨fun n hn => (List.mem_append.mp hn).elim (hx.1 n) (hf.1 n), hf.2⟩
  | err e s1 => exact ⟨hx.1, by intro b s' e; cases e⟩
  | panic => exact ⟨hx.1, by intro b s' e; cases e⟩

/-- A function that leaves the code alone comes first. -/
theorem bindKeep {x : M α} {f : α → R β} {V : α → Prop} {Q : β → Code → List Nat → Prop} (hx : Pres (fun c c' => c' = c) x) (hv : Ens x V)
    (hf : ∀ a, V a → Logs c (f a) Q) : Logs c (R.lift x >>= f) Q :=
  bind (keep hx hv) fun a c' l h => by obtain ⟨rfl, rfl, h⟩ := h; exact hf a h

/-- The same, when nothing needs to be known about the value. -/
theorem bindKeep_ {x : M α} {f : α → R β} {Q : β → Code → List Nat → Prop} (hx : Pres (fun c c' => c' = c) x)
    (hf : ∀ a, Logs c (f a) Q) : Logs c (R.lift x >>= f) Q :=
  bindKeep (V := fun _ => True) hx (fun _ _ _ _ => trivial) fun a _ => hf a

theorem vec {n : Nat} {f : Unit → R β} {Q : β → Code → List Nat → Prop} (hn : n ≤ maxRequest)
    (hf : Logs c (f ()) (fun b c' l => Q b c' (n :: l))) : Logs c (R.vec n >>= f) Q :=
  bind (Q := fun _ c' l => c' = c ∧ l = [n])
    (fun s hs => ⟨fun m hm => by rw [List.mem_singleton.mp hm]; exact hn, fun a s' e => by cases e; exact ⟨hs, rfl⟩⟩)
    fun a c' l h => by obtain ⟨rfl, rfl⟩ := h; exact hf

theorem panic {Q : α → Code → List Nat → Prop} : Logs c (R.lift (M.panic : M α)) Q := lift fun _ _ _ _ e => by cases e

theorem ite {b : Prop} [Decidable b] {x y : R α} {Q : α → Code → List Nat → Prop} (hx : b → Logs c x Q) (hy : ¬ b → Logs c y Q) :
    Logs c (if b then x else y) Q := by
  split
  · exact hx ‹_›
  · exact hy ‹_›

theorem unwrap {x : R α} {Q : α → Code → List Nat → Prop} (hx : Logs c x Q) : Logs c (R.unwrap x) Q := by
  intro s hs
  have hx := hx s hs
  unfold R.unwrap
  rcases h : x s with ⟨o, l⟩
  rw [h] at hx
  cases o with
  | ok a s1 => exact ⟨hx.1, fun b s' e => by cases e; exact hx.2 a s1 rfl⟩
  | err e s1 => exact ⟨hx.1, by intro b s' e; cases e⟩
  | panic => exact ⟨hx.1, by intro b s' e; cases e⟩

theorem okOrRecord {x : R α} {y : M α} {Q : α → Code → List Nat → Prop} (hx : Logs c x Q) (he : Erases x y) (hn : NoErr y) :
    Logs c (R.okOrRecord x) (fun o c' l => ∃ a, o = some a ∧ Q a c' l) := by
  intro s hs
  have hx := hx s hs
  have he := he s
  unfold R.okOrRecord
  rcases h : x s with ⟨o, l⟩
  rw [h] at hx he
  cases o with
  | ok a s1 => exact ⟨hx.1, fun b s' e => by cases e; exact ⟨a, rfl, hx.2 a s1 rfl⟩⟩
  | err e s1 => exact absurd he.symm (hn _ _ _)
  | panic => exact ⟨hx.1, by intro b s' e; cases e⟩

/-- A loop with an invariant about the round, the variable, the code and the requests. -/
theorem forRange {f : Nat → β → R β} {I : Nat → β → Code → List Nat → Prop}
    (hf : ∀ i b c l, I i b c l → Logs c (f i b) (fun b' c' l' => I (i + 1) b' c' (l ++ l'))) :
    ∀ (n a : Nat) (b : β) (c : Code) (l : List Nat), I a b c l → Logs c (R.forRange f a n b) (fun b' c' l' => I (a + n) b' c' (l ++ l'))
  | 0, a, b, c, l, h => pure (by simpa using h)
  | n + 1, a, b, c, l, h => bind (hf a b c l h) fun b' c' l' h' => by
    refine (forRange hf n (a + 1) b' c' _ h').mono fun b'' c'' l'' h'' => ?_
    rw [show a + 1 + n = a + (n + 1) by omega, List.append_assoc] at h''
    exact h''

end Logs

/-! ### Instructions -/

theorem le_maxRequest {n : Nat} (h : n < 2 ^ 31) : n ≤ maxRequest := by unfold maxRequest; omega

theorem logs_callLike (c : Code) (r : Opcode) (h : hlShape r.op = .call) :
    Logs c (readCallLikeR r) (fun o c' l => c' = c ∧ l = instrTable o) := by
  have hT := composes_eq
  refine .bindKeep_ (Pres.index hT) fun _ => .bindKeep_ (Pres.index hT) fun _ => .bindKeep (Pres.unwrap (Pres.decodeU8 hT)) (Ens.unwrap decodeU8_lt) fun n hn =>
    .vec (le_maxRequest (by omega)) (.bindKeep_ (Pres.readExtra hT (Pres.index hT)) fun _ => .pure ⟨rfl, ?_⟩)
  simp [instrTable, h]

theorem logs_switch (c : Code) (r : Opcode) (h : hlShape r.op = .switch) :
    Logs c (readSwitchR r) (fun o c' l => c' = c ∧ l = instrTable o) := by
  have hT := composes_eq
  refine .bindKeep_ (Pres.uindexI hT) fun _ => .bindKeep (Pres.uindex hT) uindex_lt fun n hn =>
    .vec (le_maxRequest (by omega)) (.bindKeep_ (Pres.readExtra hT (Pres.uindexI hT)) fun _ => .bindKeep_ (Pres.uindexI hT) fun _ => .pure ⟨rfl, ?_⟩)
  simp [instrTable, h]

theorem logs_operands (c : Code) (r : Opcode) (i : Int) (hi : i = (hlShape r.op).arity) : Logs c (readOperandsR r i) (fun o c' l => c' = c ∧ l = instrTable o) := by
  have hT := composes_eq
  unfold readOperandsR
  cases hs : hlShape r.op with
  | args n =>
    rw [hs] at hi
    change i = (n : Int) at hi
    subst hi
    refine .ite (fun hn => ?_) fun hn => ?_
    · refine (Logs.keep (Pres.readOperands hT) (readOperands_op r n)).mono fun o c' l h => ⟨h.1, ?_⟩
      rw [h.2.1, instrTable, h.2.2, hs]
      simp only
      rw [if_neg (by omega)]
    · rw [if_neg (by omega)]
      have hl : ∀ o n, hlShape o = .args n → n ≤ 6 := by intro o n h; cases o <;> cases h <;> decide
      have hl := hl _ _ hs
      refine .bindKeep_ (Pres.index hT) fun _ => .bindKeep_ (Pres.index hT) fun _ => .bindKeep_ (Pres.index hT) fun _ => .ite (fun h => .panic) fun h =>
        .vec (le_maxRequest (by omega)) (.bindKeep_ (Pres.readExtra hT (Pres.index hT)) fun _ => .pure ⟨rfl, ?_⟩)
      simp only [instrTable, hs]
      rw [if_pos (by omega)]
      congr 1
      omega
  | call =>
    rw [hs] at hi
    change i = -1 at hi
    subst hi
    rw [if_neg (by decide), if_pos rfl]
    have h1 := logs_callLike c r hs
    revert hs
    generalize r.op = o
    intro hs
    cases o <;> first | exact h1 | cases hs
  | switch =>
    rw [hs] at hi
    change i = -1 at hi
    subst hi
    rw [if_neg (by decide), if_pos rfl]
    have h1 := logs_switch c r hs
    revert hs
    generalize r.op = o
    intro hs
    cases o <;> first | exact h1 | cases hs

theorem logs_opcode (c : Code) : Logs c readOpcodeR (fun o c' l => c' = c ∧ l = instrTable o) := by
  have hT := composes_eq
  refine .bindKeep_ (Pres.unwrap (Pres.decodeU8 hT)) fun n => .ite (fun _ => .bindKeep_ (Pres.setError hT) fun _ => .pure ⟨rfl, rfl⟩) fun _ =>
    .bindKeep (Pres.unwrapOpt hT) (Ens.unwrapOpt _) fun op ho => .bindKeep (Pres.unwrapOpt hT) (Ens.unwrapOpt _) fun i hi => ?_
  rw [arity_of ho] at hi
  cases hi
  exact logs_operands c { Opcode.default with op := op } _ rfl

theorem logs_opcodes (c : Code) (n : Nat) : Logs c (readOpcodesR n) (fun o c' l => c' = c ∧ l = o.flatMap instrTable) := by
  refine (Logs.forRange (I := fun i v c' l => c' = c ∧ v.length = i ∧ l = v.flatMap instrTable) ?_ n 0 [] c [] ⟨rfl, rfl, rfl⟩).mono
    fun o c' l h => ⟨h.1, by simpa using h.2.2⟩
  rintro i v c1 l ⟨rfl, rfl, rfl⟩
  refine .bind (.unwrap (logs_opcode c1)) ?_
  rintro o c' l ⟨rfl, rfl⟩
  refine .lift fun s a s' hs e => ?_
  unfold M.insertAt at e
  have hi := insertIdx_append_length v [] o
  simp only [List.append_nil] at hi
  rw [if_pos (Nat.le_refl _), hi] at e
  cases e
  exact ⟨hs, by simp, by simp⟩

/-! ### Functions -/

theorem logs_function (c : Code) : Logs c readFunctionR (fun f c' l => c' = c ∧ f.nops < 2 ^ 31 ∧ l = f.ops.flatMap instrTable) := by
  have hT := composes_eq
  refine .bindKeep_ (Pres.getType hT) fun _ => .bindKeep_ (Pres.uindex hT) fun _ => .bindKeep_ (Pres.uindex hT) fun _ =>
    .bindKeep (Pres.uindex hT) uindex_lt fun n hn => .bindKeep_ (Pres.readTypeRefs hT) fun _ => .bindKeep_ (Pres.getErrors hT) fun _ =>
    .ite (fun _ => .pure ⟨rfl, hn, rfl⟩) fun _ => .bind (logs_opcodes c n) fun o c' l h => ?_
  obtain ⟨rfl, rfl⟩ := h
  exact .pure ⟨rfl, hn, by simp⟩

theorem logs_debug (p : Profile) (i : Nat) (c : Code) (f : HLFunction) (hf : c.functions[i]? = some f) (hn : f.nops < 2 ^ 31) :
    Logs c (readFunctionDebugR p i) (fun _ c' l => ∃ d, c' = { c with functions := c.functions.set i { f with debug := d } } ∧
      l = if c.hasdebug != 0 then [2 * f.nops] else []) := by
  have hT := composes_eq
  refine .bind (Q := fun d c' l => d = c ∧ c' = c ∧ l = []) (.lift fun s a s' hs e => by cases e; exact ⟨hs, hs, rfl⟩) ?_
  rintro d c' l ⟨rfl, h2, rfl⟩
  subst h2
  refine .ite (fun h => ?_) fun h => ?_
  · refine .bindKeep (Pres.unwrapOpt hT) (Ens.unwrapOpt _) fun g hg => ?_
    rw [hf] at hg
    cases hg
    have h1 : Logs c' (debugInfosR p f.nops) (fun _ c'' l => c'' = c' ∧ l = [f.nops * 2]) :=
      .vec (by unfold maxRequest; omega) ((Logs.keep (V := fun _ => True) (Pres.debugInfos hT) fun _ _ _ _ => trivial).mono fun _ _ _ h => ⟨h.1, by simp only [h.2.1]⟩)
    refine .bind (.okOrRecord h1 (Erases.debugInfos p _) (NoErr.debugInfos p _)) ?_
    rintro o c' l ⟨w, rfl, rfl, rfl⟩
    refine .bind (Q := fun _ c'' l => c'' = { c' with functions := c'.functions.set i { f with debug := w } } ∧ l = [])
      (.lift fun s a s' hs e => ?_) ?_
    · unfold storeDebug at e
      simp only [M.bind_def, M.getCode, hs, hf, M.unwrapOpt, M.bind_def, M.pure, M.setCode, Out.ok.injEq] at e
      rw [← e.2]
      exact ⟨rfl, rfl⟩
    · rintro _ c'' l ⟨rfl, rfl⟩
      refine .bindKeep_ (Pres.getCode hT) fun _ => ?_
      refine (Logs.keep (V := fun _ => True) (Pres.skipAssignsIf hT) fun _ _ _ _ => trivial).mono fun _ c' l q => ⟨w, q.1, ?_⟩
      rw [q.2.1]
      simp [h, Nat.mul_comm]
  · refine .pure ⟨f.debug, ?_, ?_⟩
    · have : c'.functions.set i { f with debug := f.debug } = c'.functions := by
        obtain ⟨hi, he⟩ := List.getElem?_eq_some_iff.mp hf
        rw [← he]; exact List.set_getElem_self hi
      cases f
      cases c'
      simp only [Code.mk.injEq] at this ⊢
      simp [this]
    · simp at h
      simp [h]

/-- The code without its functions. -/
def Code.noFunctions (c : Code) : Code := { c with functions := [] }

theorem logs_functions (p : Profile) (c st : Code) (h0 : c.functions = []) : Logs st (readFunctionsR p c) (fun a st' l =>
    a.noFunctions = c.noFunctions ∧ l = a.functions.flatMap (functionTables (c.hasdebug != 0)) ∧ (st' = st ∧ a = c ∨ st' = a)) := by
  have hT := composes_eq
  refine .bind (Logs.forRange (I := fun i b st' l => b.functions.length = i ∧ b.noFunctions = c.noFunctions ∧
    l = b.functions.flatMap (functionTables (c.hasdebug != 0)) ∧ (st' = st ∧ b = c ∨ st' = b)) ?_ c.nfunctions 0 c st []
    ⟨by rw [h0]; rfl, rfl, by rw [h0]; rfl, .inl ⟨rfl, rfl⟩⟩) ?_
  · rintro i b st' l ⟨hi, hb, rfl, -⟩
    refine .bind (Q := fun _ c' l => c' = b ∧ l = []) (.lift fun s a s' hs e => by cases e; exact ⟨rfl, rfl⟩) ?_
    rintro _ c' l ⟨rfl, rfl⟩
    refine .bind (logs_function c') ?_
    rintro f c'' l ⟨rfl, hn, rfl⟩
    refine .bind (Q := fun d c' l => d = c'' ∧ c' = c'' ∧ l = []) (.lift fun s a s' hs e => by cases e; exact ⟨hs, hs, rfl⟩) ?_
    rintro d c' l ⟨rfl, rfl, rfl⟩
    refine .bind (Q := fun _ c'' l => c'' = { c' with functions := c'.functions ++ [f] } ∧ l = []) (.lift fun s a s' hs e => by cases e; exact ⟨rfl, rfl⟩) ?_
    rintro _ c'' l ⟨rfl, rfl⟩
    refine .bind (logs_debug p i _ f (by simp [← hi]) hn) ?_
    rintro _ c'' l ⟨w, rfl, rfl⟩
    refine .lift fun s a s' hs e => ?_
    cases e
    have hset : (c'.functions ++ [f]).set i { f with debug := w } = c'.functions ++ [{ f with debug := w }] := by
      rw [List.set_append_right _ _ (by omega)]; simp [← hi]
    rw [hs]
    have hd : c'.hasdebug = c.hasdebug := (congrArg Code.hasdebug hb : c'.noFunctions.hasdebug = c.noFunctions.hasdebug)
    refine ⟨by simp [hset, hi], hb, ?_, .inr rfl⟩
    simp only [hset, List.flatMap_append, List.flatMap_cons, List.flatMap_nil, List.append_nil, List.nil_append, functionTables, hd]
  · rintro a c' l ⟨-, h1, h2, h3⟩
    refine .bindKeep_ (Pres.checkError hT) fun _ => .pure ⟨h1, ?_, h3⟩
    simpa using h2

/-! ### Sections -/

theorem lift_bind {α β : Type} (x : M α) (f : α → M β) : R.lift (x >>= f) = R.lift x >>= fun a => R.lift (f a) := by
  funext s
  show R.lift (M.bind x f) s = R.bind (R.lift x) (fun a => R.lift (f a)) s
  unfold R.lift R.bind M.bind
  simp only
  cases x s <;> rfl

theorem lift_forRange {β : Type} (f : Nat → β → M β) : ∀ (n a : Nat) (b : β),
    R.lift (M.forRange f a n b) = R.forRange (fun i b => R.lift (f i b)) a n b
  | 0, _, _ => rfl
  | n + 1, a, b => by
    show R.lift (f a b >>= fun b => M.forRange f (a + 1) n b) = (R.lift (f a b) >>= fun b => R.forRange (fun i b => R.lift (f i b)) (a + 1) n b)
    rw [lift_bind]
    congr 1
    funext b
    exact lift_forRange f n (a + 1) b

/-- What the requests depend on. -/
def Code.key (c : Code) : Nat × Nat × List UInt8 × Nat × Nat × Nat × List HLFunction :=
  (c.nstrings, c.version, c.bytes, c.ntypes, c.nglobals, c.hasdebug, c.functions)

theorem tables_key {c c' : Code} (h : c.key = c'.key) : tables c = tables c' := by
  simp only [Code.key, Prod.mk.injEq] at h
  obtain ⟨h1, h2, h3, h4, h5, h6, h7⟩ := h
  simp only [tables, h1, h2, h3, h4, h5, h6, h7]

theorem key_uncached {c c' : Code} (h : c.uncached = c'.uncached) : c.key = c'.key := (congrArg Code.key h : c.uncached.key = c'.uncached.key)

/-- A section that computes `a` from `c`, when `decoder.code` is `st`, and then it is `st'`. -/
def Section (c st a st' : Code) : Prop := a.key = c.key ∧ (st' = st ∨ st'.key = c.key)

/-- A loop over a section that sets the code in every round. -/
theorem logs_loop {f : Nat → Code → M Code} (hf : ∀ i b st, Logs st (R.lift (f i b)) (fun a st' l => l = [] ∧ a.key = b.key ∧ st'.key = b.key))
    (n : Nat) (c st : Code) : Logs st (R.lift (M.forRange f 0 n c)) (fun a st' l => l = [] ∧ a.key = c.key ∧ (n = 0 ∧ st' = st ∨ st'.key = c.key)) := by
  rw [lift_forRange]
  have hz : n = 0 ∨ n ≠ 0 := by omega
  refine (Logs.forRange (I := fun i b st' l => l = [] ∧ b.key = c.key ∧ (i = 0 ∧ st' = st ∨ st'.key = c.key)) ?_ n 0 c st [] ⟨rfl, rfl, .inl ⟨rfl, rfl⟩⟩).mono
    fun a st' l h => ⟨by simpa using h.1, h.2.1, by simpa using h.2.2⟩
  rintro i b st' l ⟨rfl, h1, -⟩
  refine (hf i b st').mono fun a st'' l h => ⟨by rw [h.1]; rfl, h.2.1.trans h1, .inr (h.2.2.trans h1)⟩

theorem logs_types (c st : Code) (hn : c.ntypes < 2 ^ 31) : Logs st (readTypesR c) (fun a st' l =>
    l = [c.ntypes] ∧ a.key = c.key ∧ (c.ntypes = 0 ∧ st' = st ∨ st'.key = c.key)) := by
  refine .vec (le_maxRequest hn) ?_
  refine (logs_loop (f := readTypesStep) ?_ c.ntypes { c with types := List.replicate c.ntypes ValueType.default } st).mono fun a st' l h =>
    ⟨by rw [h.1], h.2.1, h.2.2⟩
  intro i b st
  refine .lift fun s a s' hs e => ?_
  obtain ⟨_, s1, h1, q1⟩ := M.bind_eq_ok e
  obtain ⟨t, s2, h2, q2⟩ := M.bind_eq_ok q1
  obtain ⟨d, s3, h3, q3⟩ := M.bind_eq_ok q2
  obtain ⟨ts, s4, h4, q4⟩ := M.bind_eq_ok q3
  obtain ⟨_, s5, h5, q5⟩ := M.bind_eq_ok q4
  cases h1
  cases h3
  cases h5
  cases q5
  have hk : s2.code.key = b.key := key_uncached (Pres.readType _ _ _ h2)
  exact ⟨rfl, hk, hk⟩

theorem logs_globals (c st : Code) (hn : c.nglobals < 2 ^ 31) : Logs st (readGlobalsR c) (fun a st' l =>
    l = [c.nglobals] ∧ a.key = c.key ∧ (c.nglobals = 0 ∧ st' = st ∨ st'.key = c.key)) := by
  have hT := composes_eq
  refine .vec (le_maxRequest hn) ?_
  unfold readGlobals checked
  simp only
  rw [lift_bind]
  refine .bind (logs_loop (f := readGlobalsStep) ?_ c.nglobals { c with globals := List.replicate c.nglobals ValueType.default } st) ?_
  · intro i b st
    refine .lift fun s a s' hs e => ?_
    obtain ⟨_, s1, h1, q1⟩ := M.bind_eq_ok e
    obtain ⟨t, s2, h2, q2⟩ := M.bind_eq_ok q1
    obtain ⟨d, s3, h3, q3⟩ := M.bind_eq_ok q2
    obtain ⟨ts, s4, h4, q4⟩ := M.bind_eq_ok q3
    obtain ⟨_, s5, h5, q5⟩ := M.bind_eq_ok q4
    cases h1
    cases h3
    cases h5
    cases q5
    have hk : s2.code.key = b.key := congrArg Code.key (Pres.getType hT _ _ _ h2)
    exact ⟨rfl, hk, hk⟩
  · rintro a c' l ⟨rfl, h1, h2⟩
    refine (Logs.keep (V := fun b => b = a) (Pres.bind hT (Pres.checkError hT) fun _ => Pres.pure hT) (Ens.bind_ fun _ => Ens.pure rfl)).mono fun b c'' l h => ?_
    obtain ⟨rfl, rfl, rfl⟩ := h
    exact ⟨rfl, h1, h2⟩

theorem logs_natives (c st : Code) : Logs st (R.lift (readNatives c)) (fun a st' l =>
    l = [] ∧ a.key = c.key ∧ (st' = st ∨ st'.key = c.key)) := by
  have hT := composes_eq
  unfold readNatives checked
  simp only
  rw [lift_bind]
  refine .bind (logs_loop (f := readNativesStep) ?_ c.nnatives { c with natives := [] } st) ?_
  · intro i b st
    refine .lift fun s a s' hs e => ?_
    obtain ⟨_, s1, h1, q1⟩ := M.bind_eq_ok e
    obtain ⟨_, s2, h2, q2⟩ := M.bind_eq_ok q1
    cases h2
    cases q2
    exact ⟨rfl, rfl, rfl⟩
  · rintro a c' l ⟨rfl, h1, h2⟩
    refine (Logs.keep (V := fun b => b = a) (Pres.bind hT (Pres.checkError hT) fun _ => Pres.pure hT) (Ens.bind_ fun _ => Ens.pure rfl)).mono fun b c'' l h => ?_
    obtain ⟨rfl, rfl, rfl⟩ := h
    exact ⟨rfl, h1, h2.imp And.right id⟩

theorem logs_constants (c st : Code) : Logs st (R.lift (readConstants c)) (fun a st' l =>
    l = [] ∧ a.key = c.key ∧ (st' = st ∨ st'.key = c.key)) := by
  refine (logs_loop (f := readConstantsStep) ?_ c.nconstants c st).mono fun a c' l h => ⟨h.1, h.2.1, h.2.2.imp And.right id⟩
  intro i b st
  refine .lift fun s a s' hs e => ?_
  obtain ⟨_, s1, h1, q1⟩ := M.bind_eq_ok e
  obtain ⟨_, s2, h2, q2⟩ := M.bind_eq_ok q1
  obtain ⟨_, s3, h3, q3⟩ := M.bind_eq_ok q2
  cases h3
  cases q3
  exact ⟨rfl, rfl, rfl⟩

theorem logs_debugFiles (c st : Code) : Logs st (R.lift (readDebugFiles c)) (fun a st' l =>
    l = [] ∧ a.key = c.key ∧ (st' = st ∨ st'.key = c.key)) := by
  have hT := composes_eq
  refine .lift fun s a s' hs e => ?_
  unfold readDebugFiles at e
  split at e
  · obtain ⟨n, s1, h1, q1⟩ := M.bind_eq_ok e
    obtain ⟨_, s2, h2, q2⟩ := M.bind_eq_ok q1
    obtain ⟨r, s3, h3, q3⟩ := M.bind_eq_ok q2
    obtain ⟨d, s4, h4, q4⟩ := M.bind_eq_ok q3
    obtain ⟨_, s5, h5, q5⟩ := M.bind_eq_ok q4
    obtain ⟨_, s6, h6, q6⟩ := M.bind_eq_ok q5
    have e3 := Pres.okOrRecord hT (Pres.readStrings hT) (fun s e s' h => absurd h (NoErr.readStrings _ _ _ _)) _ _ _ h3
    have e6 := Pres.checkError hT _ _ _ h6
    cases h2
    cases h4
    cases h5
    cases q6
    have hd : (setDebugFiles s3.code r).key = c.key := by
      rw [e3]
      cases r <;> rfl
    rw [e6]
    exact ⟨rfl, hd, .inr hd⟩
  · cases e
    exact ⟨rfl, rfl, .inl hs⟩

/-! ### The header, the pools and the bytes -/

theorem uindexIf_keep (b : Bool) : Pres (fun c c' : Code => c' = c) (uindexIf b) := Pres.uindexIf composes_eq

theorem counts_bounds (v : Nat) : Ens (readCounts v) (fun c => c.version = v ∧ c.nstrings < 2 ^ 31 ∧ c.ntypes < 2 ^ 31 ∧ c.nglobals < 2 ^ 31 ∧
    c.functions = [] ∧ c.bytes = []) := by
  unfold readCounts
  refine Ens.bind_ fun _ => Ens.bind_ fun _ => Ens.bind_ fun _ => Ens.bind uindex_lt fun ns hs => Ens.bind_ fun _ => Ens.bind uindex_lt fun nt ht =>
    Ens.bind uindex_lt fun ng hg => Ens.bind_ fun _ => Ens.bind_ fun _ => Ens.bind_ fun _ => Ens.bind_ fun _ => Ens.pure ?_
  exact ⟨rfl, hs, ht, hg, rfl, rfl⟩

theorem pools_keep (c : Code) : Pres (fun c c' : Code => c' = c) (readPools c) := by
  have hT := composes_eq
  unfold readPools
  refine Pres.bind hT (Pres.checked hT (Pres.readPool hT (Pres.decodeI32 hT) (fun s e s' h => Pres.bytes_err s e s' h))) fun _ =>
    Pres.bind hT (Pres.checked hT (Pres.readPool hT (Pres.decodeF64 hT) (fun s e s' h => Pres.bytes_err s e s' h))) fun _ =>
    Pres.bind hT (Pres.checked hT (Pres.okOrRecord hT (Pres.readStrings hT) (fun s e s' h => absurd h (NoErr.readStrings _ _ _ _)))) fun _ => Pres.pure hT

theorem pools_key (c : Code) : Ens (readPools c) (fun a => a.key = c.key) := by
  unfold readPools
  exact Ens.bind_ fun _ => Ens.bind_ fun _ => Ens.bind_ fun _ => Ens.pure rfl

theorem readBytes_length (n : Nat) : Ens (readBytes n) (fun b => b.length = n) := by
  intro s a s' h
  unfold readBytes at h
  split at h <;> cases h
  rw [List.length_take]; omega

theorem logs_bytes (c st : Code) (hn : c.nstrings < 2 ^ 31) : Logs st (readBytesSectionR c) (fun a st' l =>
    st' = st ∧ l = [c.nstrings] ++ (if 5 ≤ c.version then [a.bytes.length] else []) ∧ ({ a with bytes := c.bytes } : Code).key = c.key) := by
  have hT := composes_eq
  unfold readBytesSectionR
  refine .vec (le_maxRequest hn) (.ite (fun h => ?_) fun h => .pure ⟨rfl, ?_, rfl⟩)
  · refine .bindKeep (Pres.decodeI32 hT) decodeI32_lt fun size hs => .ite (fun _ => .panic) fun h0 => .vec (le_maxRequest (by omega)) ?_
    refine .bindKeep (Pres.unwrap (Pres.readBytes hT)) (Ens.unwrap (readBytes_length _)) fun b hb => ?_
    refine .bindKeep_ (Pres.checked hT (Pres.forRange hT (fun _ _ => Pres.bind hT (Pres.uindex hT) fun _ => Pres.insertAt hT) _ _ _)) fun w => .pure ⟨rfl, ?_, rfl⟩
    have h : 5 ≤ c.version := h
    simp [h, hb]
  · have h : ¬ 5 ≤ c.version := h
    simp [h]

/-! ### The whole file -/

/-- What the requests of a file are. -/
theorem logs_readM (p : Profile) : Logs Code.new (readMR p) (fun c _ l =>
    2 ≤ c.version ∧ l = tables c ∨ c.version = 0 ∧ ∃ n b, l = n :: (b ++ [0, 0]) ∧ (b = [] ∨ ∃ k, b = [k])) := by
  have hT := composes_eq
  unfold readMR
  refine .bindKeep_ (Pres.readMagic hT) fun _ => .bindKeep (V := fun v => 2 ≤ v) (Pres.readVersion hT)
    (Ens.bind_ fun v => by split; exact Ens.failAt _; exact Ens.pure (by omega)) fun v v2 =>
    .bindKeep (Pres.checked hT (Pres.readCounts hT)) (Q := _) (V := _) (Ens.bind (counts_bounds v) fun a ha => Ens.bind_ fun _ => Ens.pure ha) fun c0 h0 => ?_
  obtain ⟨hv, hs, ht, hg, hf, hb⟩ := h0
  refine .bindKeep (pools_keep c0) (pools_key c0) fun c1 k1 => ?_
  simp only [Code.key, Prod.mk.injEq] at k1
  obtain ⟨a1, a2, a3, a4, a5, a6, a7⟩ := k1
  refine .bind (logs_bytes c1 Code.new (by omega)) ?_
  rintro c2 st l ⟨rfl, rfl, k2⟩
  simp only [Code.key, Prod.mk.injEq] at k2
  obtain ⟨b1, b2, -, b4, b5, b6, b7⟩ := k2
  refine .bind (logs_debugFiles c2 Code.new) ?_
  rintro c3 st3 l ⟨rfl, k3, s3⟩
  have k3' := k3
  simp only [Code.key, Prod.mk.injEq] at k3'
  obtain ⟨d1, d2, d3, d4, d5, d6, d7⟩ := k3'
  refine .bind (logs_types c3 st3 (by omega)) ?_
  rintro c4 st4 l ⟨rfl, k4, s4⟩
  refine .bind (logs_globals c4 st4 ?_) ?_
  · have : c4.nglobals = c3.nglobals := congrArg (fun k => k.2.2.2.2.1) k4
    omega
  rintro c5 st5 l ⟨rfl, k5, s5⟩
  refine .bind (logs_natives c5 st5) ?_
  rintro c6 st6 l ⟨rfl, k6, s6⟩
  have k : c6.key = c2.key := k6.trans (k5.trans (k4.trans k3))
  have hf6 : c6.functions = [] := by
    have : c6.functions = c2.functions := congrArg (fun k => k.2.2.2.2.2.2) k
    rw [this, b7, a7, hf]
  refine .bind (logs_functions p c6 st6 hf6) ?_
  rintro c7 st7 l ⟨k7, rfl, s7⟩
  refine .bind (logs_constants c7 st7) ?_
  rintro c8 st8 l ⟨rfl, k8, s8⟩
  refine .lift fun s a s' hs e => ?_
  cases e
  rw [hs]
  have n4 : c4.nglobals = c2.nglobals := congrArg (fun k : Nat × Nat × List UInt8 × Nat × Nat × Nat × List HLFunction => k.2.2.2.2.1) (k4.trans k3)
  have k' := k
  simp only [Code.key, Prod.mk.injEq] at k'
  obtain ⟨e1, e2, e3, e4, e5, e6, e7⟩ := k'
  have key7 : st8.key = c7.key ∨ st8 = Code.new ∧ c2.ntypes = 0 ∧ c2.nglobals = 0 ∧ c7 = c6 := by
    rcases s8 with rfl | h
    · rcases s7 with ⟨rfl, rfl⟩ | rfl
      · rcases s6 with rfl | h
        · rcases s5 with ⟨z5, rfl⟩ | h
          · rcases s4 with ⟨z4, rfl⟩ | h
            · rcases s3 with rfl | h
              · exact .inr ⟨rfl, by omega, by omega, rfl⟩
              · exact .inl (h.trans k.symm)
            · exact .inl (h.trans (k6.trans (k5.trans k4)).symm)
          · exact .inl (h.trans (k6.trans k5).symm)
        · exact .inl (h.trans k6.symm)
      · exact .inl rfl
    · exact .inl h
  rcases key7 with h | ⟨rfl, z1, z2, rfl⟩
  · refine .inl ?_
    have hv8 : st8.version = c7.version := congrArg (fun k : Nat × Nat × List UInt8 × Nat × Nat × Nat × List HLFunction => k.2.1) h
    rw [tables_key h]
    have f1 : c7.nstrings = c6.nstrings := (congrArg Code.nstrings k7 : c7.noFunctions.nstrings = c6.noFunctions.nstrings)
    have f2 : c7.version = c6.version := (congrArg Code.version k7 : c7.noFunctions.version = c6.noFunctions.version)
    have f3 : c7.bytes = c6.bytes := (congrArg Code.bytes k7 : c7.noFunctions.bytes = c6.noFunctions.bytes)
    have f4 : c7.ntypes = c6.ntypes := (congrArg Code.ntypes k7 : c7.noFunctions.ntypes = c6.noFunctions.ntypes)
    have f5 : c7.nglobals = c6.nglobals := (congrArg Code.nglobals k7 : c7.noFunctions.nglobals = c6.noFunctions.nglobals)
    have f6 : c7.hasdebug = c6.hasdebug := (congrArg Code.hasdebug k7 : c7.noFunctions.hasdebug = c6.noFunctions.hasdebug)
    refine ⟨by omega, ?_⟩
    simp only [tables, f1, f2, f3, f4, f5, f6, e1, e2, e3, e4, e5, d4, n4, b1, b2, List.append_assoc, List.nil_append, List.append_nil, List.cons_append]
  · refine .inr ⟨rfl, c1.nstrings, if 5 ≤ c1.version then [c2.bytes.length] else [], ?_, ?_⟩
    · rw [hf6, n4, z2, d4, z1]
      simp
    · by_cases h : 5 ≤ c1.version
      · exact .inr ⟨_, if_pos h⟩
      · exact .inl (if_neg h)

end Verif.Brass
