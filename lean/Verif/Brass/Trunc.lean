import Verif.Brass.SemFile

/-!
# Truncated input

`Trunc b x`: what `x` read is all it needs (`loc`), and on a strict prefix of it `x` panics or, if `b`, returns
`NoMoreData` (`cut`).
-/

namespace Verif.Brass

open Verif

structure Trunc (b : Bool) {α : Type} (x : M α) : Prop where
  good : Good x
  loc : ∀ s a s' k, x s = .ok a s' → s'.errors = none → s.buf = k ++ s'.buf →
    ∀ t, x { s with buf := k ++ t } = .ok a { s' with buf := t }
  cut : ∀ s a s' k, x s = .ok a s' → s'.errors = none → s.buf = k ++ s'.buf →
    ∀ k' k'', k = k' ++ k'' → k'' ≠ [] →
      x { s with buf := k' } = .panic ∨ (b = true ∧ ∃ e s1, e.kind = .noMoreData ∧ x { s with buf := k' } = .err e s1)

namespace Trunc

theorem mono {b : Bool} {α : Type} {x : M α} (h : Trunc false x) : Trunc b x where
  good := h.good
  loc := h.loc
  cut s a s' k h1 h2 h3 k' k'' h4 h5 := by
    rcases h.cut s a s' k h1 h2 h3 k' k'' h4 h5 with h | ⟨h, _⟩
    · exact .inl h
    · cases h

/-- A function that reads nothing and does not depend on the input. -/
theorem still {b : Bool} {α : Type} {x : M α} (hg : Good x)
    (h : ∀ s a s', x s = .ok a s' → s'.buf = s.buf ∧ ∀ t, x { s with buf := t } = .ok a { s' with buf := t }) : Trunc b x where
  good := hg
  loc s a s' k h1 _ h3 t := by
    obtain ⟨h4, h5⟩ := h s a s' h1
    rw [h4] at h3
    have : k = [] := List.self_eq_append_left.1 h3
    subst this
    exact h5 t
  cut s a s' k h1 _ h3 k' k'' h4 h5 := by
    obtain ⟨h6, _⟩ := h s a s' h1
    rw [h6] at h3
    have : k = [] := List.self_eq_append_left.1 h3
    subst this
    exact absurd (List.append_eq_nil_iff.1 h4.symm).2 h5

theorem pure {b : Bool} {α : Type} (a : α) : Trunc b (pure a : M α) :=
  still (Good.pure a) (by rintro s x s' h; cases h; exact ⟨rfl, fun t => rfl⟩)
theorem pure' {b : Bool} {α : Type} (a : α) : Trunc b (M.pure a : M α) := pure a
theorem panic {b : Bool} {α : Type} : Trunc b (M.panic : M α) := still Good.panic (by rintro s x s' h; cases h)
theorem fail {b : Bool} {α : Type} (e) : Trunc b (M.fail e : M α) := still (Good.fail e) (by rintro s x s' h; cases h)
theorem failAt {b : Bool} {α : Type} (e) : Trunc b (M.failAt e : M α) := still (Good.failAt e) (by rintro s x s' h; cases h)
theorem getCode {b : Bool} : Trunc b M.getCode := still Good.getCode (by rintro s x s' h; cases h; exact ⟨rfl, fun t => rfl⟩)
theorem getErrors {b : Bool} : Trunc b M.getErrors := still Good.getErrors (by rintro s x s' h; cases h; exact ⟨rfl, fun t => rfl⟩)
theorem setCode {b : Bool} (c) : Trunc b (M.setCode c) := still (Good.setCode c) (by rintro s x s' h; cases h; exact ⟨rfl, fun t => rfl⟩)
theorem setError {b : Bool} (c) : Trunc b (M.setError c) := still (Good.setError c) (by rintro s x s' h; cases h; exact ⟨rfl, fun t => rfl⟩)
theorem mapErrAt {b : Bool} (c) : Trunc b (M.mapErrAt c) := still (Good.mapErrAt c) (by
  rintro s x s' h; cases h
  refine ⟨?_, fun t => ?_⟩
  · unfold M.recordError; split <;> rfl
  · unfold M.mapErrAt M.recordError
    cases he : s.errors <;> simp [he])
theorem checkError {b : Bool} : Trunc b M.checkError := still Good.checkError (by
  rintro s x s' h
  unfold M.checkError at h ⊢
  split at h
  · cases h
  · next he => cases h; exact ⟨rfl, fun t => by simp [he]⟩)
theorem unwrapOpt {b : Bool} {α : Type} (o : Option α) : Trunc b (M.unwrapOpt o) := by
  cases o
  · exact panic
  · exact pure _
theorem insertAt {b : Bool} {α : Type} (v : List α) (i : Nat) (x : α) : Trunc b (M.insertAt v i x) := by
  unfold M.insertAt; split
  · exact pure _
  · exact panic

theorem bind {b : Bool} {α β : Type} {x : M α} {f : α → M β} (hx : Trunc b x) (hf : ∀ a, Trunc b (f a)) : Trunc b (x >>= f) where
  good := Good.bind hx.good (fun a => (hf a).good)
  loc := by
    rintro s r s'' k h h' hk t
    obtain ⟨a, s', h1, h2⟩ := M.bind_eq_ok h
    have hn := (hf a).good.none_of h2 h'
    obtain ⟨k1, b1, _⟩ := hx.good.reads s s' (by rw [h1]; rfl)
    obtain ⟨k2, b2, _⟩ := (hf a).good.reads s' s'' (by rw [h2]; rfl)
    have : k = k1 ++ k2 := by
      rw [b1, b2, ← List.append_assoc] at hk
      exact (List.append_cancel_right hk).symm
    subst this
    rw [List.append_assoc, M.bind_ok (hx.loc s a s' k1 h1 hn b1 (k2 ++ t))]
    exact (hf a).loc s' r s'' k2 h2 h' b2 t
  cut := by
    rintro s r s'' k h h' hk k' k'' e ne
    obtain ⟨a, s', h1, h2⟩ := M.bind_eq_ok h
    have hn := (hf a).good.none_of h2 h'
    obtain ⟨k1, b1, _⟩ := hx.good.reads s s' (by rw [h1]; rfl)
    obtain ⟨k2, b2, _⟩ := (hf a).good.reads s' s'' (by rw [h2]; rfl)
    have : k = k1 ++ k2 := by
      rw [b1, b2, ← List.append_assoc] at hk
      exact (List.append_cancel_right hk).symm
    subst this
    rcases List.append_eq_append_iff.1 e with ⟨t, e1, e2⟩ | ⟨t, e1, e2⟩
    · -- the cut is in the second part
      rw [e1, M.bind_ok (hx.loc s a s' k1 h1 hn b1 t)]
      exact (hf a).cut s' r s'' k2 h2 h' b2 t k'' e2 ne
    · by_cases ht : t = []
      · subst ht
        simp only [List.append_nil] at e1
        subst e1
        have := hx.loc s a s' k1 h1 hn b1 []
        rw [List.append_nil] at this
        rw [M.bind_ok this]
        simp only [List.nil_append] at e2
        exact (hf a).cut s' r s'' k2 h2 h' b2 [] k'' (by simp [e2]) ne
      · rcases hx.cut s a s' k1 h1 hn b1 k' t e1 ht with h3 | ⟨h3, ee, s1, h4, h5⟩
        · exact .inl (M.bind_panic h3)
        · exact .inr ⟨h3, ee, s1, h4, M.bind_err h5⟩

theorem bind' {b : Bool} {α β : Type} {x : M α} {f : α → M β} (hx : Trunc b x) (hf : ∀ a, Trunc b (f a)) : Trunc b (M.bind x f) :=
  bind hx hf

theorem unwrap {b c : Bool} {α : Type} {x : M α} (hx : Trunc b x) : Trunc c (M.unwrap x) where
  good := Good.unwrap hx.good
  loc s a s' k h h' hk t := by
    unfold M.unwrap at h ⊢
    split at h <;> cases h
    next e => simp [hx.loc _ _ _ k e h' hk t]
  cut s a s' k h h' hk k' k'' e ne := by
    unfold M.unwrap at h ⊢
    split at h <;> cases h
    next e1 =>
      rcases hx.cut _ _ _ k e1 h' hk k' k'' e ne with h3 | ⟨h3, ee, s1, h4, h5⟩
      · simp [h3]
      · simp [h5]

theorem okOrRecord {b : Bool} {α : Type} {x : M α} (hx : Trunc false x) : Trunc b (M.okOrRecord x) where
  good := Good.okOrRecord hx.good
  loc s a s' k h h' hk t := by
    unfold M.okOrRecord at h ⊢
    split at h
    · next e => cases h; simp [hx.loc _ _ _ k e h' hk t]
    · next e s1 _ =>
      injection h with h1 h2
      have := Good.recordError_errors e s1
      rw [h2] at this
      simp [h'] at this
    · cases h
  cut s a s' k h h' hk k' k'' e ne := by
    unfold M.okOrRecord at h ⊢
    split at h
    · next e1 =>
      cases h
      rcases hx.cut _ _ _ k e1 h' hk k' k'' e ne with h3 | ⟨h3, ee, s1, h4, h5⟩
      · simp [h3]
      · cases h3
    · next e s1 _ =>
      injection h with h1 h2
      have := Good.recordError_errors e s1
      rw [h2] at this
      simp [h'] at this
    · cases h

theorem readBytes (n) : Trunc true (readBytes n) where
  good := Good.readBytes n
  loc s a s' k h h' hk t := by
    unfold Brass.readBytes at h ⊢
    split at h
    · cases h
    · next h1 =>
      cases h
      simp only at hk
      have : k = s.buf.take n := by
        have := congrArg (List.take k.length) hk
        have hl : k.length = n := by have := congrArg List.length hk; simp at this; omega
        rw [List.take_left, hl] at this; exact this.symm
      subst this
      rw [if_neg (by simp; omega)]
      have : (s.buf.take n).length = n := by simp; omega
      simp only [Out.ok.injEq, St.mk.injEq, and_true]
      constructor
      · conv => lhs; arg 1; rw [← this]
        rw [List.take_left]
      · conv => lhs; arg 1; rw [← this]
        rw [List.drop_left]
  cut s a s' k h h' hk k' k'' e ne := by
    unfold Brass.readBytes at h ⊢
    split at h
    · cases h
    · next h1 =>
      cases h
      right
      refine ⟨rfl, _, _, rfl, if_pos ?_⟩
      have hl : k.length = n := by have := congrArg List.length hk; simp at this; omega
      have := congrArg List.length e
      have := List.length_pos_iff.2 ne
      simp at *; omega

theorem peekAdvance (n) : Trunc false (peekAdvance n) where
  good := Good.peekAdvance n
  loc s a s' k h h' hk t := by
    obtain ⟨he, k1, h1, h4, hg⟩ := (Sem.peekAdvance n).sound s a s' trivial h h'
    have : k = k1 := by rw [h1] at hk; exact (List.append_cancel_right hk).symm
    subst this
    have := (Sem.peekAdvance n).complete _ _ _ _ trivial hg t s.pos
    rw [show ({ s with buf := k ++ t } : St) = ⟨k ++ t, s.pos, s.code, none⟩ by rw [← he], this, ← h4, ← h']
  cut s a s' k h h' hk k' k'' e ne := by
    left
    obtain ⟨_, k1, h1, _, _, h2, h3⟩ := (Sem.peekAdvance n).sound s a s' trivial h h'
    have : k = k1 := by rw [h1] at hk; exact (List.append_cancel_right hk).symm
    subst this
    unfold Brass.peekAdvance
    rw [M.bind_panic]
    unfold M.peek
    rw [if_neg]
    have := congrArg List.length e
    have := List.length_pos_iff.2 ne
    simp at *; omega

theorem forRange {b : Bool} {β : Type} {f : Nat → β → M β} (hf : ∀ i x, Trunc b (f i x)) :
    ∀ n a x, Trunc b (M.forRange f a n x)
  | 0, _, _ => pure _
  | n + 1, a, x => bind (hf a x) (fun x => forRange hf n (a + 1) x)

theorem while_loc {b : Bool} {β : Type} {c : β → Bool} {f : β → M β} (hf : ∀ b, Trunc false (f b)) (x : β) (s s' : St) (a : β) (k : List UInt8)
    (h : M.whileReading c f x s = .ok a s') (h' : s'.errors = none) (hk : s.buf = k ++ s'.buf) :
    (∀ t, M.whileReading c f x { s with buf := k ++ t } = .ok a { s' with buf := t }) ∧
    (∀ k' k'', k = k' ++ k'' → k'' ≠ [] → M.whileReading c f x { s with buf := k' } = .panic) := by
  unfold M.whileReading at h
  split at h
  · next hc =>
    split at h
    · next b1 s1 e =>
      split at h
      · next hlt =>
        have hn : s1.errors = none := (Good.whileReading (c := c) (fun b => (hf b).good) b1).none_of h h'
        obtain ⟨k1, e1, _⟩ := (hf x).good.reads s s1 (by rw [e]; rfl)
        obtain ⟨k2, e2, _⟩ := (Good.whileReading (c := c) (fun b => (hf b).good) b1).reads s1 s' (by rw [h]; rfl)
        have : k = k1 ++ k2 := by
          rw [e1, e2, ← List.append_assoc] at hk
          exact (List.append_cancel_right hk).symm
        subst this
        have hk1 : 0 < k1.length := by have := congrArg List.length e1; simp at this; omega
        obtain ⟨i1, i2⟩ := while_loc (b := b) hf b1 s1 s' a k2 h h' e2
        constructor
        · intro t
          unfold M.whileReading
          rw [if_pos hc, List.append_assoc, (hf x).loc s b1 s1 k1 e hn e1 (k2 ++ t)]
          simp only [List.length_append]
          rw [if_pos (by omega)]
          exact i1 t
        · intro k' k'' ek ne
          unfold M.whileReading
          rw [if_pos hc]
          rcases List.append_eq_append_iff.1 ek with ⟨t, e3, e4⟩ | ⟨t, e3, e4⟩
          · subst e3
            rw [(hf x).loc s b1 s1 k1 e hn e1 t]
            simp only [List.length_append]
            rw [if_pos (by omega)]
            exact i2 t k'' e4 ne
          · by_cases ht : t = []
            · subst ht
              simp only [List.append_nil] at e3
              subst e3
              have := (hf x).loc s b1 s1 k1 e hn e1 []
              rw [List.append_nil] at this
              rw [this]
              simp only [List.length_nil]
              rw [if_pos (by omega)]
              simp only [List.nil_append] at e4
              exact i2 [] k'' (by simp [e4]) ne
            · rcases (hf x).cut s b1 s1 k1 e hn e1 k' t e3 ht with h3 | ⟨h3, _⟩
              · rw [h3]
              · cases h3
      · cases h
    · cases h
    · cases h
  · next hc =>
    cases h
    have : k = [] := List.self_eq_append_left.1 hk
    subst this
    constructor
    · intro t; unfold M.whileReading; rw [if_neg hc]; rfl
    · intro k' k'' e ne; exact absurd (List.append_eq_nil_iff.1 e.symm).2 ne
termination_by s.buf.length

theorem whileReading {b : Bool} {β : Type} {c : β → Bool} {f : β → M β} (hf : ∀ b, Trunc false (f b)) (x : β) :
    Trunc b (M.whileReading c f x : M β) where
  good := Good.whileReading (fun b => (hf b).good) x
  loc s a s' k h h' hk t := (while_loc (b := b) hf x s s' a k h h' hk).1 t
  cut s a s' k h h' hk k' k'' e ne := .inl ((while_loc (b := b) hf x s s' a k h h' hk).2 k' k'' e ne)

end Trunc

/-- One step of a `Trunc` proof. -/
macro "tr1" : tactic => `(tactic| first
  | assumption
  | with_reducible exact Trunc.pure _ | with_reducible exact Trunc.pure' _ | with_reducible exact Trunc.panic | with_reducible exact Trunc.fail _ | with_reducible exact Trunc.failAt _ | with_reducible exact Trunc.getCode | with_reducible exact Trunc.getErrors
  | with_reducible exact Trunc.setCode _ | with_reducible exact Trunc.setError _ | with_reducible exact Trunc.mapErrAt _ | with_reducible exact Trunc.checkError | with_reducible exact Trunc.unwrapOpt _
  | with_reducible exact Trunc.readBytes _ | with_reducible exact Trunc.peekAdvance _ | with_reducible exact Trunc.insertAt _ _ _
  | with_reducible apply Trunc.okOrRecord | with_reducible apply Trunc.bind | with_reducible apply Trunc.bind' | with_reducible apply Trunc.forRange | with_reducible apply Trunc.whileReading
  | intro _ | split)

macro "tr" : tactic => `(tactic| repeat tr1)

/-- `tr` with extra facts. -/
syntax "trw" "[" term,* "]" : tactic
macro_rules
  | `(tactic| trw []) => `(tactic| tr)
  | `(tactic| trw [$ts,*]) => do
    let ts := ts.getElems
    `(tactic| repeat first $[| with_reducible apply $ts:term]* | tr1)

namespace Trunc

theorem decodeUnsigned (n) : Trunc true (decodeUnsigned n) := by
  unfold Brass.decodeUnsigned; trw []
theorem decodeSigned (n) : Trunc true (decodeSigned n) := by
  unfold Brass.decodeSigned; trw []
theorem decodeU8 : Trunc true decodeU8 := decodeUnsigned _
theorem byte {b} : Trunc b (M.unwrap Brass.decodeU8) := unwrap decodeU8
theorem decodeI32 : Trunc true decodeI32 := decodeSigned _
theorem int {b} : Trunc b (M.unwrap Brass.decodeI32) := unwrap decodeI32
theorem decodeF64 : Trunc true decodeF64 := decodeUnsigned _
theorem readIndex : Trunc true readIndex := by
  unfold Brass.readIndex; trw [decodeU8, byte]
theorem index {b} : Trunc b index := readIndex.unwrap
theorem uindex {b} : Trunc b uindex := by
  unfold Brass.uindex; trw [index]
theorem toI32 {b} (n) : Trunc b (toI32 n) := by
  unfold Brass.toI32; trw []
theorem badIndex {b} (i n) : Trunc b (badIndex i n) := by
  unfold Brass.badIndex; trw [toI32]
theorem readString {b} : Trunc b readString := by
  unfold Brass.readString; trw [index, badIndex]
theorem readUstring {b} : Trunc b readUstring := by
  unfold Brass.readUstring; trw [index, badIndex]
theorem getType {b} : Trunc b getType := by
  unfold Brass.getType; trw [index, badIndex]
theorem readTypeRefs {b} (n) : Trunc b (readTypeRefs n) := by
  unfold Brass.readTypeRefs; trw [getType]
theorem readField {b} : Trunc b readField := by
  unfold Brass.readField; trw [getType, readUstring]
theorem readFields {b} (n) : Trunc b (readFields n) := by
  unfold Brass.readFields; trw [readField]
theorem readProto {b} : Trunc b readProto := by
  unfold Brass.readProto; trw [uindex, index, readUstring]
theorem readProtos {b} (n) : Trunc b (readProtos n) := by
  unfold Brass.readProtos; trw [readProto]
theorem readBindings {b} (n) : Trunc b (readBindings n) := by
  unfold Brass.readBindings; trw [uindex]
theorem readConstruct {b} : Trunc b readConstruct := by
  unfold Brass.readConstruct; trw [uindex, readUstring, readTypeRefs]
theorem readConstructs {b} (n) : Trunc b (readConstructs n) := by
  unfold Brass.readConstructs; trw [readConstruct]
theorem readFuncType {b} : Trunc b readFuncType := by
  unfold Brass.readFuncType; trw [byte, getType, readTypeRefs]
theorem readSuper {b} : Trunc b readSuper := by
  unfold Brass.readSuper; trw [index]
theorem readObjType {b} : Trunc b readObjType := by
  unfold Brass.readObjType; trw [uindex, index, readUstring, readSuper, readFields, readProtos, readBindings]
theorem readVirtualType {b} : Trunc b readVirtualType := by
  unfold Brass.readVirtualType; trw [uindex, readFields]
theorem readEnumType {b} : Trunc b readEnumType := by
  unfold Brass.readEnumType; trw [uindex, readUstring, readConstructs]
theorem readTypeBody {b} (t) : Trunc b (readTypeBody t) := by
  unfold Brass.readTypeBody; trw [readFuncType, readObjType, getType, readVirtualType, readUstring, readEnumType]
theorem readType {b} (t) : Trunc b (readType t) := by
  unfold Brass.readType; trw [byte, readTypeBody]
theorem sliceFrom {b} (s i) : Trunc b (sliceFrom s i) := by
  unfold Brass.sliceFrom; trw []
theorem sliceTo {b} (s i) : Trunc b (sliceTo s i) := by
  unfold Brass.sliceTo; trw []
theorem readStringsLoop {b} (st) : ∀ n c x y, Trunc b (readStringsLoop st n c x y)
  | 0, _, _, _ => pure _
  | n + 1, c, x, y => by
    unfold Brass.readStringsLoop
    refine bind uindex fun _ => bind (sliceFrom _ _) fun _ => bind (sliceTo _ _) fun _ => ?_
    split
    · exact pure _
    · exact readStringsLoop st n _ _ _
theorem readStrings {b} (n) : Trunc b (readStrings n) := by
  have : Trunc false (Brass.readStrings n) := by
    unfold Brass.readStrings; trw [int, readStringsLoop]
  exact this.mono
theorem readExtra {b} {rd} (h : Trunc b rd) (n) : Trunc b (readExtra rd n) := by
  unfold Brass.readExtra; trw []
theorem uindexI {b} : Trunc b uindexI := by
  unfold Brass.uindexI; trw [uindex]
theorem readCallLike {b} (r) : Trunc b (readCallLike r) := by
  unfold Brass.readCallLike; trw [index, byte, readExtra]
theorem readSwitch {b} (r) : Trunc b (readSwitch r) := by
  unfold Brass.readSwitch; trw [uindexI, uindex, readExtra]
theorem readOperands {b} (r i) : Trunc b (readOperands r i) := by
  unfold Brass.readOperands; trw [index, readCallLike, readSwitch, readExtra]
theorem readOpcode {b} : Trunc b readOpcode := by
  unfold Brass.readOpcode; trw [byte, readOperands]
theorem readOpcodes {b} (n) : Trunc b (readOpcodes n) := by
  unfold Brass.readOpcodes
  exact forRange (fun _ _ => bind (unwrap (readOpcode (b := true))) fun _ => insertAt _ _ _) _ _ _
theorem readFunction {b} : Trunc b readFunction := by
  unfold Brass.readFunction; trw [uindex, getType, readTypeRefs, readOpcodes]
theorem i32Add {b} (p x y) : Trunc b (i32Add p x y) := by
  unfold Brass.i32Add; trw []
theorem debugStore {b} (d) : Trunc b (debugStore d) := by
  unfold Brass.debugStore; trw []
theorem setErrorIf {b} (x k) : Trunc b (setErrorIf x k) := by
  unfold Brass.setErrorIf; trw []
theorem debugBody {b} (p n d) : Trunc b (debugBody p n d) := by
  unfold Brass.debugBody; trw [byte, toI32, setErrorIf, i32Add, debugStore]
theorem debugInfos {b} (p n) : Trunc b (debugInfos p n) := by
  exact bind (whileReading (debugBody p n) _) (fun _ => pure _)
theorem readMagic {b} : Trunc b readMagic := by
  unfold Brass.readMagic; trw [byte]
theorem readVersion {b} : Trunc b readVersion := by
  unfold Brass.readVersion; trw [byte]
theorem uindexIf {b} (x) : Trunc b (uindexIf x) := by
  unfold Brass.uindexIf; trw [uindex]
theorem readCounts {b} (v) : Trunc b (readCounts v) := by
  unfold Brass.readCounts; trw [uindex, uindexIf]
theorem checked {b} {α : Type} {x : M α} (h : Trunc b x) : Trunc b (checked x) := by
  unfold Brass.checked; tr

end Trunc

/-- A read of exactly `w` bytes. -/
structure FixedRead {α : Type} (w : Nat) (rd : M α) (val : List UInt8 → α) : Prop where
  pos : 0 < w
  eq : ∀ s, rd s = if s.buf.length < w then .err { kind := .noMoreData, position := s.pos } s
    else .ok (val (s.buf.take w)) { s with buf := s.buf.drop w, pos := s.pos + w }

theorem FixedRead.i32 : FixedRead 4 decodeI32 (fun k => toSigned 32 (leNat k)) where
  pos := by decide
  eq s := by
    unfold decodeI32 decodeSigned
    rw [M.bind_def]
    unfold readBytes
    by_cases h : s.buf.length < 4
    · simp [h]
    · simp [h]

theorem FixedRead.f64 : FixedRead 8 decodeF64 leNat where
  pos := by decide
  eq s := by
    unfold decodeF64 decodeUnsigned
    rw [M.bind_def]
    unfold readBytes
    by_cases h : s.buf.length < 8
    · simp [h]
    · simp [h]

theorem M.forRange_succ {β : Type} (f : Nat → β → M β) (a n : Nat) (b : β) :
    M.forRange f a (n + 1) b = f a b >>= fun b => M.forRange f (a + 1) n b := rfl

/-- Once the data ran out, the rest of the pool loop does nothing. -/
theorem pool_stuck {α : Type} {w : Nat} {rd : M α} {val} (hr : FixedRead w rd val) : ∀ (n a : Nat) (v : List α) (s : St) (e),
    s.errors = some e → s.buf.length < w →
    M.forRange (fun i v => do let x ← M.okOrRecord rd; insertIfSome v i x) a n v s = .ok v s
  | 0, _, _, _, _, _, _ => rfl
  | n + 1, a, v, s, e, he, hl => by
    rw [M.forRange_succ, M.bind_ok (a := v) (s' := s)]
    · exact pool_stuck hr n (a + 1) v s e he hl
    · rw [M.bind_ok (a := none) (s' := s)]
      · rfl
      · unfold M.okOrRecord
        rw [hr.eq, if_pos hl]
        simp [M.recordError, he]

/-- A pool whose data is short ends with the error at its first incomplete word. -/
theorem pool_short {α : Type} {w : Nat} {rd : M α} {val} (hr : FixedRead w rd val) : ∀ (n : Nat) (v : List α) (s : St),
    s.errors = none → s.buf.length < w * n →
    ∃ v' s', M.forRange (fun i v => do let x ← M.okOrRecord rd; insertIfSome v i x) v.length n v s = .ok v' s' ∧
      s'.errors = some { kind := .noMoreData, position := s.pos + w * (s.buf.length / w) }
  | 0, _, _, _, h => by simp at h
  | n + 1, v, s, he, hl => by
    by_cases h : s.buf.length < w
    · refine ⟨v, { s with errors := some { kind := .noMoreData, position := s.pos } }, ?_, ?_⟩
      · rw [M.forRange_succ, M.bind_ok (a := v) (s' := { s with errors := some { kind := .noMoreData, position := s.pos } })]
        · exact pool_stuck hr n _ v _ _ rfl h
        · rw [M.bind_ok (a := none) (s' := { s with errors := some { kind := .noMoreData, position := s.pos } })]
          · rfl
          · unfold M.okOrRecord
            rw [hr.eq, if_pos h]
            simp [M.recordError, he]
      · simp [Nat.div_eq_of_lt h]
    · have hp := hr.pos
      have ih := pool_short hr n (v ++ [val (s.buf.take w)]) { s with buf := s.buf.drop w, pos := s.pos + w } he
        (by simp only [List.length_drop]; rw [Nat.mul_succ] at hl; omega)
      obtain ⟨v', s', h1, h2⟩ := ih
      refine ⟨v', s', ?_, ?_⟩
      · rw [M.forRange_succ, M.bind_ok (a := v ++ [val (s.buf.take w)]) (s' := { s with buf := s.buf.drop w, pos := s.pos + w })]
        · simpa using h1
        · rw [M.bind_ok (a := some (val (s.buf.take w))) (s' := { s with buf := s.buf.drop w, pos := s.pos + w })]
          · show M.insertAt _ _ _ _ = _
            rw [Sem.insertAt_ok _ _ _ rfl]; rfl
          · unfold M.okOrRecord
            rw [hr.eq, if_neg h]
      · rw [h2]
        congr 2
        have : s.buf.length / w = (s.buf.length - w) / w + 1 := by
          rw [Nat.div_eq_sub_div hp (by omega)]
        simp only [List.length_drop, this, Nat.mul_succ]
        omega

/-- A pool with enough data. -/
theorem pool_enough {α : Type} {w : Nat} {rd : M α} {val} (hr : FixedRead w rd val) : ∀ (n : Nat) (v : List α) (s : St),
    w * n ≤ s.buf.length →
    ∃ v', M.forRange (fun i v => do let x ← M.okOrRecord rd; insertIfSome v i x) v.length n v s =
      .ok v' { s with buf := s.buf.drop (w * n), pos := s.pos + w * n } ∧
      ∀ t, M.forRange (fun i v => do let x ← M.okOrRecord rd; insertIfSome v i x) v.length n v { s with buf := s.buf.take (w * n) ++ t } =
        .ok v' { s with buf := t, pos := s.pos + w * n }
  | 0, v, s, _ => ⟨v, by simp [M.forRange], fun t => by simp [M.forRange]⟩
  | n + 1, v, s, hl => by
    have hw : w ≤ s.buf.length := by rw [Nat.mul_succ] at hl; omega
    obtain ⟨v', h1, h2⟩ := pool_enough hr n (v ++ [val (s.buf.take w)]) { s with buf := s.buf.drop w, pos := s.pos + w }
        (by simp only [List.length_drop]; rw [Nat.mul_succ] at hl; omega)
    have step : ∀ (s : St) (x : List UInt8) (t : List UInt8), x.length = w → s.buf = x ++ t →
        (do let y ← M.okOrRecord rd; insertIfSome v v.length y : M (List α)) s = .ok (v ++ [val x]) { s with buf := t, pos := s.pos + w } := by
      intro s x t hx hs
      rw [M.bind_ok (a := some (val x)) (s' := { s with buf := t, pos := s.pos + w })]
      · show M.insertAt _ _ _ _ = _
        rw [Sem.insertAt_ok _ _ _ rfl]; rfl
      · unfold M.okOrRecord
        rw [hr.eq, if_neg (by rw [hs]; simp; omega)]
        simp [hs, ← hx]
    refine ⟨v', ?_, fun t => ?_⟩
    · rw [M.forRange_succ, M.bind_ok (step s (s.buf.take w) (s.buf.drop w) (by simp; omega) (by simp))]
      simp only [List.length_append, List.length_cons, List.length_nil, List.drop_drop] at h1
      rw [h1]
      simp only [Out.ok.injEq, St.mk.injEq, true_and, and_true]
      constructor
      · congr 1; rw [Nat.mul_succ]; omega
      · rw [Nat.mul_succ]; omega
    · rw [M.forRange_succ]
      have e : s.buf.take (w * (n + 1)) = s.buf.take w ++ (s.buf.drop w).take (w * n) := by
        rw [Nat.mul_succ, Nat.add_comm, List.take_add]
      rw [M.bind_ok (step _ (s.buf.take w) ((s.buf.drop w).take (w * n) ++ t) (by simp; omega) (by simp [e]))]
      have := h2 t
      simp only [List.length_append, List.length_cons, List.length_nil] at this
      rw [this]
      simp only [Out.ok.injEq, St.mk.injEq, true_and, and_true]
      rw [Nat.mul_succ]; omega

namespace Trunc

theorem readPool {α : Type} {w : Nat} {rd : M α} {val} (hr : FixedRead w rd val) (hg : Good rd) (n : Nat) :
    Trunc true (Brass.checked (readPool rd n)) where
  good := Good.checked (Good.readPool hg n)
  loc s a s' k h h' hk t := by
    obtain ⟨b, s1, h1, h2⟩ := M.bind_eq_ok h
    obtain ⟨_, s2, h3, h4⟩ := M.bind_eq_ok h2
    have hs1 : s1 = s' ∧ b = a := by
      unfold M.checkError at h3; split at h3 <;> cases h3; cases h4; exact ⟨rfl, rfl⟩
    obtain ⟨rfl, rfl⟩ := hs1
    have he := (Good.readPool hg n).none_of h1 h'
    by_cases hl : w * n ≤ s.buf.length
    · obtain ⟨v', e1, e2⟩ := pool_enough hr n [] s hl
      have e1' : Brass.readPool rd n s = _ := e1
      rw [e1'] at h1
      cases h1
      have hk' : k = s.buf.take (w * n) := by
        have := congrArg (List.take k.length) hk
        have hl : k.length = w * n := by have := congrArg List.length hk; simp at this; omega
        rw [List.take_left, hl] at this; exact this.symm
      subst hk'
      have e2' : Brass.readPool rd n { s with buf := s.buf.take (w * n) ++ t } = _ := e2 t
      unfold Brass.checked
      rw [M.bind_ok e2']
      simp [M.bind_def, M.checkError, he]
    · obtain ⟨v', s3, e1, e2⟩ := pool_short hr n [] s he (by omega)
      have e1' : Brass.readPool rd n s = _ := e1
      rw [e1'] at h1
      cases h1
      rw [h'] at e2; cases e2
  cut s a s' k h h' hk k' k'' e ne := by
    obtain ⟨b, s1, h1, h2⟩ := M.bind_eq_ok h
    obtain ⟨_, s2, h3, h4⟩ := M.bind_eq_ok h2
    have hs1 : s1 = s' ∧ b = a := by
      unfold M.checkError at h3; split at h3 <;> cases h3; cases h4; exact ⟨rfl, rfl⟩
    obtain ⟨rfl, rfl⟩ := hs1
    have he := (Good.readPool hg n).none_of h1 h'
    have hlen : k.length = w * n := by
      by_cases hl : w * n ≤ s.buf.length
      · obtain ⟨v', e1, e2⟩ := pool_enough hr n [] s hl
        have e1' : Brass.readPool rd n s = _ := e1
        rw [e1'] at h1
        cases h1
        have := congrArg List.length hk; simp at this; omega
      · obtain ⟨v', s3, e1, e2⟩ := pool_short hr n [] s he (by omega)
        have e1' : Brass.readPool rd n s = _ := e1
        rw [e1'] at h1
        cases h1
        rw [h'] at e2; cases e2
    right
    obtain ⟨v', s3, e1, e2⟩ := pool_short hr n [] { s with buf := k' } he (by
      have := congrArg List.length e
      have := List.length_pos_iff.2 ne
      simp at *; omega)
    have e1' : Brass.readPool rd n { s with buf := k' } = _ := e1
    refine ⟨rfl, { kind := .noMoreData, position := s.pos + w * (k'.length / w) }, s3, rfl, ?_⟩
    unfold Brass.checked
    rw [M.bind_ok e1', M.bind_err]
    unfold M.checkError
    rw [e2]

theorem readPools (c) : Trunc true (readPools c) :=
  bind (readPool FixedRead.i32 Good.decodeI32 _) fun _ => bind (readPool FixedRead.f64 Good.decodeF64 _) fun _ =>
    bind (checked (okOrRecord (readStrings _))) fun _ => pure _
theorem readBytesPos {b} (n) : Trunc b (readBytesPos n) := by
  unfold Brass.readBytesPos; trw [uindex]
theorem readBytesSection (c) : Trunc true (readBytesSection c) := by
  unfold Brass.readBytesSection; dsimp only
  split
  · refine bind decodeI32 fun _ => ?_
    split
    · exact panic
    · exact bind (unwrap (readBytes _)) fun _ => bind (checked (readBytesPos _)) fun _ => pure _
  · exact pure _
theorem readDebugFiles {b} (c) : Trunc b (readDebugFiles c) := by
  unfold Brass.readDebugFiles; trw [uindex, readStrings]
theorem readTypesStep {b} (i c) : Trunc b (readTypesStep i c) := by
  unfold Brass.readTypesStep; trw [readType]
theorem readTypes {b} (c) : Trunc b (readTypes c) := forRange readTypesStep _ _ _
theorem readGlobalsStep {b} (i c) : Trunc b (readGlobalsStep i c) := by
  unfold Brass.readGlobalsStep; trw [getType]
theorem readGlobals {b} (c) : Trunc b (readGlobals c) := by
  unfold Brass.readGlobals; dsimp only; trw [readGlobalsStep, checked]
theorem readNative {b} : Trunc b readNative := by
  unfold Brass.readNative; trw [readString, getType, uindex]
theorem readNativesStep {b} (i c) : Trunc b (readNativesStep i c) := by
  unfold Brass.readNativesStep; trw [readNative]
theorem readNatives {b} (c) : Trunc b (readNatives c) := by
  unfold Brass.readNatives; dsimp only; trw [readNativesStep, checked]
theorem skipAssigns {b} : Trunc b skipAssigns := by
  unfold Brass.skipAssigns; trw [index, uindex]
theorem storeDebug {b} (i) : ∀ o, Trunc b (storeDebug i o)
  | none => pure _
  | some _ => by unfold Brass.storeDebug; tr
theorem skipAssignsIf {b} (x) : Trunc b (skipAssignsIf x) := by
  unfold Brass.skipAssignsIf; trw [skipAssigns]
theorem readFunctionDebug {b} (p i) : Trunc b (readFunctionDebug p i) := by
  unfold Brass.readFunctionDebug; trw [skipAssigns, debugInfos, storeDebug, skipAssignsIf]
theorem readFunctionsStep {b} (p i c) : Trunc b (readFunctionsStep p i c) := by
  unfold Brass.readFunctionsStep; trw [readFunction, readFunctionDebug]
theorem readFunctions {b} (p c) : Trunc b (readFunctions p c) := by
  unfold Brass.readFunctions; trw [readFunctionsStep, checked]
theorem readConstant {b} : Trunc b readConstant := by
  unfold Brass.readConstant; trw [uindex]
theorem readConstantsStep {b} (i c) : Trunc b (readConstantsStep i c) := by
  unfold Brass.readConstantsStep; trw [readConstant, checked]
theorem readConstants {b} (c) : Trunc b (readConstants c) := forRange readConstantsStep _ _ _
theorem readM (p) : Trunc true (readM p) := by
  unfold Brass.readM
  exact bind readMagic fun _ => bind readVersion fun v => bind (checked (readCounts v)) fun c => bind (readPools c) fun c =>
    bind (readBytesSection c) fun c => bind (readDebugFiles c) fun c => bind (readTypes c) fun c => bind (readGlobals c) fun c =>
    bind (readNatives c) fun c => bind (readFunctions p c) fun c => bind (readConstants c) fun _ => getCode

end Trunc

end Verif.Brass
