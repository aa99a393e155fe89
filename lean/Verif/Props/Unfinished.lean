import Verif.Brass.FinalizeUnwind
import Verif.Spec.Unfinished
import Verif.Props.Preimage

/-!
# What a panicking `finalize` leaves behind, and repeated calls (C102)
-/

namespace Verif.Brass

open Verif Spec

/-! ## Loops that fill a table from the left -/

theorem keep_true {β : Type} {f : Nat → β → Rust β} : ∀ {n a : Nat} {b c : β}, keep f a n b = (c, true) ↔ Rust.forRange f a n b = .ret c
  | 0, a, b, c => by simp [keep, Rust.forRange]
  | n + 1, a, b, c => by
    simp only [keep, Rust.forRange]
    cases f a b with
    | panic => simp
    | ret b' => simp only [Rust.bind_ret]; exact keep_true

theorem keep_false {β : Type} {f : Nat → β → Rust β} : ∀ {n a : Nat} {b c : β},
    keep f a n b = (c, false) ↔ ∃ k, k < n ∧ Rust.forRange f a k b = .ret c ∧ f (a + k) c = .panic
  | 0, a, b, c => by simp [keep]
  | n + 1, a, b, c => by
    simp only [keep]
    cases h : f a b with
    | panic =>
      simp only [Prod.mk.injEq, and_true]
      constructor
      · rintro rfl
        exact ⟨0, by omega, rfl, h⟩
      · rintro ⟨k, _, h2, _⟩
        cases k with
        | zero => exact (Rust.ret.inj h2)
        | succ k => simp only [Rust.forRange, h] at h2; cases h2
    | ret b' =>
      simp only
      rw [keep_false]
      constructor
      · rintro ⟨k, h1, h2, h3⟩
        refine ⟨k + 1, by omega, ?_, ?_⟩
        · simp only [Rust.forRange, h, Rust.bind_ret]; exact h2
        · rw [show a + (k + 1) = a + 1 + k by omega]; exact h3
      · rintro ⟨k, h1, h2, h3⟩
        cases k with
        | zero =>
          cases h2
          rw [Nat.add_zero, h] at h3; cases h3
        | succ k =>
          simp only [Rust.forRange, h, Rust.bind_ret] at h2
          exact ⟨k, by omega, h2, by rw [show a + 1 + k = a + (k + 1) by omega]; exact h3⟩

/-- Every loop ends one way or the other. -/
theorem keep_cases {β : Type} (f : Nat → β → Rust β) (a n : Nat) (b : β) : ∃ c ok, keep f a n b = (c, ok) := ⟨_, _, rfl⟩

theorem forRange_snoc {β : Type} {f : Nat → β → Rust β} : ∀ {n a : Nat} {b : β},
    Rust.forRange f a (n + 1) b = (Rust.forRange f a n b >>= f (a + n))
  | 0, a, b => by
    simp only [Rust.forRange, Rust.bind_ret, Nat.add_zero]
    cases f a b <;> rfl
  | n + 1, a, b => by
    rw [Rust.forRange]
    cases h : f a b with
    | panic => simp only [Rust.forRange, h]; rfl
    | ret c =>
      simp only [Rust.bind_ret]
      rw [forRange_snoc]
      simp only [Rust.forRange, h, Rust.bind_ret]
      rw [show a + 1 + n = a + (n + 1) by omega]

/-- A loop on a state that computes the entries of a table in it, one after the other. -/
theorem filled {σ : Type} {f : Nat → σ → Rust σ} {put : List UInt32 → σ} {R : List UInt32 → Nat → UInt32 → Prop} {v : List UInt32}
    (hf : ∀ i t y, i < v.length → t.length = v.length → (f i (put t) = .ret y ↔ ∃ x, R t i x ∧ y = put (t.set i x))) :
    ∀ {k : Nat} {y : σ}, k ≤ v.length → (Rust.forRange f 0 k (put v) = .ret y ↔
      ∃ l : List UInt32, l.length = k ∧ (∀ i x, l[i]? = some x → R (l.take i ++ v.drop i) i x) ∧ y = put (l ++ v.drop k))
  | 0, y, _ => by
    simp only [Rust.forRange, Rust.ret.injEq]
    constructor
    · rintro rfl
      exact ⟨[], rfl, by simp, by simp⟩
    · rintro ⟨l, h1, _, h3⟩
      rw [List.length_eq_zero_iff.1 h1] at h3
      rw [h3]; simp
  | k + 1, y, hk => by
    rw [forRange_snoc, Nat.zero_add]
    have hset : ∀ (l : List UInt32) (x : UInt32), l.length = k → (l ++ v.drop k).set k x = l ++ [x] ++ v.drop (k + 1) := by
      intro l x hl
      rw [List.set_append_right _ _ (by omega), hl, Nat.sub_self, List.append_assoc]
      rw [List.drop_eq_getElem_cons (by omega : k < v.length)]
      rfl
    constructor
    · intro h
      cases h1 : Rust.forRange f 0 k (put v) with
      | panic => rw [h1] at h; cases h
      | ret z =>
        rw [h1] at h
        obtain ⟨l, hl, hR, rfl⟩ := (filled hf (by omega)).1 h1
        have hlen : (l ++ v.drop k).length = v.length := by simp; omega
        obtain ⟨x, hx, rfl⟩ := (hf k _ y (by omega) hlen).1 h
        refine ⟨l ++ [x], by simp [hl], ?_, by rw [hset l x hl]⟩
        intro i z hz
        by_cases hi : i < k
        · rw [List.getElem?_append_left (by omega)] at hz
          rw [List.take_append_of_le_length (by omega)]
          exact hR i z hz
        · have : i = k := by
            have := (List.getElem?_eq_some_iff.1 hz).1
            simp [hl] at this; omega
          subst this
          rw [← hl, List.getElem?_concat_length] at hz
          cases hz
          rw [List.take_left' hl]
          exact hx
    · rintro ⟨l, hl, hR, rfl⟩
      have hlast : l = l.take k ++ [l[k]] := by
        rw [List.take_append_getElem (by omega), List.take_of_length_le (by omega)]
      have h1 : Rust.forRange f 0 k (put v) = .ret (put (l.take k ++ v.drop k)) := by
        refine (filled hf (by omega)).2 ⟨l.take k, by simp; omega, ?_, rfl⟩
        intro i x hx
        have hi := (List.getElem?_eq_some_iff.1 hx).1
        simp at hi
        rw [List.getElem?_take, if_pos (by omega)] at hx
        rw [List.take_take, Nat.min_eq_left (by omega)]
        exact hR i x hx
      rw [h1]
      simp only [Rust.bind_ret]
      refine (hf k _ _ (by omega) (by simp; omega)).2 ⟨l[k], hR k _ (List.getElem?_eq_getElem (by omega)), ?_⟩
      rw [hset _ _ (by simp; omega), ← hlast]

theorem filled_panic {σ : Type} {f : Nat → σ → Rust σ} {put : List UInt32 → σ} {R : List UInt32 → Nat → UInt32 → Prop} {v : List UInt32}
    (hf : ∀ i t y, i < v.length → t.length = v.length → (f i (put t) = .ret y ↔ ∃ x, R t i x ∧ y = put (t.set i x)))
    {i : Nat} {t : List UInt32} (hi : i < v.length) (ht : t.length = v.length) : f i (put t) = .panic ↔ ∀ x, ¬ R t i x := by
  constructor
  · intro h x hx
    have := (hf i t _ hi ht).2 ⟨x, hx, rfl⟩
    rw [h] at this; cases this
  · intro h
    cases e : f i (put t) with
    | panic => rfl
    | ret y =>
      obtain ⟨x, hx, _⟩ := (hf i t y hi ht).1 e
      exact (h x hx).elim

namespace CodeHash

theorem signFunction_iff (s : CodeHash) (i : Nat) (x : UInt32) :
    (∃ f, s.code.functions[i]? = some f ∧ s.hashFunSign f = .ret x) ↔ FunctionSign s i x := by
  unfold FunctionSign
  constructor
  · rintro ⟨f, h1, h2⟩
    obtain ⟨items, b, h3, h4, h5⟩ := (c68_signature_hash s f x).1 h2
    exact ⟨f, items, b, h1, h3, h4, h5⟩
  · rintro ⟨f, items, b, h1, h3, h4, h5⟩
    exact ⟨f, h1, (c68_signature_hash s f x).2 ⟨items, b, h3, h4, h5⟩⟩

theorem signNative_iff (s : CodeHash) (i : Nat) (x : UInt32) :
    (∃ n, s.code.natives[i]? = some n ∧ s.hashNative n = .ret x) ↔ NativeSign s i x := by
  unfold NativeSign
  constructor
  · rintro ⟨f, h1, h2⟩
    obtain ⟨b, h4, h5⟩ := (c68_native_hash s f x).1 h2
    exact ⟨f, b, h1, h4, h5⟩
  · rintro ⟨f, b, h1, h4, h5⟩
    exact ⟨f, h1, (c68_native_hash s f x).2 ⟨b, h4, h5⟩⟩

theorem set_ret {v : List UInt32} {i : Nat} (h : i < v.length) (x : UInt32) : Rust.set v i x = .ret (v.set i x) := by
  unfold Rust.set; rw [if_pos h]

/-- One round of the first loop. -/
theorem signFunctionAt_iff (s : CodeHash) (i : Nat) (t : List UInt32) (y : CodeHash) (hi : i < t.length) :
    signFunctionAt i { s with functionsSigns := t } = .ret y ↔ ∃ x, FunctionSign s i x ∧ y = { s with functionsSigns := t.set i x } := by
  unfold signFunctionAt signFunction
  simp only
  have hs : ∀ f, hashFunSign { s with functionsSigns := t } f = s.hashFunSign f := fun f => rfl
  have hI := signFunction_iff s i
  cases hg : s.code.functions[i]? with
  | none =>
    constructor
    · intro h; simp [Rust.get, hg, Rust.unwrap] at h
    · rintro ⟨x, hx, _⟩
      obtain ⟨f, h1, _⟩ := (hI x).2 hx
      rw [hg] at h1; cases h1
  | some f =>
    rw [show Rust.get s.code.functions i = .ret f from get_eq.2 hg]
    simp only [Rust.bind_ret, hs]
    cases hh : s.hashFunSign f with
    | panic =>
      constructor
      · intro h; cases h
      · rintro ⟨x, hx, _⟩
        obtain ⟨f', h1, h2⟩ := (hI x).2 hx
        rw [hg] at h1; cases h1
        rw [hh] at h2; cases h2
    | ret x =>
      simp only [Rust.bind_ret, set_ret hi]
      constructor
      · intro h; cases h
        exact ⟨x, (hI x).1 ⟨f, hg, hh⟩, rfl⟩
      · rintro ⟨x', hx, rfl⟩
        obtain ⟨f', h1, h2⟩ := (hI x').2 hx
        rw [hg] at h1; cases h1
        rw [hh] at h2; cases h2
        rfl

/-- One round of the second loop. -/
theorem signNativeAt_iff (s : CodeHash) (i : Nat) (t : List UInt32) (y : CodeHash) (hi : i < t.length) :
    signNativeAt i { s with functionsSigns := t } = .ret y ↔ ∃ x, NativeSign s i x ∧ y = { s with functionsSigns := t.set i x } := by
  unfold signNativeAt signNative
  simp only
  have hs : ∀ f, hashNative { s with functionsSigns := t } f = s.hashNative f := fun f => rfl
  have hI := signNative_iff s i
  cases hg : s.code.natives[i]? with
  | none =>
    constructor
    · intro h; simp [Rust.get, hg, Rust.unwrap] at h
    · rintro ⟨x, hx, _⟩
      obtain ⟨f, h1, _⟩ := (hI x).2 hx
      rw [hg] at h1; cases h1
  | some f =>
    rw [show Rust.get s.code.natives i = .ret f from get_eq.2 hg]
    simp only [Rust.bind_ret, hs]
    cases hh : s.hashNative f with
    | panic =>
      constructor
      · intro h; cases h
      · rintro ⟨x, hx, _⟩
        obtain ⟨f', h1, h2⟩ := (hI x).2 hx
        rw [hg] at h1; cases h1
        rw [hh] at h2; cases h2
    | ret x =>
      simp only [Rust.bind_ret, set_ret hi]
      constructor
      · intro h; cases h
        exact ⟨x, (hI x).1 ⟨f, hg, hh⟩, rfl⟩
      · rintro ⟨x', hx, rfl⟩
        obtain ⟨f', h1, h2⟩ := (hI x').2 hx
        rw [hg] at h1; cases h1
        rw [hh] at h2; cases h2
        rfl

/-- One round of the third loop. -/
theorem hashFunction_iff (s : CodeHash) (signs : List UInt32) (hM : ∀ i f, i < s.code.nfunctions → s.code.functions[i]? = some f → MachineSized s f)
    (i : Nat) (t : List UInt32) (y : CodeHash) (hn : i < s.code.nfunctions) (hi : i < t.length) (ht : t.length < 2 ^ 31) :
    hashFunction i { s with functionsSigns := signs, functionsHashes := t } = .ret y ↔
      ∃ x, FunctionHash s t i x ∧ y = { s with functionsSigns := signs, functionsHashes := t.set i x } := by
  unfold hashFunction FunctionHash
  simp only
  cases hg : s.code.functions[i]? with
  | none =>
    constructor
    · intro h; simp [Rust.get, hg, Rust.unwrap] at h
    · rintro ⟨x, ⟨f, b, h1, _⟩, _⟩; cases h1
  | some f =>
    rw [show Rust.get s.code.functions i = .ret f from get_eq.2 hg]
    simp only [Rust.bind_ret]
    have M := hM i f hn hg
    have hI : ∀ x, hashFun { s with functionsSigns := signs, functionsHashes := t } f = .ret x ↔
        ∃ b, ItemsBytes { s with functionsHashes := t } (funItems f) b ∧ x = crc b := by
      intro x
      rw [c67_function_hash { s with functionsSigns := signs, functionsHashes := t } f ⟨M.nregs, M.nops, M.operands, M.strings, ht, M.indexes⟩ x]
      have := items_signs (s := { s with functionsHashes := t }) signs (funItems f)
      constructor
      · rintro ⟨b, h1, h2⟩; exact ⟨b, (this b).1 h1, h2⟩
      · rintro ⟨b, h1, h2⟩; exact ⟨b, (this b).2 h1, h2⟩
    cases hh : hashFun { s with functionsSigns := signs, functionsHashes := t } f with
    | panic =>
      constructor
      · intro h; cases h
      · rintro ⟨x, ⟨f', b, h1, h2, h3⟩, _⟩
        cases h1
        have := (hI x).2 ⟨b, h2, h3⟩
        rw [hh] at this; cases this
    | ret x =>
      simp only [Rust.bind_ret, set_ret hi]
      constructor
      · intro h; cases h
        obtain ⟨b, h1, h2⟩ := (hI x).1 hh
        exact ⟨x, ⟨f, b, rfl, h1, h2⟩, rfl⟩
      · rintro ⟨x', ⟨f', b, h1, h2, h3⟩, rfl⟩
        cases h1
        have := (hI x').2 ⟨b, h2, h3⟩
        rw [hh] at this; cases this
        rfl

/-- The first loop, on the state and on the table. -/
theorem signFunctions_state (s : CodeHash) : ∀ n a (v : List UInt32), Rust.forRange signFunctionAt a n { s with functionsSigns := v } =
    (Rust.forRange s.signFunction a n v >>= fun u => pure { s with functionsSigns := u })
  | 0, a, v => rfl
  | n + 1, a, v => by
    simp only [Rust.forRange]
    have h : signFunctionAt a { s with functionsSigns := v } = (s.signFunction a v >>= fun u => pure { s with functionsSigns := u }) := rfl
    rw [h]
    cases s.signFunction a v with
    | panic => rfl
    | ret u => simp only [Rust.bind_ret]; exact signFunctions_state s n (a + 1) u

/-- The second loop. -/
theorem signNatives_state (s : CodeHash) : ∀ n a (v : List UInt32), Rust.forRange signNativeAt a n { s with functionsSigns := v } =
    (Rust.forRange s.signNative a n v >>= fun u => pure { s with functionsSigns := u })
  | 0, a, v => rfl
  | n + 1, a, v => by
    simp only [Rust.forRange]
    have h : signNativeAt a { s with functionsSigns := v } = (s.signNative a v >>= fun u => pure { s with functionsSigns := u }) := rfl
    rw [h]
    cases s.signNative a v with
    | panic => rfl
    | ret u => simp only [Rust.bind_ret]; exact signNatives_state s n (a + 1) u

theorem keep_ok {β : Type} {f : Nat → β → Rust β} {a n : Nat} {b : β} : Rust.forRange f a n b =
    match keep f a n b with | (c, true) => .ret c | (_, false) => .panic := by
  cases h : keep f a n b with
  | mk c ok =>
    cases ok with
    | true => exact keep_true.1 h
    | false =>
      cases h' : Rust.forRange f a n b with
      | panic => rfl
      | ret d => rw [keep_true.2 h'] at h; cases h

end CodeHash

open CodeHash

/-- **C102** The state left behind, if `finalize` returns, is its result; otherwise it panics. -/
theorem c102_same_finalize (s : CodeHash) : finalize s = match finalizeUnwind s with | (t, true) => .ret t | (_, false) => .panic := by
  unfold finalize finalizeUnwind
  have h1 := signFunctions_state s s.code.nfunctions 0 (List.replicate (s.code.nfunctions + s.code.nnatives) 0)
  rw [keep_ok] at h1
  cases k1 : keep signFunctionAt 0 s.code.nfunctions { s with functionsSigns := List.replicate (s.code.nfunctions + s.code.nnatives) 0 } with
  | mk t ok =>
    rw [k1] at h1
    cases e1 : Rust.forRange s.signFunction 0 s.code.nfunctions (List.replicate (s.code.nfunctions + s.code.nnatives) 0) with
    | panic =>
      rw [e1] at h1
      cases ok with
      | true => cases h1
      | false => rfl
    | ret u =>
      rw [e1] at h1
      cases ok with
      | false => cases h1
      | true =>
        cases h1
        simp only [Rust.bind_ret]
        have h2 := signNatives_state s s.code.nnatives 0 u
        rw [keep_ok] at h2
        cases k2 : keep signNativeAt 0 s.code.nnatives { s with functionsSigns := u } with
        | mk t ok =>
          rw [k2] at h2
          cases e2 : Rust.forRange s.signNative 0 s.code.nnatives u with
          | panic =>
            rw [e2] at h2
            cases ok with
            | true => cases h2
            | false => rfl
          | ret v =>
            rw [e2] at h2
            cases ok with
            | false => cases h2
            | true =>
              cases h2
              simp only [Rust.bind_ret]
              rw [keep_ok]
              rcases keep hashFunction 0 s.code.nfunctions _ with ⟨c, _ | _⟩ <;> rfl

section
variable {s t : CodeHash}

/-- The stages of a panicking call. -/
theorem unfinished_cases : finalizeUnwind s = (t, false) ↔
    keep signFunctionAt 0 s.code.nfunctions { s with functionsSigns := List.replicate (s.code.nfunctions + s.code.nnatives) 0 } = (t, false) ∨
    (∃ s1, keep signFunctionAt 0 s.code.nfunctions { s with functionsSigns := List.replicate (s.code.nfunctions + s.code.nnatives) 0 } = (s1, true) ∧
      keep signNativeAt 0 s1.code.nnatives s1 = (t, false)) ∨
    (∃ s1 s2, keep signFunctionAt 0 s.code.nfunctions { s with functionsSigns := List.replicate (s.code.nfunctions + s.code.nnatives) 0 } = (s1, true) ∧
      keep signNativeAt 0 s1.code.nnatives s1 = (s2, true) ∧
      keep hashFunction 0 s2.code.nfunctions { s2 with functionsHashes := List.replicate s2.code.nfunctions 0 } = (t, false)) := by
  unfold finalizeUnwind
  cases keep signFunctionAt 0 s.code.nfunctions { s with functionsSigns := List.replicate (s.code.nfunctions + s.code.nnatives) 0 } with
  | mk s1 ok1 =>
    cases ok1 with
    | false => simp
    | true =>
      simp only
      cases h2 : keep signNativeAt 0 s1.code.nnatives s1 with
      | mk s2 ok2 =>
        cases ok2 with
        | false => simp [h2]
        | true => simp [h2]

theorem stage1_true {s1 : CodeHash} :
    keep signFunctionAt 0 s.code.nfunctions { s with functionsSigns := List.replicate (s.code.nfunctions + s.code.nnatives) 0 } = (s1, true) ↔
    ∃ signs : List UInt32, signs.length = s.code.nfunctions ∧ (∀ i x, signs[i]? = some x → FunctionSign s i x) ∧
      s1 = { s with functionsSigns := signs ++ List.replicate s.code.nnatives 0 } := by
  rw [keep_true]
  rw [filled (put := fun t => { s with functionsSigns := t }) (R := fun _ => FunctionSign s)
    (fun i t y hi ht => signFunctionAt_iff s i t y (by omega)) (by simp)]
  simp only [List.drop_replicate, Nat.add_sub_cancel_left]

theorem stage2 {signs : List UInt32} {k : Nat} {s2 : CodeHash} (hl : signs.length = s.code.nfunctions) (hk : k ≤ s.code.nnatives) :
    Rust.forRange signNativeAt 0 k { s with functionsSigns := signs ++ List.replicate s.code.nnatives 0 } = .ret s2 ↔
    ∃ nats : List UInt32, nats.length = k ∧ (∀ i x, nats[i]? = some x → NativeSign s i x) ∧
      s2 = { s with functionsSigns := nats ++ (signs ++ List.replicate s.code.nnatives 0).drop k } :=
  filled (put := fun t => { s with functionsSigns := t }) (R := fun _ => NativeSign s)
    (fun i t y hi ht => signNativeAt_iff s i t y (by omega)) (by simp; omega)

/-- **C102** What a panicking `finalize` leaves behind. -/
theorem c102_left_behind (hn : s.code.nfunctions < 2 ^ 31)
    (M : ∀ i f, i < s.code.nfunctions → s.code.functions[i]? = some f → MachineSized s f) :
    finalizeUnwind s = (t, false) ↔ Unfinished s t := by
  rw [unfinished_cases]
  have F1 : ∀ (i : Nat) (t : List UInt32) (y : CodeHash), i < (List.replicate (s.code.nfunctions + s.code.nnatives) (0 : UInt32)).length →
      t.length = (List.replicate (s.code.nfunctions + s.code.nnatives) (0 : UInt32)).length →
      (signFunctionAt i { s with functionsSigns := t } = .ret y ↔ ∃ x, FunctionSign s i x ∧ y = { s with functionsSigns := t.set i x }) :=
    fun i t y hi ht => signFunctionAt_iff s i t y (by omega)
  have F2 : ∀ (signs : List UInt32), ∀ (i : Nat) (t : List UInt32) (y : CodeHash), i < (signs ++ List.replicate s.code.nnatives (0 : UInt32)).length →
      t.length = (signs ++ List.replicate s.code.nnatives (0 : UInt32)).length →
      (signNativeAt i { s with functionsSigns := t } = .ret y ↔ ∃ x, NativeSign s i x ∧ y = { s with functionsSigns := t.set i x }) :=
    fun signs i t y hi ht => signNativeAt_iff s i t y (by omega)
  have F3 : ∀ (signs : List UInt32), ∀ (i : Nat) (t : List UInt32) (y : CodeHash), i < (List.replicate s.code.nfunctions (0 : UInt32)).length →
      t.length = (List.replicate s.code.nfunctions (0 : UInt32)).length →
      (hashFunction i { s with functionsSigns := signs, functionsHashes := t } = .ret y ↔
        ∃ x, FunctionHash s t i x ∧ y = { s with functionsSigns := signs, functionsHashes := t.set i x }) :=
    fun signs i t y hi ht => hashFunction_iff s signs M i t y (by simpa using hi) (by omega) (by simp at ht; omega)
  constructor
  · rintro (h | ⟨s1, h1, h2⟩ | ⟨s1, s2, h1, h2, h3⟩)
    · obtain ⟨k, hk, h2, h3⟩ := keep_false.1 h
      obtain ⟨signs, hl, hd, rfl⟩ := (filled (put := fun t => { s with functionsSigns := t }) (R := fun _ => FunctionSign s) F1 (by simp; omega)).1 h2
      rw [Nat.zero_add] at h3
      have := (filled_panic (put := fun t => { s with functionsSigns := t }) (R := fun _ => FunctionSign s) F1 (by simp; omega) (by simp; omega)).1 h3
      subst hl
      exact .functions signs hk hd this (by rw [List.drop_replicate])
    · obtain ⟨signs, hl, hd, rfl⟩ := stage1_true.1 h1
      obtain ⟨k, hk, h2, h3⟩ := keep_false.1 h2
      simp only at hk
      obtain ⟨nats, hl', hd', rfl⟩ := (stage2 hl (by omega)).1 h2
      rw [Nat.zero_add] at h3
      have := (filled_panic (put := fun t => { s with functionsSigns := t }) (R := fun _ => NativeSign s) (F2 signs) (by simp; omega) (by simp; omega)).1 h3
      subst hl'
      exact .natives signs nats hl hd hk hd' this rfl
    · obtain ⟨signs, hl, hd, rfl⟩ := stage1_true.1 h1
      obtain ⟨nats, hl', hd', rfl⟩ := (stage2 hl (Nat.le_refl _)).1 (keep_true.1 h2)
      simp only at h3
      obtain ⟨k, hk, h4, h5⟩ := keep_false.1 h3
      obtain ⟨hashes, hl'', hd'', rfl⟩ := (filled (put := fun t => { s with functionsSigns := nats ++ (signs ++ List.replicate s.code.nnatives 0).drop s.code.nnatives, functionsHashes := t })
        (R := fun t => FunctionHash s t) (F3 _) (by simp; omega)).1 h4
      rw [Nat.zero_add] at h5
      have := (filled_panic (put := fun t => { s with functionsSigns := nats ++ (signs ++ List.replicate s.code.nnatives 0).drop s.code.nnatives, functionsHashes := t })
        (R := fun t => FunctionHash s t) (F3 _) (by simp; omega) (by simp; omega)).1 h5
      subst hl''
      simp only [List.drop_replicate] at hd'' this ⊢
      exact .hashes signs nats hashes hl hd hl' hd' hk hd'' this rfl
  · rintro (⟨signs, short, done, stop, rfl⟩ | ⟨signs, nats, all, done, short, done', stop, rfl⟩ | ⟨signs, nats, hashes, all, done, all', done', short, done'', stop, rfl⟩)
    · refine .inl (keep_false.2 ⟨signs.length, short, ?_, ?_⟩)
      · refine (filled (put := fun t => { s with functionsSigns := t }) (R := fun _ => FunctionSign s) F1 (by simp; omega)).2 ⟨signs, rfl, done, ?_⟩
        simp only [List.drop_replicate]
      · rw [Nat.zero_add]
        exact (filled_panic (put := fun t => { s with functionsSigns := t }) (R := fun _ => FunctionSign s) F1 (i := signs.length)
          (t := signs ++ List.replicate (s.code.nfunctions + s.code.nnatives - signs.length) 0) (by simp; omega) (by simp; omega)).2 stop
    · refine .inr (.inl ⟨_, stage1_true.2 ⟨signs, all, done, rfl⟩, keep_false.2 ⟨nats.length, short, ?_, ?_⟩⟩)
      · exact (stage2 all (by omega)).2 ⟨nats, rfl, done', rfl⟩
      · rw [Nat.zero_add]
        exact (filled_panic (put := fun t => { s with functionsSigns := t }) (R := fun _ => NativeSign s) (F2 signs) (i := nats.length)
          (t := nats ++ (signs ++ List.replicate s.code.nnatives 0).drop nats.length) (by simp; omega) (by simp; omega)).2 stop
    · refine .inr (.inr ⟨_, _, stage1_true.2 ⟨signs, all, done, rfl⟩, keep_true.2 ((stage2 all (Nat.le_refl _)).2 ⟨nats, all', done', rfl⟩),
        keep_false.2 ⟨hashes.length, short, ?_, ?_⟩⟩)
      · refine (filled (put := fun t => { s with functionsSigns := nats ++ (signs ++ List.replicate s.code.nnatives 0).drop s.code.nnatives, functionsHashes := t })
          (R := fun t => FunctionHash s t) (F3 _) (by simp; omega)).2 ⟨hashes, rfl, ?_, ?_⟩
        · simp only [List.drop_replicate]; exact done''
        · simp only [List.drop_replicate]
      · rw [Nat.zero_add]
        exact (filled_panic (put := fun t => { s with functionsSigns := nats ++ (signs ++ List.replicate s.code.nnatives 0).drop s.code.nnatives, functionsHashes := t })
          (R := fun t => FunctionHash s t) (F3 _) (by simp; omega) (by simp; omega)).2 stop

end

/-! ## Repeated calls -/

namespace CodeHash

theorem keep_signFunctions (s : CodeHash) : ∀ n a (v : List UInt32), keep signFunctionAt a n { s with functionsSigns := v } =
    ({ s with functionsSigns := (keep s.signFunction a n v).1 }, (keep s.signFunction a n v).2)
  | 0, a, v => rfl
  | n + 1, a, v => by
    simp only [keep]
    have h : signFunctionAt a { s with functionsSigns := v } = (s.signFunction a v >>= fun u => pure { s with functionsSigns := u }) := rfl
    rw [h]
    cases s.signFunction a v with
    | panic => rfl
    | ret u => exact keep_signFunctions s n (a + 1) u

theorem keep_signNatives (s : CodeHash) : ∀ n a (v : List UInt32), keep signNativeAt a n { s with functionsSigns := v } =
    ({ s with functionsSigns := (keep s.signNative a n v).1 }, (keep s.signNative a n v).2)
  | 0, a, v => rfl
  | n + 1, a, v => by
    simp only [keep]
    have h : signNativeAt a { s with functionsSigns := v } = (s.signNative a v >>= fun u => pure { s with functionsSigns := u }) := rfl
    rw [h]
    cases s.signNative a v with
    | panic => rfl
    | ret u => exact keep_signNatives s n (a + 1) u

/-- `finalize`, on the tables. -/
theorem unwind_tables (s : CodeHash) : finalizeUnwind s =
    match keep s.signFunction 0 s.code.nfunctions (List.replicate (s.code.nfunctions + s.code.nnatives) 0) with
    | (u, false) => ({ s with functionsSigns := u }, false)
    | (u, true) =>
      match keep s.signNative 0 s.code.nnatives u with
      | (v, false) => ({ s with functionsSigns := v }, false)
      | (v, true) => keep hashFunction 0 s.code.nfunctions { s with functionsSigns := v, functionsHashes := List.replicate s.code.nfunctions 0 } := by
  unfold finalizeUnwind
  rw [keep_signFunctions]
  rcases keep s.signFunction 0 s.code.nfunctions (List.replicate (s.code.nfunctions + s.code.nnatives) 0) with ⟨u, _ | _⟩
  · rfl
  · simp only
    rw [keep_signNatives]
    rcases keep s.signNative 0 s.code.nnatives u with ⟨v, _ | _⟩ <;> rfl

/-- The third loop changes only the hashes. -/
theorem keep_hashes : ∀ n a (t : CodeHash), ∃ b, (keep hashFunction a n t).1 = { t with functionsHashes := b }
  | 0, a, t => ⟨t.functionsHashes, rfl⟩
  | n + 1, a, t => by
    simp only [keep]
    cases h : hashFunction a t with
    | panic => exact ⟨t.functionsHashes, rfl⟩
    | ret t' =>
      obtain ⟨b, hb⟩ := keep_hashes n (a + 1) t'
      have : ∃ b', t' = { t with functionsHashes := b' } := by
        unfold hashFunction at h
        cases e1 : Rust.get t.code.functions a with
        | panic => rw [e1] at h; cases h
        | ret f =>
          rw [e1] at h; simp only [Rust.bind_ret] at h
          cases e2 : t.hashFun f with
          | panic => rw [e2] at h; cases h
          | ret x =>
            rw [e2] at h; simp only [Rust.bind_ret] at h
            cases e3 : Rust.set t.functionsHashes a x with
            | panic => rw [e3] at h; cases h
            | ret w => rw [e3] at h; cases h; exact ⟨w, rfl⟩
      obtain ⟨b', rfl⟩ := this
      exact ⟨b, hb⟩

/-- The state left behind differs from the old one in the two tables only. -/
theorem unwind_frame (s : CodeHash) : ∃ a b, (finalizeUnwind s).1 = { s with functionsSigns := a, functionsHashes := b } := by
  rw [unwind_tables]
  rcases keep s.signFunction 0 s.code.nfunctions (List.replicate (s.code.nfunctions + s.code.nnatives) 0) with ⟨u, _ | _⟩
  · exact ⟨_, _, rfl⟩
  · simp only
    rcases keep s.signNative 0 s.code.nnatives u with ⟨v, _ | _⟩
    · exact ⟨_, _, rfl⟩
    · obtain ⟨b, h⟩ := keep_hashes s.code.nfunctions 0 { s with functionsSigns := v, functionsHashes := List.replicate s.code.nfunctions 0 }
      exact ⟨_, b, h⟩

end CodeHash

open CodeHash

/-- **C102** Nothing else changes, whether `finalize` returns or panics: the module, the indexes, the type hashes and the global
signatures stay as they were. -/
theorem c102_only_two_tables (s : CodeHash) : (finalizeUnwind s).1 =
    { s with functionsSigns := (finalizeUnwind s).1.functionsSigns, functionsHashes := (finalizeUnwind s).1.functionsHashes } := by
  obtain ⟨a, b, h⟩ := unwind_frame s
  rw [h]

/-- **C102** The old contents of the two tables decide neither whether `finalize` panics nor what it computes. -/
theorem c102_no_influence (s : CodeHash) (a b : List UInt32) :
    finalize { s with functionsSigns := a, functionsHashes := b } = finalize s := by
  have h : finalizeUnwind { s with functionsSigns := a, functionsHashes := b } =
      match keep s.signFunction 0 s.code.nfunctions (List.replicate (s.code.nfunctions + s.code.nnatives) 0) with
      | (u, false) => ({ s with functionsSigns := u, functionsHashes := b }, false)
      | (u, true) =>
        match keep s.signNative 0 s.code.nnatives u with
        | (v, false) => ({ s with functionsSigns := v, functionsHashes := b }, false)
        | (v, true) => keep hashFunction 0 s.code.nfunctions { s with functionsSigns := v, functionsHashes := List.replicate s.code.nfunctions 0 } :=
    unwind_tables _
  rw [c102_same_finalize, c102_same_finalize s, h, unwind_tables s]
  rcases keep s.signFunction 0 s.code.nfunctions (List.replicate (s.code.nfunctions + s.code.nnatives) 0) with ⟨u, _ | _⟩
  · rfl
  · simp only
    rcases keep s.signNative 0 s.code.nnatives u with ⟨v, _ | _⟩ <;> rfl

/-- **C102** Calling `finalize` again, after a return or a caught panic, does the same and leaves the same state. -/
theorem c102_again (s : CodeHash) : finalizeUnwind (finalizeUnwind s).1 = finalizeUnwind s := by
  have h : ∀ a b, finalizeUnwind { s with functionsSigns := a, functionsHashes := b } =
      match keep s.signFunction 0 s.code.nfunctions (List.replicate (s.code.nfunctions + s.code.nnatives) 0) with
      | (u, false) => ({ s with functionsSigns := u, functionsHashes := b }, false)
      | (u, true) =>
        match keep s.signNative 0 s.code.nnatives u with
        | (v, false) => ({ s with functionsSigns := v, functionsHashes := b }, false)
        | (v, true) => keep hashFunction 0 s.code.nfunctions { s with functionsSigns := v, functionsHashes := List.replicate s.code.nfunctions 0 } :=
    fun a b => unwind_tables _
  have h0 := unwind_tables s
  obtain ⟨a, b, hab⟩ := unwind_frame s
  rw [hab, h a b, h0]
  rw [h0] at hab
  revert hab
  rcases keep s.signFunction 0 s.code.nfunctions (List.replicate (s.code.nfunctions + s.code.nnatives) 0) with ⟨u, _ | _⟩
  · intro hab
    have : b = s.functionsHashes := (congrArg CodeHash.functionsHashes hab).symm
    subst this; rfl
  · simp only
    rcases keep s.signNative 0 s.code.nnatives u with ⟨v, _ | _⟩
    · intro hab
      have : b = s.functionsHashes := (congrArg CodeHash.functionsHashes hab).symm
      subst this; rfl
    · intro _; rfl

/-- **C102** On the hash of a decoded module every call panics on the first function: it leaves a table of zero signatures and no hashes. -/
theorem c102_decoded (p : Profile) (e : Option DecodeError) (buf : List UInt8) (c : Code) (s : St) (h : Code.read p e buf = .ok c s)
    (ch : CodeHash) (a : alloc c = .ret ch) :
    finalizeUnwind ch = ({ ch with functionsSigns := List.replicate (c.nfunctions + c.nnatives) 0 }, false) ∧ ch.functionsHashes = [] := by
  have L := loaded h
  have hc := (alloc_frame a).1
  have hn : 0 < c.functions.length := by
    obtain ⟨S⟩ := stages a
    obtain ⟨j, f, _, h2, _⟩ := boot_eq (S.mid4 L).code S.boot
    have := (List.getElem?_eq_some_iff.1 h2).1
    omega
  refine ⟨?_, (alloc_frame a).2.2.2.1⟩
  rw [unwind_tables, hc]
  obtain ⟨k, hk⟩ : ∃ k, c.nfunctions = k + 1 := ⟨c.nfunctions - 1, by have := L.functions; omega⟩
  rw [hk]
  simp only [keep]
  have : ch.signFunction 0 (List.replicate (k + 1 + c.nnatives) 0) = .panic := by
    unfold signFunction
    rw [hc, get_eq.2 (List.getElem?_eq_getElem hn)]
    simp only [Rust.bind_ret, sign_panics (L.functionsOk _ (List.getElem_mem hn)).field]
    rfl
  rw [this]

/-! ## Examples -/

/-- C102: the second function calls a native, so it has no hash: `finalize` panics in its last loop, with the signatures of both
functions computed (the first overwritten by that of the native) and only the hash of the first. -/
example : ∃ ch t, alloc (exCode [⟨.OCall0, some 0, some 2, none, []⟩]) = .ret ch ∧ finalizeUnwind ch = (t, false) ∧
    t.functionsSigns.length = 3 ∧ t.functionsHashes.length = 2 ∧ (t.functionsHashes.head? ≠ some 0) ∧ t.functionsHashes[1]? = some 0 := by
  have h : (match alloc (exCode [⟨.OCall0, some 0, some 2, none, []⟩]) with
    | .panic => false
    | .ret ch => match finalizeUnwind ch with
      | (_, true) => false
      | (t, false) => t.functionsSigns.length == 3 && t.functionsHashes.length == 2 && (t.functionsHashes.head? != some 0) && (t.functionsHashes[1]? == some 0)) = true := by
    decide +kernel
  cases e : alloc (exCode [⟨.OCall0, some 0, some 2, none, []⟩]) with
  | panic => rw [e] at h; cases h
  | ret ch =>
    rw [e] at h
    cases e2 : finalizeUnwind ch with
    | mk t ok =>
      simp only [e2] at h
      cases ok with
      | true => cases h
      | false => exact ⟨ch, t, rfl, e2, by simpa [and_assoc] using h⟩

/-- C102: the hypotheses of `c102_left_behind` are met by a call that panics. -/
example : ∃ ch t, alloc (exCode [⟨.OCall0, some 0, some 2, none, []⟩]) = .ret ch ∧ ch.code.nfunctions < 2 ^ 31 ∧
    (∀ i f, i < ch.code.nfunctions → ch.code.functions[i]? = some f → MachineSized ch f) ∧ Unfinished ch t := by
  have h : (match alloc (exCode [⟨.OCall0, some 0, some 2, none, []⟩]) with
    | .panic => false
    | .ret ch => !(finalizeUnwind ch).2) = true := by
    decide +kernel
  cases e : alloc (exCode [⟨.OCall0, some 0, some 2, none, []⟩]) with
  | panic => rw [e] at h; cases h
  | ret ch =>
    rw [e] at h
    have hc := (alloc_frame e).1
    have hM : ∀ i f, i < ch.code.nfunctions → ch.code.functions[i]? = some f → MachineSized ch f := by
      intro i f _ hf
      have hi : ∀ j ∈ ch.functionsIndexes, IsI32 j := by
        have e := (alloc_frame e).2.1
        have : indexes (exCode [⟨.OCall0, some 0, some 2, none, []⟩]) (init (exCode [⟨.OCall0, some 0, some 2, none, []⟩])).functionsIndexes = .ret [0, 1, 2] := by
          rfl
        rw [this] at e
        rw [← Rust.ret.inj e]
        unfold IsI32
        decide
      have hh := (alloc_frame e).2.2.2.1
      have hm : f = exFun 0 [⟨.OCall0, some 0, some 1, none, []⟩] ∨ f = exFun 1 [⟨.OCall0, some 0, some 2, none, []⟩] := by
        have := List.mem_of_getElem? hf
        rw [hc] at this
        simpa [exCode] using this
      have hstr : ch.code.strings.length < 2 ^ 31 := by rw [hc]; decide
      rcases hm with rfl | rfl <;> refine ⟨rfl, rfl, ?_, hstr, by rw [hh]; decide, hi⟩ <;>
        · intro o ho x hx
          simp only [exFun, List.mem_singleton] at ho
          subst ho
          unfold IsI32
          simp at hx
          omega
    have hn : ch.code.nfunctions < 2 ^ 31 := by rw [hc]; decide
    cases e2 : finalizeUnwind ch with
    | mk t ok =>
      simp only [e2] at h
      cases ok with
      | true => cases h
      | false => exact ⟨ch, t, rfl, hn, hM, (c102_left_behind hn hM).1 e2⟩

end Verif.Brass
