import Verif.Brass.CodeHash
import Verif.Spec.Hash
import Verif.Brass.CrcLemmas

/-!
# Hashing appends to a transcript

Every step of the hashing functions either panics, whatever was hashed before, or writes bytes that do not depend on what
was hashed before.
-/

namespace Verif.Brass

open Verif

/-- `F` writes some fixed bytes, or always panics. -/
def Appends (F : Hasher → Rust Hasher) : Prop := (∃ tr : List UInt8, ∀ h, F h = .ret (h.write tr)) ∨ ∀ h, F h = .panic

namespace Appends

theorem ret : Appends (fun h => .ret h) := Or.inl ⟨[], fun h => by rw [Hasher.write_nil]⟩

theorem write (bytes : List UInt8) : Appends (fun h => .ret (h.write bytes)) := Or.inl ⟨bytes, fun _ => rfl⟩

theorem panic : Appends (fun _ => .panic) := Or.inr fun _ => rfl

theorem seq {F G : Hasher → Rust Hasher} (hF : Appends F) (hG : Appends G) : Appends (fun h => F h >>= G) := by
  rcases hF with ⟨a, hF⟩ | hF
  · rcases hG with ⟨b, hG⟩ | hG
    · exact Or.inl ⟨a ++ b, fun h => by simp [hF, hG, Hasher.write_append]⟩
    · exact Or.inr fun h => by simp [hF, hG]
  · exact Or.inr fun h => by simp [hF]

theorem read {α : Type} {m : Rust α} {K : α → Hasher → Rust Hasher} (hK : ∀ a, Appends (K a)) : Appends (fun h => m >>= fun a => K a h) := by
  cases m with
  | ret a => exact hK a
  | panic => exact Or.inr fun _ => rfl

theorem forRange {f : Nat → Hasher → Rust Hasher} (hf : ∀ i, Appends (f i)) : ∀ n a, Appends (fun h => Rust.forRange f a n h)
  | 0, _ => ret
  | n + 1, a => seq (hf a) (forRange hf n (a + 1))

/-- What was hashed before is not forgotten. -/
theorem inj {F : Hasher → Rust Hasher} (hF : Appends F) {h h' x : Hasher} (e : F h = .ret x) (e' : F h' = .ret x) : h = h' := by
  rcases hF with ⟨a, hF⟩ | hF
  · rw [hF, Rust.ret.injEq] at e e'
    exact Hasher.write_inj (e.trans e'.symm)
  · rw [hF] at e; cases e

/-- Whether it panics does not depend on what was hashed before. -/
theorem returns {F : Hasher → Rust Hasher} (hF : Appends F) {h x : Hasher} (e : F h = .ret x) (h' : Hasher) : ∃ y, F h' = .ret y := by
  rcases hF with ⟨a, hF⟩ | hF
  · exact ⟨_, hF h'⟩
  · rw [hF] at e; cases e

end Appends

theorem forRange_add {β : Type} (f : Nat → β → Rust β) : ∀ m n a b,
    Rust.forRange f a (m + n) b = (Rust.forRange f a m b >>= fun b => Rust.forRange f (a + m) n b)
  | 0, n, a, b => by simp [Rust.forRange]
  | m + 1, n, a, b => by
    rw [Nat.add_right_comm]
    simp only [Rust.forRange]
    cases f a b with
    | panic => rfl
    | ret x =>
      simp only [Rust.bind_ret]
      rw [forRange_add f m n (a + 1) x, show a + 1 + m = a + (m + 1) from by omega]

theorem forRange_congr {β : Type} {f g : Nat → β → Rust β} : ∀ n a b, (∀ i, a ≤ i → i < a + n → ∀ b, f i b = g i b) →
    Rust.forRange f a n b = Rust.forRange g a n b
  | 0, _, _, _ => rfl
  | n + 1, a, b, h => by
    simp only [Rust.forRange]
    rw [h a (Nat.le_refl _) (by omega) b]
    cases g a b with
    | panic => rfl
    | ret x => exact forRange_congr n (a + 1) x fun i h1 h2 => h i (by omega) (by omega)

/-- Runs over two families of steps that differ only at `k`, where the results differ, end differently. -/
theorem forRange_differ {f g : Nat → Hasher → Rust Hasher} {n k : Nat} (hk : k < n) (hf : ∀ i, Appends (f i))
    (hsame : ∀ i, i ≠ k → ∀ h, f i h = g i h) (hdiff : ∀ h x, f k h = .ret x → g k h = .ret x → False)
    {h x x' : Hasher} (e : Rust.forRange f 0 n h = .ret x) (e' : Rust.forRange g 0 n h = .ret x') : x ≠ x' := by
  rintro rfl
  rw [show n = k + (1 + (n - k - 1)) from by omega, forRange_add] at e e'
  rw [forRange_congr k 0 h (f := g) (g := f) (fun i _ h2 b => (hsame i (by omega) b).symm)] at e'
  cases hm : Rust.forRange f 0 k h with
  | panic => rw [hm] at e; cases e
  | ret m =>
    rw [hm] at e e'
    simp only [Rust.bind_ret, Nat.zero_add] at e e'
    rw [forRange_add] at e e'
    simp only [Rust.forRange] at e e'
    cases h1 : f k m with
    | panic => rw [h1] at e; cases e
    | ret y =>
      cases h2 : g k m with
      | panic => rw [h2] at e'; cases e'
      | ret y' =>
        rw [h1] at e; rw [h2] at e'
        simp only [Rust.bind_ret] at e e'
        rw [forRange_congr (n - k - 1) (k + 1) y' (f := g) (g := f) (fun i h1 _ b => (hsame i (by omega) b).symm)] at e'
        have := Appends.inj (Appends.forRange hf (n - k - 1) (k + 1)) e e'
        subst this
        exact hdiff _ _ h1 h2

namespace CodeHash

variable (s : CodeHash)

theorem app_u32 (x : UInt32) : Appends (fun h => .ret (h.writeU32 x)) := Appends.write _
theorem app_i32 (x : Int) : Appends (fun h => .ret (h.writeI32 x)) := Appends.write _
theorem app_usize (x : Nat) : Appends (fun h => .ret (h.writeUsize x)) := Appends.write _
theorem app_isize (x : Int) : Appends (fun h => .ret (h.writeIsize x)) := Appends.write _

theorem app_writeType (t : ValueType) : Appends (fun h => s.writeType h t) := Appends.read fun x => app_u32 x
theorem app_writeP (p : Option Int) : Appends (fun h => writeP h p) := Appends.read fun x => app_i32 x
theorem app_hfun (i : Nat) : Appends (fun h => s.hfun h i) := Appends.read fun _ => Appends.read fun x => app_u32 x
theorem app_callP (p : Option Int) : Appends (fun h => s.callP h p) := Appends.read fun _ => Appends.read fun i => app_hfun s i
theorem app_extra (l : List Int) (i : Nat) : Appends (fun h => writeExtra l i h) := Appends.read fun x => app_isize x
theorem app_extras (l : List Int) (n : Nat) : Appends (fun h => Rust.forRange (writeExtra l) 0 n h) :=
  Appends.forRange (fun i => app_extra l i) n 0

theorem app_if {P : Prop} [Decidable P] {F G : Hasher → Rust Hasher} (hF : Appends F) (hG : Appends G) :
    Appends (fun h => if P then F h else G h) := by
  by_cases h : P
  · simpa [h] using hF
  · simpa [h] using hG

theorem app_p3 (p1 p2 p3 : Option Int) {K : Hasher → Rust Hasher} (hK : Appends K) :
    Appends (fun h => writeP h p1 >>= fun h => writeP h p2 >>= fun h => writeP h p3 >>= K) :=
  Appends.seq (app_writeP p1) (Appends.seq (app_writeP p2) (Appends.seq (app_writeP p3) hK))

theorem app_calls (o : Opcode) : Appends (fun h => writeP h o.p1 >>= fun h => writeP h o.p2 >>= fun h => writeP h o.p3 >>= fun h =>
    Rust.unwrap o.p3 >>= fun m => Rust.forRange (writeExtra o.extra) 0 m.toNat h) :=
  app_p3 _ _ _ (Appends.read fun _ => app_extras _ _)

theorem app_switch (o : Opcode) : Appends (fun h => writeP h o.p1 >>= fun h => writeP h o.p2 >>= fun h =>
    Rust.unwrap o.p2 >>= fun m => Rust.forRange (writeExtra o.extra) 0 m.toNat h >>= fun h => writeP h o.p3) :=
  Appends.seq (app_writeP _) (Appends.seq (app_writeP _) (Appends.read fun _ => Appends.seq (app_extras _ _) (app_writeP _)))

theorem app_operands (o : Opcode) : Appends (fun h => hashOperands h o) := by
  refine Appends.read fun n => ?_
  refine app_if Appends.ret (app_if (app_writeP _) (app_if (Appends.seq (app_writeP _) (app_writeP _)) (app_if ?_ (app_if ?_ (app_if ?_ ?_)))))
  · exact Appends.seq (app_writeP _) (Appends.seq (app_writeP _) (app_writeP _))
  · exact app_p3 _ _ _ (app_extra _ _)
  · cases o.op <;> first | exact app_calls o | exact app_switch o | exact Appends.ret
  · exact app_p3 _ _ _ (app_extras _ _)

theorem app_args (o : Opcode) : Appends (fun h => s.hashArgs h o) := by
  have w := app_writeP
  have c := app_callP s
  obtain ⟨op, p1, p2, p3, extra⟩ := o
  cases op
  case OInt => exact .seq (w _) (.read fun _ => .read fun _ => .read fun x => app_i32 x)
  case OFloat =>
    exact .seq (w _) (.read fun _ => .read fun i => .read fun x => .seq (F := fun h => .ret (h.writeI32 (f64AsI32 x)))
      (G := fun h => Rust.get s.code.floats ((i <<< 1) ||| 1) >>= fun y => pure (h.writeI32 (f64AsI32 y)))
      (app_i32 _) (.read fun y => app_i32 _))
  case OString => exact .seq (w _) (.read fun _ => .read fun _ => .read fun x => .write x)
  case OType => exact .seq (w _) (.read fun _ => .read fun _ => .read fun t => app_writeType s t)
  case OCall0 => exact .seq (w _) (c _)
  case OCall1 => exact .seq (w _) (.seq (c _) (w _))
  case OCall2 => exact .seq (w _) (.seq (c _) (.seq (w _) (app_extra _ _)))
  case OCall3 => exact .seq (w _) (.seq (c _) (.seq (w _) (.seq (app_extra _ _) (app_extra _ _))))
  case OCall4 => exact .seq (w _) (.seq (c _) (.seq (w _) (.seq (app_extra _ _) (.seq (app_extra _ _) (app_extra _ _)))))
  case OCallN => exact .seq (w _) (.seq (c _) (.seq (w _) (.read fun _ => app_extras _ _)))
  case OStaticClosure => exact .seq (w _) (c _)
  case OInstanceClosure => exact .seq (w _) (.seq (c _) (w _))
  case ODynGet => exact .seq (w _) (.seq (w _) (.read fun _ => .read fun x => .write x))
  case ODynSet =>
    exact .seq (w _) (.read fun _ => .read fun x => .seq (F := fun h => .ret (h.write x)) (.write x) (w _))
  all_goals exact app_operands _

theorem app_op (ops : List Opcode) (k : Nat) : Appends (fun h => s.hashOp ops k h) :=
  .read fun o => .seq (F := fun h => .ret (h.writeU8 _)) (G := fun h => s.hashArgs h o) (.write _) (app_args s o)

theorem app_reg (regs : List ValueType) (k : Nat) : Appends (fun h => s.hashReg regs k h) := .read fun t => app_writeType s t

end CodeHash

/-! ## Telling two steps apart -/

/-- From the same history, `F` and `G` do not both return with the same result. -/
def Sep (F G : Hasher → Rust Hasher) : Prop := ∀ h x, F h = .ret x → G h = .ret x → False

namespace Sep

theorem head {F G K : Hasher → Rust Hasher} (h : Sep F G) (hK : Appends K) : Sep (fun a => F a >>= K) (fun a => G a >>= K) := by
  intro a x e e'
  replace e : (F a >>= K) = .ret x := e
  replace e' : (G a >>= K) = .ret x := e'
  cases h1 : F a with
  | panic => rw [h1] at e; cases e
  | ret y =>
    cases h2 : G a with
    | panic => rw [h2] at e'; cases e'
    | ret y' =>
      rw [h1] at e; rw [h2] at e'
      have := hK.inj (h := y) (h' := y') e e'
      subst this
      exact h _ _ h1 h2

theorem tail {F G : Hasher → Rust Hasher} {P : Hasher → Rust Hasher} (h : Sep F G) : Sep (fun a => P a >>= F) (fun a => P a >>= G) := by
  intro a x e e'
  replace e : (P a >>= F) = .ret x := e
  replace e' : (P a >>= G) = .ret x := e'
  cases h1 : P a with
  | panic => rw [h1] at e; cases e
  | ret y =>
    rw [h1] at e e'
    exact h _ _ e e'

theorem read {α : Type} {m : Rust α} {F G : α → Hasher → Rust Hasher} (h : ∀ a, m = .ret a → Sep (F a) (G a)) :
    Sep (fun b => m >>= fun a => F a b) (fun b => m >>= fun a => G a b) := by
  cases m with
  | ret a => exact h a rfl
  | panic => intro a x e; cases e

theorem u32 {x y : UInt32} (h : x ≠ y) : Sep (fun a => .ret (a.writeU32 x)) (fun a => .ret (a.writeU32 y)) := by
  intro a z e e'
  exact h (Hasher.writeU32_inj ((Rust.ret.inj e).trans (Rust.ret.inj e').symm))

theorem i32 {x y : Int} (h : x % 2 ^ 32 ≠ y % 2 ^ 32) : Sep (fun a => .ret (a.writeI32 x)) (fun a => .ret (a.writeI32 y)) := by
  intro a z e e'
  exact h (Hasher.writeI32_inj ((Rust.ret.inj e).trans (Rust.ret.inj e').symm))

theorem u8 {x y : UInt8} (h : x ≠ y) : Sep (fun a => .ret (a.writeU8 x)) (fun a => .ret (a.writeU8 y)) := by
  intro a z e e'
  exact h (Hasher.writeU8_inj ((Rust.ret.inj e).trans (Rust.ret.inj e').symm))

theorem p {x y : Int} (h : x % 2 ^ 32 ≠ y % 2 ^ 32) : Sep (fun a => CodeHash.writeP a (some x)) (fun a => CodeHash.writeP a (some y)) := i32 h

theorem app_if {P : Prop} [Decidable P] {F G F' G' : Hasher → Rust Hasher} (hF : P → Sep F F') (hG : ¬ P → Sep G G') :
    Sep (fun h => if P then F h else G h) (fun h => if P then F' h else G' h) := by
  by_cases h : P
  · simpa [h] using hF h
  · simpa [h] using hG h

theorem isize {x y : Int} (hi : x % 2 ^ 64 / 2 ^ 32 = y % 2 ^ 64 / 2 ^ 32) (h : x % 2 ^ 64 ≠ y % 2 ^ 64) :
    Sep (fun a => .ret (a.writeIsize x)) (fun a => .ret (a.writeIsize y)) := by
  intro a z e e'
  exact h (Hasher.writeIsize_inj hi ((Rust.ret.inj e).trans (Rust.ret.inj e').symm))

theorem forRange {f g : Nat → Hasher → Rust Hasher} {n k : Nat} (hk : k < n) (hf : ∀ i, Appends (f i))
    (hsame : ∀ i, i ≠ k → ∀ h, f i h = g i h) (hdiff : Sep (f k) (g k)) :
    Sep (fun h => Rust.forRange f 0 n h) (fun h => Rust.forRange g 0 n h) := by
  intro h x e e'
  exact forRange_differ hk hf hsame hdiff e e' rfl

end Sep

namespace CodeHash

open Spec

variable (s : CodeHash)

theorem nargs_get (op : Op) : ∃ n, OP_NARGS[op.toNat]? = some n := by
  cases op <;> exact ⟨_, rfl⟩

theorem get_ret {α : Type} {l : List α} {i : Nat} {a : α} (h : Rust.get l i = .ret a) : l[i]? = some a := by
  unfold Rust.get at h
  cases e : l[i]? with
  | none => rw [e] at h; cases h
  | some x => rw [e] at h; cases h; rfl

theorem sep_operands_p1 (o : Opcode) {a b : Int} (h0 : OP_NARGS[o.op.toNat]? ≠ some 0) (hab : a % 2 ^ 32 ≠ b % 2 ^ 32) :
    Sep (fun h => hashOperands h { o with p1 := some a }) (fun h => hashOperands h { o with p1 := some b }) := by
  have w := app_writeP
  have H : ∀ {K : Hasher → Rust Hasher}, Appends K → Sep (fun h => writeP h (some a) >>= K) (fun h => writeP h (some b) >>= K) :=
    fun hK => .head (.p hab) hK
  refine Sep.read fun n e => ?_
  have e0 : n ≠ 0 := by
    rintro rfl
    exact h0 (get_ret e)
  refine .app_if (fun h => absurd h e0) fun _ => .app_if (fun _ => .p hab) fun _ => .app_if (fun _ => H (w _)) fun _ => .app_if
    (fun _ => H (.seq (w _) (w _))) fun _ => .app_if (fun _ => H (.seq (w _) (.seq (w _) (app_extra _ _)))) fun _ => .app_if
    (fun hn => ?_) fun _ => H (.seq (w _) (.seq (w _) (app_extras _ _)))
  subst hn
  obtain ⟨op, p1, p2, p3, extra⟩ := o
  cases op
  case OCallN => exact H (.seq (w _) (.seq (w _) (.read fun _ => app_extras _ _)))
  case OCallMethod => exact H (.seq (w _) (.seq (w _) (.read fun _ => app_extras _ _)))
  case OCallThis => exact H (.seq (w _) (.seq (w _) (.read fun _ => app_extras _ _)))
  case OCallClosure => exact H (.seq (w _) (.seq (w _) (.read fun _ => app_extras _ _)))
  case OMakeEnum => exact H (.seq (w _) (.seq (w _) (.read fun _ => app_extras _ _)))
  case OSwitch => exact H (.seq (w _) (.read fun _ => .seq (app_extras _ _) (w _)))
  all_goals (simp only at e; exact absurd e (by decide))


theorem sep_operands_p2 (o : Opcode) {a b : Int} (h0 : OP_NARGS[o.op.toNat]? ≠ some 0) (h1 : OP_NARGS[o.op.toNat]? ≠ some 1) (hs : o.op ≠ .OSwitch) (hab : a % 2 ^ 32 ≠ b % 2 ^ 32) :
    Sep (fun h => hashOperands h { o with p2 := some a }) (fun h => hashOperands h { o with p2 := some b }) := by
  have w := app_writeP
  have H : ∀ {K : Hasher → Rust Hasher}, Appends K → Sep (fun h => writeP h (some a) >>= K) (fun h => writeP h (some b) >>= K) :=
    fun hK => .head (.p hab) hK
  refine Sep.read fun n e => ?_
  have e0 : n ≠ 0 := by
    rintro rfl
    exact h0 (get_ret e)
  have e1 : n ≠ 1 := by
    rintro rfl
    exact h1 (get_ret e)
  refine .app_if (fun h => absurd h e0) fun _ => .app_if (fun h => absurd h e1) fun _ => .app_if (fun _ => .tail (.p hab)) fun _ => .app_if
    (fun _ => .tail (H (w _))) fun _ => .app_if (fun _ => .tail (H (.seq (w _) (app_extra _ _)))) fun _ => .app_if
    (fun hn => ?_) fun _ => .tail (H (.seq (w _) (app_extras _ _)))
  subst hn
  obtain ⟨op, p1, p2, p3, extra⟩ := o
  cases op
  case OCallN => exact .tail (H (.seq (w _) (.read fun _ => app_extras _ _)))
  case OCallMethod => exact .tail (H (.seq (w _) (.read fun _ => app_extras _ _)))
  case OCallThis => exact .tail (H (.seq (w _) (.read fun _ => app_extras _ _)))
  case OCallClosure => exact .tail (H (.seq (w _) (.read fun _ => app_extras _ _)))
  case OMakeEnum => exact .tail (H (.seq (w _) (.read fun _ => app_extras _ _)))
  case OSwitch => exact absurd rfl hs
  all_goals (simp only at e; exact absurd e (by decide))


theorem sep_operands_p3 (o : Opcode) {a b : Int} (h0 : OP_NARGS[o.op.toNat]? ≠ some 0) (h1 : OP_NARGS[o.op.toNat]? ≠ some 1) (h2 : OP_NARGS[o.op.toNat]? ≠ some 2) (hr : o.op ∉ thirdCounts) (hab : a % 2 ^ 32 ≠ b % 2 ^ 32) :
    Sep (fun h => hashOperands h { o with p3 := some a }) (fun h => hashOperands h { o with p3 := some b }) := by
  have w := app_writeP
  have H : ∀ {K : Hasher → Rust Hasher}, Appends K → Sep (fun h => writeP h (some a) >>= K) (fun h => writeP h (some b) >>= K) :=
    fun hK => .head (.p hab) hK
  refine Sep.read fun n e => ?_
  have e0 : n ≠ 0 := by
    rintro rfl
    exact h0 (get_ret e)
  have e1 : n ≠ 1 := by
    rintro rfl
    exact h1 (get_ret e)
  have e2 : n ≠ 2 := by
    rintro rfl
    exact h2 (get_ret e)
  refine .app_if (fun h => absurd h e0) fun _ => .app_if (fun h => absurd h e1) fun _ => .app_if (fun h => absurd h e2) fun _ => .app_if
    (fun _ => .tail (.tail (.p hab))) fun _ => .app_if (fun _ => .tail (.tail (H (app_extra _ _)))) fun _ => .app_if
    (fun hn => ?_) fun _ => .tail (.tail (H (app_extras _ _)))
  subst hn
  obtain ⟨op, p1, p2, p3, extra⟩ := o
  simp only at hr
  cases op
  case OCallN => exact absurd (by decide) hr
  case OCallMethod => exact absurd (by decide) hr
  case OCallThis => exact absurd (by decide) hr
  case OCallClosure => exact absurd (by decide) hr
  case OMakeEnum => exact absurd (by decide) hr
  case OSwitch => exact .tail (.tail (.read fun _ _ => .tail (.p hab)))
  all_goals (simp only at e; exact absurd e (by decide))


theorem sep_p1 (o : Opcode) {a b : Int} (hn : OP_NARGS[o.op.toNat]? ≠ some 0) (hab : a % 2 ^ 32 ≠ b % 2 ^ 32) :
    Sep (fun h => s.hashArgs h { o with p1 := some a }) (fun h => s.hashArgs h { o with p1 := some b }) := by
  have w := app_writeP
  have c := app_callP s
  have H : ∀ {K : Hasher → Rust Hasher}, Appends K → Sep (fun h => writeP h (some a) >>= K) (fun h => writeP h (some b) >>= K) :=
    fun hK => .head (.p hab) hK
  obtain ⟨op, p1, p2, p3, extra⟩ := o
  cases op
  case OInt => exact H (.read fun _ => .read fun _ => .read fun x => app_i32 x)
  case OFloat =>
    exact H (.read fun _ => .read fun i => .read fun x => .seq (F := fun h => .ret (h.writeI32 (f64AsI32 x)))
      (G := fun h => Rust.get s.code.floats ((i <<< 1) ||| 1) >>= fun y => pure (h.writeI32 (f64AsI32 y)))
      (app_i32 _) (.read fun y => app_i32 _))
  case OString => exact H (.read fun _ => .read fun _ => .read fun x => .write x)
  case OType => exact H (.read fun _ => .read fun _ => .read fun t => app_writeType s t)
  case OCall0 => exact H (c _)
  case OCall1 => exact H (.seq (c _) (w _))
  case OCall2 => exact H (.seq (c _) (.seq (w _) (app_extra _ _)))
  case OCall3 => exact H (.seq (c _) (.seq (w _) (.seq (app_extra _ _) (app_extra _ _))))
  case OCall4 => exact H (.seq (c _) (.seq (w _) (.seq (app_extra _ _) (.seq (app_extra _ _) (app_extra _ _)))))
  case OCallN => exact H (.seq (c _) (.seq (w _) (.read fun _ => app_extras _ _)))
  case OStaticClosure => exact H (c _)
  case OInstanceClosure => exact H (.seq (c _) (w _))
  case ODynGet => exact H (.seq (w _) (.read fun _ => .read fun x => .write x))
  case ODynSet =>
    exact H (.read fun _ => .read fun x => .seq (F := fun h => .ret (h.write x)) (.write x) (w _))
  all_goals exact sep_operands_p1 _ hn hab


theorem sep_p2 (o : Opcode) {a b : Int} (h0 : OP_NARGS[o.op.toNat]? ≠ some 0) (h1 : OP_NARGS[o.op.toNat]? ≠ some 1)
    (hr : o.op ∉ secondRefers) (hs : o.op ≠ .OSwitch) (hab : a % 2 ^ 32 ≠ b % 2 ^ 32) :
    Sep (fun h => s.hashArgs h { o with p2 := some a }) (fun h => s.hashArgs h { o with p2 := some b }) := by
  have w := app_writeP
  have c := app_callP s
  have H : ∀ {K : Hasher → Rust Hasher}, Appends K → Sep (fun h => writeP h (some a) >>= K) (fun h => writeP h (some b) >>= K) :=
    fun hK => .head (.p hab) hK
  obtain ⟨op, p1, p2, p3, extra⟩ := o
  simp only at h0 h1 hr hs
  cases op
  case ODynGet => exact .tail (H (.read fun _ => .read fun x => .write x))
  case OInt => exact absurd (by decide) hr
  case OFloat => exact absurd (by decide) hr
  case OString => exact absurd (by decide) hr
  case OType => exact absurd (by decide) hr
  case OCall0 => exact absurd (by decide) hr
  case OCall1 => exact absurd (by decide) hr
  case OCall2 => exact absurd (by decide) hr
  case OCall3 => exact absurd (by decide) hr
  case OCall4 => exact absurd (by decide) hr
  case OCallN => exact absurd (by decide) hr
  case OStaticClosure => exact absurd (by decide) hr
  case OInstanceClosure => exact absurd (by decide) hr
  case ODynSet => exact absurd (by decide) hr
  all_goals exact sep_operands_p2 _ h0 h1 hs hab


theorem sep_p3 (o : Opcode) {a b : Int} (h0 : OP_NARGS[o.op.toNat]? ≠ some 0) (h1 : OP_NARGS[o.op.toNat]? ≠ some 1)
    (h2 : OP_NARGS[o.op.toNat]? ≠ some 2) (hr : o.op ∉ thirdCounts) (hs : o.op ≠ .ODynGet) (hab : a % 2 ^ 32 ≠ b % 2 ^ 32) :
    Sep (fun h => s.hashArgs h { o with p3 := some a }) (fun h => s.hashArgs h { o with p3 := some b }) := by
  have w := app_writeP
  have c := app_callP s
  have H : ∀ {K : Hasher → Rust Hasher}, Appends K → Sep (fun h => writeP h (some a) >>= K) (fun h => writeP h (some b) >>= K) :=
    fun hK => .head (.p hab) hK
  obtain ⟨op, p1, p2, p3, extra⟩ := o
  simp only at h0 h1 h2 hr hs
  cases op
  case OCall1 => exact .tail (.tail (.p hab))
  case OCall2 => exact .tail (.tail (H (app_extra _ _)))
  case OCall3 => exact .tail (.tail (H (.seq (app_extra _ _) (app_extra _ _))))
  case OCall4 => exact .tail (.tail (H (.seq (app_extra _ _) (.seq (app_extra _ _) (app_extra _ _)))))
  case OInstanceClosure => exact .tail (.tail (.p hab))
  case ODynSet => exact .tail (.read fun _ _ => .read fun x _ => .tail (P := fun h => .ret (h.write x)) (.p hab))
  case ODynGet => exact absurd rfl hs
  case OInt => exact absurd rfl h2
  case OFloat => exact absurd rfl h2
  case OString => exact absurd rfl h2
  case OType => exact absurd rfl h2
  case OCall0 => exact absurd rfl h2
  case OCallN => exact absurd (by decide) hr
  case OStaticClosure => exact absurd rfl h2
  all_goals exact sep_operands_p3 _ h0 h1 h2 hr hab

theorem sep_extra (l : List Int) {i : Nat} (hi : i < l.length) {a b : Int} (ha : l[i]? = some a)
    (h64 : a % 2 ^ 64 / 2 ^ 32 = b % 2 ^ 64 / 2 ^ 32) (hab : a % 2 ^ 64 ≠ b % 2 ^ 64) :
    Sep (fun h => writeExtra l i h) (fun h => writeExtra (l.set i b) i h) := by
  intro h x e e'
  unfold writeExtra Rust.get at e e'
  rw [ha] at e
  rw [List.getElem?_set_self hi] at e'
  exact Sep.isize h64 hab h x e e'

theorem extra_same (l : List Int) {i j : Nat} (h : j ≠ i) (b : Int) (x : Hasher) : writeExtra l j x = writeExtra (l.set i b) j x := by
  unfold writeExtra Rust.get
  rw [List.getElem?_set_ne (Ne.symm h)]

theorem sep_extras (l : List Int) {i n : Nat} (hn : i < n) (hi : i < l.length) {a b : Int} (ha : l[i]? = some a)
    (h64 : a % 2 ^ 64 / 2 ^ 32 = b % 2 ^ 64 / 2 ^ 32) (hab : a % 2 ^ 64 ≠ b % 2 ^ 64) :
    Sep (fun h => Rust.forRange (writeExtra l) 0 n h) (fun h => Rust.forRange (writeExtra (l.set i b)) 0 n h) :=
  Sep.forRange hn (fun i => app_extra l i) (fun _ hj h => extra_same l hj b h) (sep_extra l hi ha h64 hab)

theorem sep_args_extra (o : Opcode) {i : Nat} {a b : Int} (hn : i < extraOperands o) (ha : o.extra[i]? = some a)
    (h64 : a % 2 ^ 64 / 2 ^ 32 = b % 2 ^ 64 / 2 ^ 32) (hab : a % 2 ^ 64 ≠ b % 2 ^ 64) :
    Sep (fun h => s.hashArgs h o) (fun h => s.hashArgs h { o with extra := o.extra.set i b }) := by
  have w := app_writeP
  have c := app_callP s
  obtain ⟨op, p1, p2, p3, extra⟩ := o
  simp only at ha
  have hl : i < extra.length := (List.getElem?_eq_some_iff.1 ha).1
  have S := sep_extra extra hl ha h64 hab
  have same : ∀ j, j ≠ i → (fun h => writeExtra extra j h) = (fun h => writeExtra (extra.set i b) j h) :=
    fun j hj => funext fun x => extra_same extra hj b x
  have E := app_extra (extra.set i b)
  unfold extraOperands at hn
  cases op <;> simp only at hn
  case OCall2 => obtain rfl : i = 0 := by omega
                 exact .tail (.tail (.tail S))
  case OEnumField => obtain rfl : i = 0 := by omega
                     exact .tail (.tail (.tail S))
  case OCall3 =>
    match i, hn with
    | 0, _ =>
      show Sep (fun h => writeP h p1 >>= fun h => s.callP h p2 >>= fun h => writeP h p3 >>= fun h => writeExtra extra 0 h >>= fun h =>
        writeExtra extra 1 h) _
      rw [same 1 (by omega)]
      exact .tail (.tail (.tail (.head S (E 1))))
    | 1, _ =>
      show Sep (fun h => writeP h p1 >>= fun h => s.callP h p2 >>= fun h => writeP h p3 >>= fun h => (fun h => writeExtra extra 0 h) h >>= fun h =>
        writeExtra extra 1 h) _
      rw [same 0 (by omega)]
      exact .tail (.tail (.tail (.tail S)))
  case OCall4 =>
    match i, hn with
    | 0, _ =>
      show Sep (fun h => writeP h p1 >>= fun h => s.callP h p2 >>= fun h => writeP h p3 >>= fun h => writeExtra extra 0 h >>= fun h =>
        (fun h => writeExtra extra 1 h) h >>= fun h => writeExtra extra 2 h) _
      rw [same 1 (by omega), same 2 (by omega)]
      exact .tail (.tail (.tail (.head S (.seq (E 1) (E 2)))))
    | 1, _ =>
      show Sep (fun h => writeP h p1 >>= fun h => s.callP h p2 >>= fun h => writeP h p3 >>= fun h => (fun h => writeExtra extra 0 h) h >>= fun h =>
        writeExtra extra 1 h >>= fun h => writeExtra extra 2 h) _
      rw [same 0 (by omega), same 2 (by omega)]
      exact .tail (.tail (.tail (.tail (.head S (E 2)))))
    | 2, _ =>
      show Sep (fun h => writeP h p1 >>= fun h => s.callP h p2 >>= fun h => writeP h p3 >>= fun h => (fun h => writeExtra extra 0 h) h >>= fun h =>
        (fun h => writeExtra extra 1 h) h >>= fun h => writeExtra extra 2 h) _
      rw [same 0 (by omega), same 1 (by omega)]
      exact .tail (.tail (.tail (.tail (.tail S))))
  case OSwitch =>
    cases p2 with
    | none => simp at hn
    | some m => exact .tail (.tail (.head (sep_extras extra hn hl ha h64 hab) (w p3)))
  case OCallN =>
    cases p3 with
    | none => simp at hn
    | some m => exact .tail (.tail (.tail (sep_extras extra hn hl ha h64 hab)))
  case OCallMethod =>
    cases p3 with
    | none => simp at hn
    | some m => exact .tail (.tail (.tail (sep_extras extra hn hl ha h64 hab)))
  case OCallThis =>
    cases p3 with
    | none => simp at hn
    | some m => exact .tail (.tail (.tail (sep_extras extra hn hl ha h64 hab)))
  case OCallClosure =>
    cases p3 with
    | none => simp at hn
    | some m => exact .tail (.tail (.tail (sep_extras extra hn hl ha h64 hab)))
  case OMakeEnum =>
    cases p3 with
    | none => simp at hn
    | some m => exact .tail (.tail (.tail (sep_extras extra hn hl ha h64 hab)))
  all_goals omega

theorem textAt_get {c : Code} {p : Option Int} {x : Str} (h : textAt c p = some x) :
    ∃ i : Int, p = some i ∧ intoUsize i = .ret i.toNat ∧ asUsize i = i.toNat ∧ c.strings[i.toNat]? = some x := by
  unfold textAt at h
  cases p with
  | none => simp at h
  | some i =>
    simp only [Option.bind_some] at h
    split at h
    · rename_i hi
      refine ⟨i, rfl, by simp [intoUsize, hi.1], by unfold asUsize; omega, h⟩
    · cases h

theorem bind_get {α : Type} {g : Int → Option α} {p : Option Int} {x : α} (h : (p.bind fun i => if 0 ≤ i then g i else none) = some x) :
    ∃ i : Int, p = some i ∧ intoUsize i = .ret i.toNat ∧ g i = some x := by
  cases p with
  | none => simp at h
  | some i =>
    simp only [Option.bind_some] at h
    split at h
    · rename_i hi
      exact ⟨i, rfl, by simp [intoUsize, hi], h⟩
    · cases h

theorem position_iff {types : List ValueType} {t : ValueType} {i : Nat} :
    position types t = .ret i ↔ types[i]? = some t ∧ ∀ j, j < i → types[j]? ≠ some t := by
  unfold position
  have key : (Rust.unwrap (types.findIdx? fun v => v.beq t) = .ret i) ↔ (types.findIdx? fun v => v.beq t) = some i := by
    cases types.findIdx? fun v => v.beq t <;> simp
  rw [key, List.findIdx?_eq_some_iff_getElem]
  constructor
  · rintro ⟨h1, h2, h3⟩
    refine ⟨by rw [List.getElem?_eq_getElem h1, (ValueType.beq_iff _ _).1 h2], fun j hj e => ?_⟩
    rw [List.getElem?_eq_getElem (by omega), Option.some.injEq] at e
    exact h3 j hj ((ValueType.beq_iff _ _).2 e)
  · rintro ⟨h1, h2⟩
    obtain ⟨h, e⟩ := List.getElem?_eq_some_iff.1 h1
    refine ⟨h, (ValueType.beq_iff _ _).2 e, fun j hj e' => h2 j hj ?_⟩
    rw [List.getElem?_eq_getElem (by omega), (ValueType.beq_iff _ _).1 e']

theorem getEq {α : Type} {l : List α} {i : Nat} {a : α} : Rust.get l i = .ret a ↔ l[i]? = some a := by
  unfold Rust.get
  cases l[i]? <;> simp

theorem typeHash_iff {s : CodeHash} {t : ValueType} {x : UInt32} : s.typeHash t = .ret x ↔ TypeEntry s t x := by
  unfold typeHash TypeEntry
  constructor
  · intro e
    cases e1 : position s.code.types t with
    | panic => rw [e1] at e; cases e
    | ret i =>
      rw [e1] at e
      obtain ⟨h1, h2⟩ := position_iff.1 e1
      exact ⟨i, h1, h2, getEq.1 e⟩
  · rintro ⟨i, h1, h2, h3⟩
    rw [position_iff.2 ⟨h1, h2⟩]
    exact getEq.2 h3

theorem typeHash_eq {s s' : CodeHash} {t t' : ValueType} (h : SameEntry s s' t t') : s'.typeHash t' = s.typeHash t := by
  cases e : s.typeHash t with
  | ret x => exact typeHash_iff.2 ((h x).2 (typeHash_iff.1 e))
  | panic =>
    cases e' : s'.typeHash t' with
    | ret x => rw [typeHash_iff.2 ((h x).1 (typeHash_iff.1 e'))] at e; cases e
    | panic => rfl

theorem callP_eq {s : CodeHash} {p : Option Int} {x : UInt32} (h : calleeHashAt s p = some x) (a : Hasher) :
    s.callP a p = .ret (a.writeU32 x) := by
  obtain ⟨i, rfl, e, hg⟩ := bind_get h
  cases hj : s.functionsIndexes[i.toNat]? with
  | none => simp [hj] at hg
  | some j =>
    simp only [hj, Option.bind_some] at hg
    split at hg
    · rename_i h
      have : asUsize j = j.toNat := by unfold asUsize; omega
      simp [callP, e, hfun, Rust.get, hj, this, hg]
    · cases hg

theorem sameInstr_args {s s' : CodeHash} {o o' : Opcode} (h : SameInstr s s' o o') (a : Hasher) : s'.hashArgs a o' = s.hashArgs a o := by
  obtain ⟨op, p1, p2, p3, extra⟩ := o
  obtain ⟨op', p1', p2', p3', extra'⟩ := o'
  obtain ⟨h1, h2, h3⟩ := h
  simp only at h1 h2 h3
  subst h1 h2
  have C0 : SameRef (calleeHashAt s p2) (calleeHashAt s' p2') → ∀ a, s'.callP a p2' = s.callP a p2 := by
    rintro ⟨x, e1, e2⟩ a
    rw [callP_eq e1, callP_eq e2]
  cases op'
  case OInt =>
    obtain ⟨x, e1, e2⟩ := h3
    obtain ⟨i, rfl, a1, g1⟩ := bind_get e1
    obtain ⟨j, rfl, a2, g2⟩ := bind_get e2
    simp [hashArgs, a1, a2, Rust.get, g1, g2]
  case OString =>
    obtain ⟨x, e1, e2⟩ := h3
    obtain ⟨i, rfl, a1, _, g1⟩ := textAt_get e1
    obtain ⟨j, rfl, a2, _, g2⟩ := textAt_get e2
    simp [hashArgs, a1, a2, Rust.get, g1, g2]
  case OType =>
    obtain ⟨t, t', e1, e2, e⟩ := h3
    obtain ⟨i, rfl, a1, g1⟩ := bind_get e1
    obtain ⟨j, rfl, a2, g2⟩ := bind_get e2
    simp [hashArgs, a1, a2, Rust.get, g1, g2, writeType, typeHash_eq e]
  case ODynGet =>
    obtain ⟨rfl, x, e1, e2⟩ := h3
    obtain ⟨i, rfl, _, a1, g1⟩ := textAt_get e1
    obtain ⟨j, rfl, _, a2, g2⟩ := textAt_get e2
    simp [hashArgs, a1, a2, Rust.get, g1, g2]
  case ODynSet =>
    obtain ⟨rfl, x, e1, e2⟩ := h3
    obtain ⟨i, rfl, _, a1, g1⟩ := textAt_get e1
    obtain ⟨j, rfl, _, a2, g2⟩ := textAt_get e2
    simp [hashArgs, a1, a2, Rust.get, g1, g2]
  case OFloat =>
    obtain ⟨rfl, h4⟩ := h3
    simp only [hashArgs, h4]
  case OCall0 =>
    obtain ⟨rfl, rfl, h⟩ := h3
    simp only [hashArgs, C0 h]
  case OStaticClosure =>
    obtain ⟨rfl, rfl, h⟩ := h3
    simp only [hashArgs, C0 h]
  case OCall1 =>
    obtain ⟨rfl, rfl, h⟩ := h3
    simp only [hashArgs, C0 h]
  case OCall2 =>
    obtain ⟨rfl, rfl, h⟩ := h3
    simp only [hashArgs, C0 h]
  case OCall3 =>
    obtain ⟨rfl, rfl, h⟩ := h3
    simp only [hashArgs, C0 h]
  case OCall4 =>
    obtain ⟨rfl, rfl, h⟩ := h3
    simp only [hashArgs, C0 h]
  case OCallN =>
    obtain ⟨rfl, rfl, h⟩ := h3
    simp only [hashArgs, C0 h]
  case OInstanceClosure =>
    obtain ⟨rfl, rfl, h⟩ := h3
    simp only [hashArgs, C0 h]
  all_goals
    obtain ⟨rfl, rfl, rfl⟩ := h3
    rfl

end CodeHash

theorem Op.ofNat?_toNat (o : Op) : Op.ofNat? o.toNat = some o := by cases o <;> rfl

theorem Op.toNat_inj {a b : Op} (h : a.toNat = b.toNat) : a = b := by
  have := Op.ofNat?_toNat a
  rw [h, Op.ofNat?_toNat b] at this
  injection this with h
  exact h.symm

theorem Op.toNat_lt (o : Op) : o.toNat < 100 := by cases o <;> decide

end Verif.Brass
