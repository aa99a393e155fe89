import Verif.Brass.SemCode

/-!
# `Sem` for functions and their debug information
-/

namespace Verif.Brass

open Verif Verif.Brass.Spec

namespace Sem

theorem ifNoError {α : Type} {x y : M α} {g : G α} (hx : Good x) (hy : Sem y g) :
    Sem (M.getErrors >>= fun e => if e.isSome then x else y) g where
  sound := by
    rintro s a s' _ h h'
    have h : (if s.errors.isSome then x else y) s = .ok a s' := h
    split at h
    · next hs =>
      have := hx.none_of h h'
      simp [this] at hs
    · exact hy.sound _ _ _ trivial h h'
  complete := by
    rintro c k a c' _ h rest pos
    exact hy.complete _ _ _ _ trivial h rest pos

theorem readFunction : Sem readFunction functionG := by
  unfold Brass.readFunction
  exact bind getType fun t => bind uindex fun fi => bind uindex fun nr => bind uindex fun no =>
    bind (readTypeRefs nr) fun regs => ifNoError (Good.pure _) (bind (readOpcodes no) fun ops => pure _)

theorem i32Add (p a b) : Sem (i32Add p a b) (i32AddG p a b) := by
  unfold Brass.i32Add
  split
  · next h =>
    refine congr (pure' _) ?_
    intro c k r c' _
    constructor
    · rintro ⟨rfl, rfl, rfl⟩; exact ⟨rfl, rfl, .inl ⟨h, rfl⟩⟩
    · rintro ⟨rfl, rfl, (⟨_, rfl⟩ | ⟨h1, _⟩)⟩
      · exact ⟨rfl, rfl, rfl⟩
      · omega
  · next h =>
    cases p with
    | dev => exact panic (by rintro c k r c' _ ⟨rfl, rfl, (⟨h1, _⟩ | ⟨_, h1, _⟩)⟩ <;> first | omega | cases h1)
    | release =>
      refine congr (pure' _) ?_
      intro c k r c' _
      constructor
      · rintro ⟨rfl, rfl, rfl⟩; exact ⟨rfl, rfl, .inr ⟨by omega, rfl, rfl⟩⟩
      · rintro ⟨rfl, rfl, (⟨h1, _⟩ | ⟨_, _, rfl⟩)⟩
        · omega
        · exact ⟨rfl, rfl, rfl⟩

theorem setErrorIf {b : Prop} [Decidable b] {e} {Q : Prop} (hQ : Q ↔ ¬ b) : Sem (setErrorIf (decide b) e) (G.guard Q) := by
  unfold Brass.setErrorIf
  by_cases h : b
  · simp only [h, decide_true, if_true]
    refine never ?_ ?_
    · rintro c k a c' _ ⟨_, h1, _⟩; exact hQ.1 h1 h
    · rintro s a s' h1; cases h1; rfl
  · simp only [h, decide_false]
    refine congr (pure' ()) ?_
    intro c k a c' _
    constructor
    · rintro ⟨rfl, _, rfl⟩; exact ⟨rfl, hQ.2 h, rfl⟩
    · rintro ⟨rfl, _, rfl⟩; exact ⟨rfl, rfl, rfl⟩

/-- The local variables of `debug_infos` in a state of the debug stream. -/
def conc (nops : Nat) (w : Dbg) : DebugState where
  curfile := w.file
  curline := w.line
  debug := w.words ++ List.replicate (2 * nops - w.words.length) 0
  i := w.words.length / 2

theorem set_two {α : Type} (l r : List α) (x y a b : α) :
    ((l ++ x :: y :: r).set l.length a).set (l.length + 1) b = l ++ [a, b] ++ r := by
  induction l with
  | nil => simp
  | cons z l ih => simp

theorem debugStore_conc (nops : Nat) (w : Dbg) (h : w.words.length % 2 = 0) (h' : w.words.length / 2 < nops) :
    debugStore (conc nops w) = M.pure (conc nops w.emit) := by
  obtain ⟨i, hi⟩ : ∃ i, w.words.length = 2 * i := ⟨w.words.length / 2, by omega⟩
  have e1 : (w.words.length / 2) <<< 1 = w.words.length := by rw [Nat.shiftLeft_eq]; omega
  have e2 : ((w.words.length / 2) <<< 1) ||| 1 = w.words.length + 1 := by
    rw [← Nat.shiftLeft_add_eq_or_of_lt (b := 1) (i := 1) (by decide), e1]
  obtain ⟨m, hm⟩ : ∃ m, 2 * nops - w.words.length = m + 2 := ⟨2 * nops - w.words.length - 2, by omega⟩
  have e3 : (conc nops w).debug = w.words ++ 0 :: 0 :: List.replicate m 0 := by
    simp [conc, hm, List.replicate_succ]
  unfold debugStore
  rw [e3]
  have e4 : (conc nops w).i = w.words.length / 2 := rfl
  rw [e4, e2, e1, if_pos (by simp), set_two]
  congr 1
  simp only [conc, Dbg.emit, DebugState.mk.injEq, List.length_append]
  refine ⟨trivial, trivial, ?_, ?_⟩
  · have : 2 * nops - (w.words.length + [w.file, w.line].length) = m := by simp; omega
    rw [this]
  · simp

theorem bits1 (c : UInt8) : (c.toNat &&& 1 ≠ 0) ↔ c.toNat % 2 = 1 :=
  (show ∀ n < 256, (n &&& 1 ≠ 0) ↔ n % 2 = 1 by decide +kernel) _ c.toNat_lt
theorem bits2 (c : UInt8) : (c.toNat &&& 2 ≠ 0) ↔ c.toNat / 2 % 2 = 1 :=
  (show ∀ n < 256, (n &&& 2 ≠ 0) ↔ n / 2 % 2 = 1 by decide +kernel) _ c.toNat_lt
theorem bits4 (c : UInt8) : (c.toNat &&& 4 ≠ 0) ↔ c.toNat / 4 % 2 = 1 :=
  (show ∀ n < 256, (n &&& 4 ≠ 0) ↔ n / 4 % 2 = 1 by decide +kernel) _ c.toNat_lt
theorem bits15 (c : UInt8) : (c.toNat >>> 2) &&& 15 = c.toNat / 4 % 16 :=
  (show ∀ n < 256, (n >>> 2) &&& 15 = n / 4 % 16 by decide +kernel) _ c.toNat_lt
theorem bits5 (c : UInt8) : (c.toNat <<< 5) % 256 = c.toNat % 8 * 32 :=
  (show ∀ n < 256, (n <<< 5) % 256 = n % 8 * 32 by decide +kernel) _ c.toNat_lt

/-- Bind after one byte. -/
theorem bindByte {β : Type} {f : Nat → M β} {h : Nat → G β} (hf : ∀ b : UInt8, Sem (f b.toNat) (h b.toNat)) :
    Sem (M.unwrap Brass.decodeU8 >>= f) (byteG >>= h) where
  sound := by
    rintro s b s'' _ e e'
    obtain ⟨a, s', h1, h2⟩ := M.bind_eq_ok e
    have ha : ∃ x : UInt8, a = x.toNat := by
      unfold M.unwrap at h1
      rw [decodeU8_eq] at h1
      cases hb : s.buf with
      | nil => simp [hb] at h1
      | cons x r => simp only [hb] at h1; cases h1; exact ⟨x, rfl⟩
    obtain ⟨x, rfl⟩ := ha
    obtain ⟨n1, k2, b2, p2, r2⟩ := (hf x).sound _ _ _ trivial h2 e'
    obtain ⟨n2, k1, b1, p1, r1⟩ := (unwrap decodeU8).sound _ _ _ trivial h1 n1
    exact ⟨n2, k1 ++ k2, by simp [b1, b2], by simp [p1, p2]; omega, k1, k2, _, s'.code, rfl, r1, r2⟩
  complete := by
    rintro c k b c'' _ ⟨k1, k2, a, c', rfl, h1, h2⟩ rest pos
    rw [List.append_assoc, M.bind_ok ((unwrap decodeU8).complete _ _ _ _ trivial h1 (k2 ++ rest) pos)]
    obtain ⟨_, x, _, rfl⟩ := h1
    rw [(hf x).complete _ _ _ _ trivial h2]
    simp [Nat.add_assoc]

theorem iteIff {α : Type} {b b' : Prop} [Decidable b] [Decidable b'] {x y : M α} {g h : G α} (e : b ↔ b')
    (hx : b' → Sem x g) (hy : ¬ b' → Sem y h) : Sem (if b then x else y) (if b' then g else h) := by
  by_cases hb : b
  · rw [if_pos hb, if_pos (e.1 hb)]; exact hx (e.1 hb)
  · rw [if_neg hb, if_neg (fun h => hb (e.2 h))]; exact hy (fun h => hb (e.2 h))

theorem G_bind_assoc {α β γ : Type} (x : G α) (f : α → G β) (g : β → G γ) :
    x >>= f >>= g = x >>= fun a => f a >>= g := by
  funext c k r c'
  apply propext
  constructor
  · rintro ⟨_, k3, b, c2, rfl, ⟨k1, k2, a, c1, rfl, h1, h2⟩, h3⟩
    exact ⟨k1, k2 ++ k3, a, c1, by simp, h1, k2, k3, b, c2, rfl, h2, h3⟩
  · rintro ⟨k1, _, a, c1, rfl, h1, k2, k3, b, c2, rfl, h2, h3⟩
    exact ⟨k1 ++ k2, k3, b, c2, by simp, ⟨k1, k2, a, c1, rfl, h1, h2⟩, h3⟩

theorem G_pure_bind {α β : Type} (a : α) (f : α → G β) : (Pure.pure a : G α) >>= f = f a := by
  funext c k r c'
  apply propext
  constructor
  · rintro ⟨_, k3, b, c2, rfl, ⟨rfl, rfl, rfl⟩, h3⟩; exact h3
  · intro h; exact ⟨[], k, a, c, rfl, ⟨rfl, rfl, rfl⟩, h⟩

theorem G_bind_ite {α β : Type} {b : Prop} [Decidable b] (x y : G α) (f : α → G β) :
    (if b then x else y) >>= f = if b then x >>= f else y >>= f := by split <;> rfl

theorem debugBody (p : Profile) (nops : Nat) (w : Dbg) (h : w.words.length % 2 = 0) (h' : w.words.length / 2 < nops) :
    Sem (debugBody p nops (conc nops w)) (do let w' ← debugItemG p nops w; Pure.pure (conc nops w')) := by
  unfold Brass.debugBody debugItemG
  rw [G_bind_assoc]
  refine bindByte fun c => ?_
  simp only [G_bind_ite, G_bind_assoc, G_pure_bind]
  refine iteIff (bits1 c) (fun hc => ?_) (fun hc => iteIff (bits2 c) (fun hc2 => ?_) (fun hc2 => iteIff (bits4 c) (fun hc3 => ?_) (fun hc3 => ?_)))
  · refine bindByte fun b => bind getCode fun k => ?_
    have e : ((c.toNat >>> 1) <<< 8 ||| b.toNat) = c.toNat / 2 * 256 + b.toNat := by
      rw [← Nat.shiftLeft_add_eq_or_of_lt (b := b.toNat) (i := 8) (by simpa using b.toNat_lt), Nat.shiftLeft_eq,
        Nat.shiftRight_eq_div_pow]
    simp only [e]
    refine congr (bind (toI32 _) (fun n => bind (h := fun _ => Pure.pure (conc nops { w with file := ((c.toNat / 2 * 256 + b.toNat : Nat) : Int) })) (setErrorIf (Q := (c.toNat / 2 * 256 + b.toNat : Nat) < n) (by omega)) fun _ => pure _)) ?_
    intro d kk a d' _
    constructor
    · rintro ⟨_, _, n, _, rfl, ⟨_, _, _, _, rfl, ⟨rfl, h1, rfl⟩, rfl, rfl, rfl⟩, _, _, _, _, rfl, ⟨rfl, h2, rfl⟩, rfl, rfl, rfl⟩
      exact ⟨[], [], (), _, rfl, ⟨rfl, ⟨h1, by omega⟩, rfl⟩, rfl, rfl, rfl⟩
    · rintro ⟨_, _, _, _, rfl, ⟨rfl, ⟨h1, h2⟩, rfl⟩, rfl, rfl, rfl⟩
      exact ⟨[], [], (k.ndebugfiles : Int), _, rfl, ⟨[], [], (), _, rfl, ⟨rfl, h1, rfl⟩, rfl, rfl, rfl⟩, [], [], (), _, rfl, ⟨rfl, by omega, rfl⟩, rfl, rfl, rfl⟩
  · rw [bits15]
    simp only [Nat.shiftRight_eq_div_pow]
    exact bind (setErrorIf (by show _ ↔ ¬ (w.words.length / 2 + _ > nops); omega)) fun _ => bind (i32Add p w.line _) fun l => pure _
  · simp only [Nat.shiftRight_eq_div_pow]
    refine bind (i32Add p w.line _) fun l => ?_
    show Sem (debugStore (conc nops { w with line := l })) _
    rw [debugStore_conc nops { w with line := l } h h']
    exact pure' _
  · refine bindByte fun b2 => bindByte fun b3 => ?_
    rw [bits5, Nat.shiftRight_eq_div_pow]
    show Sem (debugStore (conc nops { w with line := ((c.toNat / 8 ||| b2.toNat % 8 * 32 ||| b3.toNat : Nat) : Int) })) _
    rw [debugStore_conc nops { w with line := ((c.toNat / 8 ||| b2.toNat % 8 * 32 ||| b3.toNat : Nat) : Int) } h h']
    exact pure' _

/-- What is known about the words in the loop. -/
def DbgOk (nops : Nat) (w : Dbg) : Prop := w.words.length % 2 = 0 ∧ w.words.length ≤ 2 * nops

theorem item_facts {p nops} {w w' : Dbg} {c k c'} (h : debugItemG p nops w c k w' c') (hw : DbgOk nops w)
    (hi : w.words.length / 2 < nops) : DbgOk nops w' ∧ k ≠ [] ∧ c' = c := by
  unfold debugItemG at h
  obtain ⟨_, k2, b, _, rfl, ⟨rfl, x, rfl, rfl⟩, h⟩ := h
  have hem : ∀ l, DbgOk nops (Dbg.emit { w with line := l }) := by
    intro l
    simp only [DbgOk, Dbg.emit, List.length_append, List.length_cons, List.length_nil] at hw ⊢
    omega
  split at h
  · obtain ⟨_, _, _, _, rfl, ⟨rfl, _⟩, _, _, _, _, rfl, ⟨rfl, _, rfl⟩, _, _, _, _, rfl, ⟨rfl, _, rfl⟩, rfl, rfl, rfl⟩ := h
    exact ⟨hw, by simp, rfl⟩
  · split at h
    · obtain ⟨_, _, _, _, rfl, ⟨rfl, _, rfl⟩, _, _, _, _, rfl, ⟨rfl, rfl, _⟩, rfl, rfl, rfl⟩ := h
      exact ⟨hw, by simp, rfl⟩
    · split at h
      · obtain ⟨_, _, _, _, rfl, ⟨rfl, rfl, _⟩, rfl, rfl, rfl⟩ := h
        exact ⟨hem _, by simp, rfl⟩
      · obtain ⟨_, _, _, _, rfl, ⟨rfl, _⟩, _, _, _, _, rfl, ⟨rfl, _⟩, rfl, rfl, rfl⟩ := h
        exact ⟨hem _, by simp, rfl⟩

theorem debug_facts {p nops} {w w' : Dbg} {c k c'} (h : DebugG p nops w c k w' c') (hw : DbgOk nops w) :
    w'.words.length = 2 * nops ∧ c' = c := by
  induction h with
  | done d c h => unfold DbgOk at hw; exact ⟨by omega, rfl⟩
  | item d d' d'' c c' c'' k k' h1 h2 h3 ih =>
    obtain ⟨a, _, rfl⟩ := item_facts h2 hw h1
    exact ih a

theorem while_sound (p nops) (s : St) (w : Dbg) (hw : DbgOk nops w) (d : DebugState) (s' : St)
    (h : M.whileReading (fun d => decide (d.i < nops)) (Brass.debugBody p nops) (conc nops w) s = .ok d s')
    (h' : s'.errors = none) :
    s.errors = none ∧ ∃ k w', s.buf = k ++ s'.buf ∧ s'.pos = s.pos + k.length ∧ DebugG p nops w s.code k w' s'.code ∧
      d = conc nops w' := by
  unfold M.whileReading at h
  split at h
  · next hc =>
    have hc : w.words.length / 2 < nops := of_decide_eq_true hc
    split at h
    · next d1 s1 e =>
      split at h
      · next hlt =>
        have h1 : s1.errors = none :=
          (Good.whileReading (c := fun d : DebugState => decide (d.i < nops)) (Good.debugBody p nops) d1).none_of h h'
        obtain ⟨n0, k1, b1, p1, k2, _, w1, _, rfl, h2, rfl, rfl, h3⟩ := (debugBody p nops w hw.1 hc).sound _ _ _ trivial e h1
        have hw1 := (item_facts h2 hw hc)
        obtain ⟨_, k3, w3, b3, p3, h4, h5⟩ := while_sound p nops s1 w1 hw1.1 d s' h h'
        refine ⟨n0, k2 ++ k3, w3, by simp [b1, b3], by simp [p1, p3]; omega, ?_, h5⟩
        rw [h3] at h4
        exact .item w w1 w3 _ _ _ _ _ hc h2 h4
      · cases h
    · cases h
    · cases h
  · next hc =>
    have hc : nops ≤ w.words.length / 2 := Nat.le_of_not_lt (fun h1 => hc (decide_eq_true h1))
    cases h
    exact ⟨h', [], w, by simp, by simp, .done w _ hc, rfl⟩
termination_by s.buf.length

theorem while_complete {p nops} {w w' : Dbg} {c k c'} (h : DebugG p nops w c k w' c') (hw : DbgOk nops w) :
    ∀ rest pos, M.whileReading (fun d => decide (d.i < nops)) (Brass.debugBody p nops) (conc nops w) ⟨k ++ rest, pos, c, none⟩
      = .ok (conc nops w') ⟨rest, pos + k.length, c', none⟩ := by
  induction h with
  | done d c h =>
    intro rest pos
    unfold M.whileReading
    rw [if_neg (show ¬ decide ((conc nops d).i < nops) = true from fun h1 => Nat.not_lt.2 h (of_decide_eq_true h1))]
    rfl
  | item d d' d'' c c' c'' k k' h1 h2 h3 ih =>
    intro rest pos
    have hf := item_facts h2 hw h1
    have hk : 0 < k.length := List.length_pos_iff.2 hf.2.1
    unfold M.whileReading
    rw [if_pos (show decide ((conc nops d).i < nops) = true from decide_eq_true h1)]
    have := (debugBody p nops d hw.1 h1).complete c k (conc nops d') c' trivial
      ⟨k, [], d', c', by simp, h2, rfl, rfl, rfl⟩ (k' ++ rest) pos
    simp only [List.append_assoc] at this ⊢
    rw [this]
    simp only [List.length_append]
    rw [if_pos (by omega), ih hf.1]
    simp [Nat.add_assoc]

theorem debugInfos (p nops) : Sem (debugInfos p nops) (debugInfosG p nops) := by
  have hw : DbgOk nops { file := -1, line := 0, words := [] } := ⟨rfl, Nat.zero_le _⟩
  have e0 : conc nops { file := -1, line := 0, words := [] } =
      { curfile := -1, curline := 0, debug := List.replicate (nops * 2) 0, i := 0 } := by
    simp [conc, Nat.mul_comm]
  constructor
  · rintro s a s' _ h h'
    unfold Brass.debugInfos at h
    obtain ⟨d, s1, h1, h2⟩ := M.bind_eq_ok h
    cases h2
    rw [← e0] at h1
    obtain ⟨n0, k, w', b, q, h3, rfl⟩ := while_sound p nops s _ hw d s' h1 h'
    have hf := debug_facts h3 hw
    refine ⟨n0, k, b, q, k, [], w', _, by simp, h3, rfl, ?_, rfl⟩
    simp [conc, hf.1]
  · rintro c k a c' _ ⟨_, _, w', _, rfl, h, rfl, rfl, rfl⟩ rest pos
    have hf := debug_facts h hw
    have := while_complete h hw rest pos
    rw [e0] at this
    unfold Brass.debugInfos
    rw [List.append_nil, M.bind_ok this]
    simp [conc, hf.1]

end Sem

end Verif.Brass
