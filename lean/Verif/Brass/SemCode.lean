import Verif.Brass.Sem

/-!
# `Sem` for the functions of `code.rs`
-/

namespace Verif.Brass

open Verif Verif.Brass.Spec

namespace Sem

theorem readBytes (n : Nat) : Sem (readBytes n) (bytesG n) where
  sound := by
    rintro s a s' _ h h'
    unfold Brass.readBytes at h
    split at h
    · cases h
    · next h1 => cases h; exact ⟨h', s.buf.take n, by simp, by simp; omega, rfl, by simp; omega, rfl⟩
  complete := by
    rintro c k a c' _ ⟨rfl, h1, rfl⟩ rest pos
    subst h1
    simp [Brass.readBytes]

theorem peekAdvance (n : Nat) : Sem (peekAdvance n) (bytesG n) where
  sound := by
    rintro s a s' _ h h'
    unfold Brass.peekAdvance M.peek Brass.advance at h
    obtain ⟨b, s1, h1, h2⟩ := M.bind_eq_ok h
    obtain ⟨b2, s2, h3, h4⟩ := M.bind_eq_ok h2
    split at h1 <;> cases h1
    split at h3 <;> cases h3
    cases h4
    exact ⟨h', s.buf.take n, by simp, by simp; omega, rfl, by simp; omega, rfl⟩
  complete := by
    rintro c k a c' _ ⟨rfl, h1, rfl⟩ rest pos
    subst h1
    unfold Brass.peekAdvance
    rw [M.bind_ok (a := a) (s' := ⟨a ++ rest, pos, c', none⟩) (by simp [M.peek]),
      M.bind_ok (a := ()) (s' := ⟨rest, pos + a.length, c', none⟩) (by simp [Brass.advance])]
    rfl

/-- A value computed from the bytes read. -/
theorem map {P : Code → Prop} {α β : Type} {x : M α} {g : G α} (f : α → β) (h : SemP P x g) {g' : G β}
    (e : ∀ c k b c', g' c k b c' ↔ ∃ a, g c k a c' ∧ b = f a) : SemP P (do let a ← x; Pure.pure (f a)) g' where
  sound := by
    rintro s b s' hp h1 h'
    obtain ⟨a, s1, h2, h3⟩ := M.bind_eq_ok h1
    cases h3
    obtain ⟨n, k, h4, h5, h6⟩ := h.sound _ _ _ hp h2 h'
    exact ⟨n, k, h4, h5, (e _ _ _ _).2 ⟨a, h6, rfl⟩⟩
  complete := by
    rintro c k b c' hp h1 rest pos
    obtain ⟨a, h2, rfl⟩ := (e _ _ _ _).1 h1
    rw [M.bind_ok (h.complete _ _ _ _ hp h2 rest pos)]
    rfl

theorem decodeU8 : Sem decodeU8 byteG := by
  refine map leNat (readBytes 1) ?_
  intro c k b c'
  constructor
  · rintro ⟨rfl, x, rfl, rfl⟩; exact ⟨[x], ⟨rfl, rfl, rfl⟩, by simp [leNat]⟩
  · rintro ⟨_, ⟨rfl, h, rfl⟩, rfl⟩
    obtain ⟨x, rfl⟩ := List.length_eq_one_iff.1 h
    exact ⟨rfl, x, rfl, by simp [leNat]⟩

theorem decodeI32 : Sem decodeI32 i32G := by
  rw [i32G_eq]
  refine map (fun b => toSigned 32 (leNat b)) (readBytes 4) ?_
  intro c k b c'
  constructor
  · rintro ⟨rfl, h, rfl⟩; exact ⟨k, ⟨rfl, h, rfl⟩, rfl⟩
  · rintro ⟨_, ⟨rfl, h, rfl⟩, rfl⟩; exact ⟨rfl, h, rfl⟩

theorem decodeF64 : Sem decodeF64 f64G := by
  rw [f64G_eq]
  refine map leNat (readBytes 8) ?_
  intro c k b c'
  constructor
  · rintro ⟨rfl, h, rfl⟩; exact ⟨k, ⟨rfl, h, rfl⟩, rfl⟩
  · rintro ⟨_, ⟨rfl, h, rfl⟩, rfl⟩; exact ⟨rfl, h, rfl⟩

theorem idx_short (b : UInt8) : b.toNat &&& 0x80 = 0 ↔ b.toNat < 0x80 :=
  (show ∀ n < 256, (n &&& 0x80 = 0 ↔ n < 0x80) by decide +kernel) _ b.toNat_lt
theorem idx_short_val (b : UInt8) : b.toNat < 0x80 → b.toNat &&& 0x7F = b.toNat :=
  (show ∀ n < 256, n < 0x80 → n &&& 0x7F = n by decide +kernel) _ b.toNat_lt
theorem idx_medium (b : UInt8) : 0x80 ≤ b.toNat → (b.toNat &&& 0x40 = 0 ↔ b.toNat < 0xC0) :=
  (show ∀ n < 256, 0x80 ≤ n → (n &&& 0x40 = 0 ↔ n < 0xC0) by decide +kernel) _ b.toNat_lt
theorem idx_sign (b : UInt8) : 0x80 ≤ b.toNat → b.toNat < 0xC0 → (b.toNat &&& 0x20 = 0 ↔ b.toNat < 0xA0) :=
  (show ∀ n < 256, 0x80 ≤ n → n < 0xC0 → (n &&& 0x20 = 0 ↔ n < 0xA0) by decide +kernel) _ b.toNat_lt
theorem idx_medium_pos (b : UInt8) : 0x80 ≤ b.toNat → b.toNat < 0xA0 → b.toNat &&& 31 = b.toNat - 0x80 :=
  (show ∀ n < 256, 0x80 ≤ n → n < 0xA0 → n &&& 31 = n - 0x80 by decide +kernel) _ b.toNat_lt
theorem idx_medium_neg (b : UInt8) : 0xA0 ≤ b.toNat → b.toNat < 0xC0 → b.toNat &&& 31 = b.toNat - 0xA0 :=
  (show ∀ n < 256, 0xA0 ≤ n → n < 0xC0 → n &&& 31 = n - 0xA0 by decide +kernel) _ b.toNat_lt

theorem or_shift (x : UInt8) (h : Nat) : x.toNat ||| (h <<< 8) = h * 256 + x.toNat := by
  rw [Nat.or_comm, ← Nat.shiftLeft_add_eq_or_of_lt (b := x.toNat) (i := 8) (by simpa using x.toNat_lt), Nat.shiftLeft_eq]

theorem decodeU8_eq (s : St) : Brass.decodeU8 s = match s.buf with
    | [] => .err { kind := .noMoreData, position := s.pos } s
    | b :: r => .ok b.toNat { s with buf := r, pos := s.pos + 1 } := by
  show M.bind (Brass.readBytes 1) _ s = _
  unfold M.bind Brass.readBytes
  cases h : s.buf with
  | nil => simp
  | cons b r => simp [leNat]

theorem readIndex : Sem readIndex idxG where
  sound := by
    rintro s a s' _ h h'
    unfold Brass.readIndex at h
    obtain ⟨b, s1, h1, h2⟩ := M.bind_eq_ok h
    rw [decodeU8_eq] at h1
    split at h1 <;> cases h1
    next b r hb =>
    split at h2
    · next h3 =>
      cases h2
      have := (idx_short b).1 h3
      rw [idx_short_val b this]
      exact ⟨h', [b], by simp [hb], rfl, rfl, .short b this⟩
    · next h3 =>
      have h4 : 0x80 ≤ b.toNat := by have := idx_short b; omega
      split at h2
      · next h5 =>
        have h6 := (idx_medium b h4).1 h5
        obtain ⟨x, s2, h7, h8⟩ := M.bind_eq_ok h2
        cases h8
        unfold M.unwrap at h7
        rw [decodeU8_eq] at h7
        simp only at h7
        cases r with
        | nil => cases h7
        | cons x r =>
          cases h7
          refine ⟨h', [b, x], by simp [hb], by simp, rfl, ?_⟩
          rw [or_shift]
          split
          · next h9 =>
            have := (idx_sign b h4 h6).1 h9
            rw [idx_medium_pos b h4 this]
            exact .mediumPos b x h4 this
          · next h9 =>
            have : 0xA0 ≤ b.toNat := by have := idx_sign b h4 h6; omega
            rw [idx_medium_neg b this h6]
            exact .mediumNeg b x this h6
      · next h5 =>
        have h6 : 0xC0 ≤ b.toNat := by have := idx_medium b h4; omega
        obtain ⟨x, s2, h7, h2⟩ := M.bind_eq_ok h2
        obtain ⟨y, s3, h8, h2⟩ := M.bind_eq_ok h2
        obtain ⟨z, s4, h9, h2⟩ := M.bind_eq_ok h2
        rw [decodeU8_eq] at h7 h8 h9
        cases h2
        cases r with
        | nil => cases h7
        | cons x r =>
        cases h7
        cases r with
        | nil => cases h8
        | cons y r =>
        cases h8
        cases r with
        | nil => cases h9
        | cons z r =>
        cases h9
        exact ⟨h', [b, x, y, z], by simp [hb], by simp, rfl, .long b x y z h6⟩
  complete := by
    rintro c k a c' _ ⟨rfl, h⟩ rest pos
    unfold Brass.readIndex
    cases h with
    | short b h =>
      simp [M.bind_def, decodeU8_eq, (idx_short b).2 h, idx_short_val b h]
    | mediumPos b x h h1 =>
      have h2 : ¬ (b.toNat &&& 128 = 0) := by have := idx_short b; omega
      have h3 := (idx_medium b h).2 (by omega)
      have h4 := (idx_sign b h (by omega)).2 h1
      simp [M.bind_def, decodeU8_eq, h2, h3, M.unwrap, h4, idx_medium_pos b h h1, or_shift]
    | mediumNeg b x h h1 =>
      have h2 : ¬ (b.toNat &&& 128 = 0) := by have := idx_short b; omega
      have h3 := (idx_medium b (by omega)).2 h1
      have h4 : ¬ (b.toNat &&& 32 = 0) := by have := idx_sign b (by omega) (by omega); omega
      simp [M.bind_def, decodeU8_eq, h2, h3, M.unwrap, h4, idx_medium_neg b h h1, or_shift]
    | long b x y z h =>
      have h2 : ¬ (b.toNat &&& 128 = 0) := by have := idx_short b; omega
      have h3 : ¬ (b.toNat &&& 64 = 0) := by have := idx_medium b (by omega); omega
      simp [M.bind_def, decodeU8_eq, h2, h3, twos32_eq, unsignedLE_eq, leNat]

theorem index : Sem index idxG := unwrap readIndex

/-- No phrase. -/
def noneG {α : Type} : G α := fun _ _ _ _ => False

theorem setErrorThen {P : Code → Prop} {α : Type} (k) {f : Unit → M α} (hf : ∀ u, Good (f u)) :
    SemP P (M.setError k >>= f) (noneG : G α) :=
  never (fun _ _ _ _ _ h => h) (by
    intro s a s' h
    obtain ⟨u, s1, h1, h2⟩ := M.bind_eq_ok h
    cases h1
    exact (hf ()).sticky _ s' (by rw [h2]; rfl) rfl)

theorem ite {P : Code → Prop} {α : Type} {b : Prop} [Decidable b] {x y : M α} {g h : G α} (hx : b → SemP P x g)
    (hy : ¬ b → SemP P y h) : SemP P (if b then x else y) (if b then g else h) := by
  split
  · exact hx ‹_›
  · exact hy ‹_›

theorem uindex : Sem uindex natG := by
  unfold Brass.uindex
  refine congr (bind (h := fun i => if i < 0 then noneG else Pure.pure i.toNat) index (fun i => ite
    (fun _ => setErrorThen _ (fun _ => Good.pure _)) (fun _ => pure _))) ?_
  intro c k a c' _
  constructor
  · rintro ⟨k1, k2, i, c1, rfl, ⟨rfl, h1⟩, h2⟩
    split at h2
    · exact absurd h2 id
    · next h3 =>
      obtain ⟨rfl, rfl, rfl⟩ := h2
      refine ⟨rfl, ?_⟩
      rw [Int.toNat_of_nonneg (by omega)]
      simpa using h1
  · rintro ⟨rfl, h⟩
    refine ⟨k, [], (a : Int), c', by simp, ⟨rfl, h⟩, ?_⟩
    show (if ((a : Int) < 0) then noneG else Pure.pure (a : Int).toNat : G Nat) c' [] a c'
    rw [if_neg (by omega)]
    exact ⟨rfl, by simp, rfl⟩

theorem toI32 {P : Code → Prop} (n : Nat) : SemP P (toI32 n) (do G.guard (n < 2 ^ 31); Pure.pure (n : Int)) := by
  unfold Brass.toI32
  split
  · next h =>
    refine congr (pure' _) ?_
    intro c k a c' _
    constructor
    · rintro ⟨rfl, rfl, rfl⟩; exact ⟨[], [], (), c', rfl, ⟨rfl, h, rfl⟩, rfl, rfl, rfl⟩
    · rintro ⟨_, _, _, _, rfl, ⟨rfl, _, rfl⟩, rfl, rfl, rfl⟩; exact ⟨rfl, rfl, rfl⟩
  · next h => exact panic (by rintro c k a c' _ ⟨_, _, _, _, rfl, ⟨rfl, h1, rfl⟩, _⟩; exact h h1)

/-- The three functions that read a reference. -/
theorem badIndex_eq (i : Int) (n : Nat) (s : St) : badIndex i n s =
    if i < 0 then .ok true s else if n < 2 ^ 31 then .ok (decide (i ≥ n)) s else .panic := by
  unfold badIndex
  split
  · rfl
  · unfold Brass.toI32
    split
    · rfl
    · rfl

/-- Reading a reference: an index, checked against a count of the module. -/
theorem ref {α : Type} {n : Code → Nat} {y : Code → M α} {z : Code → Int → M α} {e : DecodeErrorKind}
    {gz : Code → Nat → G α} (hy : ∀ d, Good (y d)) (hz : ∀ d (j : Nat), Sem (z d j) (gz d j)) :
    Sem (do
      let i ← Brass.index
      let d ← M.getCode
      let bad ← badIndex i (n d)
      if bad then do
        M.setError e
        y d
      else z d i)
      (fun c k a c' => n c < 2 ^ 31 ∧ ∃ j : Nat, j < n c ∧ ∃ k1 k2, k = k1 ++ k2 ∧ IdxBytes k1 j ∧ gz c j c k2 a c') where
  sound := by
    rintro s a s' _ h h'
    obtain ⟨i, s1, h1, h⟩ := M.bind_eq_ok h
    obtain ⟨d, s2, h2, h⟩ := M.bind_eq_ok h
    cases h2
    obtain ⟨bad, s3, h3, h⟩ := M.bind_eq_ok h
    rw [badIndex_eq] at h3
    split at h3
    · cases h3
      have := (setErrorThen (P := fun _ => True) e (fun _ => hy _)).sound _ _ _ trivial h h'
      obtain ⟨_, _, _, _, h⟩ := this
      exact absurd h id
    · next hi =>
      split at h3
      · next hn =>
        cases h3
        split at h
        · have := (setErrorThen (P := fun _ => True) e (fun _ => hy _)).sound _ _ _ trivial h h'
          obtain ⟨_, _, _, _, h⟩ := this
          exact absurd h id
        · next hlt =>
          have hlt : i < n s1.code := by simpa using hlt
          obtain ⟨j, rfl⟩ := Int.eq_ofNat_of_zero_le (show 0 ≤ i by omega)
          obtain ⟨hn1, k2, hk2, hp2, h5⟩ := (hz _ _).sound _ _ _ trivial h h'
          obtain ⟨hn2, k1, hk1, hp1, h7, h8⟩ := index.sound _ _ _ trivial h1 hn1
          rw [h7] at hn h5 hlt
          exact ⟨hn2, k1 ++ k2, by simp [hk1, hk2], by simp [hp1, hp2]; omega, hn, j, by omega, k1, k2, rfl, h8, h5⟩
      · cases h3
  complete := by
    rintro c k a c' _ ⟨hn, j, h2, k1, k2, rfl, h1, h3⟩ rest pos
    rw [List.append_assoc, M.bind_ok (index.complete _ _ _ _ trivial ⟨rfl, h1⟩ (k2 ++ rest) pos)]
    rw [show ∀ s : St, s.code = c → ∀ f : Code → M α, (M.getCode >>= f) s = f c s from
      fun s hs f => by subst hs; rfl]
    · rw [M.bind_ok (a := false) (s' := ⟨k2 ++ rest, pos + k1.length, c, none⟩)
        (by rw [badIndex_eq, if_neg (by omega), if_pos hn]; simp; omega)]
      have := (hz c j).complete _ _ _ _ trivial h3 rest (pos + k1.length)
      simpa [Nat.add_assoc] using this
    · rfl

theorem readString : Sem readString stringRefG := by
  refine congr (ref (n := Code.nstrings) (e := .invalidStringIndex) (y := fun _ => Pure.pure []) (z := fun d i => M.unwrapOpt d.strings[i.toNat]?)
    (gz := fun d j => G.some d.strings[j]?) (fun _ => Good.pure _) (fun d j => unwrapOpt _)) ?_
  intro c k a c' _
  constructor
  · rintro ⟨hn, j, hj, k1, k2, rfl, h1, rfl, h2, rfl⟩
    exact ⟨rfl, hn, j, by simpa using h1, hj, h2⟩
  · rintro ⟨rfl, hn, j, h1, hj, h2⟩
    exact ⟨hn, j, hj, k, [], by simp, h1, rfl, h2, rfl⟩

theorem getType : Sem getType typeRefG := by
  refine congr (ref (n := Code.ntypes) (e := .invalidTypeIndex) (y := fun d => M.unwrapOpt d.types[0]?) (z := fun d i => M.unwrapOpt d.types[i.toNat]?)
    (gz := fun d j => G.some d.types[j]?) (fun _ => Good.unwrapOpt _) (fun d j => unwrapOpt _)) ?_
  intro c k a c' _
  constructor
  · rintro ⟨hn, j, hj, k1, k2, rfl, h1, rfl, h2, rfl⟩
    exact ⟨rfl, hn, j, by simpa using h1, hj, h2⟩
  · rintro ⟨rfl, hn, j, h1, hj, h2⟩
    exact ⟨hn, j, hj, k, [], by simp, h1, rfl, h2, rfl⟩

/-- The cache lookup of `ustringRefG`. -/
def cacheG (d : Code) (j : Nat) : G Str := fun _ k a c' => k = [] ∧
    ((d.ustrings[j]? = Option.some (Option.some a) ∧ c' = d) ∨
     (d.ustrings[j]? = Option.some none ∧ a = d.strings[j]?.getD [] ∧
       c' = { d with ustrings := d.ustrings.insertIdx j d.strings[j]? }))

theorem cache (d : Code) (j : Nat) : Sem (match getUstring d ((j : Int).toNat) with
    | .panic => M.panic
    | .ret (r, c) => do
      M.setCode c
      Pure.pure r) (cacheG d j) := by
  have hj : ((j : Int).toNat) = j := by simp
  rw [hj]
  unfold getUstring
  cases hu : d.ustrings[j]? with
  | none => exact panic (by rintro c k a c' _ ⟨_, (⟨h, _⟩ | ⟨h, _⟩)⟩ <;> simp [hu] at h)
  | some o =>
    cases o with
    | some r =>
      refine congr (bind (setCode d) (fun _ => pure r)) ?_
      intro c k a c' _
      constructor
      · rintro ⟨_, _, _, _, rfl, ⟨rfl, rfl⟩, rfl, rfl, rfl⟩; exact ⟨rfl, .inl ⟨hu, rfl⟩⟩
      · rintro ⟨rfl, (⟨h, rfl⟩ | ⟨h, _⟩)⟩
        · rw [hu] at h; cases h
          exact ⟨[], [], (), c', rfl, ⟨rfl, rfl⟩, rfl, rfl, rfl⟩
        · simp [hu] at h
    | none =>
      have key : ∀ r, r = d.strings[j]?.getD [] →
          Sem (do M.setCode { d with ustrings := d.ustrings.insertIdx j d.strings[j]? }; Pure.pure r : M Str) (cacheG d j) := by
        intro r hr
        refine congr (bind (setCode _) (fun _ => pure r)) ?_
        intro c k a c' _
        constructor
        · rintro ⟨_, _, _, _, rfl, ⟨rfl, rfl⟩, rfl, rfl, rfl⟩; exact ⟨rfl, .inr ⟨hu, hr, rfl⟩⟩
        · rintro ⟨rfl, (⟨h, rfl⟩ | ⟨h, rfl, rfl⟩)⟩
          · simp [hu] at h
          · exact ⟨[], [], (), _, rfl, ⟨rfl, rfl⟩, rfl, hr.symm, rfl⟩
      cases hs : d.strings[j]? with
      | none => rw [hs] at key; exact key [] rfl
      | some r => rw [hs] at key; exact key r rfl

theorem readUstring : Sem readUstring ustringRefG := by
  refine congr (ref (n := Code.nstrings) (e := .invalidStringIndex) (y := fun _ => Pure.pure []) (gz := cacheG)
    (z := fun d i => match getUstring d i.toNat with
      | .panic => M.panic
      | .ret (r, c) => do
        M.setCode c
        Pure.pure r) (fun _ => Good.pure _) cache) ?_
  intro c k a c' _
  constructor
  · rintro ⟨hn, j, hj, k1, k2, rfl, h1, rfl, h2⟩
    exact ⟨hn, j, by simpa using h1, hj, h2⟩
  · rintro ⟨hn, j, h1, hj, h2⟩
    exact ⟨hn, j, hj, k, [], by simp, h1, rfl, h2⟩

theorem readSuper : Sem readSuper superG := by
  unfold Brass.readSuper
  refine congr (bind (h := fun i => if i < 0 then Pure.pure ValueType.default else
    (do let d ← G.code; G.some d.types[i.toNat]?)) index (fun i => ite (fun _ => pure _)
      (fun _ => bind getCode (fun d => unwrapOpt _)))) ?_
  intro c k a c' _
  constructor
  · rintro ⟨k1, k2, i, c1, rfl, ⟨rfl, h1⟩, h2⟩
    split at h2
    · next h3 => obtain ⟨rfl, rfl, rfl⟩ := h2; exact ⟨rfl, i, by simpa using h1, .inl ⟨h3, rfl⟩⟩
    · next h3 =>
      obtain ⟨_, _, _, _, rfl, ⟨rfl, rfl, rfl⟩, rfl, h4, rfl⟩ := h2
      exact ⟨rfl, i, by simpa using h1, .inr ⟨by omega, h4⟩⟩
  · rintro ⟨rfl, i, h1, h2⟩
    refine ⟨k, [], i, c', by simp, ⟨rfl, h1⟩, ?_⟩
    show (if i < 0 then Pure.pure ValueType.default else
      (do let d ← G.code; G.some d.types[i.toNat]?) : G ValueType) c' [] a c'
    rcases h2 with ⟨h2, rfl⟩ | ⟨h2, h3⟩
    · rw [if_pos h2]; exact ⟨rfl, rfl, rfl⟩
    · rw [if_neg (by omega)]
      exact ⟨[], [], c', c', rfl, ⟨rfl, rfl, rfl⟩, rfl, h3, rfl⟩

theorem readTypeRefs (n) : Sem (readTypeRefs n) (G.many typeRefG n) := pushLoop0 getType n
theorem readField : Sem readField fieldG := fieldG_eq ▸ bind readUstring fun _ => bind getType fun _ => pure _
theorem readFields (n) : Sem (readFields n) (G.many fieldG n) := pushLoop0 readField n
theorem readProto : Sem readProto protoG :=
  protoG_eq ▸ bind readUstring fun _ => bind uindex fun _ => bind index fun _ => pure _
theorem readProtos (n) : Sem (readProtos n) (G.many protoG n) := pushLoop0 readProto n
theorem readConstruct : Sem readConstruct constructG :=
  bind readUstring fun _ => bind uindex fun _ => bind (readTypeRefs _) fun _ => pure _
theorem readConstructs (n) : Sem (readConstructs n) (G.many constructG n) := pushLoop0 readConstruct n
theorem readFuncType : Sem readFuncType funcTypeG :=
  bind (unwrap decodeU8) fun _ => bind (readTypeRefs _) fun _ => bind getType fun _ => pure _

theorem insertAt_ok {α : Type} (v : List α) (i : Nat) (x : α) (h : i = v.length) : M.insertAt v i x = M.pure (v ++ [x]) := by
  subst h
  have := insertIdx_append_length v [] x
  simp only [List.append_nil] at this
  simp [M.insertAt, this]

theorem pure_bind {α β : Type} (a : α) (f : α → M β) : M.pure a >>= f = f a := rfl

/-- `many` followed by a function of the list. -/
theorem many_succ_map {α β : Type} (g : G α) (n : Nat) (f : List α → β) (c k b c') :
    (do let l ← G.many g (n + 1); Pure.pure (f l) : G β) c k b c' ↔
      (do let a ← g; let l ← G.many g n; Pure.pure (f (a :: l)) : G β) c k b c' := by
  constructor
  · rintro ⟨_, _, _, c2, rfl, ⟨k1, _, x, c1, rfl, h1, k3, _, l, _, rfl, h2, rfl, rfl, rfl⟩, rfl, rfl, rfl⟩
    exact ⟨k1, k3, x, c1, by simp, h1, k3, [], l, _, by simp, h2, rfl, rfl, rfl⟩
  · rintro ⟨k1, k2, x, c1, rfl, h1, k3, k4, l, c2, rfl, h2, rfl, rfl, rfl⟩
    exact ⟨k1 ++ k3, [], x :: l, _, by simp, ⟨k1, k3, x, c1, rfl, h1, k3, [], l, _, by simp, h2, rfl, rfl, rfl⟩, rfl, by simp, rfl⟩

theorem _root_.Verif.Brass.M.bind_assoc {α β γ : Type} (x : M α) (f : α → M β) (g : β → M γ) :
    x >>= f >>= g = x >>= fun a => f a >>= g := by
  funext s
  simp only [M.bind_def]
  cases x s <;> rfl

theorem bindingsLoop : ∀ (n i : Nat) (acc : List Nat), acc.length = 2 * i →
    Sem (M.forRange (fun i v => do
      let a ← Brass.uindex
      let v ← M.insertAt v (i <<< 1) a
      let b ← Brass.uindex
      M.insertAt v ((i <<< 1) ||| 1) b) i n acc)
      (do let l ← G.many bindingG n; Pure.pure (acc ++ l.flatMap fun b => [b.1, b.2]))
  | 0, i, acc, _ => by
    refine congr (pure acc) ?_
    intro c k a c' _
    constructor
    · rintro ⟨rfl, rfl, rfl⟩; exact ⟨[], [], [], c', rfl, ⟨rfl, rfl, rfl⟩, rfl, by simp, rfl⟩
    · rintro ⟨_, _, _, _, rfl, ⟨rfl, rfl, rfl⟩, rfl, rfl, rfl⟩; exact ⟨rfl, by simp, rfl⟩
  | n + 1, i, acc, hl => by
    have body : (do
        let a ← Brass.uindex
        let v ← M.insertAt acc (i <<< 1) a
        let b ← Brass.uindex
        M.insertAt v ((i <<< 1) ||| 1) b : M (List Nat)) = (do
        let a ← Brass.uindex
        let b ← Brass.uindex
        Pure.pure (acc ++ [a, b])) := by
      have e1 : i <<< 1 = acc.length := by rw [Nat.shiftLeft_eq]; omega
      have e2 : (i <<< 1) ||| 1 = acc.length + 1 := by
        have := Nat.shiftLeft_add_eq_or_of_lt (b := 1) (i := 1) (by decide) i
        rw [← this, e1]
      have : ∀ a, (do
          let v ← M.insertAt acc (i <<< 1) a
          let b ← Brass.uindex
          M.insertAt v ((i <<< 1) ||| 1) b : M (List Nat)) = (do
          let b ← Brass.uindex
          Pure.pure (acc ++ [a, b])) := by
        intro a
        rw [insertAt_ok _ _ _ e1, pure_bind]
        have : ∀ b, M.insertAt (acc ++ [a]) ((i <<< 1) ||| 1) b = M.pure (acc ++ [a, b]) := by
          intro b
          rw [insertAt_ok _ _ _ (by rw [e2]; simp)]
          simp
        simp only [this]
        rfl
      simp only [this]
    have e : ∀ F : Nat → List Nat → M (List Nat), F i acc = (do
        let a ← Brass.uindex
        let b ← Brass.uindex
        Pure.pure (acc ++ [a, b])) → M.forRange F i (n + 1) acc = (do
        let a ← Brass.uindex
        let b ← Brass.uindex
        M.forRange F (i + 1) n (acc ++ [a, b])) := by
      intro F hF
      show F i acc >>= _ = _
      rw [hF, M.bind_assoc]
      congr 1; funext a
      rw [M.bind_assoc]
      rfl
    rw [e _ body]
    refine congr (bind uindex fun a => bind uindex fun b => bindingsLoop n (i + 1) (acc ++ [a, b])
      (by simp [hl]; omega)) ?_
    intro c k r c' _
    rw [many_succ_map bindingG n (fun l => acc ++ l.flatMap fun b => [b.1, b.2])]
    constructor
    · rintro ⟨k1, k2, a, c1, rfl, h1, k3, k4, b, c2, rfl, h2, k5, k6, l, c3, rfl, h3, rfl, rfl, rfl⟩
      exact ⟨k1 ++ k3, k5, (a, b), c2, by simp, ⟨k1, k3, a, c1, rfl, h1, k3, [], b, c2, by simp, h2, rfl, rfl, rfl⟩,
        k5, [], l, _, by simp, h3, rfl, by simp, rfl⟩
    · rintro ⟨_, _, _, c2, rfl, ⟨k1, _, a, c1, rfl, h1, k3, _, b, c2, rfl, h2, rfl, rfl, rfl⟩, k5, _, l, _, rfl, h3, rfl, rfl, rfl⟩
      exact ⟨k1, k3 ++ k5, a, c1, by simp, h1, k3, k5, b, c2, rfl, h2, k5, [], l, _, by simp, h3, rfl, by simp, rfl⟩

theorem readBindings (n) : Sem (readBindings n)
    (do let l ← G.many bindingG n; Pure.pure (l.flatMap fun b => [b.1, b.2])) := by
  have := bindingsLoop n 0 [] rfl
  simp only [List.nil_append] at this
  exact this

theorem readObjType : Sem readObjType objTypeG := by
  unfold Brass.readObjType
  refine congr (bind readUstring fun name => bind readSuper fun sup => bind uindex fun global => bind uindex fun nf =>
    bind uindex fun np => bind uindex fun nb => bind (readFields nf) fun fs => bind (readProtos np) fun ps =>
    bind (readBindings nb) fun bs => pure (ValueTypeU.obj name sup fs nf np nb ps bs [(global : Int)] none)) ?_
  intro c k a c' _
  unfold objTypeG
  have : ∀ (n : Nat) (f : List Nat → ValueTypeU) c k a c', ((do
      let bs ← (do let l ← G.many bindingG n; Pure.pure (l.flatMap fun b => [b.1, b.2]) : G (List Nat))
      Pure.pure (f bs) : G ValueTypeU) c k a c' ↔
      (do let l ← G.many bindingG n; Pure.pure (f (l.flatMap fun b => [b.1, b.2])) : G ValueTypeU) c k a c') := by
    intro n f c k a c'
    constructor
    · rintro ⟨_, _, _, _, rfl, ⟨k1, _, l, _, rfl, h1, rfl, rfl, rfl⟩, rfl, rfl, rfl⟩
      exact ⟨k1, [], l, _, by simp, h1, rfl, rfl, rfl⟩
    · rintro ⟨k1, _, l, _, rfl, h1, rfl, rfl, rfl⟩
      exact ⟨k1, [], _, _, rfl, ⟨k1, [], l, _, by simp, h1, rfl, rfl, rfl⟩, rfl, rfl, rfl⟩
  have e : ∀ (n : Nat) (f : List Nat → ValueTypeU), (do
      let bs ← (do let l ← G.many bindingG n; Pure.pure (l.flatMap fun b => [b.1, b.2]) : G (List Nat))
      Pure.pure (f bs) : G ValueTypeU) =
      (do let l ← G.many bindingG n; Pure.pure (f (l.flatMap fun b => [b.1, b.2])) : G ValueTypeU) := by
    intro n f; funext c k a c'; exact propext (this n f c k a c')
  simp only [e]

theorem readVirtualType : Sem readVirtualType virtualTypeG := bind uindex fun _ => bind (readFields _) fun _ => pure _
theorem readEnumType : Sem readEnumType enumTypeG :=
  bind readUstring fun _ => bind uindex fun _ => bind uindex fun _ => bind (readConstructs _) fun _ => pure _

theorem readTypeBody (t) : Sem (readTypeBody t) (typeBodyG t) := by
  obtain ⟨u, a, tp, k⟩ := t
  cases k
  case HFUN => exact bind readFuncType fun _ => pure _
  case HMETHOD => exact bind readFuncType fun _ => pure _
  case HOBJ => exact bind readObjType fun _ => pure _
  case HSTRUCT => exact bind readObjType fun _ => pure _
  case HREF => exact bind getType fun _ => pure _
  case HVIRTUAL => exact bind readVirtualType fun _ => pure _
  case HABSTRACT => exact bind readUstring fun _ => pure _
  case HENUM => exact bind readEnumType fun _ => pure _
  case HNULL => exact bind getType fun _ => pure _
  case HPACKED => exact bind getType fun _ => pure _
  all_goals exact pure _

/-- A condition that the decoder checks by recording an error, and the grammar by a guard. -/
theorem guardIf {P : Code → Prop} {α : Type} {b : Prop} [Decidable b] {x y : M α} {g : G α} {Q : Prop} (hQ : Q ↔ ¬ b)
    (hx : b → SemP P x noneG) (hy : ¬ b → SemP P y g) : SemP P (if b then x else y) (do G.guard Q; g) := by
  split
  · next h =>
    refine congr (hx h) ?_
    intro c k a c' _
    constructor
    · exact fun h => absurd h id
    · rintro ⟨_, _, _, _, rfl, ⟨rfl, h1, rfl⟩, _⟩; exact absurd h (hQ.1 h1)
  · next h =>
    refine congr (hy h) ?_
    intro c k a c' _
    constructor
    · intro h1; exact ⟨[], k, (), c, rfl, ⟨rfl, hQ.2 h, rfl⟩, h1⟩
    · rintro ⟨_, _, _, _, rfl, ⟨rfl, h1, rfl⟩, h2⟩; exact h2

theorem readType : Sem (readType ValueType.default) typeG := by
  rw [typeG_eq]
  refine bind (unwrap decodeU8) fun v => guardIf (by show v < 23 ↔ ¬ v ≥ 23; omega) (fun _ => ?_) (fun _ => bind (unwrapOpt _) fun k => readTypeBody _)
  refine never (fun _ _ _ _ _ h => h) ?_
  intro s a s' h
  obtain ⟨_, _, h1, h2⟩ := M.bind_eq_ok h
  cases h1; cases h2
  exact Good.recordError_errors _ _

theorem slice (st : Str) (cursor n : Nat) : Sem (do let tail ← sliceFrom st cursor; sliceTo tail n) (sliceG st cursor n) := by
  rw [sliceG_eq]
  unfold sliceFrom sliceTo
  by_cases h1 : isCharBoundary st cursor = true
  · by_cases h2 : isCharBoundary (st.drop cursor) n = true
    · rw [if_pos h1, pure_bind, if_pos h2]
      refine congr (pure _) ?_
      intro c k a c' _
      constructor
      · rintro ⟨rfl, rfl, rfl⟩; exact ⟨[], [], (), c', rfl, ⟨rfl, ⟨h1, h2⟩, rfl⟩, rfl, rfl, rfl⟩
      · rintro ⟨_, _, _, _, rfl, ⟨rfl, _, rfl⟩, rfl, rfl, rfl⟩; exact ⟨rfl, rfl, rfl⟩
    · rw [if_pos h1, pure_bind, if_neg h2]
      exact panic (by rintro c k a c' _ ⟨_, _, _, _, rfl, ⟨rfl, ⟨_, h⟩, rfl⟩, _⟩; exact h2 h)
  · rw [if_neg h1]
    exact panic (by rintro c k a c' _ ⟨_, _, _, _, rfl, ⟨rfl, ⟨h, _⟩, rfl⟩, _⟩; exact h1 h)

theorem gpos {α : Type} {b : Prop} [Decidable b] {g h : G α} {c k a c'} (hb : b) (x : g c k a c') :
    (if b then g else h) c k a c' := by rw [if_pos hb]; exact x

theorem gneg {α : Type} {b : Prop} [Decidable b] {g h : G α} {c k a c'} (hb : ¬ b) (x : h c k a c') :
    (if b then g else h) c k a c' := by rw [if_neg hb]; exact x

theorem readStringsLoop (st) : ∀ n cursor strs lens, Sem (readStringsLoop st n cursor strs lens)
    (do let l ← poolG st n cursor; Pure.pure (strs ++ l, lens ++ l.map List.length))
  | 0, cursor, strs, lens => by
    refine congr (pure (strs, lens)) ?_
    intro c k a c' _
    constructor
    · rintro ⟨rfl, rfl, rfl⟩; exact ⟨[], [], [], c', rfl, ⟨rfl, rfl, rfl⟩, rfl, by simp, rfl⟩
    · rintro ⟨_, _, _, _, rfl, ⟨rfl, rfl, rfl⟩, rfl, rfl, rfl⟩; exact ⟨rfl, by simp, rfl⟩
  | n + 1, cursor, strs, lens => by
    have h : Sem (Brass.readStringsLoop st (n + 1) cursor strs lens) (do
        let sz ← natG
        let s ← sliceG st cursor sz
        if cursor + sz ≥ st.length then Pure.pure (strs ++ [s], lens ++ [s.length])
        else do
          let l ← poolG st n (cursor + sz + 1)
          Pure.pure (strs ++ [s] ++ l, lens ++ [s.length] ++ l.map List.length)) := by
      unfold Brass.readStringsLoop
      refine bind uindex fun sz => ?_
      rw [← M.bind_assoc]
      exact bind (slice st cursor sz) fun s => ite (fun _ => pure _) (fun _ => readStringsLoop st n _ _ _)
    refine congr h ?_
    intro c k a c' _
    show _ ↔ (do
      let l ← (do
        let sz ← natG
        let s ← sliceG st cursor sz
        if cursor + sz ≥ st.length then Pure.pure [s]
        else do
          let l ← poolG st n (cursor + sz + 1)
          Pure.pure (s :: l) : G (List Str))
      Pure.pure (strs ++ l, lens ++ l.map List.length) : G _) c k a c'
    constructor
    · rintro ⟨k1, _, sz, c1, rfl, h1, k2, k3, s, c2, rfl, h2, h3⟩
      split at h3
      · next hc =>
        obtain ⟨rfl, rfl, rfl⟩ := h3
        refine ⟨k1 ++ k2, [], [s], c', by simp, ⟨k1, k2, sz, c1, rfl, h1, k2, [], s, c', by simp, h2, ?_⟩, rfl, by simp, rfl⟩
        exact gpos hc ⟨rfl, rfl, rfl⟩
      · next hc =>
        obtain ⟨k4, _, l, c3, rfl, h4, rfl, rfl, rfl⟩ := h3
        refine ⟨k1 ++ (k2 ++ k4), [], s :: l, c', by simp, ⟨k1, k2 ++ k4, sz, c1, rfl, h1, k2, k4, s, c2, rfl, h2, ?_⟩, rfl, by simp, rfl⟩
        exact gneg hc ⟨k4, [], l, c', by simp, h4, rfl, rfl, rfl⟩
    · rintro ⟨_, _, _, _, rfl, ⟨k1, _, sz, c1, rfl, h1, k2, k3, s, c2, rfl, h2, h3⟩, rfl, rfl, rfl⟩
      refine ⟨k1, k2 ++ k3, sz, c1, by simp, h1, k2, k3, s, c2, rfl, h2, ?_⟩
      split at h3
      · next hc =>
        obtain ⟨rfl, rfl, rfl⟩ := h3
        exact gpos hc ⟨rfl, rfl, rfl⟩
      · next hc =>
        obtain ⟨k4, _, l, c3, rfl, h4, rfl, rfl, rfl⟩ := h3
        exact gneg hc ⟨k4, [], l, _, by simp, h4, rfl, by simp, rfl⟩

theorem readStrings (n) : Sem (readStrings n) (do let l ← stringsG n; Pure.pure (l, l.map List.length)) := by
  have h : Sem (Brass.readStrings n) (do
      let size ← i32G
      G.guard (0 ≤ size)
      let blob ← bytesG size.toNat
      let l ← poolG (fromUtf8Lossy blob) n 0
      Pure.pure (l, l.map List.length)) := by
    refine bind (unwrap decodeI32) fun size => guardIf (by omega) (fun _ => panic (fun _ _ _ _ _ h => h))
      (fun _ => bind (peekAdvance _) fun b => ?_)
    have := readStringsLoop (fromUtf8Lossy b) n 0 [] []
    simpa only [List.nil_append] using this
  rw [stringsG_eq]
  refine congr h ?_
  intro c k a c' _
  constructor
  · rintro ⟨k1, _, sz, c1, rfl, h1, k2, _, _, c2, rfl, h2, k3, _, b, c3, rfl, h3, k4, _, l, c4, rfl, h4, rfl, rfl, rfl⟩
    exact ⟨k1 ++ (k2 ++ (k3 ++ k4)), [], l, _, by simp, ⟨k1, _, sz, c1, rfl, h1, k2, _, (), c2, rfl, h2, k3, _, b, c3, rfl, h3, h4⟩, rfl, rfl, rfl⟩
  · rintro ⟨_, _, l, _, rfl, ⟨k1, _, sz, c1, rfl, h1, k2, _, _, c2, rfl, h2, k3, k4, b, c3, rfl, h3, h4⟩, rfl, rfl, rfl⟩
    exact ⟨k1, _, sz, c1, by simp, h1, k2, _, (), c2, rfl, h2, k3, k4, b, c3, rfl, h3, k4, [], l, _, by simp, h4, rfl, rfl, rfl⟩

theorem readExtra {rd : M Int} {g : G Int} (h : Sem rd g) (n) : Sem (readExtra rd n) (extraG g n) := by
  have := pushLoop h (List.replicate n 0) n []
  simp only [List.nil_append, List.length_nil] at this
  exact this

theorem uindexI : Sem uindexI natIG := bind uindex fun _ => pure _
theorem readCallLike (r) : Sem (readCallLike r) (callLikeG r) :=
  bind index fun _ => bind index fun _ => bind (unwrap decodeU8) fun _ => bind (readExtra index _) fun _ => pure _
theorem readSwitch (r) : Sem (readSwitch r) (switchG r) :=
  bind uindexI fun _ => bind uindex fun _ => bind (readExtra uindexI _) fun _ => bind uindexI fun _ => pure _

theorem readOperands (r i) : Sem (readOperands r i) (operandsG r i) := by
  unfold Brass.readOperands operandsG
  refine ite (fun _ => pure _) fun _ => ite (fun _ => bind index fun _ => pure _) fun _ =>
    ite (fun _ => bind index fun _ => bind index fun _ => pure _) fun _ =>
    ite (fun _ => bind index fun _ => bind index fun _ => bind index fun _ => pure _) fun _ =>
    ite (fun _ => bind index fun _ => bind index fun _ => bind index fun _ => bind index fun _ => pure _) fun _ =>
    ite (fun _ => ?_) fun _ => bind index fun _ => bind index fun _ => bind index fun _ =>
    guardIf (by omega) (fun _ => panic (fun _ _ _ _ _ h => h)) (fun _ => bind (readExtra index _) fun _ => pure _)
  obtain ⟨op, a, b, c, d⟩ := r
  cases op
  case OCallN => exact readCallLike _
  case OCallClosure => exact readCallLike _
  case OCallMethod => exact readCallLike _
  case OCallThis => exact readCallLike _
  case OMakeEnum => exact readCallLike _
  case OSwitch => exact readSwitch _
  all_goals exact failAt _ (fun _ _ _ _ _ h => h)

theorem readOpcode : Sem readOpcode opcodeG :=
  opcodeG_eq ▸ bind (unwrap decodeU8) fun n => guardIf (by omega) (fun _ => setErrorThen _ (fun _ => Good.pure _))
    (fun _ => bind (unwrapOpt _) fun _ => bind (unwrapOpt _) fun _ => readOperands _ _)
theorem readOpcodes (n) : Sem (readOpcodes n) (G.many opcodeG n) := pushLoop0 (unwrap readOpcode) n

end Sem

end Verif.Brass
