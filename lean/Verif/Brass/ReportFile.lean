import Verif.Brass.ReportDebug

/-!
# The errors of whole files (C87)
-/

namespace Verif.Brass

open Verif Verif.Brass.Spec

/-- `x`, started without a recorded error, ends with `Err(e)` exactly if `E` holds of the module, the rest of the file, the
position and `e`. -/
def Errs {α : Type} (x : M α) (E : Code → List UInt8 → Nat → DecodeError → Prop) : Prop :=
  ∀ c buf pos e, (∃ s', x ⟨buf, pos, c, none⟩ = .err e s') ↔ E c buf pos e

/-- `x` does not return `Ok` with a recorded error. -/
def Clean {α : Type} (x : M α) : Prop := ∀ s a s', x s = .ok a s' → s.errors = none → s'.errors = none

/-- After a phrase of `g`, `E`. -/
def Then {α ε : Type} (g : G α) (E : α → Code → List UInt8 → Nat → ε → Prop) (c : Code) (buf : List UInt8) (pos : Nat)
    (e : ε) : Prop :=
  ∃ k rest a c', buf = k ++ rest ∧ g c k a c' ∧ E a c' rest (pos + k.length) e

/-- The faults of a section. -/
def InF {α : Type} (f : F α) (c : Code) (buf : List UInt8) (pos : Nat) (e : DecodeError) : Prop :=
  ∃ w rest a c', buf = text w ++ rest ∧ f.parse c false w a c' ∧ reported (faults pos w) = some e

namespace Clean

theorem pure {α : Type} (a : α) : Clean (Pure.pure a : M α) := by rintro s b s' h h'; cases h; exact h'
theorem pure' {α : Type} (a : α) : Clean (M.pure a : M α) := pure a
theorem panic {α : Type} : Clean (M.panic : M α) := by rintro s b s' h; cases h
theorem failAt {α : Type} (k) : Clean (M.failAt k : M α) := by rintro s b s' h; cases h
theorem bind {α β : Type} {x : M α} {f : α → M β} (hx : Clean x) (hf : ∀ a, Clean (f a)) : Clean (x >>= f) := by
  rintro s b s' h h'
  obtain ⟨a, s1, h1, h2⟩ := M.bind_eq_ok h
  exact hf _ _ _ _ h2 (hx _ _ _ h1 h')
theorem ite {α : Type} {b : Prop} [Decidable b] {x y : M α} (hx : Clean x) (hy : Clean y) : Clean (if b then x else y) := by
  split
  · exact hx
  · exact hy
theorem checkError : Clean M.checkError := by
  rintro s b s' h h'
  unfold M.checkError at h
  rw [h'] at h
  cases h; exact h'
theorem checked {α : Type} (x : M α) : Clean (checked x) := by
  rintro s b s' h _
  obtain ⟨a, s1, h1, h2⟩ := M.bind_eq_ok h
  obtain ⟨_, s2, h3, h4⟩ := M.bind_eq_ok h2
  unfold M.checkError at h3
  split at h3 <;> cases h3
  cases h4
  assumption
theorem ofSilent {α : Type} {x : M α} (h : Silent x) : Clean x := by
  rintro s a s' e e'
  have h2 := h s s.errors
  rw [show ({ s with errors := s.errors } : St) = s from rfl, e] at h2
  have h2 : Out.ok a s' = Out.ok a { s' with errors := s.errors } := h2
  injection h2 with _ h2
  rw [h2]; exact e'
theorem forRange {β : Type} {f : Nat → β → M β} (hf : ∀ i b, Clean (f i b)) : ∀ n a b, Clean (M.forRange f a n b)
  | 0, _, _ => pure _
  | n + 1, _, _ => bind (hf _ _) fun _ => forRange hf n _ _

end Clean

namespace NoErr

theorem mapErrAt (k) : NoErr (M.mapErrAt k) := by intro s e s' h; cases h
theorem uindexIf (b) : NoErr (uindexIf b) := ite uindex (pure' _)
theorem readCounts (v) : NoErr (readCounts v) :=
  bind uindex fun _ => bind uindex fun _ => bind uindex fun _ => bind uindex fun _ => bind (uindexIf _) fun _ => bind uindex fun _ =>
  bind uindex fun _ => bind uindex fun _ => bind uindex fun _ => bind (uindexIf _) fun _ => bind uindex fun _ => pure _
theorem push {α : Type} {rd : M α} (h : NoErr rd) (n) (a) (v : List α) :
    NoErr (M.forRange (fun i v => do let x ← rd; M.insertAt v i x) a n v) :=
  forRange (fun _ _ => bind h fun _ => insertAt _ _ _) _ _ _
theorem readBytesPos (n) : NoErr (readBytesPos n) := push uindex _ _ _
theorem readConstant : NoErr readConstant := bind uindex fun _ => bind uindex fun _ => bind (push uindex _ _ _) fun _ => pure _
theorem readField : NoErr readField := bind readUstring fun _ => bind getType fun _ => pure _
theorem readProto : NoErr readProto := bind readUstring fun _ => bind uindex fun _ => bind index fun _ => pure _
theorem readConstruct : NoErr readConstruct := bind readUstring fun _ => bind uindex fun _ => bind (readTypeRefs _) fun _ => pure _
theorem readBindings (n) : NoErr (readBindings n) :=
  forRange (fun _ _ => bind uindex fun _ => bind (insertAt _ _ _) fun _ => bind uindex fun _ => insertAt _ _ _) _ _ _
theorem readSuper : NoErr readSuper := bind index fun _ => ite (pure _) (bind getCode fun _ => unwrapOpt _)
theorem readFuncType : NoErr readFuncType := bind (unwrap _) fun _ => bind (readTypeRefs _) fun _ => bind getType fun _ => pure _
theorem readObjType : NoErr readObjType :=
  bind readUstring fun _ => bind readSuper fun _ => bind uindex fun _ => bind uindex fun _ => bind uindex fun _ => bind uindex fun _ =>
  bind (push readField _ _ _) fun _ => bind (push readProto _ _ _) fun _ => bind (readBindings _) fun _ => pure _
theorem readVirtualType : NoErr readVirtualType := bind uindex fun _ => bind (push readField _ _ _) fun _ => pure _
theorem readEnumType : NoErr readEnumType :=
  bind readUstring fun _ => bind uindex fun _ => bind uindex fun _ => bind (push readConstruct _ _ _) fun _ => pure _
theorem readTypeBody (t) : NoErr (readTypeBody t) := by
  obtain ⟨u, a, tp, k⟩ := t
  cases k
  case HFUN => exact bind readFuncType fun _ => pure _
  case HMETHOD => exact bind readFuncType fun _ => pure _
  case HOBJ => exact bind readObjType fun _ => pure _
  case HSTRUCT => exact bind readObjType fun _ => pure _
  case HREF => exact bind getType fun _ => pure _
  case HVIRTUAL => exact bind readVirtualType fun _ => pure _
  case HABSTRACT => exact bind readUstring fun _ => pure _
  case HENUM => exact bind readEnumType fun _ => pure _
  case HNULL => exact bind getType fun _ => pure _
  case HPACKED => exact bind getType fun _ => pure _
  all_goals exact pure _
theorem readType (t) : NoErr (readType t) :=
  bind (unwrap _) fun _ => ite (bind (mapErrAt _) fun _ => pure _) (bind (unwrapOpt _) fun _ => readTypeBody _)
theorem readTypes (c) : NoErr (readTypes c) :=
  forRange (fun _ _ => bind (setCode _) fun _ => bind (readType _) fun _ => bind getCode fun _ => bind (insertAt _ _ _) fun _ =>
    bind (setCode _) fun _ => pure _) _ _ _
theorem readGlobalsStep (i c) : NoErr (readGlobalsStep i c) :=
  bind (setCode _) fun _ => bind getType fun _ => bind getCode fun _ => bind (insertAt _ _ _) fun _ => bind (setCode _) fun _ => pure _
theorem readNativesStep (i c) : NoErr (readNativesStep i c) :=
  bind (bind readString fun _ => bind readString fun _ => bind getType fun _ => bind uindex fun _ => pure _) fun _ =>
    bind (setCode _) fun _ => pure _
theorem okOrRecord {α : Type} (x : M α) : NoErr (M.okOrRecord x) := by
  intro s e s' h
  unfold M.okOrRecord at h
  split at h <;> cases h
theorem storeDebug (i o) : NoErr (storeDebug i o) := by
  cases o
  · exact pure' _
  · exact bind getCode fun _ => bind (unwrapOpt _) fun _ => setCode _
theorem skipAssignsIf (b) : NoErr (skipAssignsIf b) :=
  ite (bind uindex fun _ => forRange (fun _ _ => bind uindex fun _ => bind index fun _ => pure _) _ _ _) (pure' _)
theorem readFunctionDebug (p i) : NoErr (readFunctionDebug p i) :=
  bind getCode fun _ => ite (bind (unwrapOpt _) fun _ => bind (okOrRecord _) fun _ => bind (storeDebug _ _) fun _ =>
    bind getCode fun _ => skipAssignsIf _) (pure _)
theorem readFunctionsStep (p i c) : NoErr (readFunctionsStep p i c) :=
  bind (setCode _) fun _ => bind readFunction fun _ => bind getCode fun _ => bind (setCode _) fun _ =>
    bind (readFunctionDebug _ _) fun _ => getCode

end NoErr

namespace Errs

theorem congr {α : Type} {x : M α} {E E' : Code → List UInt8 → Nat → DecodeError → Prop} (h : Errs x E)
    (e : ∀ c buf pos e, E c buf pos e ↔ E' c buf pos e) : Errs x E' :=
  fun c buf pos e' => (h c buf pos e').trans (e c buf pos e')

theorem never {α : Type} {x : M α} (h : NoErr x) : Errs x (fun _ _ _ _ => False) :=
  fun _ _ _ _ => ⟨fun ⟨_, h'⟩ => h _ _ _ h', False.elim⟩

theorem bind {α β : Type} {x : M α} {f : α → M β} {g : G α} {E : Code → List UInt8 → Nat → DecodeError → Prop}
    {E' : α → Code → List UInt8 → Nat → DecodeError → Prop} (hs : Sem x g) (hc : Clean x) (hx : Errs x E)
    (hf : ∀ a, (∃ c k c', g c k a c') → Errs (f a) (E' a)) :
    Errs (x >>= f) (fun c buf pos e => E c buf pos e ∨ Then g E' c buf pos e) := by
  intro c buf pos e
  constructor
  · rintro ⟨s', h⟩
    rw [M.bind_def] at h
    split at h
    · next a s1 h1 =>
      have hn := hc _ _ _ h1 rfl
      obtain ⟨_, k, b, q, r⟩ := hs.sound _ _ _ trivial h1 hn
      refine .inr ⟨k, s1.buf, a, s1.code, b, r, ?_⟩
      have q : s1.pos = pos + k.length := q
      rw [← q]
      refine (hf a ⟨_, _, _, r⟩ _ _ _ _).1 ⟨s', ?_⟩
      rw [← hn]; exact h
    · next y s1 h1 =>
      cases h
      exact .inl ((hx _ _ _ _).1 ⟨_, h1⟩)
    · cases h
  · rintro (h | ⟨k, rest, a, c', rfl, hg, h⟩)
    · obtain ⟨s', h⟩ := (hx _ _ _ _).2 h
      exact ⟨s', by rw [M.bind_def, h]⟩
    · obtain ⟨s', h⟩ := (hf a ⟨_, _, _, hg⟩ _ _ _ _).2 h
      exact ⟨s', by rw [M.bind_ok (hs.complete _ _ _ _ trivial hg rest pos)]; exact h⟩

theorem checked {α : Type} {x : M α} {f : F α} (h : FSem x f) (n : NoErr x) : Errs (checked x) (InF f) := by
  intro c buf pos e
  unfold Brass.checked
  constructor
  · rintro ⟨s', h1⟩
    rw [M.bind_def] at h1
    split at h1
    · next a s1 h2 =>
      obtain ⟨w, b, q, r, t⟩ := h.sound _ _ _ h2
      refine ⟨w, s1.buf, a, s1.code, b, t, ?_⟩
      rw [← errAfter_none, ← show s1.errors = errAfter none pos w from r]
      rw [M.bind_def] at h1
      unfold M.checkError at h1
      cases he : s1.errors with
      | none => rw [he] at h1; cases h1
      | some y => rw [he] at h1; cases h1; rfl
    · next h2 => exact absurd h2 (n _ _ _)
    · cases h1
  · rintro ⟨w, rest, a, c', rfl, hf, hr⟩
    rw [← errAfter_none] at hr
    refine ⟨⟨rest, pos + (text w).length, c', some e⟩, ?_⟩
    rw [M.bind_ok (h.complete _ _ _ _ _ hf rest pos none rfl), hr]
    rfl

end Errs

/-! ## Magic and version -/

theorem u8_nil (pos c e) : M.unwrap decodeU8 ⟨[], pos, c, e⟩ = .panic := rfl

theorem u8_cons (b : UInt8) (t pos c e) : M.unwrap decodeU8 ⟨b :: t, pos, c, e⟩ = .ok b.toNat ⟨t, pos + 1, c, e⟩ := by
  show M.unwrap (decodeUnsigned 1) _ = _
  simp [M.unwrap, decodeUnsigned, M.bind_def, readBytes, leNat]

/-- Magic and version, with a module that has the version. -/
def readStart : M Code := do
  readMagic
  let v ← readVersion
  pure { Code.new with version := v }

/-- The errors of `readStart`. -/
def StartErr (buf : List UInt8) (pos : Nat) (e : DecodeError) : Prop :=
  (∃ pre rest b b', buf = pre ++ b :: rest ∧ pre ++ [b'] <+: [0x48, 0x4C, 0x42] ∧ b ≠ b' ∧
    e = ⟨.invalidBytecodeHeader, pos + (pre.length + 1)⟩) ∨
  ∃ b rest, buf = [0x48, 0x4C, 0x42, b] ++ rest ∧ (b.toNat < 2 ∨ 5 < b.toNat) ∧ e = ⟨.unsupportedBytecodeVersion, pos + 4⟩

theorem magic_prefix {pre : List UInt8} {b : UInt8} (h : pre ++ [b] <+: [0x48, 0x4C, 0x42]) :
    (pre = [] ∧ b = 0x48) ∨ (pre = [0x48] ∧ b = 0x4C) ∨ (pre = [0x48, 0x4C] ∧ b = 0x42) := by
  obtain ⟨t, ht⟩ := h
  match pre with
  | [] => simp at ht; exact .inl ⟨rfl, ht.1⟩
  | [x] => simp at ht; exact .inr (.inl ⟨by rw [ht.1], ht.2.1⟩)
  | [x, y] => simp at ht; exact .inr (.inr ⟨by rw [ht.1, ht.2.1], ht.2.2.1⟩)
  | x :: y :: z :: r => simp at ht

theorem readStart_err (c : Code) (er : Option DecodeError) (buf : List UInt8) (pos : Nat) (e : DecodeError) :
    (∃ s', readStart ⟨buf, pos, c, er⟩ = .err e s') ↔ StartErr buf pos e := by
  unfold readStart readMagic readVersion
  simp only [M.bind_assoc]
  have key : ∀ (b : UInt8) (n : Nat) (hn : n < 256), b.toNat = n ↔ b = UInt8.ofNat n := by
    intro b n hn
    constructor
    · rintro rfl; simp
    · rintro rfl; simp [Nat.mod_eq_of_lt hn]
  constructor
  · rintro ⟨s', h⟩
    match buf with
    | [] => rw [M.bind_def, u8_nil] at h; cases h
    | x :: t =>
      rw [M.bind_ok (u8_cons _ _ _ _ _)] at h
      by_cases hx : x.toNat = 0x48
      · rw [if_neg (by omega)] at h
        obtain rfl := (key _ _ (by decide)).1 hx
        match t with
        | [] => simp only [M.bind_assoc] at h; rw [M.bind_def, u8_nil] at h; cases h
        | y :: t =>
          simp only [M.bind_assoc] at h
          rw [M.bind_ok (u8_cons _ _ _ _ _)] at h
          by_cases hy : y.toNat = 0x4C
          · rw [if_neg (by omega)] at h
            obtain rfl := (key _ _ (by decide)).1 hy
            match t with
            | [] => simp only [M.bind_assoc] at h; rw [M.bind_def, u8_nil] at h; cases h
            | z :: t =>
              simp only [M.bind_assoc] at h
              rw [M.bind_ok (u8_cons _ _ _ _ _)] at h
              by_cases hz : z.toNat = 0x42
              · rw [if_neg (by omega)] at h
                obtain rfl := (key _ _ (by decide)).1 hz
                match t with
                | [] => cases h
                | v :: t =>
                  have h : (M.unwrap decodeU8 >>= fun v => (if v ≤ 1 ∨ v > 5 then M.failAt .unsupportedBytecodeVersion else Pure.pure v : M Nat) >>=
                      fun v => (Pure.pure { Code.new with version := v } : M Code)) ⟨v :: t, pos + 1 + 1 + 1, c, er⟩ = .err e s' := h
                  rw [M.bind_ok (u8_cons _ _ _ _ _)] at h
                  split at h
                  · next hv =>
                    cases h
                    exact .inr ⟨v, t, rfl, by omega, rfl⟩
                  · cases h
              · rw [if_pos hz] at h
                cases h
                exact .inl ⟨[0x48, 0x4C], t, z, 0x42, rfl, ⟨[], rfl⟩, fun h => hz (by rw [h]; rfl), rfl⟩
          · rw [if_pos hy] at h
            cases h
            exact .inl ⟨[0x48], t, y, 0x4C, rfl, ⟨[0x42], rfl⟩, fun h => hy (by rw [h]; rfl), rfl⟩
      · rw [if_pos hx] at h
        cases h
        exact .inl ⟨[], t, x, 0x48, rfl, ⟨[0x4C, 0x42], rfl⟩, fun h => hx (by rw [h]; rfl), rfl⟩
  · rintro (⟨pre, rest, b, b', rfl, hp, hb, rfl⟩ | ⟨b, rest, rfl, hb, rfl⟩)
    · rcases magic_prefix hp with ⟨rfl, rfl⟩ | ⟨rfl, rfl⟩ | ⟨rfl, rfl⟩
      · refine ⟨⟨rest, pos + 1, c, er⟩, ?_⟩
        rw [List.nil_append, M.bind_ok (u8_cons _ _ _ _ _), if_pos (fun h => hb ((key _ _ (by decide)).1 h))]
        rfl
      · refine ⟨⟨rest, pos + 1 + 1, c, er⟩, ?_⟩
        rw [show [0x48] ++ b :: rest = 0x48 :: b :: rest from rfl, M.bind_ok (u8_cons _ _ _ _ _), if_neg (by decide), M.bind_assoc,
          M.bind_ok (u8_cons _ _ _ _ _), if_pos (fun h => hb ((key _ _ (by decide)).1 h))]
        rfl
      · refine ⟨⟨rest, pos + 1 + 1 + 1, c, er⟩, ?_⟩
        rw [show [0x48, 0x4C] ++ b :: rest = 0x48 :: 0x4C :: b :: rest from rfl, M.bind_ok (u8_cons _ _ _ _ _), if_neg (by decide),
          M.bind_assoc, M.bind_ok (u8_cons _ _ _ _ _), if_neg (by decide), M.bind_assoc, M.bind_ok (u8_cons _ _ _ _ _),
          if_pos (fun h => hb ((key _ _ (by decide)).1 h))]
        rfl
    · refine ⟨⟨rest, pos + 1 + 1 + 1 + 1, c, er⟩, ?_⟩
      rw [show [0x48, 0x4C, 0x42, b] ++ rest = 0x48 :: 0x4C :: 0x42 :: b :: rest from rfl, M.bind_ok (u8_cons _ _ _ _ _), if_neg (by decide),
        M.bind_assoc, M.bind_ok (u8_cons _ _ _ _ _), if_neg (by decide), M.bind_assoc, M.bind_ok (u8_cons _ _ _ _ _), if_neg (by decide)]
      rw [M.bind_ok (show (Pure.pure () : M Unit) _ = .ok () _ from rfl), M.bind_ok (u8_cons _ _ _ _ _), if_pos (by omega)]
      rfl

theorem readStart_sem : Sem readStart upToCountsG := Sem.bind Sem.readMagic fun _ => Sem.bind Sem.readVersion fun _ => Sem.pure _

theorem readStart_silent : Silent readStart :=
  .bind (.bind Silent.decodeU8.unwrap fun _ => .ite (.failAt _) (.bind Silent.decodeU8.unwrap fun _ => .ite (.failAt _)
    (.bind Silent.decodeU8.unwrap fun _ => .ite (.failAt _) (.pure _)))) fun _ =>
    .bind (.bind Silent.decodeU8.unwrap fun _ => .ite (.failAt _) (.pure _)) fun _ => .pure _

theorem readStart_clean : Clean readStart := .ofSilent readStart_silent

/-! ## The pools -/

/-- The file ends in one of `n` things of `sz` bytes. -/
def NoMore (sz n : Nat) (buf : List UInt8) (pos : Nat) (e : DecodeError) : Prop :=
  ∃ i m r, buf = m ++ r ∧ i < n ∧ m.length = sz * i ∧ r.length < sz ∧ e = ⟨.noMoreData, pos + m.length⟩

theorem noMore_iff {sz : Nat} (h : 0 < sz) (n buf pos e) :
    NoMore sz n buf pos e ↔ buf.length < sz * n ∧ e = ⟨.noMoreData, pos + sz * (buf.length / sz)⟩ := by
  constructor
  · rintro ⟨i, m, r, rfl, hi, hm, hr, rfl⟩
    have : (m ++ r).length / sz = i := by
      rw [List.length_append, hm, Nat.mul_add_div h, Nat.div_eq_of_lt hr, Nat.add_zero]
    rw [this, hm]
    refine ⟨?_, rfl⟩
    rw [List.length_append, hm]
    calc sz * i + r.length < sz * i + sz := by omega
      _ = sz * (i + 1) := by rw [Nat.mul_succ]
      _ ≤ sz * n := Nat.mul_le_mul_left _ hi
  · rintro ⟨h1, rfl⟩
    have h2 : sz * (buf.length / sz) ≤ buf.length := Nat.mul_div_le _ _
    have h3 := Nat.mod_lt buf.length h
    have h4 := Nat.div_add_mod buf.length sz
    refine ⟨buf.length / sz, buf.take (sz * (buf.length / sz)), buf.drop (sz * (buf.length / sz)), (List.take_append_drop _ _).symm, ?_, ?_, ?_, ?_⟩
    · exact Nat.div_lt_of_lt_mul h1
    · rw [List.length_take]; omega
    · rw [List.length_drop]; omega
    · rw [List.length_take, Nat.min_eq_left h2]

/-- `rd` reads `sz` bytes. -/
def ReadsN {α : Type} (rd : M α) (sz : Nat) : Prop :=
  (∀ s : St, sz ≤ s.buf.length → ∃ a, rd s = .ok a { s with buf := s.buf.drop sz, pos := s.pos + sz }) ∧
  ∀ s : St, s.buf.length < sz → rd s = .err ⟨.noMoreData, s.pos⟩ s

theorem ReadsN.bytes {α : Type} (sz : Nat) (f : List UInt8 → α) : ReadsN (do let b ← readBytes sz; Pure.pure (f b) : M α) sz := by
  constructor
  · intro s h
    refine ⟨f (s.buf.take sz), ?_⟩
    rw [M.bind_def, readBytes, if_neg (by omega)]
    rfl
  · intro s h
    rw [M.bind_def, readBytes, if_pos h]

theorem ReadsN.decodeI32 : ReadsN decodeI32 4 := .bytes _ _
theorem ReadsN.decodeF64 : ReadsN decodeF64 8 := .bytes _ _

/-- One round of `readPool`. -/
def poolStep {α : Type} (rd : M α) (i : Nat) (v : List α) : M (List α) := do
  let x ← M.okOrRecord rd
  insertIfSome v i x

theorem poolStep_stuck {α : Type} {rd : M α} {sz : Nat} (h : ReadsN rd sz) (s : St) (hs : s.buf.length < sz) (e) (he : s.errors = some e) :
    ∀ n a v, M.forRange (poolStep rd) a n v s = .ok v s
  | 0, _, _ => rfl
  | n + 1, a, v => by
    have : poolStep rd a v s = .ok v s := by
      unfold poolStep
      have : M.okOrRecord rd s = .ok none s := by
        unfold M.okOrRecord
        rw [h.2 s hs]
        simp only [M.recordError, he]
      rw [M.bind_ok this]
      rfl
    show (poolStep rd a v >>= fun v => M.forRange (poolStep rd) (a + 1) n v) s = _
    rw [M.bind_ok this]
    exact poolStep_stuck h s hs e he n _ _

theorem poolStep_result {α : Type} {rd : M α} {sz : Nat} (h : ReadsN rd sz) (hz : 0 < sz) : ∀ n (v : List α) (s : St), s.errors = none →
    ∃ v' s', M.forRange (poolStep rd) v.length n v s = .ok v' s' ∧
      s'.errors = if s.buf.length < sz * n then some ⟨.noMoreData, s.pos + sz * (s.buf.length / sz)⟩ else none
  | 0, v, s, he => ⟨v, s, rfl, by rw [if_neg (by omega)]; exact he⟩
  | n + 1, v, s, he => by
    by_cases hs : s.buf.length < sz
    · have h1 : poolStep rd v.length v s = .ok v { s with errors := some ⟨.noMoreData, s.pos⟩ } := by
        unfold poolStep
        have : M.okOrRecord rd s = .ok none { s with errors := some ⟨.noMoreData, s.pos⟩ } := by
          unfold M.okOrRecord
          rw [h.2 s hs]
          simp only [M.recordError, he]
        rw [M.bind_ok this]
        rfl
      refine ⟨v, { s with errors := some ⟨.noMoreData, s.pos⟩ }, ?_, ?_⟩
      · show (poolStep rd _ v >>= fun v => M.forRange (poolStep rd) _ n v) s = _
        rw [M.bind_ok h1]
        exact poolStep_stuck (s := { s with errors := some ⟨.noMoreData, s.pos⟩ }) h hs _ rfl n _ _
      · have : sz ≤ sz * (n + 1) := Nat.le_mul_of_pos_right _ (by omega)
        rw [if_pos (by omega), Nat.div_eq_of_lt hs]
        rfl
    · obtain ⟨a, ha⟩ := h.1 s (by omega)
      have h1 : poolStep rd v.length v s = .ok (v ++ [a]) { s with buf := s.buf.drop sz, pos := s.pos + sz } := by
        unfold poolStep
        have : M.okOrRecord rd s = .ok (some a) { s with buf := s.buf.drop sz, pos := s.pos + sz } := by
          unfold M.okOrRecord
          rw [ha]
        rw [M.bind_ok this]
        show M.insertAt v v.length a _ = _
        rw [Sem.insertAt_ok _ _ _ rfl]
        rfl
      obtain ⟨v', s', h2, h3⟩ := poolStep_result h hz n (v ++ [a]) { s with buf := s.buf.drop sz, pos := s.pos + sz } he
      refine ⟨v', s', ?_, ?_⟩
      · show (poolStep rd _ v >>= fun v => M.forRange (poolStep rd) _ n v) s = _
        rw [M.bind_ok h1]
        rw [List.length_append] at h2
        exact h2
      · rw [h3]
        simp only [List.length_drop]
        have e1 : s.buf.length - sz < sz * n ↔ s.buf.length < sz * (n + 1) := by rw [Nat.mul_succ]; omega
        have e2 : s.pos + sz + sz * ((s.buf.length - sz) / sz) = s.pos + sz * (s.buf.length / sz) := by
          have : s.buf.length / sz = (s.buf.length - sz) / sz + 1 := by
            rw [← Nat.add_div_right _ hz, Nat.sub_add_cancel (by omega)]
          rw [this, Nat.mul_succ]; omega
        rw [e2]
        by_cases hh : s.buf.length < sz * (n + 1)
        · rw [if_pos hh, if_pos (e1.2 hh)]
        · rw [if_neg hh, if_neg (fun x => hh (e1.1 x))]

theorem Errs.readPool {α : Type} {rd : M α} {sz : Nat} (h : ReadsN rd sz) (hz : 0 < sz) (n) :
    Errs (Brass.checked (readPool rd n)) (fun _ => NoMore sz n) := by
  intro c buf pos e
  refine Iff.trans ?_ (noMore_iff hz n buf pos e).symm
  obtain ⟨v', s', h1, h2⟩ := poolStep_result h hz n [] ⟨buf, pos, c, none⟩ rfl
  have h1 : Brass.readPool rd n ⟨buf, pos, c, none⟩ = .ok v' s' := h1
  simp only at h2
  unfold Brass.checked
  rw [M.bind_ok h1, M.bind_def, M.checkError, h2]
  by_cases hb : buf.length < sz * n
  · rw [if_pos hb]
    constructor
    · rintro ⟨_, h⟩; cases h; exact ⟨hb, rfl⟩
    · rintro ⟨_, rfl⟩; exact ⟨_, rfl⟩
  · rw [if_neg hb]
    constructor
    · rintro ⟨_, h⟩; cases h
    · rintro ⟨h, _⟩; exact absurd h hb

/-- The errors of `readPools`. -/
def PoolsErr (c : Code) (d : Code) (buf : List UInt8) (pos : Nat) (e : DecodeError) : Prop :=
  NoMore 4 c.nints buf pos e ∨ Then (G.many i32G c.nints) (fun _ d buf pos e => NoMore 8 c.nfloats buf pos e ∨
    Then (G.many f64G c.nfloats) (fun _ => InF (stringsF c.nstrings)) d buf pos e) d buf pos e

theorem InF_map {α β : Type} (f : F α) (m : α → β) (c buf pos e) :
    InF (do let a ← f; Pure.pure (m a)) c buf pos e ↔ InF f c buf pos e := by
  constructor
  · rintro ⟨_, rest, _, _, rfl, ⟨w, _, a, c', rfl, h, rfl, rfl, rfl⟩, hr⟩
    exact ⟨w, rest, a, _, by simp, h, by simpa using hr⟩
  · rintro ⟨w, rest, a, c', rfl, h, hr⟩
    exact ⟨w, rest, m a, c', rfl, ⟨w, [], a, c', by simp, h, rfl, rfl, rfl⟩, hr⟩

theorem Errs.readPools (c) : Errs (readPools c) (PoolsErr c) := by
  unfold Brass.readPools PoolsErr
  refine bind (.checked (Sem.readPool Good.decodeI32 Sem.decodeI32 _)) (.checked _) (.readPool .decodeI32 (by decide) _) fun ints _ => ?_
  refine bind (.checked (Sem.readPool Good.decodeF64 Sem.decodeF64 _)) (.checked _) (.readPool .decodeF64 (by decide) _) fun floats _ => ?_
  have h1 := Errs.checked (.ofSim (.okOrRecord (.readStrings _)) (.okOrRecord (.readStrings c.nstrings) (.readStrings _) (.readStrings _))) (.okOrRecord _)
  refine congr (bind (.checked (Sem.okOrRecord (Sem.readStrings _))) (.checked _) h1 fun r _ => .never (.pure _)) ?_
  intro d buf pos e
  rw [InF_map, InF_map]
  constructor
  · rintro (h | ⟨_, _, _, _, _, _, h⟩)
    · exact h
    · exact h.elim
  · exact .inl

/-! ## The byte table and the debug files -/

/-- A byte table up to its positions. -/
def blobG : G (List UInt8) := do
  let size ← i32G
  G.guard (0 ≤ size)
  bytesG size.toNat

/-- The errors of `readBytesSection`. -/
def BytesErr (c : Code) (d : Code) (buf : List UInt8) (pos : Nat) (e : DecodeError) : Prop :=
  5 ≤ c.version ∧ ((buf.length < 4 ∧ e = ⟨.noMoreData, pos⟩) ∨ Then blobG (fun _ => InF (F.many natF c.nbytes)) d buf pos e)

theorem Errs.decodeI32 : Errs decodeI32 (fun _ buf pos e => buf.length < 4 ∧ e = ⟨.noMoreData, pos⟩) := by
  intro c buf pos e
  by_cases h : buf.length < 4
  · constructor
    · rintro ⟨s', h1⟩
      rw [ReadsN.decodeI32.2 _ h] at h1
      cases h1
      exact ⟨h, rfl⟩
    · rintro ⟨_, rfl⟩
      exact ⟨_, ReadsN.decodeI32.2 _ h⟩
  · constructor
    · rintro ⟨s', h1⟩
      obtain ⟨a, h2⟩ := ReadsN.decodeI32.1 ⟨buf, pos, c, none⟩ (by show 4 ≤ buf.length; omega)
      rw [h2] at h1
      cases h1
    · rintro ⟨h', _⟩; exact absurd h' h

/-- The byte table up to its positions. -/
def readBlob : M (List UInt8) := do
  let size ← decodeI32
  if size < 0 then M.panic else M.unwrap (readBytes size.toNat)

theorem readBlob_sem : Sem readBlob blobG :=
  Sem.bind Sem.decodeI32 fun _ => Sem.guardIf (by omega) (fun _ => Sem.panic (fun _ _ _ _ _ h => h)) fun _ => Sem.unwrap (Sem.readBytes _)

theorem readBlob_clean : Clean readBlob :=
  .ofSilent (.bind .decodeI32 fun _ => .ite .panic (Silent.readBytes _).unwrap)

theorem readBlob_errs : Errs readBlob (fun _ buf pos e => buf.length < 4 ∧ e = ⟨.noMoreData, pos⟩) :=
  .congr (.bind .decodeI32 (.ofSilent .decodeI32) .decodeI32 fun _ _ => .never (.ite .panic (.unwrap _))) fun _ _ _ _ =>
    ⟨fun h => h.elim id (fun ⟨_, _, _, _, _, _, h⟩ => h.elim), .inl⟩

theorem readBytesSection_eq (c : Code) : readBytesSection c = if c.version ≥ 5 then do
    let bytes ← readBlob
    let bytesPos ← checked (readBytesPos c.nbytes)
    pure { c with ustrings := List.replicate c.nstrings none, bytes := bytes, bytesPos := bytesPos }
  else pure { c with ustrings := List.replicate c.nstrings none } := by
  unfold readBytesSection readBlob
  simp only [M.bind_assoc]
  split
  · congr 1; funext size
    split <;> rfl
  · rfl

theorem Errs.readBytesSection (c) : Errs (readBytesSection c) (BytesErr c) := by
  rw [readBytesSection_eq]
  unfold BytesErr
  by_cases h : c.version ≥ 5
  · rw [if_pos h]
    refine congr (bind readBlob_sem readBlob_clean readBlob_errs fun _ _ =>
      bind (.checked (Sem.readBytesPos _)) (.checked _) (.checked (.ofSim (.readBytesPos _) (.readBytesPos _)) (.readBytesPos _)) fun _ _ => .never (.pure _)) ?_
    intro d buf pos e
    constructor
    · rintro (h1 | ⟨k, r, a, c', rfl, h1, (h2 | ⟨_, _, _, _, _, _, h⟩)⟩)
      · exact ⟨h, .inl h1⟩
      · exact ⟨h, .inr ⟨k, r, a, c', rfl, h1, h2⟩⟩
      · exact h.elim
    · rintro ⟨_, (h1 | ⟨k, r, a, c', rfl, h1, h2⟩)⟩
      · exact .inl h1
      · exact .inr ⟨k, r, a, c', rfl, h1, .inl h2⟩
  · rw [if_neg h]
    exact congr (never (.pure _)) fun _ _ _ _ => ⟨False.elim, fun h' => absurd h'.1 h⟩

theorem Clean.readBytesSection (c) : Clean (readBytesSection c) := by
  rw [readBytesSection_eq]
  exact ite (bind readBlob_clean fun _ => bind (checked _) fun _ => pure _) (pure _)

namespace FKeeps

variable {β : Type} {f : Code → β}

theorem poolF (st) : ∀ n cursor, FKeeps f (poolF st n cursor)
  | 0, _ => pure _
  | n + 1, _ => bind natF fun _ => bind (ok (KeepsOn.sliceG _ _ _)) fun _ => ite (pure _) (bind (poolF st n _) fun _ => pure _)
theorem stringsF (n) : FKeeps f (stringsF n) :=
  bind (ok .i32G) fun _ => bind (ok (.guard _)) fun _ => bind (ok (.bytesG _)) fun b => by
    rw [F_lossy, F_pure_bind]; exact poolF _ _ _

end FKeeps

/-- The names of the debug files, without the check. -/
def readDebugFiles' (c : Code) : M Code := do
  let n ← uindex
  let c := { c with ndebugfiles := n }
  M.setCode c
  let r ← M.okOrRecord (readStrings c.ndebugfiles)
  let d ← M.getCode
  let c := setDebugFiles d r
  M.setCode c
  pure c

theorem readDebugFiles_eq (c : Code) : readDebugFiles c = if c.hasdebug ≠ 0 then checked (readDebugFiles' c) else pure c := by
  unfold readDebugFiles readDebugFiles' checked
  simp only [M.bind_assoc]
  rfl

theorem Clean.readDebugFiles (c) : Clean (readDebugFiles c) := by
  rw [readDebugFiles_eq]
  exact ite (checked _) (pure _)

theorem NoErr.readDebugFiles' (c) : NoErr (readDebugFiles' c) :=
  bind uindex fun _ => bind (setCode _) fun _ => bind (okOrRecord _) fun _ => bind getCode fun _ => bind (setCode _) fun _ => pure _

/-- The names of the debug files, without the check. -/
def Par.readDebugFiles' (c : Code) : P Code := do
  let n ← Par.uindex
  let c := { c with ndebugfiles := n }
  P.setCode c
  let r ← P.okOrRecord (Par.readStrings c.ndebugfiles)
  let d ← P.getCode
  let c := setDebugFiles d r
  P.setCode c
  pure c

theorem Sim.readDebugFiles' (c) : Sim (Par.readDebugFiles' c) (readDebugFiles' c) :=
  bind uindex fun _ => bind (setCode _) fun _ => bind (okOrRecord (readStrings _)) fun _ => bind getCode fun _ => bind (setCode _) fun _ => pure _

/-- What `readDebugFiles'` reads. -/
def debugFilesF' (c : Code) : F Code := do
  let n ← natF
  F.ok (G.setCode { c with ndebugfiles := n })
  let l ← stringsF n
  let d ← F.ok G.code
  F.ok (G.setCode (setDebugFiles d (some (l, l.map List.length))))
  pure (setDebugFiles d (some (l, l.map List.length)))

theorem PSem.readDebugFiles' (c) : PSem (Par.readDebugFiles' c) (debugFilesF' c) := by
  have := (bind uindex fun n => bind (setCode { c with ndebugfiles := n }) fun _ => bind (okOrRecord (readStrings n) (.readStrings _) (.readStrings _))
      fun r => bind getCode fun d => bind (setCode (setDebugFiles d r)) fun _ => pure (setDebugFiles d r))
  simp only [F_bind_assoc, F_pure_bind] at this
  exact this

theorem Errs.readDebugFiles (c) : Errs (readDebugFiles c) (fun d buf pos e => c.hasdebug ≠ 0 ∧ InF debugFilesF d buf pos e) := by
  rw [readDebugFiles_eq]
  by_cases h : c.hasdebug ≠ 0
  · rw [if_pos h]
    refine congr (checked (.ofSim (.readDebugFiles' c) (.readDebugFiles' c)) (.readDebugFiles' c)) ?_
    intro d buf pos e
    unfold debugFilesF debugFilesF'
    constructor
    · rintro ⟨_, rest, _, _, rfl, ⟨w1, _, n, _, rfl, h1, _, _, _, _, rfl, ⟨_, rfl, rfl, rfl⟩, w2, _, l, _, rfl, h2, _, _, _, _, rfl, ⟨_, rfl, rfl, rfl, rfl⟩,
        _, _, _, _, rfl, ⟨_, rfl, rfl, rfl⟩, rfl, rfl, rfl⟩, hr⟩
      obtain ⟨rfl, e⟩ := (FKeeps.stringsF (f := fun _ => ()) _).parse _ _ _ _ _ h2
      simp only [plain_nil, List.append_nil, List.nil_append, EqAt.or_nil] at *
      exact ⟨h, w1 ++ w2, rest, l, _, rfl, ⟨w1, w2, n, _, rfl, h1, e _ trivial⟩, hr⟩
    · rintro ⟨_, _, rest, l, _, rfl, ⟨w1, w2, n, d', rfl, h1, h2⟩, hr⟩
      obtain ⟨rfl, e⟩ := (FKeeps.stringsF (f := fun _ => ()) _).parse _ _ _ _ _ h2
      refine ⟨w1 ++ w2, rest, _, _, rfl, ⟨w1, w2, n, _, rfl, h1, [], w2, (), _, rfl, ⟨[], rfl, rfl, rfl⟩, w2, [], l, _, by simp,
        (by simpa only [EqAt.or_nil] using e _ rfl), [], [], _, _, rfl, ⟨[], rfl, rfl, rfl, rfl⟩, [], [], (), _, rfl, ⟨[], rfl, rfl, rfl⟩, rfl, rfl, rfl⟩, hr⟩
  · rw [if_neg h]
    exact congr (never (.pure _)) fun _ _ _ _ => ⟨False.elim, fun h' => absurd h'.1 h⟩

/-! ## The other sections -/

/-- The types and the globals. -/
def readTypesGlobals (c : Code) : M Code := readTypes c >>= readGlobals

theorem readTypesGlobals_eq (c : Code) : readTypesGlobals c = checked (readTypes c >>= fun c =>
    M.forRange readGlobalsStep 0 c.nglobals { c with globals := List.replicate c.nglobals ValueType.default }) := by
  unfold readTypesGlobals readGlobals checked
  rw [M.bind_assoc]

theorem Errs.readTypesGlobals (c) : Errs (readTypesGlobals c) (InF (do let c ← typesF c; globalsF c)) := by
  rw [readTypesGlobals_eq]
  exact checked (.ofSim (.bind (.readTypes c) fun c => .forRange (fun _ _ => .readGlobalsStep _ _) _ _ _) (.bind (.readTypes c) fun c => .readGlobals c)) (.bind (.readTypes c) fun c => .forRange (fun _ _ => .readGlobalsStep _ _) _ _ _)

theorem Clean.readTypesGlobals (c) : Clean (readTypesGlobals c) := by
  rw [readTypesGlobals_eq]
  exact checked _

theorem Errs.readNatives (c) : Errs (readNatives c) (InF (nativesF c)) :=
  checked (.ofSim (.forRange (fun _ _ => .readNativesStep _ _) _ _ _) (.readNatives c)) (.forRange (fun _ _ => .readNativesStep _ _) _ _ _)

theorem Errs.readFunctions (p c) (h : c.functions = []) : Errs (readFunctions p c) (InF (functionsF p c)) :=
  checked (.ofSim (.forRange (fun _ _ => .readFunctionsStep _ _ _) _ _ _) (.readFunctions p c h)) (.forRange (fun _ _ => .readFunctionsStep _ _ _) _ _ _)

/-- The errors of the constants. -/
def ConstErr (a n : Nat) (c : Code) (d : Code) (buf : List UInt8) (pos : Nat) (e : DecodeError) : Prop :=
  ∃ i, i < n ∧ Then (G.loop constantsStepG a i c) (fun _ => InF constantF) d buf pos e

theorem Clean.readConstantsStep (i c) : Clean (readConstantsStep i c) :=
  bind (checked _) fun _ => bind (ofSilent (.insertAt _ _ _)) fun _ => bind (ofSilent (.setCode _)) fun _ => pure _

theorem Errs.readConstantsStep (i c) : Errs (readConstantsStep i c) (InF constantF) :=
  congr (bind (.checked Sem.readConstant) (.checked _) (checked (.ofSim .readConstant .readConstant) .readConstant) fun _ _ => never (.bind (.insertAt _ _ _) fun _ =>
    .bind (.setCode _) fun _ => .pure _)) fun _ _ _ _ => ⟨fun h => h.elim id (fun ⟨_, _, _, _, _, _, h⟩ => h.elim), .inl⟩

theorem Errs.constants : ∀ n a c, Errs (M.forRange Brass.readConstantsStep a n c) (ConstErr a n c)
  | 0, a, c => congr (never (.pure _)) fun _ _ _ _ => ⟨False.elim, fun ⟨_, h, _⟩ => absurd h (by omega)⟩
  | n + 1, a, c => by
    refine congr (bind (.readConstantsStep a c) (.readConstantsStep a c) (readConstantsStep a c) fun c' _ => constants n (a + 1) c') ?_
    intro d buf pos e
    constructor
    · rintro (h | ⟨k, r, c', d', rfl, h1, i, hi, k', r', c'', d'', rfl, h2, h3⟩)
      · exact ⟨0, by omega, [], buf, c, d, rfl, ⟨rfl, rfl, rfl⟩, h⟩
      · exact ⟨i + 1, by omega, k ++ k', r', c'', d'', by simp, ⟨k, k', c', d', rfl, h1, h2⟩, by rwa [List.length_append, ← Nat.add_assoc]⟩
    · rintro ⟨i, hi, k, r, c'', d'', rfl, h1, h2⟩
      cases i with
      | zero =>
        obtain ⟨rfl, rfl, rfl⟩ := h1
        exact .inl h2
      | succ i =>
        obtain ⟨k, k', c', d', rfl, h1, h3⟩ := h1
        exact .inr ⟨k, k' ++ r, c', d', by simp, h1, i, by omega, k', r, c'', d'', rfl, h3, by rwa [List.length_append, ← Nat.add_assoc] at h2⟩

theorem Clean.readPools (c) : Clean (readPools c) := bind (checked _) fun _ => bind (checked _) fun _ => bind (checked _) fun _ => pure _

/-! ## Files -/

/-- The start of `Code.read`, up to the functions, section by section. -/
def readHeader : M Code := readStart >>= fun c => checked (readCounts c.version)

theorem readM_eq (p) : readM p = readHeader >>= readPools >>= readBytesSection >>= readDebugFiles >>= readTypesGlobals >>=
    readNatives >>= readFunctions p >>= (fun c => readConstants c >>= fun _ => M.getCode) := by
  unfold readM readHeader readStart readTypesGlobals
  simp only [M.bind_assoc]
  rfl

theorem headerG_eq : headerG = upToCountsG >>= fun c => countsG c.version := by
  unfold headerG upToCountsG
  simp only [Sem.G_bind_assoc, Sem.G_pure_bind]

theorem upToTypesG_eq : upToTypesG = upToStringsG >>= bytesSectionG >>= debugFilesG := by
  unfold upToTypesG
  simp only [Sem.G_bind_assoc]

theorem upToNativesG_eq : upToNativesG = upToTypesG >>= fun c => typesG c >>= globalsG := rfl

theorem headerG_functions {c k a c'} (h : headerG c k a c') : a.functions = [] := by
  obtain ⟨_, _, _, _, rfl, _, _, _, _, _, rfl, _, h⟩ := h
  exact countsG_functions h

theorem upToFunctionsG_functions {c k a c'} (h : upToFunctionsG c k a c') : a.functions = [] := by
  obtain ⟨_, _, _, _, rfl, ⟨_, _, _, _, rfl, ⟨_, _, _, _, rfl, ⟨_, _, _, _, rfl, h1, h2⟩, _, _, _, _, rfl, h3, h4⟩, _, _, _, _, rfl, h5, h6⟩, h7⟩ := h
  obtain ⟨_, rfl⟩ := nativesG_value h7
  obtain ⟨_, rfl⟩ := globalsG_value h6
  obtain ⟨_, _, rfl⟩ := typesG_value h5
  obtain ⟨_, _, rfl⟩ := debugFilesG_value h4
  obtain ⟨_, _, rfl⟩ := bytesSectionG_value h3
  obtain ⟨_, _, _, _, rfl⟩ := poolsG_value h2
  have := headerG_functions h1
  exact this

theorem readHeader_sem : Sem readHeader headerG := by
  rw [headerG_eq]
  exact Sem.bind readStart_sem fun _ => .checked (Sem.readCounts _)

theorem readHeader_clean : Clean readHeader := .bind readStart_clean fun _ => .checked _

/-- The errors of a file, section by section. -/
def FileErr (p : Profile) (c : Code) (buf : List UInt8) (pos : Nat) (e : DecodeError) : Prop :=
  (((((((StartErr buf pos e ∨ Then upToCountsG (fun c => InF (countsF c.version)) c buf pos e) ∨
    Then headerG PoolsErr c buf pos e) ∨
    Then upToStringsG BytesErr c buf pos e) ∨
    Then (upToStringsG >>= bytesSectionG) (fun c d buf pos e => c.hasdebug ≠ 0 ∧ InF debugFilesF d buf pos e) c buf pos e) ∨
    Then upToTypesG (fun c => InF (do let c ← typesF c; globalsF c)) c buf pos e) ∨
    Then upToNativesG (fun c => InF (nativesF c)) c buf pos e) ∨
    Then upToFunctionsG (fun c => InF (functionsF p c)) c buf pos e) ∨
    Then (upToFunctionsG >>= functionsG p) (fun c => ConstErr 0 c.nconstants c) c buf pos e

theorem Errs.readM (p) : Errs (readM p) (FileErr p) := by
  rw [readM_eq]
  have s1 : Sem (readHeader >>= Brass.readPools) upToStringsG := Sem.bind readHeader_sem fun c => Sem.readPools c
  have s2 : Sem (readHeader >>= Brass.readPools >>= Brass.readBytesSection) (upToStringsG >>= bytesSectionG) := Sem.bind s1 fun c => Sem.readBytesSection c
  have s3 : Sem (readHeader >>= Brass.readPools >>= Brass.readBytesSection >>= Brass.readDebugFiles) upToTypesG := by
    rw [upToTypesG_eq]; exact Sem.bind s2 fun c => Sem.readDebugFiles c
  have s4 : Sem (readHeader >>= Brass.readPools >>= Brass.readBytesSection >>= Brass.readDebugFiles >>= Brass.readTypesGlobals) upToNativesG :=
    Sem.bind s3 fun c => Sem.bind (Sem.readTypes c) fun c => Sem.readGlobals c
  have s5 : Sem (readHeader >>= Brass.readPools >>= Brass.readBytesSection >>= Brass.readDebugFiles >>= Brass.readTypesGlobals >>= Brass.readNatives)
      upToFunctionsG := Sem.bind s4 fun c => Sem.readNatives c
  have s6 : Sem (readHeader >>= Brass.readPools >>= Brass.readBytesSection >>= Brass.readDebugFiles >>= Brass.readTypesGlobals >>= Brass.readNatives >>=
      Brass.readFunctions p) (upToFunctionsG >>= functionsG p) :=
    Sem.bindQ (fun c => c.functions = []) s5 (fun _ _ _ _ h => upToFunctionsG_functions h) (fun c => Good.readFunctions p c)
      fun c h => Sem.readFunctions p c h
  have c0 := readHeader_clean
  have c1 := Clean.bind c0 fun c => .readPools c
  have c2 := Clean.bind c1 fun c => .readBytesSection c
  have c3 := Clean.bind c2 fun c => .readDebugFiles c
  have c4 := Clean.bind c3 fun c => .readTypesGlobals c
  have c5 := Clean.bind c4 (f := Brass.readNatives) fun c => .checked _
  have c6 := Clean.bind c5 (f := Brass.readFunctions p) fun c => .checked _
  have e0 : Errs readHeader _ := bind readStart_sem readStart_clean (fun c buf pos e => readStart_err c _ buf pos e)
    fun c _ => checked (.ofSim (.readCounts _) (.readCounts c.version)) (.readCounts _)
  have e1 := bind readHeader_sem c0 e0 fun c _ => readPools c
  have e2 := bind s1 c1 e1 fun c _ => readBytesSection c
  have e3 := bind s2 c2 e2 fun c _ => readDebugFiles c
  have e4 := bind s3 c3 e3 fun c _ => readTypesGlobals c
  have e5 := bind s4 c4 e4 fun c _ => readNatives c
  have e6 := bind s5 c5 e5 fun c ⟨_, _, _, h⟩ => readFunctions p c (upToFunctionsG_functions h)
  have e7 : ∀ c, Errs (readConstants c >>= fun _ => M.getCode) (ConstErr 0 c.nconstants c) := fun c =>
    congr (bind (Sem.readConstants c) (.forRange (fun _ _ => .readConstantsStep _ _) _ _ _) (constants c.nconstants 0 c) fun _ _ => never .getCode)
      fun _ _ _ _ => ⟨fun h => h.elim id (fun ⟨_, _, _, _, _, _, h⟩ => h.elim), .inl⟩
  exact bind s6 c6 e6 fun c _ => e7 c

theorem many_sized {α : Type} {g : G α} {sz : Nat} (h1 : ∀ c k a c', g c k a c' → c' = c ∧ k.length = sz)
    (h2 : ∀ c k, k.length = sz → ∃ a, g c k a c) : ∀ n c k, (∀ a c', G.many g n c k a c' → c' = c ∧ k.length = sz * n) ∧
      (k.length = sz * n → ∃ a, G.many g n c k a c)
  | 0, c, k => ⟨fun a c' ⟨hk, _, hc⟩ => ⟨hc, by rw [hk]; rfl⟩, fun h => ⟨[], List.eq_nil_of_length_eq_zero (by omega), rfl, rfl⟩⟩
  | n + 1, c, k => by
    constructor
    · rintro a c' ⟨k1, _, x, c1, rfl, h3, k2, _, l, _, rfl, h4, rfl, rfl, rfl⟩
      obtain ⟨rfl, h5⟩ := h1 _ _ _ _ h3
      obtain ⟨rfl, h6⟩ := (many_sized h1 h2 n _ _).1 _ _ h4
      refine ⟨rfl, ?_⟩
      simp only [List.append_nil, List.length_append, h5, h6, Nat.mul_succ]; omega
    · intro h
      rw [Nat.mul_succ] at h
      obtain ⟨x, hx⟩ := h2 c (k.take sz) (by rw [List.length_take]; omega)
      obtain ⟨l, hl⟩ := (many_sized h1 h2 n c (k.drop sz)).2 (by rw [List.length_drop]; omega)
      exact ⟨x :: l, k.take sz, k.drop sz, x, c, (List.take_append_drop _ _).symm, hx, k.drop sz, [], l, c, by simp, hl, rfl, rfl, rfl⟩

theorem rejected_iff (p : Profile) (file : List UInt8) (e : DecodeError) : FileErr p Code.new file 0 e ↔ Rejected p file e := by
  constructor
  · rintro (((((((((⟨pre, rest, b, b', rfl, hp, hb, rfl⟩ | ⟨b, rest, rfl, hb, rfl⟩) |
      ⟨k, _, c, c', rfl, hg, w, rest, a, c'', rfl, hf, hr⟩) | ⟨k, _, c, c', rfl, hg, (⟨i, m, r, rfl, hi, hm, hl, rfl⟩ |
        ⟨k1, _, ints, c1, rfl, hg1, (⟨i, m, r, rfl, hi, hm, hl, rfl⟩ | ⟨k2, _, floats, c2, rfl, hg2, w, rest, a, c'', rfl, hf, hr⟩)⟩)⟩) |
      ⟨k, _, c, c', rfl, hg, hv, (⟨hl, rfl⟩ | ⟨k1, _, b, c1, rfl, ⟨k2, _, size, _, rfl, hz, _, k3, _, _, rfl, ⟨rfl, h0, rfl⟩, hb⟩, w, rest, a, c'', rfl, hf, hr⟩)⟩) |
      ⟨k, _, c, c', rfl, ⟨k1, k2, c0, c0', rfl, hg1, hg2⟩, hd, w, rest, a, c'', rfl, hf, hr⟩) |
      ⟨k, _, c, c', rfl, hg, w, rest, a, c'', rfl, hf, hr⟩) |
      ⟨k, _, c, c', rfl, hg, w, rest, a, c'', rfl, hf, hr⟩) |
      ⟨k, _, c, c', rfl, hg, w, rest, a, c'', rfl, hf, hr⟩) |
      ⟨k, _, c, c', rfl, ⟨k1, k2, c0, c0', rfl, hg1, hg2⟩, i, hi, k3, _, c1, c1', rfl, hl, w, rest, a, c'', rfl, hf, hr⟩)
    · rw [Nat.zero_add]; exact .header pre rest b b' rfl hp hb
    · exact .version b rest rfl hb
    · exact .inSection _ _ k rest w c c' c'' a e .counts hg hf (by simp) (by simpa using hr)
    · have := Rejected.noInt (p := p) (file := k ++ (m ++ r)) k m r c i ⟨_, hg⟩ (by simp) hi hm hl
      simpa using this
    · have h1 := ((many_sized (sz := 4) ?_ ?_ c.nints c' k1).1 _ _ hg1).2
      have := Rejected.noFloat (p := p) (file := k ++ (k1 ++ (m ++ r))) k (k1 ++ m) r c i ⟨_, hg⟩ (by simp) hi (by simp [h1, hm]) hl
      simpa [Nat.add_assoc] using this
      · rintro c k a c' ⟨rfl, h, _⟩; exact ⟨rfl, h⟩
      · rintro c k h; exact ⟨_, rfl, h, rfl⟩
    · exact .inSection _ _ (k ++ k1 ++ k2) rest w { c with ints := ints, floats := floats } c2 c'' a e .strings
        ⟨k, k1 ++ k2, c, c', by simp, hg, k1, k2, ints, c1, rfl, hg1, k2, [], floats, c2, by simp, hg2, rfl, rfl, rfl⟩ hf (by simp)
        (by simpa [Nat.add_assoc] using hr)
    · have := Rejected.noSize (p := p) (file := k ++ _) k _ c ⟨_, hg⟩ rfl hv hl
      simpa using this
    · refine .inSection _ _ (k ++ k2 ++ k3) rest w c c1 c'' a e .positions
        ⟨k, k2 ++ k3, c, c', by simp, hg, [], k2 ++ k3, (), c', rfl, ⟨rfl, hv, rfl⟩, k2, k3, size, _, rfl, hz, [], k3, (), _, rfl, ⟨rfl, h0, rfl⟩,
          k3, [], b, c1, by simp, hb, rfl, rfl, rfl⟩ hf (by simp) (by simpa [Nat.add_assoc] using hr)
    · exact .inSection _ _ (k1 ++ k2) rest w c c' c'' a e .debugFiles
        ⟨k1, k2, c0, c0', rfl, hg1, k2, [], c, c', by simp, hg2, [], [], (), c', rfl, ⟨rfl, hd, rfl⟩, rfl, rfl, rfl⟩ hf (by simp) (by simpa using hr)
    · exact .inSection _ _ k rest w c c' c'' a e .typesAndGlobals hg hf (by simp) (by simpa using hr)
    · exact .inSection _ _ k rest w c c' c'' a e .natives hg hf (by simp) (by simpa using hr)
    · exact .inSection _ _ k rest w c c' c'' a e .functions hg hf (by simp) (by simpa using hr)
    · exact .inSection _ _ (k1 ++ k2 ++ k3) rest w c1 c1' c'' a e (.constant i)
        ⟨k1, k2 ++ k3, c0, c0', by simp, hg1, k2, k3, c, c', rfl, hg2, [], k3, (), c', rfl, ⟨rfl, hi, rfl⟩, hl⟩ hf (by simp)
        (by simpa [Nat.add_assoc] using hr)
  · intro h
    have hlen : ∀ (a b : List UInt8), (a ++ b).length = 0 + a.length + b.length := by intro a b; simp
    cases h with
    | header pre rest b b' hf hp hb => exact .inl <| .inl <| .inl <| .inl <| .inl <| .inl <| .inl <| .inl <| .inl ⟨pre, rest, b, b', hf, hp, hb, by simp⟩
    | version b rest hf hb => exact .inl <| .inl <| .inl <| .inl <| .inl <| .inl <| .inl <| .inl <| .inr ⟨b, rest, hf, hb, rfl⟩
    | noInt k m r c i hg hf hi hm hl =>
      obtain ⟨c', hg⟩ := hg
      exact .inl <| .inl <| .inl <| .inl <| .inl <| .inl <| .inr ⟨k, m ++ r, c, c', by simp [hf], hg, .inl ⟨i, m, r, rfl, hi, hm, hl, by rw [hlen]⟩⟩
    | noFloat k m r c i hg hf hi hm hl =>
      obtain ⟨c', hg⟩ := hg
      obtain ⟨ints, h1⟩ := (many_sized (g := i32G) (sz := 4) (by rintro c k a c' ⟨rfl, h, _⟩; exact ⟨rfl, h⟩)
        (by rintro c k h; exact ⟨_, rfl, h, rfl⟩) c.nints c' (m.take (4 * c.nints))).2 (by rw [List.length_take]; omega)
      refine .inl <| .inl <| .inl <| .inl <| .inl <| .inl <| .inr ⟨k, m ++ r, c, c', by simp [hf], hg, .inr ⟨m.take (4 * c.nints),
        m.drop (4 * c.nints) ++ r, ints, c', by rw [← List.append_assoc, List.take_append_drop], h1, .inl ⟨i, m.drop (4 * c.nints), r, rfl, hi, ?_, hl, ?_⟩⟩⟩
      · rw [List.length_drop]; omega
      · rw [hlen, List.length_take, List.length_drop]; congr 1; omega
    | noSize k r c hg hf hv hl =>
      obtain ⟨c', hg⟩ := hg
      exact .inl <| .inl <| .inl <| .inl <| .inl <| .inr ⟨k, r, c, c', hf, hg, hv, .inl ⟨hl, by simp⟩⟩
    | inSection g f k rest w c c' c'' a e hs hg hf hfile hr =>
      subst hfile
      cases hs with
      | counts => exact .inl <| .inl <| .inl <| .inl <| .inl <| .inl <| .inl <| .inr ⟨k, text w ++ rest, c, c', by simp, hg, w, rest, a, c'', rfl, hf, by simpa using hr⟩
      | strings =>
        obtain ⟨k, _, c, c', rfl, hg, k1, _, ints, c1, rfl, hg1, k2, _, floats, c2, rfl, hg2, rfl, rfl, rfl⟩ := hg
        exact .inl <| .inl <| .inl <| .inl <| .inl <| .inl <| .inr ⟨k, k1 ++ (k2 ++ (text w ++ rest)), c, c', by simp, hg, .inr ⟨k1, _, ints, c1, rfl, hg1, .inr
          ⟨k2, _, floats, _, rfl, hg2, w, rest, a, c'', rfl, hf, by simpa [Nat.add_assoc] using hr⟩⟩⟩
      | positions =>
        obtain ⟨k, _, c, c', rfl, hg, _, _, _, _, rfl, ⟨rfl, hv, rfl⟩, k2, _, size, _, rfl, hz, _, _, _, _, rfl, ⟨rfl, h0, rfl⟩,
          k3, _, b, c1, rfl, hb, rfl, rfl, rfl⟩ := hg
        exact .inl <| .inl <| .inl <| .inl <| .inl <| .inr ⟨k, k2 ++ k3 ++ (text w ++ rest), c, _, by simp, hg, hv, .inr ⟨k2 ++ k3, _, b, _, rfl,
          ⟨k2, k3, size, _, rfl, hz, [], k3, (), _, rfl, ⟨rfl, h0, rfl⟩, hb⟩, w, rest, a, c'', rfl, hf, by simpa [Nat.add_assoc] using hr⟩⟩
      | debugFiles =>
        obtain ⟨k1, _, c0, c0', rfl, hg1, k2, _, c, c', rfl, hg2, _, _, _, _, rfl, ⟨rfl, hd, rfl⟩, rfl, rfl, rfl⟩ := hg
        exact .inl <| .inl <| .inl <| .inl <| .inr ⟨k1 ++ k2, text w ++ rest, _, _, by simp, ⟨k1, k2, c0, c0', rfl, hg1, hg2⟩, hd, w, rest, a, c'', rfl, hf,
          by simpa [Nat.add_assoc] using hr⟩
      | typesAndGlobals => exact .inl <| .inl <| .inl <| .inr ⟨k, text w ++ rest, c, c', by simp, hg, w, rest, a, c'', rfl, hf, by simpa using hr⟩
      | natives => exact .inl <| .inl <| .inr ⟨k, text w ++ rest, c, c', by simp, hg, w, rest, a, c'', rfl, hf, by simpa using hr⟩
      | functions => exact .inl <| .inr ⟨k, text w ++ rest, c, c', by simp, hg, w, rest, a, c'', rfl, hf, by simpa using hr⟩
      | constant i =>
        obtain ⟨k1, _, c0, c0', rfl, hg1, k2, _, c, c', rfl, hg2, _, k3, _, _, rfl, ⟨rfl, hi, rfl⟩, hl⟩ := hg
        exact .inr ⟨k1 ++ k2, k3 ++ (text w ++ rest), c, _, by simp, ⟨k1, k2, c0, c0', rfl, hg1, hg2⟩, i, hi, k3, _, _, _, rfl, hl, w, rest, a, c'', rfl, hf,
          by simpa [Nat.add_assoc] using hr⟩

end Verif.Brass
