import Verif.Brass.ReportFile
import Verif.Props.Threads
import Verif.Props.Report

/-!
# Which rejected files spoil later reads (C91)
-/

namespace Verif.Brass

open Verif Verif.Brass.Spec

/-- `x` records the errors that it returns. -/
def Noted {α : Type} (x : M α) : Prop := ∀ s e s', x s = .err e s' → s'.errors = some e

namespace Noted

theorem of {α : Type} {x : M α} (h : NoErr x) : Noted x := fun s e s' h' => absurd h' (h s e s')

theorem bind {α β : Type} {x : M α} {f : α → M β} (hx : Noted x) (hf : ∀ a, Noted (f a)) : Noted (x >>= f) := by
  intro s e s' h
  rcases hb : x s with ⟨a, s1⟩ | ⟨e1, s1⟩ | _
  · exact hf a s1 e s' (by rw [← h]; exact (M.bind_ok (f := f) hb).symm)
  · have : (x >>= f) s = .err e1 s1 := M.bind_err hb
    rw [h] at this
    cases this
    exact hx s _ _ hb
  · have : (x >>= f) s = .panic := M.bind_panic hb
    rw [h] at this
    cases this

theorem ite {α : Type} {b : Prop} [Decidable b] {x y : M α} (hx : Noted x) (hy : Noted y) : Noted (if b then x else y) := by
  split <;> assumption

theorem checkError : Noted M.checkError := by
  intro s e s' h
  unfold M.checkError at h
  split at h <;> cases h
  assumption

theorem checked {α : Type} {x : M α} (h : NoErr x) : Noted (checked x) := bind (of h) fun _ => bind checkError fun _ => of (.pure _)

theorem forRange {β : Type} {f : Nat → β → M β} (hf : ∀ i b, Noted (f i b)) : ∀ n a b, Noted (M.forRange f a n b)
  | 0, _, _ => of (.pure' _)
  | n + 1, a, b => bind (hf a b) fun _ => forRange hf n (a + 1) _

theorem insertIfSome {α : Type} (v : List α) (i o) : NoErr (insertIfSome v i o) := by
  cases o
  · exact .pure' _
  · exact .insertAt _ _ _

theorem readPools (c) : Noted (readPools c) :=
  bind (checked (.forRange (fun _ _ => .bind (.okOrRecord _) fun _ => insertIfSome _ _ _) _ _ _)) fun _ =>
  bind (checked (.forRange (fun _ _ => .bind (.okOrRecord _) fun _ => insertIfSome _ _ _) _ _ _)) fun _ =>
  bind (checked (.okOrRecord _)) fun _ => of (.pure _)

theorem readDebugFiles (c) : Noted (readDebugFiles c) := by
  rw [readDebugFiles_eq]
  exact ite (checked (.readDebugFiles' c)) (of (.pure _))

theorem readTypesGlobals (c) : Noted (readTypesGlobals c) := by
  rw [readTypesGlobals_eq]
  exact checked (.bind (.readTypes c) fun c => .forRange (fun _ _ => .readGlobalsStep _ _) _ _ _)

theorem readNatives (c) : Noted (readNatives c) := checked (.forRange (fun _ _ => .readNativesStep _ _) _ _ _)

theorem readFunctions (p c) : Noted (readFunctions p c) := checked (.forRange (fun _ _ => .readFunctionsStep _ _ _) _ _ _)

theorem readConstants (c) : Noted (readConstants c) :=
  forRange (fun _ _ => bind (checked .readConstant) fun _ => of (.bind (.insertAt _ _ _) fun _ => .bind (.setCode _) fun _ => .pure _)) _ _ _

end Noted

theorem Silent.err {α : Type} {x : M α} (h : Silent x) {s s' : St} {e : DecodeError} (hx : x s = .err e s') : s'.errors = s.errors := by
  have := h s s.errors
  rw [show ({ s with errors := s.errors } : St) = s from rfl, hx] at this
  simp only [Out.withErrors, Out.err.injEq, true_and] at this
  rw [this]

/-- The rest of `Code::read`, from the names of the debug files on. -/
theorem Noted.rest (p : Profile) (c) : Noted (Brass.readDebugFiles c >>= Brass.readTypesGlobals >>=
    Brass.readNatives >>= Brass.readFunctions p >>= (fun c => Brass.readConstants c >>= fun _ => M.getCode)) :=
  .bind (.bind (.bind (.bind (.readDebugFiles c) .readTypesGlobals) .readNatives) (.readFunctions p))
    fun c => .bind (.readConstants c) fun _ => .of .getCode

theorem checked_ok {α : Type} {x : M α} {s s' : St} {a : α} (h : checked x s = .ok a s') : s'.errors = none := by
  obtain ⟨a, s1, h1, h2⟩ := M.bind_eq_ok h
  obtain ⟨_, s2, h3, h4⟩ := M.bind_eq_ok h2
  unfold M.checkError at h3
  split at h3 <;> cases h3
  cases h4
  assumption

theorem readM_split (p : Profile) : readM p = (readHeader >>= readPools) >>= readBytesSection >>= fun c => readDebugFiles c >>= readTypesGlobals >>=
    readNatives >>= readFunctions p >>= (fun c => readConstants c >>= fun _ => M.getCode) := by
  rw [readM_eq]
  simp only [M.bind_assoc]

theorem bind_eq_err {α β : Type} {x : M α} {f : α → M β} {s s' : St} {e : DecodeError} (h : (x >>= f) s = .err e s') :
    x s = .err e s' ∨ ∃ a s1, x s = .ok a s1 ∧ f a s1 = .err e s' := by
  rcases hb : x s with ⟨a, s1⟩ | ⟨e1, s1⟩ | _
  · rw [M.bind_ok hb] at h; exact .inr ⟨a, s1, rfl, h⟩
  · rw [M.bind_err hb] at h; cases h; exact .inl rfl
  · rw [M.bind_panic hb] at h; cases h

theorem badStart_iff (file : List UInt8) (er : Option DecodeError) : BadStart file ↔ ∃ e s, readStart ⟨file, 0, Code.new, er⟩ = .err e s := by
  constructor
  · rintro (⟨pre, rest, b, b', h1, h2, h3⟩ | ⟨b, rest, h1, h2⟩)
    · exact ⟨_, (readStart_err _ er _ 0 _).2 (.inl ⟨pre, rest, b, b', h1, h2, h3, rfl⟩)⟩
    · exact ⟨_, (readStart_err _ er _ 0 _).2 (.inr ⟨b, rest, h1, h2, rfl⟩)⟩
  · rintro ⟨e, s, h⟩
    rcases (readStart_err _ er _ 0 _).1 ⟨s, h⟩ with ⟨pre, rest, b, b', h1, h2, h3, _⟩ | ⟨b, rest, h1, h2, _⟩
    · exact .inl ⟨pre, rest, b, b', h1, h2, h3⟩
    · exact .inr ⟨b, rest, h1, h2⟩

/-- An error of `Code::read` comes from the start of the file, from the size of the byte table, or is recorded. -/
theorem read_err (p : Profile) (er : Option DecodeError) (file : List UInt8) (e : DecodeError) (s : St) (h : Code.read p er file = .err e s) :
    (BadStart file ∧ s.errors = er) ∨ (¬ BadStart file ∧ er = none ∧ NoTableSize file ∧ s.errors = none) ∨
    (¬ BadStart file ∧ ¬ (er = none ∧ NoTableSize file) ∧ s.errors = some e) := by
  have s1 : Sem (readHeader >>= readPools) upToStringsG := Sem.bind readHeader_sem fun c => Sem.readPools c
  have h : readM p ⟨file, 0, Code.new, er⟩ = .err e s := h
  have start : ∀ (c : Code) (s1 : St), (readHeader >>= readPools) ⟨file, 0, Code.new, er⟩ = .ok c s1 → ¬ BadStart file := by
    intro c s1 hc hb
    obtain ⟨e, s', he⟩ := (badStart_iff file er).1 hb
    unfold readHeader at hc
    rw [M.bind_assoc, M.bind_err he] at hc
    cases hc
  rw [readM_split] at h
  by_cases hn : er = none ∧ NoTableSize file
  · obtain ⟨rfl, k, r, c, ⟨c', hg⟩, rfl, hv, hr⟩ := hn
    have hc : (readHeader >>= readPools) ⟨k ++ r, 0, Code.new, none⟩ = _ := s1.complete _ _ _ _ trivial hg r 0
    have hb : readBytesSection c ⟨r, 0 + k.length, c', none⟩ = .err ⟨.noMoreData, 0 + k.length⟩ ⟨r, 0 + k.length, c', none⟩ := by
      rw [readBytesSection_eq, if_pos hv]
      unfold readBlob
      exact M.bind_err (M.bind_err (ReadsN.decodeI32.2 _ hr))
    rw [M.bind_assoc, M.bind_ok (a := c) hc, M.bind_err hb] at h
    cases h
    exact .inr (.inl ⟨start _ _ hc, rfl, ⟨k, r, c, ⟨c', hg⟩, rfl, hv, hr⟩, rfl⟩)
  · rw [M.bind_assoc] at h
    rcases bind_eq_err h with h | ⟨c, s2, hc, h⟩
    · unfold readHeader at h
      rw [M.bind_assoc] at h
      rcases bind_eq_err h with h | ⟨c, s2, hc, h⟩
      · exact .inl ⟨(badStart_iff file er).2 ⟨_, _, h⟩, readStart_silent.err h⟩
      · refine .inr (.inr ⟨?_, hn, Noted.bind (Noted.checked (.readCounts _)) .readPools _ _ _ h⟩)
        intro hb
        obtain ⟨e, s', he⟩ := (badStart_iff file er).1 hb
        rw [hc] at he; cases he
    · refine .inr (.inr ⟨start _ _ hc, hn, ?_⟩)
      rcases bind_eq_err h with h | ⟨c, s2, hc, h⟩
      · rw [readBytesSection_eq] at h
        split at h
        · next hv =>
          rcases bind_eq_err h with h | ⟨c, s2, hc, h⟩
          · exfalso
            have hs2 : s2.errors = none := by
              obtain ⟨c0, s0, h0, hp⟩ := M.bind_eq_ok hc
              obtain ⟨_, _, _, h0⟩ := M.bind_eq_ok h0
              exact Clean.readPools _ _ _ _ hp (checked_ok h0)
            obtain ⟨h1, k, h2, h3, h4⟩ := s1.sound _ _ _ trivial hc hs2
            obtain ⟨b2, p2, c2, e2⟩ := s2
            cases hs2
            exact hn ⟨h1, k, b2, c, ⟨_, h4⟩, h2, hv, ((readBlob_errs _ _ _ _).1 ⟨_, h⟩).1⟩
          · exact Noted.bind (Noted.checked (.readBytesPos _)) (fun _ => .of (.pure _)) _ _ _ h
        · cases h
      · exact Noted.rest p _ _ _ _ h

/-- **C91** In a process without a recorded error, a read that fails because of the magic, the version or a missing size of
the byte table records nothing; every other error that is returned is also recorded. -/
theorem c91_recorded (p : Profile) (file : List UInt8) (e : DecodeError) (s : St) (h : Code.read p none file = .err e s) :
    (BadStart file ∨ NoTableSize file → s.errors = none) ∧ (¬ (BadStart file ∨ NoTableSize file) → s.errors = some e) := by
  rcases read_err p none file e s h with ⟨h1, h2⟩ | ⟨h1, _, h2, h3⟩ | ⟨h1, h2, h3⟩
  · exact ⟨fun _ => h2, fun h => absurd (.inl h1) h⟩
  · exact ⟨fun _ => h3, fun h => absurd (.inr h2) h⟩
  · exact ⟨fun h => absurd h fun h => h.elim h1 fun h => h2 ⟨rfl, h⟩, fun _ => h3⟩

/-- **C91** If an error `x` is recorded already, a read that fails because of the magic or the version leaves it there; the
error that any other read returns replaces it. -/
theorem c91_recorded_after (p : Profile) (x : DecodeError) (file : List UInt8) (e : DecodeError) (s : St)
    (h : Code.read p (some x) file = .err e s) :
    (BadStart file → s.errors = some x) ∧ (¬ BadStart file → s.errors = some e) := by
  rcases read_err p (some x) file e s h with ⟨h1, h2⟩ | ⟨h1, h2, _⟩ | ⟨h1, _, h3⟩
  · exact ⟨fun _ => h2, fun h => absurd h1 h⟩
  · cases h2
  · exact ⟨fun h => absurd h h1, fun _ => h3⟩

/-- **C91** For the user of a process: after a rejected file of the first kind, all later files are read as if it had not been
there; after any other rejected file, every file with well-formed counts is answered with the error of the rejected file. -/
theorem c91_later (p : Profile) (file : List UInt8) (e : DecodeError) (h : ∃ s, Code.read p none file = .err e s) :
    (BadStart file ∨ NoTableSize file → ∀ gs, history p none (file :: gs) = (.err e :: (history p none gs).1, (history p none gs).2)) ∧
    (¬ (BadStart file ∨ NoTableSize file) → ∀ (v : UInt8) (k rest : List UInt8) (c : Code), 2 ≤ v.toNat ∧ v.toNat ≤ 5 →
      countsG v.toNat noCode k c noCode →
      (history p none [file, 0x48 :: 0x4C :: 0x42 :: v :: k ++ rest]).1 = [.err e, .err e]) := by
  obtain ⟨s, h⟩ := h
  have hs := c91_recorded p file e s h
  have h1 := ((c71_call p none file).2.1 e s.errors).2 ⟨s, h, rfl⟩
  constructor
  · intro hb gs
    rw [show file :: gs = [file] ++ gs from rfl, history_append, h1, hs.1 hb]
    rfl
  · intro hb v k rest c hv hk
    obtain ⟨s', h2, _⟩ := c30_poisoned_stale_error p e v hv k rest c hk
    have h3 := ((c71_call p (some e) _).2.1 e s'.errors).2 ⟨s', h2, rfl⟩
    rw [show [file, 0x48 :: 0x4C :: 0x42 :: v :: k ++ rest] = [file] ++ [0x48 :: 0x4C :: 0x42 :: v :: k ++ rest] from rfl, history_append, h1,
      hs.2 hb, h3]
    rfl

/-- Test a result of `Ok`. -/
def testOk {α : Type} (o : Out α) (f : α → St → Bool) : Bool := match o with | .ok c s => f c s | _ => false

/-- Test a result of `Err`. -/
def testErr {α : Type} (o : Out α) (f : DecodeError → St → Bool) : Bool := match o with | .err e s => f e s | _ => false

theorem testOk_iff {α : Type} {o : Out α} {f : α → St → Bool} (h : testOk o f = true) : ∃ a s, o = .ok a s ∧ f a s = true := by
  cases o with
  | ok a s => exact ⟨a, s, rfl, h⟩
  | err _ _ => cases h
  | panic => cases h

theorem testErr_iff {α : Type} {o : Out α} {f : DecodeError → St → Bool} (h : testErr o f = true) : ∃ e s, o = .err e s ∧ f e s = true := by
  cases o with
  | ok a s => cases h
  | err e s => exact ⟨e, s, rfl, h⟩
  | panic => cases h

/-- Files of all kinds: a wrong magic, a wrong version, a missing size of the byte table; and a file of the other kind, which
ends in its only integer. -/
example : BadStart [0x48, 0x4C, 0x43, 5] ∧ BadStart [0x48, 0x4C, 0x42, 9] ∧
    NoTableSize [0x48, 0x4C, 0x42, 5, 0, 0, 0, 1, 0, 0, 0, 0, 0, 0, 0, 1, 0, 0, 0, 0x61, 1, 7] ∧
    (∃ s, Code.read .release none [0x48, 0x4C, 0x42, 2, 0, 1, 0, 0, 0, 0, 0, 0, 0, 1, 2] = .err ⟨.noMoreData, 13⟩ s ∧ s.errors = some ⟨.noMoreData, 13⟩) := by
  refine ⟨.inl ⟨[0x48, 0x4C], [5], 0x43, 0x42, rfl, List.prefix_rfl, by decide⟩, .inr ⟨9, [], rfl, by decide⟩, ?_, ?_⟩
  · have h : testOk ((readHeader >>= readPools) ⟨[0x48, 0x4C, 0x42, 5, 0, 0, 0, 1, 0, 0, 0, 0, 0, 0, 0, 1, 0, 0, 0, 0x61, 1, 7], 0, Code.new, none⟩)
        (fun c s => decide (5 ≤ c.version) && decide (s.buf.length < 4) && s.errors.isNone) = true := by decide +kernel
    obtain ⟨c, s, hc, h⟩ := testOk_iff h
    simp only [Bool.and_eq_true, decide_eq_true_eq, Option.isNone_iff_eq_none] at h
    obtain ⟨_, k, hk, _, hg⟩ := (Sem.bind readHeader_sem fun c => Sem.readPools c).sound _ _ _ trivial hc h.2
    exact ⟨k, s.buf, c, ⟨_, hg⟩, hk, h.1.1, h.1.2⟩
  · have h : testErr (Code.read .release none [0x48, 0x4C, 0x42, 2, 0, 1, 0, 0, 0, 0, 0, 0, 0, 1, 2])
        (fun e s => decide (e = ⟨.noMoreData, 13⟩) && decide (s.errors = some ⟨.noMoreData, 13⟩)) = true := by decide +kernel
    obtain ⟨e, s, he, h⟩ := testErr_iff h
    simp only [Bool.and_eq_true, decide_eq_true_eq] at h
    obtain ⟨rfl, h2⟩ := h
    exact ⟨s, he, h2⟩

end Verif.Brass
