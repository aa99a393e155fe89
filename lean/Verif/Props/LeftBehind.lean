import Verif.Brass.StopFile
import Verif.Props.Recorded

/-!
# What a panicking read leaves behind (C93)
-/

namespace Verif.Brass

open Verif Verif.Brass.Spec

theorem run_panic_iff (p : Profile) (x : Option DecodeError) (file : List UInt8) (e : Option DecodeError) :
    history p x [file] = ([.panic], e) ↔ (Par.read p file).run x = (.panic, e) := by
  simp only [history]
  generalize (Par.read p file).run x = r
  obtain ⟨r, e'⟩ := r
  cases r <;> simp [Res.answer]

/-- **C93** `Code::read`, in a process in which no error is recorded, panics and leaves `e` recorded exactly if `LeftBehind`. -/
theorem c93_left_behind (p : Profile) (file : List UInt8) (e : Option DecodeError) :
    history p none [file] = ([.panic], e) ↔ LeftBehind p file e := by
  rw [run_panic_iff, ← leftBehind_iff]
  exact Panics.readM p Code.new file 0 e

theorem readAfter_panic (p : Profile) (x : DecodeError) (file : List UInt8) (e : Option DecodeError) :
    (Par.read p file).run (some x) = (.panic, e) ↔ ∃ y, e = some y ∧ LeftBehindAfter x file y := by
  have hrun : Par.read p file = (Par.readStart >>= fun c => Par.checked (Par.readCounts c.version) >>= fun c => Par.readPools c >>= Par.readBytesSection >>=
      Par.readDebugFiles >>= Par.readTypesGlobals >>= Par.readNatives >>= Par.readFunctions p >>= (fun c => Par.readConstants c >>= fun _ => P.getCode))
      ⟨file, 0, Code.new⟩ := by
    show Par.readM p _ = _
    rw [Par.readM_eq]
    unfold Par.readHeader
    simp only [P_bind_assoc]
  rw [hrun, P_bind_run]
  -- after magic and version
  have key : ∀ (c : Code) (d : Dec), ((Par.checked (Par.readCounts c.version) >>= fun c => Par.readPools c >>= Par.readBytesSection >>=
      Par.readDebugFiles >>= Par.readTypesGlobals >>= Par.readNatives >>= Par.readFunctions p >>= (fun c => Par.readConstants c >>= fun _ => P.getCode)) d).run
        (some x) = (.panic, e) ↔
      ∃ w rest y, d.buf = text w ++ rest ∧ (countsF c.version).stop d.code true w rest ∧ e = some y ∧
        Spec.reported (x :: faults d.pos w) = some y := by
    intro c d
    rw [P_bind_run]
    have h1 : ∀ a d' e', ((Par.checked (Par.readCounts c.version)) d).run (some x) ≠ (.ok a d', e') := by
      intro a d' e' h
      have h2 := Sim.checked (Sim.readCounts c.version) d (some x)
      rw [h] at h2
      obtain ⟨a1, s1, h3, h4⟩ := M.bind_eq_ok h2.symm
      obtain ⟨_, s2, h5, _⟩ := M.bind_eq_ok h4
      obtain ⟨w, _, _, he, _⟩ := (FSem.ofSim (.readCounts _) (.readCounts c.version)).sound _ _ _ h3
      have hn := errAfter_isSome w (some x) d.pos
      unfold M.checkError at h5
      split at h5
      · cases h5
      · next hno =>
        have he : s1.errors = errAfter (some x) d.pos w := he
        rw [← he, hno] at hn
        cases hn
    have h2 := checkedCounts_panic c.version d.code d.buf d.pos x e
    rw [show (⟨d.buf, d.pos, d.code⟩ : Dec) = d from rfl] at h2
    have h3 : (((Par.checked (Par.readCounts c.version)) d).run (some x) = (.panic, e)) ↔
        ∃ w rest y, d.buf = text w ++ rest ∧ (countsF c.version).stop d.code true w rest ∧ e = some y ∧
          Spec.reported (x :: faults d.pos w) = some y := by
      rw [h2]
      constructor
      · rintro ⟨w, rest, hb, hs, rfl⟩
        have hn := errAfter_isSome w (some x) d.pos
        cases h4 : errAfter (some x) d.pos w with
        | none => rw [h4] at hn; cases hn
        | some y => exact ⟨w, rest, y, hb, hs, rfl, by rw [← errAfter_some]; exact h4⟩
      · rintro ⟨w, rest, y, hb, hs, rfl, hr⟩
        exact ⟨w, rest, hb, hs, by rw [errAfter_some]; exact hr.symm⟩
    rw [← h3]
    cases h4 : ((Par.checked (Par.readCounts c.version)) d).run (some x) with
    | mk r e' =>
      cases r with
      | ok a d' => exact absurd h4 (h1 _ _ _)
      | err z d' => exact ⟨fun h => (by cases h), fun h => (by cases h)⟩
      | panic => exact Iff.rfl
  have hstart := readStart_panic Code.new (some x) file 0 e
  have hsome : StartStop (some x) file 0 e ↔ (file <+: [0x48, 0x4C, 0x42] ∧ e = some x) := by
    unfold StartStop
    constructor
    · rintro (⟨⟨t, h⟩, rfl⟩ | ⟨rfl, rfl⟩)
      · exact ⟨⟨t ++ [0x42], by rw [← List.append_assoc, h]; rfl⟩, rfl⟩
      · exact ⟨⟨[], rfl⟩, rfl⟩
    · rintro ⟨⟨t, h⟩, rfl⟩
      match file, h with
      | [], _ => exact .inl ⟨⟨_, rfl⟩, rfl⟩
      | [a], h => simp at h; exact .inl ⟨⟨[0x4C], by simp [h.1]⟩, rfl⟩
      | [a, b], h => simp at h; exact .inl ⟨⟨[], by simp [h.1, h.2.1]⟩, rfl⟩
      | a :: b :: c :: r, h =>
        simp only [List.cons_append, List.cons.injEq, List.append_eq_nil_iff] at h
        exact .inr ⟨by simp [h.1, h.2.1, h.2.2.1, h.2.2.2.1], rfl⟩
  rcases Sim.readStart.cases ⟨file, 0, Code.new⟩ (some x) with ⟨c, d', e', h1, h2⟩ | ⟨z, d', e', h1, h2⟩ | ⟨e', h1, h2⟩
  · rw [h1]
    -- the version is right
    have hq := readStart_silent ⟨file, 0, Code.new, none⟩ (some x)
    have hq : readStart ⟨file, 0, Code.new, some x⟩ = (readStart ⟨file, 0, Code.new, none⟩).withErrors (some x) := hq
    have h2 : readStart ⟨file, 0, Code.new, some x⟩ = .ok c (d'.st e') := h2
    rw [h2] at hq
    cases h3 : readStart ⟨file, 0, Code.new, none⟩ with
    | err y s2 => rw [h3] at hq; cases hq
    | panic => rw [h3] at hq; cases hq
    | ok c2 s2 =>
      rw [h3] at hq
      have hq : Out.ok c (d'.st e') = .ok c2 { s2 with errors := some x } := hq
      injection hq with hq1 hq2
      subst hq1
      obtain ⟨_, k, hb, hp, hg⟩ := readStart_sem.sound _ _ _ trivial h3 (readStart_clean _ _ _ h3 rfl)
      obtain ⟨b', p', c'⟩ := d'
      obtain ⟨b2, p2, c2, e2⟩ := s2
      injection hq2 with i1 i2 i3 i4
      subst i1 i2 i3 i4
      have hb : file = k ++ b' := hb
      have hp : p' = 0 + k.length := hp
      have hg : upToCountsG noCode k c c' := hg
      subst hp
      refine (key c ⟨b', 0 + k.length, c'⟩).trans ?_
      rw [Nat.zero_add]
      constructor
      · rintro ⟨w, rest, y, hb', hs, rfl, hr⟩
        have hb' : b' = text w ++ rest := hb'
        exact ⟨y, rfl, .counts k rest w c c' y hg hs ((show file = k ++ b' from hb).trans (by rw [hb', List.append_assoc])) hr⟩
      · rintro ⟨y, rfl, h⟩
        cases h with
        | start h =>
          exfalso
          have := hstart.2 (hsome.2 ⟨h, rfl⟩)
          rw [h1] at this
          cases this
        | counts k2 rest w c2 c2' _ hg2 hs hf hr =>
          have h4 := readStart_sem.complete _ _ _ _ trivial hg2 (text w ++ rest) 0
          rw [← List.append_assoc, ← hf] at h4
          have h4 : readStart ⟨file, 0, Code.new, none⟩ = .ok c2 ⟨text w ++ rest, 0 + k2.length, c2', none⟩ := h4
          rw [h3] at h4
          injection h4 with j1 j2
          injection j2 with j3 j4 j5 j6
          subst j1 j3 j5
          have j4 : 0 + k.length = 0 + k2.length := j4
          rw [Nat.zero_add, Nat.zero_add] at j4
          exact ⟨w, rest, y, rfl, hs, rfl, by show Spec.reported (x :: faults k.length w) = _; rw [j4]; exact hr⟩
  · rw [h1]
    refine ⟨fun h => (by cases h), ?_⟩
    rintro ⟨y, rfl, h⟩
    exfalso
    cases h with
    | start h =>
      have := hstart.2 (hsome.2 ⟨h, rfl⟩)
      rw [h1] at this
      cases this
    | counts k2 rest w c2 c2' _ hg2 hs hf hr =>
      have h4 := readStart_sem.complete _ _ _ _ trivial hg2 (text w ++ rest) 0
      have hq := readStart_silent ⟨k2 ++ (text w ++ rest), 0, noCode, none⟩ (some x)
      rw [h4] at hq
      have hq : readStart ⟨k2 ++ (text w ++ rest), 0, Code.new, some x⟩ = .ok c2 ⟨text w ++ rest, 0 + k2.length, c2', some x⟩ := hq
      rw [← List.append_assoc, ← hf] at hq
      have h2 : readStart ⟨file, 0, Code.new, some x⟩ = .err z (d'.st e') := h2
      rw [h2] at hq
      cases hq
  · rw [h1]
    rw [h1] at hstart
    have h5 : StartStop (some x) file 0 e' := (readStart_panic Code.new (some x) file 0 e').1 h1
    have h6 : file <+: [0x48, 0x4C, 0x42] ∧ e' = some x := by
      have : StartStop (some x) file 0 e' ↔ (file <+: [0x48, 0x4C, 0x42] ∧ e' = some x) := by
        constructor
        · rintro (⟨⟨t, h⟩, rfl⟩ | ⟨rfl, rfl⟩)
          · exact ⟨⟨t ++ [0x42], by rw [← List.append_assoc, h]; rfl⟩, rfl⟩
          · exact ⟨⟨[], rfl⟩, rfl⟩
        · rintro ⟨_, rfl⟩; exact h5
      exact this.1 h5
    obtain ⟨h6, rfl⟩ := h6
    constructor
    · intro h; cases h; exact ⟨x, rfl, .start h6⟩
    · rintro ⟨y, rfl, h⟩
      cases h with
      | start _ => rfl
      | counts k2 rest w c2 c2' _ hg2 hs hf hr =>
        exfalso
        have h4 := readStart_sem.complete _ _ _ _ trivial hg2 (text w ++ rest) 0
        have hq := readStart_silent ⟨k2 ++ (text w ++ rest), 0, noCode, none⟩ (some x)
        rw [h4] at hq
        have hq : readStart ⟨k2 ++ (text w ++ rest), 0, Code.new, some x⟩ = .ok c2 ⟨text w ++ rest, 0 + k2.length, c2', some x⟩ := hq
        rw [← List.append_assoc, ← hf] at hq
        have h2 : readStart ⟨file, 0, Code.new, some x⟩ = .panic := h2
        rw [h2] at hq
        cases hq

/-- **C93** `Code::read`, in a process in which the error `x` is recorded, panics and leaves `e` recorded exactly if
`LeftBehindAfter`; it never clears the record. -/
theorem c93_left_behind_after (p : Profile) (x : DecodeError) (file : List UInt8) (e : Option DecodeError) :
    history p (some x) [file] = ([.panic], e) ↔ ∃ y, e = some y ∧ LeftBehindAfter x file y := by
  rw [run_panic_iff, readAfter_panic]

theorem call_iff (p : Profile) (file : List UInt8) (x : Option DecodeError) (a : Answer) (y : Option DecodeError) :
    history p x [file] = ([a], y) ↔ Call p file x a y := by
  cases x with
  | none =>
    cases a with
    | ok c =>
      rw [(c71_call p none file).1 c y]
      constructor
      · rintro ⟨s, h, rfl⟩
        obtain ⟨_, k, rest, hf, hg, h2⟩ := (c38_accepts_exactly_the_grammar p none file c s).1 h
        have h3 : s.errors = none := by rw [h2]
        rw [h3]
        exact .accepted k rest c _ hf hg
      · intro h
        cases h with
        | accepted k rest _ c' hf hg =>
          exact ⟨⟨rest, k.length, c', none⟩, (c38_accepts_exactly_the_grammar p none file c _).2 ⟨rfl, k, rest, hf, hg, rfl⟩, rfl⟩
    | err e =>
      rw [(c71_call p none file).2.1 e y]
      constructor
      · rintro ⟨s, h, rfl⟩
        have hr := (c87_rejected_iff p file e).1 ⟨s, h⟩
        obtain ⟨h1, h2⟩ := c91_recorded p file e s h
        by_cases hb : BadStart file ∨ NoTableSize file
        · rw [h1 hb]; exact .rejectedSilently e hr hb
        · rw [h2 hb]; exact .rejected e hr hb
      · intro h
        cases h with
        | rejectedSilently _ hr hb =>
          obtain ⟨s, h⟩ := (c87_rejected_iff p file e).2 hr
          exact ⟨s, h, (c91_recorded p file e s h).1 hb⟩
        | rejected _ hr hb =>
          obtain ⟨s, h⟩ := (c87_rejected_iff p file e).2 hr
          exact ⟨s, h, (c91_recorded p file e s h).2 hb⟩
    | panic =>
      rw [c93_left_behind]
      exact ⟨fun h => .panics y h, fun h => by cases h; assumption⟩
  | some x =>
    cases a with
    | ok c =>
      rw [(c71_call p (some x) file).1 c y]
      constructor
      · rintro ⟨s, h, rfl⟩
        obtain ⟨h1, _⟩ := (c38_accepts_exactly_the_grammar p (some x) file c s).1 h
        cases h1
      · intro h; cases h
    | err e =>
      rw [(c71_call p (some x) file).2.1 e y]
      constructor
      · rintro ⟨s, h, rfl⟩
        have hr := (c87_rejected_after_iff p x file e).1 ⟨s, h⟩
        obtain ⟨h1, h2⟩ := c91_recorded_after p x file e s h
        by_cases hb : BadStart file
        · rw [h1 hb]; exact .rejectedSilentlyAfter x e hr hb
        · rw [h2 hb]; exact .rejectedAfter x e hr hb
      · intro h
        cases h with
        | rejectedSilentlyAfter _ _ hr hb =>
          obtain ⟨s, h⟩ := (c87_rejected_after_iff p x file e).2 hr
          exact ⟨s, h, (c91_recorded_after p x file e s h).1 hb⟩
        | rejectedAfter _ _ hr hb =>
          obtain ⟨s, h⟩ := (c87_rejected_after_iff p x file e).2 hr
          exact ⟨s, h, (c91_recorded_after p x file e s h).2 hb⟩
    | panic =>
      rw [c93_left_behind_after]
      constructor
      · rintro ⟨z, rfl, h⟩; exact .panicsAfter x z h
      · intro h; cases h; exact ⟨_, rfl, by assumption⟩

/-- **C93** What any sequence of calls of `Code::read` answers, panics being caught, and what is recorded at the end: exactly
what `Calls` says, call by call. -/
theorem c93_history (p : Profile) (x : Option DecodeError) (files : List (List UInt8)) (as : List Answer) (y : Option DecodeError) :
    history p x files = (as, y) ↔ Calls p x files as y := by
  induction files generalizing x as with
  | nil =>
    constructor
    · intro h; cases h; exact .none _
    · intro h; cases h; rfl
  | cons file files ih =>
    have h1 : history p x [file] = ([((Par.read p file).run x).1.answer], ((Par.read p file).run x).2) := rfl
    have h2 : history p x (file :: files) = (((Par.read p file).run x).1.answer :: (history p ((Par.read p file).run x).2 files).1,
      (history p ((Par.read p file).run x).2 files).2) := rfl
    rw [h2]
    constructor
    · intro h
      injection h with h3 h4
      subst h3 h4
      exact .call _ _ _ _ _ _ _ ((call_iff _ _ _ _ _).1 h1) ((ih _ _).1 rfl)
    · intro h
      cases h with
      | call _ _ a as _ z _ hc hr =>
        have h3 := (call_iff _ _ _ _ _).2 hc
        rw [h1] at h3
        injection h3 with h4 h5
        injection h4 with h4
        subst h4 h5
        rw [(ih _ _).2 hr]

/-- **C93** `Calls` leaves nothing open: for every sequence of files, whatever was recorded before, there is exactly one list of
answers and one record. In particular every file is accepted, rejected with one error or panicked on, never two of them. -/
theorem c93_exactly_one_history (p : Profile) (x : Option DecodeError) (files : List (List UInt8)) :
    ∃ as y, Calls p x files as y ∧ as.length = files.length ∧ ∀ as' y', Calls p x files as' y' → as' = as ∧ y' = y := by
  refine ⟨_, _, (c93_history p x files _ _).1 rfl, ?_, ?_⟩
  · induction files generalizing x with
    | nil => rfl
    | cons file files ih => exact congrArg (· + 1) (ih _)
  · intro as' y' h
    have h := (c93_history p x files _ _).2 h
    exact ⟨by rw [h], by rw [h]⟩

/-- **C93** A single file, nothing being recorded: exactly one of the three holds, and what is reported or left is determined. -/
theorem c93_one_of_three (p : Profile) (file : List UInt8) :
    ((∃ k rest c c', file = k ++ rest ∧ fileG p noCode k c c') ∧ (∀ e, ¬ Rejected p file e) ∧ ∀ e, ¬ LeftBehind p file e) ∨
    ((¬ ∃ k rest c c', file = k ++ rest ∧ fileG p noCode k c c') ∧ (∃ e, Rejected p file e ∧ ∀ e', Rejected p file e' → e' = e) ∧
      ∀ e, ¬ LeftBehind p file e) ∨
    ((¬ ∃ k rest c c', file = k ++ rest ∧ fileG p noCode k c c') ∧ (∀ e, ¬ Rejected p file e) ∧
      ∃ e, LeftBehind p file e ∧ ∀ e', LeftBehind p file e' → e' = e) := by
  have hp := c87_panics_iff p file
  have hl : (∃ e, LeftBehind p file e) ↔ Code.read p none file = .panic := by
    rw [← Sim.read p file none]
    constructor
    · rintro ⟨e, h⟩
      have h := (run_panic_iff p none file e).1 ((c93_left_behind p file e).2 h)
      rw [h]; rfl
    · intro h
      cases hr : (Par.read p file).run none with
      | mk r e =>
        rw [hr] at h
        cases r with
        | ok a d => cases h
        | err z d => cases h
        | panic => exact ⟨e, (c93_left_behind p file e).1 ((run_panic_iff p none file e).2 hr)⟩
  have hu : ∀ e e', LeftBehind p file e → LeftBehind p file e' → e' = e := by
    intro e e' h h'
    have h := (run_panic_iff p none file e).1 ((c93_left_behind p file e).2 h)
    have h' := (run_panic_iff p none file e').1 ((c93_left_behind p file e').2 h')
    rw [h] at h'
    injection h' with _ h'
    exact h'.symm
  by_cases h1 : ∃ k rest c c', file = k ++ rest ∧ fileG p noCode k c c'
  · have h2 : ¬ ∃ e, Rejected p file e := fun h => hp.2 ⟨h1, h⟩
    exact .inl ⟨h1, fun e he => h2 ⟨e, he⟩, fun e he => (hp.1.1 (hl.1 ⟨e, he⟩)).1 h1⟩
  · by_cases h2 : ∃ e, Rejected p file e
    · obtain ⟨e, he⟩ := h2
      exact .inr (.inl ⟨h1, ⟨e, he, fun e' h' => c87_one_error p file e' e h' he⟩, fun e' h' => (hp.1.1 (hl.1 ⟨e', h'⟩)).2 ⟨e, he⟩⟩)
    · obtain ⟨e, he⟩ := hl.2 (hp.1.2 ⟨h1, h2⟩)
      exact .inr (.inr ⟨h1, fun e he => h2 ⟨e, he⟩, e, he, fun e' h' => hu e e' he h'⟩)

/-- **C93** In particular, whatever error a panic has left: from then on no file is accepted, and the record is never cleared. -/
theorem c93_never_accepted_again (p : Profile) (x : DecodeError) (files : List (List UInt8)) :
    (history p (some x) files).1.all (fun a => !a.isOk) = true ∧ (history p (some x) files).2.isSome = true := by
  have key : ∀ files x as y, Calls p x files as y → x.isSome = true → as.all (fun a => !a.isOk) = true ∧ y.isSome = true := by
    intro files x as y h
    induction h with
    | none x => intro hx; exact ⟨rfl, hx⟩
    | call file files a as x y z hc _ ih =>
      intro hx
      cases hc with
      | accepted => cases hx
      | rejectedSilently => cases hx
      | rejected => cases hx
      | panics => cases hx
      | rejectedSilentlyAfter x e => exact ⟨by simpa [Answer.isOk] using (ih rfl).1, (ih rfl).2⟩
      | rejectedAfter x e => exact ⟨by simpa [Answer.isOk] using (ih rfl).1, (ih rfl).2⟩
      | panicsAfter x e => exact ⟨by simpa [Answer.isOk] using (ih rfl).1, (ih rfl).2⟩
  exact key files (some x) _ _ ((c93_history p (some x) files _ _).1 rfl) rfl

/-! ## Examples -/

/-- What is left by a read that panics. -/
def leftBy (file : List UInt8) : Option (Option DecodeError) :=
  match (Par.read .release file).run none with
  | (.panic, e) => some e
  | _ => none

theorem leftBy_some {file : List UInt8} {e : Option DecodeError} (h : leftBy file = some e) : LeftBehind .release file e := by
  rw [← c93_left_behind, run_panic_iff]
  unfold leftBy at h
  split at h
  · next e' h' => cases h; exact h'
  · cases h

/-- What is left by a read that panics after `x`. -/
def leftByAfter (x : DecodeError) (file : List UInt8) : Option (Option DecodeError) :=
  match (Par.read .release file).run (some x) with
  | (.panic, e) => some e
  | _ => none

theorem leftByAfter_some {x : DecodeError} {file : List UInt8} {e : DecodeError} (h : leftByAfter x file = some (some e)) :
    LeftBehindAfter x file e := by
  unfold leftByAfter at h
  split at h
  · next e' h' =>
    cases h
    obtain ⟨y, h1, h2⟩ := (readAfter_panic .release x file (some e)).1 h'
    cases h1
    exact h2
  · cases h

-- the file ends in the magic
example : LeftBehind .release [0x48] none := leftBy_some (by decide +kernel)
-- the file ends after the magic
example : LeftBehind .release [0x48, 0x4C, 0x42] (some ⟨.noMoreData, 3⟩) := leftBy_some (by decide +kernel)
-- the counts are cut, after a negative one
example : LeftBehind .release (hdr 4 [0, 0xA0, 1, 0, 0]) (some ⟨.negativeIndex, 7⟩) := leftBy_some (by decide +kernel)
-- the counts are cut, all are right so far
example : LeftBehind .release (hdr 4 [0, 1, 0, 0]) none := leftBy_some (by decide +kernel)
-- the byte table is cut
example : LeftBehind .release (hdr 5 [0, 0, 0, 0, 0, 0, 0, 0, 0, 0, 0] ++ [0, 0, 0, 0] ++ [9, 0, 0, 0] ++ [1, 2]) (some ⟨.noMoreData, 23⟩) :=
  leftBy_some (by decide +kernel)
-- the size of the byte table is negative
example : LeftBehind .release (hdr 5 [0, 0, 0, 0, 0, 0, 0, 0, 0, 0, 0] ++ [0, 0, 0, 0] ++ [255, 255, 255, 255]) none :=
  leftBy_some (by decide +kernel)
-- two globals of types that do not exist, a third one is missing: the last fault is left
example : LeftBehind .release (hdr 4 [0, 0, 0, 0, 1, 3, 0, 0, 0, 0] ++ [0, 0, 0, 0] ++ [3] ++ [1, 2]) (some ⟨.invalidTypeIndex, 21⟩) :=
  leftBy_some (by decide +kernel)
-- a type of unknown kind, and another one that is missing: the unknown kind is left
example : LeftBehind .release (hdr 4 [0, 0, 0, 0, 2, 0, 0, 0, 0, 0] ++ [0, 0, 0, 0] ++ [99]) (some ⟨.invalidType, 19⟩) :=
  leftBy_some (by decide +kernel)
-- a function with an unknown instruction, and an instruction that is missing
example : LeftBehind .release (hdr 4 [0, 0, 0, 0, 1, 0, 0, 1, 0, 0] ++ [0, 0, 0, 0] ++ [3] ++ [0, 0, 0, 2] ++ [200]) (some ⟨.invalidOpcode, 24⟩) :=
  leftBy_some (by decide +kernel)
-- the second constant is cut: the faults of the first one would have been reported
example : LeftBehind .release (hdr 4 [0, 0, 0, 0, 0, 0, 0, 0, 2, 0] ++ [0, 0, 0, 0] ++ [0, 0] ++ [0xA0, 1]) (some ⟨.negativeIndex, 22⟩) :=
  leftBy_some (by decide +kernel)
-- after another error: it stays, or is replaced by a fault in the counts
example : LeftBehindAfter ⟨.invalidOpcode, 70⟩ [0x48, 0x4C, 0x42] ⟨.invalidOpcode, 70⟩ := leftByAfter_some (by decide +kernel)
example : LeftBehindAfter ⟨.invalidOpcode, 70⟩ (hdr 4 [0, 1, 0, 0]) ⟨.invalidOpcode, 70⟩ := leftByAfter_some (by decide +kernel)
example : LeftBehindAfter ⟨.invalidOpcode, 70⟩ (hdr 4 [0, 0xA0, 1, 0, 0]) ⟨.negativeIndex, 7⟩ := leftByAfter_some (by decide +kernel)
-- a panic in the version, and then a file that would be accepted, twice
example : Calls .release none [[0x48, 0x4C, 0x42], hdr 4 [0, 0, 0, 0, 0, 0, 0, 0, 0, 0] ++ [0, 0, 0, 0], [0x48, 0x4C]]
    [.panic, .err ⟨.noMoreData, 3⟩, .panic] (some ⟨.noMoreData, 3⟩) := by
  rw [← c93_history]
  rfl

end Verif.Brass
