import Verif.Brass.Interfere
import Verif.Brass.Threads
import Verif.Props.Decode
import Verif.Props.Finalize

/-!
# Panics that are caught, and several threads (C71-C74)
-/

namespace Verif.Brass

open Verif

/-! ## C71: histories with panics -/

/-- **C71** The answer to a call and the value `ERRORS` has afterwards are those of the sequential model, which says
nothing about `ERRORS` after a panic. -/
theorem c71_call (p : Profile) (e : Option DecodeError) (b : List UInt8) :
    (∀ c e', history p e [b] = ([.ok c], e') ↔ ∃ s, Code.read p e b = .ok c s ∧ s.errors = e') ∧
    (∀ x e', history p e [b] = ([.err x], e') ↔ ∃ s, Code.read p e b = .err x s ∧ s.errors = e') ∧
    ((∃ e', history p e [b] = ([.panic], e')) ↔ Code.read p e b = .panic) := by
  rw [← Sim.read p b e]
  simp only [history]
  generalize (Par.read p b).run e = r
  obtain ⟨r, e'⟩ := r
  cases r <;> simp [Res.answer, Res.out, Dec.st]
  · intro c e1
    constructor
    · rintro ⟨rfl, rfl⟩; exact ⟨_, ⟨rfl, rfl⟩, rfl⟩
    · rintro ⟨s, ⟨rfl, rfl⟩, rfl⟩; exact ⟨rfl, rfl⟩
  · intro c e1
    constructor
    · rintro ⟨rfl, rfl⟩; exact ⟨_, ⟨rfl, rfl⟩, rfl⟩
    · rintro ⟨s, ⟨rfl, rfl⟩, rfl⟩; exact ⟨rfl, rfl⟩

theorem history_append (p : Profile) (e : Option DecodeError) (fs gs : List (List UInt8)) :
    history p e (fs ++ gs) =
      ((history p e fs).1 ++ (history p (history p e fs).2 gs).1, (history p (history p e fs).2 gs).2) := by
  induction fs generalizing e with
  | nil => rfl
  | cons b r ih => simp only [List.cons_append, history, ih]

theorem history_length (p : Profile) (e : Option DecodeError) (fs : List (List UInt8)) :
    (history p e fs).1.length = fs.length := by
  induction fs generalizing e with
  | nil => rfl
  | cons b r ih => simp only [history, List.length_cons, ih]

/-- **C71** An error once recorded stays recorded, through calls that succeed, fail or panic. -/
theorem c71_recorded_for_ever (p : Profile) (e : Option DecodeError) (fs gs : List (List UInt8))
    (h : (history p e fs).2.isSome) : (history p e (fs ++ gs)).2.isSome := by
  rw [history_append]
  generalize (history p e fs).2 = e1 at h
  induction gs generalizing e1 with
  | nil => exact h
  | cons b r ih =>
    have h1 := (Ex.of_run (Par.read p b) e1).sticky (Rec.read p b) h
    exact ih _ h1

/-- **C71** Once an error is recorded, be it by a call that returned `Err` or by one that panicked, no later call returns
`Ok`. -/
theorem c71_no_ok_after (p : Profile) (e : Option DecodeError) (fs gs : List (List UInt8)) (h : (history p e fs).2.isSome)
    (i : Nat) (hi : fs.length ≤ i) (c : Code) : (history p e (fs ++ gs)).1[i]? ≠ some (.ok c) := by
  rw [history_append]
  simp only
  rw [List.getElem?_append_right (by rw [history_length]; exact hi), history_length]
  generalize i - fs.length = j
  generalize (history p e fs).2 = e1 at h
  induction gs generalizing e1 j with
  | nil => simp [history]
  | cons b r ih =>
    have h1 := (Ex.of_run (Par.read p b) e1).sticky (Rec.read p b) h
    cases j with
    | succ j => exact ih j _ h1
    | zero =>
      simp only [history, List.getElem?_cons_zero, ne_eq, Option.some.injEq]
      have h2 := Ex.of_run (Par.read p b) e1
      generalize (Par.read p b).run e1 = r at h2
      obtain ⟨r, e2⟩ := r
      cases r with
      | ok c' d =>
        have h3 := (Chk.readM p).clean h2
        rw [h3] at h
        cases h
      | err x d => intro h; cases h
      | panic => intro h; cases h

/-- **C71** As long as no error is recorded, calls that failed or panicked leave no trace: the next files are read as in
a fresh process. -/
theorem c71_fresh_while_clean (p : Profile) (fs gs : List (List UInt8)) (h : (history p none fs).2 = none) :
    (history p none (fs ++ gs)).1.drop fs.length = (history p none gs).1 := by
  rw [history_append, h]
  simp only
  rw [← history_length p none fs, List.drop_left]

/-- Check an answer and `ERRORS` after a call. -/
def checkHistory (h : List Answer × Option DecodeError) (f : List Answer → Option DecodeError → Bool) : Bool := f h.1 h.2

/-- The header of a file whose first count is negative, and nothing more. -/
def exNegative : List UInt8 := [0x48, 0x4C, 0x42, 4, 0xA0, 1]

theorem exNegative_history : (history .release none [exNegative, exFile]).1 = [.panic, .err ⟨.negativeIndex, 6⟩] := by
  have h : (match (history .release none [exNegative, exFile]).1 with
    | [.panic, .err x] => decide (x = ⟨.negativeIndex, 6⟩)
    | _ => false) = true := by decide +kernel
  split at h
  · next x e => rw [e, of_decide_eq_true h]
  · cases h

/-- **C71** A call that panics can record an error: then a perfectly good file is rejected, with an error that belongs to
the other file. -/
theorem c71_panic_poisons : ∃ b b' x c, (history .release none [b, b']).1 = [.panic, .err x] ∧ Accepts .release b' c := by
  obtain ⟨c, s, _, h, _⟩ := exFile_read
  exact ⟨exNegative, exFile, _, c, exNegative_history, s, h⟩

/-- **C71** A file that ends after the three magic bytes makes `Code::read` panic *and* record an error, so that no later
call in the process returns `Ok`. -/
theorem c71_missing_version_poisons (p : Profile) (gs : List (List UInt8)) (i : Nat) (c : Code) :
    history p none [[0x48, 0x4C, 0x42]] = ([.panic], some ⟨.noMoreData, 3⟩) ∧
    (history p none ([0x48, 0x4C, 0x42] :: gs)).1[i]? ≠ some (.ok c) := by
  have h : history p none [[0x48, 0x4C, 0x42]] = ([.panic], some ⟨.noMoreData, 3⟩) := rfl
  refine ⟨h, ?_⟩
  cases i with
  | succ i => exact c71_no_ok_after p none [[0x48, 0x4C, 0x42]] gs (by rw [h]; rfl) (i + 1) (by simp) c
  | zero =>
    rw [show [0x48, 0x4C, 0x42] :: gs = [[0x48, 0x4C, 0x42]] ++ gs from rfl, history_append, h]
    intro h
    cases h

/-- A version 5 file that announces 8 bytes of data and contains 2. -/
def exShortBytes : List UInt8 := [0x48, 0x4C, 0x42, 5] ++ List.replicate 11 0 ++ [0, 0, 0, 0] ++ [8, 0, 0, 0] ++ [1, 2]

/-- **C71** So does a file that ends inside the section of bytes. -/
theorem c71_short_bytes_poison (gs : List (List UInt8)) (i : Nat) (c : Code) :
    (history .release none (exShortBytes :: gs)).1[0]? = some .panic ∧
    (history .release none (exShortBytes :: gs)).1[i]? ≠ some (.ok c) := by
  have h : (match (history .release none [exShortBytes]) with
    | ([.panic], some e) => decide (e = ⟨.noMoreData, 23⟩)
    | _ => false) = true := by decide +kernel
  split at h
  · next e he =>
    rw [show exShortBytes :: gs = [exShortBytes] ++ gs from rfl]
    constructor
    · rw [history_append, he]
      rfl
    · cases i with
      | succ i => exact c71_no_ok_after .release none [exShortBytes] gs (by rw [he]; rfl) (i + 1) (by simp) c
      | zero =>
        rw [history_append, he]
        intro h
        cases h
  · cases h

/-- **C71** A call that panics can leave `ERRORS` as it was: the good file is accepted after a truncated one. -/
theorem c71_panic_leaves_clean : ∃ b b' c, (history .release none [b, b']).1 = [.panic, .ok c] ∧ Accepts .release b' c := by
  obtain ⟨c, s, _, h, _⟩ := exFile_read
  refine ⟨[0x48], exFile, c, ?_, s, h⟩
  have h1 : history .release none [[0x48]] = ([.panic], none) := by rfl
  rw [show [[0x48], exFile] = [[0x48]] ++ [exFile] from rfl, history_append, h1]
  have h2 := Sim.read .release exFile none
  rw [h] at h2
  simp only [history, List.cons_append, List.nil_append, List.cons.injEq, true_and, and_true]
  generalize (Par.read .release exFile).run none = r at h2
  obtain ⟨r, e⟩ := r
  cases r with
  | ok c' d => cases h2; rfl
  | err x d => cases h2
  | panic => cases h2

/-! ## The steps of a process -/

theorem Accepts.of_run {p : Profile} {b : List UInt8} {c : Code} {d : Dec} {e : Option DecodeError}
    (h : (Par.read p b).run none = (.ok c d, e)) : Accepts p b c :=
  ⟨d.st e, by rw [← Sim.read, h]; rfl⟩

theorem Accepts.run {p : Profile} {b : List UInt8} {c : Code} (h : Accepts p b c) :
    ∃ d, (Par.read p b).run none = (.ok c d, none) := by
  obtain ⟨s, h⟩ := h
  have h1 := (c29_ok_no_error p none b c s h).2
  have h2 := Sim.read p b none
  rw [h] at h2
  generalize (Par.read p b).run none = r at h2
  obtain ⟨r, e⟩ := r
  cases r with
  | ok c' d =>
    cases h2
    exact ⟨d, by rw [show e = none from h1]⟩
  | err x d => cases h2
  | panic => cases h2

/-- The steps of a process preserve whatever the steps of its threads preserve, if it is stable under what the other
threads do to `ERRORS`. -/
theorem Process.step_inv {p : Profile} {I : Option DecodeError → Thread → Prop} {R : Option DecodeError → Option DecodeError → Prop}
    (hstep : ∀ e t, I e t → R e (t.step p e).1 ∧ I (t.step p e).1 (t.step p e).2)
    (hstable : ∀ e e' t, R e e' → I e t → I e' t) (s : Process) (i : Nat) (h : ∀ t ∈ s.threads, I s.errors t) :
    ∀ t ∈ (s.step p i).threads, I (s.step p i).errors t := by
  unfold Process.step
  cases hi : s.threads[i]? with
  | none => exact h
  | some t0 =>
    obtain ⟨h1, h2⟩ := hstep s.errors t0 (h t0 (List.mem_of_getElem? hi))
    intro t ht
    rcases List.mem_or_eq_of_mem_set ht with ht | rfl
    · exact hstable _ _ _ h1 (h t ht)
    · exact h2

theorem Process.run_inv {p : Profile} {I : Process → Prop} (h : ∀ s i, I s → I (s.step p i)) (s : Process) (sched : List Nat) (h0 : I s) :
    I (s.run p sched) := by
  unfold Process.run
  induction sched generalizing s with
  | nil => exact h0
  | cons i r ih => exact ih _ (h s i h0)

/-! ## C72: files that are accepted alone -/

/-- Invariant of a thread that reads only good files. -/
def AllGood (p : Profile) (e : Option DecodeError) (t : Thread) : Prop :=
  e = none ∧ (∀ b ∈ t.todo, ∃ c, Accepts p b c) ∧
  (∀ b u, t.cur = some (b, u) → u.Records ∧ ∃ c d, u.run none = (.ok c d, none) ∧ Accepts p b c) ∧
  ∀ b a, (b, a) ∈ t.answers → ∃ c, a = .ok c ∧ Accepts p b c

theorem AllGood.step {p : Profile} {e : Option DecodeError} {t : Thread} (h : AllGood p e t) :
    e = (t.step p e).1 ∧ AllGood p (t.step p e).1 (t.step p e).2 := by
  obtain ⟨rfl, h1, h2, h3⟩ := h
  unfold Thread.step
  split
  · next hc =>
    split
    · exact ⟨rfl, rfl, h1, h2, h3⟩
    · next b r ht =>
      refine ⟨rfl, rfl, fun x hx => h1 x (by rw [ht]; exact List.mem_cons_of_mem _ hx), ?_, h3⟩
      intro b' u hb
      cases hb
      obtain ⟨c, hc⟩ := h1 b (by rw [ht]; exact List.mem_cons_self)
      obtain ⟨d, hd⟩ := hc.run
      exact ⟨Rec.read p b, c, d, hd, hc⟩
  · next b r hc =>
    obtain ⟨_, c, d, hr, ha⟩ := h2 _ _ hc
    refine ⟨rfl, rfl, h1, by simp, ?_⟩
    intro b' a hm
    rcases List.mem_append.1 hm with hm | hm
    · exact h3 b' a hm
    · cases List.mem_singleton.1 hm
      simp only [Tree.run, Prod.mk.injEq, and_true] at hr
      rw [hr]
      exact ⟨c, rfl, ha⟩
  · next b k hc =>
    obtain ⟨hrec, c, d, hr, ha⟩ := h2 _ _ hc
    refine ⟨rfl, rfl, h1, ?_, h3⟩
    intro b' u hb
    cases hb
    exact ⟨hrec _, c, d, hr, ha⟩
  · next b v u hc =>
    obtain ⟨hrec, c, d, hr, ha⟩ := h2 _ _ hc
    have h4 := (Ex.of_run u v).sticky hrec.2 hrec.1
    have h5 : u.run v = (.ok c d, none) := hr
    rw [h5] at h4
    cases h4

/-- **C72** If every file read by any thread is accepted when read alone, then under every schedule every call returns
`Ok`, with the same contents as when read alone. -/
theorem c72_good_files (p : Profile) (files : List (List (List UInt8))) (h : ∀ fs ∈ files, ∀ b ∈ fs, ∃ c, Accepts p b c)
    (schedule : List Nat) :
    ∀ t ∈ ((Process.start none files).run p schedule).threads, ∀ b a, (b, a) ∈ t.answers → ∃ c, a = .ok c ∧ Accepts p b c := by
  have h1 := Process.run_inv (p := p) (I := fun s => ∀ t ∈ s.threads, AllGood p s.errors t)
    (fun s i => Process.step_inv (R := fun e e' => e = e') (fun _ _ h => h.step) (fun _ _ _ h1 h2 => h1 ▸ h2) s i)
    (Process.start none files) schedule (by
      intro t ht
      obtain ⟨fs, hfs, rfl⟩ := List.mem_map.1 ht
      exact ⟨rfl, h fs hfs, by simp, by simp⟩)
  exact fun t ht => (h1 t ht).2.2.2

/-! ## C73: arbitrary files -/

/-- Invariant of any thread: what it is reading can only end with the right `Ok`. -/
def RightOk (p : Profile) (e : Option DecodeError) (t : Thread) : Prop :=
  (∀ b u, t.cur = some (b, u) → u.Records ∧ ∀ c d e', Ex u e (.ok c d) e' → Accepts p b c) ∧
  ∀ b c, (b, .ok c) ∈ t.answers → Accepts p b c

theorem RightOk.step {p : Profile} {e : Option DecodeError} {t : Thread} (h : RightOk p e t) :
    (e.isSome → (t.step p e).1.isSome) ∧ RightOk p (t.step p e).1 (t.step p e).2 := by
  obtain ⟨h2, h3⟩ := h
  unfold Thread.step
  split
  · next hc =>
    split
    · exact ⟨id, h2, h3⟩
    · next b r ht =>
      refine ⟨id, ?_, h3⟩
      intro b' u hb
      cases hb
      exact ⟨Rec.read p b, fun c d e' hx => Accepts.of_run ((Chk.readM p).alone hx)⟩
  · next b r hc =>
    obtain ⟨_, ha⟩ := h2 _ _ hc
    refine ⟨id, by simp, ?_⟩
    intro b' c hm
    rcases List.mem_append.1 hm with hm | hm
    · exact h3 b' c hm
    · have h4 := List.mem_singleton.1 hm
      simp only [Prod.mk.injEq] at h4
      obtain ⟨rfl, h4⟩ := h4
      cases r with
      | ok c' d =>
        cases h4
        exact ha c d e (.done _ _)
      | err => cases h4
      | panic => cases h4
  · next b k hc =>
    obtain ⟨hrec, ha⟩ := h2 _ _ hc
    refine ⟨id, ?_, h3⟩
    intro b' u hb
    cases hb
    exact ⟨hrec _, fun c d e' hx => ha c d e' (.get hx)⟩
  · next b v u hc =>
    obtain ⟨hrec, ha⟩ := h2 _ _ hc
    refine ⟨fun _ => hrec.1, ?_, h3⟩
    intro b' u hb
    cases hb
    exact ⟨hrec.2, fun c d e' hx => ha c d e' (.set hx)⟩

theorem RightOk.stable {p : Profile} {e e' : Option DecodeError} {t : Thread} (h : e.isSome → e'.isSome) (ht : RightOk p e t) :
    RightOk p e' t :=
  ⟨fun b u hb => ⟨(ht.1 b u hb).1, fun c d e1 hx => (ht.1 b u hb).2 c d e1 (.env h hx)⟩, ht.2⟩

theorem RightOk.start (p : Profile) (e : Option DecodeError) (files : List (List (List UInt8))) :
    ∀ t ∈ (Process.start e files).threads, RightOk p e t := by
  intro t ht
  obtain ⟨fs, hfs, rfl⟩ := List.mem_map.1 ht
  exact ⟨by simp, by simp⟩

theorem RightOk.run (p : Profile) (e : Option DecodeError) (files : List (List (List UInt8))) (schedule : List Nat) :
    ∀ t ∈ ((Process.start e files).run p schedule).threads, RightOk p ((Process.start e files).run p schedule).errors t :=
  Process.run_inv (p := p) (I := fun s => ∀ t ∈ s.threads, RightOk p s.errors t)
    (fun s i => Process.step_inv (R := fun e e' => e.isSome → e'.isSome) (fun _ _ h => h.step) (fun _ _ _ h1 h2 => h2.stable h1) s i)
    (Process.start e files) schedule (RightOk.start p e files)

/-- **C73** Whatever the other threads read, and whatever the schedule: if a call returns `Ok(c)`, then the file is
accepted when read alone, and its contents are `c`. -/
theorem c73_ok_is_right (p : Profile) (e : Option DecodeError) (files : List (List (List UInt8))) (schedule : List Nat) :
    ∀ t ∈ ((Process.start e files).run p schedule).threads, ∀ b c, (b, .ok c) ∈ t.answers → Accepts p b c :=
  fun t ht => (RightOk.run p e files schedule t ht).2

/-- Invariant of a thread that was idle, with the answers `old`, when an error was recorded. -/
def Poisoned (i : Nat) (old : List (List UInt8 × Answer)) (s : Process) : Prop :=
  (∀ t ∈ s.threads, ∀ b u, t.cur = some (b, u) → u.Records) ∧ s.errors.isSome ∧
  ∀ t, s.threads[i]? = some t → (∀ b u, t.cur = some (b, u) → ∀ c d e', ¬ Ex u s.errors (.ok c d) e') ∧
    ∃ new, t.answers = old ++ new ∧ ∀ b a, (b, a) ∈ new → a.isOk = false

theorem Process.step_errors {p : Profile} {s : Process} {j : Nat} (h : ∀ t ∈ s.threads, ∀ b u, t.cur = some (b, u) → u.Records) :
    (s.errors.isSome → (s.step p j).errors.isSome) ∧
    ∀ t ∈ (s.step p j).threads, ∀ b u, t.cur = some (b, u) → u.Records := by
  unfold Process.step
  cases hj : s.threads[j]? with
  | none => exact ⟨id, h⟩
  | some t0 =>
    have h0 := h t0 (List.mem_of_getElem? hj)
    have key : (s.errors.isSome → (t0.step p s.errors).1.isSome) ∧
        ∀ b u, (t0.step p s.errors).2.cur = some (b, u) → u.Records := by
      unfold Thread.step
      split
      · split
        · exact ⟨id, h0⟩
        · refine ⟨id, ?_⟩
          intro b' u hb
          cases hb
          exact Rec.read p _
      · exact ⟨id, by simp⟩
      · next b k hc =>
        refine ⟨id, ?_⟩
        intro b' u hb
        cases hb
        exact h0 _ _ hc _
      · next b v u hc =>
        refine ⟨fun _ => (h0 _ _ hc).1, ?_⟩
        intro b' u hb
        cases hb
        exact (h0 _ _ hc).2
    refine ⟨key.1, ?_⟩
    intro t ht
    rcases List.mem_or_eq_of_mem_set ht with ht | rfl
    · exact h t ht
    · exact key.2

theorem Poisoned.step {p : Profile} {i : Nat} {old : List (List UInt8 × Answer)} {s : Process} (j : Nat) (h : Poisoned i old s) :
    Poisoned i old (s.step p j) := by
  obtain ⟨h1, h2, h3⟩ := h
  obtain ⟨h4, h5⟩ := Process.step_errors (p := p) (j := j) h1
  refine ⟨h5, h4 h2, ?_⟩
  intro t ht
  cases hj : s.threads[j]? with
  | none =>
    have : s.step p j = s := by unfold Process.step; rw [hj]
    rw [this] at ht ⊢
    exact h3 t ht
  | some t0 =>
    have he : s.step p j = { errors := (t0.step p s.errors).1, threads := s.threads.set j (t0.step p s.errors).2 } := by
      unfold Process.step; rw [hj]
    by_cases hij : j = i
    · subst hij
      have hlen : j < s.threads.length := (List.getElem?_eq_some_iff.1 hj).1
      rw [he] at ht
      simp only [List.getElem?_set_self hlen, Option.some.injEq] at ht
      obtain ⟨h6, new, h7, h8⟩ := h3 t0 hj
      rw [he]
      subst ht
      unfold Thread.step
      split
      · split
        · exact ⟨h6, new, h7, h8⟩
        · refine ⟨?_, new, h7, h8⟩
          intro b' u hb c d e' hx
          cases hb
          have h9 := (Chk.readM p).clean hx
          simp only at h9
          rw [h9] at h2
          cases h2
      · next b r hc =>
        refine ⟨by simp, new ++ [(b, r.answer)], by simp [h7], ?_⟩
        intro b' a hm
        rcases List.mem_append.1 hm with hm | hm
        · exact h8 b' a hm
        · cases List.mem_singleton.1 hm
          cases r with
          | ok c d => exact absurd (.done _ _) (h6 _ _ hc c d s.errors)
          | err => rfl
          | panic => rfl
      · next b k hc =>
        refine ⟨?_, new, h7, h8⟩
        intro b' u hb c d e' hx
        cases hb
        exact h6 _ _ hc c d e' (.get hx)
      · next b v u hc =>
        refine ⟨?_, new, h7, h8⟩
        intro b' u hb c d e' hx
        cases hb
        exact h6 _ _ hc c d e' (.set hx)
    · rw [he] at ht
      simp only [List.getElem?_set_ne hij] at ht
      obtain ⟨h6, h7⟩ := h3 t ht
      refine ⟨?_, h7⟩
      intro b u hb c d e' hx
      exact h6 b u hb c d e' (.env (fun _ => h4 h2) hx)

/-- **C73** If, at some moment, an error is recorded and thread `i` is between two calls, then none of its later calls
returns `Ok`, under every schedule. -/
theorem c73_no_ok_after_error (p : Profile) (e : Option DecodeError) (files : List (List (List UInt8))) (before after : List Nat)
    (i : Nat) (t t' : Thread) (h : ((Process.start e files).run p before).errors.isSome)
    (ht : ((Process.start e files).run p before).threads[i]? = some t) (hc : t.cur = none)
    (ht' : ((Process.start e files).run p (before ++ after)).threads[i]? = some t') :
    ∃ new, t'.answers = t.answers ++ new ∧ ∀ b a, (b, a) ∈ new → a.isOk = false := by
  have h1 : Poisoned i t.answers ((Process.start e files).run p before) := by
    refine ⟨fun x hx b u hb => ((RightOk.run p e files before x hx).1 b u hb).1, h, ?_⟩
    intro x hx
    rw [ht] at hx
    cases hx
    exact ⟨by simp [hc], [], by simp, by simp⟩
  have h2 := Process.run_inv (p := p) (fun s j hs => hs.step j) _ after h1
  rw [show (Process.start e files).run p (before ++ after) = ((Process.start e files).run p before).run p after from
    List.foldl_append] at ht'
  exact (h2.2.2 t' ht').2

theorem of_any {α : Type} {o : Option α} {f : α → Bool} (h : o.any f = true) : ∃ t, o = some t ∧ f t = true := by
  cases o with
  | none => cases h
  | some t => exact ⟨t, rfl, h⟩

/-- **C73** Interference is real: thread 1 has already begun to read a good file when thread 0 reads a bad one, and the
call of thread 1 returns the error of thread 0. -/
theorem c73_error_of_another_thread : ∃ (b : List UInt8) (c : Code) (e : DecodeError) (bad : List UInt8) (schedule : List Nat) (t : Thread),
    Accepts .release b c ∧ ((Process.start none [[bad], [b]]).run .release schedule).threads[1]? = some t ∧
    t.answers = [(b, .err e)] := by
  obtain ⟨c, s, _, h, _⟩ := exFile_read
  have h1 : ((Process.start none [[exNegative], [exFile]]).run .release
      ([1] ++ List.replicate 3 0 ++ List.replicate 10 1)).threads[1]?.any (fun t => match t.answers with
        | [(b, .err e)] => decide (b = exFile) && decide (e = ⟨.negativeIndex, 6⟩)
        | _ => false) = true := by decide +kernel
  obtain ⟨t, ht, h2⟩ := of_any h1
  split at h2
  · next b e he =>
    rw [Bool.and_eq_true] at h2
    have hb := of_decide_eq_true h2.1
    subst hb
    exact ⟨exFile, c, e, exNegative, _, t, ⟨s, h⟩, ht, he⟩
  · cases h2

/-! ## C74: every call returns -/

theorem Process.after_succ (p : Profile) (s : Process) (schedule : Nat → Nat) (n : Nat) :
    s.after p schedule (n + 1) = (s.after p schedule n).step p (schedule n) := by
  unfold Process.after Process.run
  rw [List.range_succ, List.map_append, List.foldl_append]
  rfl

/-- A thread that is not scheduled does not change. -/
theorem Process.step_other {p : Profile} {s : Process} {i j : Nat} (h : j ≠ i) : (s.step p j).threads[i]? = s.threads[i]? := by
  unfold Process.step
  split
  · rfl
  · exact List.getElem?_set_ne h

theorem Process.step_self {p : Profile} {s : Process} {i : Nat} {t : Thread} (h : s.threads[i]? = some t) :
    (s.step p i).threads[i]? = some (t.step p s.errors).2 := by
  unfold Process.step
  rw [h]
  exact List.getElem?_set_self (List.getElem?_eq_some_iff.1 h).1

section
variable {p : Profile} {s : Process} {schedule : Nat → Nat} {i : Nat}

/-- The next step of thread `i`. -/
theorem Process.next (hfair : ∀ n, ∃ m, n ≤ m ∧ schedule m = i) {n : Nat} {t : Thread} (h : (s.after p schedule n).threads[i]? = some t) :
    ∃ m e, n ≤ m ∧ (s.after p schedule (m + 1)).threads[i]? = some (t.step p e).2 := by
  obtain ⟨m, hm, hs⟩ := hfair n
  obtain ⟨k, rfl⟩ := Nat.exists_eq_add_of_le hm
  clear hm
  induction k generalizing n with
  | zero =>
    refine ⟨n, (s.after p schedule n).errors, Nat.le_refl _, ?_⟩
    rw [Process.after_succ]
    rw [Nat.add_zero] at hs
    rw [hs]
    exact Process.step_self h
  | succ k ih =>
    by_cases hn : schedule n = i
    · refine ⟨n, (s.after p schedule n).errors, Nat.le_refl _, ?_⟩
      rw [Process.after_succ, hn]
      exact Process.step_self h
    · obtain ⟨m, e, h1, h2⟩ := ih (n := n + 1) (by rw [Process.after_succ, Process.step_other hn]; exact h)
        (by rw [← hs]; congr 1; omega)
      exact ⟨m, e, by omega, h2⟩

theorem Process.returns (hfair : ∀ n, ∃ m, n ≤ m ∧ schedule m = i) (u : Tree Code) {n : Nat} {t : Thread} {b : List UInt8}
    (h : (s.after p schedule n).threads[i]? = some t) (hc : t.cur = some (b, u)) :
    ∃ m a, n ≤ m ∧ (s.after p schedule m).threads[i]? = some { todo := t.todo, cur := none, answers := t.answers ++ [(b, a)] } := by
  induction u generalizing n t with
  | done r =>
    obtain ⟨m, e, h1, h2⟩ := Process.next hfair h
    refine ⟨m + 1, r.answer, by omega, ?_⟩
    rw [h2]
    unfold Thread.step
    rw [hc]
  | get k ih =>
    obtain ⟨m, e, h1, h2⟩ := Process.next hfair h
    have h3 : (t.step p e).2 = { t with cur := some (b, k e) } := by unfold Thread.step; rw [hc]
    rw [h3] at h2
    obtain ⟨m', a, h4, h5⟩ := ih e h2 rfl
    exact ⟨m', a, by omega, h5⟩
  | set v u ih =>
    obtain ⟨m, e, h1, h2⟩ := Process.next hfair h
    have h3 : (t.step p e).2 = { t with cur := some (b, u) } := by unfold Thread.step; rw [hc]
    rw [h3] at h2
    obtain ⟨m', a, h4, h5⟩ := ih h2 rfl
    exact ⟨m', a, by omega, h5⟩

theorem Process.all_return (hfair : ∀ n, ∃ m, n ≤ m ∧ schedule m = i) (fs : List (List UInt8)) {n : Nat}
    {old : List (List UInt8 × Answer)} (h : (s.after p schedule n).threads[i]? = some { todo := fs, cur := none, answers := old }) :
    ∃ m new, (s.after p schedule m).threads[i]? = some { todo := [], cur := none, answers := old ++ new } ∧ new.map Prod.fst = fs := by
  induction fs generalizing n old with
  | nil => exact ⟨n, [], by simpa using h, rfl⟩
  | cons b r ih =>
    obtain ⟨m, e, h1, h2⟩ := Process.next hfair h
    obtain ⟨m', a, h3, h4⟩ := Process.returns hfair (Par.read p b) h2 rfl
    obtain ⟨m'', new, h5, h6⟩ := ih (n := m') (old := old ++ [(b, a)]) h4
    exact ⟨m'', (b, a) :: new, by simpa using h5, by simp [h6]⟩

end

/-- **C74** Under every schedule that lets thread `i` run again and again, every call of thread `i` returns or panics, whatever
the other threads do: after finitely many steps it has an answer for each of its files, in order. -/
theorem c74_every_call_returns (p : Profile) (e : Option DecodeError) (files : List (List (List UInt8))) (schedule : Nat → Nat) (i : Nat)
    (fs : List (List UInt8)) (hi : files[i]? = some fs) (hfair : ∀ n, ∃ m, n ≤ m ∧ schedule m = i) :
    ∃ n t, ((Process.start e files).after p schedule n).threads[i]? = some t ∧ t.cur = none ∧ t.answers.map Prod.fst = fs := by
  have h0 : ((Process.start e files).after p schedule 0).threads[i]? = some { todo := fs, cur := none, answers := [] } := by
    show (List.map _ files)[i]? = _
    rw [List.getElem?_map, hi]
    rfl
  obtain ⟨n, new, h1, h2⟩ := Process.all_return hfair fs h0
  exact ⟨n, _, h1, rfl, by simpa using h2⟩

/-- Running the only thread of a process until its call ends. -/
theorem Process.run_call (p : Profile) (u : Tree Code) (e : Option DecodeError) (todo : List (List UInt8)) (b : List UInt8)
    (old : List (List UInt8 × Answer)) : ∃ n,
    Process.run p { errors := e, threads := [{ todo := todo, cur := some (b, u), answers := old }] } (List.replicate n 0) =
      { errors := (u.run e).2, threads := [{ todo := todo, cur := none, answers := old ++ [(b, (u.run e).1.answer)] }] } := by
  induction u generalizing e with
  | done r => exact ⟨1, rfl⟩
  | get k ih =>
    obtain ⟨n, hn⟩ := ih e e
    exact ⟨n + 1, hn⟩
  | set v u ih =>
    obtain ⟨n, hn⟩ := ih v
    exact ⟨n + 1, hn⟩

theorem Process.run_thread (p : Profile) (fs : List (List UInt8)) (e : Option DecodeError) (old : List (List UInt8 × Answer)) : ∃ n,
    Process.run p { errors := e, threads := [{ todo := fs, cur := none, answers := old }] } (List.replicate n 0) =
      { errors := (history p e fs).2, threads := [{ todo := [], cur := none, answers := old ++ fs.zip (history p e fs).1 }] } := by
  induction fs generalizing e old with
  | nil => exact ⟨0, by simp [Process.run, history]⟩
  | cons b r ih =>
    obtain ⟨n, hn⟩ := Process.run_call p (Par.read p b) e r b old
    obtain ⟨m, hm⟩ := ih ((Par.read p b).run e).2 (old ++ [(b, ((Par.read p b).run e).1.answer)])
    refine ⟨1 + n + m, ?_⟩
    rw [← List.replicate_append_replicate, ← List.replicate_append_replicate]
    unfold Process.run at *
    rw [List.foldl_append, List.foldl_append]
    show List.foldl (Process.step p) (List.foldl (Process.step p)
      { errors := e, threads := [{ todo := r, cur := some (b, Par.read p b), answers := old }] } (List.replicate n 0)) (List.replicate m 0) = _
    rw [hn, hm]
    simp [history]

/-- **C74** A process with a single thread behaves like the histories of C71, if the thread runs long enough (and then
does nothing more). -/
theorem c74_one_thread_is_history (p : Profile) (e : Option DecodeError) (fs : List (List UInt8)) :
    ∃ n, ∀ m, n ≤ m → ∃ s, (Process.start e [fs]).run p (List.replicate m 0) = s ∧ s.errors = (history p e fs).2 ∧
      s.threads = [{ todo := [], cur := none, answers := fs.zip (history p e fs).1 }] := by
  obtain ⟨n, hn⟩ := Process.run_thread p fs e []
  refine ⟨n, fun m hm => ⟨_, rfl, ?_⟩⟩
  obtain ⟨k, rfl⟩ := Nat.exists_eq_add_of_le hm
  have h : (Process.start e [fs]).run p (List.replicate (n + k) 0) =
      { errors := (history p e fs).2, threads := [{ todo := [], cur := none, answers := fs.zip (history p e fs).1 }] } := by
    induction k with
    | zero => simpa [Process.start] using hn
    | succ k ih =>
      rw [show n + (k + 1) = (n + k) + 1 from rfl, List.replicate_succ']
      unfold Process.run at *
      rw [List.foldl_append, ih (by omega)]
      rfl
  rw [h]
  exact ⟨rfl, rfl⟩

/-! ## The hypotheses are met -/

/-- C72, C74: two threads, one good file each, running alternately; both get `Ok` (after 40 steps). -/
example : (∀ fs ∈ [[exFile], [exFile]], ∀ b ∈ fs, ∃ c, Accepts .release b c) ∧
    (∀ i < 2, (((Process.start none [[exFile], [exFile]]).after .release (fun n => n % 2) 40).threads[i]?.any fun t =>
      decide (t.answers.length = 1) && t.answers.all fun x => x.2.isOk) = true) ∧
    ∀ i < 2, ∀ n, ∃ m, n ≤ m ∧ m % 2 = i := by
  refine ⟨?_, by decide +kernel, fun i hi n => ⟨2 * n + i, by omega, by omega⟩⟩
  intro fs hfs b hb
  obtain ⟨c, s, _, h, _⟩ := exFile_read
  have : b = exFile := by simp at hfs; subst hfs; simpa using hb
  exact ⟨c, s, this ▸ h⟩

/-- C73: a schedule after which an error is recorded while thread 1 has got an answer `Ok`, is between two calls, and
still has a file to read. -/
example : ((Process.start none [[exNegative], [exFile, exFile]]).run .release (List.replicate 10 1 ++ List.replicate 3 0)).errors.isSome = true ∧
    (((Process.start none [[exNegative], [exFile, exFile]]).run .release (List.replicate 10 1 ++ List.replicate 3 0)).threads[1]?.any fun t =>
      t.cur.isNone && decide (t.todo = [exFile]) && t.answers.all fun x => x.2.isOk) = true := by
  constructor <;> decide +kernel

end Verif.Brass
