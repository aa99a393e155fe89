import Verif.Brass.Blame
import Verif.Props.Threads

/-!
# Whose error is it? (C82, C83)
-/

namespace Verif.Brass

open Verif

theorem isAlone_iff {p : Profile} {b : List UInt8} {a : Answer} : IsAlone p b a ↔ a = ((Par.read p b).run none).1.answer := by
  unfold IsAlone history
  simp only [history, Prod.mk.injEq, List.cons.injEq, and_true]
  constructor
  · rintro ⟨e, h, _⟩; exact h.symm
  · rintro rfl; exact ⟨_, rfl, rfl⟩

theorem quiet_iff {p : Profile} {b : List UInt8} : Quiet p b ↔ ((Par.read p b).run none).2 = none := Iff.rfl

theorem Res.Like.answer {r r' : Res Code} (h : r.Like r') : r.answer.SameButError r'.answer := by
  cases r <;> cases r' <;> first | exact h.elim | exact h.1 | trivial

/-! ## C82: quiet files -/

/-- What is known of the running call of a quiet file. -/
def QuietCall (p : Profile) (b : List UInt8) (u : Tree Code) : Prop :=
  u.Records ∧ u.run none = (Par.read p b).run none ∧ Quiet p b

/-- Invariant of a thread that reads only quiet files. -/
def AllQuiet (p : Profile) (e : Option DecodeError) (t : Thread) : Prop :=
  e = none ∧ (∀ b ∈ t.todo, Quiet p b) ∧ (∀ b u, t.cur = some (b, u) → QuietCall p b u) ∧
  ∀ b a, (b, a) ∈ t.answers → IsAlone p b a

theorem QuietCall.start {p : Profile} {b : List UInt8} (h : Quiet p b) : QuietCall p b (Par.read p b) :=
  ⟨Rec.read p b, rfl, h⟩

theorem QuietCall.get {p : Profile} {b : List UInt8} {k} (h : QuietCall p b (.get k)) : QuietCall p b (k none) :=
  ⟨h.1 _, h.2.1, h.2.2⟩

theorem QuietCall.not_set {p : Profile} {b : List UInt8} {v u} (h : QuietCall p b (.set v u)) : False := by
  have h4 := (Ex.of_run u v).sticky h.1.2 h.1.1
  have h5 : u.run v = (Par.read p b).run none := h.2.1
  rw [h5, quiet_iff.1 h.2.2] at h4
  cases h4

theorem QuietCall.answer {p : Profile} {b : List UInt8} {r} (h : QuietCall p b (.done r)) : IsAlone p b r.answer := by
  rw [isAlone_iff, ← h.2.1]; rfl

theorem AllQuiet.step {p : Profile} {e : Option DecodeError} {t : Thread} (h : AllQuiet p e t) :
    e = (t.step p e).1 ∧ AllQuiet p (t.step p e).1 (t.step p e).2 := by
  obtain ⟨rfl, h1, h2, h3⟩ := h
  unfold Thread.step
  split
  · next hc =>
    split
    · exact ⟨rfl, rfl, h1, h2, h3⟩
    · next b r ht =>
      refine ⟨rfl, rfl, fun x hx => h1 x (by rw [ht]; exact List.mem_cons_of_mem _ hx), ?_, h3⟩
      intro b' u hb
      cases hb
      exact .start (h1 b (by rw [ht]; exact List.mem_cons_self))
  · next b r hc =>
    refine ⟨rfl, rfl, h1, by simp, ?_⟩
    intro b' a hm
    rcases List.mem_append.1 hm with hm | hm
    · exact h3 b' a hm
    · cases List.mem_singleton.1 hm
      exact (h2 _ _ hc).answer
  · next b k hc =>
    refine ⟨rfl, rfl, h1, ?_, h3⟩
    intro b' u hb
    cases hb
    exact (h2 _ _ hc).get
  · next b v u hc => exact (h2 _ _ hc).not_set.elim

/-- **C82** If every file read by any thread is quiet, then under every schedule the answer to every call is the answer
the file gets in a fresh process. -/
theorem c82_quiet_files (p : Profile) (files : List (List (List UInt8))) (h : ∀ fs ∈ files, ∀ b ∈ fs, Quiet p b)
    (schedule : List Nat) :
    ∀ t ∈ ((Process.start none files).run p schedule).threads, ∀ b a, (b, a) ∈ t.answers → IsAlone p b a := by
  have h1 := Process.run_inv (p := p) (I := fun s => ∀ t ∈ s.threads, AllQuiet p s.errors t)
    (fun s i => Process.step_inv (R := fun e e' => e = e') (fun _ _ h => h.step) (fun _ _ _ h1 h2 => h1 ▸ h2) s i)
    (Process.start none files) schedule (by
      intro t ht
      obtain ⟨fs, hfs, rfl⟩ := List.mem_map.1 ht
      exact ⟨rfl, h fs hfs, by simp, by simp⟩)
  exact fun t ht => (h1 t ht).2.2.2

/-! ## C82: one file that is not quiet -/

section
variable (p : Profile) (b : List UInt8) (J : Nat) (post : List (List UInt8))

/-- The thread has not begun to read `b`, its call number `J`. -/
def Before (t : Thread) : Prop := ∃ pre', t.todo = pre' ++ b :: post ∧ (∀ x ∈ pre', Quiet p x) ∧
  ((t.cur = none ∧ t.answers.length + pre'.length = J) ∨
   (∃ x u, t.cur = some (x, u) ∧ QuietCall p x u ∧ t.answers.length + 1 + pre'.length = J))

/-- The thread is reading `b`, and no error is recorded. -/
def DuringClean (t : Thread) : Prop := ∃ u, t.cur = some (b, u) ∧ t.answers.length = J ∧ u.Records ∧ u.Like u ∧
  u.run none = (Par.read p b).run none

/-- The thread is reading `b`, and an error is recorded. -/
def DuringLoud (t : Thread) : Prop := ∃ u, t.cur = some (b, u) ∧ t.answers.length = J ∧ u.Like u ∧
  ∀ e : Option DecodeError, e.isSome → (u.run e).1.Like ((Par.read p b).run none).1

/-- The thread has read `b`. -/
def After (t : Thread) : Prop := ∃ a, t.answers[J]? = some (b, a) ∧ a.SameButError ((Par.read p b).run none).1.answer

/-- Invariant of the process. -/
def OneLoud (i : Nat) (s : Process) : Prop := ∃ t, s.threads[i]? = some t ∧
  (After p b J t ∨
   (s.errors = none ∧ (Before p b J post t ∨ DuringClean p b J t) ∧ ∀ j t', j ≠ i → s.threads[j]? = some t' → AllQuiet p none t') ∨
   (s.errors.isSome ∧ DuringLoud p b J t ∧ ∀ t' ∈ s.threads, ∀ x u, t'.cur = some (x, u) → u.Records))

end

theorem After.step {p : Profile} {b : List UInt8} {J : Nat} {e : Option DecodeError} {t : Thread} (h : After p b J t) :
    After p b J (t.step p e).2 := by
  obtain ⟨a, h1, h2⟩ := h
  refine ⟨a, ?_, h2⟩
  unfold Thread.step
  split
  · split <;> exact h1
  · simp only
    rw [List.getElem?_append_left (List.getElem?_eq_some_iff.1 h1).1]
    exact h1
  · exact h1
  · exact h1

theorem Before.step {p : Profile} {b : List UInt8} {J : Nat} {post : List (List UInt8)} {t : Thread} (h : Before p b J post t) :
    (t.step p none).1 = none ∧ (Before p b J post (t.step p none).2 ∨ DuringClean p b J (t.step p none).2) := by
  obtain ⟨pre', h1, h2, h3⟩ := h
  rcases h3 with ⟨hc, hl⟩ | ⟨x, u, hc, hq, hl⟩
  · unfold Thread.step
    rw [hc, h1]
    cases pre' with
    | nil => exact ⟨rfl, .inr ⟨_, rfl, by simpa using hl, Rec.read p b, Ind.read p b, rfl⟩⟩
    | cons y r =>
      refine ⟨rfl, .inl ⟨r, rfl, fun z hz => h2 z (List.mem_cons_of_mem _ hz), .inr ⟨y, _, rfl, .start (h2 y List.mem_cons_self), ?_⟩⟩⟩
      simp only [List.length_cons] at hl
      show t.answers.length + 1 + r.length = J
      omega
  · cases u with
    | done r =>
      unfold Thread.step
      rw [hc]
      refine ⟨rfl, .inl ⟨pre', h1, h2, .inl ⟨rfl, ?_⟩⟩⟩
      simpa using hl
    | get k =>
      unfold Thread.step
      rw [hc]
      exact ⟨rfl, .inl ⟨pre', h1, h2, .inr ⟨x, _, rfl, hq.get, hl⟩⟩⟩
    | set v u => exact hq.not_set.elim

theorem Process.step_eq {p : Profile} {s : Process} {j : Nat} {t0 : Thread} (hj : s.threads[j]? = some t0) :
    s.step p j = { errors := (t0.step p s.errors).1, threads := s.threads.set j (t0.step p s.errors).2 } := by
  unfold Process.step; rw [hj]

theorem OneLoud.step {p : Profile} {b : List UInt8} {J : Nat} {post : List (List UInt8)} {i : Nat} {s : Process} (j : Nat)
    (h : OneLoud p b J post i s) : OneLoud p b J post i (s.step p j) := by
  obtain ⟨t, ht, h⟩ := h
  cases hj : s.threads[j]? with
  | none =>
    have : s.step p j = s := by unfold Process.step; rw [hj]
    rw [this]
    exact ⟨t, ht, h⟩
  | some t0 =>
    by_cases hij : j = i
    · subst hij
      cases ht.symm.trans hj
      refine ⟨(t.step p s.errors).2, Process.step_self ht, ?_⟩
      rcases h with h | ⟨he, h, hq⟩ | ⟨he, h, hr⟩
      · exact .inl h.step
      · have hq' : ∀ k t', k ≠ j → (s.step p j).threads[k]? = some t' → AllQuiet p none t' := by
          intro k t' hk h'
          rw [Process.step_other (Ne.symm hk)] at h'
          exact hq k t' hk h'
        rcases h with h | ⟨u, hc, hl, h1, h2, h3⟩
        · obtain ⟨h1, h2⟩ := h.step
          rw [Process.step_eq ht, he] at *
          exact .inr (.inl ⟨h1, h2, hq'⟩)
        · cases u with
          | done r =>
            left
            refine ⟨r.answer, ?_, ?_⟩
            · unfold Thread.step
              rw [hc]
              simp only [List.getElem?_append, hl]
              simp
            · rw [← h3]
              exact (Res.Like.refl r).answer
          | get k =>
            refine .inr (.inl ⟨?_, .inr ⟨k none, ?_, ?_, h1 _, ?_, h3⟩, hq'⟩)
            · rw [Process.step_eq ht]
              unfold Thread.step
              rw [hc]
              exact he
            · unfold Thread.step
              rw [hc, he]
            · unfold Thread.step
              rw [hc]
              exact hl
            · obtain ⟨k', hk, h4, _⟩ := h2
              cases hk
              exact h4
          | set v u =>
            have h2' : u.Like u := by
              obtain ⟨_, _, hk, _, h4⟩ := h2
              cases hk
              exact h4
            refine .inr (.inr ⟨?_, ⟨u, ?_, ?_, h2', ?_⟩, ?_⟩)
            · rw [Process.step_eq ht]
              unfold Thread.step
              rw [hc]
              exact h1.1
            · unfold Thread.step
              rw [hc]
            · unfold Thread.step
              rw [hc]
              exact hl
            · intro e hes
              rw [← h3]
              exact h2'.run (by rw [h1.1, hes])
            · apply (Process.step_errors _).2
              intro t' ht' x w hx
              obtain ⟨k, hk⟩ := List.mem_iff_getElem?.1 ht'
              by_cases hkj : k = j
              · subst hkj
                cases ht.symm.trans hk
                rw [hc] at hx
                cases hx
                exact h1
              · exact ((hq k t' hkj hk).2.2.1 x w hx).1
      · obtain ⟨u, hc, hl, h2, h3⟩ := h
        obtain ⟨h4, h5⟩ := Process.step_errors (p := p) (j := j) hr
        have hs := h4 he
        cases u with
        | done r =>
          left
          refine ⟨r.answer, ?_, (h3 s.errors he).answer⟩
          unfold Thread.step
          rw [hc]
          simp only [List.getElem?_append, hl]
          simp
        | get k =>
          have h2' : (k s.errors).Like (k s.errors) := by
            obtain ⟨_, hk, _, h6⟩ := h2
            cases hk
            cases hse : s.errors with
            | none => rw [hse] at he; cases he
            | some x => exact h6 x x
          refine .inr (.inr ⟨hs, ⟨k s.errors, ?_, ?_, h2', ?_⟩, h5⟩)
          · unfold Thread.step
            rw [hc]
          · unfold Thread.step
            rw [hc]
            exact hl
          · intro e hes
            have h6 := h2.run (e := e) (e' := s.errors) (by rw [hes, he])
            have h7 := h3 e hes
            obtain ⟨_, hk, _, h8⟩ := h2
            cases hk
            cases hse : s.errors with
            | none => rw [hse] at he; cases he
            | some x =>
              cases e with
              | none => cases hes
              | some y =>
                have h9 : ((k (some x)).run (some y)).1.Like ((k (some y)).run (some y)).1 := (h8 x y).run rfl
                have h10 : ((k (some y)).run (some y)).1.Like ((Par.read p b).run none).1 := h7
                revert h9 h10
                generalize ((k (some x)).run (some y)).1 = r1
                generalize ((k (some y)).run (some y)).1 = r2
                generalize ((Par.read p b).run none).1 = r3
                intro h9 h10
                cases r1 <;> cases r2 <;> cases r3 <;> simp_all [Res.Like]
        | set v u =>
          have h2' : v.isSome ∧ u.Like u := by
            have h6 := hr t (List.mem_of_getElem? ht) b _ hc
            obtain ⟨_, _, hk, _, h7⟩ := h2
            cases hk
            exact ⟨h6.1, h7⟩
          refine .inr (.inr ⟨hs, ⟨u, ?_, ?_, h2'.2, ?_⟩, h5⟩)
          · unfold Thread.step
            rw [hc]
          · unfold Thread.step
            rw [hc]
            exact hl
          · intro e hes
            have h6 : (u.run v).1.Like ((Par.read p b).run none).1 := h3 s.errors he
            have h7 : (u.run e).1.Like (u.run v).1 := h2'.2.run (by rw [hes, h2'.1])
            revert h6 h7
            generalize (u.run e).1 = r1
            generalize (u.run v).1 = r2
            generalize ((Par.read p b).run none).1 = r3
            intro h9 h10
            cases r1 <;> cases r2 <;> cases r3 <;> simp_all [Res.Like]
    · refine ⟨t, by rw [Process.step_other hij]; exact ht, ?_⟩
      rcases h with h | ⟨he, h, hq⟩ | ⟨he, h, hr⟩
      · exact .inl h
      · obtain ⟨h1, h2⟩ := (hq j t0 hij hj).step
        have hs : (s.step p j).errors = none := by
          rw [Process.step_eq hj, he]
          exact h1.symm
        refine .inr (.inl ⟨hs, h, ?_⟩)
        intro k t' hk hk'
        by_cases hkj : k = j
        · subst hkj
          rw [Process.step_self hj, he] at hk'
          cases hk'
          rw [← h1] at h2
          exact h2
        · rw [Process.step_other (Ne.symm hkj)] at hk'
          exact hq k t' hk hk'
      · obtain ⟨h4, h5⟩ := Process.step_errors (p := p) (j := j) hr
        exact .inr (.inr ⟨h4 he, h, h5⟩)

/-- **C82** Errors never come from nowhere: if all the files the other threads read are quiet, and so are those this
thread reads before `b`, then the answer to the call on `b` is the one `b` gets in a fresh process, under every schedule
(except that the error reported may be one that a disturbed reader of a quiet file has recorded since). -/
theorem c82_one_loud_file (p : Profile) (files : List (List (List UInt8))) (i : Nat) (pre post : List (List UInt8)) (b : List UInt8)
    (hi : files[i]? = some (pre ++ b :: post)) (hpre : ∀ x ∈ pre, Quiet p x)
    (hothers : ∀ j fs, j ≠ i → files[j]? = some fs → ∀ x ∈ fs, Quiet p x) (schedule : List Nat) (t : Thread)
    (ht : ((Process.start none files).run p schedule).threads[i]? = some t) (x : List UInt8) (a : Answer)
    (ha : t.answers[pre.length]? = some (x, a)) :
    x = b ∧ ∃ a', IsAlone p b a' ∧ a.SameButError a' := by
  have h0 : OneLoud p b pre.length post i (Process.start none files) := by
    refine ⟨{ todo := pre ++ b :: post, cur := none, answers := [] }, ?_, .inr (.inl ⟨rfl, .inl ⟨pre, rfl, hpre, .inl ⟨rfl, ?_⟩⟩, ?_⟩)⟩
    · simp [Process.start, hi]
    · simp
    · intro j t' hj ht'
      simp only [Process.start, List.getElem?_map, Option.map_eq_some_iff] at ht'
      obtain ⟨fs, hfs, rfl⟩ := ht'
      exact ⟨rfl, hothers j fs hj hfs, by simp, by simp⟩
  obtain ⟨t', ht', h⟩ := Process.run_inv (p := p) (fun s j hs => OneLoud.step j hs) _ schedule h0
  cases ht.symm.trans ht'
  have hlen := (List.getElem?_eq_some_iff.1 ha).1
  rcases h with ⟨a', h1, h2⟩ | ⟨_, h | h, _⟩ | ⟨_, h, _⟩
  · cases h1.symm.trans ha
    exact ⟨rfl, _, isAlone_iff.2 rfl, h2⟩
  · obtain ⟨pre', _, _, h | ⟨_, _, _, _, h⟩⟩ := h
    · obtain ⟨_, h⟩ := h
      omega
    · omega
  · obtain ⟨u, _, h, _⟩ := h
    omega
  · obtain ⟨u, _, h, _⟩ := h
    omega

/-- **C82** An accepted file is quiet. -/
theorem c82_accepted_is_quiet (p : Profile) (b : List UInt8) (c : Code) (h : Accepts p b c) : Quiet p b := by
  obtain ⟨d, h⟩ := h.run
  rw [quiet_iff, h]

/-- A good file with two functions.  If an error is recorded just before the instructions of the first one are read,
these are taken for the second function, which then seems to have 100 registers. -/
def exTwoFunctions : List UInt8 := [0x48, 0x4C, 0x42, 4, 0, 0, 0, 0, 1, 0, 0, 2, 0, 0, 0, 0, 0, 0, 0, 0, 0, 0, 1, 0, 1, 100, 0, 1, 0, 0]

theorem exTwoFunctions_accepted : ∃ c, Accepts .release exTwoFunctions c := by
  have h : (match Code.read .release none exTwoFunctions with
    | .ok _ _ => true
    | _ => false) = true := by decide +kernel
  split at h
  · next c s e => exact ⟨c, s, e⟩
  · cases h

/-- **C82** Interference can be worse than somebody else's error: the call of thread 1 panics, although its file is
accepted when read alone, because thread 0 reads a bad file at the wrong moment. -/
theorem c82_panic_of_another_thread : ∃ (b : List UInt8) (c : Code) (bad : List UInt8) (schedule : List Nat) (t : Thread),
    Accepts .release b c ∧ ((Process.start none [[bad], [b]]).run .release schedule).threads[1]? = some t ∧
    t.answers = [(b, .panic)] := by
  obtain ⟨c, h⟩ := exTwoFunctions_accepted
  have h1 : ((Process.start none [[exNegative], [exTwoFunctions]]).run .release
      (List.replicate 7 1 ++ List.replicate 3 0 ++ List.replicate 10 1)).threads[1]?.any (fun t => match t.answers with
        | [(b, .panic)] => decide (b = exTwoFunctions)
        | _ => false) = true := by decide +kernel
  obtain ⟨t, ht, h2⟩ := of_any h1
  split at h2
  · next b he =>
    have hb := of_decide_eq_true h2
    subst hb
    exact ⟨_, c, exNegative, _, t, h, ht, he⟩
  · cases h2

/-- C82: a file that is not quiet (`exNegative`), with quiet files of three kinds around it: accepted, rejected, panicking. -/
example : ¬ Quiet .release exNegative ∧ Quiet .release exTwoFunctions ∧ Quiet .release [0x48, 0x4C, 0x43] ∧ Quiet .release [0x48] ∧
    IsAlone .release [0x48, 0x4C, 0x43] (.err ⟨.invalidBytecodeHeader, 3⟩) ∧ IsAlone .release [0x48] .panic := by
  refine ⟨?_, ?_, rfl, rfl, ⟨none, rfl⟩, ⟨none, rfl⟩⟩
  · intro h
    have : (history .release none [exNegative]).2.isSome = true := by decide +kernel
    rw [show (history .release none [exNegative]).2 = none from h] at this
    cases this
  · obtain ⟨c, h⟩ := exTwoFunctions_accepted
    exact c82_accepted_is_quiet _ _ _ h

/-- C82: under this schedule thread 0 reads two quiet files and then `exNegative`, while thread 1 reads a good file; all
calls have answers, and that of thread 1 is not `Ok`. -/
example : ((Process.start none [[[0x48], [0x48, 0x4C, 0x43], exNegative ++ List.replicate 20 0], [exTwoFunctions]]).run .release
      (List.replicate 7 1 ++ List.replicate 20 0 ++ List.replicate 10 1)).threads.map (fun t => t.answers.map fun x => match x.2 with | .ok _ => 0 | .err _ => 1 | .panic => 2) = [[2, 1, 1], [2]] := by
  decide +kernel

/-! ## C83: where errors come from -/

/-- Invariant of a thread of a process in which all errors satisfy `I`. -/
def FromFile (I : DecodeError → Prop) (e : Option DecodeError) (t : Thread) : Prop :=
  (∀ x, e = some x → I x) ∧ (∀ b ∈ t.todo, ∀ k pos, pos ≤ b.length → I { kind := k, position := pos }) ∧
  (∀ b u, t.cur = some (b, u) → u.Within b.length I) ∧ ∀ b x, (b, .err x) ∈ t.answers → I x

theorem FromFile.step {p : Profile} {I : DecodeError → Prop} {e : Option DecodeError} {t : Thread} (h : FromFile I e t) :
    (∀ x, (t.step p e).1 = some x → I x) ∧ FromFile I (t.step p e).1 (t.step p e).2 := by
  suffices h : FromFile I (t.step p e).1 (t.step p e).2 from ⟨h.1, h⟩
  obtain ⟨h0, h1, h2, h3⟩ := h
  unfold Thread.step
  split
  · next hc =>
    split
    · exact ⟨h0, h1, h2, h3⟩
    · next b r ht =>
      refine ⟨h0, fun x hx => h1 x (by rw [ht]; exact List.mem_cons_of_mem _ hx), ?_, h3⟩
      intro b' u hb
      cases hb
      exact Within.read p b I (h1 b (by rw [ht]; exact List.mem_cons_self))
  · next b r hc =>
    refine ⟨h0, h1, by simp, ?_⟩
    intro b' x hm
    rcases List.mem_append.1 hm with hm | hm
    · exact h3 b' x hm
    · have h4 := List.mem_singleton.1 hm
      simp only [Prod.mk.injEq] at h4
      obtain ⟨rfl, h4⟩ := h4
      have h5 := h2 _ _ hc
      cases r with
      | ok c d => cases h4
      | err y d => cases h4; exact h5.1
      | panic => cases h4
  · next b k hc =>
    refine ⟨h0, h1, ?_, h3⟩
    intro b' u hb
    cases hb
    have h5 := h2 _ _ hc
    cases e with
    | none => exact h5.1
    | some x => exact h5.2 x (h0 x rfl)
  · next b v u hc =>
    have h5 := h2 _ _ hc
    refine ⟨h5.1, h1, ?_, h3⟩
    intro b' u hb
    cases hb
    exact h5.2

/-- **C83** Every error, be it reported by some call or recorded, is the one recorded at the beginning, or lies inside
one of the files of the process. -/
theorem c83_error_origin (p : Profile) (e : Option DecodeError) (files : List (List (List UInt8))) (schedule : List Nat) (x : DecodeError)
    (h : ((Process.start e files).run p schedule).errors = some x ∨
      ∃ t ∈ ((Process.start e files).run p schedule).threads, ∃ b, (b, .err x) ∈ t.answers) :
    e = some x ∨ ∃ fs ∈ files, ∃ b ∈ fs, x.position ≤ b.length := by
  have h1 := Process.run_inv (p := p)
    (I := fun s => (∀ y, s.errors = some y → e = some y ∨ ∃ fs ∈ files, ∃ b ∈ fs, y.position ≤ b.length) ∧
      ∀ t ∈ s.threads, FromFile (fun y => e = some y ∨ ∃ fs ∈ files, ∃ b ∈ fs, y.position ≤ b.length) s.errors t)
    (by
      rintro s i ⟨h0, hs⟩
      have h2 := Process.step_inv (p := p) (R := fun _ e' => ∀ y, e' = some y → e = some y ∨ ∃ fs ∈ files, ∃ b ∈ fs, y.position ≤ b.length)
        (fun _ _ h => h.step) (fun _ _ _ h1 h2 => ⟨h1, h2.2⟩) s i hs
      refine ⟨?_, h2⟩
      cases hi : s.threads[i]? with
      | none =>
        have : s.step p i = s := by unfold Process.step; rw [hi]
        rw [this]
        exact h0
      | some t0 =>
        rw [Process.step_eq hi]
        exact (FromFile.step (hs t0 (List.mem_of_getElem? hi))).1)
    (Process.start e files) schedule (by
      refine ⟨fun y hy => .inl hy, ?_⟩
      intro t ht
      obtain ⟨fs, hfs, rfl⟩ := List.mem_map.1 ht
      exact ⟨fun y hy => .inl hy, fun b hb k pos hpos => .inr ⟨fs, hfs, b, hb, hpos⟩, by simp, by simp⟩)
  rcases h with h | ⟨t, ht, b, hb⟩
  · exact h1.1 x h
  · exact (h1.2 t ht).2.2.2 b x hb

/-- C83: thread 1 reports an error whose position, 6, is inside the file of thread 0. -/
example : ((Process.start none [[exNegative], [exTwoFunctions]]).run .release
    (List.replicate 4 1 ++ List.replicate 3 0 ++ List.replicate 10 1)).threads[1]?.any (fun t => match t.answers with
      | [(_, .err e)] => decide (e = ⟨.negativeIndex, 6⟩) && decide (e.position ≤ exNegative.length)
      | _ => false) = true := by decide +kernel

end Verif.Brass
