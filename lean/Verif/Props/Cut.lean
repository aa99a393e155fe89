import Verif.Brass.Cut
import Verif.Spec.Cut
import Verif.Props.LeftBehind

/-!
# Reading files that are still being written (C94)
-/

namespace Verif.Brass

open Verif Verif.Brass.Spec

/-- Incomplete files in terms of `Code::read`. -/
theorem incomplete_iff (p : Profile) (cut : List UInt8) :
    Incomplete p cut ↔ ∃ more c s, more ≠ [] ∧ Code.read p none (cut ++ more) = .ok c s ∧ s.buf = [] := by
  constructor
  · rintro ⟨more, c, c', hm, h⟩
    exact ⟨more, c, _, hm, (c38_accepts_exactly_the_grammar p none _ c ⟨[], (cut ++ more).length, c', none⟩).2 ⟨rfl, cut ++ more, [], by simp, h, rfl⟩, rfl⟩
  · rintro ⟨more, c, s, hm, h, hs⟩
    obtain ⟨_, k, rest, h1, h2, h3⟩ := (c38_accepts_exactly_the_grammar p none _ c s).1 h
    rw [h3] at hs
    have hs : rest = [] := hs
    rw [hs, List.append_nil] at h1
    rw [← h1] at h2
    exact ⟨more, c, _, hm, h2⟩

theorem incomplete_answer {p : Profile} {cut : List UInt8} (h : Incomplete p cut) :
    Code.read p none cut = .panic ∨ ∃ er s1, er.kind = .noMoreData ∧ Code.read p none cut = .err er s1 := by
  obtain ⟨more, c, s, hm, h, hs⟩ := (incomplete_iff p cut).1 h
  exact c27_truncation p none (cut ++ more) cut more c s h (by rw [hs, List.append_nil]) hm

theorem pools_rejected {p : Profile} {cut : List UInt8} (h : EndsInPools cut) : ∃ pos, Rejected p cut ⟨.noMoreData, pos⟩ := by
  obtain ⟨k, m, c, ho, rfl, hl⟩ := h
  by_cases hi : m.length < 4 * c.nints
  · refine ⟨_, .noInt k (m.take (4 * (m.length / 4))) (m.drop (4 * (m.length / 4))) c (m.length / 4) ho (by simp [List.append_assoc]) (by omega) ?_ ?_⟩
    · rw [List.length_take]; omega
    · rw [List.length_drop]; omega
  · have := Nat.div_add_mod (m.length - 4 * c.nints) 8
    refine ⟨_, .noFloat k (m.take (4 * c.nints + 8 * ((m.length - 4 * c.nints) / 8))) (m.drop (4 * c.nints + 8 * ((m.length - 4 * c.nints) / 8))) c
      ((m.length - 4 * c.nints) / 8) ho (by simp [List.append_assoc]) (by omega) ?_ ?_⟩
    · rw [List.length_take]; omega
    · rw [List.length_drop]; omega

theorem size_rejected {p : Profile} {cut : List UInt8} (h : NoTableSize cut) : ∃ pos, Rejected p cut ⟨.noMoreData, pos⟩ := by
  obtain ⟨k, r, c, ho, hf, hv, hr⟩ := h
  exact ⟨_, .noSize k r c ho hf hv hr⟩

theorem table_left {p : Profile} {cut : List UInt8} (h : EndsInTable cut) : ∃ pos, LeftBehind p cut (some ⟨.noMoreData, pos⟩) := by
  obtain ⟨k, m, r, c, ho, hf, hv, hm, hr⟩ := h
  exact ⟨_, .table k m r c ho hf hv hm hr⟩

theorem left_panics {p : Profile} {cut : List UInt8} {e : Option DecodeError} (h : LeftBehind p cut e) : Code.read p none cut = .panic := by
  have h1 := (run_panic_iff p none cut e).1 ((c93_left_behind p cut e).2 h)
  rw [← Sim.read p cut, h1]
  rfl

/-- A true error of kind `NoMoreData` says where the file ends. -/
theorem fault_short {cut : List UInt8} {x : DecodeError} (h : Fault cut x) (hx : x.kind = .noMoreData) :
    cut = [0x48, 0x4C, 0x42] ∨ EndsInPools cut ∨ NoTableSize cut ∨ EndsInTable cut := by
  cases h with
  | header => cases hx
  | version => cases hx
  | noVersion h => exact .inl h
  | noInt k m r c i ho hf hi hm hr => exact .inr (.inl ⟨k, m ++ r, c, ho, by rw [hf, List.append_assoc], by rw [List.length_append]; omega⟩)
  | noFloat k m r c i ho hf hi hm hr => exact .inr (.inl ⟨k, m ++ r, c, ho, by rw [hf, List.append_assoc], by rw [List.length_append]; omega⟩)
  | noSize k r c ho hf hv hr => exact .inr (.inr (.inl ⟨k, r, c, ho, hf, hv, hr⟩))
  | noBytes k w r c ho hf hv hw h0 hr => exact .inr (.inr (.inr ⟨k, w, r, c, ho, hf, hv, hw, hr⟩))
  | negative => cases hx
  | item k m w r c kind ho hf hb =>
    have hx : kind = .noMoreData := hx
    subst hx
    cases hb

/-- **C94** Which incomplete files are answered with an error: exactly those that end in the integers, the floats or the size of the
byte table.  All others make `Code::read` panic. -/
theorem c94_reported_iff (p : Profile) (cut : List UInt8) (h : Incomplete p cut) :
    ((∃ pos s, Code.read p none cut = .err ⟨.noMoreData, pos⟩ s) ↔ EndsInPools cut ∨ NoTableSize cut) ∧
    (Code.read p none cut = .panic ↔ ¬ (EndsInPools cut ∨ NoTableSize cut)) := by
  have key : (∃ pos s, Code.read p none cut = .err ⟨.noMoreData, pos⟩ s) ↔ EndsInPools cut ∨ NoTableSize cut := by
    constructor
    · rintro ⟨pos, s, he⟩
      rcases c86_reported p none cut _ s he with h1 | h1
      · cases h1
      · rcases fault_short h1 rfl with rfl | h2 | h2 | h2
        · rw [(c26_header_cut_short p none).2.2.2] at he; cases he
        · exact .inl h2
        · exact .inr h2
        · obtain ⟨pos, h3⟩ := table_left (p := p) h2
          rw [left_panics h3] at he; cases he
    · intro h1
      obtain ⟨pos, h2⟩ : ∃ pos, Rejected p cut ⟨.noMoreData, pos⟩ := h1.elim pools_rejected size_rejected
      exact ⟨pos, (c87_rejected_iff p cut _).2 h2⟩
  refine ⟨key, ?_⟩
  rw [← key]
  constructor
  · rintro h1 ⟨pos, s, h2⟩
    rw [h1] at h2; cases h2
  · intro h1
    rcases incomplete_answer h with h2 | ⟨⟨k, pos⟩, s, h2, h3⟩
    · exact h2
    · have h2 : k = .noMoreData := h2
      subst h2
      exact absurd ⟨pos, s, h3⟩ h1

theorem many_i32_length {n c k l c'} (h : G.many i32G n c k l c') : c' = c ∧ k.length = 4 * n :=
  (many_sized (g := i32G) (sz := 4) (by rintro c k a c' ⟨rfl, h, _⟩; exact ⟨rfl, h⟩) (fun c k h => ⟨_, rfl, h, rfl⟩) n c k).1 _ _ h

theorem many_f64_length {n c k l c'} (h : G.many f64G n c k l c') : c' = c ∧ k.length = 8 * n :=
  (many_sized (g := f64G) (sz := 8) (by rintro c k a c' ⟨rfl, h, _⟩; exact ⟨rfl, h⟩) (fun c k h => ⟨_, rfl, h, rfl⟩) n c k).1 _ _ h

theorem pools_not_size {cut : List UInt8} (h : EndsInPools cut) : ¬ NoTableSize cut := by
  rintro ⟨k2, r, c2, ⟨d2, k1, k3, c1, d1, rfl, h1, k4, _, ints, d3, rfl, h4, k5, _, floats, d4, rfl, h5, h6⟩, hf, _⟩
  obtain ⟨k, m, c, ⟨d, ho⟩, rfl, hl⟩ := h
  obtain ⟨rfl, rfl, rfl⟩ := GDet.ofSem readHeader_sem ho h1 (r := m) (r' := _) (by rw [hf]; simp only [List.append_assoc]; rfl)
  have e4 := (many_i32_length h4).2
  have e5 := (many_f64_length h5).2
  have := congrArg List.length hf
  simp only [List.length_append] at this
  omega

/-- **C94** Which incomplete files leave an error recorded, whether they are answered with an error or make `Code::read` panic: exactly
those that end just after the magic, in the integers, in the floats or in the byte table.  The error is always `NoMoreData`. -/
theorem c94_recorded_iff (p : Profile) (cut : List UInt8) (h : Incomplete p cut) :
    ((history p none [cut]).2 = none ↔ ¬ Spoils cut) ∧ ∀ e, (history p none [cut]).2 = some e → e.kind = .noMoreData := by
  have hcall := (call_iff p cut none _ _).1 (show history p none [cut] = ([((Par.read p cut).run none).1.answer], ((Par.read p cut).run none).2) from rfl)
  have hpool : EndsInPools cut → ((Par.read p cut).run none).2 ≠ none := by
    intro h1 h2
    obtain ⟨pos, h3⟩ := pools_rejected (p := p) h1
    have h4 : Call p cut none (.err ⟨.noMoreData, pos⟩) (some ⟨.noMoreData, pos⟩) := by
      refine .rejected _ h3 ?_
      rintro ((⟨pre, rest, b, b', hf, hp, hb⟩ | ⟨b, rest, hf, hb⟩) | h5)
      · cases c87_one_error p cut _ _ h3 (.header pre rest b b' hf hp hb)
      · cases c87_one_error p cut _ _ h3 (.version b rest hf hb)
      · exact pools_not_size h1 h5
    have h5 := (call_iff _ _ _ _ _).2 h4
    injection h5 with _ h5
    have h5 : ((Par.read p cut).run none).2 = some ⟨.noMoreData, pos⟩ := h5
    rw [h2] at h5; cases h5
  have hpanic : ∀ e, LeftBehind p cut e → e = ((Par.read p cut).run none).2 := by
    intro e h1
    have h5 := (c93_left_behind p cut e).2 h1
    injection h5 with _ h5
    exact h5.symm
  have hmagic : cut = [0x48, 0x4C, 0x42] → ((Par.read p cut).run none).2 ≠ none := by
    intro h1
    rw [← hpanic _ (.version h1)]
    nofun
  have htable : EndsInTable cut → ((Par.read p cut).run none).2 ≠ none := by
    intro h1
    obtain ⟨pos, h2⟩ := table_left (p := p) h1
    rw [← hpanic _ h2]
    nofun
  have hsome : ∀ e, ((Par.read p cut).run none).2 = some e → e.kind = .noMoreData ∧ Spoils cut := by
    intro e he
    have hf : Fault cut e := by
      obtain ⟨_, h2⟩ := (read_just (I := fun x => Fault cut x) (file := cut) (fun x hx => hx) p).run (e := none) nofun nofun
      exact h2 e he
    have hk : e.kind = .noMoreData := by
      rcases incomplete_answer h with h1 | ⟨er, s, h1, h2⟩
      · rw [← Sim.read p cut] at h1
        cases hr : (Par.read p cut).run none with
        | mk r e' =>
          rw [hr] at h1 he
          cases r with
          | ok => cases h1
          | err => cases h1
          | panic =>
            have he : e' = some e := he
            subst he
            obtain ⟨more, c, s, _, h3, _⟩ := (incomplete_iff p cut).1 h
            have h4 := Sim.read p (cut ++ more) none
            rw [h3] at h4
            cases hr2 : (Par.read p (cut ++ more)).run none with
            | mk r2 e2 =>
              rw [hr2] at h4
              cases r2 with
              | ok a d =>
                have h6 : s = d.st e2 := by
                  have h5 := h4
                  cases h5; rfl
                have h5 : e2 = none := by
                  have := (c29_ok_no_error p none _ c s h3).2
                  rw [h6] at this
                  exact this
                subst h5
                exact CutOK.readM p _ _ _ _ _ _ _ hr hr2
              | err => cases h4
              | panic => cases h4
      · rcases ((c71_call p none cut).2.1 er s.errors).2 ⟨s, h2, rfl⟩ with h3
        injection h3 with _ h3
        have h3 : ((Par.read p cut).run none).2 = s.errors := h3
        by_cases hb : BadStart cut ∨ NoTableSize cut
        · rw [(c91_recorded p cut er s h2).1 hb, he] at h3; cases h3
        · rw [(c91_recorded p cut er s h2).2 hb, he] at h3; cases h3; exact h1
    refine ⟨hk, ?_⟩
    rcases fault_short hf hk with h1 | h1 | h1 | h1
    · exact .inl h1
    · exact .inr (.inl h1)
    · exfalso
      obtain ⟨pos, h2⟩ := size_rejected (p := p) h1
      have h3 := (call_iff _ _ _ _ _).2 (.rejectedSilently _ h2 (.inr h1))
      injection h3 with _ h3
      have h3 : ((Par.read p cut).run none).2 = none := h3
      rw [he] at h3; cases h3
    · exact .inr (.inr h1)
  refine ⟨?_, fun e he => (hsome e he).1⟩
  show ((Par.read p cut).run none).2 = none ↔ _
  constructor
  · rintro h1 (h2 | h2 | h2)
    · exact hmagic h2 h1
    · exact hpool h2 h1
    · exact htable h2 h1
  · intro h1
    cases he : ((Par.read p cut).run none).2 with
    | none => rfl
    | some e => exact absurd (hsome e he).2 h1

theorem history_cons (p : Profile) (x : Option DecodeError) (file : List UInt8) (files : List (List UInt8)) :
    history p x (file :: files) = ((history p x [file]).1 ++ (history p (history p x [file]).2 files).1, (history p (history p x [file]).2 files).2) := rfl

/-- **C94** Trying again: a program that keeps reading a file while it is being written gets the program it contains in the end exactly if
none of the beginnings it has read ends at one of these places.  Otherwise the complete file is refused as well. -/
theorem c94_accepted_iff (p : Profile) (cuts : List (List UInt8)) (file : List UInt8) (c : Code) (s : St)
    (hc : ∀ cut ∈ cuts, Incomplete p cut) (hf : Code.read p none file = .ok c s) :
    (history p none (cuts ++ [file])).1.getLast? = some (.ok c) ↔ ∀ cut ∈ cuts, ¬ Spoils cut := by
  induction cuts with
  | nil =>
    have := ((c71_call p none file).1 c s.errors).2 ⟨s, hf, rfl⟩
    rw [List.nil_append, this]
    simp
  | cons cut cuts ih =>
    have ih := ih fun x hx => hc x (List.mem_cons_of_mem _ hx)
    obtain ⟨h1, _⟩ := c94_recorded_iff p cut (hc cut List.mem_cons_self)
    rw [List.cons_append, history_cons]
    have hne : ∀ x, (history p x (cuts ++ [file])).1 ≠ [] := by
      intro x hx
      have := history_length p x (cuts ++ [file])
      rw [hx, List.length_append] at this
      simp at this
    rw [List.getLast?_append, List.getLast?_eq_some_getLast (hne _), Option.some_or, ← List.getLast?_eq_some_getLast (hne _)]
    cases hx : (history p none [cut]).2 with
    | none =>
      rw [ih]
      have h2 := h1.1 hx
      simp only [List.forall_mem_cons]
      exact ⟨fun h => ⟨h2, h⟩, fun h => h.2⟩
    | some x =>
      have h2 : Spoils cut := by
        apply Classical.byContradiction
        intro h
        rw [h1.2 h] at hx; cases hx
      constructor
      · intro h3
        have h4 := (c93_never_accepted_again p x (cuts ++ [file])).1
        have h5 := List.mem_of_getLast? h3
        have := List.all_eq_true.1 h4 _ h5
        simp [Answer.isOk] at this
      · intro h3
        exact absurd h2 (h3 cut List.mem_cons_self)

/-- **C71** (in general) Every file that ends in the magic makes `Code::read` panic without a trace. -/
theorem c71_in_magic_leaves_clean (p : Profile) (file : List UInt8) (hf : file <+: [0x48, 0x4C]) (gs : List (List UInt8)) :
    history p none (file :: gs) = (.panic :: (history p none gs).1, (history p none gs).2) := by
  rw [history_cons, (c93_left_behind p file none).2 (.magic hf)]
  rfl

/-- **C71** (in general) Every file that ends in its byte table makes `Code::read` panic and makes all later reads fail. -/
theorem c71_in_table_poisons (p : Profile) (file : List UInt8) (h : EndsInTable file) (gs : List (List UInt8)) (i : Nat) (c : Code) :
    (history p none (file :: gs)).1[0]? = some .panic ∧ (history p none (file :: gs)).1[i]? ≠ some (.ok c) := by
  obtain ⟨pos, h1⟩ := table_left (p := p) h
  have h2 := (c93_left_behind p file _).2 h1
  rw [history_cons, h2]
  refine ⟨rfl, ?_⟩
  intro h3
  cases i with
  | zero => cases h3
  | succ i =>
    have h4 := (c93_never_accepted_again p ⟨.noMoreData, pos⟩ gs).1
    have := List.all_eq_true.1 h4 _ (List.mem_of_getElem? h3)
    simp [Answer.isOk] at this

/-! ## Cases -/

/-- A file with one integer, one float, a byte table (version 5) and one type. -/
def exCut : List UInt8 :=
  hdr 5 [0, 1, 1, 0, 0, 1, 0, 0, 0, 0, 0] ++ [7, 0, 0, 0] ++ [0, 0, 0, 0, 0, 0, 0xF0, 0x3F] ++ [0, 0, 0, 0] ++ [2, 0, 0, 0, 8, 9] ++ [3]

/-- The file is accepted and read to its end. -/
def isWhole (file : List UInt8) : Bool :=
  match Code.read .release none file with
  | .ok _ s => s.buf.isEmpty
  | _ => false

theorem incomplete_take {file : List UInt8} (h : isWhole file = true) (n : Nat) (hn : n < file.length) : Incomplete .release (file.take n) := by
  unfold isWhole at h
  split at h
  · next c s h1 =>
    refine (incomplete_iff _ _).2 ⟨file.drop n, c, s, ?_, by rw [List.take_append_drop]; exact h1, by simpa using h⟩
    intro h2
    have := congrArg List.length h2
    simp at this
    omega
  · cases h

theorem exCut_whole : isWhole exCut = true := by decide +kernel

/-- What reading beginnings of the file and then the file itself ends with: is it accepted? -/
def retried (file : List UInt8) (cuts : List Nat) : Bool :=
  match (history .release none (cuts.map file.take ++ [file])).1.getLast? with
  | some (.ok _) => true
  | _ => false

-- it has 38 bytes: the header 15, the integer 4, the float 8, the strings 4, the byte table 6 and the type 1
example : exCut.length = 38 := by decide +kernel
-- read at almost any time, it is incomplete
example : Incomplete .release (exCut.take 37) := incomplete_take exCut_whole 37 (by decide +kernel)
-- after beginnings that end in the magic, the header, the strings, the size of the byte table or the types: it is accepted
example : retried exCut [0, 2, 4, 11, 27, 30, 31, 33, 37] = true := by decide +kernel
-- after a beginning that ends just after the magic, in the integers, in the floats, or in the byte table: it is refused
example : ([3, 15, 18, 19, 26, 35, 36].map fun n => retried exCut [n]) = List.replicate 7 false := by decide +kernel
example : Spoils (exCut.take 3) := .inl (by decide +kernel)

-- in the floats: reported; in the byte table: a panic
example : errorOf (exCut.take 20) = some ⟨.noMoreData, 19⟩ ∧ errorOf (exCut.take 33) = some ⟨.noMoreData, 31⟩ ∧ errorOf (exCut.take 36) = none := by decide +kernel

theorem errorOf_err {file : List UInt8} {e : DecodeError} (h : errorOf file = some e) : ∃ s, Code.read .release none file = .err e s := by
  unfold errorOf at h
  split at h
  · next e' s h' => cases h; exact ⟨s, h'⟩
  · cases h

-- beginnings that end in the floats and in the size of the byte table, in the words of the specification
example : EndsInPools (exCut.take 20) ∨ NoTableSize (exCut.take 20) :=
  (c94_reported_iff _ _ (incomplete_take exCut_whole 20 (by decide +kernel))).1.1 ⟨19, errorOf_err (by decide +kernel)⟩
example : EndsInPools (exCut.take 33) ∨ NoTableSize (exCut.take 33) :=
  (c94_reported_iff _ _ (incomplete_take exCut_whole 33 (by decide +kernel))).1.1 ⟨31, errorOf_err (by decide +kernel)⟩
-- and in the types
example : ¬ Spoils (exCut.take 37) :=
  (c94_recorded_iff _ _ (incomplete_take exCut_whole 37 (by decide +kernel))).1.1 (by decide +kernel)

end Verif.Brass
