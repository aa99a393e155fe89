import Verif.Brass.FaultFile
import Verif.Props.Blame

/-!
# Errors are true (C86)
-/

namespace Verif.Brass

open Verif Verif.Brass.Spec

/-! ## One file -/

theorem Tree.Just.run {I : DecodeError → Prop} {α : Type} {Q : Bool → Res α → Prop} :
    ∀ {t : Tree α} {fl : Bool} {e : Option DecodeError}, t.Just I Q fl → (fl = true → e.isSome = true) → (∀ x, e = some x → I x) →
      (∃ fl', Q fl' (t.run e).1) ∧ ∀ x, (t.run e).2 = some x → I x := by
  intro t
  induction t with
  | done r => exact fun h _ h2 => ⟨⟨_, h⟩, h2⟩
  | get k ih =>
    intro fl e h h1 h2
    cases e with
    | none =>
      cases fl with
      | true => cases h1 rfl
      | false => exact ih none (h.1 rfl) nofun h2
    | some x => exact ih (some x) (h.2 x (h2 x rfl)) (fun _ => rfl) h2
  | set v t ih =>
    rintro fl e ⟨⟨x, rfl, hx⟩, h⟩ h1 h2
    exact ih h (fun _ => rfl) (fun y hy => by cases hy; exact hx)

/-- **C86** An error reported by `Code::read` is true of the file, or was recorded before. -/
theorem c86_reported (p : Profile) (e : Option DecodeError) (file : List UInt8) (x : DecodeError) (s : St)
    (h : Code.read p e file = .err x s) : e = some x ∨ Fault file x := by
  have h1 := (read_just (I := fun x => e = some x ∨ Fault file x) (file := file) (fun x hx => .inr hx) p).run (e := e)
    nofun (fun x hx => .inl hx)
  obtain ⟨⟨fl, h2⟩, _⟩ := h1
  rw [← Sim.read] at h
  generalize (Par.read p file).run e = re at h h2
  obtain ⟨r, e'⟩ := re
  cases r with
  | err y d => cases h; exact h2
  | ok => cases h
  | panic => cases h

/-! ## Any number of threads -/

/-- Invariant of a thread, if `I` is what may be reported. -/
def Truthful (I : DecodeError → Prop) (e : Option DecodeError) (t : Thread) : Prop :=
  (∀ x, e = some x → I x) ∧ (∀ b ∈ t.todo, ∀ x, Fault b x → I x) ∧
  (∀ b u, t.cur = some (b, u) → ∃ fl, Tree.Just I (Post (fun _ _ _ => True) (Ends I)) fl u ∧ (fl = true → e.isSome = true)) ∧
  ∀ b x, (b, .err x) ∈ t.answers → I x

theorem Truthful.step {p : Profile} {I : DecodeError → Prop} {e : Option DecodeError} {t : Thread} (h : Truthful I e t) :
    ((∀ x, (t.step p e).1 = some x → I x) ∧ (e.isSome = true → (t.step p e).1.isSome = true)) ∧
      Truthful I (t.step p e).1 (t.step p e).2 := by
  obtain ⟨h0, h1, h2, h3⟩ := h
  unfold Thread.step
  split
  · next hc =>
    split
    · exact ⟨⟨h0, id⟩, h0, h1, h2, h3⟩
    · next b r ht =>
      refine ⟨⟨h0, id⟩, h0, fun x hx => h1 x (by rw [ht]; exact List.mem_cons_of_mem _ hx), ?_, h3⟩
      intro b' u hb
      cases hb
      exact ⟨false, read_just (h1 b (by rw [ht]; exact List.mem_cons_self)) p, nofun⟩
  · next b r hc =>
    refine ⟨⟨h0, id⟩, h0, h1, by simp, ?_⟩
    intro b' x hm
    rcases List.mem_append.1 hm with hm | hm
    · exact h3 b' x hm
    · obtain ⟨fl, h4, _⟩ := h2 _ _ hc
      cases r with
      | err y d => cases List.mem_singleton.1 hm; exact h4
      | ok => cases List.mem_singleton.1 hm
      | panic => cases List.mem_singleton.1 hm
  · next b k hc =>
    refine ⟨⟨h0, id⟩, h0, h1, ?_, h3⟩
    intro b' u hb
    cases hb
    obtain ⟨fl, h4, h5⟩ := h2 _ _ hc
    cases e with
    | none =>
      cases fl with
      | true => cases h5 rfl
      | false => exact ⟨false, h4.1 rfl, nofun⟩
    | some x => exact ⟨true, h4.2 x (h0 x rfl), fun _ => rfl⟩
  · next b v u hc =>
    obtain ⟨fl, ⟨⟨x, rfl, hx⟩, h4⟩, _⟩ := h2 _ _ hc
    have h6 : ∀ y, some x = some y → I y := fun y hy => by cases hy; exact hx
    refine ⟨⟨h6, fun _ => rfl⟩, h6, h1, ?_, h3⟩
    intro b' u hb
    cases hb
    exact ⟨true, h4, fun _ => rfl⟩

/-- **C86** Whatever the schedule, every error, be it reported by some call or recorded, is the one recorded at the
beginning, or is true of one of the files of the process. -/
theorem c86_process (p : Profile) (e : Option DecodeError) (files : List (List (List UInt8))) (schedule : List Nat) (x : DecodeError)
    (h : ((Process.start e files).run p schedule).errors = some x ∨
      ∃ t ∈ ((Process.start e files).run p schedule).threads, ∃ b, (b, .err x) ∈ t.answers) :
    e = some x ∨ ∃ fs ∈ files, ∃ b ∈ fs, Fault b x := by
  have h1 := Process.run_inv (p := p)
    (I := fun s => (∀ y, s.errors = some y → e = some y ∨ ∃ fs ∈ files, ∃ b ∈ fs, Fault b y) ∧
      ∀ t ∈ s.threads, Truthful (fun y => e = some y ∨ ∃ fs ∈ files, ∃ b ∈ fs, Fault b y) s.errors t)
    (by
      rintro s i ⟨h0, hs⟩
      have h2 := Process.step_inv (p := p)
        (R := fun e0 e' => (∀ y, e' = some y → e = some y ∨ ∃ fs ∈ files, ∃ b ∈ fs, Fault b y) ∧ (e0.isSome = true → e'.isSome = true))
        (fun _ _ h => h.step) (fun _ _ _ h1 h2 => ⟨h1.1, h2.2.1, fun b u hb => by
          obtain ⟨fl, h3, h4⟩ := h2.2.2.1 b u hb
          exact ⟨fl, h3, fun hf => h1.2 (h4 hf)⟩, h2.2.2.2⟩) s i hs
      refine ⟨?_, h2⟩
      cases hi : s.threads[i]? with
      | none =>
        have : s.step p i = s := by unfold Process.step; rw [hi]
        rw [this]
        exact h0
      | some t0 =>
        rw [Process.step_eq hi]
        exact (Truthful.step (hs t0 (List.mem_of_getElem? hi))).1.1)
    (Process.start e files) schedule (by
      refine ⟨fun y hy => .inl hy, ?_⟩
      intro t ht
      obtain ⟨fs, hfs, rfl⟩ := List.mem_map.1 ht
      exact ⟨fun y hy => .inl hy, fun b hb x hx => .inr ⟨fs, hfs, b, hb, hx⟩, by simp, by simp⟩)
  rcases h with h | ⟨t, ht, b, hb⟩
  · exact h1.1 x h
  · exact (h1.2 t ht).2.2.2 b x hb

/-- The position of a true error is in the file. -/
theorem Fault.position_le {file : List UInt8} {x : DecodeError} (h : Fault file x) : x.position ≤ file.length := by
  cases h with
  | header pre rest b b' h => simp [h]
  | version b rest h => simp [h]
  | noVersion h => simp [h]
  | noInt k m r c i _ h => simp [h]
  | noFloat k m r c i _ h => simp [h]
  | noSize k r c _ h => simp [h]
  | noBytes k w r c _ h => simp [h]
  | negative m w r i h => simp [h]
  | item k m w r c kind _ h => simp [h]

/-- **C86** Four of the kinds of errors are never reported (in a process that starts without an error). -/
theorem c86_kinds (p : Profile) (files : List (List (List UInt8))) (schedule : List Nat) (x : DecodeError)
    (h : ∃ t ∈ ((Process.start none files).run p schedule).threads, ∃ b, (b, .err x) ∈ t.answers) :
    x.kind ≠ .couldNotProcessOpcode ∧ x.kind ≠ .couldNotReadIndex ∧ x.kind ≠ .couldNotReadStringAtIndex ∧ x.kind ≠ .invalidString := by
  rcases c86_process p none files schedule x (.inr h) with h | ⟨_, _, b, _, h⟩
  · cases h
  · cases h with
    | item k m w r c kind _ _ h' => cases h' <;> simp
    | _ => simp

/-- **C86** An error of any other kind than `NoMoreData` cannot be repaired by appending anything to the file. -/
theorem c86_not_repairable (p : Profile) (e : Option DecodeError) (file z : List UInt8) (x : DecodeError) (s : St)
    (h : Code.read p e file = .err x s) (hx : x.kind ≠ .noMoreData) (c : Code) (s' : St) : Code.read p e (file ++ z) ≠ .ok c s' := by
  intro h'
  obtain ⟨_, k, hk, _, _⟩ := (Sem.readM p).sound _ _ _ trivial h' (c29_ok_no_error p e _ c s' h').2
  have hk : file ++ z = k ++ s'.buf := hk
  rcases List.append_eq_append_iff.1 hk with ⟨k'', h1, h2⟩ | ⟨r, h1, h2⟩
  · cases k'' with
    | nil =>
      have h3 := c31_depends_on_consumed p e k s'.buf [] c s' (hk ▸ h') rfl
      rw [h1] at h3
      simp only [List.append_nil] at h3
      rw [h3] at h
      cases h
    | cons a k'' =>
      rcases c27_truncation p e _ file (a :: k'') c s' h' (by rw [h2, List.append_assoc]) (by simp) with h3 | ⟨y, s1, h3, h4⟩
      · rw [h3] at h; cases h
      · rw [h4] at h; cases h; exact hx h3
  · have h3 := c31_depends_on_consumed p e k s'.buf r c s' (hk ▸ h') rfl
    rw [← h1, h] at h3
    cases h3

/-! ## Every kind of fault occurs -/

/-- The error reported for a file read alone. -/
def errorOf (file : List UInt8) : Option DecodeError :=
  match Code.read .release none file with
  | .err x _ => some x
  | _ => none

/-- The error recorded after a file has been read alone. -/
def recorded (file : List UInt8) : Option DecodeError := (history .release none [file]).2

/-- A header with the counts given. -/
def hdr (v : UInt8) (counts : List UInt8) : List UInt8 := [0x48, 0x4C, 0x42, v] ++ counts

example : errorOf [0x48, 0x4C, 0x43, 7] = some ⟨.invalidBytecodeHeader, 3⟩ := by decide +kernel
example : errorOf [0x48, 0x4C, 0x42, 9] = some ⟨.unsupportedBytecodeVersion, 4⟩ := by decide +kernel
example : recorded [0x48, 0x4C, 0x42] = some ⟨.noMoreData, 3⟩ := by decide +kernel
-- two integers announced, the second one is cut
example : errorOf (hdr 4 [0, 2, 0, 0, 0, 0, 0, 0, 0, 0] ++ [1, 0, 0, 0, 1, 2]) = some ⟨.noMoreData, 18⟩ := by decide +kernel
-- one integer and one float
example : errorOf (hdr 4 [0, 1, 1, 0, 0, 0, 0, 0, 0, 0] ++ [1, 0, 0, 0, 1, 2]) = some ⟨.noMoreData, 18⟩ := by decide +kernel
-- no size of the bytes
example : errorOf (hdr 5 [0, 0, 0, 0, 0, 0, 0, 0, 0, 0, 0] ++ [0, 0, 0, 0, 1, 0]) = some ⟨.noMoreData, 19⟩ := by decide +kernel
-- not enough bytes
example : recorded (hdr 5 [0, 0, 0, 0, 0, 0, 0, 0, 0, 0, 0] ++ [0, 0, 0, 0] ++ [8, 0, 0, 0] ++ [1, 2]) = some ⟨.noMoreData, 23⟩ := by
  decide +kernel
-- a negative count
example : errorOf (hdr 4 [0, 0, 0xA0, 1, 0, 0, 0, 0, 0, 0, 0]) = some ⟨.negativeIndex, 8⟩ := by decide +kernel
-- a global of type 1, there is one type
example : errorOf (hdr 4 [0, 0, 0, 0, 1, 1, 0, 0, 0, 0] ++ [0, 0, 0, 0] ++ [3] ++ [1]) = some ⟨.invalidTypeIndex, 20⟩ := by decide +kernel
-- an abstract type with name 5
example : errorOf (hdr 4 [0, 0, 0, 0, 1, 0, 0, 0, 0, 0] ++ [0, 0, 0, 0] ++ [17, 5]) = some ⟨.invalidStringIndex, 20⟩ := by decide +kernel
-- a type of kind 99
example : errorOf (hdr 4 [0, 0, 0, 0, 1, 0, 0, 0, 0, 0] ++ [0, 0, 0, 0] ++ [99]) = some ⟨.invalidType, 19⟩ := by decide +kernel
-- instruction 200
example : errorOf (hdr 4 [0, 0, 0, 0, 1, 0, 0, 1, 0, 0] ++ [0, 0, 0, 0] ++ [3] ++ [0, 0, 0, 1, 200]) = some ⟨.invalidOpcode, 24⟩ := by
  decide +kernel
-- debug file 3 of 0
example : errorOf (hdr 4 [1, 0, 0, 0, 1, 0, 0, 1, 0, 0] ++ [0, 0, 0, 0] ++ [0, 0, 0, 0, 0] ++ [3] ++ [0, 0, 0, 1, 98] ++ [1, 3] ++ [4] ++ [0]) =
    some ⟨.invalidDebugFile, 31⟩ := by decide +kernel
-- a run of three instructions, there is one
example : errorOf (hdr 4 [1, 0, 0, 0, 1, 0, 0, 1, 0, 0] ++ [0, 0, 0, 0] ++ [0, 0, 0, 0, 0] ++ [3] ++ [0, 0, 0, 1, 98] ++ [14, 4, 0]) =
    some ⟨.outsideRange, 30⟩ := by decide +kernel

/-- **C26** These two errors are reported for nothing else: after `HLB` and a version from 2 to 5, a call in a process that has no
error recorded returns neither of them. -/
theorem c26_only_then (p : Profile) (v : UInt8) (hv : 2 ≤ v.toNat ∧ v.toNat ≤ 5) (rest : List UInt8) (x : DecodeError) (s : St)
    (h : Code.read p none (0x48 :: 0x4C :: 0x42 :: v :: rest) = .err x s) :
    x.kind ≠ .invalidBytecodeHeader ∧ x.kind ≠ .unsupportedBytecodeVersion := by
  have hf := (c86_reported p none _ x s h).resolve_left (by simp)
  generalize hfile : (0x48 :: 0x4C :: 0x42 :: v :: rest : List UInt8) = file at hf
  cases hf with
  | header pre r b b' h1 h2 h3 =>
    exfalso
    rw [← hfile] at h1
    match pre, h1, h2 with
    | [], h1, h2 => simp at h1 h2; exact h3 (by rw [← h1.1, ← h2])
    | [_], h1, h2 => simp at h1 h2; exact h3 (by rw [← h1.2.1, ← h2.2])
    | [_, _], h1, h2 => simp at h1 h2; exact h3 (by rw [← h1.2.2.1, ← h2.2.2])
    | _ :: _ :: _ :: _, h1, h2 =>
      have := h2.length_le
      simp at this
  | version b r h1 h2 =>
    rw [← hfile] at h1
    simp at h1
    obtain ⟨rfl, _⟩ := h1
    omega
  | item k m w r c kind h1 h2 h3 => cases h3 <;> exact ⟨by simp, by simp⟩
  | _ => exact ⟨by simp, by simp⟩

/-- Version 5 with a cut header: an error of another kind. -/
example : errorOf [0x48, 0x4C, 0x42, 5, 0, 0xA0, 1, 0, 0, 0, 0, 0, 0, 0, 0, 0] = some ⟨.negativeIndex, 7⟩ := by decide +kernel

end Verif.Brass
