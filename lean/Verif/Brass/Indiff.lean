import Verif.Brass.Sem

/-!
# Functions that do not look at the recorded error

`Indiff x`: a run of `x` that ends with `Ok` and without a recorded error goes the same way when another error is recorded
before the call, and keeps that error.
-/

namespace Verif.Brass

open Verif

/-- `x` does not look at `ERRORS`. -/
def Indiff {α : Type} (x : M α) : Prop :=
  ∀ s a s', x s = .ok a s' → s'.errors = none → ∀ e, x { s with errors := e } = .ok a { s' with errors := e }

namespace Indiff

theorem pure {α : Type} (a : α) : Indiff (Pure.pure a : M α) := by
  intro s b s' h _ e
  cases h; rfl

theorem bind {α β : Type} {x : M α} {f : α → M β} (hx : Indiff x) (hf : ∀ a, Good (f a)) (hf' : ∀ a, Indiff (f a)) :
    Indiff (x >>= f) := by
  intro s b s' h he e
  obtain ⟨a, s1, h1, h2⟩ := M.bind_eq_ok h
  rw [M.bind_ok (hx _ _ _ h1 ((hf a).none_of h2 he) e)]
  exact hf' a _ _ _ h2 he e

theorem unwrap {α : Type} {x : M α} (hx : Indiff x) : Indiff (M.unwrap x) := by
  intro s a s' h he e
  unfold M.unwrap at h ⊢
  split at h
  · next h1 => cases h; rw [hx _ _ _ h1 he e]
  · cases h
  · cases h

theorem readBytes (n) : Indiff (readBytes n) := by
  intro s a s' h _ e
  unfold Brass.readBytes at h ⊢
  split at h
  · cases h
  · next h1 => cases h; simp only; rw [if_neg h1]

theorem setError (k) : Indiff (M.setError k) := by
  intro s a s' h he e
  cases h; cases he

theorem decodeUnsigned (n) : Indiff (decodeUnsigned n) := bind (readBytes n) (fun _ => Good.pure _) (fun _ => pure _)
theorem decodeU8 : Indiff decodeU8 := decodeUnsigned 1

theorem readIndex : Indiff readIndex := by
  unfold Brass.readIndex
  refine bind decodeU8 (fun b => ?_) (fun b => ?_)
  · split
    · exact Good.pure _
    · split
      · exact Good.bind Good.decodeU8.unwrap fun _ => Good.pure _
      · exact Good.bind Good.decodeU8 fun _ => Good.bind Good.decodeU8 fun _ => Good.bind Good.decodeU8 fun _ => Good.pure _
  · split
    · exact pure _
    · split
      · exact bind decodeU8.unwrap (fun _ => Good.pure _) fun _ => pure _
      · exact bind decodeU8 (fun _ => Good.bind Good.decodeU8 fun _ => Good.bind Good.decodeU8 fun _ => Good.pure _)
          fun _ => bind decodeU8 (fun _ => Good.bind Good.decodeU8 fun _ => Good.pure _)
          fun _ => bind decodeU8 (fun _ => Good.pure _) fun _ => pure _

theorem index : Indiff index := readIndex.unwrap

theorem uindex : Indiff uindex := by
  unfold Brass.uindex
  refine bind index (fun i => ?_) (fun i => ?_)
  · split
    · exact Good.bind (Good.setError _) fun _ => Good.pure _
    · exact Good.pure _
  · split
    · exact bind (setError _) (fun _ => Good.pure _) fun _ => pure _
    · exact pure _

theorem uindexIf (b) : Indiff (uindexIf b) := by
  unfold Brass.uindexIf
  split
  · exact uindex
  · exact pure _

theorem uindexIf_good (b) : Good (Brass.uindexIf b) := by
  unfold Brass.uindexIf
  split
  · exact Good.uindex
  · exact Good.pure' _

theorem readCounts (v) : Indiff (readCounts v) := by
  unfold Brass.readCounts
  iterate 11
    refine bind ?_ (fun _ => ?_) (fun _ => ?_)
    · first | exact uindex | exact uindexIf _
    · first
        | exact Good.pure _
        | (repeat' first | exact Good.pure _ | exact Good.uindex | exact uindexIf_good _ | refine Good.bind ?_ fun _ => ?_)
  exact pure _

end Indiff

end Verif.Brass
