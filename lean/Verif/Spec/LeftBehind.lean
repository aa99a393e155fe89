import Verif.Spec.Report
import Verif.Brass.Threads

/-!
# Which files make a read panic, and what the panic leaves behind (C93)

A read that panics has no result, but what it has recorded before the panic stays recorded, and the next read sees it.  The
places where a read cannot go on are those where a phrase of the grammar of marked texts (`Verif/Spec/Report.lean`) cannot be
read any further (`F.stop`); what is recorded then are the faults marked so far in the section.
-/

namespace Verif.Brass.Spec

open Verif Verif.Brass

/-- Reading `file` when nothing is recorded panics, and afterwards `e` is recorded. -/
inductive LeftBehind (p : Profile) (file : List UInt8) : Option DecodeError → Prop where
  /-- The file ends in the magic. -/
  | magic : file <+: [0x48, 0x4C] → LeftBehind p file none
  /-- The file ends after the magic. -/
  | version : file = [0x48, 0x4C, 0x42] → LeftBehind p file (some ⟨.noMoreData, 3⟩)
  /-- The size of the byte table is negative. -/
  | tableSize (k m r : List UInt8) (c : Code) : Opens upToStringsG k c → file = k ++ m ++ r → 5 ≤ c.version → m.length = 4 →
      twos32 (unsignedLE m) < 0 → LeftBehind p file none
  /-- The file ends in the byte table. -/
  | table (k m r : List UInt8) (c : Code) : Opens upToStringsG k c → file = k ++ m ++ r → 5 ≤ c.version → m.length = 4 →
      (r.length : Int) < twos32 (unsignedLE m) → LeftBehind p file (some ⟨.noMoreData, (k ++ m).length⟩)
  /-- A section cannot be read to its end. -/
  | inSection {α : Type} (g : G Code) (f : Code → F α) (k rest : List UInt8) (w : Marked) (c c' : Code) :
      Section p g f → g noCode k c c' → (f c).stop c' false w rest → file = k ++ text w ++ rest →
      LeftBehind p file (reported (faults k.length w))

/-- Reading `file` when the error `x` is recorded panics, and afterwards `e` is recorded. -/
inductive LeftBehindAfter (x : DecodeError) (file : List UInt8) : DecodeError → Prop where
  /-- The file ends in the magic or after it. -/
  | start : file <+: [0x48, 0x4C, 0x42] → LeftBehindAfter x file x
  /-- The counts cannot be read to their end; `x` counts as the first fault. -/
  | counts (k rest : List UInt8) (w : Marked) (c c' : Code) (e : DecodeError) : upToCountsG noCode k c c' →
      (countsF c.version).stop c' true w rest → file = k ++ text w ++ rest → reported (x :: faults k.length w) = some e →
      LeftBehindAfter x file e

/-- One call of `Code::read` on `file` in a process in which `x` is recorded: the answer, and what is recorded afterwards. -/
inductive Call (p : Profile) (file : List UInt8) : Option DecodeError → Answer → Option DecodeError → Prop where
  /-- An accepted file leaves nothing. -/
  | accepted (k rest : List UInt8) (c c' : Code) : file = k ++ rest → fileG p noCode k c c' → Call p file none (.ok c) none
  /-- A file rejected for its magic, its version or the missing size of its byte table leaves nothing. -/
  | rejectedSilently (e : DecodeError) : Rejected p file e → BadStart file ∨ NoTableSize file → Call p file none (.err e) none
  /-- Any other rejected file leaves its error. -/
  | rejected (e : DecodeError) : Rejected p file e → ¬ (BadStart file ∨ NoTableSize file) → Call p file none (.err e) (some e)
  | panics (e : Option DecodeError) : LeftBehind p file e → Call p file none .panic e
  /-- If an error is recorded, no file is accepted. -/
  | rejectedSilentlyAfter (x e : DecodeError) : RejectedAfter x file e → BadStart file → Call p file (some x) (.err e) (some x)
  | rejectedAfter (x e : DecodeError) : RejectedAfter x file e → ¬ BadStart file → Call p file (some x) (.err e) (some e)
  | panicsAfter (x e : DecodeError) : LeftBehindAfter x file e → Call p file (some x) .panic (some e)

/-- Calls of `Code::read` one after the other. -/
inductive Calls (p : Profile) : Option DecodeError → List (List UInt8) → List Answer → Option DecodeError → Prop where
  | none (x : Option DecodeError) : Calls p x [] [] x
  | call (file : List UInt8) (files : List (List UInt8)) (a : Answer) (as : List Answer) (x y z : Option DecodeError) :
      Call p file x a y → Calls p y files as z → Calls p x (file :: files) (a :: as) z

end Verif.Brass.Spec
