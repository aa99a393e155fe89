import Verif.Spec.LeftBehind

/-!
# Files that are still being written (C94)
-/

namespace Verif.Brass.Spec

open Verif Verif.Brass

/-- `cut` ends before the end of its integers and floats. -/
def EndsInPools (cut : List UInt8) : Prop :=
  ∃ k m c, Opens headerG k c ∧ cut = k ++ m ∧ m.length < 4 * c.nints + 8 * c.nfloats

/-- `cut` ends before the end of its byte table, but after the size of the table. -/
def EndsInTable (cut : List UInt8) : Prop :=
  ∃ k m r c, Opens upToStringsG k c ∧ cut = k ++ m ++ r ∧ 5 ≤ c.version ∧ m.length = 4 ∧ (r.length : Int) < twos32 (unsignedLE m)

/-- `cut` ends at one of the places where `Code::read` records that the file is too short. -/
def Spoils (cut : List UInt8) : Prop := cut = [0x48, 0x4C, 0x42] ∨ EndsInPools cut ∨ EndsInTable cut

/-- `cut` is a proper beginning of a file that is accepted (and has no superfluous bytes at its end). -/
def Incomplete (p : Profile) (cut : List UInt8) : Prop :=
  ∃ more c c', more ≠ [] ∧ fileG p noCode (cut ++ more) c c'

end Verif.Brass.Spec
