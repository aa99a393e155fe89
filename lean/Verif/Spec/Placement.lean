import Verif.Spec.Heap

/-!
# Specification of where objects are placed (C63, C64)

An abstract allocator on numbers: it knows the block objects are currently put into and the overflow block, each as its
address and the number of bytes used in it, and nothing else.  A block has room for 32752 bytes, from offset 16 on.
-/

namespace Verif.Immix.Spec

open Verif Verif.Immix

/-- State of the abstract allocator: current block, overflow block (address, bytes used), number of times the system was
asked for a block, and the blocks it gave. -/
structure Placement where
  current : Option (Nat × Nat)
  overflow : Option (Nat × Nat)
  calls : Nat
  blocks : List Nat

/-- At first there is nothing. -/
def Placement.init : Placement := { current := none, overflow := none, calls := 0, blocks := [] }

/-- Ask the system for a block and put `r` bytes at its start; `use` says which role the new block gets. -/
def Placement.inNewBlock (answer : Nat → Option Nat) (P : Placement) (use : Nat → Placement) : Except AllocError Nat × Placement :=
  match answer P.calls with
  | none => (.error .oom, { P with calls := P.calls + 1 })
  | some q => (.ok (q + 16), { use q with calls := P.calls + 1, blocks := P.blocks ++ [q] })

/-- Place `r` bytes: in the current block if they fit; otherwise small ones (up to 128 bytes) go to a new block, which becomes
the current one, and bigger ones to the overflow block if they fit there, or else to a new block, which becomes the overflow
block. -/
def Placement.put (answer : Nat → Option Nat) (P : Placement) (r : Nat) : Except AllocError Nat × Placement :=
  if r = 0 ∨ 32752 < r then (.error .badRequest, P)
  else match P.current with
    | none => P.inNewBlock answer fun q => { P with current := some (q, r) }
    | some (b, used) =>
      if used + r ≤ 32752 then (.ok (b + 16 + used), { P with current := some (b, used + r) })
      else if r ≤ 128 then P.inNewBlock answer fun q => { P with current := some (q, r) }
      else match P.overflow with
        | none => P.inNewBlock answer fun q => { P with overflow := some (q, r) }
        | some (b, used) =>
          if used + r ≤ 32752 then (.ok (b + 16 + used), { P with overflow := some (b, used + r) })
          else P.inNewBlock answer fun q => { P with overflow := some (q, r) }

/-- What a client operation leads to, according to the abstract allocator: the pointer returned is behind the header. -/
def placeStep (answer : Nat → Option Nat) (H : HeaderType) (P : Placement) (log : List Ev) : Op → Placement × List Ev
  | .alloc t o =>
    match P.put answer (roundUp (H.size + o.length)) with
    | (.ok a, P) => (P, log ++ [.allocated t o (a + H.size)])
    | (.error e, P) => (P, log ++ [.failed e])
  | .allocArray n =>
    match P.put answer (roundUp (H.size + n)) with
    | (.ok a, P) => (P, log ++ [.allocatedArray n (a + H.size)])
    | (.error e, P) => (P, log ++ [.failed e])
  | .store k off bytes =>
    match (objs log)[k]? with
    | some o => if off + bytes.length ≤ o.size then (P, log ++ [.stored k off bytes]) else (P, log)
    | none => (P, log)

/-- A whole program. -/
def placeRun (answer : Nat → Option Nat) (H : HeaderType) (P : Placement) (log : List Ev) : List Op → Placement × List Ev
  | [] => (P, log)
  | op :: ops =>
    let r := placeStep answer H P log op
    placeRun answer H r.1 r.2 ops

/-- The number of bytes reserved for all objects of a history. -/
def reserved (H : HeaderType) (log : List Ev) : Nat := ((objs log).map fun o => o.extent H).sum

end Verif.Immix.Spec
