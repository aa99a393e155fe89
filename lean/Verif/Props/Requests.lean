import Verif.Brass.RequestLemmas
import Verif.Brass.AllocLemmas
import Verif.Props.Size

/-!
# Tables that are requested before their contents are seen (C99)

`requests p e buf` is the list of the lengths `n` of all `vec![x; n]` that `Code::read(buf)` executes.
-/

namespace Verif.Brass

open Verif Verif.Brass.Spec

/-! ## C99 -/

/-- **C99** The reader with the log is the reader. -/
theorem c99_same_reader (p : Profile) (e : Option DecodeError) (buf : List UInt8) : (readMR p (St.new buf e)).1 = Code.read p e buf :=
  Erases.readM p _

/-- **C99** For an accepted file (that is not bare, see C44) the tables requested are those of the result. -/
theorem c99_accepted (p : Profile) (e : Option DecodeError) (buf : List UInt8) (c : Code) (s : St) (h : Code.read p e buf = .ok c s)
    (hv : c.version ≠ 0) : requests p e buf = tables c := by
  have h1 := (logs_readM p (St.new buf e) rfl).2 c s ((c99_same_reader p e buf).trans h)
  exact (h1.resolve_right fun h => hv h.1).2

/-- **C99** For a bare file they are a table of strings, at most one of bytes, and two empty ones. -/
theorem c99_bare (p : Profile) (e : Option DecodeError) (buf : List UInt8) (c : Code) (s : St) (h : Code.read p e buf = .ok c s)
    (hv : c.version = 0) : ∃ n b, requests p e buf = n :: (b ++ [0, 0]) ∧ b.length ≤ 1 := by
  have h1 := (logs_readM p (St.new buf e) rfl).2 c s ((c99_same_reader p e buf).trans h)
  rcases h1 with ⟨h1, -⟩ | ⟨-, n, b, h1, h2⟩
  · omega
  · exact ⟨n, b, h1, by rcases h2 with rfl | ⟨k, rfl⟩ <;> simp⟩

/-- **C99** No file, accepted or not, makes the reader request more than `2 * (2^31 - 1)` entries at once. -/
theorem c99_bound (p : Profile) (e : Option DecodeError) (buf : List UInt8) : ∀ n ∈ requests p e buf, n ≤ 2 * (2 ^ 31 - 1) :=
  (logs_readM p (St.new buf e) rfl).1

theorem instrTable_le (o : Opcode) (h : WellFormedOp o) : (instrTable o).sum ≤ o.extra.length := by
  obtain ⟨-, h⟩ := h
  unfold instrTable
  split at h <;> rename_i hs <;> rw [hs] <;> simp only
  · simp
  · simp
  · simp
  · simp
  · simp
  · split
    · simp only [List.sum_cons, List.sum_nil]; omega
    · simp
  · obtain ⟨-, -, k, -, h1, h2⟩ := h
    rw [h1, h2]
    simp only [Option.getD_some, Int.toNat_natCast, List.sum_cons, List.sum_nil]
    omega
  · obtain ⟨-, ⟨k, -, h1, h2⟩, -⟩ := h
    rw [h1, h2]
    simp only [Option.getD_some, Int.toNat_natCast, List.sum_cons, List.sum_nil]
    omega

theorem instrTables_le : ∀ l : List Opcode, (∀ o ∈ l, WellFormedOp o) → (l.flatMap instrTable).sum ≤ (l.map fun o => o.extra.length).sum
  | [], _ => by simp
  | o :: l, h => by
    have h1 := instrTable_le o (h o (by simp))
    have h2 := instrTables_le l fun o ho => h o (by simp [ho])
    simp only [List.flatMap_cons, List.sum_append, List.map_cons, List.sum_cons]
    omega

theorem functionTables_le {d : Nat} {f : HLFunction} (h : WellFormedFun d f) : (functionTables (d != 0) f).sum ≤ functionEntries f := by
  have h1 := instrTables_le f.ops h.shape
  have h2 := h.debug
  unfold functionTables functionEntries
  rw [List.sum_append]
  by_cases hd : d = 0
  · simp [hd]; omega
  · simp [hd] at h2 ⊢; omega

theorem functionsTables_le {d : Nat} : ∀ l : List HLFunction, (∀ f ∈ l, WellFormedFun d f) →
    (l.flatMap (functionTables (d != 0))).sum ≤ (l.map functionEntries).sum
  | [], _ => by simp
  | f :: l, h => by
    have h1 := functionTables_le (h f (by simp))
    have h2 := functionsTables_le l fun o ho => h o (by simp [ho])
    simp only [List.flatMap_cons, List.sum_append, List.map_cons, List.sum_cons]
    omega

/-- **C99** The tables requested for an accepted file, other than the first one, the cache of strings, have together at most twice as
many entries as the file has bytes. -/
theorem c99_accepted_linear (p : Profile) (e : Option DecodeError) (buf : List UInt8) (c : Code) (s : St) (h : Code.read p e buf = .ok c s)
    (hv : c.version ≠ 0) : (requests p e buf).tail.sum ≤ 2 * buf.length := by
  rw [c99_accepted p e buf c s h hv]
  refine Nat.le_trans ?_ (c85_linear p e buf c s h)
  have L := loaded h
  have h1 := L.types_length
  have h2 := L.globals_length
  have h3 := functionsTables_le c.functions L.functionsOk
  unfold tables entries
  split <;> simp only [List.cons_append, List.nil_append, List.tail_cons, List.sum_append, List.sum_cons, List.sum_nil] <;> omega

theorem lift_step {α β : Type} {x : M α} {f : α → R β} {s s' : St} {a : α} (h : x s = .ok a s') : (R.lift x >>= f) s = f a s' := by
  show R.bind (R.lift x) f s = _
  unfold R.bind R.lift
  rw [h]
  simp

theorem log_bind {α β : Type} {x : R α} {f : α → R β} {s s' : St} {a : α} {l : List Nat} (h : x s = (.ok a s', l)) :
    ((x >>= f) s).2 = l ++ (f a s').2 := by
  show (R.bind x f s).2 = _
  unfold R.bind
  rw [h]

theorem log_head {α β : Type} {x : R α} {s : St} {n : Nat} {l : List Nat} (h : (x s).2 = n :: l) (f : α → R β) :
    ∃ l', ((x >>= f) s).2 = n :: l' := by
  show ∃ l', (R.bind x f s).2 = _
  unfold R.bind
  rcases hx : x s with ⟨o, l0⟩
  rw [hx] at h
  simp only at h
  subst h
  cases o with
  | ok a s1 => exact ⟨_, rfl⟩
  | err e s1 => exact ⟨_, rfl⟩
  | panic => exact ⟨_, rfl⟩

/-- **C99** For files that are not accepted the size of the file is no bound: 16 bytes and the number of types are enough to request
a table of types with that number of entries. -/
theorem c99_types (p : Profile) (n : Nat) (k rest : List UInt8) (hk : IdxBytes k n) :
    (manyTypes k).length = 16 + k.length ∧ ∃ l, requests p none (manyTypes k ++ rest) = 0 :: n :: l := by
  refine ⟨by simp [manyTypes]; omega, ?_⟩
  have zero : ∀ c : Code, natG c [0] 0 c := fun c => ⟨rfl, IdxBytes.short 0 (by decide)⟩
  let c0 : Code := { Code.new with version := 2, ntypes := n }
  have hcounts : countsG 2 Code.new ([0, 0, 0, 0] ++ k ++ [0, 0, 0, 0]) c0 Code.new := by
    refine ⟨[0], _, 0, _, ?_, zero _, [0], _, 0, _, rfl, zero _, [0], _, 0, _, rfl, zero _, [0], _, 0, _, rfl, zero _, [], _, 0, _, rfl,
      ⟨rfl, rfl, rfl⟩, k, _, n, _, rfl, ⟨rfl, hk⟩, [0], _, 0, _, rfl, zero _, [0], _, 0, _, rfl, zero _, [0], _, 0, _, rfl, zero _,
      [], _, 0, _, rfl, ⟨rfl, rfl, rfl⟩, [0], [], 0, _, rfl, zero _, rfl, rfl, rfl⟩
    simp
  have h1 : readMagic (St.new (manyTypes k ++ rest) none) = .ok () ⟨[2] ++ (([0, 0, 0, 0] ++ k ++ [0, 0, 0, 0]) ++ ([0, 0, 0, 0] ++ rest)), 3, Code.new, none⟩ := by
    simp [manyTypes]; rfl
  have h2 : readVersion ⟨[2] ++ (([0, 0, 0, 0] ++ k ++ [0, 0, 0, 0]) ++ ([0, 0, 0, 0] ++ rest)), 3, Code.new, none⟩ =
    .ok 2 ⟨([0, 0, 0, 0] ++ k ++ [0, 0, 0, 0]) ++ ([0, 0, 0, 0] ++ rest), 4, Code.new, none⟩ := rfl
  have h3 := (Sem.checked (Sem.readCounts 2)).complete Code.new _ _ _ trivial hcounts ([0, 0, 0, 0] ++ rest) 4
  have h4 : ∀ pos, readPools c0 ⟨[0, 0, 0, 0] ++ rest, pos, Code.new, none⟩ = .ok c0 ⟨rest, pos + 4, Code.new, none⟩ := fun pos => rfl
  unfold requests readMR
  rw [lift_step h1, lift_step h2, lift_step h3, lift_step (h4 _)]
  have h5 : ∀ s, readBytesSectionR c0 s = (.ok { c0 with ustrings := [] } s, [0]) := fun s => rfl
  have h6 : ∀ s, readDebugFiles { c0 with ustrings := [] } s = .ok { c0 with ustrings := [] } s := fun s => rfl
  rw [log_bind (h5 _), lift_step (h6 _)]
  obtain ⟨l, hl⟩ := log_head (x := readTypesR { c0 with ustrings := [] }) (s := ⟨rest, 4 + ([0, 0, 0, 0] ++ k ++ [0, 0, 0, 0]).length + 4, Code.new, none⟩) (n := n) (l := []) rfl _
  exact ⟨l, congrArg (0 :: ·) hl⟩

/-- **C99** 20 bytes are enough to request `2^31 - 1` types. -/
theorem c99_types_max (p : Profile) : ∃ buf l, buf.length = 20 ∧ requests p none buf = 0 :: (2 ^ 31 - 1) :: l := by
  obtain ⟨h1, l, h2⟩ := c99_types p (2 ^ 31 - 1) [0xFF, 0xFF, 0xFF, 0x7F] [] (IdxBytes.long _ _ _ _ (by decide))
  rw [List.append_nil] at h2
  exact ⟨_, l, h1, h2⟩

/-- A case of `c99_accepted`: the module of C43 has four strings, two bytes, five types, two globals, a call with two arguments, and
three instructions with debug information. -/
theorem c99_witness (p : Profile) : ∃ c s, Code.read p none exampleModule.encode = .ok c s ∧ c.version = 5 ∧
    requests p none exampleModule.encode = [4, 2, 5, 2, 2, 6] := by
  obtain ⟨u, h⟩ := c43_file_roundtrip _ exampleModule_good (.inl rfl) p []
  rw [List.append_nil] at h
  refine ⟨_, _, h, rfl, ?_⟩
  rw [c99_accepted p none _ _ _ h (by show (5 : Nat) ≠ 0; decide)]
  rfl

end Verif.Brass
