import Verif.Brass.LookupFile
import Verif.Brass.LookupBound
import Verif.Props.Copies
import Verif.Props.TypeHash

/-!
# C108: the tables that are copied to look up an entry
-/

namespace Verif.Brass

open Verif Verif.Brass.Spec

/-- **C108** The reader with the log of the copied tables is the reader. -/
theorem c108_same_reader (p : Profile) (e : Option DecodeError) (buf : List UInt8) : (readML p (St.new buf e)).1 = Code.read p e buf :=
  Looking.readM p _

/-- **C108** The lengths of the type tables that are copied when a file is accepted: the type table when `i` of the `n` types have been read,
which has `n + i` entries, once for each type that the next type looks up; then the full table of `2n` entries, once for each global, native,
function and register. -/
theorem c108_types (p : Profile) (e : Option DecodeError) (buf : List UInt8) (c : Code) (s : St) (h : Code.read p e buf = .ok c s) :
    ∃ k : Nat → Nat, (∀ i t, i < c.ntypes → c.types[i]? = some t → Looks t (k i)) ∧
      typeTables (tableCopies p e buf) =
        (List.range c.ntypes).flatMap (fun i => List.replicate (k i) (c.ntypes + i)) ++ List.replicate (otherLooks c) (2 * c.ntypes) := by
  obtain ⟨rfl, he⟩ := c29_ok_no_error p e buf c s h
  obtain ⟨k, h1, h2, -⟩ := lookups_file h he
  exact ⟨k, h1, h2⟩

/-- **C108** The string table is copied twice for each native, and once for each entry that the cache has gained. -/
theorem c108_strings (p : Profile) (e : Option DecodeError) (buf : List UInt8) (c : Code) (s : St) (h : Code.read p e buf = .ok c s) :
    c.nstrings ≤ c.ustrings.length ∧
      stringTables (tableCopies p e buf) = List.replicate (2 * c.nnatives + (c.ustrings.length - c.nstrings)) c.strings.length := by
  obtain ⟨rfl, he⟩ := c29_ok_no_error p e buf c s h
  obtain ⟨k, -, -, -, -, m, -, h1, h2⟩ := lookups_file h he
  have : c.ustrings.length - c.nstrings = m := by omega
  rw [this]
  exact ⟨by omega, h2⟩

/-- **C108** The cache of strings is copied once for each name in a declared type; each copy has at least as many entries as strings are
declared, and no more than the cache at the end, which has at most one more than that for each name. -/
theorem c108_cache (p : Profile) (e : Option DecodeError) (buf : List UInt8) (c : Code) (s : St) (h : Code.read p e buf = .ok c s) :
    (cacheTables (tableCopies p e buf)).length = ((c.types.take c.ntypes).map names).sum ∧
      (∀ n ∈ cacheTables (tableCopies p e buf), c.nstrings ≤ n ∧ n ≤ c.ustrings.length) ∧
      c.ustrings.length ≤ c.nstrings + ((c.types.take c.ntypes).map names).sum := by
  obtain ⟨rfl, he⟩ := c29_ok_no_error p e buf c s h
  obtain ⟨k, -, -, h1, h2, m, h3, h4, -⟩ := lookups_file h he
  exact ⟨h1, h2, by omega⟩

/-- **C108** No input makes the reader copy more than two tables per byte, whether it is accepted, rejected or panics. -/
theorem c108_any (p : Profile) (e : Option DecodeError) (buf : List UInt8) : (tableCopies p e buf).length ≤ 2 * buf.length := tableCopies_bound p e buf

theorem tables_length : ∀ l : List TableCopy, (typeTables l).length + (stringTables l).length + (cacheTables l).length = l.length
  | [] => rfl
  | t :: l => by
    have := tables_length l
    unfold typeTables stringTables cacheTables at this ⊢
    cases t <;> simp only [List.filterMap_cons, List.length_cons] <;> omega

theorem sum_le_length_mul (k : Nat) : ∀ l : List Nat, (∀ m ∈ l, m ≤ k) → l.sum ≤ l.length * k
  | [], _ => by simp
  | a :: l, h => by
    have h1 := h a (List.mem_cons_self ..)
    have h2 := sum_le_length_mul k l fun m hm => h m (List.mem_cons_of_mem _ hm)
    rw [List.sum_cons, List.length_cons, Nat.succ_mul]
    omega

theorem le_sum_length_mul (k : Nat) : ∀ l : List Nat, (∀ m ∈ l, k ≤ m) → l.length * k ≤ l.sum
  | [], _ => by simp
  | a :: l, h => by
    have h1 := h a (List.mem_cons_self ..)
    have h2 := le_sum_length_mul k l fun m hm => h m (List.mem_cons_of_mem _ hm)
    rw [List.sum_cons, List.length_cons, Nat.succ_mul]
    omega

/-- **C108** The copies of the type table and of the string table have together at most `4L²` entries, where `L` is the length of the
accepted file. -/
theorem c108_bound (p : Profile) (e : Option DecodeError) (buf : List UInt8) (c : Code) (s : St) (h : Code.read p e buf = .ok c s) :
    (typeTables (tableCopies p e buf)).sum + (stringTables (tableCopies p e buf)).sum ≤ 4 * (buf.length * buf.length) := by
  obtain ⟨k, -, h1⟩ := c108_types p e buf c s h
  obtain ⟨-, h2⟩ := c108_strings p e buf c s h
  have h3 := c108_any p e buf
  have h4 := tables_length (tableCopies p e buf)
  have h5 := c85_linear p e buf c s h
  obtain ⟨-, -, -, ⟨T, hT, ht⟩, -⟩ := c37_table_lengths p e buf c s h
  have hl : c.types.length = 2 * c.ntypes := by rw [ht]; simp; omega
  unfold entries at h5
  have e1 := sum_le_length_mul (2 * buf.length) (typeTables (tableCopies p e buf)) (by
    rw [h1]
    intro m hm
    rcases List.mem_append.1 hm with hm | hm
    · obtain ⟨i, hi, hm⟩ := List.mem_flatMap.1 hm
      have := List.mem_range.1 hi
      have := List.eq_of_mem_replicate hm
      omega
    · have := List.eq_of_mem_replicate hm
      omega)
  have e2 := sum_le_length_mul (2 * buf.length) (stringTables (tableCopies p e buf)) (by
    rw [h2]
    intro m hm
    have := List.eq_of_mem_replicate hm
    omega)
  have e3 : ((typeTables (tableCopies p e buf)).length + (stringTables (tableCopies p e buf)).length) * (2 * buf.length) ≤ 2 * buf.length * (2 * buf.length) :=
    Nat.mul_le_mul_right _ (by omega)
  rw [Nat.add_mul] at e3
  have e4 : 2 * buf.length * (2 * buf.length) = 4 * (buf.length * buf.length) := by
    rw [Nat.mul_assoc, Nat.mul_left_comm buf.length 2, ← Nat.mul_assoc]
  omega

/-- **C108** The copies of the cache of strings are not bounded by the length of the file: a file of `16` bytes, two for each of `m` types, and
the two indices `n` and `m` is accepted, and the cache is copied `m` times, with at least `n` entries each time. -/
theorem c108_large (p : Profile) (n m : Nat) (h0 : 0 < n) (hm : 0 < m) (k j : List UInt8) (hk : IdxBytes k n) (hj : IdxBytes j m) :
    (abstractTypes k m j).length = 16 + k.length + j.length + 2 * m ∧ (∃ c, Accepts p (abstractTypes k m j) c ∧ c.nstrings = n ∧ c.ntypes = m) ∧
      (cacheTables (tableCopies p none (abstractTypes k m j))).length = m ∧ m * n ≤ (cacheTables (tableCopies p none (abstractTypes k m j))).sum := by
  have hflat : ((List.replicate m [17, 0]).flatten : List UInt8).length = 2 * m := by simp [Nat.mul_comm]
  refine ⟨by unfold abstractTypes; simp only [List.length_append, hflat]; simp; omega, ?_⟩
  obtain ⟨n, rfl⟩ : ∃ m, n = m + 1 := ⟨n - 1, by omega⟩
  have hn : n + 1 < 2 ^ 31 := Vals.idx_lt hk
  have zero : ∀ c : Code, natG c [0] 0 c := fun c => ⟨rfl, IdxBytes.short 0 (by decide)⟩
  let c0 : Code := { Code.new with version := 2, nstrings := n + 1, ntypes := m }
  let c1 : Code := { c0 with strings := [[]], stringsLens := [0] }
  let c2 : Code := { c1 with ustrings := List.replicate (n + 1) none }
  let v : ValueType := { noType with kind := .HABSTRACT, absName := some [] }
  let us : Nat → List (Option Str) := fun i => if i = 0 then List.replicate (n + 1) none else some [] :: List.replicate (n + 1) none
  let t : Nat → Code := fun i => { c2 with ustrings := us i, types := List.replicate i v ++ List.replicate m noType }
  have hcounts : countsG 2 Code.new ([0, 0, 0] ++ k ++ (j ++ [0, 0, 0, 0])) c0 Code.new := by
    refine ⟨[0], _, 0, _, ?_, zero _, [0], _, 0, _, rfl, zero _, [0], _, 0, _, rfl, zero _, k, _, n + 1, _, rfl, ⟨rfl, hk⟩, [], _, 0, _, rfl,
      ⟨rfl, rfl, rfl⟩, j, _, m, _, rfl, ⟨rfl, hj⟩, [0], _, 0, _, rfl, zero _, [0], _, 0, _, rfl, zero _, [0], _, 0, _, rfl, zero _,
      [], _, 0, _, rfl, ⟨rfl, rfl, rfl⟩, [0], [], 0, _, rfl, zero _, rfl, rfl, rfl⟩
    simp
  have hpools : poolsG c0 Code.new [0, 0, 0, 0, 0] c1 Code.new := by
    refine ⟨[], _, [], _, rfl, ⟨rfl, rfl, rfl⟩, [], _, [], _, rfl, ⟨rfl, rfl, rfl⟩, [0, 0, 0, 0, 0], [], [[]], _, rfl, ?_, rfl, rfl, rfl⟩
    refine ⟨[0, 0, 0, 0], [0], 0, _, rfl, ⟨rfl, rfl, rfl⟩, [], _, (), _, rfl, ⟨rfl, by decide, rfl⟩, [], _, [], _, rfl, ⟨rfl, rfl, rfl⟩,
      [], _, [], _, rfl, ⟨rfl, rfl, [], .done, rfl⟩, ?_⟩
    refine ⟨[0], [], 0, _, rfl, zero _, [], [], [], Code.new, rfl, ?_, ?_⟩
    · exact ⟨[], [], (), _, rfl, ⟨rfl, ⟨.inl rfl, .inl rfl⟩, rfl⟩, rfl, rfl, rfl⟩
    · exact ⟨rfl, rfl, rfl⟩
  have hloop : ∀ (q i : Nat) (cc : Code), G.loop typesStepG i q (t i) cc (List.replicate q [17, 0]).flatten (t (i + q)) (if q = 0 then cc else t (i + q)) := by
    intro q
    induction q with
    | zero => intro i cc; exact ⟨rfl, rfl, rfl⟩
    | succ q ih =>
      intro i cc
      have hstep : typesStepG i (t i) cc [17, 0] (t (i + 1)) (t (i + 1)) := by
        let d : Code := { t i with ustrings := us (i + 1) }
        refine ⟨[], [17, 0], (), _, rfl, ⟨rfl, rfl⟩, [17, 0], [], v, d, rfl, ?_, ?_⟩
        · refine ⟨[17], [0], 17, _, rfl, ⟨rfl, 17, rfl, rfl⟩, [], [0], (), _, rfl, ⟨rfl, by decide, rfl⟩, [], [0], .HABSTRACT, _, rfl, ⟨rfl, rfl, rfl⟩, ?_⟩
          refine ⟨[0], [], [], d, rfl, ⟨hn, 0, IdxBytes.short 0 (by decide), Nat.succ_pos n, ?_⟩, rfl, rfl, rfl⟩
          by_cases hi : i = 0
          · subst hi; right; exact ⟨rfl, rfl, rfl⟩
          · left
            have e : us i = us (i + 1) := by simp only [us, if_neg hi, if_neg (Nat.succ_ne_zero i)]
            exact ⟨by show (us i)[0]? = _; rw [e]; rfl, by show { t i with ustrings := us (i + 1) } = t i; rw [← e]⟩
        · have e : (t i).types.insertIdx i v = (t (i + 1)).types := by
            have := insertIdx_append_length (List.replicate i v) (List.replicate m noType) v
            rw [List.length_replicate] at this
            show (List.replicate i v ++ List.replicate m noType).insertIdx i v = _
            rw [this]
            simp [t, List.replicate_succ']
          have e' : ({ d with types := (t i).types.insertIdx i v } : Code) = t (i + 1) := by rw [e]
          exact ⟨[], [], _, _, rfl, ⟨rfl, rfl, rfl⟩, [], [], (), _, rfl, ⟨rfl, by show i ≤ (List.replicate i v ++ List.replicate m noType).length; simp, rfl⟩,
            [], [], (), _, rfl, ⟨rfl, rfl⟩, rfl, e'.symm, e'.symm⟩
      have := ih (i + 1) (t (i + 1))
      refine ⟨[17, 0], (List.replicate q [17, 0]).flatten, t (i + 1), t (i + 1), by simp [List.replicate_succ], hstep, ?_⟩
      have e : i + (q + 1) = i + 1 + q := by omega
      rw [e, if_neg (by omega)]
      by_cases hq : q = 0
      · subst hq; exact this
      · rw [if_neg hq] at this; exact this
  have htypes : typesG c2 Code.new (List.replicate m [17, 0]).flatten (t m) (t m) := by
    have := hloop m 0 Code.new
    rw [Nat.zero_add, if_neg (by omega)] at this
    exact this
  have hf : fileG p Code.new (abstractTypes k m j) (t m) (t m) := by
    refine ⟨[0x48, 0x4C, 0x42], _, (), _, ?_, ⟨rfl, rfl⟩, [2], _, 2, _, rfl, ⟨[2], [], 2, _, rfl, ⟨rfl, 2, rfl, rfl⟩, [], [], (), _, rfl, ⟨rfl, by decide, rfl⟩, rfl, rfl, rfl⟩,
      _, _, _, _, rfl, hcounts, _, _, _, _, rfl, hpools, [], _, c2, _, rfl, ⟨rfl, rfl, rfl⟩, [], _, c2, _, rfl, ⟨rfl, rfl, rfl⟩,
      _, [], t m, _, (List.append_nil _).symm, htypes, [], _, t m, _, rfl, ⟨rfl, rfl, rfl⟩, [], _, t m, _, rfl, ⟨rfl, rfl, rfl⟩, [], _, t m, _, rfl, ⟨rfl, rfl, rfl⟩,
      [], [], t m, _, rfl, ⟨rfl, rfl, rfl⟩, rfl, rfl, rfl⟩
    simp [abstractTypes]
  have hr : Code.read p none (abstractTypes k m j) = .ok (t m) ⟨[], (abstractTypes k m j).length, t m, none⟩ :=
    (c38_accepts_exactly_the_grammar p none _ (t m) _).2 ⟨rfl, abstractTypes k m j, [], by simp, hf, rfl⟩
  obtain ⟨h1, h2, -⟩ := c108_cache p none _ _ _ hr
  have hsum : (((t m).types.take (t m).ntypes).map names).sum = m := by
    show (((List.replicate m v ++ List.replicate m noType).take m).map names).sum = m
    rw [List.take_append_of_le_length (by simp), List.take_of_length_le (by simp)]
    simp [names, v, noType]
  rw [hsum] at h1
  refine ⟨⟨t m, ⟨_, hr⟩, rfl, rfl⟩, h1, ?_⟩
  have := le_sum_length_mul (n + 1) _ fun a ha => (h2 a ha).1
  rw [h1] at this
  exact this

/-- C108: reading `exRich` (83 bytes; seven types, five globals, one function with its registers) copies the full type table of 14 entries at
least six times, and the cache and the string table as often as computed here from the result; a file of 221 bytes with 100 abstract types makes
the reader copy more than `2 · 10¹¹` entries of the cache. -/
example : (∃ c s, Code.read .release none exRich = .ok c s ∧ c.ntypes = 7 ∧ 6 ≤ otherLooks c ∧
      (cacheTables (tableCopies .release none exRich)).length = ((c.types.take c.ntypes).map names).sum ∧ 0 < ((c.types.take c.ntypes).map names).sum ∧
      stringTables (tableCopies .release none exRich) ≠ []) ∧
    (abstractTypes [0xFF, 0xFF, 0xFF, 0x7F] 100 [100]).length = 221 ∧
    200000000000 < (cacheTables (tableCopies .release none (abstractTypes [0xFF, 0xFF, 0xFF, 0x7F] 100 [100]))).sum := by
  refine ⟨?_, ?_⟩
  · have h : (match Code.read .release none exRich with
      | .ok c _ => decide (c.ntypes = 7 ∧ 6 ≤ otherLooks c ∧ 0 < ((c.types.take c.ntypes).map names).sum ∧
          c.nstrings < c.ustrings.length)
      | _ => false) = true := by decide +kernel
    split at h
    · next c s hr =>
      obtain ⟨h1, h2, h3, h4⟩ := of_decide_eq_true h
      refine ⟨c, s, hr, h1, h2, (c108_cache _ _ _ _ _ hr).1, h3, ?_⟩
      rw [(c108_strings _ _ _ _ _ hr).2]
      intro h0
      have := congrArg List.length h0
      rw [List.length_replicate, List.length_nil] at this
      omega
    · cases h
  · obtain ⟨h1, -, -, h2⟩ := c108_large .release (2 ^ 31 - 1) 100 (by decide) (by decide) [0xFF, 0xFF, 0xFF, 0x7F] [100] (IdxBytes.long _ _ _ _ (by decide))
      (IdxBytes.short 100 (by decide))
    exact ⟨h1, Nat.lt_of_lt_of_le (by decide) h2⟩

end Verif.Brass
