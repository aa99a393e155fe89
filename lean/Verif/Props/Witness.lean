import Verif.Props.GlobalSign
import Verif.Props.Threads
import Verif.Props.Size
import Verif.Props.Recorded
import Verif.Props.Lookup

/-!
# Concrete cases of the theorems about the decoder

Most of those theorems have one of two hypotheses: "`Code::read` accepts this file" or "the input starts with these
bytes". Here both are met by concrete data, and each theorem is applied to it.
-/

namespace Verif.Brass

open Verif Verif.Brass.Spec CodeHash

/-- The header of `exRich`: version 4, one int, two strings, seven types, five globals, one function, one constant. -/
def exRichHeader : Header := ⟨4, 0, 1, 0, 2, 0, 7, 5, 0, 1, 1, 0⟩

/-- Its bytes. -/
def exRichHeaderBytes : List UInt8 := [0x48, 0x4C, 0x42, 4, 0, 1, 0, 2, 7, 5, 0, 1, 1, 0]

theorem exRichHeader_bytes : HeaderBytes exRichHeader exRichHeaderBytes := by
  refine ⟨by decide, by decide, by decide, by decide, [0, 1, 0, 2, 7, 5, 0, 1, 1, 0], rfl, ?_⟩
  have z : IdxBytes [0] ((0 : Nat) : Int) := .short 0 (by decide)
  have o : IdxBytes [1] ((1 : Nat) : Int) := .short 1 (by decide)
  exact .cons 0 _ [0] _ z <| .cons 1 _ [1] _ o <| .cons 0 _ [0] _ z <| .cons 2 _ [2] _ (.short 2 (by decide)) <|
    .cons 7 _ [7] _ (.short 7 (by decide)) <| .cons 5 _ [5] _ (.short 5 (by decide)) <| .cons 0 _ [0] _ z <|
    .cons 1 _ [1] _ o <| .cons 1 _ [1] _ o <| .cons 0 _ [0] _ z .nil

/-- `exRich` is accepted: seven types, a number, a function, a byte type, and one of each sort that has a signature of its
own, five globals, a function with one register and five instructions, and a constant with two fields; it is consumed
whole. -/
theorem exRich_read : ∃ c s, Code.read .release none exRich = .ok c s ∧ s.buf = [] ∧ c.version = 4 ∧ c.ints = [7] ∧
    c.strings = [[0x61], [0x62]] ∧ c.ntypes = 7 ∧ c.nglobals = 5 ∧
    (c.types.take 7).map (·.kind) = [.HI32, .HFUN, .HBYTES, .HOBJ, .HENUM, .HABSTRACT, .HREF] ∧
    c.functions.map (fun f => (f.regs.length, f.ops.length)) = [(1, 5)] ∧
    c.constants = [⟨0, 2, [0, 1]⟩] := by
  have h : (match Code.read .release none exRich with
    | .ok c s => decide (s.buf = [] ∧ c.version = 4 ∧ c.ints = [7] ∧ c.strings = [[0x61], [0x62]] ∧ c.ntypes = 7 ∧ c.nglobals = 5 ∧
        (c.types.take 7).map (·.kind) = [.HI32, .HFUN, .HBYTES, .HOBJ, .HENUM, .HABSTRACT, .HREF] ∧
        c.functions.map (fun f => (f.regs.length, f.ops.length)) = [(1, 5)] ∧ c.constants = [⟨0, 2, [0, 1]⟩])
    | _ => false) = true := by decide +kernel
  split at h
  · rename_i c s e
    exact ⟨c, s, e, of_decide_eq_true h⟩
  · cases h

/-! ## The reader (C23, C24, C25) -/

/-- C23: two bytes read by `read_index`, from position 5. -/
example (c : Code) (e : Option DecodeError) : ∃ s', (EntryPoint.readIndex.run ⟨[0x81, 2, 7], 5, c, e⟩).state? = some s' ∧ s'.buf = [7] ∧
    s'.pos + s'.buf.length = 5 + 3 ∧ 5 ≤ s'.pos := by
  have h : (EntryPoint.readIndex.run ⟨[0x81, 2, 7], 5, c, e⟩).state? = some ⟨[7], 7, c, e⟩ := by
    show (readIndex _).state? = _
    rw [c25_small 258 (by decide) [7] ⟨[0x81, 2, 7], 5, c, e⟩ (by simp only; decide)]
    rfl
  exact ⟨_, h, rfl, c23_position_plus_remaining .readIndex ⟨[0x81, 2, 7], 5, c, e⟩ _ h⟩

/-- C23: a whole file. -/
example : ∃ c s, Code.read .release none exRich = .ok c s ∧ ∃ k, exRich = k ++ s.buf ∧ s.pos = 0 + k.length := by
  obtain ⟨c, s, h, _⟩ := exRich_read
  refine ⟨c, s, h, c23_reads_prefix (.read .release) (St.new exRich none) s ?_⟩
  show (Code.read .release none exRich).state? = some s
  rw [h]; rfl

/-- C24: the number 258 in two bytes, -2 in four, and a short input. -/
example (c : Code) : decodeUnsigned 2 ⟨[2, 1, 9], 0, c, none⟩ = .ok 258 ⟨[9], 2, c, none⟩ ∧
    decodeSigned 4 ⟨[0xFE, 0xFF, 0xFF, 0xFF, 9], 0, c, none⟩ = .ok (-2) ⟨[9], 4, c, none⟩ ∧
    decodeF64 ⟨[0, 0, 0, 0, 0, 0, 0xF0, 0x3F], 0, c, none⟩ = .ok 0x3FF0000000000000 ⟨[], 8, c, none⟩ ∧
    decodeUnsigned 4 ⟨[1, 2, 3], 7, c, none⟩ = .err ⟨.noMoreData, 7⟩ ⟨[1, 2, 3], 7, c, none⟩ :=
  ⟨c24_unsigned 2 258 (by decide) [9] ⟨[2, 1, 9], 0, c, none⟩ rfl,
    c24_signed 4 (-2) (by decide) (by decide) (by decide) [9] ⟨[0xFE, 0xFF, 0xFF, 0xFF, 9], 0, c, none⟩ rfl,
    c24_f64 0x3FF0000000000000 (by decide) [] ⟨[0, 0, 0, 0, 0, 0, 0xF0, 0x3F], 0, c, none⟩ rfl,
    (c24_short 4 ⟨[1, 2, 3], 7, c, none⟩ (by simp only; decide)).1⟩

/-- C24: every pair of bytes is some number. -/
example (c : Code) : ∃ v, v < 256 ^ 2 ∧ leBytes 2 v = [3, 4] ∧ decodeUnsigned 2 ⟨[3, 4, 9], 0, c, none⟩ = .ok v ⟨[9], 2, c, none⟩ :=
  c24_surjective [3, 4] [9] ⟨[3, 4, 9], 0, c, none⟩ rfl

/-- C25: a number of two bytes is read back, negative ones too; the smallest number of four bytes is not. -/
example (c : Code) : readIndex ⟨[0xB2, 0x34, 9], 0, c, none⟩ = .ok (-0x1234) ⟨[9], 2, c, none⟩ ∧
    ∃ m, m ≠ 0x2000 ∧ readIndex ⟨[0xC0, 0, 0x20, 0, 9], 0, c, none⟩ = .ok m ⟨[9], 4, c, none⟩ :=
  ⟨c25_small (-0x1234) (by decide) [9] ⟨[0xB2, 0x34, 9], 0, c, none⟩ (by simp only; decide),
    c25_large_wrong 0x2000 (by decide) (by decide) [9] ⟨[0xC0, 0, 0x20, 0, 9], 0, c, none⟩ (by simp only; decide)⟩

/-! ## The header and truncations (C26 to C31, C44) -/

/-- C26: a wrong letter, a wrong version, and an accepted file. -/
example : (∃ s, Code.read .release none [0x48, 0x4C, 0x43, 4] = .err ⟨.invalidBytecodeHeader, 3⟩ s) ∧
    (∃ s, Code.read .release none [0x48, 0x4C, 0x42, 6, 0] = .err ⟨.unsupportedBytecodeVersion, 4⟩ s) ∧
    ∃ c s, Code.read .release none exRich = .ok c s ∧ ∃ v rest, exRich = 0x48 :: 0x4C :: 0x42 :: v :: rest ∧ 2 ≤ v.toNat ∧ v.toNat ≤ 5 := by
  obtain ⟨c, s, h, _⟩ := exRich_read
  exact ⟨(c26_bad_magic .release none [4]).2.2 0x43 (by decide), c26_bad_version .release none 6 (by decide) [0],
    c, s, h, c26_accepted _ _ _ _ _ h⟩

/-- C27 and C31: `exRich` is consumed whole, so that none of its strict prefixes is accepted, for instance the one of half
its length. -/
example : (Code.read .release none (exRich.take 41) = .panic ∨
      ∃ er s1, er.kind = .noMoreData ∧ Code.read .release none (exRich.take 41) = .err er s1) ∧
    ∀ c' s', Code.read .release none (exRich.take 41) ≠ .ok c' s' := by
  obtain ⟨c, s, h, e, _⟩ := exRich_read
  have h2 : exRich = exRich.take 41 ++ exRich.drop 41 ++ s.buf := by rw [e]; decide
  exact ⟨c27_truncation _ _ _ _ _ _ _ h h2 (by decide), c31_no_truncation_accepted _ _ _ _ _ _ _ h h2 (by decide)⟩

/-- C31: bytes after the file change nothing. -/
example : ∃ c s, Code.read .release none exRich = .ok c s ∧ Code.read .release none (exRich ++ [1, 2, 3]) = .ok c { s with buf := [1, 2, 3] } := by
  obtain ⟨c, s, h, e, _⟩ := exRich_read
  refine ⟨c, s, h, ?_⟩
  have := c31_trailing_ignored .release none exRich [1, 2, 3] c s h
  rwa [e] at this

/-- C28: the header of `exRich`, which declares an int, and three bytes. -/
example : ∃ s, Code.read .release none (exRichHeaderBytes ++ [7, 0, 0]) = .err ⟨.noMoreData, exRichHeaderBytes.length⟩ s := by
  have := c28_short_ints .release exRichHeader exRichHeaderBytes [7, 0, 0] exRichHeader_bytes (by decide)
  exact this

/-- C32, C44: the int follows the header; the counts are reported. -/
example : ∃ c s, Code.read .release none exRich = .ok c s ∧ c.ints.length = 1 ∧ c.ntypes = 7 ∧ c.nconstants = 1 ∧ c.entrypoint = 0 := by
  obtain ⟨c, s, h, _⟩ := exRich_read
  have h' : Code.read .release none (exRichHeaderBytes ++ exRich.drop 14) = .ok c s := h
  have nb : ¬ exRichHeader.Bare := by decide
  have h1 := c32_pools _ _ _ _ _ _ _ h' exRichHeader_bytes nb
  have h2 := (c44_header_reported _ _ _ _ _ _ _ h' exRichHeader_bytes).1 nb
  exact ⟨c, s, h, h1.1, h2.2.2.2.2.2.2.2.1, h2.2.2.2.2.2.2.2.2.2.2.2, h2.2.1⟩

/-- C29 and C30: nothing is recorded after an accepted file; with an error recorded the same file is rejected with that
error. -/
example (e : DecodeError) : (∃ c s, Code.read .release none exRich = .ok c s ∧ s.errors = none) ∧
    (∀ c s, Code.read .release (some e) exRich ≠ .ok c s) ∧ ∃ s, Code.read .release (some e) exRich = .err e s ∧ s.pos = 14 := by
  obtain ⟨c, s, h, _⟩ := exRich_read
  refine ⟨⟨c, s, h, (c29_ok_no_error _ _ _ _ _ h).2⟩, fun _ _ => c30_poisoned_never_ok _ _ _ _ _, ?_⟩
  obtain ⟨_, _, v5, v4, k', hk, hw⟩ := exRichHeader_bytes
  obtain rfl : k' = [0, 1, 0, 2, 7, 5, 0, 1, 1, 0] := (List.cons.inj (List.cons.inj (List.cons.inj (List.cons.inj hk).2).2).2).2.symm
  exact c30_poisoned_stale_error .release e 4 (by decide) [0, 1, 0, 2, 7, 5, 0, 1, 1, 0] (exRich.drop 14) _ (header_counts hw v5 v4 _)

/-- C30: after an accepted file the next one is read as if it were the first. -/
example (b : List UInt8) : ∃ c s, Code.read .release none exRich = .ok c s ∧ Code.read .release s.errors b = Code.read .release none b := by
  obtain ⟨c, s, h, _⟩ := exRich_read
  exact ⟨c, s, h, c30_after_ok _ _ _ _ _ h⟩

/-! ## The grammar (C38) -/

/-- C38: `exRich` is a file of the grammar. -/
example : ∃ c c', fileG .release noCode exRich c c' := by
  obtain ⟨c, s, h, e, _⟩ := exRich_read
  obtain ⟨_, k, rest, h1, h2, h3⟩ := (c38_accepts_exactly_the_grammar _ _ _ _ _).1 h
  obtain rfl : rest = [] := by rw [h3] at e; exact e
  rw [List.append_nil] at h1
  exact ⟨c, s.code, h1 ▸ h2⟩

/-- A module under construction, with two types and one string. -/
def exCode2 : Code := { Code.new with nstrings := 1, strings := [[0x61]], ustrings := [none], ntypes := 2, types := [prim .HI32, prim .HF64] }

/-- What a concrete call returns, and whether an error is recorded then. -/
def okWithError {α : Type} (o : Out α) : Bool :=
  match o with
  | .ok _ s => s.errors.isSome
  | _ => false

theorem okWithError_iff {α : Type} {o : Out α} (h : okWithError o = true) : ∃ a s, o = .ok a s := by
  unfold okWithError at h
  split at h
  · exact ⟨_, _, rfl⟩
  · cases h

/-- C38: a type reference, a string reference and a count that are out of range, and a type kind that does not exist. Each
call returns `Ok`, and the error is in the record. -/
example : (∃ t s', getType ⟨[2, 9], 0, exCode2, none⟩ = .ok t s' ∧ s'.errors.isSome) ∧
    (∃ t s', readString ⟨[1, 9], 0, exCode2, none⟩ = .ok t s' ∧ s'.errors.isSome) ∧
    (∃ n s', uindex ⟨[0xA0, 3, 9], 0, exCode2, none⟩ = .ok n s' ∧ s'.errors.isSome) ∧
    (∃ t s', readType noType ⟨[23, 9], 0, exCode2, none⟩ = .ok t s' ∧ s'.errors.isSome) := by
  have h1 : okWithError (getType ⟨[2, 9], 0, exCode2, none⟩) = true := by decide +kernel
  have h2 : okWithError (readString ⟨[1, 9], 0, exCode2, none⟩) = true := by decide +kernel
  have h3 : okWithError (uindex ⟨[0xA0, 3, 9], 0, exCode2, none⟩) = true := by decide +kernel
  have h4 : okWithError (readType noType ⟨[23, 9], 0, exCode2, none⟩) = true := by decide +kernel
  obtain ⟨a1, s1, e1⟩ := okWithError_iff h1
  obtain ⟨a2, s2, e2⟩ := okWithError_iff h2
  obtain ⟨a3, s3, e3⟩ := okWithError_iff h3
  obtain ⟨a4, s4, e4⟩ := okWithError_iff h4
  exact ⟨⟨a1, s1, e1, c38_bad_type_reference 2 _ _ [2] [9] _ (.short 2 (by decide)) rfl (.inr (by decide)) e1⟩,
    ⟨a2, s2, e2, c38_bad_string_reference 1 _ _ [1] [9] _ (.short 1 (by decide)) rfl (.inr (by decide)) (.inl e2)⟩,
    ⟨a3, s3, e3, c38_negative_count (-3) _ _ [0xA0, 3] [9] _ (.mediumNeg 0xA0 3 (by decide) (by decide)) rfl (by decide) e3⟩,
    ⟨a4, s4, e4, c38_bad_type_kind 23 (by decide) _ _ [9] _ rfl e4⟩⟩

/-! ## The module (C34, C36, C37, C45, C49, C51, C60, C84, C85) -/

/-- C36: the second type is found. -/
example : getType ⟨[1, 9], 4, exCode2, none⟩ = .ok (prim .HF64) ⟨[9], 5, exCode2, none⟩ :=
  c36_get_type exCode2 (by decide) 1 _ (by decide) rfl [1] (.short 1 (by decide)) [9] 4

/-- C34, C37, C45: the tables of `exRich`. -/
example : ∃ c s, Code.read .release none exRich = .ok c s ∧ c.stringsLens = [1, 1] ∧ c.functions.length = c.nfunctions ∧
    c.debugfilesLens = [] ∧ ∃ T, T.length = 7 ∧ c.types = T ++ List.replicate 7 noType := by
  obtain ⟨c, s, h, _, _, _, hs, ht, _⟩ := exRich_read
  have h1 := (c34_at_most_nstrings _ _ _ _ _ h).2
  have h2 := c37_table_lengths _ _ _ _ _ h
  rw [hs] at h1
  have h3 := h2.2.2.2.1
  rw [ht] at h3
  exact ⟨c, s, h, h1, h2.2.1, c45_debugfiles_lens_empty _ _ _ _ _ h, h3⟩

/-- C36, C49, C60: the object type of `exRich` refers back, is complete, and its hash is defined; its function is complete,
its registers are types of the module. -/
example : ∃ c s t, Code.read .release none exRich = .ok c s ∧ c.types[3]? = some t ∧ t.kind = .HOBJ ∧ WellFormed t ∧
    (∀ b, ∃ x, t.hash b = .ret x) ∧ (∀ r ∈ t.refs, r = noType ∨ ∃ j : Nat, j < 3 ∧ c.types[j]? = some r) ∧
    (∃ f, f ∈ c.functions ∧ WellFormedFun c.hasdebug f ∧ f.regs ≠ [] ∧ ∀ r ∈ f.regs, c.IsType r) ∧
    (∀ g, c.globals[4]? = some g → c.IsType g) ∧ ∃ k, k ∈ c.constants ∧ k.fields.length = k.nfields := by
  obtain ⟨c, s, h, _, _, _, _, ht, hg, hk, hf, hc⟩ := exRich_read
  have h3 := congrArg (fun l : List TypeKind => l[3]?) hk
  rw [List.getElem?_map, List.getElem?_take_of_lt (by decide)] at h3
  obtain ⟨t, e1, e2⟩ := Option.map_eq_some_iff.1 h3
  have hi : 3 < c.ntypes := by omega
  have hu := c36_uses_resolve _ _ _ _ _ h
  refine ⟨c, s, t, h, e1, e2, c60_types_well_formed _ _ _ _ _ h 3 hi t e1, c49_hash_returns _ _ _ _ _ h 3 hi t e1,
    c36_types_refer_back _ _ _ _ _ h 3 hi t e1, ?_, fun g => hu.1 4 g (by omega), ?_⟩
  · obtain ⟨f, hfs, h0⟩ : ∃ f, c.functions = [f] ∧ f.regs.length = 1 := by
      cases e : c.functions with
      | nil => rw [e] at hf; cases hf
      | cons f l =>
        rw [e] at hf
        cases l with
        | nil => exact ⟨f, rfl, congrArg Prod.fst (List.cons.inj hf).1⟩
        | cons g l => cases (List.cons.inj hf).2
    have hm : f ∈ c.functions := by rw [hfs]; exact List.mem_singleton.2 rfl
    refine ⟨f, hm, c60_functions_well_formed _ _ _ _ _ h f hm, ?_, (hu.2.2 f hm).2⟩
    intro h1
    rw [h1] at h0
    cases h0
  · rw [hc]
    have hm : (⟨0, 2, [0, 1]⟩ : Constant) ∈ c.constants := by rw [hc]; exact List.mem_singleton.2 rfl
    exact ⟨_, List.mem_singleton.2 rfl, c60_constants_well_formed _ _ _ _ _ h _ hm⟩

/-- C84, C85: the bounds on `exRich`; the reference type and the type it refers to are a nest. -/
example : ∃ c s, Code.read .release none exRich = .ok c s ∧ (∀ t ∈ c.types, nodes t ≤ 2 ^ 83) ∧ entries c ≤ 166 ∧
    ∃ l, IsNest l ∧ 2 ≤ l.length ∧ (∀ t, l.head? = some t → t ∈ c.types) ∧ l.length ≤ 8 := by
  obtain ⟨c, s, h, _, _, _, _, ht, hg, hk, hf, hc⟩ := exRich_read
  have h1 := c84_at_most_exponential _ _ _ _ _ h
  have h2 := c85_linear _ _ _ _ _ h
  have hl : exRich.length = 83 := by decide
  rw [hl] at h1 h2
  have h3 := congrArg (fun l : List TypeKind => l[6]?) hk
  rw [List.getElem?_map, List.getElem?_take_of_lt (by decide)] at h3
  obtain ⟨t, e1, e2⟩ := Option.map_eq_some_iff.1 h3
  have hw := c60_types_well_formed _ _ _ _ _ h 6 (by omega) t e1
  have hr : ∃ r, r ∈ t.refs := by
    unfold WellFormed at hw
    rw [show t.kind = .HREF from e2] at hw
    obtain ⟨r, h5, _⟩ := hw
    exact ⟨r, by rw [ValueType.refs, h5]; exact List.mem_append_right _ (List.mem_singleton.2 rfl)⟩
  obtain ⟨r, hr⟩ := hr
  have hn : IsNest [t, r] := ⟨hr, trivial⟩
  have h0 : ∀ u, [t, r].head? = some u → u ∈ c.types := by
    intro u hu; cases hu; exact List.mem_of_getElem? e1
  have h4 := c84_nesting _ _ _ _ _ h [t, r] hn h0
  rw [ht] at h4
  exact ⟨c, s, h, h1, h2, [t, r], hn, Nat.le_refl 2, h0, h4⟩

/-- C91: with an error on record, a wrong letter leaves the record alone. -/
example (x : DecodeError) : ∃ e s, Code.read .release (some x) [0x48, 0x4C, 0x43, 5] = .err e s ∧ s.errors = some x := by
  obtain ⟨s, h⟩ := (c26_bad_magic .release (some x) [5]).2.2 0x43 (by decide)
  exact ⟨_, s, h, (c91_recorded_after _ _ _ _ _ h).1 (.inl ⟨[0x48, 0x4C], [5], 0x43, 0x42, rfl, List.prefix_rfl, by decide⟩)⟩

end Verif.Brass
