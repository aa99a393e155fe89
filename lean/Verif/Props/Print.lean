import Verif.Brass.PrintCut
import Verif.Props.Witness
import Verif.Spec.Print

/-!
# What `Code::read` writes to standard output (C104)
-/

namespace Verif.Brass

open Verif Verif.Brass.Spec

/-- **C104** The reader with its output and the reader of the other theorems are the same. -/
theorem c104_same_reader (p : Profile) (e : Option DecodeError) (buf : List UInt8) :
    (readMW p (St.new buf e)).1 = Code.read p e buf := Prints.readM p _

/-- **C104** For a file that is accepted, one line is printed for each function of the result, in order, and each line shows the
function as it is in the result except that there are no debug words. -/
theorem c104_accepted (p : Profile) (e : Option DecodeError) (buf : List UInt8) (c : Code) (s : St) (h : Code.read p e buf = .ok c s) :
    printed p e buf = c.functions.map fun f => .function { f with debug := [] } := lines_ok p rfl h

theorem readMagic_cases (s : St) (u : Unit) (s' : St) (h : readMagic s = .ok u s') : s.buf = 0x48 :: 0x4C :: 0x42 :: s'.buf ∧ s'.errors = s.errors := by
  have byte : ∀ (s : St) (n : Nat) (s' : St), M.unwrap decodeU8 s = .ok n s' → ∃ b : UInt8, s.buf = b :: s'.buf ∧ n = b.toNat ∧ s'.errors = s.errors := by
    rintro ⟨buf, pos, code, err⟩ n s' h
    rcases buf with _ | ⟨b, r⟩
    · cases h
    · rw [byte_eq] at h
      cases h
      exact ⟨b, rfl, rfl, rfl⟩
  obtain ⟨n1, s1, e1, h⟩ := M.bind_eq_ok (x := M.unwrap decodeU8) h
  split at h
  · cases h
  next h1 =>
  obtain ⟨n2, s2, e2, h⟩ := M.bind_eq_ok (x := M.unwrap decodeU8) h
  split at h
  · cases h
  next h2 =>
  obtain ⟨n3, s3, e3, h⟩ := M.bind_eq_ok (x := M.unwrap decodeU8) h
  split at h
  · cases h
  next h3 =>
  cases h
  obtain ⟨b1, a1, c1, d1⟩ := byte _ _ _ e1
  obtain ⟨b2, a2, c2, d2⟩ := byte _ _ _ e2
  obtain ⟨b3, a3, c3, d3⟩ := byte _ _ _ e3
  have i1 : b1 = 0x48 := UInt8.toNat_inj.1 (by rw [← c1]; exact Decidable.not_not.1 h1)
  have i2 : b2 = 0x4C := UInt8.toNat_inj.1 (by rw [← c2]; exact Decidable.not_not.1 h2)
  have i3 : b3 = 0x42 := UInt8.toNat_inj.1 (by rw [← c3]; exact Decidable.not_not.1 h3)
  exact ⟨by rw [a1, a2, a3, i1, i2, i3], by rw [d3, d2, d1]⟩

/-- The two ways the output starts. -/
theorem versionLines_cases (buf : List UInt8) (e : Option DecodeError) :
    (∃ v, UnknownVersion buf v ∧ versionLines (St.new buf e) = [.version v.toNat] ∧ ∀ c s, readBefore (St.new buf e) ≠ .ok c s) ∨
    ((∀ v, ¬ UnknownVersion buf v) ∧ versionLines (St.new buf e) = []) := by
  unfold versionLines
  cases hm : readMagic (St.new buf e) with
  | err x s =>
    refine .inr ⟨?_, rfl⟩
    rintro v ⟨rest, rfl, -⟩
    rw [readMagic_ok] at hm
    cases hm
  | panic =>
    refine .inr ⟨?_, rfl⟩
    rintro v ⟨rest, rfl, -⟩
    rw [readMagic_ok] at hm
    cases hm
  | ok u s =>
    have hb := (readMagic_cases _ _ _ hm).1
    simp only
    have hw : (readVersionW s).2 = match M.unwrap decodeU8 s with
        | .ok v s1 => ((if v ≤ 1 ∨ v > 5 then (do W.print (.version v); W.lift (M.failAt .unsupportedBytecodeVersion)) else pure v : W Nat) s1).2
        | _ => [] := by
      unfold readVersionW
      rw [W.lift_eq]
      cases M.unwrap decodeU8 s <;> rfl
    rw [hw]
    obtain ⟨sbuf, pos, code, err⟩ := s
    rcases sbuf with _ | ⟨v, rest⟩
    · refine .inr ⟨?_, rfl⟩
      rintro v ⟨rest, hv, -⟩
      have hb : buf = _ := hb
      rw [hb] at hv
      simp at hv
    · have hb : buf = 0x48 :: 0x4C :: 0x42 :: v :: rest := hb
      rw [byte_eq]
      simp only
      by_cases hv : v.toNat ≤ 1 ∨ v.toNat > 5
      · refine .inl ⟨v, ⟨rest, hb, by omega⟩, by rw [if_pos hv]; rfl, fun c s h => ?_⟩
        obtain ⟨_, s1, e1, h⟩ := M.bind_eq_ok (x := readMagic) h
        rw [hm] at e1
        cases e1
        obtain ⟨w, s2, e2, h⟩ := M.bind_eq_ok (x := readVersion) h
        obtain ⟨w', s3, e3, h3⟩ := M.bind_eq_ok (x := M.unwrap decodeU8) e2
        rw [byte_eq] at e3
        cases e3
        rw [if_pos hv] at h3
        cases h3
      · refine .inr ⟨?_, by rw [if_neg hv]; rfl⟩
        rintro v' ⟨rest', hv', h'⟩
        rw [hb] at hv'
        simp only [List.cons.injEq, true_and] at hv'
        rw [← hv'.1] at h'
        omega

/-- **C104** A file of an unknown version makes `Code::read` print one line, which shows that version; -/
theorem c104_unknown_version (p : Profile) (e : Option DecodeError) (buf : List UInt8) (v : UInt8) (h : UnknownVersion buf v) :
    printed p e buf = [.version v.toNat] := by
  unfold printed
  rw [readMW_lines]
  rcases versionLines_cases buf e with ⟨v', ⟨r', h1, _⟩, h2, h3⟩ | ⟨h1, -⟩
  · obtain ⟨r, h4, _⟩ := h
    rw [h1] at h4
    simp only [List.cons.injEq, true_and] at h4
    rw [h2, h4.1]
    split
    · next hb => exact absurd hb (h3 _ _)
    · rfl
  · exact absurd h (h1 v)

/-- **C104** for all other files, accepted or not, every line shows a function that has no debug words yet. -/
theorem c104_only_functions (p : Profile) (e : Option DecodeError) (buf : List UInt8) (h : ∀ v, ¬ UnknownVersion buf v) :
    ∀ l ∈ printed p e buf, ∃ f, l = .function f ∧ f.debug = [] := by
  unfold printed
  rw [readMW_lines]
  rcases versionLines_cases buf e with ⟨v', h1, _⟩ | ⟨-, h2⟩
  · exact absurd h1 (h v')
  · rw [h2, List.nil_append]
    split
    · exact loop_functions p _ _ _ _
    · intro l hl; cases hl

/-- **C104** While an error is recorded, no function is ever printed. -/
theorem c104_poisoned (p : Profile) (e : DecodeError) (buf : List UInt8) (f : HLFunction) : .function f ∉ printed p (some e) buf := by
  intro hf
  unfold printed at hf
  rw [readMW_lines] at hf
  cases hb : readBefore (St.new buf (some e)) with
  | ok c s =>
    have h1 := Good.readBefore.sticky (St.new buf (some e)) s (by rw [hb]; rfl) rfl
    rw [before_none hb] at h1
    cases h1
  | err x s =>
    rw [hb] at hf
    rcases versionLines_cases buf (some e) with ⟨v', h1, h2, _⟩ | ⟨-, h2⟩ <;> rw [h2] at hf <;> simp at hf
  | panic =>
    rw [hb] at hf
    rcases versionLines_cases buf (some e) with ⟨v', h1, h2, _⟩ | ⟨-, h2⟩ <;> rw [h2] at hf <;> simp at hf

/-- **C104** What is printed for a file is the beginning of what is printed for every file that continues it. -/
theorem c104_prefix (p : Profile) (e : Option DecodeError) (buf more : List UInt8) : printed p e buf <+: printed p e (buf ++ more) := by
  by_cases h : ∃ v, UnknownVersion buf v
  · obtain ⟨v, r, rfl, hv⟩ := h
    rw [c104_unknown_version p e _ v ⟨r, rfl, hv⟩, c104_unknown_version p e (_ ++ more) v ⟨r ++ more, rfl, hv⟩]
    exact List.prefix_refl _
  · unfold printed
    rw [readMW_lines, readMW_lines]
    rcases versionLines_cases buf e with ⟨v', h1, _⟩ | ⟨-, h2⟩
    · exact absurd ⟨v', h1⟩ h
    · rw [h2, List.nil_append]
      cases hb : readBefore (St.new buf e) with
      | err x s => exact List.nil_prefix
      | panic => exact List.nil_prefix
      | ok c s =>
        have he := Good.readBefore.ext _ _ _ more hb (before_none hb)
        have he : readBefore (St.new (buf ++ more) e) = .ok c (s.extend more) := he
        rw [he]
        simp only
        rcases versionLines_cases (buf ++ more) e with ⟨v', -, -, h3⟩ | ⟨-, h2⟩
        · exact absurd he (h3 _ _)
        · rw [h2, List.nil_append]
          exact loop_extend p more _ _ _ _

/-- **C104** Reading the beginning of an acceptable file prints the first few of its functions, possibly none or all, and nothing else. -/
theorem c104_truncated (p : Profile) (e : Option DecodeError) (cut more : List UInt8) (c : Code) (s : St)
    (h : Code.read p e (cut ++ more) = .ok c s) : ∃ n, printed p e cut = (c.functions.take n).map fun f => .function { f with debug := [] } := by
  have h1 := c104_prefix p e cut more
  rw [c104_accepted p e _ c s h] at h1
  exact ⟨_, by rw [List.map_take]; exact List.prefix_iff_eq_take.1 h1⟩

/-- **C104** The line of function `i` is printed as soon as the file reaches to the end of that function, whatever follows and
whether or not its debug information is there. -/
theorem c104_reached (p : Profile) (file : List UInt8) (i : Nat) (f : HLFunction) (h : ReachesFunction p file i f) :
    (printed p none file)[i]? = some (.function f) := by
  obtain ⟨k, cf, ⟨rest, rfl⟩, k1, k2, c, d, rfl, h1, k3, k4, _, _, rfl, ⟨rfl, hi, hd⟩, h2⟩ := h
  rw [hd] at h2
  have hb : readBefore (St.new (k1 ++ (k4 ++ rest)) none) = .ok c ⟨k4 ++ rest, 0 + k1.length, d, none⟩ :=
    readBefore_sem.complete _ _ _ _ trivial h1 (k4 ++ rest) 0
  have hl := loop_reached p rest f cf i c.nfunctions 0 c d k4 (0 + k1.length) hi (by rw [upToFunctionsG_functions h1]; rfl) h2
  unfold printed
  rw [readMW_lines]
  simp only [List.nil_append, List.append_assoc]
  rw [hb]
  simp only
  rcases versionLines_cases (k1 ++ (k4 ++ rest)) none with ⟨v', -, -, h3⟩ | ⟨-, h3⟩
  · exact absurd hb (h3 _ _)
  · rw [h3]
    exact hl

/-- **C104** Of a file that was cut off, exactly those functions are printed to whose end it reaches: if the writer of an acceptable
file is interrupted, the output of a reader shows how far it came. -/
theorem c104_crash_point (p : Profile) (cut more : List UInt8) (c : Code) (s : St) (h : Code.read p none (cut ++ more) = .ok c s) (i : Nat) (l : Line) :
    (printed p none cut)[i]? = some l ↔ ∃ f, l = .function f ∧ ReachesFunction p cut i f := by
  constructor
  · intro hl
    unfold printed at hl
    rw [readMW_lines] at hl
    have hp : readM p (St.new (cut ++ more) none) = .ok c s := h
    rw [readM_before] at hp
    obtain ⟨c1, s1, e1, hp⟩ := M.bind_eq_ok (x := readBefore) hp
    obtain ⟨c2, s2, e2, hp⟩ := M.bind_eq_ok (x := readFunctions p c1) hp
    cases hb : readBefore (St.new cut none) with
    | ok c0 s0 =>
      have he := Good.readBefore.ext _ _ _ more hb (before_none hb)
      have he : readBefore (St.new (cut ++ more) none) = .ok c0 (s0.extend more) := he
      rw [he] at e1
      cases e1
      obtain ⟨c3, s3, e3, e4⟩ := M.bind_eq_ok e2
      have e5 : s3.errors = none := by
        obtain ⟨_, _, e5, e6⟩ := M.bind_eq_ok (x := M.checkError) e4
        cases e6
        unfold M.checkError at e5
        cases hs : s3.errors with
        | none => rfl
        | some x => rw [hs] at e5; cases e5
      obtain ⟨-, k1, b1, -, g1⟩ := readBefore_sem.sound _ _ _ trivial hb (before_none hb)
      rw [hb] at hl
      simp only at hl
      rcases versionLines_cases cut none with ⟨v', -, -, h3⟩ | ⟨-, h3⟩
      · exact absurd hb (h3 _ _)
      · rw [h3, List.nil_append] at hl
        obtain ⟨k, r, f, cf, h4, h5, h6, h7⟩ := loop_printed p more l i _ 0 _ s0 _ _ (by rw [upToFunctionsG_functions g1]; rfl) e3 e5 hl
        refine ⟨f, h6, k1 ++ k, cf, ⟨r, ?_⟩, k1, k, c1, s0.code, rfl, g1, [], k, (), s0.code, rfl, ⟨rfl, h4, rfl⟩, h7⟩
        have b1 : cut = k1 ++ s0.buf := b1
        rw [b1, h5]
        simp
    | err x s0 =>
      obtain ⟨n, hn⟩ := c104_truncated p none cut more c s h
      unfold printed at hn
      rw [readMW_lines, hb] at hn
      rw [hb] at hl
      exfalso
      rcases versionLines_cases cut none with ⟨v, -, h2, -⟩ | ⟨-, h2⟩
      · rw [h2] at hn
        rcases h4 : c.functions.take n with _ | ⟨a, r⟩ <;> rw [h4] at hn <;> simp at hn
      · rw [h2] at hl
        cases hl
    | panic =>
      obtain ⟨n, hn⟩ := c104_truncated p none cut more c s h
      unfold printed at hn
      rw [readMW_lines, hb] at hn
      rw [hb] at hl
      exfalso
      rcases versionLines_cases cut none with ⟨v, -, h2, -⟩ | ⟨-, h2⟩
      · rw [h2] at hn
        rcases h4 : c.functions.take n with _ | ⟨a, r⟩ <;> rw [h4] at hn <;> simp at hn
      · rw [h2] at hl
        cases hl
  · rintro ⟨f, rfl, hf⟩
    exact c104_reached p cut i f hf

/-- **C104** There are at least four bytes in the file for each line that is printed. -/
theorem c104_bound (p : Profile) (e : Option DecodeError) (buf : List UInt8) :
    4 * (printed p e buf).length ≤ buf.length := by
  unfold printed
  rw [readMW_lines]
  rcases versionLines_cases buf e with ⟨v', ⟨r, h1, _⟩, h2, h3⟩ | ⟨-, h2⟩
  · rw [h2]
    split
    · next hb => exact absurd hb (h3 _ _)
    · rw [h1]; simp
  · rw [h2, List.nil_append]
    cases hb : readBefore (St.new buf e) with
    | err x s => simp
    | panic => simp
    | ok c s =>
      have h1 := loop_bound p c.nfunctions 0 c s
      have h2 : s.buf.length ≤ buf.length := Good.shrinks Good.readBefore hb
      simp only
      omega

/-- **C104** Computing signatures and hashes prints nothing: the message about an opcode that cannot be hashed (code_hash.rs:436) is
for opcodes with a variable number of operands other than the five calls and the switch, and there are none. -/
theorem c104_hash_silent (o : Op) (h : OP_NARGS[o.toNat]? = some (-1)) :
    o = .OCallN ∨ o = .OCallClosure ∨ o = .OCallMethod ∨ o = .OCallThis ∨ o = .OMakeEnum ∨ o = .OSwitch := by
  cases o <;> first | (simp; done) | (exfalso; revert h; decide)

/-- C104: `exRich` is accepted and prints its function; cut short within the types it prints nothing, which `c104_truncated` allows;
a file of version 6 prints that. -/
example : (∃ c s f, Code.read .release none exRich = .ok c s ∧ c.functions = [f] ∧ f.ops.length = 5 ∧
      printed .release none exRich = [.function { f with debug := [] }]) ∧
    printed .release none (exRich.take 40) = [] ∧ printed .release none [0x48, 0x4C, 0x42, 6] = [.version 6] := by
  refine ⟨?_, ?_, c104_unknown_version _ _ _ 6 ⟨[], rfl, by decide⟩⟩
  · obtain ⟨c, s, h, -, -, -, -, -, -, -, hf, -⟩ := exRich_read
    have h1 := c104_accepted .release none exRich c s h
    rcases hc : c.functions with _ | ⟨f, _ | ⟨g, r⟩⟩ <;> rw [hc] at hf
    · cases hf
    · rw [hc] at h1
      simp only [List.map_cons, List.map_nil, List.cons.injEq, Prod.mk.injEq, and_true] at hf
      exact ⟨c, s, f, h, hc, hf.2, h1⟩
    · simp at hf
  · have h : (match readBefore (St.new (exRich.take 40) none) with | .ok _ _ => false | _ => true) = true := by decide +kernel
    unfold printed
    rw [readMW_lines]
    rcases versionLines_cases (exRich.take 40) none with ⟨v, ⟨r, hv, hv'⟩, -⟩ | ⟨-, h2⟩
    · have hv : [0x48, 0x4C, 0x42, 4] ++ (exRich.take 40).drop 4 = [0x48, 0x4C, 0x42, v] ++ r := hv
      simp only [List.cons_append, List.nil_append, List.cons.injEq, true_and] at hv
      rw [← hv.1] at hv'
      exact absurd hv' (by decide)
    · rw [h2]
      split
      · next e => rw [e] at h; cases h
      · rfl

/-- A file with debug information. -/
def exDebugFile : List UInt8 :=
  [0x48, 0x4C, 0x42, 4, 1, 0, 0, 0, 1, 0, 0, 1, 0, 0, 0, 0, 0, 0, 0, 0, 0, 0, 0, 0, 0, 0, 0, 1, 0, 1, 100, 4, 0]

theorem exDebugFile_read : ∃ c s f, Code.read .release none exDebugFile = .ok c s ∧ c.functions = [f] ∧ f.ops.length = 1 := by
  have h : (match Code.read .release none exDebugFile with
    | .ok c _ => decide (c.functions.map (fun f : HLFunction => f.ops.length) = [1])
    | _ => false) = true := by decide +kernel
  split at h
  · next c s e =>
    have h := of_decide_eq_true h
    rcases hc : c.functions with _ | ⟨f, _ | ⟨g, r⟩⟩ <;> rw [hc] at h
    · cases h
    · exact ⟨c, s, f, e, hc, by simpa using h⟩
    · simp at h
  · cases h

/-- C104: `exDebugFile` without the debug information of its function, its last two bytes, reaches to the end of the function, which is
printed by `c104_reached`; without one more byte it does not, and nothing is printed. -/
example : (∃ c s, Code.read .release none (exDebugFile.take 31 ++ exDebugFile.drop 31) = .ok c s) ∧
    (∃ f, ReachesFunction .release (exDebugFile.take 31) 0 f ∧ f.ops.length = 1 ∧ printed .release none (exDebugFile.take 31) = [.function f]) ∧
    (∀ f, ¬ ReachesFunction .release (exDebugFile.take 30) 0 f) ∧ printed .release none (exDebugFile.take 30) = [] := by
  obtain ⟨c, s, f, e, hc, hf⟩ := exDebugFile_read
  have key : ∀ n, (match readBefore (St.new (exDebugFile.take n) none) with
      | .ok c s => decide (c.nfunctions = 1) && (match readFunction { s with code := c } with | .ok _ _ => true | _ => false)
      | _ => false) = true → (printed .release none (exDebugFile.take n)) ≠ [] := by
    intro n h
    split at h
    · next c s hb =>
      rw [Bool.and_eq_true] at h
      obtain ⟨h1, h2⟩ := h
      have h1 := of_decide_eq_true h1
      unfold printed
      rw [readMW_lines, hb]
      simp only
      rw [h1, loop_cases]
      split at h2
      · next hr => rw [hr]; simp
      · cases h2
    · cases h
  have key' : (match readBefore (St.new (exDebugFile.take 30) none) with
      | .ok c s => decide (c.nfunctions = 1) && (match readFunction { s with code := c } with | .ok _ _ => false | _ => true)
      | _ => false) = true → (printed .release none (exDebugFile.take 30)) = [] := by
    intro h
    split at h
    · next c s hb =>
      rw [Bool.and_eq_true] at h
      obtain ⟨h1, h2⟩ := h
      have h1 := of_decide_eq_true h1
      unfold printed
      rw [readMW_lines, hb]
      simp only
      rw [h1, loop_cases]
      rcases versionLines_cases (exDebugFile.take 30) none with ⟨v', -, -, h3⟩ | ⟨-, h3⟩
      · exact absurd hb (h3 _ _)
      · rw [h3]
        split at h2
        · cases h2
        · next hr =>
          split
          · next hk => exact absurd hk (hr _ _)
          · rfl
    · cases h
  have h31 := key 31 (by decide +kernel)
  have h30 := key' (by decide +kernel)
  have e31 : Code.read .release none (exDebugFile.take 31 ++ exDebugFile.drop 31) = .ok c s := by rw [List.take_append_drop]; exact e
  refine ⟨⟨c, s, e31⟩, ?_, fun g hg => ?_, h30⟩
  · obtain ⟨n, hn⟩ := c104_truncated .release none _ _ c s e31
    rw [hc] at hn
    have hp : printed .release none (exDebugFile.take 31) = [.function { f with debug := [] }] := by
      rw [hn] at h31 ⊢
      cases n with
      | zero => exact absurd rfl h31
      | succ n => simp
    obtain ⟨g, h1, h2⟩ := (c104_crash_point .release _ _ c s e31 0 (.function { f with debug := [] })).1 (by rw [hp]; rfl)
    cases h1
    exact ⟨_, h2, hf, hp⟩
  · have := c104_reached _ _ _ _ hg
    rw [h30] at this
    cases this

end Verif.Brass
