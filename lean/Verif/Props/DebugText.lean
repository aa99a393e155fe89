import Verif.Brass.DebugTexts
import Verif.Brass.DebugShow
import Verif.Props.Print
import Verif.Props.Size

/-!
# The text that is printed (C107)

`stdout pr p e buf` is what `Code::read(buf)` writes to standard output, character by character; `pr` is the table of printable
characters of Rust's standard library, which is arbitrary here.
-/

namespace Verif.Brass

open Verif Verif.Brass.Spec

/-- **C107** The exact text for a version that is not supported. -/
theorem c107_version (pr : Char → Bool) (p : Profile) (e : Option DecodeError) (buf : List UInt8) (v : UInt8) (h : UnknownVersion buf v) :
    stdout pr p e buf = ("Found version " ++ toString v.toNat ++ " while HL 1.12 supports up to 5\n").toList := by
  unfold stdout
  rw [c104_unknown_version p e buf v h]
  simp only [List.flatMap_cons, List.flatMap_nil, List.append_nil, Line.text, String.toList_append, toString_nat]
  have h1 : decNat (0x010C00 >>> 16) = ['1'] := by decide
  have h2 : decNat ((0x010C00 >>> 8) &&& 0xFF) = ['1', '2'] := by decide
  have h3 : decNat 5 = ['5'] := by decide
  rw [h1, h2, h3]
  simp

/-- **C107** The exact text of every function that is printed, for every input: that of the templates of `Spec/DebugFormat`. -/
theorem c107_text (pr : Char → Bool) (dec : Str → String) (hd : Decodes dec) (p : Profile) (e : Option DecodeError) (buf : List UInt8) (f : HLFunction)
    (hf : .function f ∈ printed p e buf) : (Line.function f).text pr = (showFunction pr dec f).toList :=
  let ⟨h1, h2, h3⟩ := printed_texts p e buf f hf
  function_text pr hd f h1 h2 h3

/-- **C107** The exact output for a file that is accepted. -/
theorem c107_accepted (pr : Char → Bool) (dec : Str → String) (hd : Decodes dec) (p : Profile) (e : Option DecodeError) (buf : List UInt8) (c : Code) (s : St)
    (h : Code.read p e buf = .ok c s) :
    stdout pr p e buf = c.functions.flatMap fun f => (showFunction pr dec { f with debug := [] }).toList ++ ['\n'] := by
  have h1 := c107_text pr dec hd p e buf
  unfold stdout
  rw [c104_accepted p e buf c s h] at h1 ⊢
  rw [List.flatMap_map, List.flatMap_def, List.flatMap_def]
  congr 1
  refine List.map_congr_left fun f hf => ?_
  rw [h1 { f with debug := [] } (List.mem_map_of_mem hf)]

theorem Line.ok_line (pr : Char → Bool) (l : Line) : '\n' ∉ l.text pr := by
  cases l with
  | function f => exact Dbg.line pr _ (HLFunction.dbg_ok f)
  | version v =>
    have h := fun n => word_line (decNat_word n)
    simp only [Line.text, List.mem_append, not_or]
    refine ⟨⟨⟨⟨⟨⟨⟨by decide, h _⟩, by decide⟩, h _⟩, by decide⟩, h _⟩, by decide⟩, h _⟩

/-- **C107** Whatever a function contains — names with line breaks, for example — its text is a single line. -/
theorem c107_one_line (pr : Char → Bool) (l : Line) : '\n' ∉ l.text pr := Line.ok_line pr l

/-- **C107** There are as many lines as functions: a program that counts the line breaks of the output of a successful read counts
the functions of the module. -/
theorem c107_count (pr : Char → Bool) (p : Profile) (e : Option DecodeError) (buf : List UInt8) (c : Code) (s : St)
    (h : Code.read p e buf = .ok c s) : (stdout pr p e buf).count '\n' = c.functions.length := by
  unfold stdout
  rw [c104_accepted p e buf c s h]
  induction c.functions with
  | nil => rfl
  | cons f l ih =>
    rw [List.map_cons, List.flatMap_cons, List.count_append, List.count_append, ih, List.count_eq_zero_of_not_mem (Line.ok_line pr _)]
    simp [Nat.add_comm]

/-- **C107** All strings in the functions that are printed are valid texts, whatever bytes the file consists of and whatever is
recorded in `ERRORS`: `Debug for String` never meets anything else. -/
theorem c107_texts (p : Profile) (e : Option DecodeError) (buf : List UInt8) (f : HLFunction) (hf : .function f ∈ printed p e buf) :
    AreTexts (stringsInFunction f) := (printed_texts p e buf f hf).1

/-- Two lines with the same text. -/
theorem line_inj (pr : Char → Bool) {l m : Line} (hl : ∀ f, l = .function f → AreTexts (stringsInFunction f))
    (hm : ∀ f, m = .function f → AreTexts (stringsInFunction f)) (h : l.text pr = m.text pr) : l = m := by
  have head : ∀ f : HLFunction, ∃ r, f.dbg.text pr = 'H' :: r := by
    intro f
    cases f
    rw [HLFunction.dbg]
    exact ⟨_, rfl⟩
  cases l with
  | function f =>
    cases m with
    | function g =>
      have h1 := Dbg.unique pr f.dbg g.dbg [] [] (HLFunction.dbg_ok f) (HLFunction.dbg_ok g) (.inl rfl) (.inl rfl) (by rw [List.append_nil, List.append_nil]; exact h)
      rw [HLFunction.dbg_inj f g (hl f rfl) (hm g rfl) h1.1]
    | version v =>
      obtain ⟨r, hr⟩ := head f
      have h' : f.dbg.text pr = _ := h
      rw [hr] at h'
      cases h'
  | version v =>
    cases m with
    | function g =>
      obtain ⟨r, hr⟩ := head g
      have h' : _ = g.dbg.text pr := h
      rw [hr] at h'
      cases h'
    | version w =>
      simp only [Line.text, List.append_assoc] at h
      have h2 := word_unique (decNat_word v).2 (decNat_word w).2 (TextEnds.of (by decide)) (TextEnds.of (by decide)) (List.append_cancel_left h)
      rw [decNat_inj h2.1]

/-- **C107** The text of a function says everything about it: functions whose strings are valid texts, and that are printed the
same way, are equal. -/
theorem c107_readable (pr : Char → Bool) (f g : HLFunction) (hf : AreTexts (stringsInFunction f)) (hg : AreTexts (stringsInFunction g))
    (h : (Line.function f).text pr = (Line.function g).text pr) : f = g :=
  Line.function.inj (line_inj pr (fun _ h => Line.function.inj h ▸ hf) (fun _ h => Line.function.inj h ▸ hg) h)

theorem lines_inj (pr : Char → Bool) : ∀ l m : List Line, (∀ f, .function f ∈ l → AreTexts (stringsInFunction f)) →
    (∀ f, .function f ∈ m → AreTexts (stringsInFunction f)) →
    (l.flatMap fun x => x.text pr ++ ['\n']) = (m.flatMap fun x => x.text pr ++ ['\n']) → l = m
  | [], [], _, _, _ => rfl
  | [], y :: m, _, _, h => by simp at h
  | x :: l, [], _, _, h => by simp at h
  | x :: l, y :: m, hl, hm, h => by
    have cut : ∀ (a b r t : Text), '\n' ∉ a → '\n' ∉ b → a ++ '\n' :: r = b ++ '\n' :: t → a = b ∧ r = t := by
      intro a
      induction a with
      | nil =>
        intro b r t _ hb h
        cases b with
        | nil => simpa using h
        | cons c b => cases h; exact absurd List.mem_cons_self hb
      | cons c a ih =>
        intro b r t ha hb h
        cases b with
        | nil => cases h; exact absurd List.mem_cons_self ha
        | cons d b =>
          simp only [List.cons_append, List.cons.injEq] at h
          obtain ⟨h1, h2⟩ := ih b r t (fun h => ha (List.mem_cons_of_mem _ h)) (fun h => hb (List.mem_cons_of_mem _ h)) h.2
          exact ⟨by rw [h.1, h1], h2⟩
    simp only [List.flatMap_cons, List.append_assoc, List.singleton_append] at h
    obtain ⟨h1, h2⟩ := cut _ _ _ _ (Line.ok_line pr x) (Line.ok_line pr y) h
    rw [line_inj pr (fun f hf => hl f (hf ▸ List.mem_cons_self)) (fun f hf => hm f (hf ▸ List.mem_cons_self)) h1,
      lines_inj pr l m (fun f hf => hl f (List.mem_cons_of_mem _ hf)) (fun f hf => hm f (List.mem_cons_of_mem _ hf)) h2]

/-- **C107** The output says everything about the lines printed: when two reads, of any files, write the same characters, they have
printed the same versions and functions. -/
theorem c107_output (pr : Char → Bool) (p p' : Profile) (e e' : Option DecodeError) (buf buf' : List UInt8)
    (h : stdout pr p e buf = stdout pr p' e' buf') : printed p e buf = printed p' e' buf' :=
  lines_inj pr _ _ (fun f hf => (printed_texts p e buf f hf).1) (fun f hf => (printed_texts p' e' buf' f hf).1) h

/-- **C107** In particular, when two accepted files give the same output, their modules have the same functions, up to the debug
words (which are not there yet when a function is printed). -/
theorem c107_functions (pr : Char → Bool) (p p' : Profile) (e e' : Option DecodeError) (buf buf' : List UInt8) (c c' : Code) (s s' : St)
    (h : Code.read p e buf = .ok c s) (h' : Code.read p' e' buf' = .ok c' s') (ho : stdout pr p e buf = stdout pr p' e' buf') :
    c.functions.map (fun f => { f with debug := [] }) = c'.functions.map (fun f => { f with debug := [] }) := by
  have h1 := c107_output pr p p' e e' buf buf' ho
  rw [c104_accepted p e buf c s h, c104_accepted p' e' buf' c' s' h'] at h1
  have h2 := congrArg (List.filterMap fun l : Line => match l with | .function f => some f | .version _ => none) h1
  simpa [List.filterMap_map, Function.comp_def] using h2

/-! ## How long the output can be -/

/-- `bomb n` with a function of its last type. -/
def printBomb (n : Nat) : RModule :=
  { bomb n with functions := [{ type := n - 1, findex := 0, regs := [], ops := [], debug := [], assigns := [] }] }

theorem printBomb_good (n : Nat) (h0 : 0 < n) (hn : n < 0x2000) : (printBomb n).Good :=
  { bomb_good n hn with
    nfunctions := by simp [printBomb]
    functions := by
      intro f hf
      simp only [printBomb, List.mem_singleton] at hf
      subst hf
      refine ⟨?_, by simp, by simp, by simp, by simp, by simp, by simp [printBomb, bomb], by simp⟩
      simp [printBomb, bomb]
      omega }

theorem printBomb_length (n : Nat) (hn : n < 0x2000) : (printBomb n).encode.length ≤ 6 * n + 25 := by
  have h1 := bomb_length n hn
  have h2 := ix_length (n - 1) (by omega)
  have h3 : (ix 0).length = 1 := by decide
  have h4 : (ix 1).length = 1 := by decide
  simp only [printBomb, bomb, RModule.encode, RModule.counts, RFunction.encode, List.length_append, List.length_map, List.length_range, List.length_cons,
    List.length_nil, List.flatMap_nil, List.flatMap_cons, Nat.reduceLeDiff, if_false, Bool.false_eq_true, Nat.zero_add] at h1 ⊢
  omega

/-- **C107** The output can be exponentially longer than the file: for every `n` below 8192 there is a file of at most `6 n + 25`
bytes with one function, which is accepted, and for which more than `2 ^ n` characters are written. -/
theorem c107_exponential (pr : Char → Bool) (p : Profile) (n : Nat) (h0 : 0 < n) (hn : n < 0x2000) :
    ∃ buf c, buf.length ≤ 6 * n + 25 ∧ Accepts p buf c ∧ c.functions.length = 1 ∧ 2 ^ n < (stdout pr p none buf).length := by
  have hg := printBomb_good n h0 hn
  have hb : (printBomb n).NotBare := by
    refine Or.inr (Or.inl ?_)
    simp only [printBomb, bomb, ne_eq, List.map_eq_nil_iff, List.range_eq_nil]
    omega
  obtain ⟨c, s, h1, h2, -, -, h3⟩ := c36_module_references (printBomb n) hg.toReadable hb p []
  obtain ⟨u, h4⟩ := c43_file_roundtrip (printBomb n) hg hb p []
  rw [List.append_nil] at h1 h4
  have hc : c = _ := (Out.ok.inj (h1.symm.trans h4)).1
  have hf : c.functions.length = 1 := by
    rw [hc]
    show (printBomb n).decoded.functions.length = 1
    simp [RModule.decoded, printBomb]
  have types : ∀ i, i < n → ∃ t, c.types[i]? = some t ∧ nodes t = 2 ^ (i + 2) - 1 := by
    intro i
    induction i with
    | zero =>
      intro hi
      obtain ⟨v, h4, h5⟩ := h2 0 (.func false [0] 0) (by simp [printBomb, bomb, h0])
      simp [RType.refs] at h5
      refine ⟨v, h4, ?_⟩
      rw [nodes_eq, h5]
      simp [nodes_default]
    | succ i ih =>
      intro hi
      obtain ⟨r, h6, h7⟩ := ih (by omega)
      obtain ⟨v, h4, h5⟩ := h2 (i + 1) (.func false [i] i) (by simp [printBomb, bomb, hi])
      simp [RType.refs, h6] at h5
      refine ⟨v, h4, ?_⟩
      rw [nodes_eq, h5]
      have : 1 ≤ 2 ^ (i + 2) := Nat.one_le_two_pow
      simp [h7, Nat.pow_succ] at *
      omega
  obtain ⟨f, h5, h6, -⟩ := h3 0 _ rfl
  obtain ⟨t, h7, h8⟩ := types (n - 1) (by omega)
  have ht : f.t = t := by rw [h7] at h6; exact (Option.some.inj h6).symm
  refine ⟨_, c, printBomb_length n hn, ⟨s, h1⟩, hf, ?_⟩
  obtain ⟨g, hg⟩ := List.length_eq_one_iff.1 hf
  have hgf : g = f := by rw [hg] at h5; simpa using h5
  unfold stdout
  rw [c104_accepted p none _ c s h1, hg, hgf]
  simp only [List.map_cons, List.map_nil, List.flatMap_cons, List.flatMap_nil, List.append_nil, List.length_append, List.length_cons, List.length_nil]
  have h9 := HLFunction.dbg_length pr { f with debug := [] }
  have h10 : n - 1 + 2 = n + 1 := by omega
  have h11 : 2 ^ (n + 1) = 2 * 2 ^ n := by rw [Nat.pow_succ, Nat.mul_comm]
  have h12 : 1 ≤ 2 ^ n := Nat.one_le_two_pow
  have h13 : nodes { f with debug := [] }.t = 2 ^ (n + 1) - 1 := by
    show nodes f.t = _
    rw [ht, h8, h10]
  show 2 ^ n < ((HLFunction.dbg { f with debug := [] }).text pr).length + 1
  omega

/-! ## Examples -/

/-- A function that takes nothing, of an abstract type whose name is a quote, a backslash, a line break and an umlaut. -/
def quoted : HLFunction where
  t := ⟨.null, some (utf8 ['"', '\\', '\n', 'ü']), none, .HABSTRACT⟩
  findex := 7
  nregs := 0
  nops := 1
  rf := 0
  regs := []
  ops := [{ op := .OInt, p1 := some (-1), p2 := some 3, p3 := none, extra := [] }]
  debug := []
  obj := none
  field := none

theorem quoted_dbg : quoted.dbg = .struct t!"HLFunction" [
    ⟨t!"t", .struct t!"ValueType" [⟨t!"union", .atom t!"Null"⟩, ⟨t!"abs_name", .tuple t!"Some" (.str ['"', '\\', '\n', 'ü'])⟩,
      ⟨t!"tparam", .atom t!"None"⟩, ⟨t!"kind", .atom t!"HABSTRACT"⟩]⟩,
    ⟨t!"findex", .atom t!"7"⟩, ⟨t!"nregs", .atom t!"0"⟩, ⟨t!"nops", .atom t!"1"⟩, ⟨t!"rf", .atom t!"0"⟩, ⟨t!"regs", .list []⟩,
    ⟨t!"ops", .list [.struct t!"Opcode" [⟨t!"op", .atom t!"OInt"⟩, ⟨t!"p1", .tuple t!"Some" (.atom t!"-1")⟩,
      ⟨t!"p2", .tuple t!"Some" (.atom t!"3")⟩, ⟨t!"p3", .atom t!"None"⟩, ⟨t!"extra", .list []⟩]]⟩,
    ⟨t!"debug", .list []⟩, ⟨t!"obj", .atom t!"None"⟩, ⟨t!"field", .atom t!"None"⟩] := by
  have h : textOf (utf8 ['"', '\\', '\n', 'ü']) = ['"', '\\', '\n', 'ü'] := textOf_utf8 _
  unfold quoted
  rw [HLFunction.dbg, ValueType.dbg, ValueTypeU.dbg, dbgType?, dbgTypes, dbgField?]
  unfold dbgOpt dbgStr
  simp only
  rw [h]
  rfl

/-- Its text. -/
example (pr : Char → Bool) (hu : pr 'ü' = true) : (Line.function quoted).text pr =
    t!"HLFunction { t: ValueType { union: Null, abs_name: Some(\"\\\"\\\\\\nü\"), tparam: None, kind: HABSTRACT }, " ++
    t!"findex: 7, nregs: 0, nops: 1, rf: 0, regs: [], " ++
    t!"ops: [Opcode { op: OInt, p1: Some(-1), p2: Some(3), p3: None, extra: [] }], debug: [], obj: None, field: None }" := by
  show quoted.dbg.text pr = _
  rw [quoted_dbg]
  have h : (Dbg.str ['"', '\\', '\n', 'ü']).text pr = t!"\"\\\"\\\\\\nü\"" := by
    simp [Dbg.text, escape, hu]
  simp only [Dbg.text, DbgField.text, restFields, restItems] at h ⊢
  rw [h]
  decide +kernel

/-- There is such a function on strings. -/
example : Decodes fun s => String.ofList (textOf s) := fun t => congrArg String.ofList (textOf_utf8 t)

/-- The hypotheses of the theorems are met: an accepted file with a function, a file of an unknown version, and two different
functions with valid strings whose texts therefore differ. -/
example (pr : Char → Bool) : (stdout pr .release none exDebugFile).count '\n' = 1 ∧
    stdout pr .dev none [0x48, 0x4C, 0x42, 9] = "Found version 9 while HL 1.12 supports up to 5\n".toList ∧
    (Line.function quoted).text pr ≠ (Line.function { quoted with findex := 8 }).text pr := by
  refine ⟨?_, c107_version pr _ _ _ 9 ⟨[], rfl, by decide⟩, fun h => ?_⟩
  · obtain ⟨c, s, f, h, hf, -⟩ := exDebugFile_read
    rw [c107_count pr _ _ _ c s h, hf]
    rfl
  · have ht : AreTexts (stringsInFunction quoted) := by
      intro s hs
      simp [stringsInFunction, quoted, stringsIn, stringsInU, stringsInTypes, stringsInOpt, stringsInFuncField] at hs
      exact ⟨_, hs⟩
    have := c107_readable pr quoted { quoted with findex := 8 } ht ht h
    cases this

end Verif.Brass
