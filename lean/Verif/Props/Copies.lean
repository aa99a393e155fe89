import Verif.Brass.CopyBound
import Verif.Brass.CopyLast
import Verif.Props.Size
import Verif.Props.Witness
import Verif.Props.Print

/-!
# C105: the modules that are copied when a file is read
-/

namespace Verif.Brass

open Verif Verif.Brass.Spec

/-! ## Sums -/

theorem sum_const_range (k : Nat) : ∀ n, ((List.range n).map fun _ => k).sum = n * k
  | 0 => by simp
  | n + 1 => by rw [List.range_succ, List.map_append, List.sum_append, sum_const_range k n, Nat.succ_mul]; simp

theorem sum_odd_range (k : Nat) : ∀ n, ((List.range n).map fun i => (i + k) + ((i + 1) + k)).sum = n * n + 2 * (n * k)
  | 0 => by simp
  | n + 1 => by
    rw [List.range_succ, List.map_append, List.sum_append, sum_odd_range k n]
    simp only [List.map_cons, List.map_nil, List.sum_cons, List.sum_nil, Nat.add_zero]
    have h1 : (n + 1) * (n + 1) = n * n + 2 * n + 1 := by rw [Nat.succ_mul, Nat.mul_succ]; omega
    have h2 : (n + 1) * k = n * k + k := Nat.succ_mul _ _
    omega

theorem map_congr_range {n : Nat} {f g : Nat → Nat} (h : ∀ i, i < n → f i = g i) : ((List.range n).map f).sum = ((List.range n).map g).sum := by
  congr 1
  exact List.map_congr_left fun i hi => h i (List.mem_range.1 hi)

theorem sum_flatMap (f : Code → Nat) (m : Nat → List Code) : ∀ l : List Nat, ((l.flatMap m).map f).sum = (l.map fun i => ((m i).map f).sum).sum
  | [] => rfl
  | a :: l => by simp [List.flatMap_cons, List.sum_append, sum_flatMap f m l]

theorem sum_both (f : Code → Nat) (n : Nat) (m : Nat → Code) : ((beforeAndAfter n m).map f).sum = ((List.range n).map fun i => f (m i) + f (m (i + 1))).sum := by
  unfold beforeAndAfter
  rw [sum_flatMap]
  simp

theorem sum_last (f : Code → Nat) (n : Nat) (m : Nat → Code) : ((afterEach n m).map f).sum = ((List.range n).map fun i => f (m (i + 1))).sum := by
  unfold afterEach
  rw [sum_flatMap]
  simp

theorem sum_both_const (f : Code → Nat) (n : Nat) (m : Nat → Code) (k : Nat) (h : ∀ i, f (m i) = k) : ((beforeAndAfter n m).map f).sum = n * (2 * k) := by
  rw [sum_both]
  simp only [h]
  rw [← Nat.two_mul, sum_const_range]

theorem sum_last_const (f : Code → Nat) (n : Nat) (m : Nat → Code) (k : Nat) (h : ∀ i, f (m i) = k) : ((afterEach n m).map f).sum = n * k := by
  rw [sum_last]
  simp only [h]
  rw [sum_const_range]

theorem length_both (n : Nat) (m : Nat → Code) : (beforeAndAfter n m).length = 2 * n := by
  have := sum_both_const (fun _ => 1) n m 1 (fun _ => rfl)
  simp only [List.map_const', List.sum_replicate_nat, Nat.mul_one] at this
  omega

theorem length_last (n : Nat) (m : Nat → Code) : (afterEach n m).length = n := by
  have := sum_last_const (fun _ => 1) n m 1 (fun _ => rfl)
  simp only [List.map_const', List.sum_replicate_nat, Nat.mul_one] at this
  omega

/-! ## The theorems -/

/-- **C105** The reader with the log of the copies is the reader. -/
theorem c105_same_reader (p : Profile) (e : Option DecodeError) (buf : List UInt8) : (readMK p (St.new buf e)).1 = Code.read p e buf :=
  Copying.readM p _

/-- **C105** The modules that are copied when a file is accepted, in order and without their caches of strings: two if the file has debug
information (without and with the debug files); then, for every type, the module before and after it; for every global the same; for every
native the module after it; for every function the module before and after it; for every constant the module after it.  -/
theorem c105_modules (p : Profile) (e : Option DecodeError) (buf : List UInt8) (c : Code) (s : St) (h : Code.read p e buf = .ok c s) :
    (copied p e buf).map noCache = copiesOf c := by
  obtain ⟨rfl, he⟩ := c29_ok_no_error p e buf c s h
  exact copies_file h he

/-- **C105** So many modules are copied. -/
theorem c105_count (p : Profile) (e : Option DecodeError) (buf : List UInt8) (c : Code) (s : St) (h : Code.read p e buf = .ok c s) :
    (copied p e buf).length =
      (if c.hasdebug ≠ 0 then 2 else 0) + 2 * c.ntypes + 2 * c.nglobals + c.nnatives + 2 * c.nfunctions + c.nconstants := by
  have := congrArg List.length (c105_modules p e buf c s h)
  rw [List.length_map] at this
  rw [this]
  unfold copiesOf
  simp only [List.length_append, length_both, length_last]
  split <;> rfl

/-- The sum of `f` over the copies of an accepted file, if `f` does not look at the cache. -/
theorem copies_sum (f : Code → Nat) (hf : ∀ c, f (noCache c) = f c) {p : Profile} {e : Option DecodeError} {buf : List UInt8} {c : Code} {s : St}
    (h : Code.read p e buf = .ok c s) : ((copied p e buf).map f).sum = ((copiesOf c).map f).sum := by
  rw [← c105_modules p e buf c s h, List.map_map]
  congr 1
  exact List.map_congr_left fun a _ => (hf a).symm

/-- **C105** All copies together contain `n²` functions, where `n` is the number of functions of the module, and `n` for each constant. -/
theorem c105_functions (p : Profile) (e : Option DecodeError) (buf : List UInt8) (c : Code) (s : St) (h : Code.read p e buf = .ok c s) :
    ((copied p e buf).map fun m => m.functions.length).sum = c.nfunctions * c.nfunctions + c.nconstants * c.nfunctions := by
  rw [copies_sum _ (fun _ => rfl) h]
  obtain ⟨-, hf, -, -, -⟩ := c37_table_lengths p e buf c s h
  unfold copiesOf
  simp only [List.map_append, List.sum_append]
  rw [sum_both_const _ _ _ 0 (fun _ => rfl), sum_both_const _ _ _ 0 (fun _ => rfl), sum_last_const _ _ _ 0 (fun _ => rfl), sum_last_const _ _ _ c.functions.length (fun _ => rfl), sum_both,
    map_congr_range (g := fun i => (i + 0) + ((i + 1) + 0)) (fun i hi => by simp only [List.length_take]; omega), sum_odd_range, hf]
  have : (List.map (fun m : Code => m.functions.length) (if c.hasdebug ≠ 0 then
      [{ noCache c with debugfiles := [], types := [], globals := [], natives := [], functions := [], constants := [] },
        { noCache c with types := [], globals := [], natives := [], functions := [], constants := [] }] else [])).sum = 0 := by split <;> rfl
  rw [this]
  simp

/-- **C105** All copies together contain `3n²` types, where `n` is the number of types of the module, for the types alone, and `2n` for each
copy that is made for a global, a native, a function or a constant. -/
theorem c105_types (p : Profile) (e : Option DecodeError) (buf : List UInt8) (c : Code) (s : St) (h : Code.read p e buf = .ok c s) :
    ((copied p e buf).map fun m => m.types.length).sum =
      3 * (c.ntypes * c.ntypes) + (2 * c.nglobals + c.nnatives + 2 * c.nfunctions + c.nconstants) * (2 * c.ntypes) := by
  rw [copies_sum _ (fun _ => rfl) h]
  obtain ⟨-, -, -, ⟨T, hT, ht⟩, -⟩ := c37_table_lengths p e buf c s h
  have hl : c.types.length = 2 * c.ntypes := by rw [ht]; simp; omega
  unfold copiesOf
  simp only [List.map_append, List.sum_append]
  rw [sum_both_const _ c.nglobals _ (2 * c.ntypes) (fun _ => hl), sum_last_const _ _ _ (2 * c.ntypes) (fun _ => hl), sum_both_const _ c.nfunctions _ (2 * c.ntypes) (fun _ => hl),
    sum_last_const _ c.nconstants _ (2 * c.ntypes) (fun _ => hl), sum_both,
    map_congr_range (g := fun i => (i + c.ntypes) + ((i + 1) + c.ntypes)) (fun i hi => by simp only [List.length_append, List.length_take, List.length_replicate]; omega), sum_odd_range]
  have : (List.map (fun m : Code => m.types.length) (if c.hasdebug ≠ 0 then
      [{ noCache c with debugfiles := [], types := [], globals := [], natives := [], functions := [], constants := [] },
        { noCache c with types := [], globals := [], natives := [], functions := [], constants := [] }] else [])).sum = 0 := by split <;> rfl
  rw [this]
  simp only [Nat.add_mul]
  generalize c.ntypes * c.ntypes = x
  have e1 : c.nglobals * (2 * (2 * c.ntypes)) = 2 * c.nglobals * (2 * c.ntypes) := by rw [← Nat.mul_assoc, Nat.mul_comm c.nglobals 2]
  have e2 : c.nfunctions * (2 * (2 * c.ntypes)) = 2 * c.nfunctions * (2 * c.ntypes) := by rw [← Nat.mul_assoc, Nat.mul_comm c.nfunctions 2]
  omega

/-- **C105** No input makes the reader copy more than two modules per byte, whether it is accepted, rejected or panics. -/
theorem c105_any (p : Profile) (e : Option DecodeError) (buf : List UInt8) : (copied p e buf).length ≤ 2 * buf.length := copied_bound p e buf

/-- **C105** The module that is returned is the last that was copied, with its cache of strings; if none was copied, it is the empty module. -/
theorem c105_last (p : Profile) (e : Option DecodeError) (buf : List UInt8) (c : Code) (s : St) (h : Code.read p e buf = .ok c s) :
    c = (copied p e buf).getLast?.getD Code.new := by
  obtain ⟨rfl, he⟩ := c29_ok_no_error p e buf c s h
  exact copies_last h he

/-! ### The size of the copies -/

theorem mem_both {n : Nat} {m : Nat → Code} {a : Code} (h : a ∈ beforeAndAfter n m) : ∃ i, i ≤ n ∧ a = m i := by
  unfold beforeAndAfter at h
  obtain ⟨i, hi, ha⟩ := List.mem_flatMap.1 h
  have := List.mem_range.1 hi
  rcases List.mem_cons.1 ha with rfl | ha
  · exact ⟨i, by omega, rfl⟩
  · exact ⟨i + 1, by omega, List.mem_singleton.1 ha⟩

theorem mem_last {n : Nat} {m : Nat → Code} {a : Code} (h : a ∈ afterEach n m) : ∃ i, i ≤ n ∧ a = m i := by
  unfold afterEach at h
  obtain ⟨i, hi, ha⟩ := List.mem_flatMap.1 h
  have := List.mem_range.1 hi
  exact ⟨i + 1, by omega, List.mem_singleton.1 ha⟩

theorem sum_take_le {α : Type} (f : α → Nat) (i : Nat) (l : List α) : ((l.take i).map f).sum ≤ (l.map f).sum := by
  have := congrArg (fun l => (l.map f).sum) (List.take_append_drop i l)
  simp only [List.map_append, List.sum_append] at this
  omega

theorem take_pad {i n : Nat} {l : List ValueType} (h : ∃ T : List ValueType, T.length = n ∧ l = T ++ List.replicate n noType) (hi : i ≤ n) :
    (l.take i ++ List.replicate n noType).length ≤ l.length := by
  obtain ⟨T, hT, rfl⟩ := h
  simp only [List.length_append, List.length_take, List.length_replicate]
  omega

/-- No copy is larger than the module. -/
theorem entries_copiesOf {c : Code} (ht : ∃ T : List ValueType, T.length = c.ntypes ∧ c.types = T ++ List.replicate c.ntypes noType)
    (hg : ∃ T : List ValueType, T.length = c.nglobals ∧ c.globals = T ++ List.replicate c.nglobals noType) {m : Code} (h : m ∈ copiesOf c) : entries m ≤ entries c := by
  unfold copiesOf at h
  simp only [List.mem_append] at h
  rcases h with ((((h | h) | h) | h) | h) | h
  · split at h
    · rcases List.mem_cons.1 h with rfl | h
      · simp [entries, noCache]; omega
      · rcases List.mem_cons.1 h with rfl | h
        · simp [entries, noCache]; omega
        · cases h
    · cases h
  · obtain ⟨i, hi, rfl⟩ := mem_both h
    have := take_pad ht hi
    simp only [entries, noCache, List.length_nil, List.map_nil, List.sum_nil]; omega
  · obtain ⟨i, hi, rfl⟩ := mem_both h
    have := take_pad hg hi
    simp only [entries, noCache, List.length_nil, List.map_nil, List.sum_nil]; omega
  · obtain ⟨i, hi, rfl⟩ := mem_last h
    have : (c.natives.take i).length ≤ c.natives.length := by rw [List.length_take]; omega
    simp only [entries, noCache, List.length_nil, List.map_nil, List.sum_nil]; omega
  · obtain ⟨i, hi, rfl⟩ := mem_both h
    have h1 : (c.functions.take i).length ≤ c.functions.length := by rw [List.length_take]; omega
    have h2 := sum_take_le functionEntries i c.functions
    simp only [entries, noCache, List.length_nil, List.map_nil, List.sum_nil]; omega
  · obtain ⟨i, hi, rfl⟩ := mem_last h
    have h1 : (c.constants.take i).length ≤ c.constants.length := by rw [List.length_take]; omega
    have h2 := sum_take_le (fun k : Constant => k.fields.length) i c.constants
    simp only [entries, noCache]; omega

/-- **C105** No copy has more entries than the module that is returned. -/
theorem c105_each (p : Profile) (e : Option DecodeError) (buf : List UInt8) (c : Code) (s : St) (h : Code.read p e buf = .ok c s) :
    ∀ m ∈ copied p e buf, entries m ≤ entries c := by
  intro m hm
  obtain ⟨-, -, -, ht, hg⟩ := c37_table_lengths p e buf c s h
  have : noCache m ∈ copiesOf c := by
    rw [← c105_modules p e buf c s h]
    exact List.mem_map_of_mem hm
  have := entries_copiesOf ht hg this
  exact this

theorem sum_le_mul (f : Code → Nat) (k : Nat) : ∀ l : List Code, (∀ m ∈ l, f m ≤ k) → (l.map f).sum ≤ l.length * k
  | [], _ => by simp
  | a :: l, h => by
    have h1 := h a (List.mem_cons_self ..)
    have h2 := sum_le_mul f k l fun m hm => h m (List.mem_cons_of_mem _ hm)
    rw [List.map_cons, List.sum_cons, List.length_cons, Nat.succ_mul]
    omega

/-- **C105** All copies together have at most `4L²` entries, where `L` is the length of the input. -/
theorem c105_bound (p : Profile) (e : Option DecodeError) (buf : List UInt8) (c : Code) (s : St) (h : Code.read p e buf = .ok c s) :
    ((copied p e buf).map entries).sum ≤ 4 * (buf.length * buf.length) := by
  have h1 := sum_le_mul entries _ _ fun m hm => Nat.le_trans (c105_each p e buf c s h m hm) (c85_linear p e buf c s h)
  have h2 := Nat.mul_le_mul_right (2 * buf.length) (c105_any p e buf)
  have h3 : 2 * buf.length * (2 * buf.length) = 4 * (buf.length * buf.length) := by
    rw [Nat.mul_assoc, Nat.mul_left_comm buf.length 2, ← Nat.mul_assoc]
  omega

/-! ### Quadratic for some files -/

/-- **C105** And this happens: a file of `16 + n` bytes and the index `n` that declares `n` types is accepted, and reading it copies `3n²` types. -/
theorem c105_quadratic (p : Profile) (n : Nat) (h0 : 0 < n) (k : List UInt8) (hk : IdxBytes k n) :
    (voidTypes n k).length = 16 + k.length + n ∧ (∃ c, Accepts p (voidTypes n k) c ∧ c.ntypes = n) ∧
      ((copied p none (voidTypes n k)).map fun m => m.types.length).sum = 3 * (n * n) := by
  have hlen : (voidTypes n k).length = 16 + k.length + n := by simp [voidTypes]; omega
  refine ⟨hlen, ?_⟩
  have zero : ∀ c : Code, natG c [0] 0 c := fun c => ⟨rfl, IdxBytes.short 0 (by decide)⟩
  let c0 : Code := { Code.new with version := 2, ntypes := n }
  let v : ValueType := { noType with kind := .HVOID }
  let c1 : Code := { c0 with ustrings := [] }
  let t : Nat → Code := fun i => { c1 with types := List.replicate i v ++ List.replicate n noType }
  have hcounts : countsG 2 Code.new ([0, 0, 0, 0] ++ k ++ [0, 0, 0, 0]) c0 Code.new := by
    refine ⟨[0], _, 0, _, ?_, zero _, [0], _, 0, _, rfl, zero _, [0], _, 0, _, rfl, zero _, [0], _, 0, _, rfl, zero _, [], _, 0, _, rfl,
      ⟨rfl, rfl, rfl⟩, k, _, n, _, rfl, ⟨rfl, hk⟩, [0], _, 0, _, rfl, zero _, [0], _, 0, _, rfl, zero _, [0], _, 0, _, rfl, zero _,
      [], _, 0, _, rfl, ⟨rfl, rfl, rfl⟩, [0], [], 0, _, rfl, zero _, rfl, rfl, rfl⟩
    simp
  have hpools : poolsG c0 Code.new [0, 0, 0, 0] c1 Code.new := by
    refine ⟨[], _, [], _, rfl, ⟨rfl, rfl, rfl⟩, [], _, [], _, rfl, ⟨rfl, rfl, rfl⟩, [0, 0, 0, 0], [], [], _, rfl, ?_, rfl, rfl, rfl⟩
    refine ⟨[0, 0, 0, 0], [], 0, _, rfl, ⟨rfl, rfl, rfl⟩, [], _, (), _, rfl, ⟨rfl, by decide, rfl⟩, [], _, [], _, rfl, ⟨rfl, rfl, rfl⟩,
      [], _, [], _, rfl, ⟨rfl, rfl, [], .done, rfl⟩, ?_⟩
    exact ⟨rfl, rfl, rfl⟩
  have hloop : ∀ (m i : Nat) (cc : Code), G.loop typesStepG i m (t i) cc (List.replicate m 0) (t (i + m)) (if m = 0 then cc else t (i + m)) := by
    intro m
    induction m with
    | zero => intro i cc; exact ⟨rfl, rfl, rfl⟩
    | succ m ih =>
      intro i cc
      have hstep : typesStepG i (t i) cc [0] (t (i + 1)) (t (i + 1)) := by
        refine ⟨[], [0], (), _, rfl, ⟨rfl, rfl⟩, [0], [], v, t i, rfl, ?_, ?_⟩
        · exact ⟨[0], [], 0, _, rfl, ⟨rfl, 0, rfl, rfl⟩, [], [], (), _, rfl, ⟨rfl, by decide, rfl⟩, [], [], .HVOID, _, rfl, ⟨rfl, rfl, rfl⟩, rfl, rfl, rfl⟩
        · have e : (t i).types.insertIdx i v = (t (i + 1)).types := by
            have := insertIdx_append_length (List.replicate i v) (List.replicate n noType) v
            rw [List.length_replicate] at this
            show (List.replicate i v ++ List.replicate n noType).insertIdx i v = _
            rw [this]
            simp [t, List.replicate_succ']
          refine ⟨[], [], _, _, rfl, ⟨rfl, rfl, rfl⟩, [], [], (), _, rfl, ⟨rfl, by simp [t], rfl⟩, [], [], (), _, rfl, ⟨rfl, rfl⟩, rfl, ?_, ?_⟩
          · rw [e]
          · rw [e]
      have := ih (i + 1) (t (i + 1))
      refine ⟨[0], List.replicate m 0, t (i + 1), t (i + 1), by simp [List.replicate_succ], hstep, ?_⟩
      have e : i + (m + 1) = i + 1 + m := by omega
      rw [e, if_neg (by omega)]
      by_cases hm : m = 0
      · subst hm; exact this
      · rw [if_neg hm] at this; exact this
  have htypes : typesG c1 Code.new (List.replicate n 0) (t n) (t n) := by
    have := hloop n 0 Code.new
    rw [Nat.zero_add, if_neg (by omega)] at this
    exact this
  have hf : fileG p Code.new (voidTypes n k) (t n) (t n) := by
    refine ⟨[0x48, 0x4C, 0x42], _, (), _, ?_, ⟨rfl, rfl⟩, [2], _, 2, _, rfl, ⟨[2], [], 2, _, rfl, ⟨rfl, 2, rfl, rfl⟩, [], [], (), _, rfl, ⟨rfl, by decide, rfl⟩, rfl, rfl, rfl⟩,
      _, _, _, _, rfl, hcounts, _, _, _, _, rfl, hpools, [], _, c1, _, rfl, ⟨rfl, rfl, rfl⟩, [], _, c1, _, rfl, ⟨rfl, rfl, rfl⟩,
      List.replicate n 0, [], t n, _, (List.append_nil _).symm, htypes, [], _, t n, _, rfl, ⟨rfl, rfl, rfl⟩, [], _, t n, _, rfl, ⟨rfl, rfl, rfl⟩, [], _, t n, _, rfl, ⟨rfl, rfl, rfl⟩,
      [], [], t n, _, rfl, ⟨rfl, rfl, rfl⟩, rfl, rfl, rfl⟩
    simp [voidTypes]
  have hr : Code.read p none (voidTypes n k) = .ok (t n) ⟨[], (voidTypes n k).length, t n, none⟩ :=
    (c38_accepts_exactly_the_grammar p none _ (t n) _).2 ⟨rfl, voidTypes n k, [], by simp, hf, rfl⟩
  refine ⟨⟨t n, ⟨_, hr⟩, rfl⟩, ?_⟩
  rw [c105_types p none _ _ _ hr]
  show 3 * (n * n) + (2 * 0 + 0 + 2 * 0 + 0) * (2 * n) = _
  simp

/-- **C105** An entry can be large: for every `n` below 8192 there is a file of at most `6 n + 20` bytes that is accepted, and one of the modules
that are copied while it is read has a type of `2 ^ (n + 1) - 1` nodes. -/
theorem c105_deep (p : Profile) (n : Nat) (h0 : 0 < n) (hn : n < 0x2000) : ∃ buf c, buf.length ≤ 6 * n + 20 ∧ Accepts p buf c ∧
    ∃ m ∈ copied p none buf, ∃ t ∈ m.types, nodes t = 2 ^ (n + 1) - 1 := by
  obtain ⟨buf, c, h1, ⟨s, h2⟩, h3, t, h4, h5, -⟩ := c84_exponential p n h0 hn
  refine ⟨buf, c, h1, ⟨s, h2⟩, ?_⟩
  have h6 := c105_last p none buf c s h2
  rcases h7 : (copied p none buf).getLast? with _ | m
  · rw [h7] at h6
    have : c.ntypes = 0 := by rw [h6]; rfl
    omega
  · rw [h7] at h6
    have h6 : c = m := h6
    exact ⟨m, List.mem_of_getLast? h7, t, h6 ▸ h4, h5⟩

/-- C105: `exRich` (83 bytes; seven types, five globals, one function, one constant) is copied 27 times, and the copies hold two functions and
329 types; `exDebugFile` (one type, one function, with debug information) is copied six times; 200 types in 218 bytes make 120000 copies of
types. -/
example : (∃ c s, Code.read .release none exRich = .ok c s ∧ c.hasdebug = 0 ∧ c.nnatives = 0 ∧ (copied .release none exRich).length = 27 ∧
      ((copied .release none exRich).map fun m => m.functions.length).sum = 2 ∧ ((copied .release none exRich).map fun m => m.types.length).sum = 329) ∧
    (copied .release none exDebugFile).length = 6 ∧
    (voidTypes 200 [0x80, 200]).length = 218 ∧ ((copied .release none (voidTypes 200 [0x80, 200])).map fun m => m.types.length).sum = 120000 := by
  refine ⟨?_, ?_, ?_⟩
  · have h : (match Code.read .release none exRich with
      | .ok c _ => decide (c.hasdebug = 0 ∧ c.ntypes = 7 ∧ c.nglobals = 5 ∧ c.nnatives = 0 ∧ c.nfunctions = 1 ∧ c.nconstants = 1)
      | _ => false) = true := by decide +kernel
    split at h
    · next c s hr =>
      obtain ⟨h1, h2, h3, h4, h5, h6⟩ := of_decide_eq_true h
      refine ⟨c, s, hr, h1, h4, ?_, ?_, ?_⟩
      · rw [c105_count _ _ _ _ _ hr, h1, h2, h3, h4, h5, h6]; rfl
      · rw [c105_functions _ _ _ _ _ hr, h5, h6]
      · rw [c105_types _ _ _ _ _ hr, h2, h3, h4, h5, h6]
    · cases h
  · have h : (match Code.read .release none exDebugFile with
      | .ok c _ => decide (c.hasdebug = 1 ∧ c.ntypes = 1 ∧ c.nglobals = 0 ∧ c.nnatives = 0 ∧ c.nfunctions = 1 ∧ c.nconstants = 0)
      | _ => false) = true := by decide +kernel
    split at h
    · next c s hr =>
      obtain ⟨h1, h2, h3, h4, h5, h6⟩ := of_decide_eq_true h
      rw [c105_count _ _ _ _ _ hr, h1, h2, h3, h4, h5, h6]; rfl
    · cases h
  · have h := c105_quadratic .release 200 (by decide) [0x80, 200] (IdxBytes.mediumPos 0x80 200 (by decide) (by decide))
    obtain ⟨h1, -, h2⟩ := h
    rw [h1, h2]
    exact ⟨rfl, rfl⟩

end Verif.Brass
