import Verif.Brass.LookupLemmas

/-!
# Which tables are copied by the lookups for a whole file
-/

namespace Verif.Brass

open Verif Verif.Brass.Spec

/-! ## Types -/

theorem step_types {i b s b' s' l} (h : readTypesStepL i b s = (.ok b' s', l)) (he : s'.errors = none) :
    s.errors = none ∧ s'.code = b' ∧ ∃ a d t u w, i ≤ d.types.length ∧ b' = { d with types := d.types.insertIdx i a } ∧ Summed.OfType a t u w ∧ Sum b d l t u w := by
  obtain ⟨_, s1, l1, l2, h1, h2, rfl⟩ := L.bind_eq_ok h
  obtain ⟨m1, rfl⟩ := L.lift_eq_ok h1
  cases m1
  obtain ⟨a, s2, l3, l4, h3, h4, rfl⟩ := L.bind_eq_ok h2
  obtain ⟨d, s3, l5, l6, h5, h6, rfl⟩ := L.bind_eq_ok h4
  obtain ⟨m3, rfl⟩ := L.lift_eq_ok h5
  cases m3
  obtain ⟨v, s4, l7, l8, h7, h8, rfl⟩ := L.bind_eq_ok h6
  obtain ⟨m4, rfl⟩ := L.lift_eq_ok h7
  obtain ⟨_, s5, l9, l10, h9, h10, rfl⟩ := L.bind_eq_ok h8
  obtain ⟨m5, rfl⟩ := L.lift_eq_ok h9
  cases m5
  cases h10
  unfold M.insertAt at m4
  split at m4
  · next hi =>
    cases m4
    obtain ⟨e, t, u, w, hr, hs⟩ := Summed.readType _ _ _ _ h3 he
    exact ⟨e, rfl, a, s2.code, t, u, w, hi, rfl, hr, by simpa using hs⟩
  · cases m4

/-- The lookups in the loop over the types. -/
structure TypeLooks (b b' : Code) (l : List TableCopy) (ys : List ValueType) : Prop where
  cache : (cacheTables l).length = (ys.map names).sum
  bound : ∀ n ∈ cacheTables l, b.ustrings.length ≤ n ∧ n ≤ b'.ustrings.length
  strings : ∃ m, m ≤ (ys.map names).sum ∧ b'.ustrings.length = b.ustrings.length + m ∧ stringTables l = List.replicate m b.strings.length

theorem loop_types (N : Nat) : ∀ (n : Nat) (xs : List ValueType) (b : Code) (s : St) (b' : Code) (s' : St) (l : List TableCopy),
    b.types = xs ++ List.replicate N noType → L.forRange readTypesStepL xs.length n b s = (.ok b' s', l) → s'.errors = none →
    s.errors = none ∧ (n = 0 ∧ s' = s ∨ s'.code = b') ∧ ∃ (ys : List ValueType) (k : Nat → Nat), ys.length = n ∧
      noCache b' = { noCache b with types := xs ++ ys ++ List.replicate N noType } ∧ (∀ (j : Nat) (y : ValueType), ys[j]? = some y → Looks y (k j)) ∧
      typeTables l = (List.range n).flatMap (fun j => List.replicate (k j) (N + (xs.length + j))) ∧ TypeLooks b b' l ys
  | 0, xs, b, s, b', s', l, hb, h, he => by
    cases h
    refine ⟨he, .inl ⟨rfl, rfl⟩, [], fun _ => 0, rfl, ?_, by simp, rfl, rfl, by simp, 0, Nat.le_refl _, rfl, rfl⟩
    show noCache b = _
    rw [List.append_nil, ← hb]; rfl
  | n + 1, xs, b, s, b', s', l, hb, h, he => by
    obtain ⟨b1, s1, l1, l2, h1, h2, rfl⟩ := L.bind_eq_ok (x := readTypesStepL xs.length b) h
    have m2 := (Looking.forRange Looking.readTypesStep n (xs.length + 1) b1).ok h2
    have e1 : s1.errors = none := (Good.forRange (fun i b => Good.readTypesStep i b) n (xs.length + 1) b1).none_of m2 he
    obtain ⟨e0, hk, a, d, t, u, w, hi, rfl, ⟨r1, rfl, rfl⟩, hs⟩ := step_types h1 e1
    have hd : d.uncached.types = b.uncached.types := by rw [hs.code]
    have hd : d.types = b.types := hd
    have hstr : d.uncached.strings = b.uncached.strings := by rw [hs.code]
    have hstr : d.strings = b.strings := hstr
    have hd' : d.types.insertIdx xs.length a = (xs ++ [a]) ++ List.replicate N noType := by
      rw [hd, hb, insertIdx_append_length]
    have hlen : xs.length + 1 = (xs ++ [a]).length := by simp
    rw [hlen] at h2
    obtain ⟨-, hc, ys, k, j1, j2, j3, j4, j5⟩ := loop_types N n (xs ++ [a]) _ s1 b' s' l2 hd' h2 he
    obtain ⟨m1, n1, q1, q2⟩ := hs.strings
    obtain ⟨m2', n2, q3, q4⟩ := j5.strings
    have hu : ({ d with types := d.types.insertIdx xs.length a } : Code).ustrings = d.ustrings := rfl
    have hst : ({ d with types := d.types.insertIdx xs.length a } : Code).strings = d.strings := rfl
    have hbd := j5.bound
    rw [hu] at q3 hbd
    rw [hst, hstr] at q4
    refine ⟨e0, .inr ?_, a :: ys, fun j => match j with | 0 => t | j + 1 => k j, by simp [j1], ?_, ?_, ?_, ?_, ?_, m1 + m2', ?_, by omega, ?_⟩
    · rcases hc with ⟨rfl, rfl⟩ | hc
      · cases h2; exact hk
      · exact hc
    · rw [j2]
      have : noCache d = noCache b := hs.code
      have e : ∀ ts, ({ noCache { d with types := d.types.insertIdx xs.length a } with types := ts } : Code) = { noCache d with types := ts } := fun _ => rfl
      rw [e, this]
      simp
    · intro j y hy
      cases j with
      | zero => simp at hy; subst hy; exact r1
      | succ j => exact j3 j y (by simpa using hy)
    · rw [typeTables_append, hs.types, j4, List.range_succ_eq_map, List.flatMap_cons, List.flatMap_map, hb]
      congr 1
      · show List.replicate t (xs ++ List.replicate N noType).length = List.replicate t (N + (xs.length + 0))
        congr 1; simp; omega
      · congr 1; funext j
        show List.replicate (k j) (N + ((xs ++ [a]).length + j)) = List.replicate (k j) (N + (xs.length + (j + 1)))
        congr 1; simp; omega
    · rw [cacheTables_append, List.length_append, hs.count, j5.cache]; simp
    · intro x hx
      rw [cacheTables_append] at hx
      rcases List.mem_append.1 hx with hx | hx
      · have := hs.bound x hx; omega
      · have := hbd x hx; omega
    · simp; omega
    · rw [stringTables_append, q2, q4, List.replicate_append_replicate]; simp

/-! ## Globals, natives and functions -/

/-- `nt` type tables and `ns` string tables were copied, and the three tables stay as they are. -/
structure Rest (d d' : Code) (l : List TableCopy) (nt ns : Nat) : Prop where
  same : d'.types = d.types ∧ d'.ustrings.length = d.ustrings.length ∧ d'.strings = d.strings ∧ d'.ntypes = d.ntypes
  types : typeTables l = List.replicate nt d.types.length
  strings : stringTables l = List.replicate ns d.strings.length
  cache : cacheTables l = []

theorem Rest.refl (d : Code) : Rest d d [] 0 0 := ⟨⟨rfl, rfl, rfl, rfl⟩, rfl, rfl, rfl⟩

theorem Rest.append {d d1 d2 : Code} {l1 l2 : List TableCopy} {a b a' b' : Nat} (h1 : Rest d d1 l1 a b) (h2 : Rest d1 d2 l2 a' b') :
    Rest d d2 (l1 ++ l2) (a + a') (b + b') := by
  obtain ⟨t1, u1, s1, n1⟩ := h1.same
  obtain ⟨t2, u2, s2, n2⟩ := h2.same
  refine ⟨⟨t2.trans t1, u2.trans u1, s2.trans s1, n2.trans n1⟩, ?_, ?_, ?_⟩
  · rw [typeTables_append, h1.types, h2.types, t1, List.replicate_append_replicate]
  · rw [stringTables_append, h1.strings, h2.strings, s1, List.replicate_append_replicate]
  · rw [cacheTables_append, h1.cache, h2.cache]; rfl

theorem Sum.rest {d d' : Code} {l : List TableCopy} {t u : Nat} (h : Sum d d' l t u 0) : d'.uncached = d.uncached ∧ Rest d d' l t u := by
  obtain ⟨m, h1, h2, h3⟩ := h.strings
  have hm : m = 0 := by omega
  subst hm
  have hc : cacheTables l = [] := List.length_eq_zero_iff.1 h.count
  have ht : d'.uncached.types = d.uncached.types := by rw [h.code]
  have hs : d'.uncached.strings = d.uncached.strings := by rw [h.code]
  have hn : d'.uncached.ntypes = d.uncached.ntypes := by rw [h.code]
  exact ⟨h.code, ⟨ht, h2, hs, hn⟩, h.types, h3, hc⟩

theorem step_globals {i b s b' s' l} (h : readGlobalsStepL i b s = (.ok b' s', l)) (he : s'.errors = none) :
    s.errors = none ∧ s'.code = b' ∧ Rest b b' l 1 0 := by
  obtain ⟨_, s1, l1, l2, h1, h2, rfl⟩ := L.bind_eq_ok h
  obtain ⟨m1, rfl⟩ := L.lift_eq_ok h1
  cases m1
  obtain ⟨a, s2, l3, l4, h3, h4, rfl⟩ := L.bind_eq_ok h2
  obtain ⟨d, s3, l5, l6, h5, h6, rfl⟩ := L.bind_eq_ok h4
  obtain ⟨m3, rfl⟩ := L.lift_eq_ok h5
  cases m3
  obtain ⟨v, s4, l7, l8, h7, h8, rfl⟩ := L.bind_eq_ok h6
  obtain ⟨m4, rfl⟩ := L.lift_eq_ok h7
  obtain ⟨_, s5, l9, l10, h9, h10, rfl⟩ := L.bind_eq_ok h8
  obtain ⟨m5, rfl⟩ := L.lift_eq_ok h9
  cases m5
  cases h10
  have e2 := (Good.insertAt _ _ _).none_of m4 he
  obtain ⟨e, t, u, w, ⟨rfl, rfl, rfl⟩, hs⟩ := Summed.getType _ _ _ _ h3 e2
  refine ⟨e, rfl, ?_⟩
  have := hs.rest.2
  exact ⟨this.same, by simpa using this.types, by simpa using this.strings, by simpa using this.cache⟩

theorem loop_globals : ∀ (n a : Nat) (b : Code) (s : St) (b' : Code) (s' : St) (l : List TableCopy),
    L.forRange readGlobalsStepL a n b s = (.ok b' s', l) → s'.errors = none →
    s.errors = none ∧ (n = 0 ∧ s' = s ∨ s'.code = b') ∧ Rest b b' l n 0
  | 0, a, b, s, b', s', l, h, he => by cases h; exact ⟨he, .inl ⟨rfl, rfl⟩, .refl _⟩
  | n + 1, a, b, s, b', s', l, h, he => by
    obtain ⟨b1, s1, l1, l2, h1, h2, rfl⟩ := L.bind_eq_ok (x := readGlobalsStepL a b) h
    obtain ⟨e1, hc, r2⟩ := loop_globals n (a + 1) b1 s1 b' s' l2 h2 he
    obtain ⟨e0, hk, r1⟩ := step_globals h1 e1
    refine ⟨e0, .inr ?_, ?_⟩
    · rcases hc with ⟨rfl, rfl⟩ | hc
      · cases h2; exact hk
      · exact hc
    · have := r1.append r2
      rwa [Nat.add_comm 1 n] at this

theorem getType_ntypes {s : St} {a : ValueType} {s' : St} (h : getType s = .ok a s') (he : s'.errors = none) : s.code.ntypes ≠ 0 := by
  obtain ⟨i, s1, h1, h⟩ := M.bind_eq_ok (x := index) h
  obtain ⟨d, s2, h2, h⟩ := M.bind_eq_ok (x := M.getCode) h
  cases h2
  obtain ⟨bad, s3, h3, h⟩ := M.bind_eq_ok h
  have c1 : s1.code = s.code := Pres.index composes_eq _ _ _ h1
  rw [← c1]
  intro h0
  rw [h0] at h3
  have : bad = true := by
    unfold badIndex at h3
    split at h3
    · cases h3; rfl
    · cases h3
      simp only [decide_eq_true_eq]; omega
  subst this
  simp only [if_true] at h
  obtain ⟨_, s4, h4, h⟩ := M.bind_eq_ok h
  cases h4
  have := (Good.unwrapOpt _).none_of h he
  cases this

theorem native_sum {s : St} {a : Native} {s' : St} {l : List TableCopy} (h : readNativeL s = (.ok a s', l)) (he : s'.errors = none) :
    s.errors = none ∧ Rest s.code s'.code l 1 2 ∧ s.code.ntypes ≠ 0 := by
  have hs : Summed readNativeL (fun _ t u v => t = 1 ∧ u = 2 ∧ v = 0) :=
    (Summed.bind Summed.readString fun _ => Summed.bind Summed.readString fun _ => Summed.bind Summed.getType fun _ => Summed.bind Summed.uindex fun _ => Summed.pure _).mono <| by
      rintro _ t u v ⟨_, _, _, _, _, _, _, ⟨a1, a2, a3⟩, ⟨_, _, _, _, _, _, _, ⟨b1, b2, b3⟩, ⟨_, _, _, _, _, _, _, ⟨c1, c2, c3⟩, ⟨_, _, _, _, _, _, _, ⟨d1, d2, d3⟩, ⟨rfl, e1, e2, e3⟩,
        f1, f2, f3⟩, g1, g2, g3⟩, h1, h2, h3⟩, i1, i2, i3⟩
      omega
  obtain ⟨e, t, u, v, ⟨rfl, rfl, rfl⟩, k⟩ := hs _ _ _ _ h he
  refine ⟨e, k.rest.2, ?_⟩
  have m := Looking.readNative.ok h
  obtain ⟨_, s1, h1, m⟩ := M.bind_eq_ok (x := readString) m
  obtain ⟨_, s2, h2, m⟩ := M.bind_eq_ok (x := readString) m
  obtain ⟨_, s3, h3, m⟩ := M.bind_eq_ok (x := getType) m
  have e3 := Good.none_of (by have := Good.uindex; good) m he
  have := getType_ntypes h3 e3
  rw [Pres.readString composes_eq _ _ _ h2, Pres.readString composes_eq _ _ _ h1] at this
  exact this

theorem loop_natives : ∀ (n a : Nat) (b : Code) (s : St) (b' : Code) (s' : St) (l : List TableCopy),
    (s.code.types = b.types ∧ s.code.strings = b.strings) ∨ s.code.ntypes = 0 →
    L.forRange readNativesStepL a n b s = (.ok b' s', l) → s'.errors = none → s.errors = none ∧ Rest b b' l n (2 * n)
  | 0, a, b, s, b', s', l, _, h, he => by cases h; exact ⟨he, .refl _⟩
  | n + 1, a, b, s, b', s', l, hb, h, he => by
    obtain ⟨b1, s1, l1, l2, h1, h2, rfl⟩ := L.bind_eq_ok (x := readNativesStepL a b) h
    obtain ⟨x, s2, l3, l4, h3, h4, rfl⟩ := L.bind_eq_ok (x := readNativeL) h1
    obtain ⟨_, s3, l5, l6, h5, h6, rfl⟩ := L.bind_eq_ok h4
    obtain ⟨m3, rfl⟩ := L.lift_eq_ok h5
    cases m3
    cases h6
    obtain ⟨e1, r2⟩ := loop_natives n (a + 1) _ _ b' s' l2 (by exact .inl ⟨rfl, rfl⟩) h2 he
    obtain ⟨e0, r1, hn⟩ := native_sum h3 e1
    rcases hb with ⟨q1, q2⟩ | hb
    · refine ⟨e0, ?_⟩
      have r1' : Rest b { b with natives := b.natives ++ [x] } (l3 ++ ([] ++ [])) 1 2 :=
        ⟨⟨rfl, rfl, rfl, rfl⟩, by rw [← q1]; simpa using r1.types, by rw [← q2]; simpa using r1.strings, by simpa using r1.cache⟩
      have := r1'.append r2
      rw [Nat.add_comm 1 n, show 2 + 2 * n = 2 * (n + 1) by omega] at this
      exact this
    · exact absurd hb hn

/-- The tables used by lookups, and the numbers of registers. -/
def SameTables (c c' : Code) : Prop :=
  (c'.types = c.types ∧ c'.ustrings.length = c.ustrings.length ∧ c'.strings = c.strings ∧ c'.ntypes = c.ntypes) ∧
    c'.functions.map (fun f => f.regs.length) = c.functions.map (fun f => f.regs.length)

theorem composes_tables : Composes SameTables :=
  ⟨fun _ => ⟨⟨rfl, rfl, rfl, rfl⟩, rfl⟩, fun _ _ _ ⟨⟨a, b, c, d⟩, e⟩ ⟨⟨a', b', c', d'⟩, e'⟩ => ⟨⟨a'.trans a, b'.trans b, c'.trans c, d'.trans d⟩, e'.trans e⟩⟩

theorem tables_storeDebug (i : Nat) (o : Option (List Int)) : Pres SameTables (storeDebug i o) := by
  cases o with
  | none => exact Pres.pure' composes_tables
  | some w =>
    intro s a s' h
    obtain ⟨d, s1, h1, h⟩ := M.bind_eq_ok (x := M.getCode) h
    cases h1
    obtain ⟨f, s2, h2, h⟩ := M.bind_eq_ok h
    have hf : s.code.functions[i]? = some f := by
      cases hg : s.code.functions[i]? with
      | none => rw [hg] at h2; cases h2
      | some g => rw [hg] at h2; cases h2; rfl
    cases h
    refine ⟨⟨rfl, rfl, rfl, rfl⟩, ?_⟩
    apply List.ext_getElem?
    intro j
    simp only [List.getElem?_map, List.getElem?_set]
    split
    · next hij =>
      subst hij
      rw [hf]
      split
      · rfl
      · next hl => exact absurd (List.getElem?_eq_some_iff.1 hf).1 hl
    · rfl

theorem tables_debug (p : Profile) (i : Nat) : Pres SameTables (readFunctionDebug p i) := by
  have hT := composes_tables
  refine Pres.bind hT (Pres.getCode hT) fun d => Pres.ite ?_ (Pres.pure hT)
  refine Pres.bind hT (Pres.unwrapOpt hT) fun f => Pres.bind hT (Pres.okOrRecord hT (Pres.debugInfos hT) fun s e s' h => absurd h (NoErr.debugInfos _ _ _ _ _)) fun r =>
    Pres.bind hT (tables_storeDebug i r) fun _ => Pres.bind hT (Pres.getCode hT) fun _ => Pres.skipAssignsIf hT

theorem keeps_opcode : Pres (fun c c' : Code => c' = c) readOpcode :=
  have hT := composes_eq
  Pres.bind hT (Pres.unwrap (Pres.decodeU8 hT)) fun _ => Pres.ite (Pres.bind hT (Pres.setError hT) fun _ => Pres.pure hT)
    (Pres.bind hT (Pres.unwrapOpt hT) fun _ => Pres.bind hT (Pres.unwrapOpt hT) fun _ => Pres.readOperands hT)

theorem function_sum : Summed readFunctionL (fun f t u v => t = 1 + f.regs.length ∧ u = 0 ∧ v = 0) := by
  have hp : ∀ f : HLFunction, Summed (Pure.pure f : L HLFunction) (fun g t u v => g.regs = f.regs ∧ Zero g t u v) := fun f =>
    (Summed.pure f).mono fun g t u v ⟨h1, h2⟩ => ⟨by rw [h1], h2⟩
  have ho : ∀ (f : HLFunction) (n : Nat), Summed (L.lift (readOpcodes n) >>= fun ops => Pure.pure { f with ops := ops } : L HLFunction) (fun g t u v => g.regs = f.regs ∧ Zero g t u v) :=
    fun f n => (Summed.bind (Summed.lift (.readOpcodes n) (Pres.forRange composes_eq (fun _ _ => Pres.bind composes_eq (Pres.unwrap keeps_opcode) fun _ => Pres.insertAt composes_eq) _ _ _))
      fun ops => hp { f with ops := ops }).mono <| by
      rintro g t u v ⟨_, _, _, _, _, _, _, ⟨a1, a2, a3⟩, ⟨h1, b1, b2, b3⟩, c1, c2, c3⟩
      exact ⟨h1, by omega, by omega, by omega⟩
  refine (Summed.bind Summed.getType fun _ => Summed.bind Summed.uindex fun _ => Summed.bind Summed.uindex fun _ => Summed.bind Summed.uindex fun nops =>
    Summed.bind (Summed.readTypeRefs _) fun _ => Summed.bind (Summed.lift .getErrors (Pres.getErrors composes_eq)) fun _ => Summed.ite (hp _) (ho _ _)).mono ?_
  rintro g t u v ⟨_, _, _, _, _, _, _, ⟨a1, a2, a3⟩, ⟨_, _, _, _, _, _, _, ⟨b1, b2, b3⟩, ⟨_, _, _, _, _, _, _, ⟨c1, c2, c3⟩, ⟨_, _, _, _, _, _, _, ⟨d1, d2, d3⟩,
    ⟨_, _, _, _, _, _, _, ⟨e1, e2, e3⟩, ⟨_, _, _, _, _, _, _, ⟨f1, f2, f3⟩, ⟨hr, g1, g2, g3⟩, h1, h2, h3⟩, i1, i2, i3⟩, j1, j2, j3⟩, k1, k2, k3⟩, l1, l2, l3⟩, m1, m2, m3⟩
  rw [hr]
  simp only
  omega

theorem step_functions {p i b s b' s' l} (h : readFunctionsStepL p i b s = (.ok b' s', l)) (he : s'.errors = none) :
    s.errors = none ∧ ∃ r, Rest b b' l (1 + r) 0 ∧ b'.functions.map (fun f => f.regs.length) = b.functions.map (fun f => f.regs.length) ++ [r] := by
  obtain ⟨_, s1, l1, l2, h1, h2, rfl⟩ := L.bind_eq_ok h
  obtain ⟨m1, rfl⟩ := L.lift_eq_ok h1
  cases m1
  obtain ⟨f, s2, l3, l4, h3, h4, rfl⟩ := L.bind_eq_ok h2
  obtain ⟨d, s3, l5, l6, h5, h6, rfl⟩ := L.bind_eq_ok h4
  obtain ⟨m3, rfl⟩ := L.lift_eq_ok h5
  cases m3
  obtain ⟨_, s4, l7, l8, h7, h8, rfl⟩ := L.bind_eq_ok h6
  obtain ⟨m4, rfl⟩ := L.lift_eq_ok h7
  cases m4
  obtain ⟨_, s5, l9, l10, h9, h10, rfl⟩ := L.bind_eq_ok h8
  obtain ⟨m5, rfl⟩ := L.lift_eq_ok h9
  obtain ⟨m6, rfl⟩ := L.lift_eq_ok h10
  cases m6
  have e4 := (Good.readFunctionDebug p i).none_of m5 he
  have ht := tables_debug p i _ _ _ m5
  obtain ⟨e, t, u, w, ⟨rfl, rfl, rfl⟩, hs⟩ := function_sum _ _ _ _ h3 e4
  obtain ⟨hu, hr⟩ := hs.rest
  refine ⟨e, f.regs.length, ?_, ?_⟩
  · obtain ⟨t1, t2, t3, t4⟩ := ht.1
    obtain ⟨u1, u2, u3, u4⟩ := hr.same
    exact ⟨⟨t1.trans u1, t2.trans u2, t3.trans u3, t4.trans u4⟩, by simpa using hr.types, by simpa using hr.strings, by simpa using hr.cache⟩
  · have h7 : s2.code.uncached.functions = b.functions := by rw [hu]; rfl
    have h7 : s2.code.functions = b.functions := h7
    rw [ht.2]
    simp [h7]

theorem loop_functionsL (p : Profile) : ∀ (n a : Nat) (b : Code) (s : St) (b' : Code) (s' : St) (l : List TableCopy),
    L.forRange (readFunctionsStepL p) a n b s = (.ok b' s', l) → s'.errors = none →
    s.errors = none ∧ ∃ rs, b'.functions.map (fun f => f.regs.length) = b.functions.map (fun f => f.regs.length) ++ rs ∧ Rest b b' l (rs.map (1 + ·)).sum 0
  | 0, a, b, s, b', s', l, h, he => by cases h; exact ⟨he, [], by simp, .refl _⟩
  | n + 1, a, b, s, b', s', l, h, he => by
    obtain ⟨b1, s1, l1, l2, h1, h2, rfl⟩ := L.bind_eq_ok (x := readFunctionsStepL p a b) h
    obtain ⟨e1, rs, q2, r2⟩ := loop_functionsL p n (a + 1) b1 s1 b' s' l2 h2 he
    obtain ⟨e0, r, r1, q1⟩ := step_functions h1 e1
    refine ⟨e0, r :: rs, by rw [q2, q1]; simp, ?_⟩
    simpa using r1.append r2

theorem sec_checkedL {x : L Code} {s c' s' l} (h : (x >>= fun a => L.lift M.checkError >>= fun _ => Pure.pure a) s = (.ok c' s', l)) :
    x s = (.ok c' s', l) ∧ s'.errors = none := by
  obtain ⟨_, _, _, _, e1, h1, rfl⟩ := L.bind_eq_ok h
  obtain ⟨_, _, _, _, e2, h2, rfl⟩ := L.bind_eq_ok h1
  obtain ⟨h3, rfl⟩ := L.lift_eq_ok e2
  obtain ⟨rfl, h4⟩ := checkError_ok h3
  cases h2
  exact ⟨by simpa using e1, h4⟩

theorem debugFiles_code {c : Code} {s : St} {c' : Code} {s' : St} (h : readDebugFiles c s = .ok c' s') : s'.code = c' ∨ s'.code = s.code := by
  unfold readDebugFiles at h
  split at h
  · left
    obtain ⟨_, _, _, h⟩ := M.bind_eq_ok h
    obtain ⟨_, _, _, h⟩ := M.bind_eq_ok h
    obtain ⟨_, _, _, h⟩ := M.bind_eq_ok h
    obtain ⟨_, _, _, h⟩ := M.bind_eq_ok h
    obtain ⟨_, _, e, h⟩ := M.bind_eq_ok h
    cases e
    obtain ⟨_, _, e, h⟩ := M.bind_eq_ok h
    obtain ⟨rfl, _⟩ := checkError_ok e
    cases h
    rfl
  · cases h; exact .inr rfl

/-- What is copied by lookups when a file is accepted. -/
theorem lookups_file {p : Profile} {buf : List UInt8} {c : Code} {s : St} (h : Code.read p none buf = .ok c s) (he : s.errors = none) :
    ∃ k : Nat → Nat, (∀ i t, i < c.ntypes → c.types[i]? = some t → Looks t (k i)) ∧
      typeTables (tableCopies p none buf) =
        (List.range c.ntypes).flatMap (fun i => List.replicate (k i) (c.ntypes + i)) ++ List.replicate (otherLooks c) (2 * c.ntypes) ∧
      (cacheTables (tableCopies p none buf)).length = ((c.types.take c.ntypes).map names).sum ∧
      (∀ n ∈ cacheTables (tableCopies p none buf), c.nstrings ≤ n ∧ n ≤ c.ustrings.length) ∧
      ∃ m, m ≤ ((c.types.take c.ntypes).map names).sum ∧ c.ustrings.length = c.nstrings + m ∧
        stringTables (tableCopies p none buf) = List.replicate (2 * c.nnatives + m) c.strings.length := by
  have hrun : readML p (St.new buf none) = (.ok c s, tableCopies p none buf) := (Looking.readM p).run h
  generalize tableCopies p none buf = l at hrun ⊢
  unfold readML at hrun
  obtain ⟨_, s1, _, _, e1, h1, rfl⟩ := L.bind_eq_ok hrun
  obtain ⟨m1, rfl⟩ := L.lift_eq_ok e1
  obtain ⟨v, s2, _, _, e2, h2, rfl⟩ := L.bind_eq_ok h1
  obtain ⟨m2, rfl⟩ := L.lift_eq_ok e2
  obtain ⟨c0, s3, _, _, e3, h3, rfl⟩ := L.bind_eq_ok h2
  obtain ⟨m3, rfl⟩ := L.lift_eq_ok e3
  obtain ⟨c1, s4, _, _, e4, h4, rfl⟩ := L.bind_eq_ok h3
  obtain ⟨m4, rfl⟩ := L.lift_eq_ok e4
  obtain ⟨c2, s5, _, _, e5, h5, rfl⟩ := L.bind_eq_ok h4
  obtain ⟨m5, rfl⟩ := L.lift_eq_ok e5
  obtain ⟨c3, s6, _, _, e6, h6, rfl⟩ := L.bind_eq_ok h5
  obtain ⟨m6, rfl⟩ := L.lift_eq_ok e6
  obtain ⟨c4, s7, l4, _, e7, h7, rfl⟩ := L.bind_eq_ok h6
  have m7 := (Looking.readTypes _).ok e7
  obtain ⟨c5, s8, l5, _, e8, h8, rfl⟩ := L.bind_eq_ok h7
  have m8 := (Looking.readGlobals _).ok e8
  obtain ⟨c6, s9, l6, _, e9, h9, rfl⟩ := L.bind_eq_ok h8
  have m9 := (Looking.readNatives _).ok e9
  obtain ⟨c7, s10, l7, _, e10, h10, rfl⟩ := L.bind_eq_ok h9
  have m10 := (Looking.readFunctions p _).ok e10
  obtain ⟨c8, s11, _, _, e11, h11, rfl⟩ := L.bind_eq_ok h10
  obtain ⟨m11, rfl⟩ := L.lift_eq_ok e11
  obtain ⟨m12, rfl⟩ := L.lift_eq_ok h11
  cases m12
  obtain ⟨n10, k8, -, -, g11⟩ := (Sem.readConstants _).sound _ _ _ trivial m11 he
  have n9 : s9.errors = none := (Good.readFunctions p c6).none_of m10 n10
  obtain ⟨n8, k6, -, -, g9⟩ := (Sem.readNatives _).sound _ _ _ trivial m9 n9
  obtain ⟨n7, k5, -, -, g8⟩ := (Sem.readGlobals _).sound _ _ _ trivial m8 n8
  obtain ⟨n6, k4, -, -, g7⟩ := (Sem.readTypes _).sound _ _ _ trivial m7 n7
  obtain ⟨n5, k3, -, -, g6⟩ := (Sem.readDebugFiles _).sound _ _ _ trivial m6 n6
  obtain ⟨n4, k2, -, -, g5⟩ := (Sem.readBytesSection _).sound _ _ _ trivial m5 n5
  obtain ⟨n3, k1, -, -, g4⟩ := (Sem.readPools _).sound _ _ _ trivial m4 n4
  obtain ⟨n2, kc, -, -, g3⟩ := (Sem.checked (Sem.readCounts v)).sound _ _ _ trivial m3 n3
  obtain ⟨n1, kv, -, -, g2⟩ := Sem.readVersion.sound _ _ _ trivial m2 n2
  obtain ⟨n0, km, -, -, g1⟩ := Sem.readMagic.sound _ _ _ trivial m1 n1
  obtain ⟨z0, hd, hh, rfl, hv⟩ := header_of g1 g2 g3
  obtain ⟨z1, -⟩ := KeepsOn.poolsG (f := fun _ => ()) _ _ _ _ _ g4
  obtain ⟨z2, -⟩ := KeepsOn.bytesSectionG (f := fun _ => ()) _ _ _ _ _ g5
  have z0 : s3.code = Code.new := z0
  rw [z0] at g4 z1
  rw [z1] at g4 g5 z2
  rw [z2] at g5 g6
  have f6 : c6.functions = [] := by
    obtain ⟨_, rfl⟩ := nativesG_value g9
    obtain ⟨_, rfl⟩ := globalsG_value g8
    obtain ⟨_, _, rfl⟩ := typesG_value g7
    obtain ⟨_, _, rfl⟩ := debugFilesG_value g6
    obtain ⟨_, _, rfl⟩ := bytesSectionG_value g5
    obtain ⟨_, _, _, _, rfl⟩ := poolsG_value g4
    rfl
  obtain ⟨-, k7, -, -, g10⟩ := (Sem.readFunctions p c6 f6).sound _ _ _ trivial m10 n10
  let S : Sections p (km ++ (kv ++ kc) ++ (k1 ++ (k2 ++ (k3 ++ (k4 ++ (k5 ++ (k6 ++ (k7 ++ k8)))))))) s.code :=
    ⟨hd, _, k1, k2, k3, k4, k5, k6, k7, k8, c1, c2, c3, c4, c5, c6, c7, c8, _, _, _, _, _, rfl, hh, g4, g5, g6, g7, g8, g9, g10, g11⟩
  have x3 := S.same3.1
  have x4 := S.same4.1
  have x5 := S.same5.1
  have x6 := S.same6.1
  have x8 := S.same8
  obtain ⟨-, hc7, ys, k, y1, y2, y3, y4, y5⟩ := loop_types c3.ntypes c3.ntypes [] _ s6 c4 s7 l4 rfl e7 n7
  obtain ⟨e8', -⟩ := sec_checkedL e8
  obtain ⟨-, hc8, r5⟩ := loop_globals c4.nglobals 0 _ s7 c5 s8 l5 e8' n8
  obtain ⟨e9', -⟩ := sec_checkedL e9
  have hs8 : (s8.code.types = c5.types ∧ s8.code.strings = c5.strings) ∨ s8.code.ntypes = 0 := by
    rcases hc8 with ⟨q1, rfl⟩ | hc8
    · rcases hc7 with ⟨q2, rfl⟩ | hc7
      · right
        rcases debugFiles_code m6 with q3 | q3
        · rw [q3]; exact q2
        · rw [q3, z2]; rfl
      · left; rw [hc7]; exact ⟨r5.same.1.symm, r5.same.2.2.1.symm⟩
    · left; exact ⟨by rw [hc8], by rw [hc8]⟩
  obtain ⟨-, r6⟩ := loop_natives c5.nnatives 0 { c5 with natives := [] } s8 c6 s9 l6 (by exact hs8) e9' n9
  obtain ⟨e10', -⟩ := sec_checkedL e10
  obtain ⟨-, rs, q7, r7⟩ := loop_functionsL p c6.nfunctions 0 c6 s9 c7 s10 l7 e10' n10
  rw [f6] at q7
  have q7 : c7.functions.map (fun f => f.regs.length) = rs := q7
  obtain ⟨_, v8⟩ := constantsG_value g11
  obtain ⟨_, _, v2⟩ := bytesSectionG_value g5
  obtain ⟨_, _, v3⟩ := debugFilesG_value g6
  have u3 : c3.ustrings.length = c3.nstrings := by rw [v3, v2]; simp
  have t3 : ∀ b : Code, ∀ c : Code, noCache b = c → b.types = c.types ∧ b.strings = c.strings := by
    intro b c h; subst h; exact ⟨rfl, rfl⟩
  obtain ⟨w1, w2⟩ := t3 _ _ y2
  have w2 : c4.strings = c3.strings := w2
  have w1 : c4.types = ys ++ List.replicate c3.ntypes noType := by rw [w1]; simp
  obtain ⟨a1, a2, a3, -⟩ := r5.same
  obtain ⟨b1, b2, b3, -⟩ := r6.same
  obtain ⟨d1, d2, d3, -⟩ := r7.same
  have T : c8.types = c4.types := by rw [v8]; exact d1.trans (b1.trans a1)
  have U : c8.ustrings.length = c4.ustrings.length := by rw [v8]; exact d2.trans (b2.trans a2)
  have W : c8.strings = c4.strings := by rw [v8]; exact d3.trans (b3.trans a3)
  have F : c8.functions = c7.functions := by rw [v8]
  have N : c8.ntypes = c3.ntypes := x8.ntypes.trans x3.ntypes.symm
  have NS : c8.nstrings = c3.nstrings := x8.nstrings.trans x3.nstrings.symm
  have NG : c8.nglobals = c4.nglobals := x8.nglobals.trans x4.nglobals.symm
  have NN : c8.nnatives = c5.nnatives := x8.nnatives.trans x5.nnatives.symm
  obtain ⟨m, y6, y7, y8⟩ := y5.strings
  have hk : c4.types.length = 2 * c3.ntypes := by rw [w1]; simp; omega
  have hF : (c8.functions.map fun f => 1 + f.regs.length).sum = (rs.map (1 + ·)).sum := by
    rw [F, ← q7, List.map_map]; rfl
  have ht : c8.types.take c8.ntypes = ys := by
    rw [T, w1, N, ← y1]; simp
  have key : (∀ i t, i < c8.ntypes → c8.types[i]? = some t → Looks t (k i)) ∧
      typeTables (l4 ++ (l5 ++ (l6 ++ l7))) =
        (List.range c8.ntypes).flatMap (fun i => List.replicate (k i) (c8.ntypes + i)) ++ List.replicate (otherLooks c8) (2 * c8.ntypes) ∧
      (cacheTables (l4 ++ (l5 ++ (l6 ++ l7)))).length = ((c8.types.take c8.ntypes).map names).sum ∧
      (∀ n ∈ cacheTables (l4 ++ (l5 ++ (l6 ++ l7))), c8.nstrings ≤ n ∧ n ≤ c8.ustrings.length) ∧
      ∃ m, m ≤ ((c8.types.take c8.ntypes).map names).sum ∧ c8.ustrings.length = c8.nstrings + m ∧
        stringTables (l4 ++ (l5 ++ (l6 ++ l7))) = List.replicate (2 * c8.nnatives + m) c8.strings.length := by
    refine ⟨?_, ?_, ?_, ?_, m, ?_, ?_, ?_⟩
    · intro i t hi ht'
      refine y3 i t ?_
      rw [← ht, List.getElem?_take_of_lt hi]; exact ht'
    · simp only [typeTables_append, r5.types, r6.types, r7.types, y4]
      have g5 : ({ c4 with globals := List.replicate c4.nglobals ValueType.default } : Code).types = c4.types := rfl
      have g6 : ({ c5 with natives := [] } : Code).types = c5.types := rfl
      have a1 : c5.types = c4.types := a1
      have b1 : c6.types = c5.types := b1
      rw [g5, g6, b1, a1, hk, N, List.replicate_append_replicate, List.replicate_append_replicate]
      congr 1
      · simp
      · congr 1
        unfold otherLooks
        rw [hF, NG, NN]; omega
    · simp only [cacheTables_append, r5.cache, r6.cache, r7.cache, List.append_nil]
      rw [y5.cache, ht]
    · simp only [cacheTables_append, r5.cache, r6.cache, r7.cache, List.append_nil]
      intro n hn
      have h1 := y5.bound n hn
      have h2 : ({ c3 with types := List.replicate c3.ntypes ValueType.default } : Code).ustrings = c3.ustrings := rfl
      rw [h2, u3] at h1
      rw [NS, U]; exact h1
    · rw [ht]; exact y6
    · have h2 : ({ c3 with types := List.replicate c3.ntypes ValueType.default } : Code).ustrings = c3.ustrings := rfl
      rw [h2, u3] at y7
      rw [U, NS]; exact y7
    · simp only [stringTables_append, r5.strings, r6.strings, r7.strings, y8]
      have g4 : ({ c3 with types := List.replicate c3.ntypes ValueType.default } : Code).strings = c3.strings := rfl
      have g6 : ({ c5 with natives := [] } : Code).strings = c5.strings := rfl
      have a3 : c5.strings = c4.strings := a3
      have b3 : c6.strings = c5.strings := b3
      rw [g4, g6, W, a3, w2]
      simp only [List.replicate_zero, List.append_nil, List.nil_append, List.replicate_append_replicate]
      congr 1
      rw [NN]; omega
  simp only [List.nil_append, List.append_nil]
  by_cases hb : S.h.Bare
  · have e8 : s.code = Code.new := S.code.2 hb
    obtain ⟨i1, i2, i3, i4, i5, i6⟩ := hb
    obtain ⟨-, k2, k3, k4, mm, k5, k6, k7⟩ := key
    have N0 : c8.ntypes = 0 := x8.ntypes.trans i2
    have G0 : c8.nglobals = 0 := x8.nglobals.trans i3
    have A0 : c8.nnatives = 0 := x8.nnatives.trans i4
    have R0 : rs = [] := by
      have h0 : c6.nfunctions = 0 := x6.nfunctions.trans i5
      rw [h0] at e10'
      cases e10'
      rw [← q7, f6]; rfl
    have O0 : otherLooks c8 = 0 := by
      unfold otherLooks
      rw [hF, G0, A0, R0]; rfl
    rw [N0] at k2 k3 k5
    rw [O0] at k2
    simp only [List.take_zero, List.map_nil, List.sum_nil] at k3 k5
    have k3' := List.length_eq_zero_iff.1 k3
    have hm0 : mm = 0 := by omega
    rw [A0, hm0] at k7
    rw [e8]
    refine ⟨fun _ => 0, by intro i t hi; exact absurd hi (Nat.not_lt_zero _), by rw [k2]; rfl, by rw [k3']; rfl, by rw [k3']; simp, 0, by omega, rfl, by rw [k7]; rfl⟩
  · have e8 : s.code = c8 := S.code.1 hb
    rw [e8]
    exact ⟨k, key⟩

end Verif.Brass
