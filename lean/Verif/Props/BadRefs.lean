import Verif.Spec.BadNumbers
import Verif.Props.Report
import Verif.Props.TypeHash
import Verif.Props.Roundtrip

/-!
# Bad references among the globals, in plain words (C87)
-/

namespace Verif.Brass

open Verif Verif.Brass.Spec

theorem countsG_ntypes {v c k a c'} (h : countsG v c k a c') : a.ntypes < 2 ^ 31 := by
  obtain ⟨_, _, _, _, rfl, _, _, _, _, _, rfl, _, _, _, _, _, rfl, _, _, _, _, _, rfl, _, _, _, _, _, rfl, _, _, _, _, _, rfl, ⟨_, h⟩,
    _, _, _, _, rfl, _, _, _, _, _, rfl, _, _, _, _, _, rfl, _, _, _, _, _, rfl, _, _, _, _, _, rfl, _, rfl, rfl, rfl⟩ := h
  exact Vals.idx_lt h

theorem upToTypesG_ntypes {c k a c'} (h : upToTypesG c k a c') : a.ntypes < 2 ^ 31 := by
  obtain ⟨_, _, c1, _, rfl, h1, _, _, c2, _, rfl, h2, h3⟩ := h
  obtain ⟨_, _, rfl⟩ := debugFilesG_value h3
  obtain ⟨_, _, rfl⟩ := bytesSectionG_value h2
  obtain ⟨_, _, c0, _, rfl, ⟨_, _, _, _, rfl, _, _, _, _, _, rfl, _, h4⟩, h5⟩ := h1
  obtain ⟨_, _, _, _, rfl⟩ := poolsG_value h5
  have := countsG_ntypes h4
  exact this

theorem length_insertIdx_of {α : Type} {l : List α} {i n : Nat} {a : α} (h : i ≤ l.length) (h1 : l.length = n) :
    (l.insertIdx i a).length = n + 1 := by
  rw [List.length_insertIdx, if_pos h, h1]

theorem typesG_types_length {d c k a c'} (h : typesG d c k a c') : a.types.length = 2 * d.ntypes ∧ a.ntypes = d.ntypes := by
  have := loop_inv (fun i b => b.types.length = i + d.ntypes ∧ b.ntypes = d.ntypes) ?_ _ _ _ _ _ _ _ ⟨by simp, rfl⟩ h
  · obtain ⟨h1, h2⟩ := this
    exact ⟨by omega, h2⟩
  · rintro i b c k b' c' ⟨h1, h2⟩ ⟨_, _, _, _, rfl, ⟨rfl, rfl⟩, _, _, _, _, rfl, h, _, _, _, _, rfl, ⟨rfl, rfl, rfl⟩, _, _, _, _, rfl, ⟨rfl, hl, rfl⟩, _, _, _, _, rfl, ⟨rfl, rfl⟩, rfl, rfl, rfl⟩
    obtain ⟨u, rfl⟩ := KeepsButCache.typeG _ _ _ _ h
    refine ⟨?_, h2⟩
    exact (length_insertIdx_of hl h1).trans (by omega)

/-- The marked text of a reference to one of `n` types. -/
def typeW (n : Nat) (q : List UInt8 × Int) : Marked :=
  plain q.1 ++ if 0 ≤ q.2 ∧ q.2 < n then [] else [.fault .invalidTypeIndex]

theorem typeRefF_typeW (c : Code) (b : Bool) (q : List UInt8 × Int) (h : IdxBytes q.1 q.2) (h0 : c.ntypes ≠ 0) (h1 : c.ntypes < 2 ^ 31)
    (h2 : c.ntypes ≤ c.types.length) : ∃ t, typeRefF c b (typeW c.ntypes q) t c := by
  obtain ⟨t0, ht0⟩ : ∃ t, c.types[0]? = some t := ⟨_, List.getElem?_eq_getElem (by omega)⟩
  by_cases hn : q.2 < 0
  · have hw : typeW c.ntypes q = plain q.1 ++ [.fault .invalidTypeIndex] := by
      unfold typeW; rw [if_neg (by omega)]
    rw [hw]
    refine ⟨t0, plain q.1, _, q.2, c, rfl, ⟨q.1, rfl, rfl, h⟩, [], _, c, c, rfl, ⟨[], rfl, rfl, rfl, rfl⟩, ?_⟩
    show (if q.2 < 0 then (do F.mark .invalidTypeIndex; F.ok (G.some c.types[0]?)) else _ : F ValueType) c _ _ _ c
    rw [if_pos hn]
    exact ⟨[.fault .invalidTypeIndex], [], (), c, rfl, ⟨rfl, rfl⟩, [], rfl, rfl, ht0, rfl⟩
  · by_cases hb : (c.ntypes : Int) ≤ q.2
    · have hw : typeW c.ntypes q = plain q.1 ++ [.fault .invalidTypeIndex] := by
        unfold typeW; rw [if_neg (by omega)]
      rw [hw]
      refine ⟨t0, plain q.1, _, q.2, c, rfl, ⟨q.1, rfl, rfl, h⟩, [], _, c, c, rfl, ⟨[], rfl, rfl, rfl, rfl⟩, ?_⟩
      show (if q.2 < 0 then _ else (do
        F.ok (G.guard (c.ntypes < 2 ^ 31))
        if (c.ntypes : Int) ≤ q.2 then do
          F.mark .invalidTypeIndex
          F.ok (G.some c.types[0]?)
        else F.ok (G.some c.types[q.2.toNat]?)) : F ValueType) c _ _ _ c
      rw [if_neg hn, if_pos hb]
      exact ⟨[], _, (), c, rfl, ⟨[], rfl, rfl, h1, rfl⟩, [.fault .invalidTypeIndex], [], (), c, rfl, ⟨rfl, rfl⟩, [], rfl, rfl, ht0, rfl⟩
    · have hw : typeW c.ntypes q = plain q.1 ++ [] := by
        unfold typeW; rw [if_pos (by omega)]
      rw [hw]
      obtain ⟨t, ht⟩ : ∃ t, c.types[q.2.toNat]? = some t := ⟨_, List.getElem?_eq_getElem (by omega)⟩
      refine ⟨t, plain q.1, _, q.2, c, rfl, ⟨q.1, rfl, rfl, h⟩, [], _, c, c, rfl, ⟨[], rfl, rfl, rfl, rfl⟩, ?_⟩
      show (if q.2 < 0 then _ else (do
        F.ok (G.guard (c.ntypes < 2 ^ 31))
        if (c.ntypes : Int) ≤ q.2 then do
          F.mark .invalidTypeIndex
          F.ok (G.some c.types[0]?)
        else F.ok (G.some c.types[q.2.toNat]?)) : F ValueType) c _ _ _ c
      rw [if_neg hn, if_neg hb]
      exact ⟨[], [], (), c, rfl, ⟨[], rfl, rfl, h1, rfl⟩, [], rfl, rfl, ht, rfl⟩

theorem globalsF_typeW (n : Nat) (h0 : n ≠ 0) (h1 : n < 2 ^ 31) : ∀ (l : List (List UInt8 × Int)) (a : Nat) (c s : Code) (b : Bool),
    (∀ q ∈ l, IdxBytes q.1 q.2) → c.ntypes = n → n ≤ c.types.length → a ≤ c.globals.length →
    ∃ r s', F.loop globalsStepF a l.length c s b (l.flatMap (typeW n)) r s'
  | [], a, c, s, b, _, _, _, _ => ⟨c, s, rfl, rfl, rfl⟩
  | q :: l, a, c, s, b, h, hc, ht, ha => by
    obtain ⟨t, hq⟩ := typeRefF_typeW c b q (h q (by simp)) (by omega) (by omega) (by omega)
    rw [hc] at hq
    obtain ⟨r, s', hr⟩ := globalsF_typeW n h0 h1 l (a + 1) { c with globals := c.globals.insertIdx a t } { c with globals := c.globals.insertIdx a t }
      (b || faulty (typeW n q)) (fun q hq => h q (List.mem_cons_of_mem _ hq)) hc ht (by
        show a + 1 ≤ (c.globals.insertIdx a t).length
        rw [List.length_insertIdx, if_pos ha]; omega)
    refine ⟨r, s', typeW n q, _, _, { c with globals := c.globals.insertIdx a t }, rfl, ?_, hr⟩
    refine ⟨[], _, (), c, rfl, ⟨[], rfl, rfl, rfl⟩, typeW n q, [], t, c, (List.append_nil _).symm, by simpa [faulty] using hq,
      [], [], (), c, rfl, ⟨[], rfl, rfl, ha, rfl⟩, [], [], (), _, rfl, ⟨[], rfl, rfl, rfl⟩, rfl, rfl, rfl⟩

theorem text_typeW (n : Nat) (q : List UInt8 × Int) : text (typeW n q) = q.1 := by
  unfold typeW
  rw [text_append, text_plain]
  split <;> simp [text]

theorem text_typeWs (n : Nat) (l : List (List UInt8 × Int)) : text (l.flatMap (typeW n)) = l.flatMap (·.1) := by
  induction l with
  | nil => rfl
  | cons q l ih => simp only [List.flatMap_cons, text_append, text_typeW, ih]

theorem faults_typeWs_nil (n : Nat) (l : List (List UInt8 × Int)) (h : ∀ q ∈ l, 0 ≤ q.2 ∧ q.2 < n) : ∀ pos, faults pos (l.flatMap (typeW n)) = [] := by
  induction l with
  | nil => intro pos; rfl
  | cons q l ih =>
    intro pos
    rw [List.flatMap_cons, text_faults_append, ih (fun q hq => h q (List.mem_cons_of_mem _ hq))]
    simp only [typeW, if_pos (h q (by simp)), List.append_nil, faults_plain]

/-- **C87** If a file is right up to the end of its types (of which there is at least one), and the types of some of its globals
are out of range, then it is rejected, and the position is the end of the last such type, whatever comes after the globals. -/
theorem c87_bad_globals (p : Profile) (k1 k2 : List UInt8) (c c' : Code) (h1 : upToTypesG noCode k1 c c')
    (h2 : ∃ d d', typesG c c' k2 d d') (h0 : c.ntypes ≠ 0) (before after : List (List UInt8 × Int)) (k : List UInt8) (i : Int)
    (rest : List UInt8) (hl : (before ++ [(k, i)] ++ after).length = c.nglobals)
    (h : ∀ q ∈ before ++ [(k, i)] ++ after, IdxBytes q.1 q.2) (hi : i < 0 ∨ c.ntypes ≤ i)
    (ha : ∀ q ∈ after, 0 ≤ q.2 ∧ q.2 < c.ntypes) :
    ∃ s, Code.read p none (k1 ++ k2 ++ (before ++ [(k, i)] ++ after).flatMap (·.1) ++ rest) =
      .err ⟨.invalidTypeIndex, (k1 ++ k2 ++ before.flatMap (·.1) ++ k).length⟩ s := by
  rw [c87_rejected_iff]
  obtain ⟨d, d', h2⟩ := h2
  obtain ⟨e1, e2⟩ := typesG_types_length h2
  obtain ⟨u, ts, hd⟩ := typesG_value h2
  have e3 : d.nglobals = c.nglobals := by rw [hd]
  have hn := upToTypesG_ntypes h1
  obtain ⟨r, s', hr⟩ := globalsF_typeW c.ntypes h0 hn (before ++ [(k, i)] ++ after) 0 { d with globals := List.replicate d.nglobals noType } d' false h
    e2 (by show _ ≤ d.types.length; omega) (Nat.zero_le _)
  have hg : globalsF d d' false ((before ++ [(k, i)] ++ after).flatMap (typeW c.ntypes)) r s' := by
    unfold globalsF
    rw [e3, ← hl]
    rw [e3, ← hl] at hr
    exact hr
  have ht : typesF c c' false (plain k2) d d' := by
    have := (unmarked_iff (.ofSim (.readTypes c) (.readTypes c)) (Sem.readTypes c) c' (plain k2) d d').2 ⟨k2, rfl, h2⟩
    exact this.1
  refine .inSection _ _ k1 rest (plain k2 ++ (before ++ [(k, i)] ++ after).flatMap (typeW c.ntypes)) c c' s' r _ .typesAndGlobals h1
    ⟨plain k2, _, d, d', rfl, ht, ?_⟩ ?_ ?_
  · rw [faulty_plain]; exact hg
  · rw [text_append, text_plain, text_typeWs]; simp only [List.append_assoc]
  · have hb : ¬ (0 ≤ i ∧ i < c.ntypes) := by omega
    simp only [List.flatMap_append, text_faults_append, faults_typeWs_nil _ after ha, List.append_nil, List.flatMap_cons, List.flatMap_nil,
      typeW, if_neg hb, faults_plain, List.nil_append, text_plain]
    simp only [faults]
    rw [reported_concat _ _ (by simp)]
    congr 2
    rw [text_typeWs]
    simp only [List.length_append]

/-! ## The natives -/

theorem countsG_nstrings {v c k a c'} (h : countsG v c k a c') : a.nstrings < 2 ^ 31 := by
  obtain ⟨_, _, _, _, rfl, _, _, _, _, _, rfl, _, _, _, _, _, rfl, _, _, _, _, _, rfl, ⟨_, h⟩, _, _, _, _, rfl, _, _, _, _, _, rfl, _,
    _, _, _, _, rfl, _, _, _, _, _, rfl, _, _, _, _, _, rfl, _, _, _, _, _, rfl, _, _, _, _, _, rfl, _, rfl, rfl, rfl⟩ := h
  exact Vals.idx_lt h

theorem upToTypesG_nstrings {c k a c'} (h : upToTypesG c k a c') : a.nstrings < 2 ^ 31 := by
  obtain ⟨_, _, c1, _, rfl, h1, _, _, c2, _, rfl, h2, h3⟩ := h
  obtain ⟨_, _, rfl⟩ := debugFilesG_value h3
  obtain ⟨_, _, rfl⟩ := bytesSectionG_value h2
  obtain ⟨_, _, c0, _, rfl, ⟨_, _, _, _, rfl, _, _, _, _, _, rfl, _, h4⟩, h5⟩ := h1
  obtain ⟨_, _, _, _, rfl⟩ := poolsG_value h5
  have := countsG_nstrings h4
  exact this

theorem loop_refs {g : Nat → Code → G Code} (hg : ∀ i b c k b' c', g i b c k b' c' → c' = b') :
    ∀ (n a : Nat) (b c : Code) k b' c', n ≠ 0 ∨ Refs c = Refs b → G.loop g a n b c k b' c' → Refs c' = Refs b'
  | 0, _, _, _, _, _, _, h, ⟨_, h1, h2⟩ => by subst h1; subst h2; exact h.resolve_left (by simp)
  | n + 1, a, b, c, _, b', c', _, ⟨_, _, b1, c1, _, h1, h2⟩ =>
    loop_refs hg n (a + 1) b1 c1 _ _ _ (Or.inr (by rw [hg _ _ _ _ _ _ h1])) h2

theorem upToNativesG_facts {k : List UInt8} {c c' : Code} (h : upToNativesG noCode k c c') (h0 : c.ntypes ≠ 0) :
    Refs c' = Refs c ∧ c.ntypes < 2 ^ 31 ∧ c.nstrings < 2 ^ 31 ∧ c.ntypes ≤ c.types.length := by
  obtain ⟨_, _, c1, s1, rfl, h1, _, _, c2, s2, rfl, h2, h3⟩ := h
  have n1 := upToTypesG_ntypes h1
  have n2 := upToTypesG_nstrings h1
  obtain ⟨l1, l2⟩ := typesG_types_length h2
  obtain ⟨gs, e⟩ := globalsG_value h3
  obtain ⟨u, ts, e'⟩ := typesG_value h2
  have en : c.ntypes = c2.ntypes := by rw [e]
  have et : c.types = c2.types := by rw [e]
  have es : c.nstrings = c1.nstrings := by rw [e, e']
  have r2 : Refs s2 = Refs c2 := loop_refs (fun _ _ _ _ _ _ h => (typesStepG_value h).1) _ _ _ _ _ _ _ (Or.inl (by omega)) h2
  have r3 : Refs c' = Refs c := by
    refine loop_refs (g := globalsStepG) (fun _ _ _ _ _ _ h => ?_) _ _ { c2 with globals := List.replicate c2.nglobals noType } s2 _ _ _ (Or.inr r2) h3
    obtain ⟨_, _, _, _, rfl, _, _, _, _, _, rfl, _, _, _, _, _, rfl, _, _, _, _, _, rfl, ⟨_, rfl⟩, _, rfl, rfl⟩ := h
    rfl
  exact ⟨r3, by omega, by omega, by rw [et]; omega⟩

/-- The mark of a number of the natives. -/
def nativeMark (c : Code) (j : Nat) (i : Int) : Marked :=
  match nativeFault c j i with
  | none => []
  | some e => [.fault e]

/-- The marked text of the natives. -/
def nativeW (c : Code) : Nat → List (List UInt8 × Int) → Marked
  | _, [] => []
  | j, q :: l => plain q.1 ++ nativeMark c j q.2 ++ nativeW c (j + 1) l

theorem stringRefF_mark (c : Code) (b : Bool) (j : Nat) (q : List UInt8 × Int) (h : IdxBytes q.1 q.2) (hj : j % 4 < 2) (h1 : c.nstrings < 2 ^ 31)
    (h2 : c.nstrings ≤ c.strings.length) (d : Code) (hd : d.nstrings = c.nstrings) : ∃ t, stringRefF c b (plain q.1 ++ nativeMark d j q.2) t c := by
  by_cases hn : q.2 < 0
  · have hw : nativeMark d j q.2 = [.fault .invalidStringIndex] := by
      unfold nativeMark nativeFault; rw [if_pos hj, if_neg (by omega)]
    rw [hw]
    refine ⟨[], plain q.1, _, q.2, c, rfl, ⟨q.1, rfl, rfl, h⟩, [], _, c, c, rfl, ⟨[], rfl, rfl, rfl, rfl⟩, ?_⟩
    show (if q.2 < 0 then (do F.mark .invalidStringIndex; pure []) else _ : F Str) c _ _ _ c
    rw [if_pos hn]
    exact ⟨[.fault .invalidStringIndex], [], (), c, rfl, ⟨rfl, rfl⟩, rfl, rfl, rfl⟩
  · by_cases hb : (c.nstrings : Int) ≤ q.2
    · have hw : nativeMark d j q.2 = [.fault .invalidStringIndex] := by
        unfold nativeMark nativeFault; rw [if_pos hj, if_neg (by omega)]
      rw [hw]
      refine ⟨[], plain q.1, _, q.2, c, rfl, ⟨q.1, rfl, rfl, h⟩, [], _, c, c, rfl, ⟨[], rfl, rfl, rfl, rfl⟩, ?_⟩
      show (if q.2 < 0 then _ else (do
        F.ok (G.guard (c.nstrings < 2 ^ 31))
        if (c.nstrings : Int) ≤ q.2 then do
          F.mark .invalidStringIndex
          pure []
        else F.ok (G.some c.strings[q.2.toNat]?)) : F Str) c _ _ _ c
      rw [if_neg hn, if_pos hb]
      exact ⟨[], _, (), c, rfl, ⟨[], rfl, rfl, h1, rfl⟩, [.fault .invalidStringIndex], [], (), c, rfl, ⟨rfl, rfl⟩, rfl, rfl, rfl⟩
    · have hw : nativeMark d j q.2 = [] := by
        unfold nativeMark nativeFault; rw [if_pos hj, if_pos (by omega)]
      rw [hw]
      obtain ⟨t, ht⟩ : ∃ t, c.strings[q.2.toNat]? = some t := ⟨_, List.getElem?_eq_getElem (by omega)⟩
      refine ⟨t, plain q.1, _, q.2, c, rfl, ⟨q.1, rfl, rfl, h⟩, [], _, c, c, rfl, ⟨[], rfl, rfl, rfl, rfl⟩, ?_⟩
      show (if q.2 < 0 then _ else (do
        F.ok (G.guard (c.nstrings < 2 ^ 31))
        if (c.nstrings : Int) ≤ q.2 then do
          F.mark .invalidStringIndex
          pure []
        else F.ok (G.some c.strings[q.2.toNat]?)) : F Str) c _ _ _ c
      rw [if_neg hn, if_neg hb]
      exact ⟨[], [], (), c, rfl, ⟨[], rfl, rfl, h1, rfl⟩, [], rfl, rfl, ht, rfl⟩

theorem typeRefF_mark (c : Code) (b : Bool) (j : Nat) (q : List UInt8 × Int) (h : IdxBytes q.1 q.2) (hj : j % 4 = 2) (h0 : c.ntypes ≠ 0)
    (h1 : c.ntypes < 2 ^ 31) (h2 : c.ntypes ≤ c.types.length) (d : Code) (hd : d.ntypes = c.ntypes) :
    ∃ t, typeRefF c b (plain q.1 ++ nativeMark d j q.2) t c := by
  have : plain q.1 ++ nativeMark d j q.2 = typeW c.ntypes q := by
    unfold typeW nativeMark nativeFault
    rw [if_neg (by omega), if_pos hj, hd]
    congr 1
    split <;> simp_all
  rw [this]
  exact typeRefF_typeW c b q h h0 h1 h2

theorem natF_mark (c : Code) (b : Bool) (j : Nat) (q : List UInt8 × Int) (h : IdxBytes q.1 q.2) (hj : j % 4 = 3) (d : Code) :
    natF c b (plain q.1 ++ nativeMark d j q.2) q.2.toNat c := by
  have : plain q.1 ++ nativeMark d j q.2 = natW q := by
    unfold natW nativeMark nativeFault
    rw [if_neg (by omega), if_neg (by omega)]
    congr 1
    split <;> simp_all
  rw [this]
  exact natF_natW c b q h

theorem nativesF_nativeW (d : Code) (h0 : d.ntypes ≠ 0) (h1 : d.ntypes < 2 ^ 31) (h2 : d.nstrings < 2 ^ 31) (h3 : d.ntypes ≤ d.types.length)
    (h4 : d.nstrings ≤ d.strings.length) : ∀ (n : Nat) (l : List (List UInt8 × Int)) (a j : Nat) (c s : Code) (b : Bool), l.length = 4 * n → j % 4 = 0 →
    (∀ q ∈ l, IdxBytes q.1 q.2) → Refs c = Refs d → Refs s = Refs d →
    ∃ r s', F.loop nativesStepF a n c s b (nativeW d j l) r s'
  | 0, [], a, j, c, s, b, _, _, _, _, _ => ⟨c, s, rfl, rfl, rfl⟩
  | n + 1, q1 :: q2 :: q3 :: q4 :: l, a, j, c, s, b, hl, hj, h, hc, hs => by
    simp only [Prod.mk.injEq] at hs
    obtain ⟨e1, e2, e3, e4, _⟩ := hs
    obtain ⟨lib, w1⟩ := stringRefF_mark s (b || faulty []) j q1 (h q1 (by simp)) (by omega) (by omega) (by rw [e1, e2]; exact h4) d e1.symm
    obtain ⟨name, w2⟩ := stringRefF_mark s (b || faulty (plain q1.1 ++ nativeMark d j q1.2)) (j + 1) q2 (h q2 (by simp)) (by omega) (by omega)
      (by rw [e1, e2]; exact h4) d e1.symm
    obtain ⟨t, w3⟩ := typeRefF_mark s ((b || faulty (plain q1.1 ++ nativeMark d j q1.2)) || faulty (plain q2.1 ++ nativeMark d (j + 1) q2.2)) (j + 2) q3
      (h q3 (by simp)) (by omega) (by omega) (by omega) (by rw [e3, e4]; exact h3) d e3.symm
    have w4 := natF_mark s (((b || faulty (plain q1.1 ++ nativeMark d j q1.2)) || faulty (plain q2.1 ++ nativeMark d (j + 1) q2.2)) ||
      faulty (plain q3.1 ++ nativeMark d (j + 2) q3.2)) (j + 3) q4 (h q4 (by simp)) (by omega) d
    let c1 : Code := { c with natives := c.natives ++ [{ lib := lib, name := name, t := t, findex := q4.2.toNat }] }
    have hstep : nativesStepF a c s b ((plain q1.1 ++ nativeMark d j q1.2) ++ ((plain q2.1 ++ nativeMark d (j + 1) q2.2) ++
        ((plain q3.1 ++ nativeMark d (j + 2) q3.2) ++ ((plain q4.1 ++ nativeMark d (j + 3) q4.2) ++ [])))) c1 c1 :=
      ⟨_, _, lib, s, rfl, by simpa [faulty] using w1, _, _, name, s, rfl, w2, _, _, t, s, rfl, w3, _, _, _, s, rfl, w4,
        [], [], (), c1, rfl, ⟨[], rfl, rfl, rfl⟩, rfl, rfl, rfl⟩
    obtain ⟨r, s', hr⟩ := nativesF_nativeW d h0 h1 h2 h3 h4 n l (a + 1) (j + 4) c1 c1 (b || faulty ((plain q1.1 ++ nativeMark d j q1.2) ++ ((plain q2.1 ++ nativeMark d (j + 1) q2.2) ++
        ((plain q3.1 ++ nativeMark d (j + 2) q3.2) ++ ((plain q4.1 ++ nativeMark d (j + 3) q4.2) ++ [])))))
      (by simp only [List.length_cons] at hl; omega) (by omega) (fun q hq => h q (by simp [hq])) hc hc
    refine ⟨r, s', _, nativeW d (j + 4) l, c1, c1, ?_, hstep, hr⟩
    simp only [nativeW, List.append_assoc, List.append_nil]
  | 0, _ :: _, _, _, _, _, _, hl, _, _, _, _ => by simp at hl
  | n + 1, [], _, _, _, _, _, hl, _, _, _, _ => by simp at hl
  | n + 1, [_], _, _, _, _, _, hl, _, _, _, _ => by simp at hl; omega
  | n + 1, [_, _], _, _, _, _, _, hl, _, _, _, _ => by simp at hl; omega
  | n + 1, [_, _, _], _, _, _, _, _, hl, _, _, _, _ => by simp at hl; omega

theorem text_nativeMark (c : Code) (j : Nat) (i : Int) : text (nativeMark c j i) = [] := by
  unfold nativeMark
  split <;> rfl

theorem text_nativeW (c : Code) : ∀ (l : List (List UInt8 × Int)) (j : Nat), text (nativeW c j l) = l.flatMap (·.1)
  | [], _ => rfl
  | q :: l, j => by
    simp only [nativeW, text_append, text_plain, text_nativeMark, text_nativeW c l, List.append_nil, List.flatMap_cons]

theorem nativeW_append (c : Code) (l' : List (List UInt8 × Int)) : ∀ (l : List (List UInt8 × Int)) (j : Nat),
    nativeW c j (l ++ l') = nativeW c j l ++ nativeW c (j + l.length) l'
  | [], _ => rfl
  | q :: l, j => by
    simp only [List.cons_append, nativeW, nativeW_append c l' l, List.append_assoc, List.length_cons]
    congr 4
    omega

theorem faults_nativeW_nil (c : Code) : ∀ (l : List (List UInt8 × Int)) (j pos : Nat),
    (∀ n q, l[n]? = some q → nativeFault c (j + n) q.2 = none) → faults pos (nativeW c j l) = []
  | [], _, _, _ => rfl
  | q :: l, j, pos, h => by
    have hq : nativeMark c j q.2 = [] := by
      have := h 0 q rfl
      unfold nativeMark
      rw [Nat.add_zero] at this
      rw [this]
    rw [nativeW, hq, List.append_nil, text_faults_append, faults_plain, List.nil_append]
    refine faults_nativeW_nil c l (j + 1) _ fun n q' hn => ?_
    have := h (n + 1) q' (by simpa using hn)
    rwa [Nat.add_assoc, Nat.add_comm 1 n]

/-- **C87** If a file is right up to its natives, and has at least one type and as many strings as it declares, and some of the
numbers of its natives are out of range, then it is rejected, and the error is that of the last such number, whatever comes after
the natives. -/
theorem c87_bad_natives (p : Profile) (k1 : List UInt8) (c c' : Code) (h1 : upToNativesG noCode k1 c c') (h0 : c.ntypes ≠ 0)
    (hs : c.strings.length = c.nstrings) (before after : List (List UInt8 × Int)) (k : List UInt8) (i : Int) (kind : DecodeErrorKind)
    (rest : List UInt8) (hl : (before ++ [(k, i)] ++ after).length = 4 * c.nnatives)
    (h : ∀ q ∈ before ++ [(k, i)] ++ after, IdxBytes q.1 q.2) (hi : nativeFault c before.length i = some kind)
    (ha : ∀ n q, after[n]? = some q → nativeFault c (before.length + 1 + n) q.2 = none) :
    ∃ s, Code.read p none (k1 ++ (before ++ [(k, i)] ++ after).flatMap (·.1) ++ rest) =
      .err ⟨kind, (k1 ++ before.flatMap (·.1) ++ k).length⟩ s := by
  rw [c87_rejected_iff]
  obtain ⟨r1, n1, n2, n3⟩ := upToNativesG_facts h1 h0
  obtain ⟨r, s', hr⟩ := nativesF_nativeW c h0 n1 n2 n3 (by omega) c.nnatives _ 0 0 { c with natives := [] } c' false hl rfl h rfl r1
  refine .inSection _ _ k1 rest _ c c' s' r _ .natives h1 hr ?_ ?_
  · rw [text_nativeW]
  · have hk : kind ≠ .invalidType := by
      unfold nativeFault at hi
      intro hk
      rw [hk] at hi
      split at hi
      · split at hi <;> simp at hi
      · split at hi
        · split at hi <;> simp at hi
        · split at hi <;> simp at hi
    have hm : nativeMark c before.length i = [.fault kind] := by unfold nativeMark; rw [hi]
    rw [nativeW_append, nativeW_append]
    simp only [Nat.zero_add, text_faults_append, List.length_append, List.length_cons, List.length_nil]
    rw [faults_nativeW_nil c after _ _ ha, List.append_nil]
    simp only [nativeW, hm, List.append_nil, text_faults_append, faults_plain, List.nil_append, text_nativeW, text_plain, faults]
    rw [reported_concat _ _ hk]

/-! ## Modules with a bad reference -/

theorem beforeTypes_enc {m : RModule} (hm : m.Readable) :
    upToTypesG Code.new (beforeTypes m) (RModule.c3 m.asAnswered) (if m.hasDebug then RModule.c3 m.asAnswered else Code.new) := by
  have hv := hm.version
  have hm' := asAnswered_readable hm
  have hh : headerG Code.new ([0x48, 0x4C, 0x42, UInt8.ofNat m.version] ++ m.counts) (RModule.c0 m.asAnswered) Code.new := by
    rw [← counts_asAnswered]
    refine ⟨[0x48, 0x4C, 0x42], [UInt8.ofNat m.version] ++ _, (), Code.new, rfl, ⟨rfl, rfl⟩, [UInt8.ofNat m.version], _, m.version, Code.new, rfl, ?_, counts_enc hm'⟩
    exact ⟨[UInt8.ofNat m.version], [], m.version, _, rfl, ⟨rfl, _, rfl, (ofNat8 (by omega)).symm⟩, [], [], (), _, rfl, ⟨rfl, hv, rfl⟩, rfl, rfl, rfl⟩
  unfold beforeTypes
  refine ⟨_, _, _, _, ?_, ⟨_, _, _, _, rfl, hh, pools_enc hm'⟩, _, _, _, _, rfl, bytes_enc hm', files_enc hm'⟩
  simp only [List.append_assoc]
  rfl

theorem ix_bytes {n : Nat} (h : n < 0x2000) : IdxBytes (ix n) (n : Int) := (ix_natG h Code.new).2

/-- **C87** In particular: take any module that can be read, and replace its globals by as many others, some of which refer to a
type that does not exist.  Its serialisation is rejected, and the position is the end of the last such global. -/
theorem c87_module_bad_global (p : Profile) (m : RModule) (hm : m.Readable) (h0 : m.types ≠ []) (before after : List Nat) (g : Nat)
    (rest : List UInt8) (hl : (before ++ [g] ++ after).length = m.globals.length) (h : ∀ x ∈ before ++ [g] ++ after, x < 0x2000)
    (hg : m.types.length ≤ g) (ha : ∀ x ∈ after, x < m.types.length) :
    ∃ s, Code.read p none ({ m with globals := before ++ [g] ++ after }.encode ++ rest) =
      .err ⟨.invalidTypeIndex, (beforeTypes m ++ m.types.flatMap RType.encode ++ (before ++ [g]).flatMap ix).length⟩ s := by
  obtain ⟨u, s', h4, _⟩ := types_enc hm (if m.hasDebug then RModule.c3 m.asAnswered else Code.new)
  have e1 : (RModule.c3 m.asAnswered).ntypes = m.types.length := asAnswered_types m
  have e2 : (RModule.c3 m.asAnswered).nglobals = m.globals.length := rfl
  have h00 : m.types.length ≠ 0 := fun h => h0 (List.eq_nil_of_length_eq_zero h)
  let f : Nat → List UInt8 × Int := fun g => (ix g, (g : Int))
  have ef : ∀ l : List Nat, (l.map f).flatMap (·.1) = l.flatMap ix := fun l => by
    rw [List.flatMap_map]
  have hmap : before.map f ++ [(ix g, (g : Int))] ++ after.map f = (before ++ [g] ++ after).map f := by simp [f]
  obtain ⟨s, hr⟩ := c87_bad_globals p _ _ _ _ (beforeTypes_enc hm) ⟨_, _, h4⟩ (by rw [e1]; exact h00) (before.map f) (after.map f) (ix g) (g : Int)
    (m.natives.flatMap RNative.encode ++ m.functions.flatMap (RFunction.encode { m with globals := before ++ [g] ++ after }) ++
      (if 4 ≤ m.version then m.constants.flatMap RConstant.encode else []) ++ rest)
    (by rw [hmap, List.length_map, hl, e2])
    (by
      rw [hmap]
      intro q hq
      obtain ⟨x, hx, rfl⟩ := List.mem_map.1 hq
      exact ix_bytes (h x hx))
    (.inr (by rw [e1]; omega))
    (by
      intro q hq
      obtain ⟨x, hx, rfl⟩ := List.mem_map.1 hq
      have := ha x hx
      show 0 ≤ (x : Int) ∧ (x : Int) < _
      rw [e1]; omega)
  refine ⟨s, ?_⟩
  rw [hmap, ef, ef] at hr
  have ec : RModule.counts { m with globals := before ++ [g] ++ after } = m.counts := by
    simp only [RModule.counts, hl]
  have ee : ({ m with globals := before ++ [g] ++ after } : RModule).encode = beforeTypes m ++ m.types.flatMap RType.encode ++
      (before ++ [g] ++ after).flatMap ix ++ (m.natives.flatMap RNative.encode ++
      m.functions.flatMap (RFunction.encode { m with globals := before ++ [g] ++ after }) ++
      (if 4 ≤ m.version then m.constants.flatMap RConstant.encode else [])) := by
    unfold RModule.encode beforeTypes
    rw [ec]
    simp only [List.append_assoc]
  rw [ee]
  simp only [List.append_assoc, List.flatMap_append, List.flatMap_cons, List.flatMap_nil, List.append_nil] at hr ⊢
  exact hr

/-- **C87** In particular: take any module that can be read, and replace its natives by as many others, one of which refers to a
type that does not exist, while nothing is wrong with those after it.  Its serialisation is rejected, and the position is the end
of the reference to the type. -/
theorem c87_module_bad_native (p : Profile) (m : RModule) (hm : m.Readable) (h0 : m.types ≠ []) (before after : List RNative) (n : RNative)
    (rest : List UInt8) (hl : (before ++ [n] ++ after).length = m.natives.length)
    (h : ∀ x ∈ before ++ [n] ++ after, x.lib < 0x2000 ∧ x.name < 0x2000 ∧ x.type < 0x2000 ∧ x.findex < 0x2000)
    (hg : m.types.length ≤ n.type)
    (ha : ∀ x ∈ after, x.lib < m.strings.length ∧ x.name < m.strings.length ∧ x.type < m.types.length) :
    ∃ s, Code.read p none ({ m with natives := before ++ [n] ++ after }.encode ++ rest) =
      .err ⟨.invalidTypeIndex, (beforeTypes m ++ m.types.flatMap RType.encode ++ m.globals.flatMap ix ++
        before.flatMap RNative.encode ++ ix n.lib ++ ix n.name ++ ix n.type).length⟩ s := by
  obtain ⟨u, s4, h4, ⟨slots, hu⟩, _⟩ := types_enc hm (if m.hasDebug then RModule.c3 m.asAnswered else Code.new)
  obtain ⟨s5, h5, _⟩ := globals_enc (asAnswered_readable hm) u slots hu s4
  have e1 : (RModule.c5 m.asAnswered u).ntypes = m.types.length := asAnswered_types m
  have h00 : m.types.length ≠ 0 := fun h => h0 (List.eq_nil_of_length_eq_zero h)
  have hup : upToNativesG noCode (beforeTypes m ++ (m.types.flatMap RType.encode ++ m.globals.flatMap ix)) (RModule.c5 m.asAnswered u) s5 :=
    ⟨_, _, _, _, rfl, beforeTypes_enc hm, _, _, _, _, rfl, h4, h5⟩
  let f : RNative → List (List UInt8 × Int) := fun n =>
    [(ix n.lib, (n.lib : Int)), (ix n.name, (n.name : Int)), (ix n.type, (n.type : Int)), (ix n.findex, (n.findex : Int))]
  have ef : ∀ l : List RNative, (l.flatMap f).flatMap (·.1) = l.flatMap RNative.encode := fun l => by
    rw [List.flatMap_assoc]
    congr 1
    funext n
    simp [f, RNative.encode]
  have el : ∀ l : List RNative, (l.flatMap f).length = 4 * l.length := fun l => by
    induction l with
    | nil => rfl
    | cons a l ih => simp only [List.flatMap_cons, List.length_append, ih, List.length_cons, f, List.length_nil]; omega
  have hmap : (before.flatMap f ++ [(ix n.lib, (n.lib : Int)), (ix n.name, (n.name : Int))]) ++ [(ix n.type, (n.type : Int))] ++
      ((ix n.findex, (n.findex : Int)) :: after.flatMap f) = (before ++ [n] ++ after).flatMap f := by simp [f]
  have key : ∀ (l : List RNative) (j : Nat), j % 4 = 0 →
      (∀ n ∈ l, n.lib < m.strings.length ∧ n.name < m.strings.length ∧ n.type < m.types.length) →
      ∀ i q, (l.flatMap f)[i]? = some q → nativeFault (RModule.c5 m.asAnswered u) (j + i) q.2 = none := by
    intro l
    induction l with
    | nil => intro j _ _ i q hq; simp at hq
    | cons a l ih =>
      intro j hj h i q hq
      obtain ⟨a1, a2, a3⟩ := h a (by simp)
      have e2 : (RModule.c5 m.asAnswered u).nstrings = m.strings.length := rfl
      match i, hq with
      | 0, hq =>
        have hq : some (ix a.lib, (a.lib : Int)) = some q := hq
        cases hq
        unfold nativeFault
        rw [if_pos (by omega), if_pos (by rw [e2]; exact ⟨by omega, by omega⟩)]
      | 1, hq =>
        have hq : some (ix a.name, (a.name : Int)) = some q := hq
        cases hq
        unfold nativeFault
        rw [if_pos (by omega), if_pos (by rw [e2]; exact ⟨by omega, by omega⟩)]
      | 2, hq =>
        have hq : some (ix a.type, (a.type : Int)) = some q := hq
        cases hq
        unfold nativeFault
        rw [if_neg (by omega), if_pos (by omega), if_pos (by rw [e1]; exact ⟨by omega, by omega⟩)]
      | 3, hq =>
        have hq : some (ix a.findex, (a.findex : Int)) = some q := hq
        cases hq
        unfold nativeFault
        rw [if_neg (by omega), if_neg (by omega), if_neg (by omega)]
      | i + 4, hq =>
        have := ih (j + 4) (by omega) (fun n hn => h n (List.mem_cons_of_mem _ hn)) i q hq
        rwa [show j + (i + 4) = j + 4 + i by omega]
  obtain ⟨s, hr⟩ := c87_bad_natives p _ _ _ hup (by rw [e1]; exact h00) (by show (m.strings.map utf8).length = m.strings.length; simp)
    (before.flatMap f ++ [(ix n.lib, (n.lib : Int)), (ix n.name, (n.name : Int))]) ((ix n.findex, (n.findex : Int)) :: after.flatMap f)
    (ix n.type) (n.type : Int) .invalidTypeIndex
    (m.functions.flatMap (RFunction.encode { m with natives := before ++ [n] ++ after }) ++
      (if 4 ≤ m.version then m.constants.flatMap RConstant.encode else []) ++ rest)
    (by rw [hmap, el, hl]; rfl)
    (by
      rw [hmap]
      intro q hq
      obtain ⟨x, hx, hq⟩ := List.mem_flatMap.1 hq
      obtain ⟨b1, b2, b3, b4⟩ := h x hx
      simp only [f, List.mem_cons, List.not_mem_nil, or_false] at hq
      rcases hq with rfl | rfl | rfl | rfl
      · exact ix_bytes b1
      · exact ix_bytes b2
      · exact ix_bytes b3
      · exact ix_bytes b4)
    (by
      have : (before.flatMap f ++ [(ix n.lib, (n.lib : Int)), (ix n.name, (n.name : Int))]).length = 4 * before.length + 2 := by
        rw [List.length_append, el]; rfl
      unfold nativeFault
      rw [this, if_neg (by omega), if_pos (by omega), if_neg (by rw [e1]; omega)])
    (by
      have : (before.flatMap f ++ [(ix n.lib, (n.lib : Int)), (ix n.name, (n.name : Int))]).length = 4 * before.length + 2 := by
        rw [List.length_append, el]; rfl
      rw [this]
      intro i q hq
      match i, hq with
      | 0, hq =>
        have hq : some (ix n.findex, (n.findex : Int)) = some q := hq
        cases hq
        unfold nativeFault
        rw [if_neg (by omega), if_neg (by omega), if_neg (by omega)]
      | i + 1, hq =>
        have := key after (4 * before.length + 4) (by omega) ha i q hq
        rwa [show 4 * before.length + 2 + 1 + (i + 1) = 4 * before.length + 4 + i by omega])
  refine ⟨s, ?_⟩
  have e3 : (before.flatMap f ++ [(ix n.lib, (n.lib : Int)), (ix n.name, (n.name : Int))]).flatMap (·.1) =
      before.flatMap RNative.encode ++ ix n.lib ++ ix n.name := by
    rw [List.flatMap_append, ef]; simp
  rw [hmap, ef, e3] at hr
  have ec : RModule.counts { m with natives := before ++ [n] ++ after } = m.counts := by
    simp only [RModule.counts, hl]
  have ee : ({ m with natives := before ++ [n] ++ after } : RModule).encode = beforeTypes m ++ m.types.flatMap RType.encode ++
      m.globals.flatMap ix ++ (before ++ [n] ++ after).flatMap RNative.encode ++
      (m.functions.flatMap (RFunction.encode { m with natives := before ++ [n] ++ after }) ++
      (if 4 ≤ m.version then m.constants.flatMap RConstant.encode else [])) := by
    unfold RModule.encode beforeTypes
    rw [ec]
    simp only [List.append_assoc]
  rw [ee]
  simp only [List.append_assoc, List.flatMap_append, List.flatMap_cons, List.flatMap_nil, List.append_nil] at hr ⊢
  exact hr

/-! ## Examples -/

-- Both globals of the example refer to types that do not exist: the second one is reported.
example : ∃ s, Code.read .dev none ({ exampleModule with globals := [7, 5] }.encode) = .err ⟨.invalidTypeIndex, 96⟩ s := by
  have h := c87_module_bad_global .dev exampleModule exampleModule_good.toReadable (by decide) [7] [] 5 [] (by decide) (by decide) (by decide) (by decide)
  have e : (beforeTypes exampleModule ++ exampleModule.types.flatMap RType.encode ++ List.flatMap ix ([7] ++ [5])).length = 96 := by decide +kernel
  rw [List.append_nil, e] at h
  exact h

-- The type of the native does not exist; its strings do not exist either, but that is not reported.
example : ∃ s, Code.read .release none ({ exampleModule with natives := [⟨50, 51, 5, 0⟩] }.encode ++ [1, 2, 3]) = .err ⟨.invalidTypeIndex, 99⟩ s := by
  have h := c87_module_bad_native .release exampleModule exampleModule_good.toReadable (by decide) [] [] ⟨50, 51, 5, 0⟩ [1, 2, 3] (by decide) (by decide) (by decide)
    (by simp)
  have e : (beforeTypes exampleModule ++ exampleModule.types.flatMap RType.encode ++ exampleModule.globals.flatMap ix ++
    List.flatMap RNative.encode [] ++ ix 50 ++ ix 51 ++ ix 5).length = 99 := by decide +kernel
  rw [e] at h
  exact h

end Verif.Brass
