import Verif.Brass.Refs
import Verif.Brass.ModuleEnc
import Verif.Props.File
import Verif.Spec.Text

/-!
# String lookups and type references (C35, C36)
-/

namespace Verif.Brass

open Verif Verif.Brass.Spec

/-! ## C35: string lookups -/

/-- What the cache holds after the lookups `seen`, made in order. -/
def CacheRight (c : Code) (seen : List Nat) : Prop :=
  ∀ j, j < c.strings.length → c.ustrings[j]? = some (if j ∈ seen then c.strings[j]? else none)

theorem getUstring_right (c : Code) (seen : List Nat) (i : Nat) (hc : CacheRight c seen) (hi : i < c.strings.length)
    (ho : i ∈ seen ∨ ∀ j ∈ seen, j < i) : ∃ c', getUstring c i = .ret (c.strings[i], c') ∧ c'.strings = c.strings ∧ CacheRight c' (seen ++ [i]) := by
  have h := hc i hi
  have hg : c.strings[i]? = some c.strings[i] := List.getElem?_eq_getElem hi
  by_cases hs : i ∈ seen
  · rw [if_pos hs, hg] at h
    refine ⟨c, by unfold getUstring; rw [h], rfl, ?_⟩
    intro j hj
    rw [hc j hj]
    by_cases hji : j = i
    · subst hji; simp [hs]
    · simp [hji]
  · rw [if_neg hs] at h
    refine ⟨{ c with ustrings := c.ustrings.insertIdx i c.strings[i]? }, by unfold getUstring; rw [h]; simp only [hg], rfl, ?_⟩
    intro j hj
    have hseen : ∀ j ∈ seen, j < i := ho.resolve_left hs
    have hlen : i < c.ustrings.length := by
      rcases Nat.lt_or_ge i c.ustrings.length with h' | h'
      · exact h'
      · rw [List.getElem?_eq_none h'] at h; cases h
    simp only
    rw [List.getElem?_insertIdx]
    by_cases h1 : j < i
    · rw [if_pos h1, hc j hj]
      have : j ≠ i := by omega
      simp [this]
    · rw [if_neg h1]
      by_cases h2 : j = i
      · subst h2
        rw [if_pos rfl, if_pos (by omega)]; simp
      · rw [if_neg h2, hc (j - 1) (by simp only at hj; omega)]
        have a1 : j - 1 ∉ seen := fun hm => by have := hseen _ hm; omega
        have a2 : j ∉ seen := fun hm => by have := hseen _ hm; omega
        simp [a1, a2, h2]

theorem lookups_right : ∀ (l : List Nat) (c : Code) (seen : List Nat), CacheRight c seen → (∀ i ∈ l, i < c.strings.length) → InOrder seen l →
    ∃ c', lookups c l = .ret (l.map fun i => c.strings[i]?.getD [], c')
  | [], c, _, _, _, _ => ⟨c, rfl⟩
  | i :: l, c, seen, hc, hi, ho => by
    have hi0 := hi i (by simp)
    obtain ⟨c1, e1, e2, e3⟩ := getUstring_right c seen i hc hi0 ho.1
    obtain ⟨c2, e4⟩ := lookups_right l c1 _ e3 (fun j hj => by rw [e2]; exact hi j (by simp [hj])) ho.2
    refine ⟨c2, ?_⟩
    unfold lookups
    rw [e1]
    simp only [e4, e2, List.map_cons, List.getElem?_eq_getElem hi0, Option.getD_some]

/-- **C35** In a sequence of lookups in which each index was looked up before or is beyond all the earlier ones, every
lookup returns its string. -/
theorem c35_ordered_lookups (c : Code) (hf : c.Fresh) (hn : c.strings.length ≤ c.nstrings) (l : List Nat) (hl : ∀ i ∈ l, i < c.strings.length)
    (ho : InOrder [] l) : ∃ c', lookups c l = .ret (l.map fun i => c.strings[i]?.getD [], c') := by
  refine lookups_right l c [] ?_ hl ho
  intro j hj
  rw [hf, List.getElem?_replicate, if_pos (by omega)]
  rfl

/-- The cache is long enough and its slot `j` is empty or holds a string at or before `j`. -/
def CacheSafe (c : Code) (n : Nat) : Prop :=
  n ≤ c.ustrings.length ∧ ∀ (j : Nat) (s : Str), c.ustrings[j]? = some (some s) → ∃ i : Nat, i ≤ j ∧ c.strings[i]? = some s

theorem getUstring_safe (c : Code) (n i : Nat) (hc : CacheSafe c n) (hi : i < n) :
    ∃ s c', getUstring c i = .ret (s, c') ∧ c'.strings = c.strings ∧ CacheSafe c' n ∧ ∃ j : Nat, j ≤ i ∧ s = c.strings[j]?.getD [] := by
  obtain ⟨h1, h2⟩ := hc
  have hlt : i < c.ustrings.length := by omega
  have hg : c.ustrings[i]? = some c.ustrings[i] := List.getElem?_eq_getElem hlt
  cases hu : c.ustrings[i] with
  | some s =>
    rw [hu] at hg
    obtain ⟨j, hj, hs⟩ := h2 i s hg
    exact ⟨s, c, by unfold getUstring; rw [hg], rfl, ⟨h1, h2⟩, j, hj, by rw [hs]; rfl⟩
  | none =>
    rw [hu] at hg
    refine ⟨c.strings[i]?.getD [], { c with ustrings := c.ustrings.insertIdx i c.strings[i]? }, ?_, rfl, ⟨?_, ?_⟩, i, Nat.le_refl _, rfl⟩
    · unfold getUstring; rw [hg]; cases c.strings[i]? <;> rfl
    · simp only [List.length_insertIdx]; split <;> omega
    · intro j s hs
      simp only at hs ⊢
      rw [List.getElem?_insertIdx] at hs
      by_cases h3 : j < i
      · rw [if_pos h3] at hs; exact h2 j s hs
      · rw [if_neg h3] at hs
        by_cases h4 : j = i
        · subst h4
          rw [if_pos rfl, if_pos (by omega)] at hs
          exact ⟨j, Nat.le_refl _, by simpa using hs⟩
        · rw [if_neg h4] at hs
          obtain ⟨i', h5, h6⟩ := h2 _ _ hs
          exact ⟨i', by omega, h6⟩

theorem lookups_safe : ∀ (l : List Nat) (c : Code) (n : Nat), CacheSafe c n → (∀ i ∈ l, i < n) →
    ∃ r c', lookups c l = .ret (r, c') ∧ r.length = l.length ∧ ∀ (q i : Nat) (s : Str), l[q]? = some i → r[q]? = some s → ∃ j : Nat, j ≤ i ∧ s = c.strings[j]?.getD []
  | [], c, _, _, _ => ⟨[], c, rfl, rfl, by simp⟩
  | i :: l, c, n, hc, hi => by
    obtain ⟨s, c1, e1, e2, e3, e4⟩ := getUstring_safe c n i hc (hi i (by simp))
    obtain ⟨r, c2, e5, e6, e7⟩ := lookups_safe l c1 n e3 (fun j hj => hi j (by simp [hj]))
    refine ⟨s :: r, c2, by unfold lookups; rw [e1]; simp only [e5], by simp [e6], ?_⟩
    intro q i' s' hq hs
    cases q with
    | zero => simp at hq hs; subst hq hs; exact e4
    | succ q => rw [← e2]; exact e7 q i' s' (by simpa using hq) (by simpa using hs)

/-- **C35** A sequence of lookups in range never panics, and each lookup of `i` returns one of the strings `0..=i`. -/
theorem c35_lookups_bounded (c : Code) (hf : c.Fresh) (l : List Nat) (hl : ∀ i ∈ l, i < c.nstrings) :
    ∃ r c', lookups c l = .ret (r, c') ∧ r.length = l.length ∧
      ∀ (q i : Nat) (s : Str), l[q]? = some i → r[q]? = some s → ∃ j : Nat, j ≤ i ∧ s = c.strings[j]?.getD [] := by
  refine lookups_safe l c c.nstrings ⟨by rw [hf]; simp, ?_⟩ hl
  intro j s h
  rw [hf, List.getElem?_replicate] at h
  split at h <;> simp at h

/-- **C35** Out of order lookups return wrong strings: after looking up `k` and then a smaller `i`, looking up `k + 1`
returns string `k`. -/
theorem c35_out_of_order (c : Code) (hf : c.Fresh) (hn : c.strings.length = c.nstrings) (i k : Nat) (hi : i < k) (hk : k + 1 < c.nstrings) :
    ∃ c', lookups c [k, i, k + 1] = .ret ([c.strings[k]?.getD [], c.strings[i]?.getD [], c.strings[k]?.getD []], c') := by
  have g : ∀ j, j < c.nstrings → c.strings[j]? = some (c.strings[j]?.getD []) := by
    intro j hj
    rw [List.getElem?_eq_getElem (by omega)]; rfl
  generalize hsk : c.strings[k]?.getD [] = sk
  generalize hsi : c.strings[i]?.getD [] = si
  have gk := g k (by omega); rw [hsk] at gk
  have gi := g i (by omega); rw [hsi] at gi
  have u0 : ∀ j, j < c.nstrings → c.ustrings[j]? = some none := by
    intro j hj; rw [hf, List.getElem?_replicate, if_pos hj]
  have hlen : c.ustrings.length = c.nstrings := by rw [hf]; simp
  have e1 : getUstring c k = .ret (sk, { c with ustrings := c.ustrings.insertIdx k (some sk) }) := by
    unfold getUstring; rw [u0 k (by omega)]; simp only [gk]
  have u1 : (c.ustrings.insertIdx k (some sk))[i]? = some none := by
    rw [List.getElem?_insertIdx, if_pos hi]; exact u0 i (by omega)
  have e2 : getUstring { c with ustrings := c.ustrings.insertIdx k (some sk) } i =
      .ret (si, { c with ustrings := (c.ustrings.insertIdx k (some sk)).insertIdx i (some si) }) := by
    unfold getUstring; simp only [u1, gi]
  have u2 : ((c.ustrings.insertIdx k (some sk)).insertIdx i (some si))[k + 1]? = some (some sk) := by
    rw [List.getElem?_insertIdx, if_neg (by omega), if_neg (by omega), List.getElem?_insertIdx]
    simp
    omega
  have e3 : getUstring { c with ustrings := (c.ustrings.insertIdx k (some sk)).insertIdx i (some si) } (k + 1) =
      .ret (sk, { c with ustrings := (c.ustrings.insertIdx k (some sk)).insertIdx i (some si) }) := by
    unfold getUstring; simp only [u2]
  refine ⟨{ c with ustrings := (c.ustrings.insertIdx k (some sk)).insertIdx i (some si) }, ?_⟩
  simp only [lookups, e1, e2, e3]

/-- The cache `u` of the strings `ss` holds what `slots` says. -/
def CacheIs (ss : List Str) (u : List (Option Str)) (slots : Nat → Option Nat) : Prop :=
  ∀ j, j < u.length → u[j]? = some ((slots j).bind (ss[·]?)) ∧ ∀ x, slots j = some x → x < ss.length

theorem lookups_exact : ∀ (l : List Nat) (c : Code) (slots : Nat → Option Nat), CacheIs c.strings c.ustrings slots →
    (∀ i ∈ l, i < c.ustrings.length) →
    ∃ c', lookups c l = .ret ((answered c.strings.length slots l).map fun x => c.strings[x]?.getD [], c')
  | [], c, _, _, _ => ⟨c, rfl⟩
  | i :: l, c, slots, hc, hi => by
    have hi0 := hi i (by simp)
    obtain ⟨h1, h2⟩ := hc i hi0
    unfold lookups answered
    cases hs : slots i with
    | some x =>
      have hx := h2 x hs
      rw [hs, Option.bind_some, List.getElem?_eq_getElem hx] at h1
      obtain ⟨c', e⟩ := lookups_exact l c slots hc (fun j hj => hi j (by simp [hj]))
      refine ⟨c', ?_⟩
      rw [show getUstring c i = .ret (c.strings[x], c) by unfold getUstring; rw [h1]]
      simp only [e, List.map_cons, List.getElem?_eq_getElem hx, Option.getD_some]
    | none =>
      rw [hs, Option.bind_none] at h1
      have e1 : getUstring c i = .ret (c.strings[i]?.getD [], { c with ustrings := c.ustrings.insertIdx i c.strings[i]? }) := by
        unfold getUstring; rw [h1]; cases c.strings[i]? <;> rfl
      have main := lookups_exact l { c with ustrings := c.ustrings.insertIdx i c.strings[i]? }
        (putIn slots i (if i < c.strings.length then some i else none)) ?_ ?_
      · obtain ⟨c', e⟩ := main
        refine ⟨c', ?_⟩
        rw [e1]
        simp only [e, List.map_cons]
      · intro j hj
        simp only [List.length_insertIdx, if_pos (Nat.le_of_lt hi0)] at hj
        simp only [List.getElem?_insertIdx, putIn]
        by_cases a1 : j < i
        · rw [if_pos a1, if_pos a1]; exact hc j (by omega)
        · rw [if_neg a1, if_neg a1]
          by_cases a2 : j = i
          · subst a2
            rw [if_pos rfl, if_pos rfl, if_pos (Nat.le_of_lt hi0)]
            by_cases a3 : j < c.strings.length
            · rw [if_pos a3]
              exact ⟨rfl, fun x hx => by cases hx; exact a3⟩
            · rw [if_neg a3, List.getElem?_eq_none (by omega)]
              exact ⟨rfl, fun x hx => by cases hx⟩
          · rw [if_neg a2, if_neg a2]
            exact hc (j - 1) (by omega)
      · intro j hj
        have := hi j (by simp [hj])
        simp only [List.length_insertIdx]
        split <;> omega

/-- **C35** What any sequence of lookups returns: each lookup of `i` returns what has come to lie in slot `i`, and fills it
if it is empty, which moves everything after it on by one. -/
theorem c35_lookups_exact (c : Code) (hf : c.Fresh) (l : List Nat) (hl : ∀ i ∈ l, i < c.nstrings) :
    ∃ c', lookups c l = .ret ((answered c.strings.length (fun _ => none) l).map fun x => c.strings[x]?.getD [], c') := by
  refine lookups_exact l c _ ?_ ?_
  · intro j hj
    rw [hf, List.length_replicate] at hj
    rw [hf, List.getElem?_replicate, if_pos hj]
    exact ⟨rfl, fun x hx => by cases hx⟩
  · intro i hi
    rw [hf, List.length_replicate]; exact hl i hi

/-- **C35** If no two strings are equal, all lookups return their strings exactly if each slot that is looked up is empty or
holds its own index. -/
theorem c35_all_right_iff (c : Code) (hf : c.Fresh) (hn : c.strings.length = c.nstrings) (hd : c.strings.Nodup) (l : List Nat)
    (hl : ∀ i ∈ l, i < c.nstrings) :
    (∃ c', lookups c l = .ret (l.map fun i => c.strings[i]?.getD [], c')) ↔ answered c.nstrings (fun _ => none) l = l := by
  obtain ⟨c', e⟩ := c35_lookups_exact c hf l hl
  rw [hn] at e
  constructor
  · rintro ⟨c2, e2⟩
    rw [e] at e2
    have e3 := (Prod.mk.inj (Rust.ret.inj e2)).1
    have hb : ∀ x ∈ answered c.nstrings (fun _ => none) l, x < c.nstrings :=
      answered_lt l _ _ (fun _ _ h => by cases h) hl
    generalize answered c.nstrings (fun _ => none) l = a at e3 hb
    clear e e2 hf c2 c'
    induction l generalizing a with
    | nil => simpa using e3
    | cons i l ih =>
      cases a with
      | nil => simp at e3
      | cons x a =>
        simp only [List.map_cons, List.cons.injEq] at e3
        have h1 := hl i (by simp)
        have h2 := hb x (by simp)
        rw [ih (fun j hj => hl j (by simp [hj])) a e3.2 (fun j hj => hb j (by simp [hj]))]
        congr 1
        have := e3.1
        rw [List.getElem?_eq_getElem (by omega), List.getElem?_eq_getElem (by omega)] at this
        simp only [Option.getD_some] at this
        rcases Nat.lt_trichotomy x i with h3 | h3 | h3
        · exact absurd this (List.pairwise_iff_getElem.1 hd x i (by omega) (by omega) h3)
        · exact h3
        · exact absurd this.symm (List.pairwise_iff_getElem.1 hd i x (by omega) (by omega) h3)
  · intro h
    rw [h] at e
    exact ⟨c', e⟩

/-- Out of order, and still right; out of order, and wrong from the third lookup on. -/
example : answered 4 (fun _ => none) [2, 1, 2, 1] = [2, 1, 2, 1] ∧ ¬ InOrder [] [2, 1, 2, 1] ∧
    answered 4 (fun _ => none) [2, 1, 3, 0, 3] = [2, 1, 2, 0, 3] := by decide

/-- A fresh cache over four strings, with lookups in order, and lookups out of order. -/
example : ({ Code.new with nstrings := 4, strings := [[97], [98], [99], [100]], ustrings := [none, none, none, none] } : Code).Fresh ∧
    InOrder [] [0, 2, 0, 3, 2] ∧ ¬ InOrder [] [2, 1, 3] := by
  refine ⟨rfl, by decide, by decide⟩

/-- **C35** The mix-up reaches decoded files: in this file an object named by string 1 has fields named by strings 0 and 2,
and the name of the second field comes out as string 1. -/
theorem c35_wrong_field_name : ∃ c s, Code.read .release none
    [0x48, 0x4C, 0x42, 2, 0, 0, 0, 3, 2, 0, 0, 0, 0, 6, 0, 0, 0, 97, 0, 98, 0, 99, 0, 1, 1, 1, 3, 11, 1, 0xA0, 1, 0, 2, 0, 0, 0, 0, 2, 0] = .ok c s ∧
    c.strings = [[97], [98], [99]] ∧ c.types[1]?.map objNames = some (some ([98], [[97], [98]])) := by
  have h : checkOk (Code.read .release none
    [0x48, 0x4C, 0x42, 2, 0, 0, 0, 3, 2, 0, 0, 0, 0, 6, 0, 0, 0, 97, 0, 98, 0, 99, 0, 1, 1, 1, 3, 11, 1, 0xA0, 1, 0, 2, 0, 0, 0, 0, 2, 0])
    (fun c => decide (c.strings = [[97], [98], [99]] ∧ c.types[1]?.map objNames = some (some ([98], [[97], [98]])))) = true := by decide +kernel
  obtain ⟨c, s, h1, h2⟩ := checkOk_iff h
  exact ⟨c, s, h1, of_decide_eq_true h2⟩

/-! ## C36: type references -/

/-- **C36** `get_type` resolves the reference `j` to the `j`-th type decoded so far. -/
theorem c36_get_type (c : Code) (hn : c.ntypes < 2 ^ 31) (j : Nat) (t : ValueType) (hj : j < c.ntypes) (ht : c.types[j]? = some t)
    (k : List UInt8) (hk : IdxBytes k j) (rest : List UInt8) (pos : Nat) :
    getType ⟨k ++ rest, pos, c, none⟩ = .ok t ⟨rest, pos + k.length, c, none⟩ :=
  Sem.getType.complete c k t c trivial ⟨rfl, hn, j, hk, hj, ht⟩ rest pos

theorem natives_refs {N : Nat} {T : List ValueType} : ∀ (n a : Nat) (b c : Code) (k : List UInt8) (b' c' : Code),
    (b.ntypes = N ∧ b.types = T) → (c.ntypes = 0 ∨ c.ntypes = N ∧ c.types = T) → (∀ x ∈ b.natives, InT.Declared N T x.t) →
    G.loop nativesStepG a n b c k b' c' → ∀ x ∈ b'.natives, InT.Declared N T x.t
  | 0, _, b, c, k, b', c', _, _, h, ⟨_, e, _⟩ => by subst e; exact h
  | n + 1, a, b, c, k, b', c', hb, hc, h, ⟨k1, k2, b1, c1, hk, h1, h2⟩ => by
    obtain ⟨ka, kb, x, c2, _, hx, _, _, _, _, _, ⟨_, hs⟩, _, rfl, rfl⟩ := h1
    have hx' : InT.Declared N T x.t := by
      rcases hc with hc | hc
      · exfalso
        obtain ⟨_, _, _, _, _, h3, _, _, _, _, _, h4, _, _, _, _, _, ⟨_, _, _, _, h5, _⟩, _⟩ := hx
        obtain ⟨rfl, _⟩ := KeepsOn.stringRefG _ _ _ _ h3
        obtain ⟨rfl, _⟩ := KeepsOn.stringRefG _ _ _ _ h4
        omega
      · exact (InT.native _ _ _ _ hc hx).2
    refine natives_refs n (a + 1) { b with natives := b.natives ++ [x] } c1 k2 b' c' hb (Or.inr ?_) ?_ h2
    · rw [hs]; exact hb
    · intro y hy
      rcases List.mem_append.1 hy with hy | hy
      · exact h y hy
      · rw [List.mem_singleton.1 hy]; exact hx'

theorem functions_refs {p : Profile} {N : Nat} {T : List ValueType} : ∀ (n a : Nat) (b c : Code) (k : List UInt8) (b' c' : Code),
    (b.ntypes = N ∧ b.types = T) → (∀ f ∈ b.functions, InT.Declared N T f.t ∧ ∀ r ∈ f.regs, InT.Declared N T r) →
    G.loop (functionsStepG p) a n b c k b' c' → ∀ f ∈ b'.functions, InT.Declared N T f.t ∧ ∀ r ∈ f.regs, InT.Declared N T r
  | 0, _, b, c, k, b', c', _, h, ⟨_, e, _⟩ => by subst e; exact h
  | n + 1, a, b, c, k, b', c', hb, h, ⟨k1, k2, b1, c1, hk, h1, h2⟩ => by
    obtain ⟨_, _, _, c2, _, ⟨_, hs⟩, ka, kb, f, c3, _, hf, _, _, _, _, _, _, _, rfl, rfl⟩ := h1
    subst hs
    have hf' := (InT.functionWithDebug p _ _ _ _ _ hb hf).2
    refine functions_refs n (a + 1) _ c1 k2 b' c' ?_ ?_ h2
    · exact hb
    · intro y hy
      rcases List.mem_append.1 hy with hy | hy
      · exact h y hy
      · rw [List.mem_singleton.1 hy]; exact hf'

theorem globals_refs {N M : Nat} {T : List ValueType} : ∀ (n a : Nat) (b c : Code) (k : List UInt8) (b' c' : Code) (G : List ValueType),
    (b.ntypes = N ∧ b.types = T) → b.globals = G ++ List.replicate M noType → G.length = a → (∀ x ∈ G, InT.Declared N T x) →
    Spec.G.loop globalsStepG a n b c k b' c' →
    ∃ G', b'.globals = G' ++ List.replicate M noType ∧ G'.length = a + n ∧ ∀ x ∈ G', InT.Declared N T x
  | 0, a, b, c, k, b', c', G, _, hg, hl, h, ⟨_, e, _⟩ => by subst e; exact ⟨G, hg, by omega, h⟩
  | n + 1, a, b, c, k, b', c', G, hb, hg, hl, h, ⟨k1, k2, b1, c1, hk, h1, h2⟩ => by
    obtain ⟨_, _, _, c2, _, ⟨_, hs⟩, ka, kb, t, c3, _, ht, _, _, _, _, _, _, _, _, _, _, _, _, _, rfl, rfl⟩ := h1
    subst hs
    have ht' := (InT.typeRef _ _ _ _ hb ht).2
    have := globals_refs (N := N) (T := T) (M := M) n (a + 1) _ c1 k2 b' c' (G ++ [t]) ?_ ?_ ?_ ?_ h2
    · rwa [Nat.add_assoc, Nat.add_comm 1 n] at this
    · exact hb
    · simp only [hg, ← hl, insertIdx_append_length]
    · simp [hl]
    · intro y hy
      rcases List.mem_append.1 hy with hy | hy
      · exact h y hy
      · rw [List.mem_singleton.1 hy]; exact ht'

namespace Sections

variable {p : Profile} {k : List UInt8} {c : Code} (S : Sections p k c)

/-- The types that the decoder knows when it reads the natives. -/
theorem known5 : S.d5.ntypes = 0 ∨ S.d5.ntypes = S.c5.ntypes ∧ S.d5.types = S.c5.types := by
  have l4 := loop_code (fun _ _ _ _ _ _ h => (typesStepG_value h).1) _ _ _ _ _ _ _ S.types
  have l5 := loop_code (fun _ _ _ _ _ _ h => globalsStepG_code h) _ _ _ _ _ _ _ S.globals
  obtain ⟨_, e5⟩ := S.val5
  rcases l5 with ⟨z5, _, h5⟩ | ⟨_, h5⟩
  case inr => rw [h5]; exact Or.inr ⟨rfl, rfl⟩
  rw [h5, congrArg Code.ntypes e5, congrArg Code.types e5]
  rcases l4 with ⟨z4, _, h4⟩ | ⟨_, h4⟩
  case inr => rw [h4]; exact Or.inr ⟨rfl, rfl⟩
  left
  rw [h4]
  have h3 := S.debugFiles
  have s3 := S.same3.1.ntypes
  have s2 := S.same2.1.ntypes
  unfold debugFilesG at h3
  split at h3
  · obtain ⟨_, _, _, _, _, _, _, _, _, _, _, _, _, _, _, _, _, ⟨_, h⟩, _, h', h''⟩ := h3
    rw [h'', h, ← h']; exact z4
  · rw [h3.2.2]; rfl

end Sections

/-- What the types of a file with `N` declared types refer to: earlier types, or the default type. -/
theorem accepted_types {p : Profile} {e : Option DecodeError} {buf : List UInt8} {c : Code} {s : St} (h : Code.read p e buf = .ok c s) :
    (∃ T, T.length = c.ntypes ∧ c.types = T ++ List.replicate c.ntypes noType ∧
      ∀ (i : Nat) t, T[i]? = some t → ∃ k d d', typeG d k t d' ∧ d.ntypes = c.ntypes ∧ d.strings = c.strings ∧
        d.types = T.take i ++ List.replicate c.ntypes noType) ∧
    (∃ G, G.length = c.nglobals ∧ c.globals = G ++ List.replicate c.nglobals noType ∧ ∀ g ∈ G, c.IsType g) ∧
    (∀ n ∈ c.natives, c.IsType n.t) ∧ (∀ f ∈ c.functions, c.IsType f.t ∧ ∀ r ∈ f.regs, c.IsType r) := by
  obtain ⟨hd, kh, rest, rfl, hh⟩ := c44_has_header p e buf c s h
  obtain ⟨k, S, rfl, _, _⟩ := sections_of_read h hh
  by_cases hb : S.h.Bare
  · rw [S.code.2 hb]; exact ⟨⟨[], rfl, rfl, by simp⟩, ⟨[], rfl, rfl, by simp⟩, by simp [Code.new], by simp [Code.new]⟩
  have ec := S.code.1 hb
  obtain ⟨_, _, e4⟩ := S.val4
  obtain ⟨_, e5⟩ := S.val5
  obtain ⟨_, e6⟩ := S.val6
  obtain ⟨_, e7⟩ := S.val7
  obtain ⟨_, e8⟩ := S.val8
  have t5 : S.c5.types = S.c4.types := by rw [congrArg Code.types e5]
  have t6 : S.c6.types = S.c5.types := by rw [congrArg Code.types e6]
  have t7 : S.c7.types = S.c6.types := by rw [congrArg Code.types e7]
  have t8 : c.types = S.c7.types := by rw [congrArg Code.types ec, congrArg Code.types e8]
  have n4 : S.c4.ntypes = S.c3.ntypes := by rw [congrArg Code.ntypes e4]
  have n5 : S.c5.ntypes = S.c4.ntypes := by rw [congrArg Code.ntypes e5]
  have n6 : S.c6.ntypes = S.c5.ntypes := by rw [congrArg Code.ntypes e6]
  have n7 : S.c7.ntypes = S.c6.ntypes := by rw [congrArg Code.ntypes e7]
  have n8 : c.ntypes = S.c7.ntypes := by rw [congrArg Code.ntypes ec, congrArg Code.ntypes e8]
  have s8 : c.strings = S.c3.strings := by
    rw [congrArg Code.strings ec, congrArg Code.strings e8, congrArg Code.strings e7, congrArg Code.strings e6, congrArg Code.strings e5,
      congrArg Code.strings e4]
  have g8 : c.globals = S.c5.globals := by
    rw [congrArg Code.globals ec, congrArg Code.globals e8, congrArg Code.globals e7, congrArg Code.globals e6]
  have ng8 : c.nglobals = S.c4.nglobals := by
    rw [congrArg Code.nglobals ec, congrArg Code.nglobals e8, congrArg Code.nglobals e7, congrArg Code.nglobals e6, congrArg Code.nglobals e5]
  have na8 : c.natives = S.c6.natives := by
    rw [congrArg Code.natives ec, congrArg Code.natives e8, congrArg Code.natives e7]
  have f8 : c.functions = S.c7.functions := by rw [congrArg Code.functions ec, congrArg Code.functions e8]
  have toIs : ∀ t, InT.Declared S.c4.ntypes S.c4.types t → c.IsType t := by
    rintro t ⟨j, h1, h2⟩
    exact ⟨j, by rw [n8, n7, n6, n5]; exact h1, by rw [t8, t7, t6, t5]; exact h2⟩
  refine ⟨?_, ?_, ?_, ?_⟩
  · obtain ⟨T, h1, h2, h3⟩ := types_context S.c3.ntypes _ 0 _ _ _ _ _ [] (by simp) rfl S.types
    have hn : c.ntypes = S.c3.ntypes := by rw [n8, n7, n6, n5, n4]
    rw [hn]
    refine ⟨T, by simpa using h2, by rw [t8, t7, t6, t5, h1]; simp, ?_⟩
    intro i t hi
    obtain ⟨_, k2, _, d, d', _, ⟨u, rfl⟩, h4⟩ := h3 i t hi
    exact ⟨k2, _, d', h4, rfl, s8.symm, by simp⟩
  · obtain ⟨G, h1, h2, h3⟩ := globals_refs (N := S.c4.ntypes) (T := S.c4.types) (M := S.c4.nglobals) S.c4.nglobals 0
      { S.c4 with globals := List.replicate S.c4.nglobals noType } S.d4 S.k5 S.c5 S.d5 [] ⟨rfl, rfl⟩ (by simp) rfl (by simp) S.globals
    rw [g8, ng8]
    exact ⟨G, by simpa using h2, h1, fun g hg => toIs g (h3 g hg)⟩
  · intro n hn
    rw [na8] at hn
    refine toIs _ (natives_refs (N := S.c4.ntypes) (T := S.c4.types) S.c5.nnatives 0 { S.c5 with natives := [] }
      S.d5 S.k6 S.c6 S.d6 ?_ ?_ (by simp) S.natives n hn)
    · exact ⟨n5, t5⟩
    · rw [← n5, ← t5]; exact S.known5
  · intro f hf
    rw [f8] at hf
    have := functions_refs (N := S.c4.ntypes) (T := S.c4.types) _ 0 _ _ _ _ _ ⟨n6.trans n5, t6.trans t5⟩ (by rw [S.same6.2.1]; simp) S.functions f hf
    exact ⟨toIs _ this.1, fun r hr => toIs _ (this.2 r hr)⟩

/-- **C36** In an accepted file, each global, the type of each native and function, and the type of each register, is one of
the declared types. -/
theorem c36_uses_resolve (p : Profile) (e : Option DecodeError) (buf : List UInt8) (c : Code) (s : St) (h : Code.read p e buf = .ok c s) :
    (∀ (i : Nat) g, i < c.nglobals → c.globals[i]? = some g → c.IsType g) ∧ (∀ n ∈ c.natives, c.IsType n.t) ∧
    (∀ f ∈ c.functions, c.IsType f.t ∧ ∀ r ∈ f.regs, c.IsType r) := by
  obtain ⟨_, ⟨G, h1, h2, h3⟩, h4, h5⟩ := accepted_types h
  refine ⟨?_, h4, h5⟩
  intro i g hi hg
  rw [h2, List.getElem?_append_left (by omega)] at hg
  exact h3 g (List.mem_of_getElem? hg)

/-- **C36** In an accepted file, every type referred to by the type `i` is one of the types `0..i`, or the default type: a
reference to a later type (or to the type itself) is lost. -/
theorem c36_types_refer_back (p : Profile) (e : Option DecodeError) (buf : List UInt8) (c : Code) (s : St) (h : Code.read p e buf = .ok c s)
    (i : Nat) (hi : i < c.ntypes) (t : ValueType) (ht : c.types[i]? = some t) (r : ValueType) (hr : r ∈ t.refs) :
    r = noType ∨ ∃ j : Nat, j < i ∧ c.types[j]? = some r := by
  obtain ⟨⟨T, h1, h2, h3⟩, _⟩ := accepted_types h
  rw [h2, List.getElem?_append_left (by omega)] at ht
  obtain ⟨k, d, d', h4, h5, _, h6⟩ := h3 i t ht
  rcases (InT.typ _ _ _ _ ⟨h5, h6⟩ h4).2 r hr with h7 | h7
  · rcases List.mem_append.1 h7 with h8 | h8
    · obtain ⟨j, hj, hj'⟩ := List.mem_take_iff_getElem.1 h8
      refine Or.inr ⟨j, by omega, ?_⟩
      rw [h2, List.getElem?_append_left (by omega), List.getElem?_eq_getElem (by omega), hj']
    · exact Or.inl (List.eq_of_mem_replicate h8)
  · exact Or.inl h7

/-! ### References of serialised modules -/

theorem decodeTypes_prefix (strs : List Text) : ∀ (ts : List RType) (prev : List ValueType), ∃ T, decodeTypes strs prev ts = prev ++ T
  | [], prev => ⟨[], by simp [decodeTypes]⟩
  | t :: ts, prev => by
    obtain ⟨T, h⟩ := decodeTypes_prefix strs ts (prev ++ [t.decoded strs prev])
    exact ⟨t.decoded strs prev :: T, by simp [decodeTypes, h]⟩

theorem decodeTypes_get (strs : List Text) : ∀ (ts : List RType) (prev : List ValueType) (i : Nat) (t : RType), ts[i]? = some t →
    (decodeTypes strs prev ts)[prev.length + i]? = some (t.decoded strs ((decodeTypes strs prev ts).take (prev.length + i)))
  | [], prev, i, t, h => by simp at h
  | t :: ts, prev, 0, t', h => by
    simp at h; subst h
    obtain ⟨T, e⟩ := decodeTypes_prefix strs ts (prev ++ [t.decoded strs prev])
    simp [decodeTypes, e]
  | t :: ts, prev, i + 1, t', h => by
    have := decodeTypes_get strs ts (prev ++ [t.decoded strs prev]) i t' (by simpa using h)
    have e : prev.length + (i + 1) = (prev ++ [t.decoded strs prev]).length + i := by simp; omega
    rw [e]; exact this

/-- The types referred to by a decoded type. -/
theorem decoded_refs (strs : List Text) (prev : List ValueType) (t : RType) :
    (t.decoded strs prev).refs = (match t with | .obj _ _ none _ _ _ _ => [noType] | _ => []) ++ t.refs.map (tref prev) := by
  cases t with
  | obj s name super global fields protos bindings =>
    cases super <;>
    simp [RType.decoded, ValueType.refs, RType.refs, ofKind, noType, superRef, RField.decoded, Function.comp_def]
  | enum name global constructs =>
    simp [RType.decoded, ValueType.refs, RType.refs, ofKind, noType, RConstruct.decoded, List.flatMap_map, List.map_flatMap]
  | _ => simp [RType.decoded, ValueType.refs, RType.refs, ofKind, noType, RField.decoded, Function.comp_def]

/-- The references of a decoded module. -/
theorem decoded_references (m : RModule) (hm : m.Readable) (u : List (Option Str)) (c : Code) (hc : c = { m.decoded with ustrings := u }) :
      (∀ (i : Nat) t, m.types[i]? = some t → ∃ v, c.types[i]? = some v ∧
        v.refs = (match t with | .obj _ _ none _ _ _ _ => [noType] | _ => []) ++
          t.refs.map (fun j => if j < i then c.types[j]?.getD noType else noType)) ∧
      (∀ (i j : Nat), m.globals[i]? = some j → c.globals[i]? = c.types[j]?) ∧
      (∀ (i : Nat) n, m.natives[i]? = some n → ∃ v, c.natives[i]? = some v ∧ c.types[n.type]? = some v.t) ∧
      (∀ (i : Nat) f, m.functions[i]? = some f → ∃ v, c.functions[i]? = some v ∧ c.types[f.type]? = some v.t ∧
        v.regs.map some = f.regs.map (fun r => c.types[r]?)) := by
  subst hc
  have hlen : m.typeTable.length = m.types.length := (decodeTypes_length m.strings m.types []).trans (by simp)
  have hget : ∀ j, j < m.types.length → (m.typeTable ++ List.replicate m.types.length noType)[j]? = some (tref m.typeTable j) := by
    intro j hj
    rw [List.getElem?_append_left (by omega), List.getElem?_eq_getElem (by omega)]
    simp [tref, hlen, hj]
  simp only [RModule.decoded]
  refine ⟨?_, ?_, ?_, ?_⟩
  · intro i t ht
    have hi : i < m.types.length := (List.getElem?_eq_some_iff.1 ht).1
    have e := decodeTypes_get m.strings m.types [] i t ht
    simp only [List.length_nil, Nat.zero_add] at e
    refine ⟨_, by rw [List.getElem?_append_left (by omega)]; exact e, ?_⟩
    rw [decoded_refs]
    congr 1
    apply List.map_congr_left
    intro j hj
    have hj' := (hm.types t (List.mem_of_getElem? ht)).2.1 j hj
    unfold tref
    show (List.take i m.typeTable)[j]?.getD _ = _
    rw [hget j hj', List.getElem?_take]
    split
    · simp [tref]
    · rfl
  · intro i j hij
    have hi : i < m.globals.length := (List.getElem?_eq_some_iff.1 hij).1
    rw [hget j (hm.globals j (List.mem_of_getElem? hij)), List.getElem?_append_left (by simpa using hi)]
    simp [hij]
  · intro i n hn
    refine ⟨n.decoded m, by simp [hn], hget _ (hm.natives n (List.mem_of_getElem? hn)).2.2.1⟩
  · intro i f hf
    have hg := hm.functions f (List.mem_of_getElem? hf)
    refine ⟨f.decoded m, by simp [hf], hget _ hg.type, ?_⟩
    simp only [RFunction.decoded, List.map_map]
    apply List.map_congr_left
    intro r hr
    exact (hget r (hg.regs r hr)).symm


theorem renameTypes_get : ∀ (l : List RType) (ns : List Nat) (i : Nat) (t : RType), (l.flatMap RType.names).length = ns.length → l[i]? = some t →
    ∃ n, t.names.length = n.length ∧ (renameTypes l ns)[i]? = some (t.renamed n)
  | [], _, _, _, _, h => by simp at h
  | a :: l, ns, 0, t, hl, h => by
    simp at h; subst h
    rw [List.flatMap_cons, List.length_append] at hl
    exact ⟨_, by simp; omega, rfl⟩
  | a :: l, ns, i + 1, t, hl, h => by
    rw [List.flatMap_cons, List.length_append] at hl
    exact renameTypes_get l (ns.drop a.names.length) i t (by rw [List.length_drop]; omega) (by simpa using h)

/-- **C36** Reading a serialised module: the references of type `i` to earlier types resolve to them (those to later types
become the default type), and the references of globals, natives and functions resolve to the type with that index.  The
order in which the types look up their names does not matter. -/
theorem c36_module_references (m : RModule) (hm : m.Readable) (hb : m.NotBare) (p : Profile) (rest : List UInt8) :
    ∃ c s, Code.read p none (m.encode ++ rest) = .ok c s ∧
      (∀ (i : Nat) t, m.types[i]? = some t → ∃ v, c.types[i]? = some v ∧
        v.refs = (match t with | .obj _ _ none _ _ _ _ => [noType] | _ => []) ++
          t.refs.map (fun j => if j < i then c.types[j]?.getD noType else noType)) ∧
      (∀ (i j : Nat), m.globals[i]? = some j → c.globals[i]? = c.types[j]?) ∧
      (∀ (i : Nat) n, m.natives[i]? = some n → ∃ v, c.natives[i]? = some v ∧ c.types[n.type]? = some v.t) ∧
      (∀ (i : Nat) f, m.functions[i]? = some f → ∃ v, c.functions[i]? = some v ∧ c.types[f.type]? = some v.t ∧
        v.regs.map some = f.regs.map (fun r => c.types[r]?)) := by
  obtain ⟨u, h⟩ := module_enc' hm p hb
  refine ⟨_, _, (Sem.readM p).complete _ _ _ _ trivial h rest 0, ?_⟩
  obtain ⟨h1, h2, h3, h4⟩ := decoded_references m.asAnswered (asAnswered_readable hm) u _ rfl
  refine ⟨fun i t ht => ?_, h2, h3, h4⟩
  obtain ⟨ns, hns, e⟩ := renameTypes_get m.types (found m) i t (found_length m) ht
  obtain ⟨v, h5, h6⟩ := h1 i _ e
  obtain ⟨_, h7, _⟩ := renamed_facts t ns hns
  rw [h7] at h6
  refine ⟨v, h5, ?_⟩
  rw [h6]
  congr 1
  cases t with
  | obj s name super global fields protos bindings => cases super <;> rfl
  | _ => rfl

/-- A module whose type 0 is a reference to type 1, which is `i32`. -/
def forwardModule : RModule where
  version := 2
  hasDebug := false
  entrypoint := 0
  ints := []
  floats := []
  strings := []
  bytes := []
  bytesPos := []
  debugFiles := []
  types := [.ref 1, .prim .HI32, .ref 1]
  globals := []
  natives := []
  functions := []
  constants := []

theorem forwardModule_good : forwardModule.Good where
  version := by decide
  bytes := by decide
  noConstants := by decide
  noDebug := by decide
  entrypoint := by decide
  nints := by decide
  ints := by decide
  nfloats := by decide
  floats := by decide
  nstrings := by decide
  strings := by decide
  nbytes := by decide
  bytesPos := by decide
  ndebugFiles := by decide
  debugFiles := by decide
  ntypes := by decide
  types := by
    intro t ht
    simp only [forwardModule, List.mem_cons, List.not_mem_nil, or_false] at ht
    rcases ht with rfl | rfl | rfl <;>
      refine ⟨?_, by decide, by decide⟩ <;> simp only [RType.Small] <;> decide
  order := by decide
  nglobals := by decide
  globals := by decide
  nnatives := by decide
  natives := by simp [forwardModule]
  nfunctions := by decide
  functions := by simp [forwardModule]
  nconstants := by decide
  constants := by simp [forwardModule]

/-- **C36** A forward reference is lost: types 0 and 2 of this file are references to type 1 (`i32`); type 2 comes out as
such, but type 0 comes out as a reference to the default type (kind `HNULL`). -/
theorem c36_forward_reference_lost : ∃ c s, Code.read .release none forwardModule.encode = .ok c s ∧
    ∃ t0 t1 t2, c.types[0]? = some t0 ∧ c.types[1]? = some t1 ∧ c.types[2]? = some t2 ∧ t1.kind = .HI32 ∧
      t2.refs = [t1] ∧ t0.refs = [noType] ∧ noType.kind = .HNULL := by
  obtain ⟨u, h⟩ := module_enc forwardModule_good .release (Or.inr (Or.inl (by simp [forwardModule])))
  have := (Sem.readM .release).complete _ _ _ _ trivial h [] 0
  rw [List.append_nil] at this
  exact ⟨_, _, this, _, _, _, rfl, rfl, rfl, rfl, rfl, rfl, rfl⟩

end Verif.Brass
