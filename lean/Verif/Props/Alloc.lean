import Verif.Props.GlobalSign
import Verif.Spec.Alloc

/-!
# The result of `CodeHash::alloc` (C88)
-/

namespace Verif.Brass

open Verif Verif.Brass.Spec CodeHash

namespace CodeHash

theorem insertIdx_drop {α : Type} (x : α) : ∀ (i : Nat) (l : List α), i ≤ l.length → (l.insertIdx i x).drop (i + 1) = l.drop i
  | 0, _, _ => rfl
  | i + 1, [], h => by simp at h
  | i + 1, a :: l, h => by
    simp only [List.insertIdx_succ_cons, List.drop_succ_cons]
    exact insertIdx_drop x i l (by simpa using h)

/-- The second buffer keeps its zeros. -/
theorem types_tail {s s' : CodeHash} (e : types s = .ret s') : s'.typeHashes.drop s.code.ntypes = List.replicate s.code.ntypes 0 := by
  unfold types at e
  cases e1 : Rust.forRange (typeHashStep s.code) 0 s.code.ntypes s.typeHashes with
  | panic => rw [e1] at e; cases e
  | ret u =>
    rw [e1] at e
    simp only [Rust.bind_ret] at e
    cases e2 : Rust.forRange (typeHashStep2 { s with typeHashes := u }) 0 s.code.ntypes (List.replicate s.code.ntypes 0) with
    | panic => rw [e2] at e; cases e
    | ret w =>
      rw [e2] at e
      simp only [Rust.bind_ret, Rust.pure_eq, Rust.ret.injEq] at e
      subst e
      have := forRange_inv (Inv := fun i (v : List UInt32) => v.drop i = List.replicate s.code.ntypes 0) _ _ _ _ ?_ (by simp) e2
      · simpa using this
      · intro i _ hi b b' hb e
        unfold typeHashStep2 at e
        cases h : Rust.get u i with
        | panic => simp [h] at e
        | ret x =>
          simp only [h, Rust.bind_ret] at e
          cases h2 : hashTypeRec { s with typeHashes := u } i with
          | panic => simp [h2] at e
          | ret y =>
            simp only [h2, Rust.bind_ret] at e
            split at e
            · rename_i hl
              simp only [Rust.pure_eq, Rust.ret.injEq] at e
              subst e
              rw [insertIdx_drop _ _ _ hl, hb]
            · cases e

theorem wrapped_small {n : Nat} (h : n < 2 ^ 31) : wrapped n = n := by
  unfold wrapped; omega

theorem index_entry {c : Code} {v : List Int} (h : Loaded c) (e : indexes c (init c).functionsIndexes = .ret v) (x : Nat)
    (hx : x < c.nfunctions + c.nnatives) : ∃ y, IndexEntry c x y ∧ v[x]? = some y := by
  have noN : (∀ n ∈ c.natives, n.findex ≠ x) → ∀ j, ¬ NativeAt c x j := fun h j ⟨n, h1, h2⟩ => h n (List.mem_of_getElem? h1) h2
  rcases indexes_cases h e x hx with ⟨i, n, h1, h2, h3, h4, h5⟩ | ⟨h1, i, f, h2, h3, h4, h5, h6⟩ | ⟨h1, h2, h3⟩
  · refine ⟨_, .native i ⟨⟨n, h1, h2⟩, ?_⟩, by rw [h3, wrapped_eq, Nat.add_comm]⟩
    rintro k hk ⟨m, k1, k2⟩
    exact h5 k m hk k1 k2
  · refine ⟨_, .function i (noN h1) ⟨⟨f, h2, h3⟩, ?_⟩, by rw [h4, asI32_small h5]⟩
    rintro k hk ⟨m, k1, k2⟩
    exact h6 k m hk k1 k2
  · exact ⟨0, .unused (noN h1) fun j ⟨f, k1, k2⟩ => h2 f (List.mem_of_getElem? k1) k2, h3⟩

theorem index_unique {c : Code} {x : Nat} {y z : Int} (h : IndexEntry c x y) (h' : IndexEntry c x z) : y = z := by
  cases h with
  | native i h1 =>
    cases h' with
    | native j h2 => rw [last_unique h1 h2]
    | function j h2 _ => exact absurd h1.1 (h2 i)
    | unused h2 _ => exact absurd h1.1 (h2 i)
  | function i h0 h1 =>
    cases h' with
    | native j h2 => exact absurd h2.1 (h0 j)
    | function j _ h2 => rw [last_unique h1 h2]
    | unused _ h2 => exact absurd h1.1 (h2 i)
  | unused h0 h1 =>
    cases h' with
    | native j h2 => exact absurd h2.1 (h0 j)
    | function j _ h2 => exact absurd h2.1 (h1 j)
    | unused _ h2 => rfl

/-- There is only one such result. -/
theorem allocated_unique {c : Code} {ch ch' : CodeHash} (hg : c.nglobals ≤ c.globals.length) (h : Allocated c ch) (h' : Allocated c ch') : ch = ch' := by
  have hG : ch.globalsSigns = ch'.globalsSigns := by
    apply List.ext_getElem?
    intro i
    rcases Nat.lt_or_ge i c.nglobals with hi | hi
    · have ht := List.getElem?_eq_getElem (Nat.lt_of_lt_of_le hi hg)
      obtain ⟨f, x, a1, a2, a3⟩ := h.globals i _ hi ht
      obtain ⟨f', x', b1, b2, b3⟩ := h'.globals i _ hi ht
      obtain rfl := boot_unique a1 b1
      rw [a3, b3, c70_source_unique _ _ _ _ _ a2 b2]
    · rw [List.getElem?_eq_none (by rw [h.globalCount]; exact hi), List.getElem?_eq_none (by rw [h'.globalCount]; exact hi)]
  have hI : ch.functionsIndexes = ch'.functionsIndexes := by
    apply List.ext_getElem?
    intro i
    rcases Nat.lt_or_ge i (c.nfunctions + c.nnatives) with hi | hi
    · obtain ⟨x, a1, a2⟩ := h.indexes i hi
      obtain ⟨x', b1, b2⟩ := h'.indexes i hi
      rw [a2, b2, index_unique a1 b1]
    · rw [List.getElem?_eq_none (by rw [h.indexCount]; exact hi), List.getElem?_eq_none (by rw [h'.indexCount]; exact hi)]
  have hT := h.types.trans h'.types.symm
  have hc := h.code.trans h'.code.symm
  have h1 := h.functions.1.trans h'.functions.1.symm
  have h2 := h.functions.2.trans h'.functions.2.symm
  cases ch; cases ch'
  simp only at hG hI hT hc h1 h2
  subst hG hI hT hc h1 h2
  rfl

end CodeHash

/-- **C88** `alloc` returns `ch` for an accepted file exactly if the file is hashable and `ch` is the specified result. -/
theorem c88_alloc (p : Profile) (e : Option DecodeError) (buf : List UInt8) (c : Code) (st : St) (h : Code.read p e buf = .ok c st)
    (ch : CodeHash) : alloc c = .ret ch ↔ Allocated c ch := by
  have L := loaded h
  have sound : ∀ ch, alloc c = .ret ch → Allocated c ch := by
    intro ch a
    obtain ⟨a1, a2, ⟨s1, a3, a4⟩, a5, a6⟩ := alloc_frame a
    refine ⟨(c51_alloc_returns_iff p e buf c st h).1 ⟨ch, a⟩, a1, ?_, ?_, ?_, ?_, ?_, a6, a5⟩
    · have hl := (types_length a3).2
      have ht := types_tail a3
      simp only [init] at hl ht
      rw [← a4] at hl ht
      rw [← List.take_append_drop c.ntypes ch.typeHashes, ht]
      congr 1
      apply List.ext_getElem?
      intro i
      rcases Nat.lt_or_ge i c.ntypes with hi | hi
      · obtain ⟨t, ht⟩ := L.declared hi
        rw [List.getElem?_take_of_lt hi, c66_type_table p e buf c st h ch a i hi t ht, List.getElem?_map, List.getElem?_take_of_lt hi, ht]
        rfl
      · rw [List.getElem?_eq_none (by simp; omega), List.getElem?_eq_none (by simp; omega)]
    · obtain ⟨S⟩ := stages a
      exact (S.mid6 L).signs
    · intro i t hi ht
      exact c70_signature p e buf c st h ch a i hi t ht
    · exact indexes_length a2
    · exact index_entry L a2
  refine ⟨sound ch, fun A => ?_⟩
  obtain ⟨ch', a⟩ := (c51_alloc_returns_iff p e buf c st h).2 A.hashable
  have hg : c.nglobals ≤ c.globals.length := by
    obtain ⟨G, h1, h2⟩ := L.globals
    rw [h2, List.length_append, h1]; omega
  rw [a, allocated_unique hg A (sound ch' a)]

/-- **C88** If a native and a function have the same index, the function is not found by it. -/
theorem c88_native_shadows (p : Profile) (e : Option DecodeError) (buf : List UInt8) (c : Code) (st : St) (h : Code.read p e buf = .ok c st)
    (ch : CodeHash) (a : alloc c = .ret ch) (n : Native) (hn : n ∈ c.natives) :
    ∃ y, ch.functionsIndexes[n.findex]? = some y ∧ ∀ i : Nat, i < c.nfunctions → y ≠ i := by
  have L := loaded h
  have A := (c88_alloc p e buf c st h ch).1 a
  obtain ⟨y, h1, h2⟩ := A.indexes n.findex (A.hashable.nativeIndex n hn)
  refine ⟨y, h2, ?_⟩
  obtain ⟨j, hj⟩ := List.mem_iff_getElem?.1 hn
  cases h1 with
  | native i h3 =>
    intro k hk e
    have := L.nfunctions
    have := L.nnatives
    obtain ⟨m, h4, _⟩ := h3.1
    have := (List.getElem?_eq_some_iff.1 h4).1
    have := L.natives
    unfold wrapped at e
    omega
  | function i h3 _ => exact absurd ⟨n, hj, rfl⟩ (h3 j)
  | unused h3 _ => exact absurd ⟨n, hj, rfl⟩ (h3 j)

/-- A file with a native with index 1 and three functions with the indexes 0, 0 and 1. -/
def exDup : List UInt8 := [0x48, 0x4C, 0x42, 4, 0, 0, 0, 1, 1, 0, 1, 3, 0, 0, 2, 0, 0, 0, 0x61, 0, 1, 3, 0, 0, 0, 1, 0, 0, 0, 0, 0, 0, 0, 0, 0, 1, 0, 0]

/-- C88: the second function and the native are found, the other two functions are not. -/
example : ∃ c s ch, Code.read .release none exDup = .ok c s ∧ alloc c = .ret ch ∧ Allocated c ch ∧ c.functions.map (·.findex) = [0, 0, 1] ∧
    c.natives.map (·.findex) = [1] ∧ ch.functionsIndexes = [1, 3, 0, 0] ∧ ch.typeHashes = [0, 0] := by
  have h : checkOk (Code.read .release none exDup) (fun c => match alloc c with
    | .ret ch => decide (c.functions.map (·.findex) = [0, 0, 1] ∧ c.natives.map (·.findex) = [1] ∧ ch.functionsIndexes = [1, 3, 0, 0] ∧ ch.typeHashes = [0, 0])
    | _ => false) = true := by decide +kernel
  obtain ⟨c, s, h1, h2⟩ := checkOk_iff h
  split at h2
  · rename_i ch e1
    obtain ⟨a1, a2, a3, a4⟩ := of_decide_eq_true h2
    exact ⟨c, s, ch, h1, e1, (c88_alloc _ _ _ _ _ h1 ch).1 e1, a1, a2, a3, a4⟩
  · cases h2

end Verif.Brass
