import Verif.Props.CodeHash

/-!
# The tables of `CodeHash` (C50, C52, C53, C55, C59, C61, C62)
-/

namespace Verif.Brass

open Verif Verif.Brass.Spec

namespace CodeHash

/-! ## What `alloc` keeps -/

theorem typeGlobalStep_any {i : Nat} {s s' : CodeHash} (e : typeGlobalStep i s = .ret s') : Signs (fun _ => True) s s' := by
  have key : ∀ t g, s.signGlobalOf t g = .ret s' → Signs (fun _ => True) s s' := fun t g h => (signGlobalOf_signs h).mono fun _ _ => trivial
  unfold typeGlobalStep at e
  cases h : Rust.get s.code.types i with
  | panic => rw [h] at e; cases e
  | ret t =>
    simp only [h, Rust.bind_ret] at e
    split at e
    · split at e
      · exact key _ _ e
      · cases e; exact Signs.refl _ _
    · split at e
      · exact key _ _ e
      · cases e; exact Signs.refl _ _
    · split at e
      · exact key _ _ e
      · cases e; exact Signs.refl _ _
    · cases e; exact Signs.refl _ _

theorem signs_forRange {f : Nat → CodeHash → Rust CodeHash} {n a : Nat} {s s' : CodeHash} (h : ∀ i s s', f i s = .ret s' → Signs (fun _ => True) s s')
    (e : Rust.forRange f a n s = .ret s') : Signs (fun _ => True) s s' :=
  (Signs.forRange (K := fun _ _ => True) (s0 := s) _ _ _ _ (fun i _ _ s s' _ e => h i s s' e) rfl e).mono fun _ _ => trivial

/-- The part of the result of `alloc` that is computed first is not changed later. -/
theorem alloc_frame {c : Code} {s : CodeHash} (e : alloc c = .ret s) : s.code = c ∧ indexes c (init c).functionsIndexes = .ret s.functionsIndexes ∧
    (∃ s1, types { init c with functionsIndexes := s.functionsIndexes } = .ret s1 ∧ s.typeHashes = s1.typeHashes) ∧
    s.functionsHashes = [] ∧ s.functionsSigns = [] := by
  obtain ⟨S⟩ := stages e
  have h2 := signs_forRange (fun i s s' e => (globalStep_signs e).mono fun _ _ => trivial) S.globals
  have h3 := signs_forRange (fun i s s' e => typeGlobalStep_any e) S.typeGlobals
  have h4 := signs_forRange (fun i s s' e => (constantStep_signs e).mono fun _ _ => trivial) S.constants
  obtain ⟨j, f, _, _, hb⟩ := boot_eq rfl S.boot
  have h5 := signs_forRange (fun i s s' e => (bootStep_signs e).mono fun _ _ => trivial) hb
  have h6 := signs_forRange (fun i s s' e => (globalTypeStep_signs e).mono fun _ _ => trivial) S.last
  have h := (((h2.trans h3).trans h4).trans h5).trans h6
  have hi : s.functionsIndexes = S.v := by rw [h.indexes, S.s1_eq]
  refine ⟨by rw [h.code, S.s1_eq]; rfl, by rw [hi]; exact S.indexes, ⟨S.s1, by rw [hi]; exact S.types, h.hashes⟩, ?_, ?_⟩
  · rw [h.fhashes, S.s1_eq]; rfl
  · rw [h.fsigns, S.s1_eq]; rfl

end CodeHash

/-! ## C50 -/

open CodeHash

/-- **C50** In a module with distinct indexes, `functions_indexes` maps the index of a function to its position. -/
theorem c50_function_position (c : Code) (h : CodeHash) (a : alloc c = .ret h) (hf : c.functions.length = c.nfunctions)
    (hn : c.natives.length = c.nnatives) (hs : c.nfunctions ≤ 2 ^ 31) (hd : DistinctIndexes c)
    (i : Nat) (f : HLFunction) (hi : c.functions[i]? = some f) : h.functionsIndexes[f.findex]? = some (i : Int) := by
  obtain ⟨u, h1, h2⟩ := indexes_assigned (alloc_frame a).2.1
  obtain ⟨d1, d2, d3⟩ := List.nodup_append.1 hd
  have hi' := (List.getElem?_eq_some_iff.1 hi).1
  rw [h2.other, h1.last i f.findex (by omega) (by simp [functionKey, hi]), asI32_small (by omega)]
  · intro j hij hj e
    have hj' : j < c.functions.length := by omega
    have e1 : (c.functions.map HLFunction.findex)[j]? = (c.functions.map HLFunction.findex)[i]? := by
      simp only [functionKey] at e
      rw [List.getElem?_map, List.getElem?_map, e, hi]; rfl
    have := (List.getElem?_inj (by simpa using hj') d1).1 e1
    omega
  · intro j hj e
    have hj' : j < c.natives.length := by omega
    simp only [nativeKey, List.getElem?_eq_getElem hj', Option.map_some, Option.some.injEq] at e
    exact d3 f.findex (List.mem_map_of_mem (List.mem_of_getElem? hi)) _ (List.mem_map_of_mem (List.getElem_mem hj')) e.symm

/-- **C50** The index of a native is mapped to its position after the functions. -/
theorem c50_native_position (c : Code) (h : CodeHash) (a : alloc c = .ret h)
    (hn : c.natives.length = c.nnatives) (hs : c.nfunctions + c.nnatives ≤ 2 ^ 31) (hd : DistinctIndexes c)
    (i : Nat) (n : Native) (hi : c.natives[i]? = some n) : h.functionsIndexes[n.findex]? = some ((c.nfunctions + i : Nat) : Int) := by
  obtain ⟨u, h1, h2⟩ := indexes_assigned (alloc_frame a).2.1
  obtain ⟨d1, d2, d3⟩ := List.nodup_append.1 hd
  have hi' := (List.getElem?_eq_some_iff.1 hi).1
  rw [h2.last i n.findex (by omega) (by simp [nativeKey, hi]), asI32_small (by omega), Nat.add_comm]
  intro j hij hj e
  have hj' : j < c.natives.length := by omega
  have e1 : (c.natives.map Native.findex)[j]? = (c.natives.map Native.findex)[i]? := by
    simp only [nativeKey] at e
    rw [List.getElem?_map, List.getElem?_map, e, hi]; rfl
  have := (List.getElem?_inj (by simpa using hj') d2).1 e1
  omega

/-! ## C52 -/

namespace CodeHash

/-- A loop panics if one of its steps does. -/
theorem forRange_panics {β : Type} {f : Nat → β → Rust β} {Inv : β → Prop} {k : Nat} : ∀ n a b,
    (∀ i b b', Inv b → f i b = .ret b' → Inv b') → Inv b → a ≤ k → k < a + n → (∀ b, Inv b → f k b = .panic) → Rust.forRange f a n b = .panic
  | 0, a, b, _, _, h1, h2, _ => by omega
  | n + 1, a, b, h, hb, h1, h2, hp => by
    simp only [Rust.forRange]
    by_cases e : a = k
    · subst e; rw [hp b hb]; rfl
    · cases e1 : f a b with
      | panic => rfl
      | ret b' => exact forRange_panics n (a + 1) b' h (h a b b' hb e1) (by omega) (by omega) hp

/-- The signature of a function without owner cannot be computed. -/
theorem sign_panics {s : CodeHash} {f : HLFunction} (hf : f.field = none) : s.hashFunSign f = .panic := by
  unfold hashFunSign
  cases s.writeType Hasher.new f.t with
  | panic => rfl
  | ret h =>
    simp only [Rust.bind_ret, hf]
    cases signObj f.obj none h with
    | panic => rfl
    | ret h' => simp [signRef]

theorem finalize_panics {s : CodeHash} {f : HLFunction} (hn : 0 < s.code.nfunctions) (h0 : s.code.functions[0]? = some f) (hf : f.field = none) :
    finalize s = .panic := by
  unfold finalize
  rw [forRange_panics (Inv := fun _ => True) (k := 0) _ 0 _ (fun _ _ _ _ _ => trivial) trivial (Nat.le_refl _) (by omega)]
  · rfl
  · intro b _
    unfold signFunction
    rw [get_eq.2 h0]
    simp [sign_panics hf]

end CodeHash

/-- **C52** `finalize` panics on the hash of every decoded module: `hash_fun_sign` needs the owner of each function, which the
decoder does not fill in. -/
theorem c52_finalize_panics (p : Profile) (e : Option DecodeError) (buf : List UInt8) (c : Code) (s : St) (h : Code.read p e buf = .ok c s)
    (ch : CodeHash) (a : alloc c = .ret ch) : finalize ch = .panic := by
  have L := loaded h
  have hc := (alloc_frame a).1
  have hn : 0 < c.functions.length := by
    obtain ⟨S⟩ := stages a
    obtain ⟨j, f, _, h2, _⟩ := boot_eq (S.mid4 L).code S.boot
    have := (List.getElem?_eq_some_iff.1 h2).1
    omega
  exact finalize_panics (by rw [hc, ← L.functions]; exact hn) (by rw [hc]; exact List.getElem?_eq_getElem hn)
    (L.functionsOk _ (List.getElem_mem hn)).field

/-- **C52** More generally, `finalize` returns only if every function has its owner. -/
theorem c52_needs_owner (s s' : CodeHash) (e : finalize s = .ret s') (i : Nat) (hi : i < s.code.nfunctions) (f : HLFunction)
    (hf : s.code.functions[i]? = some f) : f.field ≠ none := by
  intro h
  have : finalize s = .panic := by
    unfold finalize
    rw [forRange_panics (Inv := fun _ => True) (k := i) _ 0 _ (fun _ _ _ _ _ => trivial) trivial (Nat.zero_le _) (by omega)]
    · rfl
    · intro b _
      unfold signFunction
      rw [get_eq.2 hf]
      simp [sign_panics h]
  rw [this] at e; cases e

/-! ## C53 -/

namespace CodeHash

/-- A loop that sets entry `i` to a value satisfying `R i`. -/
theorem fill {β : Type} {f : Nat → List β → Rust (List β)} {R : Nat → β → Prop} {n : Nat} {v v' : List β}
    (hf : ∀ i b b', f i b = .ret b' → ∃ x, R i x ∧ Rust.set b i x = .ret b') (e : Rust.forRange f 0 n v = .ret v') :
    v'.length = v.length ∧ (∀ j, j < n → ∃ x, R j x ∧ v'[j]? = some x) ∧ ∀ j, n ≤ j → v'[j]? = v[j]? := by
  have := forRange_inv (Inv := fun k (w : List β) => w.length = v.length ∧ (∀ j, j < k → ∃ x, R j x ∧ w[j]? = some x) ∧ ∀ j, k ≤ j → w[j]? = v[j]?)
    _ _ _ _ ?_ ⟨rfl, fun j hj => by omega, fun _ _ => rfl⟩ e
  · simpa using this
  · rintro i _ hi b b' ⟨h1, h2, h3⟩ e
    obtain ⟨x, hx, e'⟩ := hf i b b' e
    obtain ⟨hl, rfl⟩ := set_eq.1 e'
    refine ⟨by simp [h1], ?_, ?_⟩
    · intro j hj
      by_cases hij : i = j
      · subst hij; exact ⟨x, hx, by simp [hl]⟩
      · obtain ⟨y, hy, hy'⟩ := h2 j (by omega)
        exact ⟨y, hy, by rw [List.getElem?_set, if_neg hij]; exact hy'⟩
    · intro j hj
      rw [List.getElem?_set, if_neg (by omega)]
      exact h3 j (by omega)

/-- The stages of `finalize`. -/
theorem finalize_stages {s s' : CodeHash} (e : finalize s = .ret s') : ∃ u v,
    Rust.forRange s.signFunction 0 s.code.nfunctions (List.replicate (s.code.nfunctions + s.code.nnatives) 0) = .ret u ∧
    Rust.forRange s.signNative 0 s.code.nnatives u = .ret v ∧
    Rust.forRange hashFunction 0 s.code.nfunctions { s with functionsSigns := v, functionsHashes := List.replicate s.code.nfunctions 0 } = .ret s' := by
  unfold finalize at e
  cases e1 : Rust.forRange s.signFunction 0 s.code.nfunctions (List.replicate (s.code.nfunctions + s.code.nnatives) 0) with
  | panic => rw [e1] at e; cases e
  | ret u =>
    rw [e1] at e; simp only [Rust.bind_ret] at e
    cases e2 : Rust.forRange s.signNative 0 s.code.nnatives u with
    | panic => rw [e2] at e; cases e
    | ret v =>
      rw [e2] at e
      exact ⟨u, v, rfl, e2, e⟩

/-- What the loop over the functions does to the table of hashes. -/
theorem hashes_filled {s0 s' : CodeHash} {n : Nat} (h0 : s0.functionsHashes = List.replicate n 0) (e : Rust.forRange hashFunction 0 n s0 = .ret s') :
    s' = { s0 with functionsHashes := s'.functionsHashes } ∧ s'.functionsHashes.length = n ∧ ∀ i, i < n → ∃ f x, s0.code.functions[i]? = some f ∧
      s'.functionsHashes[i]? = some x ∧ hashFun { s0 with functionsHashes := s'.functionsHashes.take i ++ List.replicate (n - i) 0 } f = .ret x := by
  have := forRange_inv (Inv := fun k (t : CodeHash) => t = { s0 with functionsHashes := t.functionsHashes } ∧ t.functionsHashes.length = n ∧
      t.functionsHashes.drop k = List.replicate (n - k) 0 ∧ ∀ i, i < k → ∃ f x, s0.code.functions[i]? = some f ∧
      t.functionsHashes[i]? = some x ∧ hashFun { s0 with functionsHashes := t.functionsHashes.take i ++ List.replicate (n - i) 0 } f = .ret x)
    _ _ _ _ ?_ ⟨rfl, by rw [h0]; simp, by rw [h0]; simp, fun i hi => by omega⟩ e
  · obtain ⟨a, b, _, d⟩ := this
    exact ⟨a, b, fun i hi => d i (by omega)⟩
  · rintro k _ hk t t' ⟨a, b, d, h⟩ e
    unfold hashFunction at e
    have hcode : t.code = s0.code := by rw [a]
    cases e1 : Rust.get t.code.functions k with
    | panic => rw [e1] at e; cases e
    | ret f =>
      rw [e1] at e; simp only [Rust.bind_ret] at e
      cases e2 : t.hashFun f with
      | panic => rw [e2] at e; cases e
      | ret x =>
        rw [e2] at e; simp only [Rust.bind_ret] at e
        cases e3 : Rust.set t.functionsHashes k x with
        | panic => rw [e3] at e; cases e
        | ret w =>
          rw [e3] at e
          cases e
          obtain ⟨hl, rfl⟩ := set_eq.1 e3
          simp only
          refine ⟨by rw [a], by simp [b], ?_, ?_⟩
          · rw [List.drop_set_of_lt (by omega), ← List.drop_drop, d, List.drop_replicate]
            congr 1
          · intro i hi
            by_cases hik : i = k
            · subst hik
              refine ⟨f, x, by rw [← hcode]; exact get_eq.1 e1, by simp [hl], ?_⟩
              rw [List.take_set_of_le (Nat.le_refl _), ← d, List.take_append_drop, ← e2]
              congr 1
              exact a.symm
            · obtain ⟨f', x', h1, h2, h3⟩ := h i (by omega)
              refine ⟨f', x', h1, ?_, ?_⟩
              · rw [List.getElem?_set, if_neg (fun e => hik e.symm)]; exact h2
              · rw [List.take_set_of_le (by omega)]; exact h3

end CodeHash

/-- **C53** After `finalize` the table of signatures holds the natives first, then the functions from position `nnatives` on
(the first ones have been overwritten), then zeros: natives are stored without shifting by the number of functions. -/
theorem c53_signatures (s s' : CodeHash) (e : finalize s = .ret s') :
    s'.functionsSigns.length = s.code.nfunctions + s.code.nnatives ∧
    (∀ i n, i < s.code.nnatives → s.code.natives[i]? = some n → ∃ x, s.hashNative n = .ret x ∧ s'.functionsSigns[i]? = some x) ∧
    (∀ i f, s.code.nnatives ≤ i → i < s.code.nfunctions → s.code.functions[i]? = some f → ∃ x, s.hashFunSign f = .ret x ∧ s'.functionsSigns[i]? = some x) ∧
    (∀ i, s.code.nnatives ≤ i → s.code.nfunctions ≤ i → i < s.code.nfunctions + s.code.nnatives → s'.functionsSigns[i]? = some 0) := by
  obtain ⟨u, v, e1, e2, e3⟩ := finalize_stages e
  obtain ⟨a, _, _⟩ := hashes_filled rfl e3
  have hv : s'.functionsSigns = v := by rw [a]
  obtain ⟨l1, f1, o1⟩ := fill (R := fun i x => ∃ f, s.code.functions[i]? = some f ∧ s.hashFunSign f = .ret x) (fun i b b' e => by
    unfold signFunction at e
    cases h : Rust.get s.code.functions i with
    | panic => rw [h] at e; cases e
    | ret f =>
      rw [h] at e; simp only [Rust.bind_ret] at e
      cases h2 : s.hashFunSign f with
      | panic => rw [h2] at e; cases e
      | ret x => rw [h2] at e; exact ⟨x, ⟨f, get_eq.1 h, h2⟩, e⟩) e1
  obtain ⟨l2, f2, o2⟩ := fill (R := fun i x => ∃ n, s.code.natives[i]? = some n ∧ s.hashNative n = .ret x) (fun i b b' e => by
    unfold signNative at e
    cases h : Rust.get s.code.natives i with
    | panic => rw [h] at e; cases e
    | ret f =>
      rw [h] at e; simp only [Rust.bind_ret] at e
      cases h2 : s.hashNative f with
      | panic => rw [h2] at e; cases e
      | ret x => rw [h2] at e; exact ⟨x, ⟨f, get_eq.1 h, h2⟩, e⟩) e2
  rw [hv]
  refine ⟨by rw [l2, l1]; simp, ?_, ?_, ?_⟩
  · intro i n hi hn
    obtain ⟨x, ⟨n', hn', hx⟩, hx'⟩ := f2 i hi
    rw [hn] at hn'; cases hn'
    exact ⟨x, hx, hx'⟩
  · intro i f hi hi' hf
    obtain ⟨x, ⟨f', hf', hx⟩, hx'⟩ := f1 i hi'
    rw [hf] at hf'; cases hf'
    exact ⟨x, hx, by rw [o2 i hi]; exact hx'⟩
  · intro i hi hi' hl
    rw [o2 i hi, o1 i hi', List.getElem?_replicate, if_pos hl]

/-! ## C62 -/

/-- **C62** The hash of function `i` is computed while the hashes of the functions from `i` on are still 0: what a function
calls counts only if the callee comes earlier in the table. -/
theorem c62_function_hashes (s s' : CodeHash) (e : finalize s = .ret s') :
    s'.functionsHashes.length = s.code.nfunctions ∧ ∀ i, i < s.code.nfunctions → ∃ f x, s.code.functions[i]? = some f ∧ s'.functionsHashes[i]? = some x ∧
      hashFun { s with functionsHashes := s'.functionsHashes.take i ++ List.replicate (s.code.nfunctions - i) 0 } f = .ret x := by
  obtain ⟨u, v, e1, e2, e3⟩ := finalize_stages e
  obtain ⟨_, b, h⟩ := hashes_filled rfl e3
  refine ⟨b, fun i hi => ?_⟩
  obtain ⟨f, x, h1, h2, h3⟩ := h i hi
  exact ⟨f, x, h1, h2, h3⟩

/-- **C62** Replacing the function at position `j` does not change the hashes of the functions before it, even if they call it. -/
theorem c62_later_function_ignored (s s' t' : CodeHash) (j : Nat) (g : HLFunction) (e : finalize s = .ret s')
    (e' : finalize { s with code := { s.code with functions := s.code.functions.set j g } } = .ret t') :
    ∀ i, i < j → t'.functionsHashes[i]? = s'.functionsHashes[i]? := by
  obtain ⟨l1, h1⟩ := c62_function_hashes _ _ e
  obtain ⟨l2, h2⟩ := c62_function_hashes _ _ e'
  simp only at l2 h2
  intro i
  induction i using Nat.strongRecOn with
  | ind i ih =>
    intro hij
    by_cases hi : i < s.code.nfunctions
    · obtain ⟨f, x, a1, a2, a3⟩ := h1 i hi
      obtain ⟨f', x', b1, b2, b3⟩ := h2 i hi
      rw [List.getElem?_set, if_neg (by omega), a1] at b1
      cases b1
      have ht : t'.functionsHashes.take i = s'.functionsHashes.take i := by
        refine List.ext_getElem? fun k => ?_
        rw [List.getElem?_take, List.getElem?_take]
        split
        · exact ih k (by omega) (by omega)
        · rfl
      rw [ht] at b3
      have : (Rust.ret x : Rust UInt32) = .ret x' := a3.symm.trans b3
      cases this
      rw [a2, b2]
    · rw [List.getElem?_eq_none (by omega), List.getElem?_eq_none (by omega)]

/-! ## C59 -/

namespace CodeHash

/-- An instruction that calls a function without entry in the table of hashes cannot be hashed. -/
theorem call_panics {s : CodeHash} {o : Opcode} {x : Nat} {j : Int} (ho : o.op ∈ secondCalls) (hx : o.p2 = some (x : Int))
    (hj : s.functionsIndexes[x]? = some j) (hl : s.functionsHashes.length ≤ asUsize j) (h : Hasher) : s.hashArgs h o = .panic := by
  have hp : ∀ h, s.callP h (some (x : Int)) = .panic := by
    intro h
    have : Rust.get s.functionsHashes (asUsize j) = .panic := by unfold Rust.get; rw [List.getElem?_eq_none hl]; rfl
    simp [callP, intoUsize, hfun, get_eq.2 hj, this]
  obtain ⟨op, p1, p2, p3, extra⟩ := o
  simp only at ho hx
  subst hx
  simp only [secondCalls, List.mem_cons, List.not_mem_nil, or_false] at ho
  rcases ho with rfl | rfl | rfl | rfl | rfl | rfl | rfl | rfl <;>
  · simp only [hashArgs]
    cases writeP h p1 with
    | panic => rfl
    | ret a => simp [hp]

end CodeHash

/-- **C59** If a function calls a native or takes a closure of it, `finalize` panics: the table of function hashes has no
entries for natives. -/
theorem c59_native_call_panics (c : Code) (h : CodeHash) (a : alloc c = .ret h) (hn : c.natives.length = c.nnatives)
    (hs : c.nfunctions < 2 ^ 31 ∧ c.nnatives < 2 ^ 31) (i k : Nat) (f : HLFunction) (o : Opcode) (n : Native)
    (hi : i < c.nfunctions) (hf : c.functions[i]? = some f) (hk : k < f.nops) (ho : f.ops[k]? = some o) (hc : o.op ∈ secondCalls)
    (hm : n ∈ c.natives) (hp : o.p2 = some (n.findex : Int)) : finalize h = .panic := by
  obtain ⟨j, hj, rfl⟩ := List.mem_iff_getElem.1 hm
  obtain ⟨u, _, h2⟩ := indexes_assigned (alloc_frame a).2.1
  obtain ⟨j', q1, q2, q3⟩ : ∃ j', j' < c.nnatives ∧ nativeKey c j' = some c.natives[j].findex ∧
      ∀ k, j' < k → k < c.nnatives → nativeKey c k ≠ some c.natives[j].findex := by
    rcases exists_last (fun k => nativeKey c k = some c.natives[j].findex) c.nnatives with q | q
    · exact absurd (by simp [nativeKey, List.getElem?_eq_getElem hj]) (q j (by omega))
    · exact q
  have hpos := h2.last j' _ q1 q2 q3
  have hge := asUsize_asI32_ge (n := j' + c.nfunctions) (m := c.nfunctions) (by omega) hs.1 (by omega)
  have hcode := (alloc_frame a).1
  cases e : finalize h with
  | panic => rfl
  | ret h' =>
    obtain ⟨u, v, e1, e2, e3⟩ := finalize_stages e
    have hpanic := forRange_panics (f := hashFunction)
      (Inv := fun t : CodeHash => t.code = c ∧ t.functionsIndexes = h.functionsIndexes ∧ t.functionsHashes.length = c.nfunctions)
      (k := i) h.code.nfunctions 0 { h with functionsSigns := v, functionsHashes := List.replicate h.code.nfunctions 0 } ?_
      ⟨hcode, rfl, by simp [hcode]⟩ (Nat.zero_le _) (by rw [hcode]; omega) ?_
    · rw [hpanic] at e3; cases e3
    · rintro i b b' ⟨b1, b2, b3⟩ e
      unfold hashFunction at e
      cases g1 : Rust.get b.code.functions i with
      | panic => rw [g1] at e; cases e
      | ret f =>
        rw [g1] at e; simp only [Rust.bind_ret] at e
        cases g2 : b.hashFun f with
        | panic => rw [g2] at e; cases e
        | ret x =>
          rw [g2] at e; simp only [Rust.bind_ret] at e
          cases g3 : Rust.set b.functionsHashes i x with
          | panic => rw [g3] at e; cases e
          | ret w =>
            rw [g3] at e; cases e
            exact ⟨b1, b2, by rw [(set_eq.1 g3).2]; simpa using b3⟩
    · rintro b ⟨b1, b2, b3⟩
      unfold hashFunction
      rw [b1, get_eq.2 hf]
      simp only [Rust.bind_ret]
      rw [fun_op_panics ho hk fun hh => call_panics hc hp (by rw [b2]; exact hpos) (by rw [b3]; exact hge) hh]
      rfl

/-! ## C61 -/

/-- **C61** The hash of a primitive type (or a packed type) is 0, whatever its kind. -/
theorem c61_primitive_hash (t : ValueType) (isrec : Bool) (hk : t.kind ∉ composite ∨ t.kind = .HPACKED) : t.hash isrec = .ret 0 := by
  have e : hashKind ValueType.hashRec isrec t = .ret Hasher.new := by
    unfold hashKind
    rcases hk with hk | hk
    · split <;> rename_i h <;> first | rfl | (rw [h] at hk; simp [composite] at hk)
    · rw [hk]
  unfold ValueType.hash
  rw [e]
  decide

namespace CodeHash

/-- The entries of the table of type hashes. -/
theorem types_value {s s' : CodeHash} (e : types s = .ret s') : ∃ u,
    (∀ j, j < s.code.ntypes → ∃ x, (∃ t, s.code.types[j]? = some t ∧ t.hash false = .ret x) ∧ u[j]? = some x) ∧
    ∀ j, j < s.code.ntypes → ∃ x y, u[j]? = some x ∧ hashTypeRec { s with typeHashes := u } j = .ret y ∧ s'.typeHashes[j]? = some (x ^^^ y) := by
  unfold types at e
  cases e1 : Rust.forRange (typeHashStep s.code) 0 s.code.ntypes s.typeHashes with
  | panic => rw [e1] at e; cases e
  | ret u =>
    rw [e1] at e
    simp only [Rust.bind_ret] at e
    cases e2 : Rust.forRange (typeHashStep2 { s with typeHashes := u }) 0 s.code.ntypes (List.replicate s.code.ntypes 0) with
    | panic => rw [e2] at e; cases e
    | ret w =>
      rw [e2] at e
      simp only [Rust.bind_ret, Rust.pure_eq, Rust.ret.injEq] at e
      subst e
      refine ⟨u, ?_, ?_⟩
      · refine (fill (R := fun j x => ∃ t, s.code.types[j]? = some t ∧ t.hash false = .ret x) (fun i b b' e => ?_) e1).2.1
        unfold typeHashStep at e
        cases h1 : Rust.get s.code.types i with
        | panic => rw [h1] at e; cases e
        | ret t =>
          rw [h1] at e; simp only [Rust.bind_ret] at e
          cases h2 : t.hash false with
          | panic => rw [h2] at e; cases e
          | ret x => rw [h2] at e; exact ⟨x, ⟨t, get_eq.1 h1, h2⟩, e⟩
      · have := forRange_inv (Inv := fun i (v : List UInt32) => i ≤ v.length ∧ ∀ j, j < i → ∃ x y, u[j]? = some x ∧ hashTypeRec { s with typeHashes := u } j = .ret y ∧ v[j]? = some (x ^^^ y))
          _ _ _ _ ?_ ⟨by simp, fun j hj => by omega⟩ e2
        · intro j hj
          exact this.2 j (by omega)
        · rintro i _ hi b b' ⟨hl, hb⟩ e
          unfold typeHashStep2 at e
          cases h : Rust.get u i with
          | panic => simp [h] at e
          | ret x =>
            simp only [h, Rust.bind_ret] at e
            cases h2 : hashTypeRec { s with typeHashes := u } i with
            | panic => simp [h2] at e
            | ret y =>
              simp only [h2, Rust.bind_ret] at e
              rw [if_pos hl] at e
              cases e
              refine ⟨by rw [List.length_insertIdx, if_pos hl]; omega, ?_⟩
              intro j hj
              by_cases hij : j = i
              · subst hij
                exact ⟨x, y, get_eq.1 h, h2, by rw [List.getElem?_insertIdx_self, if_pos hl]⟩
              · obtain ⟨x', y', a1, a2, a3⟩ := hb j (by omega)
                exact ⟨x', y', a1, a2, by rw [List.getElem?_insertIdx_of_lt (by omega)]; exact a3⟩

theorem recKind_primitive {s : CodeHash} {t : ValueType} (hk : t.kind ∉ composite ∨ t.kind = .HPACKED) : s.recKind t = .ret Hasher.new := by
  unfold recKind
  rcases hk with hk | hk
  · split <;> rename_i h <;> first | rfl | (rw [h] at hk; simp [composite] at hk)
  · rw [hk]

end CodeHash

/-- **C61** In the table of type hashes, every declared primitive or packed type has the hash 0. -/
theorem c61_primitive_entry (c : Code) (h : CodeHash) (a : alloc c = .ret h) (i : Nat) (hi : i < c.ntypes) (t : ValueType)
    (ht : c.types[i]? = some t) (hk : t.kind ∉ composite ∨ t.kind = .HPACKED) : h.typeHashes[i]? = some 0 := by
  obtain ⟨_, _, ⟨s1, e1, e2⟩, _⟩ := alloc_frame a
  obtain ⟨u, h1, h2⟩ := types_value e1
  obtain ⟨x, y, a1, a2, a3⟩ := h2 i hi
  obtain ⟨x', ⟨t', b1, b2⟩, b3⟩ := h1 i hi
  have b1 : c.types[i]? = some t' := b1
  rw [ht] at b1; cases b1
  rw [c61_primitive_hash t false hk] at b2; cases b2
  rw [a1] at b3; cases b3
  have hr : ∀ s : CodeHash, s.code = c → s.hashTypeRec i = .ret Hasher.new.finalize := by
    rintro s rfl
    unfold hashTypeRec
    rw [get_eq.2 ht]
    simp [recKind_primitive hk]
  rw [hr _ rfl] at a2
  rw [e2, a3]
  cases a2
  decide

/-- **C61** So the hash of a function does not change if a register of a primitive type gets another primitive type. -/
theorem c61_register_not_covered (c : Code) (ch : CodeHash) (a : alloc c = .ret ch) (hashes : List UInt32) (f : HLFunction) (i : Nat) (t t' : ValueType) (hi : f.regs[i]? = some t)
    (ht : c.IsType t) (ht' : c.IsType t') (hk : t.kind ∉ composite) (hk' : t'.kind ∉ composite) :
    hashFun { ch with functionsHashes := hashes } { f with regs := f.regs.set i t' } = hashFun { ch with functionsHashes := hashes } f := by
  have hcode := (alloc_frame a).1
  have zero : ∀ t, c.IsType t → t.kind ∉ composite → CodeHash.typeHash { ch with functionsHashes := hashes } t = .ret 0 := by
    intro t ht hk
    obtain ⟨j, h1, h2, h3⟩ := position_declared ht
    unfold CodeHash.typeHash
    simp only
    rw [hcode, h1]
    simp only [Rust.bind_ret]
    exact get_eq.2 (c61_primitive_entry c ch a j h2 t h3 (Or.inl hk))
  unfold hashFun
  have er : Rust.forRange (hashReg { ch with functionsHashes := hashes } (f.regs.set i t')) 0 f.nregs Hasher.new =
      Rust.forRange (hashReg { ch with functionsHashes := hashes } f.regs) 0 f.nregs Hasher.new := by
    refine forRange_congr _ _ _ fun j _ _ b => ?_
    unfold hashReg Rust.get
    rw [List.getElem?_set]
    split
    · rename_i hij; subst hij
      have hl := (List.getElem?_eq_some_iff.1 hi).1
      rw [if_pos hl, hi]
      simp [writeType, zero t ht hk, zero t' ht' hk']
    · rfl
  rw [er]

/-! ## C55 -/

namespace CodeHash

theorem codeHashType_congr {s s' : CodeHash} (h1 : s'.code = s.code) (h2 : s'.typeHashes = s.typeHashes) (t : ValueType) : s'.codeHashType t = s.codeHashType t := by
  unfold codeHashType writeType typeHash
  rw [h1, h2]

/-- Where a loop over the globals leaves the entry of one global. -/
theorem signs_split {f : Nat → CodeHash → Rust CodeHash} {n i : Nat} {s s' : CodeHash} (hf : ∀ i s s', f i s = .ret s' → Signs (· = i) s s')
    (e : Rust.forRange f 0 n s = .ret s') (hi : i < n) : ∃ a b, Signs (· ≠ i) s a ∧ f i a = .ret b ∧ Signs (· ≠ i) b s' := by
  rw [show n = i + (1 + (n - i - 1)) from by omega, forRange_add] at e
  cases e1 : Rust.forRange f 0 i s with
  | panic => rw [e1] at e; cases e
  | ret a =>
    rw [e1] at e; simp only [Rust.bind_ret, Nat.zero_add] at e
    rw [forRange_add] at e
    cases e2 : f i a with
    | panic => simp [Rust.forRange, e2] at e
    | ret b =>
      simp only [Rust.forRange, e2, Rust.bind_ret] at e
      refine ⟨a, b, ?_, e2, ?_⟩
      · refine (Signs.forRange (K := fun i k => k = i) (s0 := s) _ _ _ _ (fun i _ _ s s' _ e => hf i s s' e) rfl e1).mono ?_
        rintro k ⟨j, _, h2, rfl⟩; omega
      · refine (Signs.forRange (K := fun i k => k = i) (s0 := b) _ _ _ _ (fun i _ _ s s' _ e => hf i s s' e) rfl e).mono ?_
        rintro k ⟨j, h1, h2, rfl⟩; omega

end CodeHash

/-- **C55** The signature of a global that has no other source is its position, with the top bit set, combined with the hash
of its type. -/
theorem c55_signature (p : Profile) (e : Option DecodeError) (buf : List UInt8) (c : Code) (st : St) (h : Code.read p e buf = .ok c st)
    (ch : CodeHash) (a : alloc c = .ret ch) (i : Nat) (hi : i < c.nglobals) (t : ValueType)
    (ht : c.globals[i]? = some t) (hu : Unsourced c i) :
    ∃ x, ch.codeHashType t = .ret x ∧ ch.globalsSigns[i]? = some (UInt32.ofNat (i + 2 ^ 31) ^^^ x) := by
  have L := loaded h
  have H := (c51_alloc_returns_iff p e buf c st h).1 ⟨ch, a⟩
  obtain ⟨S⟩ := stages a
  have hng := L.nglobals
  obtain ⟨a1, b1, g1, g2, g3⟩ := signs_split (fun i s s' e => globalStep_signs e) S.globals hi
  have v1 := globalStep_value g2 (t := t) (by rw [g1.code, S.mid1.code]; exact ht) (hu.notAbstract t ht)
  have v2 : S.s2.globalsSigns[i]? = _ := (g3.same i (by simp)).trans v1
  have v3 : S.s3.globalsSigns[i]? = _ := ((S.signs3 L).same i (by
    rintro ⟨j, t', g, h1, h2, h3, h4⟩
    have hr := H.typeGlobals j t' g h1 h2 h3
    have : g = (i : Int) + 1 := by unfold asUsize at h4; omega
    exact hu.notOfType j t' h1 h2 (by rw [h3, this]))).trans v2
  have v4 : S.s4.globalsSigns[i]? = _ := ((S.signs4 L).same i (by
    rintro ⟨k, h1, h2⟩; exact hu.notOfConstant k h1 h2)).trans v3
  obtain ⟨f, hf, hb⟩ := S.boot_signs L
  have v5 : S.s5.globalsSigns[i]? = _ := (hb.same i (by
    rintro ⟨n, h1, h2, o, x, h3, h4, h5⟩
    obtain ⟨b, hb, _⟩ := h2.2.2.2
    obtain ⟨_, y, hy1, hy2⟩ := H.bootEnums f hf n o b h1 h2 h3 hb
    rw [h4] at hy1; cases hy1
    have : x = (i : Int) := by unfold asUsize at h5; omega
    exact hu.notOfBoot f hf n o h1 h2 h3 (by rw [h4, this]))).trans v4
  obtain ⟨a6, b6, k1, k2, k3⟩ := signs_split (fun i s s' e => globalTypeStep_signs e) S.last hi
  obtain ⟨t', x, g, w1, w2, w3, w4⟩ := globalTypeStep_value k2
  rw [k1.code, (S.mid5 L).code, ht] at w1; cases w1
  rw [k1.same i (by simp), v5] at w3; cases w3
  have hk := globalTypeStep_signs k2
  refine ⟨x, ?_, ?_⟩
  · rw [← w2]
    exact codeHashType_congr (k3.code.trans hk.code) (k3.hashes.trans hk.hashes) t
  · rw [k3.same i (by simp), w4]
    congr 3
    have := Nat.two_pow_add_eq_or_of_lt (i := 31) (b := i) (by omega) 1
    rw [Nat.or_comm, show (0x80000000 : Nat) = 2 ^ 31 * 1 from rfl, ← this]
    omega

/-- **C55** Two globals of the same type without other source have different signatures. -/
theorem c55_distinguished (p : Profile) (e : Option DecodeError) (buf : List UInt8) (c : Code) (st : St) (h : Code.read p e buf = .ok c st)
    (ch : CodeHash) (a : alloc c = .ret ch) (i j : Nat) (hi : i < c.nglobals) (hj : j < c.nglobals) (hij : i ≠ j)
    (ht : c.globals[i]? = c.globals[j]?) (hu : Unsourced c i) (hu' : Unsourced c j) : ch.globalsSigns[i]? ≠ ch.globalsSigns[j]? := by
  have L := loaded h
  have hng := L.nglobals
  have hl := L.globals_length
  have e1 : c.globals[i]? = some c.globals[i] := List.getElem?_eq_getElem (by omega)
  obtain ⟨x, h1, h2⟩ := c55_signature p e buf c st h ch a i hi _ e1 hu
  obtain ⟨y, h3, h4⟩ := c55_signature p e buf c st h ch a j hj _ (ht ▸ e1) hu'
  rw [h1] at h3; cases h3
  rw [h2, h4]
  intro e
  have e := Option.some.inj e
  have e : UInt32.ofNat (i + 2 ^ 31) = UInt32.ofNat (j + 2 ^ 31) := by
    have := congrArg (· ^^^ x) e
    simpa [UInt32.xor_assoc] using this
  have := congrArg UInt32.toNat e
  simp only [UInt32.toNat_ofNat'] at this
  omega

/-! ## Examples -/

/-- A file with the types `u8`, `i32`, `f64`, two globals of type `u8` and one empty function with an `i32` register. -/
def exFile : List UInt8 := [0x48, 0x4C, 0x42, 4, 0, 0, 0, 0, 3, 2, 0, 1, 0, 0, 0, 0, 0, 0, 1, 3, 6, 0, 0, 0, 0, 1, 0, 1]

/-- The same with a first type that refers to the second one. -/
def exForward : List UInt8 := [0x48, 0x4C, 0x42, 4, 0, 0, 0, 0, 2, 0, 0, 1, 0, 0, 0, 0, 0, 0, 14, 1, 3, 0, 0, 0, 0]

theorem returns_of {α : Type} {x : Rust α} (h : Rust.returns x = true) : Returns x := by
  cases x with
  | ret a => exact ⟨a, rfl⟩
  | panic => cases h

theorem not_returns_of {α : Type} {x : Rust α} (h : Rust.returns x = false) : ¬ Returns x := by
  rintro ⟨a, rfl⟩; cases h

/-- What `exFile` decodes to, as far as hashing is concerned. -/
theorem exFile_read : ∃ c s ch, Code.read .release none exFile = .ok c s ∧ alloc c = .ret ch ∧
    c.types = [prim .HUI8, prim .HI32, prim .HF64, .default, .default, .default] ∧ c.globals = [prim .HUI8, prim .HUI8, .default, .default] ∧
    c.ntypes = 3 ∧ c.nglobals = 2 ∧ c.nfunctions = 1 ∧ c.nnatives = 0 ∧ c.functions.length = 1 ∧ (∀ f ∈ c.functions, f.ops = [] ∧ f.regs = [prim .HI32]) ∧
    c.constants = [] := by
  have h : checkOk (Code.read .release none exFile) (fun c => Rust.returns (alloc c) &&
      (beqTypes c.types [prim .HUI8, prim .HI32, prim .HF64, .default, .default, .default] && (beqTypes c.globals [prim .HUI8, prim .HUI8, .default, .default] &&
      (decide (c.ntypes = 3 ∧ c.nglobals = 2 ∧ c.nfunctions = 1 ∧ c.nnatives = 0 ∧ c.functions.length = 1 ∧ c.constants = []) &&
      c.functions.all fun f => decide (f.ops = []) && beqTypes f.regs [prim .HI32])))) = true := by decide +kernel
  obtain ⟨c, s, h1, h2⟩ := checkOk_iff h
  simp only [Bool.and_eq_true, beqTypes_iff, decide_eq_true_eq, List.all_eq_true] at h2
  obtain ⟨a1, a2, a3, ⟨a4, a5, a6, a7, a8, a9⟩, a10⟩ := h2
  obtain ⟨ch, hch⟩ := returns_of a1
  exact ⟨c, s, ch, h1, hch, a2, a3, a4, a5, a6, a7, a8, a10, a9⟩

/-- C51: there are accepted files of both sorts.  (In the second one a type refers to a later type.) -/
theorem c51_both_cases : (∃ c s, Code.read .release none exFile = .ok c s ∧ Hashable c) ∧
    (∃ c s, Code.read .release none exForward = .ok c s ∧ ¬ Hashable c ∧ alloc c = .panic) := by
  constructor
  · obtain ⟨c, s, ch, h1, h2, h3⟩ := exFile_read
    exact ⟨c, s, h1, (c51_alloc_returns_iff _ _ _ c s h1).1 ⟨ch, h2⟩⟩
  · have h : checkOk (Code.read .release none exForward) (fun c => decide (c.nfunctions = 1 ∧ c.nnatives = 0) && !Rust.returns (alloc c)) = true := by decide +kernel
    obtain ⟨c, s, h1, h2⟩ := checkOk_iff h
    simp only [Bool.and_eq_true, decide_eq_true_eq, Bool.not_eq_true'] at h2
    obtain ⟨⟨a1, a2⟩, a3⟩ := h2
    refine ⟨c, s, h1, fun H => not_returns_of a3 ((c51_alloc_returns_iff _ _ _ c s h1).2 H), ?_⟩
    cases e : alloc c with
    | panic => rfl
    | ret x => exact absurd ⟨x, e⟩ (not_returns_of a3)

/-- C52, C55 and C61: the hypotheses are met by `exFile`. -/
example : ∃ c s ch, Code.read .release none exFile = .ok c s ∧ alloc c = .ret ch ∧
    1 < c.nglobals ∧ c.globals[0]? = c.globals[1]? ∧ Unsourced c 0 ∧ Unsourced c 1 ∧
    ∃ f ∈ c.functions, f.regs[0]? = some (prim .HI32) ∧ c.IsType (prim .HI32) ∧ c.IsType (prim .HF64) := by
  obtain ⟨c, s, ch, h1, h2, ht, hg, nt, ng, nf, nn, fl, fo, kc⟩ := exFile_read
  have hu : ∀ i, i < 2 → Unsourced c i := by
    intro i hi
    refine ⟨?_, ?_, ?_, ?_⟩
    · intro t
      rw [hg]
      match i, hi with
      | 0, _ => rintro ⟨⟩; decide
      | 1, _ => rintro ⟨⟩; decide
    · intro j t hj
      rw [ht]
      rw [nt] at hj
      match j, hj with
      | 0, _ => rintro ⟨⟩; simp [globalOf, prim]
      | 1, _ => rintro ⟨⟩; simp [globalOf, prim]
      | 2, _ => rintro ⟨⟩; simp [globalOf, prim]
    · rw [kc]; simp
    · intro f hf n o _ _ ho
      have hm : f ∈ c.functions := by rcases hf with ⟨i, h1, _⟩ | ⟨_, h1⟩ <;> exact List.mem_of_getElem? h1
      rw [(fo f hm).1] at ho; cases ho
  refine ⟨c, s, ch, h1, h2, by omega, by rw [hg]; rfl, hu 0 (by omega), hu 1 (by omega), ?_⟩
  have h0 : 0 < c.functions.length := by omega
  refine ⟨_, List.getElem_mem h0, by rw [(fo _ (List.getElem_mem h0)).2]; rfl, ⟨1, by omega, by rw [ht]; rfl⟩, ⟨2, by omega, by rw [ht]; rfl⟩⟩

/-- A function with owner, as the decoder never produces. -/
def exFun (findex : Nat) (ops : List Opcode) : HLFunction where
  t := prim .HI32
  findex := findex
  nregs := 1
  nops := ops.length
  rf := 0
  regs := [prim .HI32]
  ops := ops
  debug := []
  obj := none
  field := some ⟨[0x66], none⟩

/-- A module with two functions and a native; the first function calls the second one. -/
def exCode (ops : List Opcode) : Code := { Code.new with
  types := [prim .HI32], ntypes := 1
  functions := [exFun 0 [⟨.OCall0, some 0, some 1, none, []⟩], exFun 1 ops], nfunctions := 2
  natives := [⟨[0x61], [0x62], prim .HI32, 2⟩], nnatives := 1 }

/-- C50, C53, C62: the hypotheses are met: `finalize` returns on this module (and on the one with another second function). -/
example : Rust.returns (alloc (exCode []) >>= finalize) = true ∧ Rust.returns (alloc (exCode [⟨.ORet, some 0, none, none, []⟩]) >>= finalize) = true ∧
    DistinctIndexes (exCode []) := by
  refine ⟨by decide +kernel, by decide +kernel, by unfold DistinctIndexes; decide⟩

/-- C59: here the second function calls the native. -/
example : Rust.returns (alloc (exCode [⟨.OCall0, some 0, some 2, none, []⟩])) = true ∧ DistinctIndexes (exCode [⟨.OCall0, some 0, some 2, none, []⟩]) ∧
    Rust.returns (alloc (exCode [⟨.OCall0, some 0, some 2, none, []⟩]) >>= finalize) = false := by
  refine ⟨by decide +kernel, by unfold DistinctIndexes; decide, by decide +kernel⟩

/-- **C53** (the defect, concrete) With one native the signature of the first function is lost, and nothing is stored at the
position of the native. -/
theorem c53_signature_lost : ∃ s s' : CodeHash, alloc (exCode []) = .ret s ∧ finalize s = .ret s' ∧
    (∃ x, s.hashFunSign (exFun 0 [⟨.OCall0, some 0, some 1, none, []⟩]) = .ret x ∧ s'.functionsSigns[0]? ≠ some x) ∧ s'.functionsSigns[2]? = some 0 := by
  have h : (match alloc (exCode []) with
    | .panic => false
    | .ret s => match finalize s with
      | .panic => false
      | .ret s' => decide (s'.functionsSigns[2]? = some 0 ∧ s.hashFunSign (exFun 0 [⟨.OCall0, some 0, some 1, none, []⟩]) ≠ .panic ∧
          ∀ x ∈ s'.functionsSigns[0]?, s.hashFunSign (exFun 0 [⟨.OCall0, some 0, some 1, none, []⟩]) ≠ .ret x)) = true := by decide +kernel
  split at h
  · cases h
  · rename_i s e
    split at h
    · cases h
    · rename_i s' e'
      obtain ⟨h1, h3, h2⟩ := of_decide_eq_true h
      cases hx : s.hashFunSign (exFun 0 [⟨.OCall0, some 0, some 1, none, []⟩]) with
      | panic => exact absurd hx h3
      | ret x => exact ⟨s, s', e, e', ⟨x, hx, fun hx' => h2 x hx' hx⟩, h1⟩

/-- **C62** (concrete) The first function calls the second one; changing the second one changes only its own hash. -/
theorem c62_caller_unchanged : ∃ s s' t t' : CodeHash, alloc (exCode []) = .ret s ∧ finalize s = .ret s' ∧
    alloc (exCode [⟨.ORet, some 0, none, none, []⟩]) = .ret t ∧ finalize t = .ret t' ∧
    s'.functionsHashes[0]? = t'.functionsHashes[0]? ∧ s'.functionsHashes[1]? ≠ t'.functionsHashes[1]? := by
  have h : (match alloc (exCode []) with
    | .panic => false
    | .ret s => match finalize s with
      | .panic => false
      | .ret s' => match alloc (exCode [⟨.ORet, some 0, none, none, []⟩]) with
        | .panic => false
        | .ret t => match finalize t with
          | .panic => false
          | .ret t' => decide (s'.functionsHashes[0]? = t'.functionsHashes[0]? ∧ s'.functionsHashes[1]? ≠ t'.functionsHashes[1]?)) = true := by decide +kernel
  split at h
  · cases h
  · rename_i s e
    split at h
    · cases h
    · rename_i s' e'
      split at h
      · cases h
      · rename_i t f
        split at h
        · cases h
        · rename_i t' f'
          exact ⟨s, s', t, t', e, e', f, f', of_decide_eq_true h⟩

end Verif.Brass
