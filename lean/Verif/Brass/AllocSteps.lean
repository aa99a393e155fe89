import Verif.Brass.AllocLemmas

/-!
# The steps of `CodeHash::alloc` after the type hashes
-/

namespace Verif.Brass

open Verif Verif.Brass.Spec

theorem asUsize_nat {n : Nat} (h : n < 2 ^ 64) : asUsize (n : Int) = n := by
  unfold asUsize
  rw [Int.emod_eq_of_lt (by omega) (by omega)]; rfl
theorem wrapped_eq (n : Nat) : asI32 n = Spec.wrapped n := by
  unfold asI32 Spec.wrapped
  split <;> omega

theorem asI32_small {n : Nat} (h : n < 2 ^ 31) : asI32 n = n := by
  unfold asI32
  rw [Nat.mod_eq_of_lt (by omega), if_pos h]
theorem asUsize_asI32 {n : Nat} (h : n < 2 ^ 31) : asUsize (asI32 n) = n := by
  rw [asI32_small h, asUsize_nat (by omega)]

/-- A position that wraps around in `as i32` is not found again by `as usize`. -/
theorem asUsize_asI32_ge {n m : Nat} (h : n < 2 ^ 32) (hm : m < 2 ^ 31) (h' : m ≤ n) : m ≤ asUsize (asI32 n) := by
  unfold asUsize asI32
  split <;> omega

/-- `x as usize` is below a small bound exactly if `x` is. -/
theorem asUsize_lt {x : Int} {n : Nat} (h1 : -2 ^ 63 ≤ x) (h2 : x < 2 ^ 63) (hn : n < 2 ^ 63) : asUsize x < n ↔ 0 ≤ x ∧ x < n := by
  unfold asUsize
  omega

theorem exists_last (P : Nat → Prop) (n : Nat) : (∀ i, i < n → ¬ P i) ∨ ∃ i, i < n ∧ P i ∧ ∀ j, i < j → j < n → ¬ P j := by
  induction n with
  | zero => exact Or.inl fun i h => by omega
  | succ n ih =>
    by_cases hp : P n
    · exact Or.inr ⟨n, by omega, hp, fun j h1 h2 => by omega⟩
    · rcases ih with ih | ⟨i, h1, h2, h3⟩
      · refine Or.inl fun i hi => ?_
        by_cases hin : i = n
        · subst hin; exact hp
        · exact ih i (by omega)
      · refine Or.inr ⟨i, by omega, h2, fun j h4 h5 => ?_⟩
        by_cases hjn : j = n
        · subst hjn; exact hp
        · exact h3 j h4 (by omega)

theorem boot_unique {c : Code} {f f' : HLFunction} (h : BootFunction c f) (h' : BootFunction c f') : f = f' := by
  rcases h with ⟨i, h1, h2, h3⟩ | ⟨h1, h2⟩
  · rcases h' with ⟨i', h1', h2', h3'⟩ | ⟨h1', h2'⟩
    · rcases Nat.lt_trichotomy i i' with h | h | h
      · exact absurd h2' (h3 i' f' h h1')
      · subst h; rw [h1] at h1'; cases h1'; rfl
      · exact absurd h2 (h3' i f h h1)
    · exact absurd h2 (h1' f (List.mem_of_getElem? h1))
  · rcases h' with ⟨i', h1', h2', h3'⟩ | ⟨h1', h2'⟩
    · exact absurd h2' (h1 f' (List.mem_of_getElem? h1'))
    · rw [h2] at h2'; cases h2'; rfl

namespace CodeHash

/-! ## The boot function -/

variable {c : Code} {v : List Int}

/-- What `functions_indexes` holds at a position. -/
theorem indexes_cases (h : Loaded c) (e : indexes c (init c).functionsIndexes = .ret v) (x : Nat)
    (hx : x < c.nfunctions + c.nnatives) :
    (∃ (i : Nat) (n : Native), c.natives[i]? = some n ∧ n.findex = x ∧ v[x]? = some (asI32 (i + c.nfunctions)) ∧ i < c.nnatives ∧
      ∀ (j : Nat) m, i < j → c.natives[j]? = some m → m.findex ≠ x) ∨
    ((∀ n ∈ c.natives, n.findex ≠ x) ∧ ∃ (i : Nat) (f : HLFunction), c.functions[i]? = some f ∧ f.findex = x ∧ v[x]? = some (asI32 i) ∧ i < 2 ^ 31 ∧
      ∀ (j : Nat) g, i < j → c.functions[j]? = some g → g.findex ≠ x) ∨
    ((∀ n ∈ c.natives, n.findex ≠ x) ∧ (∀ f ∈ c.functions, f.findex ≠ x) ∧ v[x]? = some 0) := by
  obtain ⟨u, h1, h2⟩ := indexes_assigned e
  have hn := h.natives
  have hf := h.functions
  have hf31 := h.nfunctions
  rcases exists_last (fun i => nativeKey c i = some x) c.nnatives with h3 | ⟨i, h3, h4, h5⟩
  · right
    have h2' := h2.other x h3
    have hno : ∀ n ∈ c.natives, n.findex ≠ x := by
      intro n hn' e
      obtain ⟨i, hi, e'⟩ := List.mem_iff_getElem.1 hn'
      exact h3 i (by omega) (by simp [nativeKey, List.getElem?_eq_getElem hi, e', e])
    rcases exists_last (fun i => functionKey c i = some x) c.nfunctions with h6 | ⟨i, h6, h7, h8⟩
    · right
      refine ⟨hno, ?_, ?_⟩
      · intro f hf' e
        obtain ⟨i, hi, e'⟩ := List.mem_iff_getElem.1 hf'
        exact h6 i (by omega) (by simp [functionKey, List.getElem?_eq_getElem hi, e', e])
      · rw [h2', h1.other x h6]
        simp only [init, List.getElem?_replicate, hx, if_true]
    · left
      refine ⟨hno, ?_⟩
      obtain ⟨f, e1, e2⟩ : ∃ f, c.functions[i]? = some f ∧ f.findex = x := by
        simp only [functionKey] at h7
        cases h : c.functions[i]? with
        | none => rw [h] at h7; cases h7
        | some f => rw [h] at h7; exact ⟨f, rfl, by simpa using h7⟩
      refine ⟨i, f, e1, e2, by rw [h2']; exact h1.last i x h6 h7 h8, by omega, ?_⟩
      intro j g hj hg e
      have hj' : j < c.functions.length := by
        rcases Nat.lt_or_ge j c.functions.length with h | h
        · exact h
        · rw [List.getElem?_eq_none h] at hg; cases hg
      exact h8 j hj (by omega) (by simp [functionKey, hg, e])
  · left
    obtain ⟨n, e1, e2⟩ : ∃ n, c.natives[i]? = some n ∧ n.findex = x := by
      simp only [nativeKey] at h4
      cases h : c.natives[i]? with
      | none => rw [h] at h4; cases h4
      | some f => rw [h] at h4; exact ⟨f, rfl, by simpa using h4⟩
    refine ⟨i, n, e1, e2, h2.last i x h3 h4 h5, h3, ?_⟩
    intro j m hj hm e
    have hj' : j < c.natives.length := (List.getElem?_eq_some_iff.1 hm).1
    exact h5 j hj (by omega) (by simp [nativeKey, hm, e])

theorem indexes_length (e : indexes c (init c).functionsIndexes = .ret v) : v.length = c.nfunctions + c.nnatives := by
  obtain ⟨u, h1, h2⟩ := indexes_assigned e
  rw [h2.length, h1.length]; simp [init]

/-- The function found is the boot function. -/
theorem boot_found (h : Loaded c) (e : indexes c (init c).functionsIndexes = .ret v) {j : Int} {f : HLFunction}
    (hj : v[c.entrypoint]? = some j) (hf : c.functions[asUsize j]? = some f) :
    BootFunction c f ∧ c.entrypoint < c.nfunctions + c.nnatives ∧ 0 < c.nfunctions ∧ ∀ n ∈ c.natives, n.findex ≠ c.entrypoint := by
  have hx : c.entrypoint < c.nfunctions + c.nnatives := by
    rw [← indexes_length e]
    rcases Nat.lt_or_ge c.entrypoint v.length with h | h
    · exact h
    · rw [List.getElem?_eq_none h] at hj; cases hj
  have hlt : asUsize j < c.nfunctions := by
    rw [← h.functions]
    rcases Nat.lt_or_ge (asUsize j) c.functions.length with h | h
    · exact h
    · rw [List.getElem?_eq_none h] at hf; cases hf
  rcases indexes_cases h e _ hx with ⟨i, n, _, _, h3, h4, _⟩ | ⟨hno, i, g, h1, h2, h3, h4, h5⟩ | ⟨hno, h1, h2⟩
  · rw [h3] at hj; cases hj
    have := h.nfunctions
    have := h.nnatives
    have := asUsize_asI32_ge (n := i + c.nfunctions) (m := c.nfunctions) (by omega) (by omega) (by omega)
    omega
  · rw [h3] at hj; cases hj
    rw [asUsize_asI32 h4] at hf
    rw [h1] at hf; cases hf
    exact ⟨Or.inl ⟨i, h1, h2, h5⟩, hx, by omega, hno⟩
  · rw [h2] at hj; cases hj
    exact ⟨Or.inr ⟨h1, hf⟩, hx, by omega, hno⟩

/-- A function is found. -/
theorem boot_finds (h : Loaded c) (e : indexes c (init c).functionsIndexes = .ret v)
    (hx : c.entrypoint < c.nfunctions + c.nnatives) (hf : 0 < c.nfunctions) (hn : ∀ n ∈ c.natives, n.findex ≠ c.entrypoint) :
    ∃ j f, v[c.entrypoint]? = some j ∧ c.functions[asUsize j]? = some f := by
  rcases indexes_cases h e _ hx with ⟨i, n, h1, h2, _⟩ | ⟨_, i, g, h1, h2, h3, h4, h5⟩ | ⟨_, h1, h2⟩
  · exact absurd h2 (hn n (List.mem_of_getElem? h1))
  · exact ⟨_, g, h3, by rw [asUsize_asI32 h4]; exact h1⟩
  · exact ⟨0, _, h2, List.getElem?_eq_getElem (by rw [h.functions]; exact hf)⟩

/-! ## Steps on the signatures -/

/-- Between `s` and `s'` only signatures of globals in `K` changed. -/
structure Signs (K : Nat → Prop) (s s' : CodeHash) : Prop where
  code : s'.code = s.code
  indexes : s'.functionsIndexes = s.functionsIndexes
  hashes : s'.typeHashes = s.typeHashes
  fsigns : s'.functionsSigns = s.functionsSigns
  fhashes : s'.functionsHashes = s.functionsHashes
  length : s'.globalsSigns.length = s.globalsSigns.length
  same : ∀ k, ¬ K k → s'.globalsSigns[k]? = s.globalsSigns[k]?

namespace Signs

theorem refl (K : Nat → Prop) (s : CodeHash) : Signs K s s := ⟨rfl, rfl, rfl, rfl, rfl, rfl, fun _ _ => rfl⟩
theorem trans {K L : Nat → Prop} {s s' s'' : CodeHash} (h : Signs K s s') (h' : Signs L s' s'') : Signs (fun k => K k ∨ L k) s s'' :=
  ⟨h'.code.trans h.code, h'.indexes.trans h.indexes, h'.hashes.trans h.hashes, h'.fsigns.trans h.fsigns, h'.fhashes.trans h.fhashes,
    h'.length.trans h.length, fun k hk => (h'.same k fun e => hk (Or.inr e)).trans (h.same k fun e => hk (Or.inl e))⟩
theorem mono {K L : Nat → Prop} {s s' : CodeHash} (h : Signs K s s') (hKL : ∀ k, K k → L k) : Signs L s s' :=
  { h with same := fun k hk => h.same k fun e => hk (hKL k e) }
theorem set {K : Nat → Prop} {s s' : CodeHash} {k : Nat} {x : UInt32} (hk : K k)
    (e : (Rust.set s.globalsSigns k x >>= fun v => pure { s with globalsSigns := v }) = .ret s') : Signs K s s' := by
  cases e1 : Rust.set s.globalsSigns k x with
  | panic => rw [e1] at e; cases e
  | ret w =>
    rw [e1] at e
    cases e
    obtain ⟨_, rfl⟩ := set_eq.1 e1
    refine ⟨rfl, rfl, rfl, rfl, rfl, by simp, fun j hj => ?_⟩
    simp only [List.getElem?_set]
    rw [if_neg (fun e : k = j => hj (e ▸ hk))]

theorem forRange {f : Nat → CodeHash → Rust CodeHash} {K : Nat → Nat → Prop} {s0 : CodeHash} :
    ∀ n a s s', (∀ i, a ≤ i → i < a + n → ∀ s s', s.code = s0.code → f i s = .ret s' → Signs (K i) s s') → s.code = s0.code →
    Rust.forRange f a n s = .ret s' → Signs (fun k => ∃ i, a ≤ i ∧ i < a + n ∧ K i k) s s'
  | 0, a, s, s', _, _, e => by cases e; exact refl _ _
  | n + 1, a, s, s', h, hc, e => by
    simp only [Rust.forRange] at e
    cases e1 : f a s with
    | panic => rw [e1] at e; cases e
    | ret s1 =>
      rw [e1] at e
      have h1 := h a (Nat.le_refl _) (by omega) _ _ hc e1
      have h2 := forRange n (a + 1) s1 s' (fun i h1 h2 => h i (by omega) (by omega)) (h1.code.trans hc) e
      refine (h1.trans h2).mono ?_
      rintro k (hk | ⟨i, h3, h4, h5⟩)
      · exact ⟨a, Nat.le_refl _, by omega, hk⟩
      · exact ⟨i, by omega, by omega, h5⟩

end Signs

theorem globalStep_signs {i : Nat} {s s' : CodeHash} (e : globalStep i s = .ret s') : Signs (· = i) s s' := by
  unfold globalStep at e
  cases e1 : Rust.set s.globalsSigns i (UInt32.ofNat (i ||| 0x80000000)) with
  | panic => rw [e1] at e; cases e
  | ret w =>
    simp only [e1, Rust.bind_ret] at e
    obtain ⟨hi, rfl⟩ := set_eq.1 e1
    cases e2 : Rust.get s.code.globals i with
    | panic => simp [e2] at e
    | ret t =>
      simp only [e2, Rust.bind_ret] at e
      split at e
      · cases e3 : s.codeHashType t with
        | panic => simp [e3] at e
        | ret x =>
          simp only [e3, Rust.bind_ret, Rust.set, List.length_set, hi, if_true, Rust.pure_eq, Rust.ret.injEq] at e
          subst e
          refine ⟨rfl, rfl, rfl, rfl, rfl, by simp, fun k hk => ?_⟩
          simp only [List.getElem?_set]
          rw [if_neg (fun e => hk e.symm), if_neg (fun e => hk e.symm)]
      · cases e
        refine ⟨rfl, rfl, rfl, rfl, rfl, by simp, fun k hk => ?_⟩
        simp only [List.getElem?_set]
        rw [if_neg (fun e => hk e.symm)]

/-- The signature that the first step gives to a global that is not abstract. -/
theorem globalStep_value {i : Nat} {s s' : CodeHash} (e : globalStep i s = .ret s') {t : ValueType} (ht : s.code.globals[i]? = some t)
    (hk : t.kind ≠ .HABSTRACT) : s'.globalsSigns[i]? = some (UInt32.ofNat (i ||| 0x80000000)) := by
  unfold globalStep at e
  cases e1 : Rust.set s.globalsSigns i (UInt32.ofNat (i ||| 0x80000000)) with
  | panic => rw [e1] at e; cases e
  | ret w =>
    simp only [e1, Rust.bind_ret, get_eq.2 ht, if_neg hk, Rust.pure_eq, Rust.ret.injEq] at e
    obtain ⟨hi, rfl⟩ := set_eq.1 e1
    subst e
    simp [hi]

theorem signGlobalOf_signs {s s' : CodeHash} {t : ValueType} {g : List Int} (e : s.signGlobalOf t g = .ret s') :
    Signs (fun k => ∃ x, g[0]? = some x ∧ asUsize (x - 1) = k) s s' := by
  unfold signGlobalOf at e
  cases e1 : s.codeHashType t with
  | panic => simp [e1] at e
  | ret x =>
    simp only [e1, Rust.bind_ret] at e
    cases e2 : Rust.get g 0 with
    | panic => simp [e2] at e
    | ret y =>
      simp only [e2, Rust.bind_ret] at e
      exact Signs.set ⟨y, get_eq.1 e2, rfl⟩ e

theorem typeGlobalStep_eq {i : Nat} {s : CodeHash} {t : ValueType} (ht : s.code.types[i]? = some t) (hw : WellFormed t) :
    typeGlobalStep i s = match globalOf t with
      | some g => s.signGlobalOf t [g]
      | none => .ret s := by
  unfold typeGlobalStep
  rw [get_eq.2 ht]
  simp only [Rust.bind_ret]
  obtain ⟨u, a, p, k⟩ := t
  cases k <;> simp only [WellFormed] at hw
  case HOBJ | HSTRUCT => obtain ⟨name, sup, fields, proto, bindings, nb, g, rfl, _, _, rfl, rfl⟩ := hw; rfl
  case HENUM => obtain ⟨name, cs, g, rfl, hc, _, rfl, rfl⟩ := hw; rfl
  all_goals rfl

theorem typeGlobalStep_signs {i : Nat} {s s' : CodeHash} {t : ValueType} (ht : s.code.types[i]? = some t) (hw : WellFormed t) (e : typeGlobalStep i s = .ret s') :
    Signs (fun k => ∃ g, globalOf t = some g ∧ asUsize (g - 1) = k) s s' := by
  rw [typeGlobalStep_eq ht hw] at e
  split at e
  · rename_i g hg
    refine (signGlobalOf_signs e).mono ?_
    rintro k ⟨x, hx, hk⟩
    cases hx
    exact ⟨g, hg, hk⟩
  · cases e; exact Signs.refl _ _

theorem globalOf_lt {t : ValueType} {g : Int} (hw : WellFormed t) (h : globalOf t = some g) : 0 ≤ g ∧ g < 2 ^ 31 := by
  obtain ⟨u, a, p, k⟩ := t
  cases k <;> simp only [WellFormed] at hw
  case HOBJ | HSTRUCT => obtain ⟨name, sup, fields, proto, bindings, nb, g', rfl, _, _, rfl, rfl⟩ := hw; cases h; omega
  case HENUM => obtain ⟨name, cs, g', rfl, hc, _, rfl, rfl⟩ := hw; cases h; omega
  all_goals cases h

theorem signGlobalOf_returns {s : CodeHash} {t : ValueType} {g : Int} (ht : Returns (s.typeHash t)) (h1 : -2 ^ 62 ≤ g) (h2 : g < 2 ^ 62)
    (hl : s.globalsSigns.length < 2 ^ 62) : Returns (s.signGlobalOf t [g]) ↔ 1 ≤ g ∧ g ≤ s.globalsSigns.length := by
  unfold signGlobalOf
  obtain ⟨x, hx⟩ := codeHashType_returns.2 ht
  rw [hx]
  simp only [Rust.bind_ret, Rust.get, List.getElem?_cons_zero, Rust.unwrap_some]
  rw [returns_bind]
  have h3 : Returns (Rust.set s.globalsSigns (asUsize (g - 1)) x) ↔ 1 ≤ g ∧ g ≤ s.globalsSigns.length := by
    rw [returns_set, asUsize_lt (by omega) (by omega) (by omega)]
    omega
  rw [← h3]
  exact ⟨fun ⟨a, e, _⟩ => ⟨a, e⟩, fun ⟨a, e⟩ => ⟨a, e, _, rfl⟩⟩

theorem constantStep_signs {i : Nat} {s s' : CodeHash} (e : constantStep i s = .ret s') :
    Signs (fun k => ∃ con, s.code.constants[i]? = some con ∧ con.global = k) s s' := by
  unfold constantStep at e
  cases e1 : Rust.get s.code.constants i with
  | panic => simp [e1] at e
  | ret con =>
    simp only [e1, Rust.bind_ret] at e
    cases e2 : Rust.get s.code.globals con.global with
    | panic => simp [e2] at e
    | ret tt =>
      simp only [e2, Rust.bind_ret] at e
      cases e3 : Rust.forRange (constantField s.code con tt) 0 con.nfields Hasher.new with
      | panic => simp [e3] at e
      | ret h =>
        simp only [e3, Rust.bind_ret] at e
        exact Signs.set ⟨con, get_eq.1 e1, rfl⟩ e

theorem bootStep_signs {f : HLFunction} {i : Nat} {s s' : CodeHash} (e : bootStep f i s = .ret s') :
    Signs (fun k => enumSet s.code f i ∧ ∃ o x, f.ops[i]? = some o ∧ o.p1 = some x ∧ asUsize x = k) s s' := by
  unfold bootStep at e
  cases e1 : Rust.get f.ops i with
  | panic => simp [e1] at e
  | ret op =>
    simp only [e1, Rust.bind_ret] at e
    split at e
    case isFalse => cases e; exact Signs.refl _ _
    rename_i h1
    cases e2 : Rust.get s.code.globals i with
    | panic => simp [e2] at e
    | ret t =>
      simp only [e2, Rust.bind_ret] at e
      split at e
      case isFalse => cases e; exact Signs.refl _ _
      rename_i h2
      cases e3 : Rust.get f.ops (i - 2) with
      | panic => simp [e3] at e
      | ret a =>
        simp only [e3, Rust.bind_ret] at e
        split at e
        case isFalse => cases e; exact Signs.refl _ _
        rename_i h3
        cases e4 : Rust.get f.ops (i - 3) with
        | panic => simp [e4] at e
        | ret b =>
          simp only [e4, Rust.bind_ret] at e
          split at e
          case isFalse => cases e; exact Signs.refl _ _
          rename_i h4
          cases e5 : Rust.unwrap b.p2 with
          | panic => simp [e5] at e
          | ret p2 =>
            simp only [e5, Rust.bind_ret] at e
            cases e6 : Rust.get s.code.ints (asUsize p2) with
            | panic => simp [e6] at e
            | ret x =>
              simp only [e6, Rust.bind_ret] at e
              cases e7 : op.p1 with
              | none => simp [e7] at e
              | some p1 =>
                simp only [e7, Rust.unwrap_some, Rust.bind_ret] at e
                exact Signs.set ⟨⟨⟨op, get_eq.1 e1, h1⟩, ⟨t, get_eq.1 e2, h2⟩, ⟨a, get_eq.1 e3, h3⟩, ⟨b, get_eq.1 e4, h4⟩⟩, op, p1, get_eq.1 e1, e7, rfl⟩ e

theorem globalTypeStep_signs {i : Nat} {s s' : CodeHash} (e : globalTypeStep i s = .ret s') : Signs (· = i) s s' := by
  unfold globalTypeStep at e
  cases e1 : Rust.get s.code.globals i with
  | panic => simp [e1] at e
  | ret t =>
    simp only [e1, Rust.bind_ret] at e
    cases e2 : s.codeHashType t with
    | panic => simp [e2] at e
    | ret x =>
      simp only [e2, Rust.bind_ret] at e
      cases e3 : Rust.get s.globalsSigns i with
      | panic => simp [e3] at e
      | ret g =>
        simp only [e3, Rust.bind_ret] at e
        exact Signs.set rfl e

/-- The last step adds the hash of the type. -/
theorem globalTypeStep_value {i : Nat} {s s' : CodeHash} (e : globalTypeStep i s = .ret s') :
    ∃ t x g, s.code.globals[i]? = some t ∧ s.codeHashType t = .ret x ∧ s.globalsSigns[i]? = some g ∧ s'.globalsSigns[i]? = some (g ^^^ x) := by
  unfold globalTypeStep at e
  cases e1 : Rust.get s.code.globals i with
  | panic => simp [e1] at e
  | ret t =>
    simp only [e1, Rust.bind_ret] at e
    cases e2 : s.codeHashType t with
    | panic => simp [e2] at e
    | ret x =>
      simp only [e2, Rust.bind_ret] at e
      cases e3 : Rust.get s.globalsSigns i with
      | panic => simp [e3] at e
      | ret g =>
        simp only [e3, Rust.bind_ret] at e
        cases e4 : Rust.set s.globalsSigns i (g ^^^ x) with
        | panic => simp [e4] at e
        | ret w =>
          simp only [e4, Rust.bind_ret, Rust.pure_eq, Rust.ret.injEq] at e
          subst e
          obtain ⟨hi, rfl⟩ := set_eq.1 e4
          exact ⟨t, x, g, get_eq.1 e1, e2, get_eq.1 e3, by simp [hi]⟩

/-! ## When the steps return -/

variable {W : List UInt32} {s : CodeHash}

theorem Mid.of_signs {K : Nat → Prop} {s' : CodeHash} (h : Mid c v W s) (hs : Signs K s s') : Mid c v W s' :=
  ⟨hs.code.trans h.code, hs.indexes.trans h.indexes, hs.hashes.trans h.hashes, hs.length.trans h.signs⟩

theorem Mid.typeHash (h : Mid c v W s) (hW : W.length = 2 * c.ntypes) {t : ValueType} (ht : c.IsType t) : Returns (s.typeHash t) :=
  typeHash_declared (by rw [h.code]; exact ht) (by rw [h.code, h.hashes, hW]; omega)

theorem globalStep_returns (hc : Loaded c) (hW : W.length = 2 * c.ntypes) (h : Mid c v W s) {i : Nat} (hi : i < c.nglobals) : Returns (globalStep i s) := by
  have hl := hc.globals_length
  obtain ⟨t, ht⟩ : ∃ t, c.globals[i]? = some t := ⟨_, List.getElem?_eq_getElem (by omega)⟩
  obtain ⟨x, hx⟩ := codeHashType_returns.2 (h.typeHash hW (hc.globalsRefer i t hi ht))
  unfold globalStep
  obtain ⟨w, hw⟩ := (returns_set (x := UInt32.ofNat (i ||| 0x80000000))).2 (show i < s.globalsSigns.length by rw [h.signs]; exact hi)
  rw [hw, h.code, get_eq.2 ht]
  simp only [Rust.bind_ret]
  split
  · rw [hx]
    simp only [Rust.bind_ret]
    rw [returns_bind]
    obtain ⟨w', hw'⟩ := (returns_set (x := x)).2 (show i < w.length by rw [(set_eq.1 hw).2]; simp [h.signs, hi])
    exact ⟨w', hw', _, rfl⟩
  · exact ⟨_, rfl⟩

theorem typeGlobalStep_returns (hc : Loaded c) (hW : W.length = 2 * c.ntypes) (h : Mid c v W s) {i : Nat} (hi : i < c.ntypes) :
    Returns (typeGlobalStep i s) ↔ ∀ t g, c.types[i]? = some t → globalOf t = some g → 1 ≤ g ∧ g ≤ c.nglobals := by
  obtain ⟨t, ht⟩ := hc.declared hi
  have hw := hc.typesOk i t hi ht
  rw [typeGlobalStep_eq (by rw [h.code]; exact ht) hw]
  simp only [ht, Option.some.injEq]
  cases hg : globalOf t with
  | none =>
    simp only [returns_ret, true_iff]
    rintro t' g rfl h'
    rw [hg] at h'; cases h'
  | some g =>
    have hb := globalOf_lt hw hg
    have hn := hc.nglobals
    simp only
    rw [signGlobalOf_returns (h.typeHash hW ⟨i, hi, ht⟩) (by omega) (by omega) (by rw [h.signs]; omega), h.signs]
    constructor
    · rintro h1 t' g' rfl h2
      rw [hg] at h2; cases h2; exact h1
    · intro h1; exact h1 t g rfl hg

theorem constantField_returns {con : Constant} {tt : ValueType} {k : Nat} (hk : k < con.fields.length) {h : Hasher} :
    Returns (constantField c con tt k h) ↔ ∀ ts x, objectFields tt = some ts → con.fields[k]? = some x →
      ∃ t, ts[k]? = some t ∧ (t.kind = .HI32 → x < c.ints.length) ∧ (t.kind = .HBYTES → x < c.strings.length) := by
  unfold constantField
  rw [get_eq.2 (List.getElem?_eq_getElem hk), List.getElem?_eq_getElem hk]
  simp only [Rust.bind_ret, Option.some.injEq]
  generalize con.fields[k] = x
  obtain ⟨u, a, p, kd⟩ := tt
  cases u
  case obj name sup fields nf np nb pr bi g rt =>
    simp only [objectFields, Option.some.injEq]
    constructor
    · rintro h1 ts x' rfl rfl
      obtain ⟨f, e, h2⟩ := returns_bind.1 h1
      refine ⟨f.t, by rw [List.getElem?_map, get_eq.1 e]; rfl, ?_, ?_⟩
      · intro hkd
        rw [hkd] at h2
        obtain ⟨y, e2, _⟩ := returns_bind.1 h2
        exact returns_get.1 ⟨y, e2⟩
      · intro hkd
        rw [hkd] at h2
        obtain ⟨y, e2, _⟩ := returns_bind.1 h2
        exact returns_get.1 ⟨y, e2⟩
    · intro h1
      obtain ⟨t, e, h2, h3⟩ := h1 _ x rfl rfl
      rw [List.getElem?_map] at e
      cases hf : fields[k]? with
      | none => rw [hf] at e; cases e
      | some f =>
        rw [hf] at e
        cases e
        rw [get_eq.2 hf]
        simp only [Rust.bind_ret]
        split
        · rename_i hkd
          obtain ⟨y, e⟩ := returns_get.2 (h2 hkd)
          exact ⟨_, by rw [e]; rfl⟩
        · rename_i hkd
          obtain ⟨y, e⟩ := returns_get.2 (h3 hkd)
          exact ⟨_, by rw [e]; rfl⟩
        · exact ⟨_, rfl⟩
  all_goals simp [objectFields, returns_ret]

theorem constantStep_returns (hc : Loaded c) (h : Mid c v W s) {i : Nat} {con : Constant} (hi : c.constants[i]? = some con) :
    Returns (constantStep i s) ↔ con.global < c.nglobals ∧ ∀ (g : ValueType) (ts : List ValueType), c.globals[con.global]? = some g → objectFields g = some ts →
      ∀ (j x : Nat), con.fields[j]? = some x → ∃ t : ValueType, ts[j]? = some t ∧ (t.kind = .HI32 → x < c.ints.length) ∧ (t.kind = .HBYTES → x < c.strings.length) := by
  have hl := hc.globals_length
  have hn := hc.constantsOk con (List.mem_of_getElem? hi)
  unfold constantStep
  rw [h.code, get_eq.2 hi]
  simp only [Rust.bind_ret]
  have hloop : ∀ tt, Returns (Rust.forRange (constantField c con tt) 0 con.nfields Hasher.new) ↔
      ∀ k, 0 ≤ k → k < 0 + con.nfields → ∀ ts x, objectFields tt = some ts → con.fields[k]? = some x →
      ∃ t, ts[k]? = some t ∧ (t.kind = .HI32 → x < c.ints.length) ∧ (t.kind = .HBYTES → x < c.strings.length) := by
    intro tt
    exact forRange_iff (Inv := fun _ => True) _ _ _ (fun k _ hk b _ => constantField_returns (by omega)) (fun _ _ _ _ _ _ _ => trivial) trivial
  rw [returns_bind]
  constructor
  · rintro ⟨tt, e1, h1⟩
    obtain ⟨hh, e2, h2⟩ := returns_bind.1 h1
    obtain ⟨w, e3, _⟩ := returns_bind.1 h2
    refine ⟨by rw [← h.signs]; exact returns_set.1 ⟨w, e3⟩, ?_⟩
    intro g ts hg hts j x hx
    rw [get_eq.1 e1] at hg
    cases hg
    refine (hloop _).1 ⟨hh, e2⟩ j (Nat.zero_le _) ?_ ts x hts hx
    rcases Nat.lt_or_ge j con.fields.length with h' | h'
    · omega
    · rw [List.getElem?_eq_none h'] at hx; cases hx
  · rintro ⟨h1, h2⟩
    obtain ⟨tt, ht⟩ : ∃ t, c.globals[con.global]? = some t := ⟨_, List.getElem?_eq_getElem (by omega)⟩
    obtain ⟨hh, e2⟩ := (hloop tt).2 fun k _ _ ts x h3 h4 => h2 tt ts ht h3 k x h4
    refine ⟨tt, get_eq.2 ht, returns_bind.2 ⟨hh, e2, returns_bind.2 ?_⟩⟩
    obtain ⟨w, e3⟩ := (returns_set (x := hh.finalize)).2 (show con.global < s.globalsSigns.length by rw [h.signs]; exact h1)
    exact ⟨w, e3, _, rfl⟩

/-- What an instruction of the boot function must satisfy. -/
def BootOk (c : Code) (f : HLFunction) (i : Nat) : Prop :=
  (∀ o, f.ops[i]? = some o → o.op = .OSetGlobal → i < 2 * c.nglobals) ∧
  ∀ o b, enumSet c f i → f.ops[i]? = some o → f.ops[i - 3]? = some b →
    (∃ x, b.p2 = some x ∧ asUsize x < c.ints.length) ∧ (∃ x, o.p1 = some x ∧ asUsize x < c.nglobals)

theorem bootStep_returns (hc : Loaded c) (h : Mid c v W s) {f : HLFunction} {i : Nat} (hi : i < f.ops.length) :
    Returns (bootStep f i s) ↔ BootOk c f i := by
  have hl := hc.globals_length
  obtain ⟨op, e1⟩ : ∃ o, f.ops[i]? = some o := ⟨_, List.getElem?_eq_getElem hi⟩
  unfold bootStep BootOk
  rw [get_eq.2 e1, h.code]
  simp only [Rust.bind_ret]
  have no : ∀ {P : Prop}, (¬ enumSet c f i) → ((∀ o b, enumSet c f i → f.ops[i]? = some o → f.ops[i - 3]? = some b → P) ↔ True) :=
    fun hn => ⟨fun _ => trivial, fun _ o b he => absurd he hn⟩
  by_cases h1 : op.op = .OSetGlobal
  case neg =>
    rw [if_neg h1]
    simp only [Rust.pure_eq, returns_ret, true_iff]
    refine ⟨fun o ho h2 => ?_, fun o b he => ?_⟩
    · rw [e1] at ho; cases ho; exact absurd h2 h1
    · obtain ⟨⟨o', ho', h2⟩, _⟩ := he
      rw [e1] at ho'; cases ho'; exact absurd h2 h1
  rw [if_pos h1]
  by_cases h2 : i < 2 * c.nglobals
  case neg =>
    constructor
    · intro hr
      obtain ⟨t, e2, _⟩ := returns_bind.1 hr
      have := returns_get.1 ⟨t, e2⟩
      omega
    · intro hr
      exact absurd (hr.1 op e1 h1) h2
  obtain ⟨t, e2⟩ : ∃ t, c.globals[i]? = some t := ⟨_, List.getElem?_eq_getElem (by omega)⟩
  rw [get_eq.2 e2]
  simp only [Rust.bind_ret]
  have hfst : ∀ o, f.ops[i]? = some o → o.op = .OSetGlobal → i < 2 * c.nglobals := fun _ _ _ => h2
  by_cases h3 : t.kind = .HENUM
  case neg =>
    rw [if_neg h3]
    simp only [Rust.pure_eq, returns_ret, true_iff]
    refine ⟨hfst, fun o b he => ?_⟩
    obtain ⟨_, ⟨t', ht', h4⟩, _⟩ := he
    rw [e2] at ht'; cases ht'; exact absurd h4 h3
  rw [if_pos h3]
  obtain ⟨a, e3⟩ : ∃ a, f.ops[i - 2]? = some a := ⟨_, List.getElem?_eq_getElem (by omega)⟩
  obtain ⟨b, e4⟩ : ∃ a, f.ops[i - 3]? = some a := ⟨_, List.getElem?_eq_getElem (by omega)⟩
  rw [get_eq.2 e3]
  simp only [Rust.bind_ret]
  by_cases h4 : a.op = .OGetArray
  case neg =>
    rw [if_neg h4]
    simp only [Rust.pure_eq, returns_ret, true_iff]
    refine ⟨hfst, fun o b he => ?_⟩
    obtain ⟨_, _, ⟨t', ht', h5⟩, _⟩ := he
    rw [e3] at ht'; cases ht'; exact absurd h5 h4
  rw [if_pos h4, get_eq.2 e4]
  simp only [Rust.bind_ret]
  by_cases h5 : b.op = .OInt
  case neg =>
    rw [if_neg h5]
    simp only [Rust.pure_eq, returns_ret, true_iff]
    refine ⟨hfst, fun o b he => ?_⟩
    obtain ⟨_, _, _, t', ht', h6⟩ := he
    rw [e4] at ht'; cases ht'; exact absurd h6 h5
  rw [if_pos h5]
  have hset : enumSet c f i := ⟨⟨op, e1, h1⟩, ⟨t, e2, h3⟩, ⟨a, e3, h4⟩, ⟨b, e4, h5⟩⟩
  constructor
  · intro hr
    refine ⟨hfst, fun o b' _ ho hb' => ?_⟩
    rw [e1] at ho; cases ho
    rw [e4] at hb'; cases hb'
    obtain ⟨p2, e5, hr⟩ := returns_bind.1 hr
    obtain ⟨x, e6, hr⟩ := returns_bind.1 hr
    obtain ⟨p1, e7, hr⟩ := returns_bind.1 hr
    obtain ⟨w, e8, _⟩ := returns_bind.1 hr
    obtain ⟨y, hy⟩ := returns_unwrap.1 ⟨p2, e5⟩
    obtain ⟨z, hz⟩ := returns_unwrap.1 ⟨p1, e7⟩
    rw [hy] at e5; cases e5
    rw [hz] at e7; cases e7
    exact ⟨⟨p2, hy, returns_get.1 ⟨x, e6⟩⟩, p1, hz, by rw [← h.signs]; exact returns_set.1 ⟨w, e8⟩⟩
  · intro hr
    obtain ⟨⟨p2, h6, h7⟩, p1, h8, h9⟩ := hr.2 op b hset e1 e4
    rw [h6, h8]
    simp only [Rust.unwrap_some, Rust.bind_ret]
    obtain ⟨x, e6⟩ := returns_get.2 h7
    rw [e6]
    simp only [Rust.bind_ret]
    obtain ⟨w, e8⟩ := (returns_set (x := i32Bits x)).2 (show asUsize p1 < s.globalsSigns.length by rw [h.signs]; exact h9)
    exact ⟨_, by rw [e8]; rfl⟩

theorem globalTypeStep_returns (hc : Loaded c) (hW : W.length = 2 * c.ntypes) (h : Mid c v W s) {i : Nat} (hi : i < c.nglobals) :
    Returns (globalTypeStep i s) := by
  have hl := hc.globals_length
  obtain ⟨t, ht⟩ : ∃ t, c.globals[i]? = some t := ⟨_, List.getElem?_eq_getElem (by omega)⟩
  obtain ⟨x, hx⟩ := codeHashType_returns.2 (h.typeHash hW (hc.globalsRefer i t hi ht))
  unfold globalTypeStep
  rw [h.code, get_eq.2 ht]
  simp only [Rust.bind_ret, hx]
  obtain ⟨g, hg⟩ := returns_get.2 (show i < s.globalsSigns.length by rw [h.signs]; exact hi)
  rw [hg]
  simp only [Rust.bind_ret]
  obtain ⟨w, hw⟩ := (returns_set (x := g ^^^ x)).2 (show i < s.globalsSigns.length by rw [h.signs]; exact hi)
  rw [hw]
  exact ⟨_, rfl⟩

end CodeHash

end Verif.Brass
