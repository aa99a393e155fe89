import Verif.Brass.AllocSteps

/-!
# The hash of a module (C50-C53, C55, C59-C61)
-/

namespace Verif.Brass

open Verif Verif.Brass.Spec

/-! ## C60: decoded functions and constants -/

/-- **C60** Every function of an accepted file has as many registers, instructions and debug words as it declares, and each
instruction has the operands of its opcode.  Its owner is not filled in. -/
theorem c60_functions_well_formed (p : Profile) (e : Option DecodeError) (buf : List UInt8) (c : Code) (s : St) (h : Code.read p e buf = .ok c s)
    (f : HLFunction) (hf : f ∈ c.functions) : WellFormedFun c.hasdebug f := (loaded h).functionsOk f hf

/-- **C60** Every constant of an accepted file has as many fields as it declares. -/
theorem c60_constants_well_formed (p : Profile) (e : Option DecodeError) (buf : List UInt8) (c : Code) (s : St) (h : Code.read p e buf = .ok c s)
    (k : Constant) (hk : k ∈ c.constants) : k.fields.length = k.nfields := (loaded h).constantsOk k hk

/-! ## The stages of `alloc` -/

namespace CodeHash

/-- The stages of a successful `alloc`. -/
structure Stages (c : Code) (s : CodeHash) where
  v : List Int
  W : List UInt32
  s1 : CodeHash
  s2 : CodeHash
  s3 : CodeHash
  s4 : CodeHash
  s5 : CodeHash
  indexes : indexes c (init c).functionsIndexes = .ret v
  types : types { init c with functionsIndexes := v } = .ret s1
  s1_eq : s1 = { init c with functionsIndexes := v, typeHashes := W }
  W_length : W.length = 2 * c.ntypes
  globals : Rust.forRange globalStep 0 c.nglobals s1 = .ret s2
  typeGlobals : Rust.forRange typeGlobalStep 0 c.ntypes s2 = .ret s3
  constants : Rust.forRange constantStep 0 c.nconstants s3 = .ret s4
  boot : boot s4 = .ret s5
  last : Rust.forRange globalTypeStep 0 c.nglobals s5 = .ret s

theorem stages {c : Code} {s : CodeHash} (e : alloc c = .ret s) : Nonempty (Stages c s) := by
  unfold alloc at e
  cases e1 : CodeHash.indexes c (init c).functionsIndexes with
  | panic => rw [e1] at e; cases e
  | ret v =>
    rw [e1] at e; simp only [Rust.bind_ret] at e
    cases e2 : CodeHash.types { init c with functionsIndexes := v } with
    | panic => rw [e2] at e; cases e
    | ret s1 =>
      rw [e2] at e; simp only [Rust.bind_ret] at e
      cases e3 : Rust.forRange globalStep 0 c.nglobals s1 with
      | panic => rw [e3] at e; cases e
      | ret s2 =>
        rw [e3] at e; simp only [Rust.bind_ret] at e
        cases e4 : Rust.forRange typeGlobalStep 0 c.ntypes s2 with
        | panic => rw [e4] at e; cases e
        | ret s3 =>
          rw [e4] at e; simp only [Rust.bind_ret] at e
          cases e5 : Rust.forRange constantStep 0 c.nconstants s3 with
          | panic => rw [e5] at e; cases e
          | ret s4 =>
            rw [e5] at e; simp only [Rust.bind_ret] at e
            cases e6 : CodeHash.boot s4 with
            | panic => rw [e6] at e; cases e
            | ret s5 =>
              rw [e6] at e; simp only [Rust.bind_ret] at e
              obtain ⟨h1, h2⟩ := types_length e2
              exact ⟨⟨v, s1.typeHashes, s1, s2, s3, s4, s5, e1, e2, h1, h2, e3, e4, e5, e6, e⟩⟩

/-- The boot step is a loop over the boot function. -/
theorem boot_eq {c : Code} {s s' : CodeHash} (h : s.code = c) (e : boot s = .ret s') : ∃ j f, s.functionsIndexes[c.entrypoint]? = some j ∧
    c.functions[asUsize j]? = some f ∧ Rust.forRange (bootStep f) 4 (f.nops - 4) s = .ret s' := by
  subst h
  unfold boot at e
  cases e1 : Rust.get s.functionsIndexes s.code.entrypoint with
  | panic => rw [e1] at e; cases e
  | ret j =>
    rw [e1] at e; simp only [Rust.bind_ret] at e
    cases e2 : Rust.get s.code.functions (asUsize j) with
    | panic => rw [e2] at e; cases e
    | ret f =>
      rw [e2] at e
      exact ⟨j, f, get_eq.1 e1, get_eq.1 e2, e⟩

namespace Stages

variable {c : Code} {s : CodeHash} (S : Stages c s)

theorem mid1 : Mid c S.v S.W S.s1 := ⟨by rw [S.s1_eq]; rfl, by rw [S.s1_eq], by rw [S.s1_eq], by rw [S.s1_eq]; simp [init]⟩

theorem signs2 : Signs (fun k => k < c.nglobals) S.s1 S.s2 :=
  (Signs.forRange (K := fun i k => k = i) (s0 := S.s1) _ _ _ _ (fun _ _ _ _ _ _ e => globalStep_signs e) rfl S.globals).mono
    (by rintro k ⟨i, _, h, rfl⟩; omega)
theorem mid2 : Mid c S.v S.W S.s2 := S.mid1.of_signs S.signs2

theorem signs3 (hc : Loaded c) : Signs (fun k => ∃ i t g, i < c.ntypes ∧ c.types[i]? = some t ∧ globalOf t = some g ∧ asUsize (g - 1) = k) S.s2 S.s3 := by
  refine (Signs.forRange (K := fun i k => ∃ t g, c.types[i]? = some t ∧ globalOf t = some g ∧ asUsize (g - 1) = k) (s0 := S.s2) _ _ _ _ ?_ rfl S.typeGlobals).mono ?_
  · intro i _ hi s s' hs e
    have hcode : s.code = c := hs.trans S.mid2.code
    obtain ⟨t, ht⟩ := hc.declared (i := i) (by omega)
    refine (typeGlobalStep_signs (by rw [hcode]; exact ht) (hc.typesOk i t (by omega) ht) e).mono ?_
    rintro k ⟨g, hg, hk⟩
    exact ⟨t, g, ht, hg, hk⟩
  · rintro k ⟨i, _, hi, t, g, h1, h2, h3⟩
    exact ⟨i, t, g, by omega, h1, h2, h3⟩
theorem mid3 (hc : Loaded c) : Mid c S.v S.W S.s3 := S.mid2.of_signs (S.signs3 hc)

theorem signs4 (hc : Loaded c) : Signs (fun k => ∃ con ∈ c.constants, con.global = k) S.s3 S.s4 := by
  refine (Signs.forRange (K := fun i k => ∃ con, c.constants[i]? = some con ∧ con.global = k) (s0 := S.s3) _ _ _ _ ?_ rfl S.constants).mono ?_
  · intro i _ hi s s' hs e
    have hcode : s.code = c := hs.trans (S.mid3 hc).code
    have := constantStep_signs e
    rwa [hcode] at this
  · rintro k ⟨i, _, hi, con, h1, h2⟩
    exact ⟨con, List.mem_of_getElem? h1, h2⟩
theorem mid4 (hc : Loaded c) : Mid c S.v S.W S.s4 := (S.mid3 hc).of_signs (S.signs4 hc)

theorem boot_signs (hc : Loaded c) : ∃ f, BootFunction c f ∧
    Signs (fun k => ∃ i, 4 ≤ i ∧ enumSet c f i ∧ ∃ o x, f.ops[i]? = some o ∧ o.p1 = some x ∧ asUsize x = k) S.s4 S.s5 := by
  obtain ⟨j, f, h1, h2, h3⟩ := boot_eq (S.mid4 hc).code S.boot
  rw [(S.mid4 hc).indexes] at h1
  refine ⟨f, (boot_found hc S.indexes h1 h2).1, ?_⟩
  refine (Signs.forRange (K := fun i k => enumSet c f i ∧ ∃ o x, f.ops[i]? = some o ∧ o.p1 = some x ∧ asUsize x = k) (s0 := S.s4) _ _ _ _ ?_ rfl h3).mono ?_
  · intro i _ hi s s' hs e
    have hcode : s.code = c := hs.trans (S.mid4 hc).code
    have := bootStep_signs e
    rwa [hcode] at this
  · rintro k ⟨i, h1, _, h2, h3⟩
    exact ⟨i, h1, h2, h3⟩

theorem mid5 (hc : Loaded c) : Mid c S.v S.W S.s5 := by
  obtain ⟨j, f, h1, h2, h3⟩ := boot_eq (S.mid4 hc).code S.boot
  exact (S.mid4 hc).of_signs (Signs.forRange (K := fun i k => enumSet c f i ∧ ∃ o x, f.ops[i]? = some o ∧ o.p1 = some x ∧ asUsize x = k) (s0 := S.s4) _ _ _ _
    (fun i _ _ s s' hs e => by
      have hcode : s.code = c := hs.trans (S.mid4 hc).code
      have := bootStep_signs e
      rwa [hcode] at this) rfl h3)

theorem mid6 (hc : Loaded c) : Mid c S.v S.W s :=
  (S.mid5 hc).of_signs (Signs.forRange (K := fun i k => k = i) (s0 := S.s5) _ _ _ _ (fun _ _ _ _ _ _ e => globalTypeStep_signs e) rfl S.last)

end Stages

theorem init_returns_types {c : Code} (hh : ∀ i t, i < c.ntypes → c.types[i]? = some t → Returns (t.hash false)) (h : Loaded c) (v : List Int) :
    Returns (types { init c with functionsIndexes := v }) ↔ ∀ i t, i < c.ntypes → c.types[i]? = some t → ValueType.default ∉ hashedRefs t :=
  types_returns (s := { init c with functionsIndexes := v }) h hh (by simp [init])

/-- An accepted module can be hashed exactly if it is `Hashable`. -/
theorem alloc_returns {c : Code} (h : Loaded c) (hh : ∀ i t, i < c.ntypes → c.types[i]? = some t → Returns (t.hash false)) :
    Returns (alloc c) ↔ Hashable c := by
  have op_range : ∀ f ∈ c.functions, ∀ o ∈ f.ops, (∀ x, o.p1 = some x → IsI32 x) ∧ (∀ x, o.p2 = some x → IsI32 x) := by
    intro f hf o ho
    have := WellFormedOp.range ((h.functionsOk f hf).shape o ho)
    exact ⟨fun x e => this x (.inl e), fun x e => this x (.inr (.inl e))⟩
  have boot_mem : ∀ f, BootFunction c f → f ∈ c.functions := by
    rintro f (⟨i, h1, _⟩ | ⟨_, h1⟩) <;> exact List.mem_of_getElem? h1
  have hints := h.ints
  have hng := h.nglobals
  constructor
  · rintro ⟨s, e⟩
    obtain ⟨S⟩ := stages e
    obtain ⟨a1, a2⟩ := (indexes_returns h (by simp [init])).1 ⟨S.v, S.indexes⟩
    have a3 := (init_returns_types hh h S.v).1 ⟨S.s1, S.types⟩
    have a4 := (forRange_iff (Inv := Mid c S.v S.W) (P := fun i => ∀ t g, c.types[i]? = some t → globalOf t = some g → 1 ≤ g ∧ g ≤ c.nglobals) c.ntypes 0 S.s2
      (fun i _ hi b hb => typeGlobalStep_returns h S.W_length hb (by omega)) (fun i _ hi b b' hb e => by
        obtain ⟨t, ht⟩ := h.declared (i := i) (by omega)
        exact hb.of_signs (typeGlobalStep_signs (by rw [hb.code]; exact ht) (h.typesOk i t (by omega) ht) e)) S.mid2).1 ⟨S.s3, S.typeGlobals⟩
    have a5 := (forRange_iff (Inv := Mid c S.v S.W) (P := fun i => ∀ con, c.constants[i]? = some con → con.global < c.nglobals ∧
        ∀ (g : ValueType) (ts : List ValueType), c.globals[con.global]? = some g → objectFields g = some ts →
        ∀ (j x : Nat), con.fields[j]? = some x → ∃ t : ValueType, ts[j]? = some t ∧ (t.kind = .HI32 → x < c.ints.length) ∧ (t.kind = .HBYTES → x < c.strings.length))
      c.nconstants 0 S.s3
      (fun i _ hi b hb => by
        have hi' : i < c.constants.length := by rw [h.constants]; omega
        rw [constantStep_returns h hb (List.getElem?_eq_getElem hi'), List.getElem?_eq_getElem hi']
        exact ⟨fun h1 con e => by cases e; exact h1, fun h1 => h1 _ rfl⟩)
      (fun i _ hi b b' hb e => hb.of_signs (constantStep_signs e)) (S.mid3 h)).1 ⟨S.s4, S.constants⟩
    have a5' : ∀ con ∈ c.constants, con.global < c.nglobals ∧
        ∀ (g : ValueType) (ts : List ValueType), c.globals[con.global]? = some g → objectFields g = some ts →
        ∀ (j x : Nat), con.fields[j]? = some x → ∃ t : ValueType, ts[j]? = some t ∧ (t.kind = .HI32 → x < c.ints.length) ∧ (t.kind = .HBYTES → x < c.strings.length) := by
      intro con hcon
      obtain ⟨i, hi, e⟩ := List.mem_iff_getElem.1 hcon
      exact a5 i (Nat.zero_le _) (by rw [← h.constants]; omega) con (by rw [List.getElem?_eq_getElem hi, e])
    obtain ⟨j, f, b1, b2, b3⟩ := boot_eq (S.mid4 h).code S.boot
    rw [(S.mid4 h).indexes] at b1
    obtain ⟨b4, b5, b6, b7⟩ := boot_found h S.indexes b1 b2
    have hf := boot_mem f b4
    have hfo := (h.functionsOk f hf).ops
    have a6 := (forRange_iff (Inv := Mid c S.v S.W) (P := BootOk c f) (f.nops - 4) 4 S.s4
      (fun i _ hi b hb => bootStep_returns h hb (by omega)) (fun i _ hi b b' hb e => hb.of_signs (bootStep_signs e)) (S.mid4 h)).1 ⟨S.s5, b3⟩
    have lt_ops : ∀ (i : Nat) (o : Opcode), f.ops[i]? = some o → i < f.nops := by
      intro i o ho
      rw [← hfo]
      rcases Nat.lt_or_ge i f.ops.length with h | h
      · exact h
      · rw [List.getElem?_eq_none h] at ho; cases ho
    refine ⟨a1, a2, a3, fun i t g hi ht hg => a4 i (Nat.zero_le _) (by omega) t g ht hg, fun k hk => (a5' k hk).1, fun k hk => (a5' k hk).2, ⟨b5, b6, b7⟩, ?_, ?_⟩
    · intro f' hf' i o hi ho hop
      obtain rfl := boot_unique b4 hf'
      have := lt_ops i o ho
      exact (a6 i hi (by omega)).1 o ho hop
    · intro f' hf' i o b hi he ho hb
      obtain rfl := boot_unique b4 hf'
      have := lt_ops i o ho
      obtain ⟨⟨x, hx1, hx2⟩, y, hy1, hy2⟩ := (a6 i hi (by omega)).2 o b he ho hb
      have r1 := (op_range f hf b (List.mem_of_getElem? hb)).2 x hx1
      have r2 := (op_range f hf o (List.mem_of_getElem? ho)).1 y hy1
      unfold IsI32 at r1 r2
      exact ⟨⟨x, hx1, (asUsize_lt (by omega) (by omega) (by omega)).1 hx2⟩, y, hy1, (asUsize_lt (by omega) (by omega) (by omega)).1 hy2⟩
  · intro H
    obtain ⟨v, e1⟩ := (indexes_returns h (v := (init c).functionsIndexes) (by simp [init])).2 ⟨H.functionIndex, H.nativeIndex⟩
    obtain ⟨s1, e2⟩ := (init_returns_types hh h v).2 H.noForward
    obtain ⟨h1, hW⟩ := types_length e2
    generalize hWd : s1.typeHashes = W at h1 hW
    have hW : W.length = 2 * c.ntypes := hW
    have m1 : Mid c v W s1 := ⟨by rw [h1]; rfl, by rw [h1], by rw [h1], by rw [h1]; simp [init]⟩
    obtain ⟨s2, e3⟩ := (forRange_iff (Inv := Mid c v W) (P := fun _ => True) c.nglobals 0 s1
      (fun i _ hi b hb => ⟨fun _ => trivial, fun _ => globalStep_returns (i := i) h hW hb (by omega)⟩) (fun i _ hi b b' hb e => hb.of_signs (globalStep_signs e)) m1).2
      fun _ _ _ => trivial
    have m2 : Mid c v W s2 := by
      have := forRange_inv (Inv := fun _ s => Mid c v W s) _ _ _ _ (fun i _ hi b b' hb e => hb.of_signs (globalStep_signs e)) m1 e3
      exact this
    have kt : ∀ i, 0 ≤ i → i < 0 + c.ntypes → ∀ b b', Mid c v W b → typeGlobalStep i b = .ret b' → Mid c v W b' := by
      intro i _ hi b b' hb e
      obtain ⟨t, ht⟩ := h.declared (i := i) (by omega)
      exact hb.of_signs (typeGlobalStep_signs (by rw [hb.code]; exact ht) (h.typesOk i t (by omega) ht) e)
    obtain ⟨s3, e4⟩ := (forRange_iff (Inv := Mid c v W) (P := fun i => ∀ t g, c.types[i]? = some t → globalOf t = some g → 1 ≤ g ∧ g ≤ c.nglobals) c.ntypes 0 s2
      (fun i _ hi b hb => typeGlobalStep_returns h hW hb (by omega)) kt m2).2
      fun i _ hi t g ht hg => H.typeGlobals i t g (by omega) ht hg
    have m3 : Mid c v W s3 := by
      have := forRange_inv (Inv := fun _ s => Mid c v W s) _ _ _ _ (fun i a b => kt i a b) m2 e4
      exact this
    obtain ⟨s4, e5⟩ := (forRange_iff (Inv := Mid c v W) (P := fun _ => True) c.nconstants 0 s3
      (fun i _ hi b hb => by
        have hi' : i < c.constants.length := by rw [h.constants]; omega
        rw [constantStep_returns h hb (List.getElem?_eq_getElem hi')]
        exact ⟨fun _ => trivial, fun _ => ⟨H.constantGlobal _ (List.getElem_mem hi'), H.constantFields _ (List.getElem_mem hi')⟩⟩)
      (fun i _ hi b b' hb e => hb.of_signs (constantStep_signs e)) m3).2 fun _ _ _ => trivial
    have m4 : Mid c v W s4 := by
      have := forRange_inv (Inv := fun _ s => Mid c v W s) _ _ _ _ (fun i _ hi b b' hb e => hb.of_signs (constantStep_signs e)) m3 e5
      exact this
    obtain ⟨j, f, b1, b2⟩ := boot_finds h e1 H.entry.1 H.entry.2.1 H.entry.2.2
    have hb := (boot_found h e1 b1 b2).1
    have hf := boot_mem f hb
    have hfo := (h.functionsOk f hf).ops
    obtain ⟨s5, e6⟩ := (forRange_iff (Inv := Mid c v W) (P := BootOk c f) (f.nops - 4) 4 s4
      (fun i _ hi b hb => bootStep_returns h hb (by omega)) (fun i _ hi b b' hb e => hb.of_signs (bootStep_signs e)) m4).2 (by
        intro i hi _
        refine ⟨fun o ho hop => H.bootShort f hb i o hi ho hop, ?_⟩
        intro o b he ho hb'
        obtain ⟨⟨x, hx1, hx2⟩, y, hy1, hy2⟩ := H.bootEnums f hb i o b hi he ho hb'
        exact ⟨⟨x, hx1, (asUsize_lt (by omega) (by omega) (by omega)).2 hx2⟩, y, hy1, (asUsize_lt (by omega) (by omega) (by omega)).2 hy2⟩)
    have m5 : Mid c v W s5 := by
      have := forRange_inv (Inv := fun _ s => Mid c v W s) _ _ _ _ (fun i _ hi b b' hb e => hb.of_signs (bootStep_signs e)) m4 e6
      exact this
    obtain ⟨s6, e7⟩ := (forRange_iff (Inv := Mid c v W) (P := fun _ => True) c.nglobals 0 s5
      (fun i _ hi b hb => ⟨fun _ => trivial, fun _ => globalTypeStep_returns (i := i) h hW hb (by omega)⟩) (fun i _ hi b b' hb e => hb.of_signs (globalTypeStep_signs e)) m5).2
      fun _ _ _ => trivial
    refine ⟨s6, ?_⟩
    have e6' : boot s4 = .ret s5 := by
      unfold boot
      rw [m4.indexes, m4.code, get_eq.2 b1]
      simp only [Rust.bind_ret]
      rw [get_eq.2 b2]
      exact e6
    unfold alloc
    rw [e1]; simp only [Rust.bind_ret]
    rw [e2]; simp only [Rust.bind_ret]
    rw [e3]; simp only [Rust.bind_ret]
    rw [e4]; simp only [Rust.bind_ret]
    rw [e5]; simp only [Rust.bind_ret]
    rw [e6']; simp only [Rust.bind_ret]
    exact e7

end CodeHash

/-! ## C51 -/

/-- **C51** `CodeHash::alloc` returns on an accepted file exactly if the file is `Hashable`; otherwise it panics. -/
theorem c51_alloc_returns_iff (p : Profile) (e : Option DecodeError) (buf : List UInt8) (c : Code) (s : St) (h : Code.read p e buf = .ok c s) :
    Returns (CodeHash.alloc c) ↔ Hashable c :=
  CodeHash.alloc_returns (loaded h) (fun i t hi ht => c49_hash_returns p e buf c s h i hi t ht false)

end Verif.Brass
