import Verif.Brass.Copies
import Verif.Brass.PrintCut
import Verif.Spec.Copies

/-!
# Which modules are copied
-/

namespace Verif.Brass

open Verif Verif.Brass.Spec

theorem K.bind_eq_ok {α β : Type} {x : K α} {f : α → K β} {s s'' : St} {b : β} {l : List Code} (h : (x >>= f) s = (.ok b s'', l)) :
    ∃ a s' l1 l2, x s = (.ok a s', l1) ∧ f a s' = (.ok b s'', l2) ∧ l = l1 ++ l2 := by
  have h : K.bind x f s = (.ok b s'', l) := h
  unfold K.bind at h
  rcases hx : x s with ⟨o, l1⟩
  rw [hx] at h
  cases o with
  | err => cases h
  | panic => cases h
  | ok a s' =>
    simp only [Prod.mk.injEq] at h
    exact ⟨a, s', l1, _, rfl, Prod.ext h.1 rfl, h.2.symm⟩

theorem K.lift_eq_ok {α : Type} {x : M α} {s s' : St} {a : α} {l : List Code} (h : K.lift x s = (.ok a s', l)) : x s = .ok a s' ∧ l = [] := by
  unfold K.lift at h
  cases h' : x s <;> rw [h'] at h <;> cases h
  exact ⟨rfl, rfl⟩

theorem Copying.ok {α : Type} {x : K α} {y : M α} (h : Copying x y) {s s' : St} {a : α} {l : List Code} (hx : x s = (.ok a s', l)) : y s = .ok a s' := by
  rw [← h s, hx]

theorem Copying.run {α : Type} {x : K α} {y : M α} (h : Copying x y) {s s' : St} {a : α} (hy : y s = .ok a s') : x s = (.ok a s', (x s).2) :=
  Prod.ext ((h s).trans hy) rfl

/-! ## What a round copies -/

theorem copies_types {i b s b' s' l} (h0 : readTypesStepK i b s = (.ok b' s', l)) : l = [b, b'] ∧ s'.code = b' := by
  obtain ⟨_, _, _, _, e1, h1, rfl⟩ := K.bind_eq_ok h0
  cases e1
  obtain ⟨_, _, _, _, e2, h2, rfl⟩ := K.bind_eq_ok h1
  obtain ⟨-, rfl⟩ := K.lift_eq_ok e2
  obtain ⟨_, _, _, _, e3, h3, rfl⟩ := K.bind_eq_ok h2
  obtain ⟨-, rfl⟩ := K.lift_eq_ok e3
  obtain ⟨_, _, _, _, e4, h4, rfl⟩ := K.bind_eq_ok h3
  obtain ⟨-, rfl⟩ := K.lift_eq_ok e4
  obtain ⟨_, _, _, _, e5, h5, rfl⟩ := K.bind_eq_ok h4
  obtain ⟨-, rfl⟩ := K.lift_eq_ok e5
  cases h5
  exact ⟨rfl, rfl⟩

theorem copies_globals {i b s b' s' l} (h0 : readGlobalsStepK i b s = (.ok b' s', l)) : l = [b, b'] ∧ s'.code = b' := by
  obtain ⟨_, _, _, _, e1, h1, rfl⟩ := K.bind_eq_ok h0
  cases e1
  obtain ⟨_, _, _, _, e2, h2, rfl⟩ := K.bind_eq_ok h1
  obtain ⟨-, rfl⟩ := K.lift_eq_ok e2
  obtain ⟨_, _, _, _, e3, h3, rfl⟩ := K.bind_eq_ok h2
  obtain ⟨-, rfl⟩ := K.lift_eq_ok e3
  obtain ⟨_, _, _, _, e4, h4, rfl⟩ := K.bind_eq_ok h3
  obtain ⟨-, rfl⟩ := K.lift_eq_ok e4
  obtain ⟨_, _, _, _, e5, h5, rfl⟩ := K.bind_eq_ok h4
  obtain ⟨-, rfl⟩ := K.lift_eq_ok e5
  cases h5
  exact ⟨rfl, rfl⟩

theorem copies_functions {p i b s b' s' l} (h0 : readFunctionsStepK p i b s = (.ok b' s', l)) : l = [b, b'] ∧ s'.code = b' := by
  obtain ⟨_, _, _, _, e1, h1, rfl⟩ := K.bind_eq_ok h0
  cases e1
  obtain ⟨_, _, _, _, e2, h2, rfl⟩ := K.bind_eq_ok h1
  obtain ⟨-, rfl⟩ := K.lift_eq_ok e2
  obtain ⟨_, _, _, _, e3, h3, rfl⟩ := K.bind_eq_ok h2
  obtain ⟨-, rfl⟩ := K.lift_eq_ok e3
  obtain ⟨_, _, _, _, e4, h4, rfl⟩ := K.bind_eq_ok h3
  obtain ⟨-, rfl⟩ := K.lift_eq_ok e4
  obtain ⟨_, _, _, _, e5, h5, rfl⟩ := K.bind_eq_ok h4
  obtain ⟨-, rfl⟩ := K.lift_eq_ok e5
  cases h5
  exact ⟨rfl, rfl⟩

theorem copies_natives {i b s b' s' l} (h0 : readNativesStepK i b s = (.ok b' s', l)) : l = [b'] ∧ s'.code = b' := by
  obtain ⟨_, _, _, _, e1, h1, rfl⟩ := K.bind_eq_ok h0
  obtain ⟨-, rfl⟩ := K.lift_eq_ok e1
  obtain ⟨_, _, _, _, e2, h2, rfl⟩ := K.bind_eq_ok h1
  cases e2
  cases h2
  exact ⟨rfl, rfl⟩

theorem copies_constants {i b s b' s' l} (h0 : readConstantsStepK i b s = (.ok b' s', l)) : l = [b'] ∧ s'.code = b' := by
  obtain ⟨_, _, _, _, e1, h1, rfl⟩ := K.bind_eq_ok h0
  obtain ⟨-, rfl⟩ := K.lift_eq_ok e1
  obtain ⟨_, _, _, _, e2, h2, rfl⟩ := K.bind_eq_ok h1
  obtain ⟨-, rfl⟩ := K.lift_eq_ok e2
  obtain ⟨_, _, _, _, e3, h3, rfl⟩ := K.bind_eq_ok h2
  cases e3
  cases h3
  exact ⟨rfl, rfl⟩

/-! ## What a loop copies -/

/-- The copies of a loop: before and after each round. -/
def Both (b b' : Code) : List Code := [b, b']
/-- The copies of a loop: after each round. -/
def Last (_ b' : Code) : List Code := [b']

theorem loop_copies {X : Type} {f : Nat → Code → K Code} {g : Nat → Code → M Code} (hc : ∀ i b, Copying (f i b) (g i b)) (hgood : ∀ i b, Good (g i b))
    (mk : Code → Code → List Code) (hmk : ∀ b b', (mk b b').map noCache = mk (noCache b) (noCache b'))
    (hl : ∀ i b s b' s' l, f i b s = (.ok b' s', l) → l = mk b b' ∧ s'.code = b') (put : List X → Code)
    (hs : ∀ xs b s b' s', noCache b = put xs → g xs.length b s = .ok b' s' → s'.errors = none → ∃ x, noCache b' = put (xs ++ [x])) :
    ∀ (n : Nat) (xs : List X) (b : Code) (s : St) (b' : Code) (s' : St) (l : List Code), noCache b = put xs →
      K.forRange f xs.length n b s = (.ok b' s', l) → s'.errors = none →
      ∃ ys, ys.length = n ∧ noCache b' = put (xs ++ ys) ∧
        l.map noCache = (List.range n).flatMap (fun i => mk (put (xs ++ ys.take i)) (put (xs ++ ys.take (i + 1)))) ∧
        (n = 0 ∧ s' = s ∨ s'.code = b')
  | 0, xs, b, s, b', s', l, hb, h, _ => by cases h; exact ⟨[], rfl, by simpa using hb, by simp, .inl ⟨rfl, rfl⟩⟩
  | n + 1, xs, b, s, b', s', l, hb, h, he => by
    obtain ⟨b1, s1, l1, l2, h1, h2, rfl⟩ := K.bind_eq_ok (x := f xs.length b) h
    have e1 : s1.errors = none := (Good.forRange hgood n (xs.length + 1) b1).none_of ((Copying.forRange hc n (xs.length + 1) b1).ok h2) he
    obtain ⟨x, hx⟩ := hs xs b s b1 s1 hb ((hc _ _).ok h1) e1
    obtain ⟨rfl, hk⟩ := hl _ _ _ _ _ _ h1
    have hlen : xs.length + 1 = (xs ++ [x]).length := by simp
    rw [hlen] at h2
    obtain ⟨ys, j1, j2, j3, j4⟩ := loop_copies hc hgood mk hmk hl put hs n (xs ++ [x]) b1 s1 b' s' l2 hx h2 he
    refine ⟨x :: ys, by simp [j1], by rw [j2]; simp, ?_, .inr ?_⟩
    · rw [List.map_append, hmk, j3, List.range_succ_eq_map, List.flatMap_cons, List.flatMap_map, hb, hx]
      simp
    · rcases j4 with ⟨rfl, rfl⟩ | j4
      · cases h2
        exact hk
      · exact j4

/-! ## The five loops -/

theorem noCache_setTypes (b : Code) (u : List (Option Str)) (ts : List ValueType) :
    noCache { { b with ustrings := u } with types := ts } = { noCache b with types := ts } := rfl

theorem noCache_typesStep {i b s b' s'} {N : Nat} {c : Code} (xs : List ValueType) (hi : xs.length = i)
    (hb : noCache b = { noCache c with types := xs ++ List.replicate N noType }) (h : readTypesStep i b s = .ok b' s') (he : s'.errors = none) :
    ∃ x, noCache b' = { noCache c with types := xs ++ [x] ++ List.replicate N noType } := by
  obtain ⟨-, k, -, -, hg⟩ := (Sem.readTypesStep i b).sound _ _ _ trivial h he
  obtain ⟨_, _, _, _, rfl, ⟨rfl, rfl⟩, _, _, t, _, rfl, hty, _, _, _, _, rfl, ⟨rfl, rfl, rfl⟩, _, _, _, _, rfl, ⟨rfl, _, rfl⟩, _, _, _, _, rfl, ⟨rfl, rfl⟩, rfl, rfl, _⟩ := hg
  obtain ⟨u, rfl⟩ := KeepsButCache.typeG _ _ _ _ hty
  have ht := congrArg Code.types hb
  simp only [noCache] at ht
  refine ⟨t, ?_⟩
  refine (noCache_setTypes _ u _).trans ?_
  rw [hb]
  simp only
  rw [ht, ← hi, insertIdx_append_length]

theorem noCache_globalsStep {i b s b' s'} {N : Nat} {c : Code} (xs : List ValueType) (hi : xs.length = i)
    (hb : noCache b = { noCache c with globals := xs ++ List.replicate N noType }) (h : readGlobalsStep i b s = .ok b' s') (he : s'.errors = none) :
    ∃ x, noCache b' = { noCache c with globals := xs ++ [x] ++ List.replicate N noType } := by
  obtain ⟨-, k, -, -, hg⟩ := (Sem.readGlobalsStep i b).sound _ _ _ trivial h he
  obtain ⟨_, _, _, _, rfl, ⟨rfl, rfl⟩, _, _, t, _, rfl, h, _, _, _, _, rfl, ⟨rfl, _, rfl⟩, _, _, _, _, rfl, ⟨rfl, rfl⟩, rfl, rfl, _⟩ := hg
  have ht := congrArg Code.globals hb
  simp only [noCache] at ht
  refine ⟨t, ?_⟩
  have : ∀ b : Code, noCache { b with globals := b.globals.insertIdx i t } = { noCache b with globals := b.globals.insertIdx i t } := fun _ => rfl
  rw [this, hb, ht, ← hi, insertIdx_append_length]

theorem noCache_nativesStep {i b s b' s'} {c : Code} (xs : List Native)
    (hb : noCache b = { noCache c with natives := xs }) (h : readNativesStep i b s = .ok b' s') (he : s'.errors = none) :
    ∃ x, noCache b' = { noCache c with natives := xs ++ [x] } := by
  obtain ⟨-, k, -, -, hg⟩ := (Sem.readNativesStep i b).sound _ _ _ trivial h he
  obtain ⟨_, _, x, _, rfl, _, _, _, _, _, rfl, ⟨rfl, rfl⟩, rfl, rfl, _⟩ := hg
  have ht := congrArg Code.natives hb
  simp only [noCache] at ht
  refine ⟨x, ?_⟩
  have : ∀ b : Code, noCache { b with natives := b.natives ++ [x] } = { noCache b with natives := b.natives ++ [x] } := fun _ => rfl
  rw [this, hb, ht]

theorem noCache_functionsStep {p i b s b' s'} {c : Code} (xs : List HLFunction) (hi : xs.length = i)
    (hb : noCache b = { noCache c with functions := xs }) (h : readFunctionsStep p i b s = .ok b' s') (he : s'.errors = none) :
    ∃ x, noCache b' = { noCache c with functions := xs ++ [x] } := by
  have ht := congrArg Code.functions hb
  simp only [noCache] at ht
  obtain ⟨-, k, -, -, hg⟩ := (Sem.readFunctionsStep p i b (by rw [ht, hi])).sound _ _ _ trivial h he
  obtain ⟨_, _, _, _, rfl, _, _, _, x, _, rfl, _, _, _, _, _, rfl, ⟨rfl, rfl⟩, rfl, rfl, _⟩ := hg
  refine ⟨x, ?_⟩
  have : ∀ b : Code, noCache { b with functions := b.functions ++ [x] } = { noCache b with functions := b.functions ++ [x] } := fun _ => rfl
  rw [this, hb, ht]

theorem noCache_constantsStep {i b s b' s'} {c : Code} (xs : List Constant) (hi : xs.length = i)
    (hb : noCache b = { noCache c with constants := xs }) (h : readConstantsStep i b s = .ok b' s') (he : s'.errors = none) :
    ∃ x, noCache b' = { noCache c with constants := xs ++ [x] } := by
  obtain ⟨-, k, -, -, hg⟩ := (Sem.readConstantsStep i b).sound _ _ _ trivial h he
  obtain ⟨_, _, x, _, rfl, _, _, _, _, _, rfl, ⟨rfl, _, rfl⟩, _, _, _, _, rfl, ⟨rfl, rfl⟩, rfl, rfl, _⟩ := hg
  have ht := congrArg Code.constants hb
  simp only [noCache] at ht
  refine ⟨x, ?_⟩
  have : ∀ b : Code, noCache { b with constants := b.constants.insertIdx i x } = { noCache b with constants := b.constants.insertIdx i x } := fun _ => rfl
  rw [this, hb, ht, ← hi]
  have := insertIdx_append_length xs [] x
  simp only [List.append_nil] at this
  rw [this]

/-! ## The sections -/

theorem mapBoth (b b' : Code) : (Both b b').map noCache = Both (noCache b) (noCache b') := rfl
theorem mapLast (b b' : Code) : (Last b b').map noCache = Last (noCache b) (noCache b') := rfl

theorem sec_types {c s c' s' l} (h : readTypesK c s = (.ok c' s', l)) (he : s'.errors = none) :
    ∃ ys, ys.length = c.ntypes ∧ noCache c' = { noCache c with types := ys ++ List.replicate c.ntypes noType } ∧
      l.map noCache = beforeAndAfter c.ntypes (fun i => { noCache c with types := ys.take i ++ List.replicate c.ntypes noType }) := by
  obtain ⟨ys, h1, h2, h3, -⟩ := loop_copies (f := readTypesStepK) (g := readTypesStep) Copying.readTypesStep (fun i b => Good.readTypesStep i b) Both mapBoth
    (fun _ _ _ _ _ _ h => copies_types h) (fun xs : List ValueType => { noCache c with types := xs ++ List.replicate c.ntypes noType })
    (fun xs b s b' s' hb h he => by simpa using noCache_typesStep (c := c) xs rfl hb h he) _ [] _ s c' s' l rfl h he
  exact ⟨ys, h1, h2, h3⟩

theorem checkError_ok {s s' : St} {u : Unit} (h : M.checkError s = .ok u s') : s' = s ∧ s.errors = none := by
  unfold M.checkError at h
  split at h
  · cases h
  · next hs => cases h; exact ⟨rfl, hs⟩

theorem sec_checked {x : K Code} {s c' s' l} (h : (x >>= fun a => K.lift M.checkError >>= fun _ => Pure.pure a) s = (.ok c' s', l)) :
    x s = (.ok c' s', l) ∧ s'.errors = none := by
  obtain ⟨_, _, _, _, e1, h1, rfl⟩ := K.bind_eq_ok h
  obtain ⟨_, _, _, _, e2, h2, rfl⟩ := K.bind_eq_ok h1
  obtain ⟨h3, rfl⟩ := K.lift_eq_ok e2
  obtain ⟨rfl, h4⟩ := checkError_ok h3
  cases h2
  exact ⟨by simpa using e1, h4⟩

theorem sec_globals {c s c' s' l} (h : readGlobalsK c s = (.ok c' s', l)) :
    ∃ ys, ys.length = c.nglobals ∧ noCache c' = { noCache c with globals := ys ++ List.replicate c.nglobals noType } ∧
      l.map noCache = beforeAndAfter c.nglobals (fun i => { noCache c with globals := ys.take i ++ List.replicate c.nglobals noType }) := by
  obtain ⟨h, he⟩ := sec_checked h
  obtain ⟨ys, h1, h2, h3, -⟩ := loop_copies (f := readGlobalsStepK) (g := readGlobalsStep) Copying.readGlobalsStep (fun i b => Good.readGlobalsStep i b) Both mapBoth
    (fun _ _ _ _ _ _ h => copies_globals h) (fun xs : List ValueType => { noCache c with globals := xs ++ List.replicate c.nglobals noType })
    (fun xs b s b' s' hb h he => by simpa using noCache_globalsStep (c := c) xs rfl hb h he) _ [] _ s c' s' l rfl h he
  exact ⟨ys, h1, h2, h3⟩

theorem sec_natives {c s c' s' l} (h : readNativesK c s = (.ok c' s', l)) :
    ∃ ys, ys.length = c.nnatives ∧ noCache c' = { noCache c with natives := ys } ∧
      l.map noCache = afterEach c.nnatives (fun i => { noCache c with natives := ys.take i }) := by
  obtain ⟨h, he⟩ := sec_checked h
  obtain ⟨ys, h1, h2, h3, -⟩ := loop_copies (f := readNativesStepK) (g := readNativesStep) Copying.readNativesStep (fun i b => Good.readNativesStep i b) Last mapLast
    (fun _ _ _ _ _ _ h => copies_natives h) (fun xs : List Native => { noCache c with natives := xs })
    (fun xs b s b' s' hb h he => noCache_nativesStep (c := c) xs hb h he) _ [] _ s c' s' l rfl h he
  exact ⟨ys, h1, h2, h3⟩

theorem sec_functions {p c s c' s' l} (hf : c.functions = []) (h : readFunctionsK p c s = (.ok c' s', l)) :
    ∃ ys, ys.length = c.nfunctions ∧ noCache c' = { noCache c with functions := ys } ∧
      l.map noCache = beforeAndAfter c.nfunctions (fun i => { noCache c with functions := ys.take i }) := by
  obtain ⟨h, he⟩ := sec_checked h
  obtain ⟨ys, h1, h2, h3, -⟩ := loop_copies (f := readFunctionsStepK p) (g := readFunctionsStep p) (Copying.readFunctionsStep p) (fun i b => Good.readFunctionsStep p i b) Both mapBoth
    (fun _ _ _ _ _ _ h => copies_functions h) (fun xs : List HLFunction => { noCache c with functions := xs })
    (fun xs b s b' s' hb h he => noCache_functionsStep (c := c) xs rfl hb h he) _ [] c s c' s' l (by rw [← hf]; rfl) h he
  exact ⟨ys, h1, h2, h3⟩

theorem sec_constants {c s c' s' l} (hf : c.constants = []) (h : readConstantsK c s = (.ok c' s', l)) (he : s'.errors = none) :
    ∃ ys, ys.length = c.nconstants ∧ noCache c' = { noCache c with constants := ys } ∧
      l.map noCache = afterEach c.nconstants (fun i => { noCache c with constants := ys.take i }) := by
  obtain ⟨ys, h1, h2, h3, -⟩ := loop_copies (f := readConstantsStepK) (g := readConstantsStep) Copying.readConstantsStep (fun i b => Good.readConstantsStep i b) Last mapLast
    (fun _ _ _ _ _ _ h => copies_constants h) (fun xs : List Constant => { noCache c with constants := xs })
    (fun xs b s b' s' hb h he => noCache_constantsStep (c := c) xs rfl hb h he) _ [] c s c' s' l (by rw [← hf]; rfl) h he
  exact ⟨ys, h1, h2, h3⟩

theorem sec_debugFiles {c s c' s' l} (h : readDebugFilesK c s = (.ok c' s', l)) :
    c.hasdebug ≠ 0 ∧ (∃ n files, c' = { c with ndebugfiles := n, debugfiles := files } ∧ l = [{ c with ndebugfiles := n }, c']) ∨
      c.hasdebug = 0 ∧ c' = c ∧ l = [] := by
  unfold readDebugFilesK at h
  split at h
  · next hd =>
    refine .inl ⟨hd, ?_⟩
    obtain ⟨n, _, _, _, e1, h1, rfl⟩ := K.bind_eq_ok h
    obtain ⟨-, rfl⟩ := K.lift_eq_ok e1
    obtain ⟨_, _, _, _, e2, h2, rfl⟩ := K.bind_eq_ok h1
    cases e2
    obtain ⟨r, s3, _, _, e3, h3, rfl⟩ := K.bind_eq_ok h2
    obtain ⟨h3', rfl⟩ := K.lift_eq_ok e3
    have hk : s3.code = { c with ndebugfiles := n } := by
      have hT := composes_eq
      exact Pres.okOrRecord hT (Pres.readStrings hT) (fun s e s' h => absurd h (NoErr.readStrings _ _ _ _)) _ _ _ h3'
    obtain ⟨_, _, _, _, e4, h4, rfl⟩ := K.bind_eq_ok h3
    obtain ⟨h4', rfl⟩ := K.lift_eq_ok e4
    cases h4'
    obtain ⟨_, _, _, _, e5, h5, rfl⟩ := K.bind_eq_ok h4
    obtain ⟨h5', rfl⟩ := K.lift_eq_ok e5
    cases h5'
    obtain ⟨_, _, _, _, e6, h6, rfl⟩ := K.bind_eq_ok h5
    cases e6
    obtain ⟨_, _, _, _, e7, h7, rfl⟩ := K.bind_eq_ok h6
    obtain ⟨h7', rfl⟩ := K.lift_eq_ok e7
    obtain ⟨rfl, -⟩ := checkError_ok h7'
    cases h7
    rw [hk]
    cases r with
    | none => exact ⟨n, c.debugfiles, rfl, rfl⟩
    | some r => exact ⟨n, r.1, rfl, rfl⟩
  · next hd => cases h; exact .inr ⟨Decidable.not_not.1 hd, rfl, rfl⟩

/-! ## The file -/

theorem beforeAndAfter_congr {n : Nat} {m m' : Nat → Code} (h : ∀ i, i ≤ n → m i = m' i) : beforeAndAfter n m = beforeAndAfter n m' := by
  unfold beforeAndAfter
  rw [List.flatMap_def, List.flatMap_def]
  congr 1
  refine List.map_congr_left fun i hi => ?_
  have := List.mem_range.1 hi
  rw [h i (by omega), h (i + 1) (by omega)]

/-- The copies made for a file, section by section. -/
theorem copies_assemble {B c : Code} {n : Nat} {fs : List Str} {ts gs : List ValueType} {ns : List Native} {fns : List HLFunction} {cs : List Constant} {l0 : List Code}
    (hB : noCache B = B) (b1 : B.types = []) (b2 : B.globals = []) (b3 : B.natives = []) (b4 : B.functions = []) (b5 : B.constants = []) (b6 : B.debugfiles = [])
    (h0 : B.hasdebug ≠ 0 ∧ l0 = [{ B with ndebugfiles := n }, { B with ndebugfiles := n, debugfiles := fs }] ∨ B.hasdebug = 0 ∧ l0 = [])
    (ht : ts.length = B.ntypes) (hg : gs.length = B.nglobals)
    (hc : noCache c = { B with ndebugfiles := n, debugfiles := fs, types := ts ++ List.replicate B.ntypes noType, globals := gs ++ List.replicate B.nglobals noType, natives := ns, functions := fns, constants := cs }) :
    l0 ++ beforeAndAfter B.ntypes (fun i => { B with ndebugfiles := n, debugfiles := fs, types := ts.take i ++ List.replicate B.ntypes noType }) ++
    beforeAndAfter B.nglobals (fun i => { B with ndebugfiles := n, debugfiles := fs, types := ts ++ List.replicate B.ntypes noType, globals := gs.take i ++ List.replicate B.nglobals noType }) ++
    afterEach B.nnatives (fun i => { B with ndebugfiles := n, debugfiles := fs, types := ts ++ List.replicate B.ntypes noType, globals := gs ++ List.replicate B.nglobals noType, natives := ns.take i }) ++
    beforeAndAfter B.nfunctions (fun i => { B with ndebugfiles := n, debugfiles := fs, types := ts ++ List.replicate B.ntypes noType, globals := gs ++ List.replicate B.nglobals noType, natives := ns, functions := fns.take i }) ++
    afterEach B.nconstants (fun i => { B with ndebugfiles := n, debugfiles := fs, types := ts ++ List.replicate B.ntypes noType, globals := gs ++ List.replicate B.nglobals noType, natives := ns, functions := fns, constants := cs.take i }) = copiesOf c := by
  have hcc : copiesOf c = copiesOf (noCache c) := rfl
  rw [hcc, hc]
  unfold copiesOf
  have e1 : ∀ i, i ≤ B.ntypes → (ts ++ List.replicate B.ntypes noType).take i = ts.take i := fun i hi => List.take_append_of_le_length (by omega)
  have e2 : ∀ i, i ≤ B.nglobals → (gs ++ List.replicate B.nglobals noType).take i = gs.take i := fun i hi => List.take_append_of_le_length (by omega)
  obtain ⟨types, ntypes, strings, stringsLens, ustrings, nstrings, nints, ints, nfloats, floats, nbytes, nfunctions, functions, nconstants, constants,
    entrypoint, nglobals, globals, nnatives, natives, hasdebug, version, bytes, bytesPos, ndebugfiles, debugfiles, debugfilesLens⟩ := B
  simp only at b1 b2 b3 b4 b5 b6 ht hg e1 e2 h0 ⊢
  subst b1 b2 b3 b4 b5 b6
  have hu : ustrings = [] := (congrArg Code.ustrings hB).symm
  subst hu
  congr 1
  congr 1
  congr 1
  congr 1
  · congr 1
    · rcases h0 with ⟨h, rfl⟩ | ⟨h, rfl⟩
      · rw [if_pos h]; rfl
      · rw [if_neg (by omega)]
    · exact beforeAndAfter_congr fun i hi => by rw [← e1 i hi]; rfl
  · exact beforeAndAfter_congr fun i hi => by rw [← e2 i hi]; rfl

theorem noCache_noCache (c : Code) : noCache (noCache c) = noCache c := rfl

/-- What is copied when a file is accepted. -/
theorem copies_file {p : Profile} {buf : List UInt8} {c : Code} {s : St} (h : Code.read p none buf = .ok c s) (he : s.errors = none) :
    (copied p none buf).map noCache = copiesOf c := by
  have hrun : readMK p (St.new buf none) = (.ok c s, copied p none buf) := (Copying.readM p).run h
  generalize copied p none buf = l at hrun ⊢
  unfold readMK at hrun
  obtain ⟨_, s1, _, _, e1, h1, rfl⟩ := K.bind_eq_ok hrun
  obtain ⟨m1, rfl⟩ := K.lift_eq_ok e1
  obtain ⟨v, s2, _, _, e2, h2, rfl⟩ := K.bind_eq_ok h1
  obtain ⟨m2, rfl⟩ := K.lift_eq_ok e2
  obtain ⟨c0, s3, _, _, e3, h3, rfl⟩ := K.bind_eq_ok h2
  obtain ⟨m3, rfl⟩ := K.lift_eq_ok e3
  obtain ⟨c1, s4, _, _, e4, h4, rfl⟩ := K.bind_eq_ok h3
  obtain ⟨m4, rfl⟩ := K.lift_eq_ok e4
  obtain ⟨c2, s5, _, _, e5, h5, rfl⟩ := K.bind_eq_ok h4
  obtain ⟨m5, rfl⟩ := K.lift_eq_ok e5
  obtain ⟨c3, s6, l3, _, e6, h6, rfl⟩ := K.bind_eq_ok h5
  have m6 := (Copying.readDebugFiles _).ok e6
  obtain ⟨c4, s7, l4, _, e7, h7, rfl⟩ := K.bind_eq_ok h6
  have m7 := (Copying.readTypes _).ok e7
  obtain ⟨c5, s8, l5, _, e8, h8, rfl⟩ := K.bind_eq_ok h7
  have m8 := (Copying.readGlobals _).ok e8
  obtain ⟨c6, s9, l6, _, e9, h9, rfl⟩ := K.bind_eq_ok h8
  have m9 := (Copying.readNatives _).ok e9
  obtain ⟨c7, s10, l7, _, e10, h10, rfl⟩ := K.bind_eq_ok h9
  have m10 := (Copying.readFunctions p _).ok e10
  obtain ⟨c8, s11, l8, _, e11, h11, rfl⟩ := K.bind_eq_ok h10
  have m11 := (Copying.readConstants _).ok e11
  obtain ⟨m12, rfl⟩ := K.lift_eq_ok h11
  cases m12
  obtain ⟨n10, k8, -, -, g11⟩ := (Sem.readConstants _).sound _ _ _ trivial m11 he
  obtain ⟨-, n9'⟩ := sec_checked e10
  have n9 : s9.errors = none := (Good.readFunctions p c6).none_of m10 n10
  obtain ⟨n8, k6, -, -, g9⟩ := (Sem.readNatives _).sound _ _ _ trivial m9 n9
  obtain ⟨n7, k5, -, -, g8⟩ := (Sem.readGlobals _).sound _ _ _ trivial m8 n8
  obtain ⟨n6, k4, -, -, g7⟩ := (Sem.readTypes _).sound _ _ _ trivial m7 n7
  obtain ⟨n5, k3, -, -, g6⟩ := (Sem.readDebugFiles _).sound _ _ _ trivial m6 n6
  obtain ⟨n4, k2, -, -, g5⟩ := (Sem.readBytesSection _).sound _ _ _ trivial m5 n5
  obtain ⟨n3, k1, -, -, g4⟩ := (Sem.readPools _).sound _ _ _ trivial m4 n4
  obtain ⟨n2, kc, -, -, g3⟩ := (Sem.checked (Sem.readCounts v)).sound _ _ _ trivial m3 n3
  obtain ⟨n1, kv, -, -, g2⟩ := Sem.readVersion.sound _ _ _ trivial m2 n2
  obtain ⟨n0, km, -, -, g1⟩ := Sem.readMagic.sound _ _ _ trivial m1 n1
  obtain ⟨z0, hd, hh, rfl, hv⟩ := header_of g1 g2 g3
  obtain ⟨z1, -⟩ := KeepsOn.poolsG (f := fun _ => ()) _ _ _ _ _ g4
  obtain ⟨z2, -⟩ := KeepsOn.bytesSectionG (f := fun _ => ()) _ _ _ _ _ g5
  have z0 : s3.code = Code.new := z0
  rw [z0] at g4 z1
  rw [z1] at g4 g5 z2
  rw [z2] at g5 g6
  have f6 : c6.functions = [] := by
    obtain ⟨_, rfl⟩ := nativesG_value g9
    obtain ⟨_, rfl⟩ := globalsG_value g8
    obtain ⟨_, _, rfl⟩ := typesG_value g7
    obtain ⟨_, _, rfl⟩ := debugFilesG_value g6
    obtain ⟨_, _, rfl⟩ := bytesSectionG_value g5
    obtain ⟨_, _, _, _, rfl⟩ := poolsG_value g4
    rfl
  obtain ⟨-, k7, -, -, g10⟩ := (Sem.readFunctions p c6 f6).sound _ _ _ trivial m10 n10
  let S : Sections p (km ++ (kv ++ kc) ++ (k1 ++ (k2 ++ (k3 ++ (k4 ++ (k5 ++ (k6 ++ (k7 ++ k8)))))))) s.code :=
    ⟨hd, _, k1, k2, k3, k4, k5, k6, k7, k8, c1, c2, c3, c4, c5, c6, c7, c8, _, _, _, _, _, rfl, hh, g4, g5, g6, g7, g8, g9, g10, g11⟩
  have x7 := S.same7
  have x2 := S.same2
  have d2 : c2.debugfiles = [] := by
    have x1 := S.same1
    obtain ⟨_, _, e⟩ := bytesSectionG_value g5
    rw [e]
    exact x1.2.2.2.2.2.2.2.1
  obtain ⟨ts, y1, y2, y3⟩ := sec_types e7 n7
  obtain ⟨gs, t1, t2, t3⟩ := sec_globals e8
  obtain ⟨ns, u1, u2, u3⟩ := sec_natives e9
  obtain ⟨fs, v1, v2, v3⟩ := sec_functions f6 e10
  obtain ⟨cs, w1, w2, w3⟩ := sec_constants x7.2 e11 he
  obtain ⟨n, files, q1, q2⟩ : ∃ n files, c3 = { c2 with ndebugfiles := n, debugfiles := files } ∧
      (c2.hasdebug ≠ 0 ∧ l3 = [{ c2 with ndebugfiles := n }, c3] ∨ c2.hasdebug = 0 ∧ l3 = []) := by
    rcases sec_debugFiles e6 with ⟨a, n, files, b, d⟩ | ⟨a, b, d⟩
    · exact ⟨n, files, b, .inl ⟨a, d⟩⟩
    · exact ⟨c2.ndebugfiles, c2.debugfiles, b, .inr ⟨a, d⟩⟩
  have x3 := S.same3.1
  have x4 := S.same4.1
  have x5 := S.same5.1
  have x6 := S.same6.1
  have hx2 := x2.1
  have a3 : c3.ntypes = c2.ntypes := x3.ntypes.trans hx2.ntypes.symm
  have a4 : c4.nglobals = c2.nglobals := x4.nglobals.trans hx2.nglobals.symm
  have a5 : c5.nnatives = c2.nnatives := x5.nnatives.trans hx2.nnatives.symm
  have a6 : c6.nfunctions = c2.nfunctions := x6.nfunctions.trans hx2.nfunctions.symm
  have a7 : c7.nconstants = c2.nconstants := x7.1.nconstants.trans hx2.nconstants.symm
  rw [a3] at y1 y2 y3
  rw [a4] at t1 t2 t3
  rw [a5] at u1 u3
  rw [a6] at v1 v3
  rw [a7] at w1 w3
  have key : (l3 ++ (l4 ++ (l5 ++ (l6 ++ (l7 ++ (l8 ++ [])))))).map noCache = copiesOf c8 := by
    have q3 : noCache c3 = { noCache c2 with ndebugfiles := n, debugfiles := files } := by rw [q1]; rfl
    rw [← copies_assemble (B := noCache c2) (c := c8) (n := n) (fs := files) (ts := ts) (gs := gs) (ns := ns) (fns := fs) (cs := cs)
      (l0 := l3.map noCache) rfl x2.2.1 x2.2.2.1 x2.2.2.2.1 x2.2.2.2.2.1 x2.2.2.2.2.2 d2 ?_ y1 t1 (by rw [w2, v2, u2, t2, y2, q3]; rfl)]
    · simp only [List.map_append, List.append_assoc, List.map_nil, List.append_nil, y3, t3, u3, v3, w3]
      rw [v2, u2, t2, y2, q3]
      rfl
    · rcases q2 with ⟨a, b⟩ | ⟨a, b⟩
      · exact .inl ⟨a, by rw [b, q1]; rfl⟩
      · exact .inr ⟨a, by rw [b]; rfl⟩
  simp only [List.nil_append]
  rw [key]
  by_cases hb : S.h.Bare
  · have e8 : s.code = Code.new := S.code.2 hb
    rw [e8]
    have h8 := S.same8
    have hbb := hb
    obtain ⟨i1, i2, i3, i4, i5, i6⟩ := hb
    have r1 : c8.hasdebug = 0 := h8.hasdebug.trans i1
    have r2 : c8.ntypes = 0 := h8.ntypes.trans i2
    have r3 : c8.nglobals = 0 := h8.nglobals.trans i3
    have r4 : c8.nnatives = 0 := h8.nnatives.trans i4
    have r5 : c8.nfunctions = 0 := h8.nfunctions.trans i5
    have r6 : c8.nconstants = 0 := h8.nconstants.trans i6
    unfold copiesOf beforeAndAfter afterEach
    simp only [r1, r2, r3, r4, r5, r6]
    rfl
  · have e8 : s.code = c8 := S.code.1 hb
    rw [e8]

end Verif.Brass
