import Verif.Brass.Loaded
import Verif.Brass.AllocLemmas
import Verif.Spec.HashWork

/-!
# The steps of `CodeHash::alloc`
-/

namespace Verif.Brass

open Verif Verif.Brass.Spec

/-- If `x` returns, its log is `l`. -/
def HLogs {α : Type} (x : HW α) (l : List HashStep) : Prop := ∀ a, x.1 = .ret a → x.2 = l

namespace HLogs

theorem pure {α : Type} (a : α) : HLogs (Pure.pure a : HW α) [] := fun _ _ => rfl

theorem lift {α : Type} (x : Rust α) : HLogs (HW.lift x) [] := fun _ _ => rfl

theorem log (e : HashStep) : HLogs (HW.log e) [e] := fun _ _ => rfl

theorem bind' {α β : Type} {x : HW α} {f : α → HW β} {l l1 l2 : List HashStep} (h1 : HLogs x l1) (h2 : ∀ a, x.1 = .ret a → HLogs (f a) l2) (hl : l = l1 ++ l2) :
    HLogs (x >>= f) l := by
  intro b hb
  have hb : (HW.bind x f).1 = .ret b := hb
  show (HW.bind x f).2 = l
  unfold HW.bind at hb ⊢
  rcases hx : x with ⟨o, l'⟩
  rw [hx] at hb
  have e1 := h1
  have e2 := h2
  rw [hx] at e1 e2
  cases o with
  | panic => cases hb
  | ret a =>
    have := e1 a rfl
    simp only at this hb ⊢
    rw [this, e2 a rfl b hb, hl]

theorem bind {α β : Type} {x : HW α} {f : α → HW β} {l1 l2 : List HashStep} (h1 : HLogs x l1) (h2 : ∀ a, x.1 = .ret a → HLogs (f a) l2) :
    HLogs (x >>= f) (l1 ++ l2) := bind' h1 h2 rfl

theorem nil {α : Type} {x : HW α} {l : List HashStep} (h : HLogs x (l ++ [])) : HLogs x l := by rwa [List.append_nil] at h

/-- First nothing is logged. -/
theorem first {α β : Type} {x : Rust α} {f : α → HW β} {l : List HashStep} (h : ∀ a, x = .ret a → HLogs (f a) l) : HLogs (HW.lift x >>= f) l :=
  bind' (lift x) h rfl

/-- At the end nothing is logged. -/
theorem last {α β : Type} {x : HW α} {f : α → HW β} {l : List HashStep} (h1 : HLogs x l) (h2 : ∀ a, HLogs (f a) []) : HLogs (x >>= f) l :=
  bind' h1 (fun a _ => h2 a) (List.append_nil _).symm

theorem forRange {β : Type} {f : Nat → β → HW β} (P : β → Prop) (g : Nat → List HashStep) (N : Nat)
    (h : ∀ i b, i < N → P b → HLogs (f i b) (g i)) (hP : ∀ i b b', P b → (f i b).1 = .ret b' → P b') :
    ∀ (n a : Nat) (b : β), a + n ≤ N → P b → HLogs (HW.forRange f a n b) ((List.range' a n).flatMap g)
  | 0, _, _, _, _ => fun _ _ => rfl
  | n + 1, a, b, hn, hb => by
    rw [List.range'_succ, List.flatMap_cons]
    exact bind (h a b (by omega) hb) fun b' e => forRange P g N h hP n (a + 1) b' (by omega) (hP a b b' hb e)

theorem search (t : ValueType) : ∀ (l : List ValueType) (i j : Nat), (CodeHash.searchW t l i).1 = .ret (some j) →
    (CodeHash.searchW t l i).2 = (Spec.search l t).map fun x => .compare x.1 x.2
  | [], _, _, h => nomatch h
  | v :: l, i, j, h => by
    unfold CodeHash.searchW at h ⊢
    have h : (if v.beq t = true then (Pure.pure (some i) : HW (Option Nat)) else CodeHash.searchW t l (i + 1)).1 = .ret (some j) := h
    show [HashStep.compare v t] ++ (if v.beq t = true then (Pure.pure (some i) : HW (Option Nat)) else CodeHash.searchW t l (i + 1)).2 = _
    by_cases hv : v.beq t = true
    · rw [if_pos hv]
      have := (ValueType.beq_iff v t).1 hv
      subst this
      unfold Spec.search
      rw [List.takeWhile_cons_of_neg (by simp)]
      rfl
    · rw [if_neg hv] at h ⊢
      have hv' : v ≠ t := fun e => hv ((ValueType.beq_iff v t).2 e)
      rw [search t l (i + 1) j h]
      unfold Spec.search
      rw [List.takeWhile_cons_of_pos (by simpa using hv')]
      rfl

end HLogs

/-- The log of a search that finds the type. -/
def searchLog (c : Code) (t : ValueType) : List HashStep := (Spec.search c.types t).map fun x => .compare x.1 x.2

namespace HLogs

theorem position (c : Code) (t : ValueType) : HLogs (CodeHash.positionW c.types t) (searchLog c t) := by
  intro j hj
  unfold CodeHash.positionW at hj ⊢
  have e := Logged.search t c.types 0
  rcases hx : CodeHash.searchW t c.types 0 with ⟨o, l⟩
  rw [hx] at e
  simp only at e
  subst e
  rw [hx] at hj
  have hj : (Rust.unwrap ((c.types.findIdx? fun v => v.beq t).map (0 + ·))) = .ret j := hj
  rcases hf : (c.types.findIdx? fun v => v.beq t).map (0 + ·) with _ | k
  · rw [hf] at hj; cases hj
  · rw [hf] at hx
    have := search t c.types 0 k (by rw [hx])
    rw [hx] at this
    show l ++ [] = _
    rw [List.append_nil]
    exact this

variable {c : Code} {s : CodeHash} (hs : s.code = c)

include hs

theorem typeHash (t : ValueType) : HLogs (s.typeHashW t) (searchLog c t) := by subst hs; exact last (position _ _) fun _ => lift _
theorem writeType (h : Hasher) (t : ValueType) : HLogs (s.writeTypeW h t) (searchLog c t) := last (typeHash hs t) fun _ => pure _
theorem codeHashType (t : ValueType) : HLogs (s.codeHashTypeW t) (searchLog c t) := last (writeType hs _ t) fun _ => pure _

omit hs in
theorem get {α : Type} {l : List α} {i : Nat} {a : α} (h : Rust.get l i = .ret a) : l[i]? = some a := by
  unfold Rust.get at h
  rcases hx : l[i]? with _ | b
  · rw [hx] at h; cases h
  · rw [hx] at h; cases h; rfl

omit hs in
theorem flatMap_range' {α γ : Type} {l : List α} (F : α → List γ) (g : Nat → List γ) : ∀ (n a : Nat), a + n ≤ l.length →
    (∀ i t, l[i]? = some t → g i = F t) → (List.range' a n).flatMap g = ((l.drop a).take n).flatMap F
  | 0, _, _, _ => by simp
  | n + 1, a, h, hg => by
    rw [List.range'_succ, List.flatMap_cons, List.drop_eq_getElem_cons (by omega), List.take_succ_cons, List.flatMap_cons,
      flatMap_range' F g n (a + 1) (by omega) hg, hg a _ (List.getElem?_eq_getElem (by omega))]

omit hs in
/-- A loop over the first entries of a list. -/
theorem overList {α β : Type} {l : List α} {f : Nat → β → HW β} (F : α → List HashStep) (n : Nat) (b : β) (P : β → Prop)
    (hf : ∀ i b t, i < n → P b → l[i]? = some t → HLogs (f i b) (F t)) (hp : ∀ i b b', P b → (f i b).1 = .ret b' → P b' ∧ ∃ t, l[i]? = some t) (hb : P b) :
    HLogs (HW.forRange f 0 n b) ((l.take n).flatMap F) := by
  by_cases hn : n ≤ l.length
  · have key := forRange (f := f) P (fun i => match l[i]? with | some t => F t | none => []) n (by
        intro i b hi hb
        rcases hx : l[i]? with _ | t
        · intro b' hb'
          obtain ⟨_, t, ht⟩ := hp i b b' hb hb'
          rw [ht] at hx; cases hx
        · exact hf i b t hi hb hx) (fun i b b' h e => (hp i b b' h e).1) n 0 b (by omega) hb
    have e := flatMap_range' F (fun i => match l[i]? with | some t => F t | none => []) n 0 (by omega) (l := l) (by intro i t ht; simp only [ht])
    rw [List.drop_zero] at e
    rw [← e]
    exact key
  · intro b' hb'
    exfalso
    have : ∀ (m a : Nat) (b : β), P b → l.length < a + m → a ≤ l.length → ∀ b', (HW.forRange f a m b).1 ≠ .ret b' := by
      intro m
      induction m with
      | zero => intro a b _ h1 h2; omega
      | succ m ih =>
        intro a b hb h1 h2 b' h
        unfold HW.forRange at h
        have h : (HW.bind (f a b) (fun b => HW.forRange f (a + 1) m b)).1 = .ret b' := h
        unfold HW.bind at h
        rcases hx : f a b with ⟨o, lg⟩
        rw [hx] at h
        cases o with
        | panic => cases h
        | ret b1 =>
          obtain ⟨h3, t, h4⟩ := hp a b b1 hb (by rw [hx])
          have : a < l.length := (List.getElem?_eq_some_iff.1 h4).1
          exact ih (a + 1) b1 h3 (by omega) (by omega) b' h
    exact this n 0 b hb (by omega) (by omega) b' hb'

theorem recTypes (ts : List ValueType) (n : Nat) (h : Hasher) : HLogs (HW.forRange (s.recTypeW ts) 0 n h) ((ts.take n).flatMap (searchLog c)) := by
  refine overList (l := ts) (searchLog c) n h (fun _ => True) ?_ ?_ trivial
  · intro i b t _ _ ht
    refine first fun a ha => ?_
    have := get ha
    rw [ht] at this; cases this
    exact writeType hs _ _
  · intro i b b' _ e
    refine ⟨trivial, ?_⟩
    rw [Logged.recType] at e
    unfold CodeHash.recType at e
    rcases hx : Rust.get ts i with a | _
    · exact ⟨a, get hx⟩
    · rw [hx] at e; cases e

theorem recFields (ts : List ObjField) (n : Nat) (h : Hasher) : HLogs (HW.forRange (s.recFieldW ts) 0 n h) ((ts.take n).flatMap fun f => searchLog c f.t) := by
  refine overList (l := ts) _ n h (fun _ => True) ?_ ?_ trivial
  · intro i b t _ _ ht
    refine first fun a ha => ?_
    have := get ha
    rw [ht] at this; cases this
    exact writeType hs _ _
  · intro i b b' _ e
    refine ⟨trivial, ?_⟩
    rw [Logged.recField] at e
    unfold CodeHash.recField at e
    rcases hx : Rust.get ts i with a | _
    · exact ⟨a, get hx⟩
    · rw [hx] at e; cases e

theorem recConstructs (ts : List EnumConstruct) (n : Nat) (h : Hasher) :
    HLogs (HW.forRange (s.recConstructW ts) 0 n h) ((ts.take n).flatMap fun k => (k.params.take k.nparams).flatMap (searchLog c)) := by
  refine overList (l := ts) _ n h (fun _ => True) ?_ ?_ trivial
  · intro i b t _ _ ht
    refine first fun a ha => ?_
    have := get ha
    rw [ht] at this; cases this
    exact recTypes hs _ _ _
  · intro i b b' _ e
    refine ⟨trivial, ?_⟩
    rw [Logged.recConstruct] at e
    unfold CodeHash.recConstruct at e
    rcases hx : Rust.get ts i with a | _
    · exact ⟨a, get hx⟩
    · rw [hx] at e; cases e

theorem recKind {t : ValueType} (hw : WellFormed t) : HLogs (s.recKindW t) ((hashedRefs t).flatMap (searchLog c)) := by
  obtain ⟨u, a, p, k⟩ := t
  cases k
  case HFUN | HMETHOD =>
    obtain ⟨args, ret, h1, -, -⟩ := hw
    simp only at h1
    subst h1
    simp only [CodeHash.recKindW, hashedRefs, List.flatMap_append]
    refine bind' (recTypes hs _ _ _) (fun _ _ => writeType hs _ _) ?_
    rw [List.take_length]; simp
  case HOBJ | HSTRUCT =>
    obtain ⟨name, sup, fields, proto, bindings, nb, g, h1, -, -, -, -⟩ := hw
    simp only at h1
    subst h1
    simp only [CodeHash.recKindW, hashedRefs, List.flatMap_map]
    have := recFields hs fields fields.length Hasher.new
    rw [List.take_length] at this
    exact this
  case HENUM =>
    obtain ⟨name, ks, g, h1, h2, -, -, -⟩ := hw
    simp only at h1
    subst h1
    simp only [CodeHash.recKindW, hashedRefs]
    have := recConstructs hs ks ks.length Hasher.new
    rw [List.take_length] at this
    rw [List.flatMap_assoc]
    have e : ks.flatMap (fun k => (k.params.take k.nparams).flatMap (searchLog c)) = ks.flatMap fun k => k.params.flatMap (searchLog c) := by
      rw [List.flatMap_def, List.flatMap_def]
      congr 1
      exact List.map_congr_left fun k hk => by rw [h2 k hk, List.take_length]
    rw [e] at this
    exact this
  case HREF | HNULL =>
    obtain ⟨q, h1, -, -⟩ := hw
    simp only at h1
    subst h1
    simp only [CodeHash.recKindW, hashedRefs]
    refine first fun b hb => ?_
    cases hb
    simp only [Option.toList_some, List.flatMap_cons, List.flatMap_nil, List.append_nil]
    exact writeType hs _ _
  all_goals exact lift _

end HLogs

/-! ## The parts of `alloc` -/

namespace HLogs

/-- The loops of `alloc` keep the code. -/
theorem keeps {f : Nat → CodeHash → Rust CodeHash} (hf : ∀ i s s', f i s = .ret s' → s'.code = s.code) :
    ∀ (n a : Nat) (s s' : CodeHash), Rust.forRange f a n s = .ret s' → s'.code = s.code
  | 0, _, _, _, h => by cases h; rfl
  | n + 1, a, s, s', h => by
    unfold Rust.forRange at h
    rcases hx : f a s with s1 | _
    · rw [hx] at h
      exact (keeps hf n (a + 1) s1 s' h).trans (hf a s s1 hx)
    · rw [hx] at h; cases h

theorem rust_bind {α β : Type} {x : Rust α} {f : α → Rust β} {b : β} (h : (x >>= f) = .ret b) : ∃ a, x = .ret a ∧ f a = .ret b := by
  cases x with
  | ret a => exact ⟨a, rfl, h⟩
  | panic => cases h

theorem globalStep_code {i : Nat} {s s' : CodeHash} (h : CodeHash.globalStep i s = .ret s') : s'.code = s.code ∧ ∃ t, s.code.globals[i]? = some t := by
  obtain ⟨v, _, h⟩ := rust_bind h
  obtain ⟨t, ht, h⟩ := rust_bind h
  refine ⟨?_, t, get ht⟩
  split at h
  · obtain ⟨_, _, h⟩ := rust_bind h
    obtain ⟨_, _, h⟩ := rust_bind h
    cases h; rfl
  · cases h; rfl

theorem signGlobalOf_code {s s' : CodeHash} {t : ValueType} {g : List Int} (h : s.signGlobalOf t g = .ret s') : s'.code = s.code := by
  obtain ⟨_, _, h⟩ := rust_bind h
  obtain ⟨_, _, h⟩ := rust_bind h
  obtain ⟨_, _, h⟩ := rust_bind h
  cases h; rfl

theorem typeGlobalStep_code {i : Nat} {s s' : CodeHash} (h : CodeHash.typeGlobalStep i s = .ret s') : s'.code = s.code ∧ ∃ t, s.code.types[i]? = some t := by
  obtain ⟨t, ht, h⟩ := rust_bind h
  refine ⟨?_, t, get ht⟩
  revert h
  cases t.kind <;> cases t.union <;> intro h <;> first
    | exact signGlobalOf_code h
    | (cases h; rfl)

theorem globalTypeStep_code {i : Nat} {s s' : CodeHash} (h : CodeHash.globalTypeStep i s = .ret s') : s'.code = s.code ∧ ∃ t, s.code.globals[i]? = some t := by
  obtain ⟨t, ht, h⟩ := rust_bind h
  refine ⟨?_, t, get ht⟩
  obtain ⟨_, _, h⟩ := rust_bind h
  obtain ⟨_, _, h⟩ := rust_bind h
  obtain ⟨_, _, h⟩ := rust_bind h
  cases h; rfl

theorem constantStep_code {i : Nat} {s s' : CodeHash} (h : CodeHash.constantStep i s = .ret s') : s'.code = s.code := by
  obtain ⟨_, _, h⟩ := rust_bind h
  obtain ⟨_, _, h⟩ := rust_bind h
  obtain ⟨_, _, h⟩ := rust_bind h
  obtain ⟨_, _, h⟩ := rust_bind h
  cases h; rfl

theorem bootStep_code {f : HLFunction} {i : Nat} {s s' : CodeHash} (h : CodeHash.bootStep f i s = .ret s') : s'.code = s.code := by
  obtain ⟨_, _, h⟩ := rust_bind h
  split at h
  · obtain ⟨_, _, h⟩ := rust_bind h
    split at h
    · obtain ⟨_, _, h⟩ := rust_bind h
      split at h
      · obtain ⟨_, _, h⟩ := rust_bind h
        split at h
        · obtain ⟨_, _, h⟩ := rust_bind h
          obtain ⟨_, _, h⟩ := rust_bind h
          obtain ⟨_, _, h⟩ := rust_bind h
          obtain ⟨_, _, h⟩ := rust_bind h
          cases h; rfl
        · cases h; rfl
      · cases h; rfl
    · cases h; rfl
  · cases h; rfl

theorem boot_code {s s' : CodeHash} (h : CodeHash.boot s = .ret s') : s'.code = s.code := by
  obtain ⟨_, _, h⟩ := rust_bind h
  obtain ⟨_, _, h⟩ := rust_bind h
  exact keeps (fun _ _ _ => bootStep_code) _ _ _ _ h

/-- Equal logs in all rounds. -/
theorem repeated {β : Type} {f : Nat → β → HW β} {e : HashStep} (h : ∀ i b, HLogs (f i b) [e]) (n a : Nat) (b : β) :
    HLogs (HW.forRange f a n b) (List.replicate n e) := by
  have := forRange (f := f) (fun _ => True) (fun _ => [e]) (a + n) (fun i b _ _ => h i b) (fun _ _ _ _ _ => trivial) n a b (Nat.le_refl _) trivial
  have key : ∀ l : List Nat, l.flatMap (fun _ => [e]) = List.replicate l.length e := by
    intro l
    induction l with
    | nil => rfl
    | cons x l ih => rw [List.flatMap_cons, ih]; rfl
  rw [key, List.length_range'] at this
  exact this

/-- The log of `globalStep` -/
def globalLog (c : Code) (t : ValueType) : List HashStep :=
  [.copyGlobals c.globals.length] ++ if t.kind = .HABSTRACT then searchLog c t else []

/-- The log of `typeGlobalStep` -/
def typeGlobalLog (c : Code) (t : ValueType) : List HashStep :=
  [.copyTypes c.types.length] ++ if hasGlobal t = true then searchLog c t else []

theorem globals {c : Code} {s : CodeHash} (hs : s.code = c) (n : Nat) : HLogs (HW.forRange CodeHash.globalStepW 0 n s) ((c.globals.take n).flatMap (globalLog c)) := by
  refine overList _ n s (fun s => s.code = c) ?_ ?_ hs
  · intro i s t _ hs ht
    subst hs
    refine bind (log _) fun _ _ => first fun v _ => first fun t' ht' => ?_
    have := get ht'
    rw [ht] at this; cases this
    split
    · exact last (codeHashType rfl t) fun _ => first fun _ _ => pure _
    · exact pure _
  · intro i s s' hs h
    subst hs
    rw [Logged.globalStep] at h
    exact globalStep_code h

theorem typeGlobals {c : Code} {s : CodeHash} (hs : s.code = c) (n : Nat) (hw : ∀ i t, i < n → c.types[i]? = some t → WellFormed t) :
    HLogs (HW.forRange CodeHash.typeGlobalStepW 0 n s) ((c.types.take n).flatMap (typeGlobalLog c)) := by
  refine overList _ n s (fun s => s.code = c) ?_ ?_ hs
  · intro i s t hi hs ht
    subst hs
    have hwt := hw i t hi ht
    refine bind (log _) fun _ _ => first fun t' ht' => ?_
    have := get ht'
    rw [ht] at this; cases this
    obtain ⟨u, a, p, k⟩ := t
    have sg : ∀ t g, HLogs (s.signGlobalOfW t g) (searchLog s.code t) := fun t g =>
      last (codeHashType rfl t) fun _ => first fun _ _ => first fun _ _ => pure _
    cases k
    case HOBJ | HSTRUCT =>
      obtain ⟨name, sup, fields, proto, bindings, nb, g, h1, -, -, -, -⟩ := hwt
      simp only at h1
      subst h1
      exact sg _ _
    case HENUM =>
      obtain ⟨name, ks, g, h1, h2, -, -, -⟩ := hwt
      simp only at h1
      subst h1
      exact sg _ _
    all_goals exact lift _
  · intro i s s' hs h
    subst hs
    rw [Logged.typeGlobalStep] at h
    exact typeGlobalStep_code h

theorem globalTypes {c : Code} {s : CodeHash} (hs : s.code = c) (n : Nat) :
    HLogs (HW.forRange CodeHash.globalTypeStepW 0 n s) ((c.globals.take n).flatMap (searchLog c)) := by
  refine overList _ n s (fun s => s.code = c) ?_ ?_ hs
  · intro i s t _ hs ht
    subst hs
    refine first fun t' ht' => ?_
    have := get ht'
    rw [ht] at this; cases this
    exact last (codeHashType rfl t) fun _ => first fun _ _ => first fun _ _ => pure _
  · intro i s s' hs h
    subst hs
    rw [Logged.globalTypeStep] at h
    exact globalTypeStep_code h

theorem types {c : Code} {s : CodeHash} (hs : s.code = c) (hw : ∀ i t, i < c.ntypes → c.types[i]? = some t → WellFormed t) :
    HLogs s.typesW (List.replicate c.ntypes (.copyTypes c.types.length) ++ (c.types.take c.ntypes).flatMap fun t => (hashedRefs t).flatMap (searchLog c)) := by
  subst hs
  refine bind (repeated (fun _ _ => last (log _) fun _ => lift _) _ _ _) fun v _ => last ?_ fun _ => pure _
  refine overList (l := s.code.types) _ _ _ (fun _ => True) ?_ ?_ trivial
  · intro i b t hi _ ht
    refine first fun x _ => last (first fun t' ht' => ?_) fun _ => ?_
    · have := get ht'
      rw [ht] at this; cases this
      exact last (recKind rfl (hw i t hi ht)) fun _ => pure _
    · split
      · exact pure _
      · exact lift _
  · intro i b b' _ e
    refine ⟨trivial, ?_⟩
    rw [Logged.typeHashStep2] at e
    obtain ⟨_, _, e⟩ := rust_bind e
    obtain ⟨_, e', _⟩ := rust_bind e
    obtain ⟨t, ht, _⟩ := rust_bind e'
    exact ⟨t, get ht⟩

/-- The complete log. -/
theorem alloc {c : Code} (hw : ∀ i t, i < c.ntypes → c.types[i]? = some t → WellFormed t) :
    HLogs (CodeHash.allocW c) ([.copyModule] ++ (List.replicate c.nfunctions (.copyFunctions c.functions.length) ++
      List.replicate c.nnatives (.copyNatives c.natives.length) ++
      ((List.replicate c.ntypes (.copyTypes c.types.length) ++ (c.types.take c.ntypes).flatMap fun t => (hashedRefs t).flatMap (searchLog c)) ++
      ((c.globals.take c.nglobals).flatMap (globalLog c) ++ ((c.types.take c.ntypes).flatMap (typeGlobalLog c) ++
      (c.globals.take c.nglobals).flatMap (searchLog c)))))) := by
  refine bind (log _) fun _ _ => bind (bind (repeated (fun _ _ => last (log _) fun _ => lift _) _ _ _) fun _ _ =>
    repeated (fun _ _ => last (log _) fun _ => lift _) _ _ _) fun v _ => bind (types rfl hw) fun s1 h1 => ?_
  have e1 : s1.code = c := by
    rw [Logged.types] at h1
    obtain ⟨_, _, h1⟩ := rust_bind h1
    obtain ⟨_, _, h1⟩ := rust_bind h1
    cases h1; rfl
  refine bind (globals e1 _) fun s2 h2 => ?_
  have e2 : s2.code = c := by
    rw [Logged.forRange Logged.globalStep] at h2
    exact (keeps (fun _ _ _ h => (globalStep_code h).1) _ _ _ _ h2).trans e1
  refine bind (typeGlobals e2 _ hw) fun s3 h3 => ?_
  have e3 : s3.code = c := by
    rw [Logged.forRange Logged.typeGlobalStep] at h3
    exact (keeps (fun _ _ _ h => (typeGlobalStep_code h).1) _ _ _ _ h3).trans e2
  refine first fun s4 h4 => ?_
  have e4 : s4.code = c := (keeps (fun _ _ _ h => constantStep_code h) _ _ _ _ h4).trans e3
  exact first fun s5 h5 => globalTypes ((boot_code h5).trans e4) _

end HLogs

end Verif.Brass
