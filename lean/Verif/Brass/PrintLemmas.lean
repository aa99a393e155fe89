import Verif.Brass.Print
import Verif.Brass.RequestLemmas

/-!
# What is printed
-/

namespace Verif.Brass

open Verif Verif.Brass.Spec

/-! ## The output of the parts -/

theorem W.bind_def {α β : Type} (x : W α) (f : α → W β) (s : St) :
    (x >>= f) s = match x s with
      | (.ok a s, l) => ((f a s).1, l ++ (f a s).2)
      | (.err e s, l) => (.err e s, l)
      | (.panic, l) => (.panic, l) := rfl

theorem W.bind_ok {α β : Type} {x : W α} {f : α → W β} {s s' : St} {a : α} {l : List Line} (h : x s = (.ok a s', l)) :
    ((x >>= f) s).2 = l ++ (f a s').2 := by rw [W.bind_def, h]

theorem W.bind_no {α β : Type} {x : W α} {f : α → W β} {s : St} (h : ∀ a s', (x s).1 ≠ .ok a s') :
    ((x >>= f) s).2 = (x s).2 := by
  rw [W.bind_def]
  rcases hx : x s with ⟨o, l⟩
  cases o with
  | ok a s' => exact absurd (by rw [hx]) (h a s')
  | err => rfl
  | panic => rfl

theorem W.lift_ok {α β : Type} {x : M α} {f : α → W β} {s s' : St} {a : α} (h : x s = .ok a s') :
    ((W.lift x >>= f) s).2 = (f a s').2 := by
  rw [W.bind_ok (l := []) (a := a) (s' := s') (by unfold W.lift; rw [h])]; rfl

theorem W.lift_no {α β : Type} {x : M α} {f : α → W β} {s : St} (h : ∀ a s', x s ≠ .ok a s') :
    ((W.lift x >>= f) s).2 = [] := W.bind_no h

theorem W.print_bind {β : Type} (l : Line) (f : Unit → W β) (s : St) : ((W.print l >>= f) s).2 = l :: (f () s).2 := rfl

/-! ## Which functions keep their answer when bytes are appended -/

/-- Whatever `x` returns, it returns it on every extension of the input, with or without recorded errors. -/
def ExtAll {α : Type} (x : M α) : Prop := ∀ s a s' z, x s = .ok a s' → x (s.extend z) = .ok a (s'.extend z)

namespace ExtAll

variable {α β : Type}

theorem pure {a : α} : ExtAll (Pure.pure a : M α) := by intro s b s' z h; cases h; rfl
theorem pure' {a : α} : ExtAll (M.pure a : M α) := pure
theorem panic : ExtAll (M.panic : M α) := by intro s b s' z h; cases h
theorem failAt {k} : ExtAll (M.failAt k : M α) := by intro s b s' z h; cases h
theorem getCode : ExtAll M.getCode := by intro s b s' z h; cases h; rfl
theorem getErrors : ExtAll M.getErrors := by intro s b s' z h; cases h; rfl
theorem setCode {c} : ExtAll (M.setCode c) := by intro s b s' z h; cases h; rfl
theorem setError {k} : ExtAll (M.setError k) := by intro s b s' z h; cases h; rfl
theorem bind {x : M α} {f : α → M β} (hx : ExtAll x) (hf : ∀ a, ExtAll (f a)) : ExtAll (x >>= f) := by
  intro s b s' z h
  obtain ⟨a, s1, h1, h2⟩ := M.bind_eq_ok h
  rw [M.bind_ok (hx _ _ _ z h1)]
  exact hf a _ _ _ z h2
theorem ite {b : Prop} [Decidable b] {x y : M α} (hx : ExtAll x) (hy : ExtAll y) : ExtAll (if b then x else y) := by
  split
  · exact hx
  · exact hy
theorem unwrap {x : M α} (hx : ExtAll x) : ExtAll (M.unwrap x) := by
  intro s a s' z h; unfold M.unwrap at h ⊢; split at h <;> cases h
  next e => rw [hx _ _ _ z e]
theorem unwrapOpt {o : Option α} : ExtAll (M.unwrapOpt o) := by
  cases o
  · exact panic
  · exact pure'
theorem insertAt {v : List α} {i x} : ExtAll (M.insertAt v i x) := ite pure' panic
theorem okOrRecord {x : M α} (hx : ExtAll x) (hn : NoErr x) : ExtAll (M.okOrRecord x) := by
  intro s a s' z h
  unfold M.okOrRecord at h ⊢
  split at h
  · next e => cases h; rw [hx _ _ _ z e]
  · next e => exact absurd e (hn _ _ _)
  · cases h
theorem forRange {f : Nat → β → M β} (hf : ∀ i b, ExtAll (f i b)) : ∀ n a b, ExtAll (M.forRange f a n b)
  | 0, _, _ => pure'
  | n + 1, a, b => bind (hf a b) fun b => forRange hf n (a + 1) b
theorem whileReading {c : β → Bool} {f : β → M β} (hf : ∀ b, ExtAll (f b)) (b : β) (s : St) (a : β) (s' : St) (z : List UInt8)
    (h : M.whileReading c f b s = .ok a s') : M.whileReading c f b (s.extend z) = .ok a (s'.extend z) := by
  unfold M.whileReading at h ⊢
  split at h
  · next hc =>
    rw [if_pos hc]
    split at h
    · next b1 s1 e =>
      split at h
      · next hlt =>
        simp only [hf b s b1 s1 z e, St.extend_buf, List.length_append]
        rw [if_pos (by omega)]
        exact whileReading hf b1 s1 a s' z h
      · cases h
    · cases h
    · cases h
  · next hc => cases h; rw [if_neg hc]
termination_by s.buf.length

theorem readBytes {n} : ExtAll (readBytes n) := by
  intro s a s' z h
  unfold Brass.readBytes at h ⊢
  split at h <;> cases h
  next h1 =>
    rw [if_neg (by simp; omega)]
    simp [St.extend, List.drop_append_of_le_length (Nat.le_of_not_lt h1), List.take_append_of_le_length (Nat.le_of_not_lt h1)]
theorem decodeU8 : ExtAll decodeU8 := bind readBytes fun _ => pure
theorem byte : ExtAll (M.unwrap Brass.decodeU8) := unwrap decodeU8
theorem readIndex : ExtAll readIndex :=
  bind decodeU8 fun _ => ite pure (ite (bind byte fun _ => pure) (bind decodeU8 fun _ => bind decodeU8 fun _ => bind decodeU8 fun _ => pure))
theorem index : ExtAll index := unwrap readIndex
theorem uindex : ExtAll uindex := bind index fun _ => ite (bind setError fun _ => pure) pure
theorem uindexI : ExtAll uindexI := bind uindex fun _ => pure
theorem toI32 {n} : ExtAll (toI32 n) := ite pure' panic
theorem badIndex {i n} : ExtAll (badIndex i n) := ite pure' (bind toI32 fun _ => pure)
theorem getType : ExtAll getType :=
  bind index fun _ => bind getCode fun _ => bind badIndex fun _ => ite (bind setError fun _ => unwrapOpt) unwrapOpt
theorem readTypeRefs {n} : ExtAll (readTypeRefs n) := forRange (fun _ _ => bind getType fun _ => insertAt) _ _ _
theorem readExtra {rd : M Int} (h : ExtAll rd) {n} : ExtAll (readExtra rd n) := forRange (fun _ _ => bind h fun _ => insertAt) _ _ _
theorem readCallLike {r} : ExtAll (readCallLike r) :=
  bind index fun _ => bind index fun _ => bind byte fun _ => bind (readExtra index) fun _ => pure
theorem readSwitch {r} : ExtAll (readSwitch r) :=
  bind uindexI fun _ => bind uindex fun _ => bind (readExtra uindexI) fun _ => bind uindexI fun _ => pure
theorem readOperands {r i} : ExtAll (readOperands r i) := by
  have hi := index
  refine ite pure' (ite (bind hi fun _ => pure) (ite (bind hi fun _ => bind hi fun _ => pure)
    (ite (bind hi fun _ => bind hi fun _ => bind hi fun _ => pure)
      (ite (bind hi fun _ => bind hi fun _ => bind hi fun _ => bind hi fun _ => pure)
        (ite ?_ (bind hi fun _ => bind hi fun _ => bind hi fun _ => ite panic (bind (readExtra hi) fun _ => pure)))))))
  generalize r.op = o
  cases o <;> first | exact readCallLike | exact readSwitch | exact failAt
theorem readOpcode : ExtAll readOpcode :=
  bind byte fun _ => ite (bind setError fun _ => pure) (bind unwrapOpt fun _ => bind unwrapOpt fun _ => readOperands)
theorem readOpcodes {n} : ExtAll (readOpcodes n) := forRange (fun _ _ => bind (unwrap readOpcode) fun _ => insertAt) _ _ _
theorem readFunction : ExtAll readFunction :=
  bind getType fun _ => bind uindex fun _ => bind uindex fun _ => bind uindex fun _ => bind readTypeRefs fun _ =>
    bind getErrors fun _ => ite pure (bind readOpcodes fun _ => pure)
theorem setErrorIf {b k} : ExtAll (setErrorIf b k) := ite setError pure'
theorem i32Add {p a b} : ExtAll (i32Add p a b) := by
  refine ite pure' ?_
  cases p
  · exact panic
  · exact pure'
theorem debugStore {d} : ExtAll (debugStore d) := ite pure' panic
theorem debugBody {p n d} : ExtAll (debugBody p n d) :=
  bind byte fun _ => ite (bind byte fun _ => bind getCode fun _ => bind toI32 fun _ => bind setErrorIf fun _ => pure)
    (ite (bind setErrorIf fun _ => bind i32Add fun _ => pure)
      (ite (bind i32Add fun _ => debugStore) (bind byte fun _ => bind byte fun _ => debugStore)))
theorem debugInfos {p n} : ExtAll (debugInfos p n) :=
  bind (fun s a s' z h => whileReading (fun _ => debugBody) _ s a s' z h) fun _ => pure
theorem skipAssignsIf {b} : ExtAll (skipAssignsIf b) :=
  ite (bind uindex fun _ => forRange (fun _ _ => bind uindex fun _ => bind index fun _ => pure) _ _ _) pure'
theorem storeDebug {i o} : ExtAll (storeDebug i o) := by
  cases o
  · exact pure'
  · exact bind getCode fun _ => bind unwrapOpt fun _ => setCode
theorem readFunctionDebug {p i} : ExtAll (readFunctionDebug p i) :=
  bind getCode fun _ => ite (bind unwrapOpt fun _ => bind (okOrRecord debugInfos (NoErr.debugInfos _ _)) fun _ => bind storeDebug fun _ =>
    bind getCode fun _ => skipAssignsIf) pure

end ExtAll

/-! ## The loop over the functions -/

/-- A function that was just read has no debug words. -/
theorem functionDebug_nil : Ens readFunction (fun f => f.debug = []) :=
  Ens.bind_ fun _ => Ens.bind_ fun _ => Ens.bind_ fun _ => Ens.bind_ fun _ => Ens.bind_ fun _ => Ens.bind_ fun _ =>
    Ens.ite (Ens.pure rfl) (Ens.bind_ fun _ => Ens.pure rfl)


/-- One more function: what is printed for it and for those that follow. -/
theorem loop_cases (p : Profile) (n a : Nat) (c : Code) (s : St) :
    (W.forRange (readFunctionsStepW p) a (n + 1) c s).2 =
      match readFunction { s with code := c } with
      | .ok f s1 => .function f :: match readFunctionDebug p a { s1 with code := { s1.code with functions := s1.code.functions ++ [f] } } with
        | .ok _ s2 => (W.forRange (readFunctionsStepW p) (a + 1) n s2.code s2).2
        | _ => []
      | _ => [] := by
  show ((readFunctionsStepW p a c >>= fun b => W.forRange (readFunctionsStepW p) (a + 1) n b) s).2 = _
  rw [W.bind_def]
  have hs : readFunctionsStepW p a c s = (W.lift readFunction >>= fun f => W.print (.function f) >>= fun _ => W.lift M.getCode >>= fun d =>
      W.lift (M.setCode { d with functions := d.functions ++ [f] }) >>= fun _ => W.lift (readFunctionDebug p a) >>= fun _ => W.lift M.getCode)
      { s with code := c } := rfl
  rw [hs, W.bind_def]
  cases h1 : readFunction { s with code := c } with
  | ok f s1 =>
    rw [show W.lift readFunction { s with code := c } = (.ok f s1, []) by unfold W.lift; rw [h1]]
    have hd : ∀ q : Out Unit × List Line, (W.lift (readFunctionDebug p a)) { s1 with code := { s1.code with functions := s1.code.functions ++ [f] } } = q →
        (W.print (.function f) >>= fun _ => W.lift M.getCode >>= fun d =>
          W.lift (M.setCode { d with functions := d.functions ++ [f] }) >>= fun _ => W.lift (readFunctionDebug p a) >>= fun _ => W.lift M.getCode) s1 =
        (match q.1 with | .ok _ s2 => .ok s2.code s2 | .err e s2 => .err e s2 | .panic => .panic, .function f :: q.2) := by
      intro q hq
      have e : (W.print (.function f) >>= fun _ => W.lift M.getCode >>= fun d =>
          W.lift (M.setCode { d with functions := d.functions ++ [f] }) >>= fun _ => W.lift (readFunctionDebug p a) >>= fun _ => W.lift M.getCode) s1 =
        ((W.bind (W.lift (readFunctionDebug p a)) (fun _ => W.lift M.getCode) { s1 with code := { s1.code with functions := s1.code.functions ++ [f] } }).1,
          .function f :: (W.bind (W.lift (readFunctionDebug p a)) (fun _ => W.lift M.getCode) { s1 with code := { s1.code with functions := s1.code.functions ++ [f] } }).2) := rfl
      rw [e]
      unfold W.bind
      rw [hq]
      obtain ⟨o, l⟩ := q
      cases o <;> simp [W.lift, M.getCode]
    simp only [hd _ rfl]
    unfold W.lift
    simp only
    cases h2 : readFunctionDebug p a { s1 with code := { s1.code with functions := s1.code.functions ++ [f] } } <;> rfl
  | err e s1 => rw [show W.lift readFunction { s with code := c } = (.err e s1, []) by unfold W.lift; rw [h1]]
  | panic => rw [show W.lift readFunction { s with code := c } = (.panic, []) by unfold W.lift; rw [h1]]

/-- More bytes, more output. -/
theorem loop_extend (p : Profile) (z : List UInt8) : ∀ (n a : Nat) (c : Code) (s : St),
    (W.forRange (readFunctionsStepW p) a n c s).2 <+: (W.forRange (readFunctionsStepW p) a n c (s.extend z)).2
  | 0, _, _, _ => List.prefix_refl _
  | n + 1, a, c, s => by
    rw [loop_cases, loop_cases]
    cases h1 : readFunction { s with code := c } with
    | ok f s1 =>
      have h1' : readFunction { s.extend z with code := c } = .ok f (s1.extend z) := ExtAll.readFunction _ _ _ z h1
      rw [h1']
      simp only [List.cons_prefix_cons, true_and]
      cases h2 : readFunctionDebug p a { s1 with code := { s1.code with functions := s1.code.functions ++ [f] } } with
      | ok u s2 =>
        have h2' : readFunctionDebug p a { s1.extend z with code := { (s1.extend z).code with functions := (s1.extend z).code.functions ++ [f] } } =
          .ok u (s2.extend z) := ExtAll.readFunctionDebug _ _ _ z h2
        rw [h2']
        exact loop_extend p z n (a + 1) s2.code s2
      | err e s2 => exact List.nil_prefix
      | panic => exact List.nil_prefix
    | err e s1 => exact List.nil_prefix
    | panic => exact List.nil_prefix

/-- The loop prints functions only. -/
theorem loop_functions (p : Profile) : ∀ (n a : Nat) (c : Code) (s : St), ∀ l ∈ (W.forRange (readFunctionsStepW p) a n c s).2, ∃ f, l = .function f ∧ f.debug = []
  | 0, _, _, _, l, hl => by cases hl
  | n + 1, a, c, s, l, hl => by
    rw [loop_cases] at hl
    cases h1 : readFunction { s with code := c } with
    | ok f s1 =>
      rw [h1] at hl
      simp only [List.mem_cons] at hl
      rcases hl with rfl | hl
      · exact ⟨f, rfl, functionDebug_nil _ _ _ h1⟩
      · split at hl
        · exact loop_functions p n (a + 1) _ _ l hl
        · cases hl
    | err e s1 => rw [h1] at hl; cases hl
    | panic => rw [h1] at hl; cases hl

/-- The line printed for a function, when its debug words are not there yet. -/
def lineOf (f : HLFunction) : Line := .function { f with debug := [] }

/-- The same functions up to their debug words. -/
def SameLines (c c' : Code) : Prop := c'.functions.map lineOf = c.functions.map lineOf

theorem composes_lines : Composes SameLines := ⟨fun _ => rfl, fun _ _ _ h h' => h'.trans h⟩

theorem storeDebug_lines {i : Nat} {o : Option (List Int)} : Pres SameLines (storeDebug i o) := by
  have hT := composes_lines
  cases o with
  | none => exact Pres.pure' hT
  | some w =>
    intro s a s' h
    unfold storeDebug at h
    obtain ⟨d, s1, h1, h⟩ := M.bind_eq_ok h
    obtain ⟨f, s2, h2, h⟩ := M.bind_eq_ok h
    cases h1
    cases hf : s.code.functions[i]? with
    | none => rw [hf] at h2; cases h2
    | some g =>
      rw [hf] at h2
      cases h2
      cases h
      unfold SameLines
      obtain ⟨hi, rfl⟩ := List.getElem?_eq_some_iff.mp hf
      refine List.ext_getElem (by simp) fun j h1 h2 => ?_
      simp only [List.getElem_map, List.getElem_set]
      split
      · next h => subst h; rfl
      · rfl

theorem functionDebug_lines {p : Profile} {i : Nat} : Pres SameLines (readFunctionDebug p i) := by
  have hT := composes_lines
  exact Pres.bind hT (Pres.getCode hT) fun _ => Pres.ite (Pres.bind hT (Pres.unwrapOpt hT) fun _ =>
    Pres.bind hT (Pres.okOrRecord hT (Pres.debugInfos hT) (fun s e s' h => absurd h (NoErr.debugInfos _ _ _ _ _))) fun _ =>
    Pres.bind hT storeDebug_lines fun _ => Pres.bind hT (Pres.getCode hT) fun _ => Pres.skipAssignsIf hT) (Pres.pure hT)

theorem readFunction_keeps : Pres (fun c c' : Code => c' = c) readFunction := by
  have hT := composes_eq
  have h := Pres.uindex hT
  exact Pres.bind hT (Pres.getType hT) fun _ => Pres.bind hT h fun _ => Pres.bind hT h fun _ => Pres.bind hT h fun _ =>
    Pres.bind hT (Pres.readTypeRefs hT) fun _ => Pres.bind hT (Pres.getErrors hT) fun _ => Pres.ite (Pres.pure hT)
    (Pres.bind hT (Pres.forRange hT (fun _ _ => Pres.bind hT (Pres.unwrap (Pres.bind hT (Pres.unwrap (Pres.decodeU8 hT)) fun _ =>
      Pres.ite (Pres.bind hT (Pres.setError hT) fun _ => Pres.pure hT) (Pres.bind hT (Pres.unwrapOpt hT) fun _ => Pres.bind hT (Pres.unwrapOpt hT) fun _ =>
        Pres.readOperands hT))) fun _ => Pres.insertAt hT) _ _ _) fun _ => Pres.pure hT)

/-- A loop that ends has printed the functions it has added. -/
theorem print_loop_done (p : Profile) : ∀ (n a : Nat) (c : Code) (s : St) (c' : Code) (s' : St), M.forRange (readFunctionsStep p) a n c s = .ok c' s' →
    c'.functions.map lineOf = c.functions.map lineOf ++ (W.forRange (readFunctionsStepW p) a n c s).2 ∧ (n = 0 ∧ s' = s ∨ s'.code = c')
  | 0, _, c, s, c', s', h => by cases h; exact ⟨by simp [W.forRange, W.pure], .inl ⟨rfl, rfl⟩⟩
  | n + 1, a, c, s, c', s', h => by
    obtain ⟨b, s3, h1, h2⟩ := M.bind_eq_ok (x := readFunctionsStep p a c) h
    obtain ⟨_, s0, e0, h1⟩ := M.bind_eq_ok (x := M.setCode c) h1
    cases e0
    obtain ⟨f, s1, e1, h1⟩ := M.bind_eq_ok (x := readFunction) h1
    obtain ⟨_, _, e2, h1⟩ := M.bind_eq_ok (x := M.getCode) h1
    cases e2
    obtain ⟨_, _, e2, h1⟩ := M.bind_eq_ok h1
    cases e2
    obtain ⟨u, s2, e3, h1⟩ := M.bind_eq_ok (x := readFunctionDebug p a) h1
    cases h1
    rw [loop_cases, e1]
    simp only
    rw [e3]
    simp only
    obtain ⟨i1, i2⟩ := print_loop_done p n (a + 1) _ _ _ _ h2
    have k1 : s1.code = c := readFunction_keeps _ _ _ e1
    have k2 : s3.code.functions.map lineOf = (s1.code.functions ++ [f]).map lineOf := functionDebug_lines _ _ _ e3
    rw [k1] at k2
    have k3 : lineOf f = .function f := by
      have := functionDebug_nil _ _ _ e1
      unfold lineOf
      cases f
      cases this
      rfl
    refine ⟨?_, .inr ?_⟩
    · rw [i1, k2]
      simp [k3]
    · rcases i2 with ⟨rfl, rfl⟩ | i2
      · cases h2; rfl
      · exact i2

/-! ## What comes before the functions -/

theorem W.lift_eq {α β : Type} (x : M α) (f : α → W β) (s : St) :
    ((W.lift x >>= f) s).2 = match x s with | .ok a s1 => (f a s1).2 | _ => [] := by
  cases h : x s with
  | ok a s1 => rw [W.lift_ok h]
  | err e s1 => exact W.lift_no (by rw [h]; intro a s' h; cases h)
  | panic => exact W.lift_no (by rw [h]; intro a s' h; cases h)

/-- `Code::read` between the version and the functions. -/
def readTables (v : Nat) : M Code := do
  let c ← checked (readCounts v)
  let c ← readPools c
  let c ← readBytesSection c
  let c ← readDebugFiles c
  let c ← readTypes c
  let c ← readGlobals c
  readNatives c

/-- `Code::read` up to the functions. -/
def readBefore : M Code := do
  readMagic
  let v ← readVersion
  readTables v

theorem bind_assoc {α β γ : Type} (x : M α) (f : α → M β) (g : β → M γ) : (x >>= f) >>= g = x >>= fun a => f a >>= g := by
  funext s
  simp only [M.bind_def]
  cases x s <;> rfl

theorem readM_before (p : Profile) : readM p = readBefore >>= fun c => readFunctions p c >>= fun c => readConstants c >>= fun _ => M.getCode := by
  unfold readM readBefore readTables
  simp only [bind_assoc]

/-- What is printed because of the version. -/
def versionLines (s : St) : List Line :=
  match readMagic s with
  | .ok _ s1 => (readVersionW s1).2
  | _ => []

theorem tables_lines (p : Profile) (v : Nat) (s : St) {f : Code → W Code} :
    ((W.lift (checked (readCounts v)) >>= fun c => W.lift (readPools c) >>= fun c => W.lift (readBytesSection c) >>= fun c =>
      W.lift (readDebugFiles c) >>= fun c => W.lift (readTypes c) >>= fun c => W.lift (readGlobals c) >>= fun c =>
      W.lift (readNatives c) >>= f) s).2 = match readTables v s with | .ok c s1 => (f c s1).2 | _ => [] := by
  unfold readTables
  rw [W.lift_eq, M.bind_def]
  cases checked (readCounts v) s with
  | err => rfl
  | panic => rfl
  | ok c s =>
  simp only
  rw [W.lift_eq, M.bind_def]
  cases readPools c s with
  | err => rfl
  | panic => rfl
  | ok c s =>
  simp only
  rw [W.lift_eq, M.bind_def]
  cases readBytesSection c s with
  | err => rfl
  | panic => rfl
  | ok c s =>
  simp only
  rw [W.lift_eq, M.bind_def]
  cases readDebugFiles c s with
  | err => rfl
  | panic => rfl
  | ok c s =>
  simp only
  rw [W.lift_eq, M.bind_def]
  cases readTypes c s with
  | err => rfl
  | panic => rfl
  | ok c s =>
  simp only
  rw [W.lift_eq, M.bind_def]
  cases readGlobals c s with
  | err => rfl
  | panic => rfl
  | ok c s =>
  simp only
  rw [W.lift_eq]
  cases readNatives c s <;> rfl

theorem W.tail_lines {α β : Type} (x : W α) (f : α → W β) (s : St) (h : ∀ a s, (f a s).2 = []) : ((x >>= f) s).2 = (x s).2 := by
  rw [W.bind_def]
  rcases x s with ⟨o, l⟩
  cases o <;> simp [h]

/-- The whole output. -/
theorem readMW_lines (p : Profile) (s : St) : (readMW p s).2 = versionLines s ++
    match readBefore s with
    | .ok c s1 => (W.forRange (readFunctionsStepW p) 0 c.nfunctions c s1).2
    | _ => [] := by
  unfold readMW versionLines readBefore
  rw [W.lift_eq, M.bind_def]
  cases readMagic s with
  | err => rfl
  | panic => rfl
  | ok u s =>
    simp only
    rw [W.bind_def, M.bind_def]
    have hv : (readVersionW s).1 = readVersion s := Prints.readVersion s
    rcases hw : readVersionW s with ⟨o, l⟩
    rw [hw] at hv
    rw [← hv]
    cases o with
    | err => simp
    | panic => simp
    | ok v s =>
      simp only
      congr 1
      rw [tables_lines p]
      cases readTables v s with
      | err => rfl
      | panic => rfl
      | ok c s =>
        simp only
        rw [W.tail_lines _ _ _ (fun c s => ?_)]
        · unfold readFunctionsW
          rw [W.tail_lines _ _ _ (fun a s => ?_)]
          rw [W.lift_eq]
          cases M.checkError s <;> rfl
        · rw [W.lift_eq]
          cases readConstants c s <;> rfl

/-! ## Facts about what comes before the functions -/

theorem Good.readTables (v : Nat) : Good (readTables v) :=
  .bind (.checked (.readCounts v)) fun _ => .bind (.readPools _) fun _ => .bind (.readBytesSection _) fun _ => .bind (.readDebugFiles _) fun _ =>
    .bind (.readTypes _) fun _ => .bind (.readGlobals _) fun _ => .readNatives _

theorem Good.readBefore : Good readBefore := .bind .readMagic fun _ => .bind .readVersion fun v => .readTables v

/-- The functions are read with no error recorded. -/
theorem before_none {s : St} {c : Code} {s' : St} (h : readBefore s = .ok c s') : s'.errors = none := by
  obtain ⟨_, s1, _, h⟩ := M.bind_eq_ok (x := readMagic) h
  obtain ⟨v, s2, _, h⟩ := M.bind_eq_ok (x := readVersion) h
  obtain ⟨_, s3, _, h⟩ := M.bind_eq_ok (x := checked (readCounts v)) h
  obtain ⟨_, s4, _, h⟩ := M.bind_eq_ok h
  obtain ⟨_, s5, _, h⟩ := M.bind_eq_ok h
  obtain ⟨_, s6, _, h⟩ := M.bind_eq_ok h
  obtain ⟨_, s7, _, h⟩ := M.bind_eq_ok h
  obtain ⟨_, s8, _, h⟩ := M.bind_eq_ok h
  exact checked_none h

/-- What a logged function does, without its log. -/
theorem Logs.ok {α : Type} {c : Code} {x : R α} {y : M α} {Q : α → Code → List Nat → Prop} (h : Logs c x Q) (he : Erases x y) {s : St} {a : α} {s' : St}
    (hs : s.code = c) (hy : y s = .ok a s') : ∃ l, Q a s'.code l := ⟨_, (h s hs).2 a s' ((he s).trans hy)⟩

/-- There are no functions yet. -/
theorem before_functions {s : St} {c : Code} {s' : St} (h0 : s.code.functions = []) (h : readBefore s = .ok c s') :
    c.functions = [] ∧ s'.code.functions = [] := by
  have hT := composes_eq
  obtain ⟨_, s1, e1, h⟩ := M.bind_eq_ok (x := readMagic) h
  obtain ⟨v, s2, e2, h⟩ := M.bind_eq_ok (x := readVersion) h
  obtain ⟨c0, s3, e3, h⟩ := M.bind_eq_ok (x := checked (readCounts v)) h
  obtain ⟨c1, s4, e4, h⟩ := M.bind_eq_ok (x := readPools c0) h
  obtain ⟨c2, s5, e5, h⟩ := M.bind_eq_ok (x := readBytesSection c1) h
  obtain ⟨c3, s6, e6, h⟩ := M.bind_eq_ok (x := readDebugFiles c2) h
  obtain ⟨c4, s7, e7, h⟩ := M.bind_eq_ok (x := readTypes c3) h
  obtain ⟨c5, s8, e8, h⟩ := M.bind_eq_ok (x := readGlobals c4) h
  have f : ∀ {c c' : Code}, c.key = c'.key → c.functions = c'.functions := fun h => congrArg (fun k => k.2.2.2.2.2.2) h
  have k1 := Pres.readMagic hT _ _ _ e1
  have k2 := Pres.readVersion hT _ _ _ e2
  have k3 := Pres.checked hT (Pres.readCounts hT) _ _ _ e3
  have b0 := (Ens.bind (counts_bounds v) fun a ha => Ens.bind_ fun _ => Ens.pure ha : Ens (checked (readCounts v)) _) _ _ _ e3
  obtain ⟨-, n1, n2, n3, f0, -⟩ := b0
  have k4 := pools_keep c0 _ _ _ e4
  have b1 := pools_key c0 _ _ _ e4
  simp only [Code.key, Prod.mk.injEq] at b1
  obtain ⟨a1, a2, a3, a4, a5, a6, a7⟩ := b1
  obtain ⟨_, k5, -, b2⟩ := (logs_bytes c1 s4.code (by omega)).ok (Erases.readBytesSection c1) rfl e5
  simp only [Code.key, Prod.mk.injEq] at b2
  obtain ⟨b1, b2, -, b4, b5, b6, b7⟩ := b2
  obtain ⟨_, -, b3, k6⟩ := (logs_debugFiles c2 s5.code).ok (Erases.lift _) rfl e6
  have b3' := b3
  simp only [Code.key, Prod.mk.injEq] at b3'
  obtain ⟨d1, d2, d3, d4, d5, d6, d7⟩ := b3'
  obtain ⟨_, -, b4', k7⟩ := (logs_types c3 s6.code (by omega)).ok (Erases.vec (Erases.lift _)) rfl e7
  have g4 : c4.nglobals = c3.nglobals := congrArg (fun k => k.2.2.2.2.1) b4'
  obtain ⟨_, -, b5', k8⟩ := (logs_globals c4 s7.code (by omega)).ok (Erases.vec (Erases.lift _)) rfl e8
  obtain ⟨_, -, b6', k9⟩ := (logs_natives c5 s8.code).ok (Erases.lift _) rfl h
  have z2 : c2.functions = [] := by rw [b7, a7, f0]
  have z3 : c3.functions = [] := (f b3).trans z2
  have z4 : c4.functions = [] := (f b4').trans z3
  have z5 : c5.functions = [] := (f b5').trans z4
  have y5 : s5.code.functions = [] := by rw [k5, k4, k3, k2, k1, h0]
  have y6 : s6.code.functions = [] := k6.elim (fun e => by rw [e]; exact y5) fun e => (f e).trans z2
  have y7 : s7.code.functions = [] := k7.elim (fun e => by rw [e.2]; exact y6) fun e => (f e).trans z3
  have y8 : s8.code.functions = [] := k8.elim (fun e => by rw [e.2]; exact y7) fun e => (f e).trans z4
  exact ⟨(f b6').trans z5, k9.elim (fun e => by rw [e]; exact y8) fun e => (f e).trans z5⟩

/-- The output for a file that is accepted. -/
theorem lines_ok (p : Profile) {s : St} {c : Code} {s' : St} (h0 : s.code.functions = []) (h : readM p s = .ok c s') :
    (readMW p s).2 = c.functions.map lineOf := by
  have hv : versionLines s = [] := by
    rw [readM_before] at h
    obtain ⟨_, _, h, _⟩ := M.bind_eq_ok h
    obtain ⟨_, s1, e1, h⟩ := M.bind_eq_ok (x := readMagic) h
    obtain ⟨v, s2, e2, _⟩ := M.bind_eq_ok (x := readVersion) h
    unfold versionLines
    rw [e1]
    obtain ⟨w, s3, e3, h3⟩ := M.bind_eq_ok (x := M.unwrap decodeU8) e2
    show ((W.lift (M.unwrap decodeU8) >>= _) s1).2 = []
    rw [W.lift_eq, e3]
    simp only
    split at h3
    · cases h3
    · next hw => rw [if_neg hw]; rfl
  rw [readM_before] at h
  obtain ⟨c0, s1, e1, h⟩ := M.bind_eq_ok (x := readBefore) h
  obtain ⟨c1, s2, e2, h⟩ := M.bind_eq_ok (x := readFunctions p c0) h
  obtain ⟨c2, s3, e3, h⟩ := M.bind_eq_ok (x := readConstants c1) h
  cases h
  obtain ⟨z1, y1⟩ := before_functions h0 e1
  obtain ⟨c1', s4, e4, h⟩ := M.bind_eq_ok e2
  obtain ⟨_, s5, e5, h⟩ := M.bind_eq_ok h
  cases h
  have k5 := Pres.checkError composes_eq _ _ _ e5
  obtain ⟨l1, l2⟩ := print_loop_done p _ _ _ _ _ _ e4
  rw [readMW_lines, hv, e1]
  simp only [List.nil_append]
  rw [z1] at l1
  simp only [List.map_nil, List.nil_append] at l1
  rw [← l1]
  have f : ∀ {c c' : Code}, c.key = c'.key → c.functions = c'.functions := fun h => congrArg (fun k => k.2.2.2.2.2.2) h
  obtain ⟨_, -, b3, k3⟩ := (logs_constants c1 s2.code).ok (Erases.lift _) rfl e3
  have hs2 : s2.code.functions = c1.functions := by
    rw [k5]
    rcases l2 with ⟨hn, hs⟩ | l2
    · rw [hn] at e4
      cases e4
      rw [z1]
      exact y1
    · rw [l2]
  rcases k3 with k3 | k3
  · rw [k3, hs2]
  · rw [f k3]

/-! ## How much is printed -/

theorem Good.shrinks {α : Type} {x : M α} (hx : Good x) {s : St} {a : α} {s' : St} (h : x s = .ok a s') : s'.buf.length ≤ s.buf.length := by
  obtain ⟨k, hk, -⟩ := hx.reads s s' (by rw [h]; rfl)
  rw [hk, List.length_append]; omega

theorem index_takes {s : St} {i : Int} {s' : St} (h : index s = .ok i s') : s'.buf.length < s.buf.length := by
  unfold index M.unwrap at h
  split at h <;> cases h
  next e =>
  obtain ⟨b, s1, e1, e⟩ := M.bind_eq_ok (x := decodeU8) e
  have h1 := decodeU8_consumes s s1 b (by unfold M.unwrap; rw [e1])
  refine Nat.lt_of_le_of_lt (Good.shrinks ?_ e) h1
  have := Good.decodeU8
  good

theorem uindex_takes {s : St} {i : Nat} {s' : St} (h : uindex s = .ok i s') : s'.buf.length < s.buf.length := by
  obtain ⟨b, s1, e1, e⟩ := M.bind_eq_ok (x := index) h
  refine Nat.lt_of_le_of_lt (Good.shrinks ?_ e) (index_takes e1)
  good

theorem getType_takes {s : St} {i : ValueType} {s' : St} (h : getType s = .ok i s') : s'.buf.length < s.buf.length := by
  obtain ⟨b, s1, e1, e⟩ := M.bind_eq_ok (x := index) h
  refine Nat.lt_of_le_of_lt (Good.shrinks ?_ e) (index_takes e1)
  have := Good.badIndex
  exact .bind .getCode fun _ => .bind (.badIndex _ _) fun _ => by good

/-- A function takes at least four bytes: its type, its number, and the numbers of its registers and instructions. -/
theorem function_takes {s : St} {f : HLFunction} {s' : St} (h : readFunction s = .ok f s') : s'.buf.length + 4 ≤ s.buf.length := by
  obtain ⟨_, s1, e1, h⟩ := M.bind_eq_ok (x := getType) h
  obtain ⟨_, s2, e2, h⟩ := M.bind_eq_ok (x := uindex) h
  obtain ⟨_, s3, e3, h⟩ := M.bind_eq_ok (x := uindex) h
  obtain ⟨n, s4, e4, h⟩ := M.bind_eq_ok (x := uindex) h
  have h1 := getType_takes e1
  have h2 := uindex_takes e2
  have h3 := uindex_takes e3
  have h4 := uindex_takes e4
  have h5 := Good.shrinks (.bind (.readTypeRefs _) fun _ => .bind .getErrors fun _ => by have := Good.readOpcodes n; good) h
  omega

theorem loop_bound (p : Profile) : ∀ (n a : Nat) (c : Code) (s : St), 4 * (W.forRange (readFunctionsStepW p) a n c s).2.length ≤ s.buf.length
  | 0, _, _, _ => by simp [W.forRange, W.pure]
  | n + 1, a, c, s => by
    rw [loop_cases]
    cases h1 : readFunction { s with code := c } with
    | ok f s1 =>
      have h := function_takes h1
      simp only at h
      simp only [List.length_cons]
      cases h2 : readFunctionDebug p a { s1 with code := { s1.code with functions := s1.code.functions ++ [f] } } with
      | ok u s2 =>
        have h3 := Good.shrinks (.readFunctionDebug p a) h2
        have := loop_bound p n (a + 1) s2.code s2
        simp only at h3 ⊢
        omega
      | err => simp only [List.length_nil]; omega
      | panic => simp only [List.length_nil]; omega
    | err => simp
    | panic => simp

theorem loop_count (p : Profile) : ∀ (n a : Nat) (c : Code) (s : St), (W.forRange (readFunctionsStepW p) a n c s).2.length ≤ n
  | 0, _, _, _ => by simp [W.forRange, W.pure]
  | n + 1, a, c, s => by
    rw [loop_cases]
    cases h1 : readFunction { s with code := c } with
    | ok f s1 =>
      simp only [List.length_cons]
      cases h2 : readFunctionDebug p a { s1 with code := { s1.code with functions := s1.code.functions ++ [f] } } with
      | ok u s2 => have := loop_count p n (a + 1) s2.code s2; simp only; omega
      | err => simp
      | panic => simp
    | err => simp
    | panic => simp

end Verif.Brass
