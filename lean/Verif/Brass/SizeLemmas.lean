import Verif.Brass.Refs
import Verif.Spec.Size

/-!
# Sizes of phrases
-/

namespace Verif.Brass

open Verif Verif.Brass.Spec

theorem nodesList_eq : ∀ l, nodesList l = (l.map nodes).sum
  | [] => by simp [nodesList]
  | t :: l => by simp [nodesList, nodesList_eq l]

theorem nodesFields_eq : ∀ l : List ObjField, nodesFields l = ((l.map ObjField.t).map nodes).sum
  | [] => by simp [nodesFields]
  | ⟨_, _, t⟩ :: l => by simp [nodesFields, nodesFields_eq l]

theorem nodesConstructs_eq : ∀ l : List EnumConstruct, nodesConstructs l = ((l.flatMap EnumConstruct.params).map nodes).sum
  | [] => by simp [nodesConstructs]
  | ⟨_, _, ts, _, _, _⟩ :: l => by simp [nodesConstructs, nodesConstructs_eq l, nodesList_eq]

/-- A type has one node more than the types it refers to. -/
theorem nodes_eq (t : ValueType) : nodes t = 1 + (t.refs.map nodes).sum := by
  obtain ⟨u, a, tp, k⟩ := t
  have ht : nodesOpt tp = (tp.toList.map nodes).sum := by cases tp <;> simp [nodesOpt]
  rw [nodes, ht]
  cases u <;> simp [nodesU, ValueType.refs, nodesList_eq, nodesFields_eq, nodesConstructs_eq] <;> omega

/-- Phrases of `g` with value `a` have at least `f a / m` bytes. -/
def Costs {α : Type} (m : Nat) (g : G α) (f : α → Nat) : Prop := ∀ c k a c', g c k a c' → f a ≤ m * k.length

namespace Costs

variable {α β : Type} {m : Nat}

theorem zero (g : G α) : Costs m g (fun _ => 0) := fun _ _ _ _ _ => Nat.zero_le _
theorem pure {a : α} {f : α → Nat} (h : f a = 0) : Costs m (Pure.pure a : G α) f := by
  rintro c k b c' ⟨rfl, rfl, rfl⟩; simp [h]
/-- The bytes of the first phrase pay for `f`, those of the second for the rest. -/
theorem bind {x : G α} {g : α → G β} {f : α → Nat} {h : β → Nat} (hx : Costs m x f) (hg : ∀ a, Costs m (g a) (fun b => h b - f a)) :
    Costs m (x >>= g) h := by
  rintro c k b c'' ⟨k1, k2, a, c', rfl, h1, h2⟩
  have h3 := hx _ _ _ _ h1
  have h4 : h b - f a ≤ _ := hg a _ _ _ _ h2
  simp only [List.length_append, Nat.mul_add]
  omega
theorem mono {g : G α} {f h : α → Nat} (hg : Costs m g f) (hl : ∀ a, h a ≤ f a) : Costs m g h :=
  fun c k a c' h => Nat.le_trans (hl a) (hg c k a c' h)
theorem many {g : G α} {f : α → Nat} (hg : Costs m g f) : ∀ n, Costs m (G.many g n) (fun l => (l.map f).sum)
  | 0 => pure rfl
  | n + 1 => bind hg fun a => bind (many hg n) fun l => pure (by simp)
theorem ite {P : Prop} [Decidable P] {g g' : G α} {f : α → Nat} (h : P → Costs m g f) (h' : ¬ P → Costs m g' f) :
    Costs m (if P then g else g') f := by
  split
  · exact h ‹_›
  · exact h' ‹_›

end Costs

theorem idxBytes_pos {k : List UInt8} {i : Int} (h : IdxBytes k i) : 1 ≤ k.length := by cases h <;> simp

namespace Costs

variable {m : Nat}

theorem of_pos {α : Type} {g : G α} (h : ∀ c k a c', g c k a c' → 1 ≤ k.length) : Costs m g (fun _ => m) := fun c k a c' hg => by
  have := Nat.mul_le_mul_left m (h c k a c' hg)
  simpa using this
theorem manyN {α : Type} {g : G α} (hg : Costs m g (fun _ => m)) (n : Nat) : Costs m (G.many g n) (fun l => m * l.length) :=
  (many hg n).mono fun l => by
    show m * l.length ≤ (l.map fun _ => m).sum
    induction l with
    | nil => simp
    | cons a l ih => simp only [List.length_cons, List.map_cons, List.sum_cons, Nat.mul_succ]; omega

theorem byte : Costs m byteG (fun _ => m) := of_pos (by rintro c k a c' ⟨_, b, rfl, _⟩; simp)
theorem nat : Costs m natG (fun _ => m) := of_pos (by rintro c k a c' ⟨_, h⟩; exact idxBytes_pos h)
theorem idx : Costs m idxG (fun _ => m) := of_pos (by rintro c k a c' ⟨_, h⟩; exact idxBytes_pos h)
theorem natI : Costs m natIG (fun _ => m) := bind nat fun _ => pure (Nat.sub_self _)
theorem typeRef : Costs m typeRefG (fun _ => m) := of_pos (by rintro c k a c' ⟨_, _, j, h, _⟩; exact idxBytes_pos h)
theorem stringRef : Costs m stringRefG (fun _ => m) := of_pos (by rintro c k a c' ⟨_, _, j, h, _⟩; exact idxBytes_pos h)
theorem super : Costs m superG (fun _ => m) := of_pos (by rintro c k a c' ⟨_, j, h, _⟩; exact idxBytes_pos h)
theorem i32 : Costs m i32G (fun _ => m) := of_pos (by rintro c k a c' ⟨_, h, _⟩; omega)
theorem f64 : Costs m f64G (fun _ => m) := of_pos (by rintro c k a c' ⟨_, h, _⟩; omega)
theorem bytes (n : Nat) : Costs m (bytesG n) (fun l => m * l.length) := by
  rintro c k a c' ⟨_, _, rfl⟩; exact Nat.le_refl _

/-! ## References of types -/

theorem field : Costs 1 fieldG (fun _ => 1) := bind (zero _) fun _ => bind typeRef fun _ => pure rfl
theorem construct : Costs 1 constructG (fun f => f.params.length) :=
  bind (zero _) fun _ => bind nat fun _ => bind (manyN typeRef _) fun _ => pure (by simp)

theorem typeBody (t : ValueType) (hu : t.union = .null) (hp : t.tparam = none) :
    Costs 1 (typeBodyG t) (fun t => t.refs.length) := by
  obtain ⟨u, a, tp, kd⟩ := t
  simp only at hu hp
  subst hu hp
  have hF : Costs 1 (funcTypeG >>= fun u => Pure.pure (ValueType.mk u a none kd)) (fun t => t.refs.length) :=
    bind (f := fun u => (ValueType.mk u a none kd).refs.length)
      (bind byte fun _ => bind (manyN typeRef _) fun _ => bind typeRef fun _ => pure (by simp [ValueType.refs])) fun _ => pure (Nat.sub_self _)
  have hO : Costs 1 (objTypeG >>= fun u => Pure.pure (ValueType.mk u a none kd)) (fun t => t.refs.length) :=
    bind (f := fun u => (ValueType.mk u a none kd).refs.length)
      (bind (zero _) fun _ => bind super fun _ => bind nat fun _ => bind nat fun _ => bind nat fun _ => bind nat fun _ =>
        bind (manyN field _) fun _ => bind (zero _) fun _ => bind (zero _) fun _ => pure (by simp [ValueType.refs]; omega)) fun _ => pure (Nat.sub_self _)
  have hV : Costs 1 (virtualTypeG >>= fun u => Pure.pure (ValueType.mk u a none kd)) (fun t => t.refs.length) :=
    bind (f := fun u => (ValueType.mk u a none kd).refs.length)
      (bind nat fun _ => bind (manyN field _) fun _ => pure (by simp [ValueType.refs])) fun _ => pure (Nat.sub_self _)
  have hE : Costs 1 (enumTypeG >>= fun u => Pure.pure (ValueType.mk u a none kd)) (fun t => t.refs.length) :=
    bind (f := fun u => (ValueType.mk u a none kd).refs.length)
      (bind (zero _) fun _ => bind nat fun _ => bind nat fun _ => bind (many construct _) fun _ => pure (by
        simp [ValueType.refs, List.length_flatMap]; omega)) fun _ => pure (Nat.sub_self _)
  have hP : Costs 1 (typeRefG >>= fun p => Pure.pure (ValueType.mk .null a (some p) kd)) (fun t => t.refs.length) :=
    bind typeRef fun p => pure (by simp [ValueType.refs])
  have hA : Costs 1 (ustringRefG >>= fun p => Pure.pure (ValueType.mk .null (some p) none kd)) (fun t => t.refs.length) :=
    bind (zero _) fun p => pure (by simp [ValueType.refs])
  cases kd
  case HFUN => exact hF
  case HMETHOD => exact hF
  case HOBJ => exact hO
  case HSTRUCT => exact hO
  case HREF => exact hP
  case HVIRTUAL => exact hV
  case HABSTRACT => exact hA
  case HENUM => exact hE
  case HNULL => exact hP
  case HPACKED => exact hP
  all_goals exact pure (by simp [ValueType.refs])

/-- Each reference of a type takes a byte, besides the byte of the kind. -/
theorem typ : Costs 1 typeG (fun t => t.refs.length + 1) :=
  bind byte fun _ => bind (zero _) fun _ => bind (zero _) fun _ => (typeBody _ rfl rfl).mono fun _ => by simp

/-! ## Entries of functions and of the pools -/

theorem extra {g : G Int} (h : Costs 2 g (fun _ => 2)) (n : Nat) : Costs 2 (extraG g n) (fun l => l.length) := by
  rintro c k l c' ⟨k1, k2, a, c1, rfl, h1, rfl, rfl, rfl⟩
  have h2 : 2 * a.length ≤ _ := manyN h n _ _ _ _ h1
  have h3 := many_length n h1
  simp only [List.append_nil, List.length_append, List.length_replicate]
  omega

theorem operands (res : Opcode) (hr : res.extra = []) (i : Int) : Costs 2 (operandsG res i) (fun o => o.extra.length) := by
  have hc : Costs 2 (callLikeG res) (fun o => o.extra.length) :=
    bind (zero _) fun _ => bind (zero _) fun _ => bind (zero _) fun _ => bind (extra idx _) fun _ => pure (by simp)
  unfold operandsG
  refine ite (fun _ => pure (by simp [hr])) fun _ => ite (fun _ => ?_) fun _ => ite (fun _ => ?_) fun _ => ite (fun _ => ?_) fun _ =>
    ite (fun _ => ?_) fun _ => ite (fun _ => ?_) fun _ => ?_
  · exact bind (zero _) fun _ => pure (by simp [hr])
  · exact bind (zero _) fun _ => bind (zero _) fun _ => pure (by simp [hr])
  · exact bind (zero _) fun _ => bind (zero _) fun _ => bind (zero _) fun _ => pure (by simp [hr])
  · exact bind (zero _) fun _ => bind (zero _) fun _ => bind (zero _) fun _ => bind idx fun _ => pure (by simp [hr])
  · have hs : Costs 2 (switchG res) (fun o => o.extra.length) :=
      bind (zero _) fun _ => bind (zero _) fun _ => bind (extra natI _) fun _ => bind (zero _) fun _ => pure (by simp)
    cases res.op
    case OCallN => exact hc
    case OCallClosure => exact hc
    case OCallMethod => exact hc
    case OCallThis => exact hc
    case OMakeEnum => exact hc
    case OSwitch => exact hs
    all_goals intro _ _ _ _ h; exact False.elim h
  · exact bind (zero _) fun _ => bind (zero _) fun _ => bind (zero _) fun _ => bind (zero _) fun _ => bind (extra idx _) fun _ => pure (by simp)

theorem opcode : Costs 2 opcodeG (fun o => 1 + o.extra.length) :=
  opcodeG_eq ▸ bind byte fun _ => bind (zero _) fun _ => bind (zero _) fun _ => bind (zero _) fun _ => (operands _ rfl _).mono fun _ => by omega

theorem function : Costs 2 functionG (fun f => 1 + functionEntries f) :=
  bind typeRef fun _ => bind nat fun _ => bind nat fun _ => bind nat fun _ => bind (manyN typeRef _) fun regs =>
    bind (many opcode _) fun ops => pure (by
      have : (ops.map fun o => 1 + o.extra.length).sum = ops.length + (ops.map fun o => o.extra.length).sum := by
        induction ops with
        | nil => rfl
        | cons a l ih => simp only [List.length_cons, List.map_cons, List.sum_cons]; omega
      simp only [functionEntries, List.length_nil]
      omega)

theorem i32Add (p : Profile) (a b : Int) : Costs 2 (i32AddG p a b) (fun _ => 0) := zero _

theorem debugItem (p : Profile) (nops : Nat) (d : Dbg) : Costs 2 (debugItemG p nops d) (fun d' => d'.words.length - d.words.length) := by
  refine bind byte fun _ => ite (fun _ => ?_) fun _ => ite (fun _ => ?_) fun _ => ite (fun _ => ?_) fun _ => ?_
  · exact bind (zero _) fun _ => bind (zero _) fun _ => bind (zero _) fun _ => pure (by simp)
  · exact bind (zero _) fun _ => bind (zero _) fun _ => pure (by simp)
  · exact bind (zero _) fun _ => pure (by simp [Dbg.emit])
  · exact bind (zero _) fun _ => bind (zero _) fun _ => pure (by simp [Dbg.emit])

theorem debug (p : Profile) (nops : Nat) (d : Dbg) : Costs 2 (DebugG p nops d) (fun d' => d'.words.length - d.words.length) := by
  intro c k d' c' h
  induction h with
  | done => simp
  | item d d' d'' c c' c'' k k' _ h1 _ ih =>
    have := debugItem p nops d _ _ _ _ h1
    simp only [List.length_append] at *
    omega

theorem functionDebug (p : Profile) (v nops : Nat) : Costs 2 (functionDebugG p v nops) (fun w => w.length) :=
  bind (f := fun w => w.length) (bind (debug _ _ _) fun _ => pure (by simp)) fun _ =>
    ite (fun _ => bind (zero _) fun _ => pure (by simp)) fun _ => pure (by simp)

theorem functionWithDebug (p : Profile) (c : Code) : Costs 2 (functionWithDebugG p c) (fun f => 1 + functionEntries f) := by
  rintro c1 k f c' ⟨k1, k2, f1, c2, rfl, h1, h2⟩
  have h3 : 1 + functionEntries f1 ≤ _ := function _ _ _ _ h1
  have hd : f1.debug = [] := by
    obtain ⟨_, _, _, _, _, _, _, _, _, _, _, _, _, _, _, _, _, _, _, _, _, _, _, _, _, _, _, _, _, _, _, _, _, _, _, _, _, rfl, _⟩ := h1
    rfl
  by_cases hc : c.hasdebug ≠ 0
  · rw [if_pos hc] at h2
    obtain ⟨k3, k4, w, c3, rfl, h4, rfl, rfl, rfl⟩ := h2
    have h5 := functionDebug p _ _ _ _ _ _ h4
    simp only [functionEntries, hd, List.length_append, List.length_nil] at *
    omega
  · rw [if_neg hc] at h2
    obtain ⟨rfl, rfl, rfl⟩ := h2
    simpa using h3

theorem constant : Costs 2 constantG (fun k => 1 + k.fields.length) :=
  bind nat fun _ => bind nat fun _ => bind (manyN nat _) fun _ => pure (by simp; omega)

theorem pool (st : Str) : ∀ n cu, Costs 2 (poolG st n cu) (fun l => l.length)
  | 0, _ => pure rfl
  | n + 1, _ => bind nat fun _ => bind (zero _) fun _ => ite (fun _ => pure (by simp)) fun _ =>
      bind (pool st n _) fun _ => pure (by simp)

theorem strings (n : Nat) : Costs 2 (stringsG n) (fun l => l.length) :=
  stringsG_eq n ▸ bind (zero _) fun _ => bind (zero _) fun _ => bind (zero _) fun _ => pool _ _ _

end Costs
end Verif.Brass
