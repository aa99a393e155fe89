import Verif.Props.Hash
import Verif.Props.Lookup

/-!
# Hashes of types (C48, C49, C60)
-/

namespace Verif.Brass

open Verif Verif.Brass.Spec

/-! ## C48 -/

theorem rel_get {α : Type} {R : α → α → Prop} {a b : List α} {i : Nat} (h : Option.Rel R a[i]? b[i]?) :
    (Rust.get a i = .panic ∧ Rust.get b i = .panic) ∨ ∃ x y, Rust.get a i = .ret x ∧ Rust.get b i = .ret y ∧ R x y := by
  unfold Rust.get
  generalize a[i]? = x at h
  generalize b[i]? = y at h
  cases h with
  | none => exact Or.inl ⟨rfl, rfl⟩
  | some h => exact Or.inr ⟨_, _, rfl, rfl, h⟩

theorem hashKind_alike {recur : ValueType → Rust UInt32} {isrec : Bool} {R : ValueType → ValueType → Prop}
    (hR : isrec = false → ∀ t t', R t t' → recur t' = recur t) {t t' : ValueType} (h : Alike R t t') :
    hashKind recur isrec t' = hashKind recur isrec t := by
  have hA : ∀ {args args' : List ValueType} {i : Nat}, Option.Rel R args[i]? args'[i]? → ∀ b, hashArg recur isrec args' i b = hashArg recur isrec args i b := by
    intro args args' i h b
    unfold hashArg
    cases isrec with
    | true => rfl
    | false =>
      rcases rel_get h with ⟨e1, e2⟩ | ⟨x, y, e1, e2, e3⟩
      · simp [e1, e2]
      · simp [e1, e2, hR rfl _ _ e3]
  have hF : ∀ {fs fs' : List ObjField} {i : Nat}, Option.Rel (fun x y => x.hashedName = y.hashedName ∧ R x.t y.t) fs[i]? fs'[i]? →
      ∀ b, hashField recur isrec fs' i b = hashField recur isrec fs i b := by
    intro args args' i h b
    unfold hashField
    rcases rel_get h with ⟨e1, e2⟩ | ⟨x, y, e1, e2, e3, e4⟩
    · simp [e1, e2]
    · cases isrec with
      | true => simp [e1, e2, e3]
      | false => simp [e1, e2, e3, hR rfl _ _ e4]
  have hP : ∀ {ps ps' : List ValueType} {i : Nat}, Option.Rel R ps[i]? ps'[i]? → ∀ b, hashParam recur isrec ps' i b = hashParam recur isrec ps i b := by
    intro args args' i h b
    unfold hashParam
    rcases rel_get h with ⟨e1, e2⟩ | ⟨x, y, e1, e2, e3⟩
    · simp [e1, e2]
    · cases isrec with
      | true => simp [e1, e2]
      | false => simp [e1, e2, hR rfl _ _ e3]
  cases h with
  | func k hk args args' nargs ret ret' a a' p p' hargs hret =>
    have e : Rust.forRange (hashArg recur isrec args') 0 nargs (Hasher.new.writeUsize nargs) =
        Rust.forRange (hashArg recur isrec args) 0 nargs (Hasher.new.writeUsize nargs) :=
      forRange_congr _ _ _ fun i _ hi b => hA (hargs i (by omega)) b
    have e' : (Rust.forRange (hashArg recur isrec args') 0 nargs (Hasher.new.writeUsize nargs) >>= fun h =>
          if isrec then pure h else recur ret' >>= fun x => pure (h.writeU32 x)) =
        (Rust.forRange (hashArg recur isrec args) 0 nargs (Hasher.new.writeUsize nargs) >>= fun h =>
          if isrec then pure h else recur ret >>= fun x => pure (h.writeU32 x)) := by
      rw [e]
      cases hb : isrec with
      | true => rfl
      | false => rw [hR hb _ _ hret]
    rcases hk with rfl | rfl <;> exact e'
  | obj k hk name sup sup' fields fields' nfields nproto nb nb' proto proto' b b' g g' rt rt' a a' p p' hfields =>
    have e : Rust.forRange (hashField recur isrec fields') 0 nfields (((Hasher.new.write name).writeUsize nfields).writeUsize nproto) =
        Rust.forRange (hashField recur isrec fields) 0 nfields (((Hasher.new.write name).writeUsize nfields).writeUsize nproto) :=
      forRange_congr _ _ _ fun i _ hi b => hF (hfields i (by omega)) b
    rcases hk with rfl | rfl <;> exact e
  | ref k hk u u' a a' p p' hp =>
    have e : (if isrec then .ret Hasher.new else Rust.unwrap p' >>= fun p => recur p >>= fun x => pure (Hasher.new.writeU32 x)) =
        (if isrec then .ret Hasher.new else Rust.unwrap p >>= fun p => recur p >>= fun x => pure (Hasher.new.writeU32 x)) := by
      cases hb : isrec with
      | true => rfl
      | false =>
        cases hp with
        | none => rfl
        | some h => simp [hR hb _ _ h]
    rcases hk with rfl | rfl <;> exact e
  | virt nfields fields fields' a a' p p' hfields =>
    exact forRange_congr _ _ _ fun i _ hi b => hF (hfields i (by omega)) b
  | enum name n cs cs' g g' a a' p p' hcs =>
    refine forRange_congr _ _ _ fun i _ hi b => ?_
    unfold hashConstruct
    rcases rel_get (hcs i (by omega)) with ⟨e1, e2⟩ | ⟨x, y, e1, e2, e3, e4, e5⟩
    · simp [e1, e2]
    · simp only [e1, e2, Rust.bind_ret, ← e3, ← e4]
      exact forRange_congr _ _ _ fun j _ hj b => hP (e5 j (by omega)) b
  | abs n u u' p p' => rfl
  | prim k hk u u' a a' p p' =>
    cases k
    all_goals first
      | rfl
      | exact absurd (by decide) hk

/-- **C48** The shallow hash of a type depends only on its kind, its names and counts. -/
theorem c48_shallow_hash (t t' : ValueType) (h : Alike (fun _ _ => True) t t') : t'.hash true = t.hash true := by
  unfold ValueType.hash
  rw [hashKind_alike (fun h => by cases h) h]

/-- **C48** The hash of a type depends only on its kind, names and counts and on the kinds, names and counts of the types it
refers to directly: types that agree that far have the same hash (or can both not be hashed), whatever their super types,
methods, bindings, globals, and whatever lies below the first level. -/
theorem c48_hash (t t' : ValueType) (h : Alike (Alike fun _ _ => True) t t') : t'.hash false = t.hash false := by
  unfold ValueType.hash
  rw [hashKind_alike (fun _ a b hab => ?_) h]
  unfold ValueType.hashRec
  rw [hashKind_alike (fun h => by cases h) hab]

/-- **C48** The kind itself is not hashed: all primitive types have the hash 0 (so types that differ only in a primitive
component, such as references to `i32` and to `f64`, have the same hash), … -/
theorem c48_primitives_collide (t : ValueType) (h : t.kind ∉ composite) (b : Bool) : t.hash b = .ret 0 := by
  have e : ∀ r i, hashKind r i t = .ret Hasher.new := by
    intro r i
    unfold hashKind
    split <;> rename_i hk
    all_goals first
      | rfl
      | (rw [hk] at h; exact absurd (by decide) h)
  simp [ValueType.hash, e, Hasher.finalize, Hasher.new]

/-- **C48** … a method type has the hash of the function type and a struct that of the object. -/
theorem c48_kinds_collide (u : ValueTypeU) (a : Option Str) (p : Option ValueType) (b : Bool) :
    (ValueType.mk u a p .HMETHOD).hash b = (ValueType.mk u a p .HFUN).hash b ∧
    (ValueType.mk u a p .HSTRUCT).hash b = (ValueType.mk u a p .HOBJ).hash b ∧
    (ValueType.mk u a p .HNULL).hash b = (ValueType.mk u a p .HREF).hash b := ⟨rfl, rfl, rfl⟩

/-- Two object types that differ in super type, methods, global and in the structure of a field's type two levels down. -/
example : ∃ t t' : ValueType, Alike (Alike fun _ _ => True) t t' ∧ t ≠ t' ∧ Rust.returns (t.hash false) = true := by
  refine ⟨⟨.obj [0x41] (prim .HI32) [⟨[0x66], 5, ⟨.null, none, some (prim .HI32), .HREF⟩⟩] 1 1 0 [⟨[0x6d], 9, 3, 0⟩] [] [1] none, none, none, .HOBJ⟩,
    ⟨.obj [0x41] ValueType.default [⟨[0x66], 5, ⟨.null, none, some (prim .HF64), .HREF⟩⟩] 1 1 2 [⟨[0x6e], 8, 4, 1⟩] [1, 2] [7] none, none, none, .HOBJ⟩, ?_, by simp, by decide +kernel⟩
  refine .obj _ (Or.inl rfl) _ _ _ _ _ _ _ _ _ _ _ _ _ _ _ _ _ _ _ _ _ fun i hi => ?_
  match i, hi with
  | 0, _ => exact .some ⟨rfl, .ref _ (Or.inl rfl) _ _ _ _ _ _ (.some trivial)⟩

/-! ## C60: decoded types are well formed -/

/-- Every value of a phrase has `Q`. -/
def Vals {α : Type} (g : G α) (Q : α → Prop) : Prop := ∀ c k a c', g c k a c' → Q a

namespace Vals

theorem pure {α : Type} {a : α} {Q : α → Prop} (h : Q a) : Vals (Pure.pure a : G α) Q := by
  rintro c k b c' ⟨rfl, rfl, rfl⟩; exact h
theorem bind {α β : Type} {x : G α} {f : α → G β} {Q : α → Prop} {R : β → Prop} (hx : Vals x Q) (hf : ∀ a, Q a → Vals (f a) R) :
    Vals (x >>= f) R := by
  rintro c k b c'' ⟨k1, k2, a, c', rfl, h1, h2⟩
  exact hf a (hx _ _ _ _ h1) _ _ _ _ h2
theorem any {α : Type} (g : G α) : Vals g (fun _ => True) := fun _ _ _ _ _ => trivial
theorem length {α : Type} (g : G α) (n : Nat) : Vals (G.many g n) (fun l => l.length = n) := fun _ _ _ _ h => many_length n h
theorem many {α : Type} {g : G α} {Q : α → Prop} (h : Vals g Q) : ∀ n, Vals (G.many g n) (fun l => l.length = n ∧ ∀ a ∈ l, Q a)
  | 0 => pure (by simp)
  | n + 1 => bind h fun a ha => bind (many h n) fun l hl => pure (by
      refine ⟨by simp [hl.1], ?_⟩
      intro x hx
      rcases List.mem_cons.1 hx with rfl | hx
      · exact ha
      · exact hl.2 x hx)

theorem idx_lt {k : List UInt8} {n : Nat} (h : IdxBytes k (n : Int)) : n < 2 ^ 31 := by
  have key : ∀ v : Int, IdxBytes k v → v < 2 ^ 31 := by
    intro v h
    cases h with
    | short b h => omega
    | mediumPos b x h1 h2 => have := x.toNat_lt; omega
    | mediumNeg b x h1 h2 => omega
    | long b x y z h =>
      have := b.toNat_lt; have := x.toNat_lt; have := y.toNat_lt; have := z.toNat_lt
      rw [twos32_eq, unsignedLE_eq]
      simp only [leNat]
      unfold toSigned; split <;> omega
  have := key n h
  omega

theorem nat : Vals natG (fun n => n < 2 ^ 31) := fun _ _ _ _ h => idx_lt h.2

theorem construct : Vals constructG (fun c => c.nparams = c.params.length) :=
  bind (any _) fun _ _ => bind (any _) fun _ _ => bind (length _ _) fun _ h => pure h.symm

theorem pairs_length (l : List (Nat × Nat)) : (l.flatMap fun b => [b.1, b.2]).length = 2 * l.length := by
  induction l with
  | nil => rfl
  | cons a l ih => simp only [List.flatMap_cons, List.length_append, List.length_cons, List.length_nil, ih]; omega

theorem typeBody (kd : TypeKind) : Vals (typeBodyG { ValueType.default with kind := kd }) WellFormed := by
  have hF : Vals funcTypeG (fun u => ∃ args ret, u = .func args args.length ret) :=
    bind (any _) fun _ _ => bind (length _ _) fun args h => bind (any _) fun ret _ => pure ⟨args, ret, by rw [h]⟩
  have hO : Vals objTypeG (fun u => ∃ name sup fields proto bindings, ∃ nb g : Nat,
      u = .obj name sup fields fields.length proto.length nb proto bindings [(g : Int)] none ∧ bindings.length = 2 * nb ∧ g < 2 ^ 31) :=
    bind (any _) fun _ _ => bind (any _) fun _ _ => bind nat fun _ hg => bind (any _) fun _ _ =>
    bind (any _) fun _ _ => bind (any _) fun _ _ => bind (length _ _) fun _ h1 => bind (length _ _) fun _ h2 =>
    bind (length _ _) fun bs h3 => pure ⟨_, _, _, _, _, _, _, by rw [h1, h2], by rw [pairs_length, h3], hg⟩
  have hV : Vals virtualTypeG (fun u => ∃ fields, u = .virt fields.length fields) :=
    bind (any _) fun _ _ => bind (length _ _) fun fields h => pure ⟨fields, by rw [h]⟩
  have hE : Vals enumTypeG (fun u => ∃ name constructs, ∃ g : Nat, u = .enum name constructs.length constructs [(g : Int)] ∧
      (∀ c ∈ constructs, c.nparams = c.params.length) ∧ g < 2 ^ 31) :=
    bind (any _) fun _ _ => bind nat fun _ hg => bind (any _) fun _ _ => bind (many construct _) fun cs h =>
    pure ⟨_, cs, _, by rw [h.1], h.2, hg⟩
  cases kd
  case HFUN => exact bind hF fun u ⟨args, ret, h⟩ => pure ⟨args, ret, h, rfl, rfl⟩
  case HMETHOD => exact bind hF fun u ⟨args, ret, h⟩ => pure ⟨args, ret, h, rfl, rfl⟩
  case HOBJ => exact bind hO fun u ⟨a, b, c, d, e, f, g, h, i, j⟩ => pure ⟨a, b, c, d, e, f, g, h, i, j, rfl, rfl⟩
  case HSTRUCT => exact bind hO fun u ⟨a, b, c, d, e, f, g, h, i, j⟩ => pure ⟨a, b, c, d, e, f, g, h, i, j, rfl, rfl⟩
  case HREF => exact bind (any _) fun p _ => pure ⟨p, rfl, rfl, rfl⟩
  case HNULL => exact bind (any _) fun p _ => pure ⟨p, rfl, rfl, rfl⟩
  case HPACKED => exact bind (any _) fun p _ => pure ⟨p, rfl, rfl, rfl⟩
  case HVIRTUAL => exact bind hV fun u ⟨f, h⟩ => pure ⟨f, h, rfl, rfl⟩
  case HENUM => exact bind hE fun u ⟨a, b, c, h, i, j⟩ => pure ⟨a, b, c, h, i, j, rfl, rfl⟩
  case HABSTRACT => exact bind (any _) fun n _ => pure ⟨n, rfl, rfl, rfl⟩
  all_goals exact pure ⟨rfl, rfl, rfl⟩

theorem typ : Vals typeG WellFormed :=
  bind (any _) fun _ _ => bind (any _) fun _ _ => bind (any _) fun _ _ => typeBody _

end Vals

/-- **C60** Every type of an accepted file has the contents of its kind, and its counts are the lengths of its lists. -/
theorem c60_types_well_formed (p : Profile) (e : Option DecodeError) (buf : List UInt8) (c : Code) (s : St) (h : Code.read p e buf = .ok c s)
    (i : Nat) (hi : i < c.ntypes) (t : ValueType) (ht : c.types[i]? = some t) : WellFormed t := by
  obtain ⟨⟨T, h1, h2, h3⟩, _⟩ := accepted_types h
  rw [h2, List.getElem?_append_left (by omega)] at ht
  obtain ⟨k, d, d', h4, _⟩ := h3 i t ht
  exact Vals.typ _ _ _ _ h4

/-! ## C49: hashing a decoded type never panics -/

theorem forRange_returns {β : Type} {f : Nat → β → Rust β} : ∀ n a b, (∀ i, a ≤ i → i < a + n → ∀ b, ∃ b', f i b = .ret b') →
    ∃ b', Rust.forRange f a n b = .ret b'
  | 0, _, b, _ => ⟨b, rfl⟩
  | n + 1, a, b, h => by
    obtain ⟨b', e⟩ := h a (Nat.le_refl _) (by omega) b
    simp only [Rust.forRange, e, Rust.bind_ret]
    exact forRange_returns n (a + 1) b' fun i h1 h2 => h i (by omega) (by omega)

theorem get_of_lt {α : Type} {l : List α} {i : Nat} (h : i < l.length) : ∃ a, Rust.get l i = .ret a ∧ a ∈ l :=
  ⟨l[i], by simp [Rust.get, List.getElem?_eq_getElem h], List.getElem_mem h⟩

theorem hashKind_returns {recur : ValueType → Rust UInt32} {isrec : Bool} {t : ValueType} (hw : WellFormed t)
    (hr : isrec = false → ∀ r ∈ t.refs, ∃ x, recur r = .ret x) : ∃ h, hashKind recur isrec t = .ret h := by
  obtain ⟨u, a, p, k⟩ := t
  have hfields : ∀ (fields : List ObjField), (isrec = false → ∀ f ∈ fields, ∃ x, recur f.t = .ret x) → ∀ b,
      ∃ b', Rust.forRange (hashField recur isrec fields) 0 fields.length b = .ret b' := by
    intro fields hf b
    refine forRange_returns _ _ _ fun i _ hi b => ?_
    obtain ⟨f, e, hm⟩ := get_of_lt (l := fields) (i := i) (by omega)
    cases hb : isrec with
    | true => exact ⟨_, by simp only [hashField, e, Rust.bind_ret, if_true]; rfl⟩
    | false =>
      obtain ⟨x, hx⟩ := hf hb f hm
      exact ⟨_, by simp only [hashField, e, Rust.bind_ret, Bool.false_eq_true, if_false, hx]; rfl⟩
  cases k <;> simp only [WellFormed] at hw
  case HFUN | HMETHOD =>
    obtain ⟨args, ret, rfl, rfl, rfl⟩ := hw
    have h1 : ∃ b', Rust.forRange (hashArg recur isrec args) 0 args.length (Hasher.new.writeUsize args.length) = .ret b' := by
      refine forRange_returns _ _ _ fun i _ hi b => ?_
      obtain ⟨f, e, hm⟩ := get_of_lt (l := args) (i := i) (by omega)
      cases hb : isrec with
      | true => exact ⟨_, rfl⟩
      | false =>
        obtain ⟨x, hx⟩ := hr hb f (by simp [ValueType.refs, hm])
        exact ⟨_, by simp only [hashArg, e, Rust.bind_ret, Bool.false_eq_true, if_false, hx]; rfl⟩
    obtain ⟨b', e⟩ := h1
    cases hb : isrec with
    | true => exact ⟨b', by rw [hb] at e; simp [hashKind, e]⟩
    | false =>
      obtain ⟨x, hx⟩ := hr hb ret (by simp [ValueType.refs])
      exact ⟨_, by rw [hb] at e; simp only [hashKind, e, Rust.bind_ret, Bool.false_eq_true, if_false, hx]; rfl⟩
  case HOBJ | HSTRUCT =>
    obtain ⟨name, sup, fields, proto, bindings, nb, g, rfl, _, _, rfl, rfl⟩ := hw
    exact hfields fields (fun hb f hf => hr hb f.t (by simp only [ValueType.refs, List.mem_append, List.mem_cons, List.mem_map]; exact Or.inl (Or.inr ⟨f, hf, rfl⟩))) _
  case HVIRTUAL =>
    obtain ⟨fields, rfl, rfl, rfl⟩ := hw
    exact hfields fields (fun hb f hf => hr hb f.t (by simp only [ValueType.refs, List.mem_append, List.mem_map]; exact Or.inl ⟨f, hf, rfl⟩)) _
  case HREF | HNULL =>
    obtain ⟨q, rfl, rfl, rfl⟩ := hw
    cases hb : isrec with
    | true => exact ⟨_, rfl⟩
    | false =>
      obtain ⟨x, hx⟩ := hr hb q (by simp [ValueType.refs])
      exact ⟨_, by simp only [hashKind, Rust.unwrap_some, Rust.bind_ret, Bool.false_eq_true, if_false, hx]; rfl⟩
  case HABSTRACT =>
    obtain ⟨n, rfl, rfl, rfl⟩ := hw
    exact ⟨_, rfl⟩
  case HENUM =>
    obtain ⟨name, cs, g, rfl, hc, _, rfl, rfl⟩ := hw
    refine forRange_returns _ _ _ fun i _ hi b => ?_
    obtain ⟨con, e, hm⟩ := get_of_lt (l := cs) (i := i) (by omega)
    simp only [hashConstruct, e, Rust.bind_ret]
    refine forRange_returns _ _ _ fun j _ hj b => ?_
    have := hc con hm
    obtain ⟨q, e2, hm2⟩ := get_of_lt (l := con.params) (i := j) (by omega)
    cases hb : isrec with
    | true => exact ⟨_, by simp only [hashParam, e2, Rust.bind_ret, if_true]; rfl⟩
    | false =>
      obtain ⟨x, hx⟩ := hr hb q (by simp only [ValueType.refs, List.mem_append, List.mem_flatMap]; exact Or.inl ⟨con, hm, hm2⟩)
      exact ⟨_, by simp only [hashParam, e2, Rust.bind_ret, Bool.false_eq_true, if_false, hx]; rfl⟩
  all_goals exact ⟨_, rfl⟩

theorem hashRec_returns {t : ValueType} (hw : WellFormed t ∨ t = ValueType.default) : ∃ x, t.hashRec = .ret x := by
  rcases hw with hw | rfl
  · obtain ⟨h, e⟩ := hashKind_returns (recur := fun _ => .panic) (isrec := true) hw (by simp)
    exact ⟨_, by simp only [ValueType.hashRec, e, Rust.bind_ret]; rfl⟩
  · exact ⟨_, rfl⟩

/-- **C49** Hashing a type of an accepted file does not panic. -/
theorem c49_hash_returns (p : Profile) (e : Option DecodeError) (buf : List UInt8) (c : Code) (s : St) (h : Code.read p e buf = .ok c s)
    (i : Nat) (hi : i < c.ntypes) (t : ValueType) (ht : c.types[i]? = some t) (isrec : Bool) : ∃ x, t.hash isrec = .ret x := by
  obtain ⟨x, hx⟩ := hashKind_returns (recur := ValueType.hashRec) (isrec := isrec) (c60_types_well_formed p e buf c s h i hi t ht) (by
    intro _ r hr
    rcases c36_types_refer_back p e buf c s h i hi t ht r hr with rfl | ⟨j, hj, hj'⟩
    · exact hashRec_returns (Or.inr rfl)
    · exact hashRec_returns (Or.inl (c60_types_well_formed p e buf c s h j (by omega) r hj')))
  exact ⟨_, by simp only [ValueType.hash, hx, Rust.bind_ret]; rfl⟩

/-- The default type, with which the second half of `Code.types` is filled, cannot be hashed. -/
theorem c49_default_panics : noType.hash false = .panic := rfl

end Verif.Brass
