import Verif.Brass.PreimageLemmas
import Verif.Props.Finalize

/-!
# What is hashed (C65-C70)
-/

namespace Verif.Brass

open Verif Verif.Brass.Spec CodeHash

/-! ## C65: the hash of a type -/

/-- **C65** The hash of a declared type of an accepted file is the CRC-32 of its contents, and the one it contributes to another
type is the CRC-32 of its outline. -/
theorem c65_type_hash (p : Profile) (e : Option DecodeError) (buf : List UInt8) (c : Code) (s : St) (h : Code.read p e buf = .ok c s)
    (i : Nat) (hi : i < c.ntypes) (t : ValueType) (ht : c.types[i]? = some t) :
    t.hash false = .ret (crc (contents t)) ∧ t.hash true = .ret (crc (outline t)) := by
  have hw := c60_types_well_formed p e buf c s h i hi t ht
  constructor
  · unfold ValueType.hash
    rw [hashKind_contents _ hw]
    · simp [crc_finalize]
    · intro r hr
      rcases c36_types_refer_back p e buf c s h i hi t ht r hr with rfl | ⟨j, hj, hj'⟩
      · exact hashRec_outline (Or.inr rfl)
      · exact hashRec_outline (Or.inl (c60_types_well_formed p e buf c s h j (by omega) r hj'))
  · unfold ValueType.hash
    rw [hashKind_outline _ hw]
    simp [crc_finalize]

/-! ## C66: the table of type hashes -/

namespace CodeHash

variable {s : CodeHash}

theorem recTypes_value {g : ValueType → UInt32} (ts : List ValueType) (h : Hasher) (hg : ∀ r ∈ ts, s.typeHash r = .ret (g r)) :
    Rust.forRange (s.recType ts) 0 ts.length h = .ret (h.write (ts.flatMap fun r => word (g r))) := by
  refine forRange_flat _ ts 0 h fun i r hr h => ?_
  unfold recType writeType
  rw [Nat.zero_add, get_eq.2 hr]
  simp [write_word, hg r (List.mem_of_getElem? hr)]

theorem recFields_value {g : ValueType → UInt32} (fs : List ObjField) (h : Hasher) (hg : ∀ r ∈ fs.map ObjField.t, s.typeHash r = .ret (g r)) :
    Rust.forRange (s.recField fs) 0 fs.length h = .ret (h.write ((fs.map ObjField.t).flatMap fun r => word (g r))) := by
  rw [List.flatMap_map]
  refine forRange_flat _ fs 0 h fun i r hr h => ?_
  unfold recField writeType
  rw [Nat.zero_add, get_eq.2 hr]
  simp [write_word, hg r.t (List.mem_map.2 ⟨r, List.mem_of_getElem? hr, rfl⟩)]

theorem recConstructs_value {g : ValueType → UInt32} (cs : List EnumConstruct) (h : Hasher) (hc : ∀ c ∈ cs, c.nparams = c.params.length)
    (hg : ∀ r ∈ cs.flatMap EnumConstruct.params, s.typeHash r = .ret (g r)) :
    Rust.forRange (s.recConstruct cs) 0 cs.length h = .ret (h.write ((cs.flatMap EnumConstruct.params).flatMap fun r => word (g r))) := by
  rw [List.flatMap_assoc]
  refine forRange_flat _ cs 0 h fun i r hr h => ?_
  have hm := List.mem_of_getElem? hr
  unfold recConstruct
  rw [Nat.zero_add, get_eq.2 hr]
  simp only [Rust.bind_ret, hc r hm]
  exact recTypes_value _ _ fun x hx => hg x (List.mem_flatMap.2 ⟨r, hm, hx⟩)

theorem recKind_value {g : ValueType → UInt32} {t : ValueType} (hw : WellFormed t) (hg : ∀ r ∈ hashedRefs t, s.typeHash r = .ret (g r)) :
    s.recKind t = .ret (Hasher.new.write ((hashedRefs t).flatMap fun r => word (g r))) := by
  obtain ⟨u, a, p, k⟩ := t
  cases k <;> simp only [WellFormed] at hw
  case HFUN | HMETHOD =>
    obtain ⟨args, ret, rfl, rfl, rfl⟩ := hw
    simp only [hashedRefs] at hg
    simp only [recKind, hashedRefs]
    rw [recTypes_value args _ fun r hr => hg r (by simp [hr])]
    simp [writeType, hg ret (by simp), write2, write_word]
  case HOBJ | HSTRUCT =>
    obtain ⟨name, sup, fields, proto, bindings, nb, g, rfl, _, _, rfl, rfl⟩ := hw
    exact recFields_value _ _ hg
  case HREF | HNULL =>
    obtain ⟨q, rfl, rfl, rfl⟩ := hw
    simp [recKind, hashedRefs, writeType, hg q (by simp [hashedRefs]), write_word]
  case HENUM =>
    obtain ⟨name, cs, g, rfl, hc, _, rfl, rfl⟩ := hw
    exact recConstructs_value _ _ hc hg
  all_goals simp [recKind, hashedRefs, Hasher.write_nil]

end CodeHash

/-- **C66** After `alloc` on an accepted file, the entry of each declared type in the table of type hashes is the hash of its
contents combined with the hash of the contents of its components. -/
theorem c66_type_table (p : Profile) (e : Option DecodeError) (buf : List UInt8) (c : Code) (st : St) (h : Code.read p e buf = .ok c st)
    (ch : CodeHash) (a : alloc c = .ret ch) (i : Nat) (hi : i < c.ntypes) (t : ValueType)
    (ht : c.types[i]? = some t) : ch.typeHashes[i]? = some (tableHash t) := by
  have L := loaded h
  have H := (c51_alloc_returns_iff p e buf c st h).1 ⟨ch, a⟩
  obtain ⟨_, _, ⟨s1, e1, e2⟩, _⟩ := alloc_frame a
  obtain ⟨u, h1, h2⟩ := types_value e1
  have hu : ∀ j t, j < c.ntypes → c.types[j]? = some t → u[j]? = some (crc (contents t)) := by
    intro j t hj ht
    obtain ⟨x, ⟨t', b1, b2⟩, b3⟩ := h1 j hj
    have b1 : c.types[j]? = some t' := b1
    rw [ht] at b1; cases b1
    rw [(c65_type_hash p e buf c st h j hj t ht).1] at b2; cases b2
    exact b3
  obtain ⟨x, y, a1, a2, a3⟩ := h2 i hi
  rw [hu i t hi ht] at a1; cases a1
  rw [e2, a3]
  unfold hashTypeRec at a2
  rw [show Rust.get (_ : CodeHash).code.types i = .ret t from get_eq.2 ht] at a2
  simp only [Rust.bind_ret] at a2
  rw [recKind_value (g := fun r => crc (contents r)) (L.typesOk i t hi ht)] at a2
  · simp only [Rust.bind_ret, crc_finalize] at a2
    cases a2
    rfl
  · intro r hr
    have hw := L.typesOk i t hi ht
    have hd : c.IsType r := by
      rcases L.typesRefer i t hi ht r (hashedRefs_refs hw r hr) with rfl | ⟨j, hj, hj'⟩
      · exact absurd hr (H.noForward i t hi ht)
      · exact ⟨j, by omega, hj'⟩
    obtain ⟨j, k1, k2, k3⟩ := position_declared hd
    unfold CodeHash.typeHash
    rw [show position (_ : CodeHash).code.types r = .ret j from k1]
    simp only [Rust.bind_ret]
    exact get_eq.2 (hu j r k2 k3)

/-! ## C67 and C68: functions and natives -/

/-- **C67** The hash of a function is the CRC-32 of the entries of the types of its registers and, for each instruction, the
opcode, the operands, and in place of the index of a constant, text, type or function what it refers to.  It panics exactly if
one of these does not exist. -/
theorem c67_function_hash (s : CodeHash) (f : HLFunction) (M : MachineSized s f) (x : UInt32) :
    s.hashFun f = .ret x ↔ ∃ b, ItemsBytes s (funItems f) b ∧ x = crc b := by
  rw [← hash_of_writes (wr_fun f M) x]
  unfold hashFun
  cases Rust.forRange (s.hashReg f.regs) 0 f.nregs Hasher.new <;> rfl

/-- **C58** What an instruction `OFloat r, i` contributes to the hash of a function, between what comes before and after it: the
opcode 2, the number `r`, and the entries `2i` and `2i + 1` of the pool, converted to `i32`.  If one of them is missing the
function has no hash. -/
theorem c58_contributes (s : CodeHash) (f : HLFunction) (M : MachineSized s f) (before after : List Opcode) (o : Opcode) (r : Int) (i : Nat)
    (hf : f.ops = before ++ o :: after) (ho : o.op = .OFloat) (h1 : o.p1 = some r) (h2 : o.p2 = some (i : Int)) (x : UInt32) :
    s.hashFun f = .ret x ↔ ∃ u v pre post, s.code.floats[2 * i]? = some u ∧ s.code.floats[2 * i + 1]? = some v ∧
      ItemsBytes s (f.regs.map .typ ++ before.flatMap instrItems) pre ∧ ItemsBytes s (after.flatMap instrItems) post ∧
      x = crc (pre ++ 2 :: signed32 r ++ signed32 (truncate u) ++ signed32 (truncate v) ++ post) := by
  rw [c67_function_hash s f M x]
  have hi : funItems f = (f.regs.map .typ ++ before.flatMap instrItems) ++ ([.opcode 2, .num o.p1, .floats o.p2] ++ after.flatMap instrItems) := by
    unfold funItems
    rw [hf, List.flatMap_append, List.flatMap_cons, List.append_assoc]
    have : instrItems o = [.opcode 2, .num o.p1, .floats o.p2] := by
      unfold instrItems
      rw [ho]
      rfl
    rw [this]
  rw [hi, h1, h2]
  simp only [items_append, ItemsBytes, ItemBytes]
  constructor
  · rintro ⟨b, ⟨pre, z, hpre, ⟨y, post, ⟨_, _, rfl, ⟨_, _, ⟨r', hr, rfl⟩, ⟨_, _, ⟨j, u, v, hj, hu, hv, rfl⟩, rfl, rfl⟩, rfl⟩, rfl⟩, hpost, rfl⟩, rfl⟩, rfl⟩
    injection hr with hr
    injection hj with hj
    have hj : i = j := Int.ofNat.inj hj
    subst hr hj
    exact ⟨u, v, pre, post, hu, hv, hpre, hpost, by simp⟩
  · rintro ⟨u, v, pre, post, hu, hv, hpre, hpost, rfl⟩
    exact ⟨_, ⟨pre, _, hpre, ⟨_, post, ⟨_, _, rfl, ⟨_, _, ⟨r, rfl, rfl⟩, ⟨_, _, ⟨i, u, v, rfl, hu, hv, rfl⟩, rfl, rfl⟩, rfl⟩, rfl⟩, hpost, rfl⟩, rfl⟩, by simp⟩

namespace CodeHash

theorem asI32_range (n : Nat) : IsI32 (asI32 n) := by
  unfold asI32 IsI32
  have := Nat.mod_lt n (show 2 ^ 32 > 0 by decide)
  split <;> omega

theorem set_range {l l' : List Int} {i : Nat} {x : Int} (hl : ∀ j ∈ l, IsI32 j) (hx : IsI32 x) (e : Rust.set l i x = .ret l') : ∀ j ∈ l', IsI32 j := by
  obtain ⟨_, rfl⟩ := set_eq.1 e
  intro j hj
  rcases List.mem_or_eq_of_mem_set hj with h | rfl
  · exact hl j h
  · exact hx

theorem indexes_range {c : Code} {v w : List Int} (e : indexes c v = .ret w) (hv : ∀ j ∈ v, IsI32 j) : ∀ j ∈ w, IsI32 j := by
  unfold indexes at e
  cases e1 : Rust.forRange (indexFunction c) 0 c.nfunctions v with
  | panic => rw [e1] at e; cases e
  | ret u =>
    rw [e1] at e; simp only [Rust.bind_ret] at e
    have hu := forRange_inv (Inv := fun _ (u : List Int) => ∀ j ∈ u, IsI32 j) _ _ _ _ (by
      intro i _ _ b b' hb e
      unfold indexFunction at e
      cases h : Rust.get c.functions i with
      | panic => rw [h] at e; cases e
      | ret f => rw [h] at e; exact set_range hb (asI32_range i) e) hv e1
    exact forRange_inv (Inv := fun _ (u : List Int) => ∀ j ∈ u, IsI32 j) _ _ _ _ (by
      intro i _ _ b b' hb e
      unfold indexNative at e
      cases h : Rust.get c.natives i with
      | panic => rw [h] at e; cases e
      | ret f => rw [h] at e; exact set_range hb (asI32_range _) e) hu e

end CodeHash

/-- **C67** The functions of an accepted file have the sizes that this needs. -/
theorem c67_accepted (p : Profile) (e : Option DecodeError) (buf : List UInt8) (c : Code) (st : St) (h : Code.read p e buf = .ok c st)
    (ch : CodeHash) (a : alloc c = .ret ch) (hashes : List UInt32) (hh : hashes.length < 2 ^ 31) (f : HLFunction) (hf : f ∈ c.functions) :
    MachineSized { ch with functionsHashes := hashes } f := by
  have L := loaded h
  have hw := L.functionsOk f hf
  have hstr : c.strings.length < 2 ^ 31 := by
    have h1 := (c34_at_most_nstrings p e buf c st h).1
    obtain ⟨hd, kh, rest, rfl, hh⟩ := c44_has_header p e buf c st h
    have hwd : ∀ n ∈ hd.words, n < 2 ^ 31 := by obtain ⟨_, _, _, _, _, _, h⟩ := hh; exact idxSeq_lt h
    have hr := c44_header_reported p e hd kh rest c st h hh
    by_cases hb : hd.Bare
    · rw [hr.2 hb]; decide
    · obtain ⟨_, _, _, _, _, r, _⟩ := hr.1 hb
      have : hd.nstrings < 2 ^ 31 := hwd _ (by simp [Header.words])
      omega
  refine ⟨hw.regs.symm, hw.ops.symm, ?_, ?_, hh, ?_⟩
  · intro o ho x hx
    exact WellFormedOp.range (hw.shape o ho) x hx
  · rw [show (_ : CodeHash).code = c from (alloc_frame a).1]; exact hstr
  · exact indexes_range (alloc_frame a).2.1 (by
      intro j hj
      simp only [init] at hj
      rw [(List.mem_replicate.1 hj).2]
      unfold IsI32; omega)

/-- **C68** The hash of a native is the CRC-32 of its library, its name and the entry of its type. -/
theorem c68_native_hash (s : CodeHash) (n : Native) (x : UInt32) :
    s.hashNative n = .ret x ↔ ∃ b, ItemsBytes s (nativeItems n) b ∧ x = crc b := by
  have h1 : WritesItems s (fun h => .ret (h.write n.lib)) [.name n.lib] := WritesItems.one (Writes.write _)
  have h2 : WritesItems s (fun h => .ret (h.write n.name)) [.name n.name] := WritesItems.one (Writes.write _)
  rw [← hash_of_writes (l := nativeItems n) (h1.seq (h2.seq (wr_type n.t))) x]
  rfl

namespace CodeHash

variable {s : CodeHash}

theorem wr_name (n : Str) : WritesItems s (fun h => .ret (h.write n)) [.name n] := WritesItems.one (Writes.write _)
theorem wr_number (x : UInt32) : WritesItems s (fun h => .ret (h.writeU32 x)) [.number x] := by
  refine WritesItems.one ?_
  have := Writes.write (word x)
  simp only [write_word] at this
  exact this

theorem wr_signObj (obj : Option ValueTypeU) (field : FuncField) :
    WritesItems s (fun h => signObj obj (some field) h) (if (ownerName obj).isEmpty then [] else ownerName obj ++ [.name field.name]) := by
  rcases obj with _ | u
  · exact WritesItems.nil
  · cases u
    case obj name _ _ _ _ _ _ _ _ _ => exact ((wr_name name).seq (wr_name field.name)).of_eq (fun h => rfl) rfl
    all_goals exact WritesItems.nil

theorem sign_of_more {f : HLFunction} {field : FuncField} {more : List Item} (hf : f.field = some field)
    (hm : WritesItems s (fun h => signRef f.rf (some field) h) more) (x : UInt32) : s.hashFunSign f = .ret x ↔
      ∃ b, ItemsBytes s (.typ f.t :: (if (ownerName f.obj).isEmpty then [] else ownerName f.obj ++ [.name field.name]) ++ more) b ∧ x = crc b := by
  have := hash_of_writes ((wr_type (s := s) f.t).seq ((wr_signObj f.obj field).seq hm)) x
  rw [List.singleton_append, ← List.cons_append] at this
  rw [← this]
  unfold hashFunSign
  rw [hf]
  cases s.writeType Hasher.new f.t with
  | panic => rfl
  | ret h =>
    simp only [Rust.bind_ret]
    cases signObj f.obj (some field) h with
    | panic => rfl
    | ret h => rfl

end CodeHash

/-- **C68** The hash of the signature of a function is the CRC-32 of the entry of its type, the names of its owner and itself
and, if it refers to another function, the names of that one and the reference.  It panics exactly if its name (or that of the
other one) is missing, or its type has no entry. -/
theorem c68_signature_hash (s : CodeHash) (f : HLFunction) (x : UInt32) :
    s.hashFunSign f = .ret x ↔ ∃ items b, SignItems f items ∧ ItemsBytes s items b ∧ x = crc b := by
  cases hf : f.field with
  | none =>
    rw [sign_panics hf]
    constructor
    · rintro ⟨⟩
    · rintro ⟨items, b, ⟨field, h, _⟩, _⟩; rw [hf] at h; cases h
  | some field =>
    cases hr : field.rf with
    | none =>
      rw [sign_of_more hf (more := []) (by simp only [signRef, Rust.unwrap_some, Rust.bind_ret, hr]; exact WritesItems.nil)]
      constructor
      · rintro ⟨b, h1, h2⟩
        exact ⟨_, b, ⟨field, hf, [], rfl, Or.inl ⟨hr, rfl⟩⟩, h1, h2⟩
      · rintro ⟨items, b, ⟨field', h1, more, rfl, h2⟩, h3, h4⟩
        rw [hf] at h1; cases h1
        rcases h2 with ⟨_, rfl⟩ | ⟨r, g, h, _⟩
        · exact ⟨b, h3, h4⟩
        · rw [hr] at h; cases h
    | some r =>
      cases hg : r.field with
      | none =>
        constructor
        · intro h
          unfold hashFunSign at h
          cases e1 : s.writeType Hasher.new f.t with
          | panic => rw [e1] at h; cases h
          | ret y =>
            rw [e1] at h; simp only [Rust.bind_ret] at h
            cases e2 : signObj f.obj f.field y with
            | panic => rw [e2] at h; cases h
            | ret z => rw [e2, hf] at h; simp [signRef, hr, hg] at h
        · rintro ⟨items, b, ⟨field', h1, more, rfl, h2⟩, _⟩
          rw [hf] at h1; cases h1
          rcases h2 with ⟨h, _⟩ | ⟨r', g, h, h', _⟩
          · rw [hr] at h; cases h
          · rw [hr] at h; cases h; rw [hg] at h'; cases h'
      | some g =>
        have hm : WritesItems s (fun h => signRef f.rf (some field) h) (ownerName r.obj ++ [.name g.name, .number f.rf]) := by
          simp only [signRef, Rust.unwrap_some, Rust.bind_ret, hr, hg]
          rcases r.obj with _ | u
          · exact ((wr_name g.name).seq (wr_number f.rf)).of_eq (fun h => rfl) rfl
          · cases u
            case obj name _ _ _ _ _ _ _ _ _ => exact ((wr_name name).seq ((wr_name g.name).seq (wr_number f.rf))).of_eq (fun h => rfl) rfl
            all_goals exact ((wr_name g.name).seq (wr_number f.rf)).of_eq (fun h => rfl) rfl
        rw [sign_of_more hf hm]
        constructor
        · rintro ⟨b, h1, h2⟩
          exact ⟨_, b, ⟨field, hf, _, rfl, Or.inr ⟨r, g, hr, hg, rfl⟩⟩, h1, h2⟩
        · rintro ⟨items, b, ⟨field', h1, more, rfl, h2⟩, h3, h4⟩
          rw [hf] at h1; cases h1
          rcases h2 with ⟨h, _⟩ | ⟨r', g', h, h', rfl⟩
          · rw [hr] at h; cases h
          · rw [hr] at h; cases h; rw [hg] at h'; cases h'
            exact ⟨b, h3, h4⟩

/-! ## C69: `finalize` -/

namespace CodeHash

theorem forRange_states {β : Type} {f : Nat → β → Rust β} {st : Nat → β} : ∀ n a, (∀ i, a ≤ i → i < a + n → f i (st i) = .ret (st (i + 1))) →
    Rust.forRange f a n (st a) = .ret (st (a + n))
  | 0, a, _ => rfl
  | n + 1, a, h => by
    simp only [Rust.forRange, h a (Nat.le_refl _) (by omega), Rust.bind_ret]
    rw [forRange_states n (a + 1) fun i h1 h2 => h i (by omega) (by omega)]
    congr 2; omega

theorem set_split {β : Type} {l v : List β} {i : Nat} {x : β} (hx : l[i]? = some x) (hv : i < v.length) :
    Rust.set (l.take i ++ v.drop i) i x = .ret (l.take (i + 1) ++ v.drop (i + 1)) := by
  have hl := (List.getElem?_eq_some_iff.1 hx).1
  rw [set_eq]
  refine ⟨by simp; omega, Eq.symm ?_⟩
  apply List.ext_getElem?
  intro j
  have hx' := (List.getElem?_eq_some_iff.1 hx).2
  simp only [List.getElem?_set, List.getElem?_append, List.length_take, List.getElem?_take, List.getElem?_drop, List.length_append, List.length_drop]
  rcases Nat.lt_trichotomy j i with h | h | h
  · rw [if_neg (by omega), if_pos (by omega), if_pos (by omega), if_pos (by omega), if_pos (by omega)]
  · subst h
    rw [if_pos rfl, if_pos (by omega), if_pos (by omega), if_pos (by omega), hx]
  · rw [if_neg (by omega), if_neg (by omega), if_neg (by omega)]
    congr 1; omega

/-- A loop that fills the beginning of a table. -/
theorem fill_exact {β : Type} {f : Nat → List β → Rust (List β)} {n : Nat} {l v : List β} (hl : l.length = n) (hv : n ≤ v.length)
    (hf : ∀ i x, l[i]? = some x → ∀ b, f i b = Rust.set b i x) : Rust.forRange f 0 n v = .ret (l ++ v.drop n) := by
  have := forRange_states (f := f) (st := fun i => l.take i ++ v.drop i) n 0 (fun i _ hi => by
    have hi' : i < l.length := by omega
    rw [hf i _ (List.getElem?_eq_getElem hi')]
    exact set_split (List.getElem?_eq_getElem hi') (by omega))
  simp only [List.take_zero, List.drop_zero, List.nil_append, Nat.zero_add] at this
  rw [this, List.take_of_length_le (by omega)]

theorem exists_table {β : Type} {R : Nat → β → Prop} : ∀ n, (∀ i, i < n → ∃ x, R i x) → ∃ l : List β, l.length = n ∧ ∀ i x, l[i]? = some x → R i x
  | 0, _ => ⟨[], rfl, by simp⟩
  | n + 1, h => by
    obtain ⟨l, h1, h2⟩ := exists_table n fun i hi => h i (by omega)
    obtain ⟨x, hx⟩ := h n (by omega)
    refine ⟨l ++ [x], by simp [h1], fun i y hy => ?_⟩
    rw [List.getElem?_append] at hy
    split at hy
    · exact h2 i y hy
    · rw [List.getElem?_singleton] at hy
      split at hy
      · cases hy; rw [show i = n from by omega]; exact hx
      · cases hy

theorem machineSized_hashes {s : CodeHash} {f : HLFunction} (M : MachineSized s f) {hashes : List UInt32} (h : hashes.length < 2 ^ 31) :
    MachineSized { s with functionsHashes := hashes } f := ⟨M.nregs, M.nops, M.operands, M.strings, h, M.indexes⟩

theorem items_signs {s : CodeHash} (signs : List UInt32) (l : List Item) (b : List UInt8) : ItemsBytes { s with functionsSigns := signs } l b ↔ ItemsBytes s l b := by
  induction l generalizing b with
  | nil => rfl
  | cons i l ih =>
    simp only [ItemsBytes, ih]
    cases i <;> rfl

end CodeHash

/-- **C69** What `finalize` computes and when it panics: it returns `s'` if and only if `s'` has exactly the specified signatures
and hashes. -/
theorem c69_finalize (s s' : CodeHash) (hn : s.code.nfunctions < 2 ^ 31) (M : ∀ i f, i < s.code.nfunctions → s.code.functions[i]? = some f → MachineSized s f) :
    finalize s = .ret s' ↔ Finalized s s' := by
  constructor
  · intro e
    obtain ⟨h1, h2, h3, h4⟩ := c53_signatures s s' e
    obtain ⟨k1, k2⟩ := c62_function_hashes s s' e
    obtain ⟨u, v, e1, e2, e3⟩ := finalize_stages e
    obtain ⟨g1, _, _⟩ := hashes_filled rfl e3
    obtain ⟨l1, l2, _⟩ := fill (R := fun i x => ∃ f, s.code.functions[i]? = some f ∧ s.hashFunSign f = .ret x) (fun i b b' e => by
      unfold signFunction at e
      cases a1 : Rust.get s.code.functions i with
      | panic => rw [a1] at e; cases e
      | ret f =>
        rw [a1] at e; simp only [Rust.bind_ret] at e
        cases a2 : s.hashFunSign f with
        | panic => rw [a2] at e; cases e
        | ret x => rw [a2] at e; exact ⟨x, ⟨f, get_eq.1 a1, a2⟩, e⟩) e1
    obtain ⟨m1, m2, _⟩ := fill (R := fun i x => ∃ f, s.code.natives[i]? = some f ∧ s.hashNative f = .ret x) (fun i b b' e => by
      unfold signNative at e
      cases a1 : Rust.get s.code.natives i with
      | panic => rw [a1] at e; cases e
      | ret f =>
        rw [a1] at e; simp only [Rust.bind_ret] at e
        cases a2 : s.hashNative f with
        | panic => rw [a2] at e; cases e
        | ret x => rw [a2] at e; exact ⟨x, ⟨f, get_eq.1 a1, a2⟩, e⟩) e2
    have hv : s'.functionsSigns = v := by rw [g1]
    refine ⟨by rw [hv]; exact g1, h1, k1, ?_, ?_, h4, ?_⟩
    · intro i hi
      obtain ⟨x, ⟨n, a1, a2⟩, a3⟩ := m2 i hi
      obtain ⟨b, b1, rfl⟩ := (c68_native_hash s n x).1 a2
      exact ⟨n, b, a1, b1, by rw [hv, a3]⟩
    · intro i hi
      obtain ⟨x, ⟨f, a1, a2⟩, a3⟩ := l2 i hi
      obtain ⟨items, b, b0, b1, rfl⟩ := (c68_signature_hash s f x).1 a2
      refine ⟨f, items, b, a1, b0, b1, fun hle => ?_⟩
      obtain ⟨y, c1, c2⟩ := h3 i f hle hi a1
      rw [a2] at c1; cases c1
      exact c2
    · intro i hi
      obtain ⟨f, x, a1, a2, a3⟩ := k2 i hi
      obtain ⟨b, b1, rfl⟩ := (c67_function_hash _ f (machineSized_hashes (M i f hi a1) (by simp; omega)) x).1 a3
      exact ⟨f, b, a1, b1, a2⟩
  · intro F
    obtain ⟨l, hl1, hl2⟩ := exists_table (R := fun i x => ∃ f, s.code.functions[i]? = some f ∧ s.hashFunSign f = .ret x ∧ (s.code.nnatives ≤ i → s'.functionsSigns[i]? = some x))
      s.code.nfunctions fun i hi => by
        obtain ⟨f, items, b, h1, h2, h3, h4⟩ := F.functionSigns i hi
        exact ⟨crc b, f, h1, (c68_signature_hash s f _).2 ⟨items, b, h2, h3, rfl⟩, h4⟩
    obtain ⟨m, hm1, hm2⟩ := exists_table (R := fun i x => ∃ f, s.code.natives[i]? = some f ∧ s.hashNative f = .ret x ∧ s'.functionsSigns[i]? = some x)
      s.code.nnatives fun i hi => by
        obtain ⟨n, b, h1, h2, h3⟩ := F.nativeSigns i hi
        exact ⟨crc b, n, h1, (c68_native_hash s n _).2 ⟨b, h2, rfl⟩, h3⟩
    unfold finalize
    rw [fill_exact hl1 (by simp) (fun i x hx b => by
      obtain ⟨f, h1, h2, _⟩ := hl2 i x hx
      unfold signFunction
      rw [get_eq.2 h1]; simp only [Rust.bind_ret, h2])]
    simp only [Rust.bind_ret]
    rw [fill_exact hm1 (by simp) (fun i x hx b => by
      obtain ⟨f, h1, h2, _⟩ := hm2 i x hx
      unfold signNative
      rw [get_eq.2 h1]; simp only [Rust.bind_ret, h2])]
    simp only [Rust.bind_ret]
    have hsigns : m ++ (l ++ (List.replicate (s.code.nfunctions + s.code.nnatives) (0 : UInt32)).drop s.code.nfunctions).drop s.code.nnatives = s'.functionsSigns := by
      apply List.ext_getElem?
      intro i
      have hs := F.signsLength
      rcases Nat.lt_or_ge i s.code.nnatives with h | h
      · rw [List.getElem?_append_left (by omega)]
        obtain ⟨_, _, _, h3⟩ := hm2 i _ (List.getElem?_eq_getElem (by omega))
        rw [h3, List.getElem?_eq_getElem (by omega)]
      · rw [List.getElem?_append_right (by omega), List.getElem?_drop, show s.code.nnatives + (i - m.length) = i from by omega]
        rcases Nat.lt_or_ge i s.code.nfunctions with h' | h'
        · rw [List.getElem?_append_left (by omega)]
          obtain ⟨_, _, _, h3⟩ := hl2 i _ (List.getElem?_eq_getElem (by omega))
          rw [h3 h, List.getElem?_eq_getElem (by omega)]
        · rw [List.getElem?_append_right (by omega), List.getElem?_drop, List.getElem?_replicate]
          split
          · rw [F.zeros i h h' (by omega)]
          · rw [List.getElem?_eq_none (by omega)]
    rw [hsigns]
    have := forRange_states (f := hashFunction) (st := fun i => { s with functionsSigns := s'.functionsSigns, functionsHashes := s'.functionsHashes.take i ++ List.replicate (s.code.nfunctions - i) 0 })
      s.code.nfunctions 0 (fun i _ hi => by
        obtain ⟨f, b, h1, h2, h3⟩ := F.hashes i (by omega)
        have hf := (c67_function_hash _ f (machineSized_hashes (M i f (by omega) h1) (hashes := s'.functionsHashes.take i ++ List.replicate (s.code.nfunctions - i) 0) (by
          simp; omega)) (crc b)).2 ⟨b, h2, rfl⟩
        unfold hashFunction
        rw [show Rust.get (_ : CodeHash).code.functions i = .ret f from get_eq.2 h1]
        simp only [Rust.bind_ret]
        have hf' : hashFun { s with functionsSigns := s'.functionsSigns, functionsHashes := s'.functionsHashes.take i ++ List.replicate (s.code.nfunctions - i) 0 } f = .ret (crc b) := by
          refine (c67_function_hash { s with functionsSigns := s'.functionsSigns, functionsHashes := s'.functionsHashes.take i ++ List.replicate (s.code.nfunctions - i) 0 } f ⟨(M i f (by omega) h1).nregs, (M i f (by omega) h1).nops, (M i f (by omega) h1).operands, (M i f (by omega) h1).strings, by simp; omega, (M i f (by omega) h1).indexes⟩ _).2 ?_
          exact ⟨b, (items_signs (s := { s with functionsHashes := s'.functionsHashes.take i ++ List.replicate (s.code.nfunctions - i) 0 }) _ _ _).2 h2, rfl⟩
        rw [hf']
        simp only [Rust.bind_ret]
        have := set_split (v := List.replicate s.code.nfunctions (0 : UInt32)) h3 (by simp; omega)
        simp only [List.drop_replicate] at this
        rw [this]
        rfl)
    simp only [List.take_zero, List.nil_append, Nat.sub_zero, Nat.zero_add, Nat.sub_self, List.replicate_zero, List.append_nil] at this
    rw [this, List.take_of_length_le (by rw [F.hashesLength]; omega)]
    rw [← F.same]

/-! ## Examples -/

/-- The functions of `exCode` are of the size of a machine. -/
theorem exCode_sized (ch : CodeHash) (a : alloc (exCode [⟨.ORet, some 0, none, none, []⟩]) = .ret ch) (i : Nat) (f : HLFunction)
    (hf : ch.code.functions[i]? = some f) : MachineSized ch f := by
  have hc := (alloc_frame a).1
  have hi : ∀ j ∈ ch.functionsIndexes, IsI32 j := by
    have e := (alloc_frame a).2.1
    have : indexes (exCode [⟨.ORet, some 0, none, none, []⟩]) (init (exCode [⟨.ORet, some 0, none, none, []⟩])).functionsIndexes = .ret [0, 1, 2] := by
      rfl
    rw [this] at e
    rw [← Rust.ret.inj e]
    unfold IsI32
    decide
  have hh := (alloc_frame a).2.2.2.1
  have hm : f = exFun 0 [⟨.OCall0, some 0, some 1, none, []⟩] ∨ f = exFun 1 [⟨.ORet, some 0, none, none, []⟩] := by
    have := List.mem_of_getElem? hf
    rw [hc] at this
    simpa [exCode] using this
  have hstr : ch.code.strings.length < 2 ^ 31 := by rw [hc]; decide
  rcases hm with rfl | rfl <;> refine ⟨rfl, rfl, ?_, hstr, by rw [hh]; decide, hi⟩ <;>
    · intro o ho x hx
      simp only [exFun, List.mem_singleton] at ho
      subst ho
      unfold IsI32
      simp at hx
      omega

/-- C67 and C69: the hypotheses are met, and `finalize` returns something. -/
example : ∃ ch s', alloc (exCode [⟨.ORet, some 0, none, none, []⟩]) = .ret ch ∧ ch.code.nfunctions < 2 ^ 31 ∧
    (∀ i f, i < ch.code.nfunctions → ch.code.functions[i]? = some f → MachineSized ch f) ∧ finalize ch = .ret s' ∧ Finalized ch s' := by
  have h : Rust.returns (alloc (exCode [⟨.ORet, some 0, none, none, []⟩]) >>= finalize) = true := by decide +kernel
  obtain ⟨s', h⟩ := returns_of h
  cases e : alloc (exCode [⟨.ORet, some 0, none, none, []⟩]) with
  | panic => rw [e] at h; cases h
  | ret ch =>
    rw [e] at h
    have hn : ch.code.nfunctions < 2 ^ 31 := by rw [(alloc_frame e).1]; decide
    have hM := fun i f (_ : i < ch.code.nfunctions) hf => exCode_sized ch e i f hf
    exact ⟨ch, s', rfl, hn, hM, h, (c69_finalize ch s' hn hM).1 h⟩

/-- C58: the hypotheses are met by a function that loads the float constant 1 from a pool of four, and has a hash. -/
example : let f : HLFunction := { funEx with nops := 1, ops := [⟨.OFloat, some 0, some 1, none, []⟩] }
    MachineSized (floatEx [0, 1, 2, 3]) f ∧ f.ops = [] ++ ⟨.OFloat, some 0, some ((1 : Nat) : Int), none, []⟩ :: [] ∧
      ∃ x, (floatEx [0, 1, 2, 3]).hashFun f = .ret x := by
  refine ⟨⟨rfl, rfl, ?_, by decide, by decide, ?_⟩, rfl, ?_⟩
  · intro o ho x hx
    simp only [List.mem_singleton] at ho
    subst ho
    simp at hx
    rcases hx with rfl | rfl <;> constructor <;> decide
  · intro j hj
    simp only [floatEx, hashEx, List.mem_cons, List.not_mem_nil, or_false] at hj
    rcases hj with rfl | rfl <;> constructor <;> decide
  · have h : Rust.returns ((floatEx [0, 1, 2, 3]).hashFun { funEx with nops := 1, ops := [⟨.OFloat, some 0, some 1, none, []⟩] }) = true := by decide +kernel
    revert h
    cases (floatEx [0, 1, 2, 3]).hashFun { funEx with nops := 1, ops := [⟨.OFloat, some 0, some 1, none, []⟩] } with
    | ret x => exact fun _ => ⟨x, rfl⟩
    | panic => exact fun h => absurd h (by decide)

end Verif.Brass
