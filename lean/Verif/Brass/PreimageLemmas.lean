import Verif.Spec.Preimage
import Verif.Brass.SpecEq
import Verif.Brass.HashLemmas
import Verif.Brass.AllocLemmas

/-!
# The bytes that the hash functions feed to the hasher
-/

namespace Verif.Brass

open Verif Verif.Brass.Spec

/-! ## Numbers -/

theorem le_eq (n v : Nat) : le n v = leBytesNat n v := by
  induction n generalizing v with
  | zero => rfl
  | succ n ih =>
    unfold le at *
    rw [List.range_succ_eq_map, List.map_cons, List.map_map]
    unfold leBytesNat
    congr 1
    · simp
    · rw [← ih]
      apply List.map_congr_left
      intro i _
      simp only [Function.comp_apply, Nat.pow_succ]
      rw [Nat.mul_comm, ← Nat.div_div_eq_div_mul]

theorem write_word (h : Hasher) (x : UInt32) : h.write (word x) = h.writeU32 x := by rw [word, le_eq]; rfl
theorem write_signed32 (h : Hasher) (x : Int) : h.write (signed32 x) = h.writeI32 x := by rw [signed32, le_eq]; rfl
theorem write_signed64 (h : Hasher) (x : Int) : h.write (signed64 x) = h.writeIsize x := by rw [signed64, le_eq]; rfl
theorem write_count (h : Hasher) (n : Nat) : h.write (count n) = h.writeUsize n := by rw [count, le_eq]; rfl

theorem truncate_eq (bits : Nat) : truncate bits = f64AsI32 bits := by
  unfold truncate f64AsI32 doubleScaled
  generalize he : bits / 2 ^ 52 % 2 ^ 11 = e
  have hm := Nat.mod_lt bits (show 2 ^ 52 > 0 by decide)
  generalize bits % 2 ^ 52 = m at hm
  generalize bits / 2 ^ 63 % 2 = sg
  have hmag : (if e = 0 then m * 2 else (2 ^ 52 + m) * 2 ^ e) / 2 ^ 1075 =
      if e = 0 then 0 else if e < 1075 then (2 ^ 52 + m) / 2 ^ (1075 - e) else (2 ^ 52 + m) * 2 ^ (e - 1075) := by
    split
    · apply Nat.div_eq_of_lt
      have : (2 : Nat) ^ 53 ≤ 2 ^ 1075 := Nat.pow_le_pow_right (by decide) (by decide)
      omega
    · split
      · rename_i h
        rw [show 1075 = (1075 - e) + e from by omega, Nat.pow_add, Nat.mul_div_mul_right _ _ (Nat.two_pow_pos e), Nat.add_sub_cancel]
      · rename_i h
        rw [show (2 : Nat) ^ e = 2 ^ (e - 1075) * 2 ^ 1075 from by rw [← Nat.pow_add]; congr 1; omega, ← Nat.mul_assoc,
          Nat.mul_div_cancel _ (Nat.two_pow_pos _)]
  simp only [hmag]
  generalize (if e = 0 then 0 else if e < 1075 then (2 ^ 52 + m) / 2 ^ (1075 - e) else (2 ^ 52 + m) * 2 ^ (e - 1075)) = n
  split
  · rfl
  · split <;> split <;> omega

/-! ## Types -/

/-- A loop over a list that writes something for each element. -/
theorem forRange_flat {α : Type} {f : Nat → Hasher → Rust Hasher} (g : α → List UInt8) : ∀ (l : List α) (a : Nat) (h : Hasher),
    (∀ i x, l[i]? = some x → ∀ h, f (a + i) h = .ret (h.write (g x))) → Rust.forRange f a l.length h = .ret (h.write (l.flatMap g))
  | [], a, h, _ => by simp [Rust.forRange, Hasher.write_nil]
  | x :: l, a, h, hf => by
    have h0 := hf 0 x rfl h
    rw [Nat.add_zero] at h0
    simp only [List.length_cons, Rust.forRange, h0, Rust.bind_ret]
    rw [forRange_flat g l (a + 1) _ (fun i y hy h => by rw [show a + 1 + i = a + (i + 1) from by omega]; exact hf (i + 1) y hy h)]
    rw [List.flatMap_cons, Hasher.write_append]

theorem crc_finalize (b : List UInt8) : (Hasher.new.write b).finalize = crc b := (crc_eq b).symm

theorem write2 (h : Hasher) (a b : List UInt8) : h.write (a ++ b) = (h.write a).write b := (Hasher.write_append h a b).symm

theorem flatMap_nil_fun {α : Type} (l : List α) : (l.flatMap fun _ => ([] : List UInt8)) = [] := by
  induction l with
  | nil => rfl
  | cons a l ih => simp

theorem hashField_rec (recur : ValueType → Rust UInt32) (fields : List ObjField) (h : Hasher) :
    Rust.forRange (hashField recur true fields) 0 fields.length h = .ret (h.write (fields.flatMap fun f => word f.hashedName)) := by
  refine forRange_flat _ fields 0 h fun i f hf h => ?_
  unfold hashField
  rw [Nat.zero_add, get_eq.2 hf]
  simp [write_word]

theorem hashField_full (recur : ValueType → Rust UInt32) (fields : List ObjField) (h : Hasher)
    (hr : ∀ f ∈ fields, recur f.t = .ret (crc (outline f.t))) :
    Rust.forRange (hashField recur false fields) 0 fields.length h = .ret (h.write (fields.flatMap fun f => word f.hashedName ++ word (crc (outline f.t)))) := by
  refine forRange_flat _ fields 0 h fun i f hf h => ?_
  unfold hashField
  rw [Nat.zero_add, get_eq.2 hf]
  simp [write_word, write2, hr f (List.mem_of_getElem? hf)]

theorem hashParam_rec (recur : ValueType → Rust UInt32) (params : List ValueType) (h : Hasher) :
    Rust.forRange (hashParam recur true params) 0 params.length h = .ret h := by
  have := forRange_flat (f := hashParam recur true params) (fun _ => []) params 0 h (fun i f hf h => by
    unfold hashParam
    rw [Nat.zero_add, get_eq.2 hf]
    simp [Hasher.write_nil])
  rw [this, flatMap_nil_fun, Hasher.write_nil]

theorem hashParam_full (recur : ValueType → Rust UInt32) (params : List ValueType) (h : Hasher)
    (hr : ∀ a ∈ params, recur a = .ret (crc (outline a))) :
    Rust.forRange (hashParam recur false params) 0 params.length h = .ret (h.write (params.flatMap fun a => word (crc (outline a)))) := by
  refine forRange_flat _ params 0 h fun i f hf h => ?_
  unfold hashParam
  rw [Nat.zero_add, get_eq.2 hf]
  simp [write_word, hr f (List.mem_of_getElem? hf)]

theorem hashArg_rec (recur : ValueType → Rust UInt32) (args : List ValueType) (h : Hasher) :
    Rust.forRange (hashArg recur true args) 0 args.length h = .ret h := by
  have := forRange_flat (f := hashArg recur true args) (fun _ => []) args 0 h (fun i f hf h => by simp [hashArg, Hasher.write_nil])
  rw [this, flatMap_nil_fun, Hasher.write_nil]

theorem hashArg_full (recur : ValueType → Rust UInt32) (args : List ValueType) (h : Hasher)
    (hr : ∀ a ∈ args, recur a = .ret (crc (outline a))) :
    Rust.forRange (hashArg recur false args) 0 args.length h = .ret (h.write (args.flatMap fun a => word (crc (outline a)))) := by
  refine forRange_flat _ args 0 h fun i f hf h => ?_
  unfold hashArg
  rw [Nat.zero_add, get_eq.2 hf]
  simp [write_word, hr f (List.mem_of_getElem? hf)]

theorem hashKind_outline (recur : ValueType → Rust UInt32) {t : ValueType} (hw : WellFormed t) :
    hashKind recur true t = .ret (Hasher.new.write (outline t)) := by
  obtain ⟨u, a, p, k⟩ := t
  cases k <;> simp only [WellFormed] at hw
  case HFUN | HMETHOD =>
    obtain ⟨args, ret, rfl, rfl, rfl⟩ := hw
    simp [hashKind, outline, hashArg_rec, write_count]
  case HOBJ | HSTRUCT =>
    obtain ⟨name, sup, fields, proto, bindings, nb, g, rfl, _, _, rfl, rfl⟩ := hw
    simp only [hashKind, outline, hashField_rec, write2, write_count]
  case HREF | HNULL =>
    obtain ⟨q, rfl, rfl, rfl⟩ := hw
    simp [hashKind, outline, Hasher.write_nil]
  case HVIRTUAL =>
    obtain ⟨fields, rfl, rfl, rfl⟩ := hw
    simp only [hashKind, outline, hashField_rec, write2, write_count]
  case HENUM =>
    obtain ⟨name, cs, g, rfl, hc, _, rfl, rfl⟩ := hw
    simp only [hashKind, outline, write2]
    refine forRange_flat _ cs 0 _ fun i c hi h => ?_
    unfold hashConstruct
    rw [Nat.zero_add, get_eq.2 hi]
    have := hc c (List.mem_of_getElem? hi)
    simp only [Rust.bind_ret, this, hashParam_rec, write2, write_count]
  case HABSTRACT =>
    obtain ⟨n, rfl, rfl, rfl⟩ := hw
    simp [hashKind, outline]
  all_goals simp [hashKind, outline, Hasher.write_nil]

theorem hashKind_contents (recur : ValueType → Rust UInt32) {t : ValueType} (hw : WellFormed t)
    (hr : ∀ r ∈ t.refs, recur r = .ret (crc (outline r))) : hashKind recur false t = .ret (Hasher.new.write (contents t)) := by
  obtain ⟨u, a, p, k⟩ := t
  cases k <;> simp only [WellFormed] at hw
  case HFUN | HMETHOD =>
    obtain ⟨args, ret, rfl, rfl, rfl⟩ := hw
    simp only [ValueType.refs] at hr
    have h1 := hr ret (by simp)
    simp only [hashKind, contents]
    rw [hashArg_full _ _ _ fun a ha => hr a (by simp [ha])]
    simp [h1, write2, write_count, write_word]
  case HOBJ | HSTRUCT =>
    obtain ⟨name, sup, fields, proto, bindings, nb, g, rfl, _, _, rfl, rfl⟩ := hw
    simp only [ValueType.refs] at hr
    simp only [hashKind, contents]
    rw [hashField_full _ _ _ fun f hf => hr f.t (by simp; exact Or.inr ⟨f, hf, rfl⟩)]
    simp only [write2, write_count]
  case HREF | HNULL =>
    obtain ⟨q, rfl, rfl, rfl⟩ := hw
    have h1 := hr q (by simp [ValueType.refs])
    simp [hashKind, contents, h1, write_word]
  case HVIRTUAL =>
    obtain ⟨fields, rfl, rfl, rfl⟩ := hw
    simp only [ValueType.refs] at hr
    simp only [hashKind, contents]
    rw [hashField_full _ _ _ fun f hf => hr f.t (by simp; exact ⟨f, hf, rfl⟩)]
    simp only [write2, write_count]
  case HENUM =>
    obtain ⟨name, cs, g, rfl, hc, _, rfl, rfl⟩ := hw
    simp only [ValueType.refs] at hr
    simp only [hashKind, contents, write2]
    refine forRange_flat _ cs 0 _ fun i c hi h => ?_
    unfold hashConstruct
    rw [Nat.zero_add, get_eq.2 hi]
    have hm := List.mem_of_getElem? hi
    have := hc c hm
    simp only [Rust.bind_ret, this]
    rw [hashParam_full _ _ _ fun a ha => hr a (by simp; exact ⟨c, hm, ha⟩)]
    simp only [write2, write_count]
  case HABSTRACT =>
    obtain ⟨n, rfl, rfl, rfl⟩ := hw
    simp [hashKind, contents]
  all_goals simp [hashKind, contents, Hasher.write_nil]

theorem hashRec_outline {t : ValueType} (hw : WellFormed t ∨ t = ValueType.default) : t.hashRec = .ret (crc (outline t)) := by
  rcases hw with hw | rfl
  · unfold ValueType.hashRec
    rw [hashKind_outline _ hw]
    simp [crc_finalize]
  · decide +kernel

/-! ## Relations -/

/-- What a step writes is one of the byte strings with `B`; it panics if there is none. -/
def Writes (F : Hasher → Rust Hasher) (B : List UInt8 → Prop) : Prop := ∀ h y, F h = .ret y ↔ ∃ b, B b ∧ y = h.write b

namespace Writes

theorem ret : Writes (fun h => .ret h) (fun b => b = []) := fun h y => by
  constructor
  · intro e; cases e; exact ⟨[], rfl, (Hasher.write_nil _).symm⟩
  · rintro ⟨_, rfl, rfl⟩; rw [Hasher.write_nil]

theorem write (bytes : List UInt8) : Writes (fun h => .ret (h.write bytes)) (fun b => b = bytes) := fun h y => by
  constructor
  · intro e; cases e; exact ⟨_, rfl, rfl⟩
  · rintro ⟨_, rfl, rfl⟩; rfl

theorem congr {F : Hasher → Rust Hasher} {B C : List UInt8 → Prop} (h : Writes F B) (hBC : ∀ b, B b ↔ C b) : Writes F C := by
  intro a y
  rw [h a y]
  simp only [hBC]

theorem seq {F G : Hasher → Rust Hasher} {B C : List UInt8 → Prop} (hF : Writes F B) (hG : Writes G C) :
    Writes (fun h => F h >>= G) (fun b => ∃ x y, B x ∧ C y ∧ b = x ++ y) := by
  intro h y
  constructor
  · intro e
    cases e1 : F h with
    | panic => simp only [e1] at e; cases e
    | ret h1 =>
      simp only [e1, Rust.bind_ret] at e
      obtain ⟨b, hb, rfl⟩ := (hF h h1).1 e1
      obtain ⟨c, hc, rfl⟩ := (hG _ y).1 e
      exact ⟨_, ⟨b, c, hb, hc, rfl⟩, Hasher.write_append _ _ _⟩
  · rintro ⟨_, ⟨b, c, hb, hc, rfl⟩, rfl⟩
    simp only [(hF h _).2 ⟨b, hb, rfl⟩, Rust.bind_ret]
    exact (hG _ _).2 ⟨c, hc, (Hasher.write_append _ _ _).symm⟩

theorem read {α : Type} {m : Rust α} {K : α → Hasher → Rust Hasher} {B : α → List UInt8 → Prop} (hK : ∀ a, m = .ret a → Writes (K a) (B a)) :
    Writes (fun h => m >>= fun a => K a h) (fun b => ∃ a, m = .ret a ∧ B a b) := by
  intro h y
  cases m with
  | panic => simp
  | ret a =>
    simp only [Rust.bind_ret, Rust.ret.injEq, exists_eq_left']
    exact hK a rfl h y

end Writes

namespace CodeHash

theorem items_append (s : CodeHash) (a b : List Item) (x : List UInt8) :
    ItemsBytes s (a ++ b) x ↔ ∃ y z, ItemsBytes s a y ∧ ItemsBytes s b z ∧ x = y ++ z := by
  induction a generalizing x with
  | nil => simp [ItemsBytes]
  | cons i l ih =>
    simp only [List.cons_append, ItemsBytes, ih]
    constructor
    · rintro ⟨u, v, h1, ⟨y, z, h2, h3, rfl⟩, rfl⟩
      exact ⟨u ++ y, z, ⟨u, y, h1, h2, rfl⟩, h3, by simp⟩
    · rintro ⟨y, z, ⟨u, w, h1, h2, rfl⟩, h3, rfl⟩
      exact ⟨u, w ++ z, h1, ⟨w, z, h2, h3, rfl⟩, by simp⟩

theorem items_one (s : CodeHash) (i : Item) (x : List UInt8) : ItemsBytes s [i] x ↔ ItemBytes s i x := by
  simp only [ItemsBytes]
  constructor
  · rintro ⟨u, v, h, rfl, rfl⟩; simpa using h
  · intro h; exact ⟨x, [], h, rfl, by simp⟩

/-- A step that writes the items. -/
def WritesItems (s : CodeHash) (F : Hasher → Rust Hasher) (l : List Item) : Prop := Writes F (ItemsBytes s l)

variable {s : CodeHash}

theorem WritesItems.nil : WritesItems s (fun h => .ret h) [] := Writes.ret

theorem WritesItems.one {F : Hasher → Rust Hasher} {i : Item} (h : Writes F (ItemBytes s i)) : WritesItems s F [i] :=
  h.congr fun b => (items_one s i b).symm

theorem WritesItems.seq {F G : Hasher → Rust Hasher} {l m : List Item} (hF : WritesItems s F l) (hG : WritesItems s G m) :
    WritesItems s (fun h => F h >>= G) (l ++ m) := (Writes.seq hF hG).congr fun b => (items_append s l m b).symm

/-- A loop that writes the items of each element of a list. -/
theorem WritesItems.forRange {α : Type} {f : Nat → Hasher → Rust Hasher} (g : α → List Item) : ∀ (l : List α) (a : Nat),
    (∀ i x, l[i]? = some x → WritesItems s (f (a + i)) (g x)) → WritesItems s (fun h => Rust.forRange f a l.length h) (l.flatMap g)
  | [], a, _ => WritesItems.nil
  | x :: l, a, hf => by
    rw [List.flatMap_cons]
    have h0 := hf 0 x rfl
    rw [Nat.add_zero] at h0
    exact h0.seq (WritesItems.forRange g l (a + 1) fun i y hy => by
      rw [show a + 1 + i = a + (i + 1) from by omega]; exact hf (i + 1) y hy)

theorem wr_type (t : ValueType) : WritesItems s (fun h => s.writeType h t) [.typ t] := by
  refine WritesItems.one ?_
  unfold writeType
  refine (Writes.read (B := fun x b => b = word x) fun x _ => ?_).congr fun b => ?_
  · have := Writes.write (word x)
    simpa only [write_word, Rust.pure_eq] using this
  · simp only [ItemBytes, typeHash_iff]

theorem wr_num (p : Option Int) : WritesItems s (fun h => writeP h p) [.num p] := by
  refine WritesItems.one ?_
  unfold writeP
  refine (Writes.read (B := fun x b => b = signed32 x) fun x _ => ?_).congr fun b => ?_
  · have := Writes.write (signed32 x)
    simpa only [write_signed32, Rust.pure_eq] using this
  · simp only [ItemBytes]
    cases p <;> simp

theorem wr_wide (l : List Int) (i : Nat) : WritesItems s (fun h => writeExtra l i h) [.wide l[i]?] := by
  refine WritesItems.one ?_
  unfold writeExtra
  refine (Writes.read (B := fun x b => b = signed64 x) fun x _ => ?_).congr fun b => ?_
  · have := Writes.write (signed64 x)
    simpa only [write_signed64, Rust.pure_eq] using this
  · simp only [ItemBytes, get_eq]

theorem wr_wides (l : List Int) (n : Nat) : WritesItems s (fun h => Rust.forRange (writeExtra l) 0 n h) ((List.range n).map fun i => .wide l[i]?) := by
  have := WritesItems.forRange (s := s) (f := writeExtra l) (fun i => [.wide l[i]?]) (List.range n) 0 (fun i x hx => by
    have hi := (List.getElem?_eq_some_iff.1 hx)
    obtain ⟨h1, h2⟩ := hi
    rw [List.getElem_range] at h2
    subst h2
    rw [Nat.zero_add]
    exact wr_wide l i)
  rw [List.length_range] at this
  rwa [← List.map_eq_flatMap] at this

theorem into_iff {x : Int} {i : Nat} : intoUsize x = .ret i ↔ x = (i : Int) := by
  unfold intoUsize
  split
  · simp only [Rust.ret.injEq]; omega
  · simp; omega

theorem unwrap_iff {α : Type} {o : Option α} {a : α} : Rust.unwrap o = .ret a ↔ o = some a := by cases o <;> simp

theorem asUsize_lt' {x : Int} {n : Nat} (h1 : -2 ^ 31 ≤ x) (h2 : x < 2 ^ 31) (hn : n < 2 ^ 31) : asUsize x < n ↔ 0 ≤ x ∧ x < n := by
  unfold asUsize
  omega

theorem as_iff {α : Type} {l : List α} {x : Int} {a : α} (hx : IsI32 x) (hl : l.length < 2 ^ 31) : l[asUsize x]? = some a ↔ ∃ i : Nat, x = (i : Int) ∧ l[i]? = some a := by
  unfold IsI32 at hx
  constructor
  · intro e
    have h1 := (List.getElem?_eq_some_iff.1 e).1
    have := (asUsize_lt' hx.1 hx.2 hl).1 h1
    refine ⟨asUsize x, ?_, e⟩
    unfold asUsize; omega
  · rintro ⟨i, rfl, e⟩
    have : asUsize (i : Int) = i := by unfold asUsize; omega
    rw [this]; exact e

theorem wr_int (p : Option Int) : WritesItems s (fun h => do
    let p2 ← Rust.unwrap p
    let i ← intoUsize p2
    let x ← Rust.get s.code.ints i
    pure (h.writeI32 x)) [.int p] := by
  refine WritesItems.one ((Writes.read fun x _ => Writes.read fun i _ => Writes.read (B := fun x b => b = signed32 x) fun v _ => ?_).congr fun b => ?_)
  · have := Writes.write (signed32 v)
    simpa only [write_signed32, Rust.pure_eq] using this
  · simp only [ItemBytes, At, unwrap_iff, into_iff, get_eq]
    constructor
    · rintro ⟨_, h1, i, rfl, v, h2, rfl⟩; exact ⟨v, ⟨i, h1, h2⟩, rfl⟩
    · rintro ⟨v, ⟨i, h1, h2⟩, rfl⟩; exact ⟨_, h1, i, rfl, v, h2, rfl⟩

theorem wr_floats (p : Option Int) : WritesItems s (fun h => do
    let p2 ← Rust.unwrap p
    let i ← intoUsize p2
    let x ← Rust.get s.code.floats (i <<< 1)
    let h := h.writeI32 (f64AsI32 x)
    let y ← Rust.get s.code.floats ((i <<< 1) ||| 1)
    pure (h.writeI32 (f64AsI32 y))) [.floats p] := by
  refine WritesItems.one ((Writes.read fun x _ => Writes.read fun i _ => Writes.read fun u _ => Writes.read (B := fun v b => b = signed32 (truncate u) ++ signed32 (truncate v)) fun v _ => ?_).congr fun b => ?_)
  · have := Writes.write (signed32 (truncate u) ++ signed32 (truncate v))
    simp only [write2, write_signed32] at this
    simpa only [truncate_eq, Rust.pure_eq] using this
  · have e1 : ∀ i : Nat, i <<< 1 = 2 * i := fun i => by rw [Nat.shiftLeft_eq]; omega
    have e2 : ∀ i : Nat, 2 * i ||| 1 = 2 * i + 1 := fun i => by
      have := Nat.two_pow_add_eq_or_of_lt (i := 1) (b := 1) (by omega) i
      rw [Nat.pow_one] at this
      rw [← this]
    simp only [ItemBytes, unwrap_iff, into_iff, get_eq, e1, e2]
    constructor
    · rintro ⟨_, h1, i, rfl, u, h2, v, h3, rfl⟩; exact ⟨i, u, v, h1, h2, h3, rfl⟩
    · rintro ⟨i, u, v, h1, h2, h3, rfl⟩; exact ⟨_, h1, i, rfl, u, h2, v, h3, rfl⟩

theorem wr_text (p : Option Int) : WritesItems s (fun h => do
    let p2 ← Rust.unwrap p
    let i ← intoUsize p2
    let x ← Rust.get s.code.strings i
    pure (h.write x)) [.text p] := by
  refine WritesItems.one ((Writes.read fun x _ => Writes.read fun i _ => Writes.read (B := fun x b => b = x) fun v _ => Writes.write v).congr fun b => ?_)
  simp only [ItemBytes, At, unwrap_iff, into_iff, get_eq]
  constructor
  · rintro ⟨_, h1, i, rfl, v, h2, rfl⟩; exact ⟨i, h1, h2⟩
  · rintro ⟨i, h1, h2⟩; exact ⟨_, h1, i, rfl, b, h2, rfl⟩

theorem wr_text' (p : Option Int) (hp : ∀ x, p = some x → IsI32 x) (hl : s.code.strings.length < 2 ^ 31) : WritesItems s (fun h => do
    let p3 ← Rust.unwrap p
    let x ← Rust.get s.code.strings (asUsize p3)
    pure (h.write x)) [.text p] := by
  refine WritesItems.one ((Writes.read fun x _ => Writes.read (B := fun x b => b = x) fun v _ => Writes.write v).congr fun b => ?_)
  simp only [ItemBytes, At, unwrap_iff, get_eq]
  constructor
  · rintro ⟨x, h1, v, h2, rfl⟩
    obtain ⟨i, rfl, h3⟩ := (as_iff (hp x h1) hl).1 h2
    exact ⟨i, h1, h3⟩
  · rintro ⟨i, h1, h2⟩; exact ⟨_, h1, b, (as_iff (hp _ h1) hl).2 ⟨i, rfl, h2⟩, rfl⟩

theorem wr_typeRef (p : Option Int) : WritesItems s (fun h => do
    let p2 ← Rust.unwrap p
    let i ← intoUsize p2
    let t ← Rust.get s.code.types i
    s.writeType h t) [.type p] := by
  refine WritesItems.one ((Writes.read fun x _ => Writes.read fun i _ => Writes.read fun t _ => wr_type t).congr fun b => ?_)
  simp only [ItemBytes, At, unwrap_iff, into_iff, get_eq, items_one]
  constructor
  · rintro ⟨_, h1, i, rfl, t, h2, x, h3, rfl⟩; exact ⟨t, x, ⟨i, h1, h2⟩, h3, rfl⟩
  · rintro ⟨t, x, ⟨i, h1, h2⟩, h3, rfl⟩; exact ⟨_, h1, i, rfl, t, h2, x, h3, rfl⟩

theorem wr_callee (p : Option Int) (hj : ∀ j ∈ s.functionsIndexes, IsI32 j) (hl : s.functionsHashes.length < 2 ^ 31) :
    WritesItems s (fun h => s.callP h p) [.callee p] := by
  unfold callP hfun
  refine WritesItems.one ((Writes.read fun x _ => Writes.read fun i _ => Writes.read fun j _ => Writes.read (B := fun x b => b = word x) fun x _ => ?_).congr fun b => ?_)
  · have := Writes.write (word x)
    simpa only [write_word, Rust.pure_eq] using this
  · simp only [ItemBytes, At, unwrap_iff, into_iff, get_eq]
    constructor
    · rintro ⟨_, h1, i, rfl, j, h2, x, h3, rfl⟩
      obtain ⟨k, rfl, h4⟩ := (as_iff (hj j (List.mem_of_getElem? h2)) hl).1 h3
      exact ⟨k, x, ⟨i, h1, h2⟩, h4, rfl⟩
    · rintro ⟨k, x, ⟨i, h1, h2⟩, h4, rfl⟩
      exact ⟨_, h1, i, rfl, k, h2, x, (as_iff (hj _ (List.mem_of_getElem? h2)) hl).2 ⟨k, rfl, h4⟩, rfl⟩

theorem WritesItems.of_eq {F G : Hasher → Rust Hasher} {l m : List Item} (h : WritesItems s G m) (e : ∀ h, F h = G h) (e' : l = m) : WritesItems s F l := by
  rw [show F = G from funext e, e']; exact h

theorem wr_opcode (n : Nat) : WritesItems s (fun h => .ret (h.writeU8 (UInt8.ofNat n))) [.opcode n] :=
  WritesItems.one (Writes.write _)

/-- The operands of an instruction, all numbers. -/
theorem wr1 (p1 : Option Int) : WritesItems s (fun h => writeP h p1) [.num p1] := wr_num p1
theorem wr2 (p1 p2 : Option Int) : WritesItems s (fun h => writeP h p1 >>= fun h => writeP h p2) [.num p1, .num p2] := (wr_num p1).seq (wr_num p2)
theorem wr3 (p1 p2 p3 : Option Int) : WritesItems s (fun h => writeP h p1 >>= fun h => writeP h p2 >>= fun h => writeP h p3) [.num p1, .num p2, .num p3] :=
  (wr_num p1).seq ((wr_num p2).seq (wr_num p3))
theorem wr4 (p1 p2 p3 : Option Int) (extra : List Int) : WritesItems s (fun h => writeP h p1 >>= fun h => writeP h p2 >>= fun h => writeP h p3 >>= fun h => writeExtra extra 0 h)
    [.num p1, .num p2, .num p3, .wide extra[0]?] :=
  (wr_num p1).seq ((wr_num p2).seq ((wr_num p3).seq (wr_wide extra 0)))
theorem wrN (G : Hasher → Rust Hasher) (i2 : Item) (hG : WritesItems s G [i2]) (p1 p3 : Option Int) (extra : List Int) :
    WritesItems s (fun h => writeP h p1 >>= fun h => G h >>= fun h => writeP h p3 >>= fun h =>
      Rust.unwrap p3 >>= fun m => Rust.forRange (writeExtra extra) 0 m.toNat h)
    ([.num p1, i2, .num p3] ++ (List.range (p3.getD 0).toNat).map fun i => .wide extra[i]?) := by
  cases p3 with
  | some m => exact (wr_num p1).seq (hG.seq ((wr_num (some m)).seq (wr_wides extra m.toNat)))
  | none =>
    refine ((wr_num p1).seq (hG.seq ((wr_num none).seq (WritesItems.nil)))).of_eq (fun h => ?_) rfl
    rfl
theorem wrS (p1 p2 p3 : Option Int) (extra : List Int) :
    WritesItems s (fun h => writeP h p1 >>= fun h => writeP h p2 >>= fun h =>
      Rust.unwrap p2 >>= fun m => Rust.forRange (writeExtra extra) 0 m.toNat h >>= fun h => writeP h p3)
    ([.num p1, .num p2] ++ ((List.range (p2.getD 0).toNat).map fun i => .wide extra[i]?) ++ [.num p3]) := by
  cases p2 with
  | some m =>
    refine ((wr_num p1).seq ((wr_num (some m)).seq ((wr_wides extra m.toNat).seq (wr_num p3)))).of_eq (fun h => rfl) ?_
    simp
  | none =>
    refine ((wr_num p1).seq ((wr_num none).seq (wr_num p3))).of_eq (fun h => ?_) (by simp)
    rfl

theorem wr_args (o : Opcode) (ho : ∀ x, o.p1 = some x ∨ o.p2 = some x ∨ o.p3 = some x → IsI32 x) (hst : s.code.strings.length < 2 ^ 31)
    (hj : ∀ j ∈ s.functionsIndexes, IsI32 j) (hl : s.functionsHashes.length < 2 ^ 31) :
    WritesItems s (fun h => s.hashArgs h o) (instrItems o).tail := by
  obtain ⟨op, p1, p2, p3, extra⟩ := o
  have h2 : ∀ x, p2 = some x → IsI32 x := fun x e => ho x (Or.inr (Or.inl e))
  have h3 : ∀ x, p3 = some x → IsI32 x := fun x e => ho x (Or.inr (Or.inr e))
  have hc := wr_callee (s := s) p2 hj hl
  cases op
  case OInt => exact (wr_num p1).seq (wr_int p2)
  case OFloat => exact (wr_num p1).seq (wr_floats p2)
  case OString => exact (wr_num p1).seq (wr_text p2)
  case OType => exact (wr_num p1).seq (wr_typeRef p2)
  case ODynGet => exact (wr_num p1).seq ((wr_num p2).seq (wr_text' p3 h3 hst))
  case ODynSet =>
    refine ((wr_num p1).seq ((wr_text' p2 h2 hst).seq (wr_num p3))).of_eq (fun h => ?_) rfl
    show _ = _
    simp only [hashArgs]
    cases writeP h p1 with
    | panic => rfl
    | ret h =>
      cases p2 with
      | none => rfl
      | some q =>
        simp only [Rust.unwrap]
        show (Rust.get s.code.strings (asUsize q) >>= _) = ((Rust.get s.code.strings (asUsize q) >>= _) >>= _)
        cases Rust.get s.code.strings (asUsize q) <;> rfl
  case OCall0 | OStaticClosure => exact ((wr_num p1).seq hc).of_eq (fun h => rfl) rfl
  case OCall1 | OInstanceClosure => exact ((wr_num p1).seq (hc.seq (wr_num p3))).of_eq (fun h => rfl) rfl
  case OCall2 => exact ((wr_num p1).seq (hc.seq ((wr_num p3).seq (wr_wide extra 0)))).of_eq (fun h => rfl) rfl
  case OCall3 => exact ((wr_num p1).seq (hc.seq ((wr_num p3).seq ((wr_wide extra 0).seq (wr_wide extra 1))))).of_eq (fun h => rfl) rfl
  case OCall4 => exact ((wr_num p1).seq (hc.seq ((wr_num p3).seq ((wr_wide extra 0).seq ((wr_wide extra 1).seq (wr_wide extra 2)))))).of_eq (fun h => rfl) rfl
  case OCallN => exact (wrN _ _ hc p1 p3 extra).of_eq (fun h => rfl) rfl
  case OCallClosure | OCallMethod | OCallThis | OMakeEnum => exact (wrN _ _ (wr_num p2) p1 p3 extra).of_eq (fun h => rfl) rfl
  case OSwitch => exact (wrS p1 p2 p3 extra).of_eq (fun h => rfl) rfl
  all_goals first
    | exact WritesItems.nil.of_eq (fun h => rfl) rfl
    | exact (wr1 p1).of_eq (fun h => rfl) rfl
    | exact (wr2 p1 p2).of_eq (fun h => rfl) rfl
    | exact (wr3 p1 p2 p3).of_eq (fun h => rfl) rfl
    | exact (wr4 p1 p2 p3 extra).of_eq (fun h => rfl) rfl

theorem wr_fun (f : HLFunction) (M : MachineSized s f) : WritesItems s (fun h => do
    let h ← Rust.forRange (s.hashReg f.regs) 0 f.nregs h
    Rust.forRange (s.hashOp f.ops) 0 f.nops h) (funItems f) := by
  unfold funItems
  rw [M.nregs, M.nops, List.map_eq_flatMap]
  refine (WritesItems.forRange _ f.regs 0 fun i t ht => ?_).seq (WritesItems.forRange _ f.ops 0 fun i o ho => ?_)
  · rw [Nat.zero_add]
    refine (wr_type t).of_eq (fun h => ?_) rfl
    unfold hashReg
    rw [get_eq.2 ht]; rfl
  · rw [Nat.zero_add]
    refine ((wr_opcode o.op.toNat).seq (wr_args o (M.operands o (List.mem_of_getElem? ho)) M.strings M.indexes M.hashes)).of_eq (fun h => ?_) (by rw [← opNumber_eq]; rfl)
    unfold hashOp
    rw [get_eq.2 ho]; rfl

theorem hash_of_writes {F : Hasher → Rust Hasher} {l : List Item} (h : WritesItems s F l) (x : UInt32) :
    (F Hasher.new >>= fun h => pure h.finalize) = .ret x ↔ ∃ b, ItemsBytes s l b ∧ x = crc b := by
  constructor
  · intro e
    cases e1 : F Hasher.new with
    | panic => rw [e1] at e; cases e
    | ret y =>
      rw [e1] at e
      obtain ⟨b, hb, rfl⟩ := (h _ _).1 e1
      cases e
      exact ⟨b, hb, crc_finalize b⟩
  · rintro ⟨b, hb, rfl⟩
    rw [(h _ _).2 ⟨b, hb, rfl⟩]
    simp [crc_finalize]

end CodeHash

end Verif.Brass
