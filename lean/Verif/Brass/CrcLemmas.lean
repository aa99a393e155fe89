import Verif.Brass.Crc
import Verif.Spec.Crc

/-!
# Lemmas on the checksum: the bit-list view of the shift register
-/

namespace Verif.Brass

open Verif.Spec

/-- The bits of a register, lowest first. -/
def bits32 (c : UInt32) : List Bool := (List.range 32).map fun i => c.toNat.testBit i

theorem bits32_length (c : UInt32) : (bits32 c).length = 32 := by simp [bits32]

theorem bits32_inj {a b : UInt32} (h : bits32 a = bits32 b) : a = b := by
  apply UInt32.toNat_inj.mp
  apply Nat.eq_of_testBit_eq
  intro i
  by_cases hi : i < 32
  · have := congrArg (fun l => l[i]?) h
    simpa [bits32, hi] using this
  · rw [Nat.testBit_lt_two_pow (Nat.lt_of_lt_of_le a.toNat_lt (Nat.pow_le_pow_right (by omega) (by omega))),
      Nat.testBit_lt_two_pow (Nat.lt_of_lt_of_le b.toNat_lt (Nat.pow_le_pow_right (by omega) (by omega)))]

theorem bits32_getElem? (c : UInt32) (i : Nat) : (bits32 c)[i]? = if i < 32 then some (c.toNat.testBit i) else none := by
  unfold bits32
  by_cases hi : i < 32
  · simp [hi]
  · simp [hi]

theorem bits32_xor (a b : UInt32) : bits32 (a ^^^ b) = List.zipWith (· ^^ ·) (bits32 a) (bits32 b) := by
  apply List.ext_getElem?
  intro i
  rw [List.getElem?_zipWith, bits32_getElem?, bits32_getElem?, bits32_getElem?]
  by_cases hi : i < 32 <;> simp [hi, Nat.testBit_xor]

theorem bits32_not (a : UInt32) : bits32 (~~~ a) = (bits32 a).map not := by
  apply List.ext_getElem?
  intro i
  rw [List.getElem?_map, bits32_getElem?, bits32_getElem?]
  by_cases hi : i < 32
  · have h1 : (~~~ a).toNat.testBit i = ((~~~ a).toBitVec.getLsbD i) := rfl
    have h2 : a.toNat.testBit i = (a.toBitVec.getLsbD i) := rfl
    rw [if_pos hi, if_pos hi, h1, h2, UInt32.toBitVec_not, BitVec.getLsbD_not]
    simp [hi]
  · simp [hi]

theorem bits32_poly : bits32 0xEDB88320 = crcPoly := by decide +kernel

/-- The register shift on bit lists. -/
def shiftBits : List Bool → List Bool
  | h :: t => if h then List.zipWith (· ^^ ·) (t ++ [false]) crcPoly else t ++ [false]
  | [] => []

theorem bits32_shift (c : UInt32) : bits32 (c >>> 1) = (bits32 c).tail ++ [false] := by
  apply List.ext_getElem?
  intro i
  rw [bits32_getElem?, List.getElem?_append]
  have hl : (bits32 c).tail.length = 31 := by simp [bits32_length]
  rw [hl, List.getElem?_tail, bits32_getElem?]
  by_cases hi : i < 31
  · have : i < 32 := by omega
    simp [hi, this, Nat.testBit_shiftRight, Nat.add_comm]
  · by_cases h2 : i = 31
    · subst h2
      simp [Nat.testBit_shiftRight]
      exact Nat.testBit_lt_two_pow c.toNat_lt
    · have h3 : ¬ i < 32 := by omega
      simp [hi, h3]; omega

theorem bits32_cons (c : UInt32) : bits32 c = c.toNat.testBit 0 :: (bits32 c).tail := by
  have : (bits32 c)[0]? = some (c.toNat.testBit 0) := by rw [bits32_getElem?]; rfl
  cases h : bits32 c with
  | nil => rw [h] at this; cases this
  | cons a l => rw [h] at this; simp at this; simp [this]

theorem and_one_iff (c : UInt32) : (c &&& 1 = 1) ↔ c.toNat.testBit 0 = true := by
  rw [← UInt32.toNat_inj]
  simp [Nat.testBit_zero, Nat.and_one_is_mod]

theorem bits32_crcBit (c : UInt32) : bits32 (crcBit c) = shiftBits (bits32 c) := by
  rw [bits32_cons c]
  unfold crcBit
  show _ = if c.toNat.testBit 0 = true then List.zipWith (· ^^ ·) ((bits32 c).tail ++ [false]) crcPoly else (bits32 c).tail ++ [false]
  by_cases h : c &&& 1 = 1
  · rw [if_pos h, if_pos ((and_one_iff c).mp h), bits32_xor, bits32_shift, bits32_poly]
  · rw [if_neg h, if_neg (fun x => h ((and_one_iff c).mpr x)), bits32_shift]

/-! ## Bytes -/

/-- Shift `n` times. -/
def shiftN : Nat → List Bool → List Bool
  | 0, r => r
  | n + 1, r => shiftN n (shiftBits r)

/-- One message bit at a time. -/
def feedBit (r : List Bool) (b : Bool) : List Bool := shiftBits (addLead [b] r)

theorem addLead_nil_left (q : List Bool) : addLead [] q = q := by cases q <;> rfl

theorem addLead_nil_right (p : List Bool) : addLead p [] = [] := by cases p <;> rfl

theorem addLead_length (p q : List Bool) : (addLead p q).length = q.length := by
  induction p generalizing q with
  | nil => rw [addLead_nil_left]
  | cons a p ih =>
    cases q with
    | nil => rfl
    | cons b q => simp [addLead, ih]

theorem addLead_append (p q l : List Bool) (h : p.length ≤ q.length) : addLead p (q ++ l) = addLead p q ++ l := by
  induction p generalizing q with
  | nil => rw [addLead_nil_left, addLead_nil_left]
  | cons a p ih =>
    cases q with
    | nil => simp at h
    | cons b q =>
      simp only [addLead, List.cons_append, List.cons.injEq, true_and]
      exact ih q (by simpa using h)

theorem zipWith_addLead (p a g : List Bool) : List.zipWith (· ^^ ·) (addLead p a) g = addLead p (List.zipWith (· ^^ ·) a g) := by
  induction p generalizing a g with
  | nil => rw [addLead_nil_left, addLead_nil_left]
  | cons x p ih =>
    cases a with
    | nil => simp [addLead]
    | cons y a =>
      cases g with
      | nil => simp [addLead]
      | cons z g => simp [addLead, ih]

theorem crcPoly_length : crcPoly.length = 32 := by simp [crcPoly]

theorem shiftBits_length {r : List Bool} (h : r.length = 32) : (shiftBits r).length = 32 := by
  cases r with
  | nil => simp at h
  | cons a t =>
    simp only [List.length_cons] at h
    unfold shiftBits
    cases a <;> simp [h, crcPoly_length] <;> omega

/-- Adding the following bits commutes with a shift. -/
theorem shiftBits_add (b : Bool) (bs r : List Bool) (hr : r.length = 32) (hb : bs.length < 32) :
    shiftBits (addLead (b :: bs) r) = addLead bs (shiftBits (addLead [b] r)) := by
  cases r with
  | nil => simp at hr
  | cons h t =>
    simp only [List.length_cons] at hr
    have hl : bs.length ≤ t.length := by omega
    simp only [addLead, shiftBits]
    cases hx : (b ^^ h)
    · simp only [Bool.false_eq_true, if_false]
      rw [addLead_append _ _ _ hl]
    · simp only [if_true]
      rw [← zipWith_addLead, addLead_append _ _ _ hl]

theorem shiftN_add (bs r : List Bool) (hr : r.length = 32) (hb : bs.length ≤ 32) :
    shiftN bs.length (addLead bs r) = bs.foldl feedBit r := by
  induction bs generalizing r with
  | nil => simp [shiftN, addLead_nil_left]
  | cons b bs ih =>
    simp only [List.length_cons] at hb
    simp only [List.length_cons, shiftN, List.foldl_cons]
    rw [shiftBits_add b bs r hr (by omega)]
    exact ih (feedBit r b) (shiftBits_length (by rw [addLead_length]; exact hr)) (by omega)

theorem byteBits_length (b : UInt8) : (byteBits b).length = 8 := by simp [byteBits]

theorem addLead_getElem? (p q : List Bool) (i : Nat) :
    (addLead p q)[i]? = (q[i]?).map fun x => (p[i]?.getD false) ^^ x := by
  induction p generalizing q i with
  | nil => simp [addLead_nil_left]
  | cons a p ih =>
    cases q with
    | nil => simp [addLead]
    | cons b q =>
      cases i with
      | zero => simp [addLead]
      | succ i => simp [addLead, ih]

theorem bits32_xor_byte (c : UInt32) (b : UInt8) : bits32 (c ^^^ b.toUInt32) = addLead (byteBits b) (bits32 c) := by
  rw [bits32_xor]
  apply List.ext_getElem?
  intro i
  rw [List.getElem?_zipWith, addLead_getElem?, bits32_getElem?, bits32_getElem?]
  by_cases hi : i < 32
  · by_cases h8 : i < 8
    · simp [hi, h8, byteBits, Bool.xor_comm]
    · have h9 : b.toNat.testBit i = false :=
        Nat.testBit_lt_two_pow (Nat.lt_of_lt_of_le b.toNat_lt (Nat.pow_le_pow_right (by omega) (by omega)))
      simp [hi, h8, byteBits, h9]
  · simp [hi]

theorem bits32_crcByte (c : UInt32) (b : UInt8) : bits32 (crcByte c b) = (byteBits b).foldl feedBit (bits32 c) := by
  rw [← shiftN_add _ _ (bits32_length c) (by rw [byteBits_length]; omega), byteBits_length, ← bits32_xor_byte]
  unfold crcByte
  simp only [bits32_crcBit, shiftN]

theorem bits32_fold (c : UInt32) (bytes : List UInt8) :
    bits32 (bytes.foldl crcByte c) = (messageBits bytes).foldl feedBit (bits32 c) := by
  induction bytes generalizing c with
  | nil => rfl
  | cons b bytes ih =>
    rw [List.foldl_cons, ih, bits32_crcByte]
    simp [messageBits, List.foldl_append]

/-! ## Long division -/

theorem addLead_zipWith (a g q : List Bool) (h : a.length = g.length) :
    addLead (List.zipWith (· ^^ ·) a g) q = addLead g (addLead a q) := by
  induction a generalizing g q with
  | nil =>
    cases g with
    | nil => simp [addLead_nil_left]
    | cons _ _ => simp at h
  | cons x a ih =>
    cases g with
    | nil => simp at h
    | cons y g =>
      cases q with
      | nil => simp [addLead]
      | cons z q =>
        simp only [List.zipWith_cons_cons, addLead, List.cons.injEq]
        refine ⟨?_, ih g q (by simpa using h)⟩
        cases x <;> cases y <;> cases z <;> rfl

theorem addLead_false (a q : List Bool) (h : a.length < q.length) : addLead (a ++ [false]) q = addLead a q := by
  induction a generalizing q with
  | nil =>
    cases q with
    | nil => simp at h
    | cons b q => simp [addLead]
  | cons x a ih =>
    cases q with
    | nil => simp at h
    | cons b q =>
      simp only [List.cons_append, addLead, List.cons.injEq, true_and]
      exact ih q (by simpa using h)

theorem addLead_zero (r : List Bool) : addLead r (List.replicate r.length false) = r := by
  induction r with
  | nil => rfl
  | cons a r ih => simp [List.replicate_succ, addLead, ih]

theorem longDiv_eq (m r : List Bool) (hr : r.length = 32) :
    longDiv m.length (addLead r (m ++ List.replicate 32 false)) = m.foldl feedBit r := by
  induction m generalizing r with
  | nil =>
    show addLead r (List.replicate 32 false) = r
    rw [← hr]
    exact addLead_zero r
  | cons b m ih =>
    cases r with
    | nil => simp at hr
    | cons h t =>
      have ht : t.length = 31 := by simpa using hr
      have hf : (feedBit (h :: t) b).length = 32 := shiftBits_length (by rw [addLead_length]; exact hr)
      rw [List.foldl_cons, ← ih _ hf]
      simp only [List.length_cons, List.cons_append, addLead, longDiv, feedBit, shiftBits]
      rw [Bool.xor_comm h b]
      cases hx : (b ^^ h)
      · simp only [Bool.false_eq_true, if_false]
        rw [addLead_false _ _ (by simp [ht])]
      · simp only [if_true]
        rw [addLead_zipWith _ _ _ (by simp [ht, crcPoly_length]), addLead_false _ _ (by simp [ht])]

theorem bits32_crcHash (bytes : List UInt8) : bits32 (crcHash bytes) = crc32 bytes := by
  unfold crcHash Hasher.finalize Hasher.write Hasher.new crc32
  simp only
  rw [bits32_not, bits32_fold]
  have h : bits32 (~~~ (0 : UInt32)) = List.replicate 32 true := by decide +kernel
  rw [h, longDiv_eq _ _ (by simp)]

/-! ## Injectivity -/

theorem crcPoly_last : crcPoly = crcPoly.dropLast ++ [true] := by decide +kernel

theorem zipWith_xor_cancel (a b g : List Bool) (ha : a.length = g.length) (hb : b.length = g.length)
    (h : List.zipWith (· ^^ ·) a g = List.zipWith (· ^^ ·) b g) : a = b := by
  induction g generalizing a b with
  | nil => simp at ha hb; rw [ha, hb]
  | cons x g ih =>
    cases a with
    | nil => simp at ha
    | cons y a =>
      cases b with
      | nil => simp at hb
      | cons z b =>
        simp only [List.zipWith_cons_cons, List.cons.injEq] at h
        have := ih a b (by simpa using ha) (by simpa using hb) h.2
        have hx : y = z := by have := h.1; revert this; cases x <;> cases y <;> cases z <;> simp
        rw [this, hx]

theorem addLead_inj_left (p p' q : List Bool) (hp : p.length = p'.length) (hq : p.length ≤ q.length)
    (h : addLead p q = addLead p' q) : p = p' := by
  induction q generalizing p p' with
  | nil =>
    have : p.length = 0 := by simpa using hq
    have h2 : p'.length = 0 := by omega
    rw [List.length_eq_zero_iff.mp this, List.length_eq_zero_iff.mp h2]
  | cons x q ih =>
    cases p with
    | nil =>
      cases p' with
      | nil => rfl
      | cons _ _ => simp at hp
    | cons y p =>
      cases p' with
      | nil => simp at hp
      | cons z p' =>
        simp only [addLead, List.cons.injEq] at h
        rw [ih p p' (by simpa using hp) (by simpa using hq) h.2]
        have hx : y = z := by have := h.1; revert this; cases x <;> cases y <;> cases z <;> simp
        rw [hx]

theorem addLead_inj_right (p q q' : List Bool) (hq : q.length = q'.length)
    (h : addLead p q = addLead p q') : q = q' := by
  induction p generalizing q q' with
  | nil => simpa [addLead_nil_left] using h
  | cons x p ih =>
    cases q with
    | nil =>
      cases q' with
      | nil => rfl
      | cons _ _ => simp at hq
    | cons y q =>
      cases q' with
      | nil => simp at hq
      | cons z q' =>
        simp only [addLead, List.cons.injEq] at h
        rw [ih q q' (by simpa using hq) h.2]
        have hx : y = z := by have := h.1; revert this; cases x <;> cases y <;> cases z <;> simp
        rw [hx]

theorem shiftBits_last {h : Bool} {t : List Bool} (ht : t.length = 31) : (shiftBits (h :: t)).getLast? = some h := by
  cases h with
  | false => simp [shiftBits]
  | true =>
    have hp : crcPoly.dropLast.length = 31 := by simp [crcPoly_length]
    simp only [shiftBits, if_true]
    rw [crcPoly_last, List.zipWith_append (by rw [hp, ht])]
    simp

theorem shiftBits_inj {a b : List Bool} (ha : a.length = 32) (hb : b.length = 32) (h : shiftBits a = shiftBits b) : a = b := by
  cases a with
  | nil => simp at ha
  | cons x a =>
    cases b with
    | nil => simp at hb
    | cons y b =>
      have ha' : a.length = 31 := by simpa using ha
      have hb' : b.length = 31 := by simpa using hb
      have hl : (some x : Option Bool) = some y := by rw [← shiftBits_last ha', ← shiftBits_last hb', h]
      injection hl with hl
      subst hl
      cases x with
      | false =>
        simp [shiftBits] at h
        rw [h]
      | true =>
        simp only [shiftBits, if_true] at h
        have := zipWith_xor_cancel _ _ _ (by simp [ha', crcPoly_length]) (by simp [hb', crcPoly_length]) h
        simp at this
        rw [this]

theorem shiftN_inj {n : Nat} {a b : List Bool} (ha : a.length = 32) (hb : b.length = 32) (h : shiftN n a = shiftN n b) : a = b := by
  induction n generalizing a b with
  | zero => exact h
  | succ n ih => exact shiftBits_inj ha hb (ih (shiftBits_length ha) (shiftBits_length hb) h)

/-- The register is not forgotten by feeding the same bits. -/
theorem feed_inj_state (m : List Bool) {a b : List Bool} (ha : a.length = 32) (hb : b.length = 32)
    (h : m.foldl feedBit a = m.foldl feedBit b) : a = b := by
  induction m generalizing a b with
  | nil => exact h
  | cons x m ih =>
    have := ih (shiftBits_length (by rw [addLead_length]; exact ha)) (shiftBits_length (by rw [addLead_length]; exact hb)) h
    have := shiftBits_inj (by rw [addLead_length]; exact ha) (by rw [addLead_length]; exact hb) this
    exact addLead_inj_right _ _ _ (by omega) this

/-- Up to 32 bits fed to the same register are recoverable. -/
theorem feed_inj_bits {m m' r : List Bool} (hr : r.length = 32) (hm : m.length ≤ 32) (hl : m.length = m'.length)
    (h : m.foldl feedBit r = m'.foldl feedBit r) : m = m' := by
  rw [← shiftN_add _ _ hr hm, ← shiftN_add _ _ hr (by omega), ← hl] at h
  have := shiftN_inj (by rw [addLead_length]; exact hr) (by rw [addLead_length]; exact hr) h
  exact addLead_inj_left _ _ _ hl (by omega) this

theorem byteBits_inj {a b : UInt8} (h : byteBits a = byteBits b) : a = b := by
  apply UInt8.toNat_inj.mp
  apply Nat.eq_of_testBit_eq
  intro i
  by_cases hi : i < 8
  · have := congrArg (fun l => l[i]?) h
    simpa [byteBits, hi] using this
  · rw [Nat.testBit_lt_two_pow (Nat.lt_of_lt_of_le a.toNat_lt (Nat.pow_le_pow_right (by omega) (by omega))),
      Nat.testBit_lt_two_pow (Nat.lt_of_lt_of_le b.toNat_lt (Nat.pow_le_pow_right (by omega) (by omega)))]

theorem messageBits_length (l : List UInt8) : (messageBits l).length = 8 * l.length := by
  induction l with
  | nil => rfl
  | cons a l ih =>
    have : messageBits (a :: l) = byteBits a ++ messageBits l := by simp [messageBits]
    rw [this, List.length_append, byteBits_length, ih, List.length_cons]
    omega

theorem messageBits_inj {a b : List UInt8} (hl : a.length = b.length) (h : messageBits a = messageBits b) : a = b := by
  induction a generalizing b with
  | nil =>
    cases b with
    | nil => rfl
    | cons _ _ => simp at hl
  | cons x a ih =>
    cases b with
    | nil => simp at hl
    | cons y b =>
      have e1 : messageBits (x :: a) = byteBits x ++ messageBits a := by simp [messageBits]
      have e2 : messageBits (y :: b) = byteBits y ++ messageBits b := by simp [messageBits]
      rw [e1, e2] at h
      have := List.append_inj h (by rw [byteBits_length, byteBits_length])
      rw [byteBits_inj this.1, ih (by simpa using hl) this.2]

theorem fold_inj_state {bytes : List UInt8} {a b : UInt32} (h : bytes.foldl crcByte a = bytes.foldl crcByte b) : a = b := by
  apply bits32_inj
  apply feed_inj_state (messageBits bytes) (bits32_length a) (bits32_length b)
  rw [← bits32_fold, ← bits32_fold, h]

theorem fold_inj_bytes {w w' : List UInt8} {a : UInt32} (h4 : w.length ≤ 4) (hl : w.length = w'.length)
    (h : w.foldl crcByte a = w'.foldl crcByte a) : w = w' := by
  apply messageBits_inj hl
  apply feed_inj_bits (bits32_length a) (by rw [messageBits_length]; omega) (by rw [messageBits_length, messageBits_length, hl])
  rw [← bits32_fold, ← bits32_fold, h]

theorem not_inj {a b : UInt32} (h : ~~~ a = ~~~ b) : a = b := by
  have := congrArg (fun x => ~~~ x) h
  simpa using this

/-- Writing the same bytes after different histories keeps them different. -/
theorem Hasher.write_inj {h h' : Hasher} {bytes : List UInt8} (e : h.write bytes = h'.write bytes) : h = h' := by
  cases h; cases h'
  simp only [Hasher.write, Hasher.mk.injEq] at e ⊢
  exact not_inj (fold_inj_state (not_inj e))

/-- Up to four bytes written after the same history are recoverable. -/
theorem Hasher.write_inj_bytes {h : Hasher} {w w' : List UInt8} (h4 : w.length ≤ 4) (hl : w.length = w'.length)
    (e : h.write w = h.write w') : w = w' := by
  simp only [Hasher.write, Hasher.mk.injEq] at e
  exact fold_inj_bytes h4 hl (not_inj e)

theorem Hasher.write_append (h : Hasher) (a b : List UInt8) : (h.write a).write b = h.write (a ++ b) := by
  simp [Hasher.write, List.foldl_append]

theorem Hasher.write_nil (h : Hasher) : h.write [] = h := by simp [Hasher.write]

theorem leBytesNat_length (n v : Nat) : (leBytesNat n v).length = n := by
  induction n generalizing v with
  | zero => rfl
  | succ n ih => simp [leBytesNat, ih]

theorem leBytesNat_inj {n a b : Nat} (h : leBytesNat n a = leBytesNat n b) : a % 256 ^ n = b % 256 ^ n := by
  induction n generalizing a b with
  | zero => simp [Nat.mod_one]
  | succ n ih =>
    simp only [leBytesNat, List.cons.injEq] at h
    have h1 := congrArg UInt8.toNat h.1
    simp at h1
    have h2 := ih h.2
    rw [Nat.pow_succ, Nat.mul_comm, Nat.mod_mul, Nat.mod_mul, h2]
    omega

theorem Hasher.writeU32_inj {h : Hasher} {a b : UInt32} (e : h.writeU32 a = h.writeU32 b) : a = b := by
  have := leBytesNat_inj (Hasher.write_inj_bytes (by rw [leBytesNat_length]; omega) (by rw [leBytesNat_length, leBytesNat_length]) e)
  rw [Nat.mod_eq_of_lt a.toNat_lt, Nat.mod_eq_of_lt b.toNat_lt] at this
  exact UInt32.toNat_inj.mp this

theorem Hasher.writeI32_inj {h : Hasher} {a b : Int} (e : h.writeI32 a = h.writeI32 b) : a % 2 ^ 32 = b % 2 ^ 32 := by
  have := leBytesNat_inj (Hasher.write_inj_bytes (by rw [leBytesNat_length]; omega) (by rw [leBytesNat_length, leBytesNat_length]) e)
  unfold wrapBits at this
  omega

theorem Hasher.writeU8_inj {h : Hasher} {a b : UInt8} (e : h.writeU8 a = h.writeU8 b) : a = b := by
  have := Hasher.write_inj_bytes (by simp) (by simp) e
  simpa using this

theorem leBytesNat_split (m n v : Nat) : leBytesNat (m + n) v = leBytesNat m v ++ leBytesNat n (v / 256 ^ m) := by
  induction m generalizing v with
  | zero => simp [leBytesNat]
  | succ m ih =>
    rw [Nat.add_right_comm, leBytesNat, leBytesNat, ih, List.cons_append, Nat.div_div_eq_div_mul, Nat.pow_succ, Nat.mul_comm (256 ^ m)]

/-- Two 64-bit words with the same upper half are told apart. -/
theorem Hasher.writeIsize_inj {h : Hasher} {a b : Int} (hi : a % 2 ^ 64 / 2 ^ 32 = b % 2 ^ 64 / 2 ^ 32)
    (e : h.writeIsize a = h.writeIsize b) : a % 2 ^ 64 = b % 2 ^ 64 := by
  unfold Hasher.writeIsize at e
  have hu : wrapBits 64 a / 256 ^ 4 = wrapBits 64 b / 256 ^ 4 := by unfold wrapBits; omega
  rw [leBytesNat_split 4 4, leBytesNat_split 4 4, ← Hasher.write_append, ← Hasher.write_append, hu] at e
  have := leBytesNat_inj (Hasher.write_inj_bytes (by rw [leBytesNat_length]; omega) (by rw [leBytesNat_length, leBytesNat_length]) (Hasher.write_inj e))
  unfold wrapBits at this
  omega

end Verif.Brass
