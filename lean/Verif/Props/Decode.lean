import Verif.Brass.Trunc
import Verif.Brass.Indiff
import Verif.Spec.Encode

/-!
# Properties of the decoder as a whole (C23-C31, C38)
-/

namespace Verif.Brass

open Verif Verif.Brass.Spec

theorem EntryPoint.good {α : Type} (e : EntryPoint α) : Good e.run := by
  cases e
  case advance n => exact Good.advance n
  case readBytes n => exact Good.readBytes n
  case decodeUnsigned n => exact Good.decodeUnsigned n
  case decodeSigned n => exact Good.decodeSigned n
  case decodeF64 => exact Good.decodeF64
  case readIndex => exact Good.readIndex
  case index => exact Good.index
  case uindex => exact Good.uindex
  case readString => exact Good.readString
  case readUstring => exact Good.readUstring
  case getType => exact Good.getType
  case readType t => exact Good.readType t
  case readStrings n => exact Good.readStrings n
  case readFunction => exact Good.readFunction
  case readOpcode => exact Good.readOpcode
  case debugInfos p n => exact Good.debugInfos p n
  case read p => exact Good.readM p

/-- **C23** Every function consumes a prefix of the input and moves the position by its length, whether it returns `Ok`
or `Err`. -/
theorem c23_reads_prefix {α : Type} (e : EntryPoint α) (s s' : St) (h : (e.run s).state? = some s') :
    ∃ k, s.buf = k ++ s'.buf ∧ s'.pos = s.pos + k.length := e.good.reads s s' h

/-- **C23** Position plus remaining length never changes. -/
theorem c23_position_plus_remaining {α : Type} (e : EntryPoint α) (s s' : St) (h : (e.run s).state? = some s') :
    s'.pos + s'.buf.length = s.pos + s.buf.length ∧ s.pos ≤ s'.pos := by
  obtain ⟨k, h1, h2⟩ := c23_reads_prefix e s s' h
  rw [h1, h2, List.length_append]
  omega

/-- **C24** little-endian bytes and `from_le_bytes` -/
theorem leBytes_length : ∀ n v, (leBytes n v).length = n
  | 0, _ => rfl
  | n + 1, v => by simp [leBytes, leBytes_length n]

theorem leNat_leBytes : ∀ n v, v < 256 ^ n → leNat (leBytes n v) = v
  | 0, v, h => by simp at h; subst h; rfl
  | n + 1, v, h => by
    have : v / 256 < 256 ^ n := by
      rw [Nat.div_lt_iff_lt_mul (by decide)]; rwa [Nat.pow_succ] at h
    simp only [leBytes, leNat, leNat_leBytes n _ this]
    rw [UInt8.toNat_ofNat_of_lt' (by show v % 256 < 256; omega)]
    omega

theorem leBytes_leNat : ∀ k : List UInt8, leBytes k.length (leNat k) = k
  | [] => rfl
  | b :: k => by
    have h : b.toNat < 256 := b.toNat_lt
    simp only [List.length_cons, leBytes, leNat]
    rw [show (b.toNat + 256 * leNat k) % 256 = b.toNat by omega, show (b.toNat + 256 * leNat k) / 256 = leNat k by omega,
      leBytes_leNat k]
    simp

theorem leNat_lt : ∀ k : List UInt8, leNat k < 256 ^ k.length
  | [] => by simp [leNat]
  | b :: k => by
    have h : b.toNat < 256 := b.toNat_lt
    have := leNat_lt k
    simp only [List.length_cons, leNat, Nat.pow_succ]
    omega

theorem readBytes_ok (k rest : List UInt8) (s : St) (h : s.buf = k ++ rest) :
    readBytes k.length s = .ok k { s with buf := rest, pos := s.pos + k.length } := by
  unfold readBytes
  rw [h, if_neg (by simp)]
  simp

/-- **C24** `u8/u16/u32/u64::decode` (`n` = 1, 2, 4, 8) on the little-endian bytes of a value returns it and consumes
exactly its width. -/
theorem c24_unsigned (n v : Nat) (hv : v < 256 ^ n) (rest : List UInt8) (s : St) (h : s.buf = leBytes n v ++ rest) :
    decodeUnsigned n s = .ok v { s with buf := rest, pos := s.pos + n } := by
  have := readBytes_ok _ _ _ h
  rw [leBytes_length] at this
  unfold decodeUnsigned
  rw [M.bind_ok this, leNat_leBytes n v hv]; rfl

/-- **C24** the same for `i8/i16/i32/i64::decode`. -/
theorem c24_signed (n : Nat) (v : Int) (hlo : -(2 ^ (8 * n - 1) : Nat) ≤ v) (hhi : v < (2 ^ (8 * n - 1) : Nat)) (hn : 0 < n)
    (rest : List UInt8) (s : St) (h : s.buf = leBytesSigned n v ++ rest) :
    decodeSigned n s = .ok v { s with buf := rest, pos := s.pos + n } := by
  have hp : (2 : Nat) ^ (8 * n) = 2 ^ (8 * n - 1) * 2 := by rw [← Nat.pow_succ]; congr 1; omega
  have hp' : 256 ^ n = 2 ^ (8 * n) := by rw [show 256 = 2 ^ 8 by rfl, ← Nat.pow_mul]
  have hpos : 0 < 2 ^ (8 * n - 1) := Nat.pow_pos (by decide)
  have := readBytes_ok _ _ _ h
  unfold leBytesSigned at this
  rw [leBytes_length] at this
  unfold decodeSigned
  rw [M.bind_ok this]
  have hm0 : 0 ≤ v % ((2 ^ (8 * n) : Nat) : Int) := Int.emod_nonneg _ (by omega)
  have hm1 : v % ((2 ^ (8 * n) : Nat) : Int) < (2 ^ (8 * n) : Nat) := Int.emod_lt_of_pos _ (by omega)
  rw [leNat_leBytes n _ (by rw [hp']; omega)]
  show Out.ok _ _ = _
  congr 1
  unfold toSigned
  generalize hM : 2 ^ (8 * n) = M at *
  generalize hH : 2 ^ (8 * n - 1) = H at *
  have e : ((2 : Int) ^ (8 * n)) = ((M : Nat) : Int) := by rw [← hM]; push_cast; rfl
  rw [e]
  by_cases hv : 0 ≤ v
  · have : v % (M : Int) = v := Int.emod_eq_of_lt hv (by omega)
    rw [this, if_pos (by omega)]
    omega
  · have : v % (M : Int) = v + M := by
      have := Int.emod_eq_of_lt (a := v + M) (b := M) (by omega) (by omega)
      rw [← this, Int.add_emod_right]
    rw [this, if_neg (by omega)]
    omega

/-- **C24** `f64::decode` returns the 64 bits unchanged. -/
theorem c24_f64 (bits : Nat) (hv : bits < 2 ^ 64) (rest : List UInt8) (s : St) (h : s.buf = leBytes 8 bits ++ rest) :
    decodeF64 s = .ok bits { s with buf := rest, pos := s.pos + 8 } := c24_unsigned 8 bits (by omega) rest s h

/-- **C24** With too few bytes nothing is consumed and `NoMoreData` is returned at the current position. -/
theorem c24_short (n : Nat) (s : St) (h : s.buf.length < n) :
    decodeUnsigned n s = .err { kind := .noMoreData, position := s.pos } s ∧
    decodeSigned n s = .err { kind := .noMoreData, position := s.pos } s ∧
    (n = 8 → decodeF64 s = .err { kind := .noMoreData, position := s.pos } s) := by
  have : readBytes n s = .err { kind := .noMoreData, position := s.pos } s := by unfold readBytes; rw [if_pos h]
  refine ⟨M.bind_err this, M.bind_err this, ?_⟩
  rintro rfl
  exact M.bind_err this

/-- **C24** Every `n` bytes are the encoding of the value they decode to. -/
theorem c24_surjective (k rest : List UInt8) (s : St) (h : s.buf = k ++ rest) :
    ∃ v, v < 256 ^ k.length ∧ leBytes k.length v = k ∧
      decodeUnsigned k.length s = .ok v { s with buf := rest, pos := s.pos + k.length } :=
  ⟨leNat k, leNat_lt k, leBytes_leNat k, c24_unsigned _ _ (leNat_lt k) rest s (by rw [leBytes_leNat]; exact h)⟩

theorem ofNat_toNat {n : Nat} (h : n < 256) : (UInt8.ofNat n).toNat = n := UInt8.toNat_ofNat_of_lt' h

/-- The HashLink encoding of a small number is an index of the grammar, with that value. -/
theorem hlIndex_idx (n : Int) (h : n.natAbs < 0x2000) : IdxBytes (hlIndex n) n := by
  unfold hlIndex
  simp only
  generalize hm : n.natAbs = m at h
  split
  · next hn =>
    have h1 := ofNat_toNat (n := m / 256 + 0xA0) (by omega)
    have h2 := ofNat_toNat (n := m % 256) (by omega)
    have := IdxBytes.mediumNeg (UInt8.ofNat (m / 256 + 0xA0)) (UInt8.ofNat (m % 256)) (by omega) (by omega)
    rw [h1, h2] at this
    have e : -((((m / 256 + 0xA0 - 0xA0) * 256 + m % 256 : Nat)) : Int) = n := by omega
    rw [e] at this
    exact this
  · next hn =>
    split
    · next h0 =>
      have h1 := ofNat_toNat (n := m) (by omega)
      have := IdxBytes.short (UInt8.ofNat m) (by omega)
      rw [h1] at this
      rwa [show ((m : Nat) : Int) = n by omega] at this
    · next h0 =>
      have h1 := ofNat_toNat (n := m / 256 + 0x80) (by omega)
      have h2 := ofNat_toNat (n := m % 256) (by omega)
      have := IdxBytes.mediumPos (UInt8.ofNat (m / 256 + 0x80)) (UInt8.ofNat (m % 256)) (by omega) (by omega)
      rw [h1, h2] at this
      have e : ((((m / 256 + 0x80 - 0x80) * 256 + m % 256 : Nat)) : Int) = n := by omega
      rw [e] at this
      exact this

/-- **C25** `read_index` applied to the HashLink encoding of `n` returns `n` and consumes exactly the encoding, if
`|n| < 0x2000`. -/
theorem c25_small (n : Int) (h : n.natAbs < 0x2000) (rest : List UInt8) (s : St) (hs : s.buf = hlIndex n ++ rest) :
    readIndex s = .ok n { s with buf := rest, pos := s.pos + (hlIndex n).length } := by
  obtain ⟨sb, sp, sc, se⟩ := s
  simp only at hs
  subst hs
  have h0 := Sem.readIndex.complete sc (hlIndex n) n sc trivial ⟨rfl, hlIndex_idx n h⟩ rest sp
  exact Indiff.readIndex _ _ _ h0 rfl se

/-- **C25** (the defect) For every larger number HashLink can represent, `read_index` consumes the four bytes of the
encoding but returns a different number. -/
theorem c25_large_wrong (n : Int) (h1 : 0x2000 ≤ n.natAbs) (h2 : n.natAbs < 2 ^ 29) (rest : List UInt8) (s : St)
    (hs : s.buf = hlIndex n ++ rest) :
    ∃ m, m ≠ n ∧ readIndex s = .ok m { s with buf := rest, pos := s.pos + 4 } := by
  obtain ⟨sb, sp, sc, se⟩ := s
  simp only at hs
  subst hs
  have main : ∃ b x y z m, hlIndex n = [b, x, y, z] ∧ 0xC0 ≤ b.toNat ∧ m ≠ n ∧
      m = toSigned 32 (b.toNat + 256 * (x.toNat + 256 * (y.toNat + 256 * z.toNat))) := by
    unfold hlIndex
    simp only
    generalize hm : n.natAbs = m at *
    have e2 := ofNat_toNat (n := m / 0x10000 % 256) (by omega)
    have e3 := ofNat_toNat (n := m / 256 % 256) (by omega)
    have e4 := ofNat_toNat (n := m % 256) (by omega)
    split
    · rw [if_neg (by omega)]
      have e1 := ofNat_toNat (n := m / 0x1000000 + 0xE0) (by omega)
      refine ⟨_, _, _, _, _, rfl, by omega, ?_, rfl⟩
      rw [e1, e2, e3, e4]
      unfold toSigned
      simp only [Nat.reduceSub, Nat.reducePow, Int.reducePow]
      clear e1 e2 e3 e4
      have hb : m = m % 256 + 256 * (m / 256 % 256) + 65536 * (m / 65536 % 256) + 16777216 * (m / 16777216) := by omega
      have b0 : m % 256 < 256 := by omega
      have b1 : m / 256 % 256 < 256 := by omega
      have b2 : m / 65536 % 256 < 256 := by omega
      have b3 : m / 16777216 < 32 := by omega
      generalize m % 256 = x0 at *
      generalize m / 256 % 256 = x1 at *
      generalize m / 65536 % 256 = x2 at *
      generalize m / 16777216 = x3 at *
      split <;> omega
    · rw [if_neg (by omega), if_neg (by omega)]
      have e1 := ofNat_toNat (n := m / 0x1000000 + 0xC0) (by omega)
      refine ⟨_, _, _, _, _, rfl, by omega, ?_, rfl⟩
      rw [e1, e2, e3, e4]
      unfold toSigned
      simp only [Nat.reduceSub, Nat.reducePow, Int.reducePow]
      clear e1 e2 e3 e4
      have hb : m = m % 256 + 256 * (m / 256 % 256) + 65536 * (m / 65536 % 256) + 16777216 * (m / 16777216) := by omega
      have b0 : m % 256 < 256 := by omega
      have b1 : m / 256 % 256 < 256 := by omega
      have b2 : m / 65536 % 256 < 256 := by omega
      have b3 : m / 16777216 < 32 := by omega
      generalize m % 256 = x0 at *
      generalize m / 256 % 256 = x1 at *
      generalize m / 65536 % 256 = x2 at *
      generalize m / 16777216 = x3 at *
      split <;> omega
  obtain ⟨b, x, y, z, m, h3, h4, h5, h6⟩ := main
  refine ⟨m, h5, ?_⟩
  have := Sem.readIndex.complete sc [b, x, y, z] m sc trivial ⟨rfl, h6 ▸ IdxBytes.long b x y z h4⟩ rest sp
  rw [h3]
  exact Indiff.readIndex _ _ _ this rfl se

example : hlIndex 5 = [5] ∧ hlIndex (-5) = [0xA0, 5] ∧ hlIndex 0x1234 = [0x92, 0x34] ∧ hlIndex 0x12345 = [0xC0, 1, 0x23, 0x45] := by
  decide

/-! ## Header -/

/-- One byte, as `u8::decode(..).unwrap()` reads it. -/
theorem byte_eq (b : UInt8) (r : List UInt8) (pos : Nat) (c : Code) (e) :
    M.unwrap decodeU8 ⟨b :: r, pos, c, e⟩ = .ok b.toNat ⟨r, pos + 1, c, e⟩ := by
  unfold M.unwrap; rw [Sem.decodeU8_eq]

theorem toNat_ne {b c : UInt8} (h : b ≠ c) : b.toNat ≠ c.toNat := fun e => h (UInt8.toNat_inj.1 e)

/-- **C26** A wrong magic byte is reported as `InvalidBytecodeHeader`, at the number of bytes read so far (the wrong one
included), whatever else the file contains and whatever error is recorded. -/
theorem c26_bad_magic (p : Profile) (e : Option DecodeError) (rest : List UInt8) :
    (∀ h : UInt8, h ≠ 0x48 → ∃ s, Code.read p e (h :: rest) = .err { kind := .invalidBytecodeHeader, position := 1 } s) ∧
    (∀ l : UInt8, l ≠ 0x4C → ∃ s, Code.read p e (0x48 :: l :: rest) = .err { kind := .invalidBytecodeHeader, position := 2 } s) ∧
    (∀ b : UInt8, b ≠ 0x42 → ∃ s, Code.read p e (0x48 :: 0x4C :: b :: rest) = .err { kind := .invalidBytecodeHeader, position := 3 } s) := by
  refine ⟨fun h hh => ?_, fun l hl => ?_, fun b hb => ?_⟩
  · refine ⟨⟨rest, 1, Code.new, e⟩, ?_⟩
    unfold Code.read readM
    refine M.bind_err ?_
    unfold readMagic St.new
    rw [M.bind_ok (byte_eq h _ 0 _ e), if_pos (show h.toNat ≠ 72 from toNat_ne hh)]
    rfl
  · refine ⟨⟨rest, 2, Code.new, e⟩, ?_⟩
    unfold Code.read readM
    refine M.bind_err ?_
    unfold readMagic St.new
    rw [M.bind_ok (byte_eq 0x48 _ 0 _ e), if_neg (by decide), M.bind_ok (byte_eq l _ 1 _ e), if_pos (show l.toNat ≠ 76 from toNat_ne hl)]
    rfl
  · refine ⟨⟨rest, 3, Code.new, e⟩, ?_⟩
    unfold Code.read readM
    refine M.bind_err ?_
    unfold readMagic St.new
    rw [M.bind_ok (byte_eq 0x48 _ 0 _ e), if_neg (by decide), M.bind_ok (byte_eq 0x4C _ 1 _ e), if_neg (by decide),
      M.bind_ok (byte_eq b _ 2 _ e), if_pos (show b.toNat ≠ 66 from toNat_ne hb)]
    rfl

theorem readMagic_ok (v : UInt8) (rest : List UInt8) (e : Option DecodeError) :
    readMagic (St.new (0x48 :: 0x4C :: 0x42 :: v :: rest) e) = .ok () ⟨v :: rest, 3, Code.new, e⟩ := by
  unfold readMagic St.new
  rw [M.bind_ok (byte_eq 0x48 _ 0 _ e), if_neg (by decide), M.bind_ok (byte_eq 0x4C _ 1 _ e), if_neg (by decide),
    M.bind_ok (byte_eq 0x42 _ 2 _ e), if_neg (by decide)]
  rfl

/-- **C26** A version outside `2..=5` is reported as `UnsupportedBytecodeVersion` at position 4. -/
theorem c26_bad_version (p : Profile) (e : Option DecodeError) (v : UInt8) (hv : v.toNat ≤ 1 ∨ 5 < v.toNat) (rest : List UInt8) :
    ∃ s, Code.read p e (0x48 :: 0x4C :: 0x42 :: v :: rest) = .err { kind := .unsupportedBytecodeVersion, position := 4 } s := by
  refine ⟨⟨rest, 4, Code.new, e⟩, ?_⟩
  unfold Code.read readM
  rw [M.bind_ok (readMagic_ok v rest e)]
  refine M.bind_err ?_
  unfold readVersion
  rw [M.bind_ok (byte_eq v rest 3 _ e), if_pos (by omega)]
  rfl

/-- **C26** An input that ends before the version makes `Code::read` panic, unless a wrong byte was met before. -/
theorem c26_header_cut_short (p : Profile) (e : Option DecodeError) :
    Code.read p e [] = .panic ∧ Code.read p e [0x48] = .panic ∧ Code.read p e [0x48, 0x4C] = .panic ∧
    Code.read p e [0x48, 0x4C, 0x42] = .panic := by
  refine ⟨rfl, rfl, rfl, rfl⟩

/-- **C26** Conversely, whatever `Code::read` accepts starts with `HLB` and a version from 2 to 5. -/
theorem c26_accepted (p : Profile) (e : Option DecodeError) (buf : List UInt8) (c : Code) (s : St)
    (h : Code.read p e buf = .ok c s) : ∃ v rest, buf = 0x48 :: 0x4C :: 0x42 :: v :: rest ∧ 2 ≤ v.toNat ∧ v.toNat ≤ 5 := by
  rcases buf with _ | ⟨h0, buf⟩
  · cases (c26_header_cut_short p e).1.symm.trans h
  by_cases e0 : h0 = 0x48
  case neg => obtain ⟨s', h'⟩ := (c26_bad_magic p e buf).1 h0 e0; cases h'.symm.trans h
  subst e0
  rcases buf with _ | ⟨h1, buf⟩
  · cases (c26_header_cut_short p e).2.1.symm.trans h
  by_cases e1 : h1 = 0x4C
  case neg => obtain ⟨s', h'⟩ := (c26_bad_magic p e buf).2.1 h1 e1; cases h'.symm.trans h
  subst e1
  rcases buf with _ | ⟨h2, buf⟩
  · cases (c26_header_cut_short p e).2.2.1.symm.trans h
  by_cases e2 : h2 = 0x42
  case neg => obtain ⟨s', h'⟩ := (c26_bad_magic p e buf).2.2 h2 e2; cases h'.symm.trans h
  subst e2
  rcases buf with _ | ⟨v, buf⟩
  · cases (c26_header_cut_short p e).2.2.2.symm.trans h
  refine ⟨v, buf, rfl, ?_⟩
  by_cases hv : v.toNat ≤ 1 ∨ 5 < v.toNat
  · obtain ⟨s', h'⟩ := c26_bad_version p e v hv buf; cases h'.symm.trans h
  · omega

/-! ## Errors -/

theorem checked_none {α : Type} {x : M α} {s s' : St} {a : α} (h : checked x s = .ok a s') : s'.errors = none := by
  unfold checked at h
  obtain ⟨b, s1, h1, h2⟩ := M.bind_eq_ok h
  obtain ⟨_, s2, h3, h4⟩ := M.bind_eq_ok h2
  unfold M.checkError at h3
  split at h3 <;> cases h3
  cases h4
  assumption

theorem readConstants_none : ∀ (n a : Nat) (c d : Code) (s s' : St), s.errors = none →
    M.forRange readConstantsStep a n c s = .ok d s' → s'.errors = none
  | 0, _, _, _, _, _, he, h => by cases h; exact he
  | n + 1, a, c, d, s, s', he, h => by
    obtain ⟨c1, s1, h1, h2⟩ := M.bind_eq_ok h
    refine readConstants_none n (a + 1) c1 d s1 s' ?_ h2
    unfold readConstantsStep at h1
    obtain ⟨k, s2, h3, h4⟩ := M.bind_eq_ok h1
    obtain ⟨v, s3, h5, h6⟩ := M.bind_eq_ok h4
    obtain ⟨_, s4, h7, h8⟩ := M.bind_eq_ok h6
    cases h8; cases h7
    have := checked_none h3
    unfold M.insertAt at h5
    split at h5 <;> cases h5
    exact this

theorem readM_ok_errors (p : Profile) (s s' : St) (c : Code) (h : readM p s = .ok c s') : s.errors = none ∧ s'.errors = none := by
  have : s'.errors = none := by
    unfold readM at h
    obtain ⟨_, _, _, h⟩ := M.bind_eq_ok h
    obtain ⟨_, _, _, h⟩ := M.bind_eq_ok h
    obtain ⟨_, _, _, h⟩ := M.bind_eq_ok h
    obtain ⟨_, _, _, h⟩ := M.bind_eq_ok h
    obtain ⟨_, _, _, h⟩ := M.bind_eq_ok h
    obtain ⟨_, _, _, h⟩ := M.bind_eq_ok h
    obtain ⟨_, _, _, h⟩ := M.bind_eq_ok h
    obtain ⟨_, _, _, h⟩ := M.bind_eq_ok h
    obtain ⟨_, _, _, h⟩ := M.bind_eq_ok h
    obtain ⟨_, _, h1, h⟩ := M.bind_eq_ok h
    obtain ⟨_, _, h2, h⟩ := M.bind_eq_ok h
    cases h
    exact readConstants_none _ _ _ _ _ _ (checked_none h1) h2
  exact ⟨(Good.readM p).none_of h this, this⟩

/-- **C29** `Code::read` returns `Ok` only if no error was recorded before the call and none is recorded after it. -/
theorem c29_ok_no_error (p : Profile) (e : Option DecodeError) (buf : List UInt8) (c : Code) (s : St)
    (h : Code.read p e buf = .ok c s) : e = none ∧ s.errors = none := readM_ok_errors p _ _ _ h

/-- **C29** An error recorded by any function stays recorded through every later function; so if any function called on
the way to `Ok` had recorded an error, `c29_ok_no_error` would fail. -/
theorem c29_sticky {α : Type} (e : EntryPoint α) (s s' : St) (h : (e.run s).state? = some s') (he : s.errors.isSome) :
    s'.errors.isSome := e.good.sticky s s' h he

/-- **C38** The exact set of accepted files: `Code::read` returns `Ok(c)` exactly if no error was recorded before and the
input starts with a file of the grammar (`Spec/Grammar.lean`), in which every string, type and debug-file reference is in
range, every count is non-negative and every kind and opcode byte is valid; `c` is the module the grammar gives it and
exactly the file is consumed. -/
theorem c38_accepts_exactly_the_grammar (p : Profile) (e : Option DecodeError) (buf : List UInt8) (c : Code) (s : St) :
    Code.read p e buf = .ok c s ↔
      e = none ∧ ∃ k rest, buf = k ++ rest ∧ fileG p noCode k c s.code ∧ s = ⟨rest, k.length, s.code, none⟩ := by
  constructor
  · intro h
    obtain ⟨h1, h2⟩ := c29_ok_no_error p e buf c s h
    obtain ⟨_, k, h3, h4, h5⟩ := (Sem.readM p).sound _ _ _ trivial h h2
    refine ⟨h1, k, s.buf, h3, h5, ?_⟩
    simp only [St.new, Nat.zero_add] at h4
    rw [← h4, ← h2]
  · rintro ⟨rfl, k, rest, rfl, h, hs⟩
    have := (Sem.readM p).complete _ _ _ _ trivial h rest 0
    rw [Nat.zero_add, ← hs] at this
    exact this

/-- **C38** in the other direction: a reference that is out of range leaves an error recorded (or panics), so by C29 the
whole read cannot succeed. -/
theorem c38_bad_type_reference (i : Int) (s s' : St) (k rest : List UInt8) (t : ValueType) (hk : IdxBytes k i)
    (hb : s.buf = k ++ rest) (hbad : i < 0 ∨ (s.code.ntypes : Int) ≤ i) (h : getType s = .ok t s') : s'.errors.isSome := by
  cases he : s'.errors with
  | some _ => rfl
  | none =>
    obtain ⟨h0, k1, h1, h2, hc, h3, j, h4, h5, h6⟩ := Sem.getType.sound _ _ _ trivial h he
    exfalso
    have e1 := Sem.readIndex.complete s.code k1 (j : Int) s.code trivial ⟨rfl, h4⟩ s'.buf s.pos
    have e2 := Sem.readIndex.complete s.code k i s.code trivial ⟨rfl, hk⟩ rest s.pos
    rw [← h1] at e1
    rw [← hb, e1] at e2
    injection e2 with e2 _
    omega

theorem c38_bad_string_reference (i : Int) (s s' : St) (k rest : List UInt8) (t : Str) (hk : IdxBytes k i)
    (hb : s.buf = k ++ rest) (hbad : i < 0 ∨ (s.code.nstrings : Int) ≤ i)
    (h : readString s = .ok t s' ∨ readUstring s = .ok t s') : s'.errors.isSome := by
  cases he : s'.errors with
  | some _ => rfl
  | none =>
    have main : ∃ k1 : List UInt8, ∃ j : Nat, s.buf = k1 ++ s'.buf ∧ IdxBytes k1 j ∧ j < s.code.nstrings := by
      rcases h with h | h
      · obtain ⟨h0, k1, h1, h2, h7, h3, j, h4, h5, h6⟩ := Sem.readString.sound _ _ _ trivial h he
        exact ⟨k1, j, h1, h4, h5⟩
      · obtain ⟨h0, k1, h1, h2, h3, j, h4, h5, h6⟩ := Sem.readUstring.sound _ _ _ trivial h he
        exact ⟨k1, j, h1, h4, h5⟩
    obtain ⟨k1, j, h1, h4, h5⟩ := main
    exfalso
    have e1 := Sem.readIndex.complete s.code k1 (j : Int) s.code trivial ⟨rfl, h4⟩ s'.buf s.pos
    have e2 := Sem.readIndex.complete s.code k i s.code trivial ⟨rfl, hk⟩ rest s.pos
    rw [← h1] at e1
    rw [← hb, e1] at e2
    injection e2 with e2 _
    omega

theorem c38_negative_count (i : Int) (s s' : St) (k rest : List UInt8) (n : Nat) (hk : IdxBytes k i)
    (hb : s.buf = k ++ rest) (hbad : i < 0) (h : uindex s = .ok n s') : s'.errors.isSome := by
  cases he : s'.errors with
  | some _ => rfl
  | none =>
    obtain ⟨h0, k1, h1, h2, h3, h4⟩ := Sem.uindex.sound _ _ _ trivial h he
    exfalso
    have e1 := Sem.readIndex.complete s.code k1 (n : Int) s.code trivial ⟨rfl, h4⟩ s'.buf s.pos
    have e2 := Sem.readIndex.complete s.code k i s.code trivial ⟨rfl, hk⟩ rest s.pos
    rw [← h1] at e1
    rw [← hb, e1] at e2
    injection e2 with e2 _
    omega

/-- **C38** an invalid type kind -/
theorem c38_bad_type_kind (b : UInt8) (hb : 23 ≤ b.toNat) (s s' : St) (rest : List UInt8) (t : ValueType)
    (h0 : s.buf = b :: rest) (h : readType noType s = .ok t s') : s'.errors.isSome := by
  rw [noType_eq] at h
  cases he : s'.errors with
  | some _ => rfl
  | none =>
    obtain ⟨_, k, h1, h2, h3⟩ := Sem.readType.sound _ _ _ trivial h he
    obtain ⟨_, k2, v, _, rfl, ⟨rfl, x, rfl, rfl⟩, _, _, _, _, rfl, ⟨rfl, h4, rfl⟩, _⟩ := h3
    rw [h0] at h1
    simp at h1
    obtain ⟨rfl, _⟩ := h1
    omega

/-- **C31** If `Code::read` accepts `buf`, it accepts `buf` followed by anything, with the same result, and leaves what
follows. -/
theorem c31_trailing_ignored (p : Profile) (e : Option DecodeError) (buf z : List UInt8) (c : Code) (s : St)
    (h : Code.read p e buf = .ok c s) : Code.read p e (buf ++ z) = .ok c { s with buf := s.buf ++ z } :=
  (Good.readM p).ext _ _ _ z h (c29_ok_no_error p e buf c s h).2

/-- **C31** What is accepted depends only on the bytes consumed. -/
theorem c31_depends_on_consumed (p : Profile) (e : Option DecodeError) (k rest z : List UInt8) (c : Code) (s : St)
    (h : Code.read p e (k ++ rest) = .ok c s) (hr : s.buf = rest) : Code.read p e (k ++ z) = .ok c { s with buf := z } :=
  (Trunc.readM p).loc _ _ _ k h (c29_ok_no_error p e _ c s h).2 (by rw [hr]; rfl) z

/-- **C27/C31** On every strict truncation of the consumed part of an accepted file, `Code::read` panics or returns
`Err(NoMoreData)`: it is never accepted, and never reported as anything else. -/
theorem c27_truncation (p : Profile) (e : Option DecodeError) (buf k' k'' : List UInt8) (c : Code) (s : St)
    (h : Code.read p e buf = .ok c s) (hb : buf = k' ++ k'' ++ s.buf) (ne : k'' ≠ []) :
    Code.read p e k' = .panic ∨ ∃ er s1, er.kind = .noMoreData ∧ Code.read p e k' = .err er s1 := by
  rcases (Trunc.readM p).cut _ _ _ (k' ++ k'') h (c29_ok_no_error p e _ c s h).2 hb k' k'' rfl ne with h | ⟨_, h⟩
  · exact .inl h
  · exact .inr h

/-- **C27** (the defect) `Code::read` panics on malformed input, for instance on every strict prefix of a header. -/
theorem c27_panics (p : Profile) (e : Option DecodeError) : Code.read p e [] = .panic := rfl

/-- **C30** (the defect) Once an error is recorded, `Code::read` never returns `Ok` again, whatever the input. -/
theorem c30_poisoned_never_ok (p : Profile) (e : DecodeError) (buf : List UInt8) (c : Code) (s : St) :
    Code.read p (some e) buf ≠ .ok c s := by
  intro h
  cases (c29_ok_no_error p _ buf c s h).1

/-- **C30** Once an error `e` is recorded, every file with a good header and complete counts is rejected with that very
error, right after the counts. -/
theorem c30_poisoned_stale_error (p : Profile) (e : DecodeError) (v : UInt8) (hv : 2 ≤ v.toNat ∧ v.toNat ≤ 5) (k rest : List UInt8) (c : Code)
    (hk : countsG v.toNat noCode k c noCode) :
    ∃ s, Code.read p (some e) (0x48 :: 0x4C :: 0x42 :: v :: k ++ rest) = .err e s ∧ s.pos = 4 + k.length := by
  have h0 := (Sem.readCounts v.toNat).complete Code.new k c Code.new trivial hk rest 4
  have h1 := Indiff.readCounts v.toNat _ _ _ h0 rfl (some e)
  refine ⟨⟨rest, 4 + k.length, Code.new, some e⟩, ?_, rfl⟩
  unfold Code.read readM
  rw [List.cons_append, List.cons_append, List.cons_append, List.cons_append, M.bind_ok (readMagic_ok v _ (some e))]
  have h2 : readVersion ⟨v :: (k ++ rest), 3, Code.new, some e⟩ = .ok v.toNat ⟨k ++ rest, 4, Code.new, some e⟩ := by
    unfold readVersion
    rw [M.bind_ok (byte_eq v _ 3 _ _), if_neg (by omega)]
    rfl
  rw [M.bind_ok h2]
  refine M.bind_err ?_
  unfold checked
  rw [M.bind_ok h1]
  refine M.bind_err rfl

/-- **C30** After a read that returned `Ok`, the next one behaves as the first one in the process. -/
theorem c30_after_ok (p : Profile) (buf buf' : List UInt8) (c : Code) (s : St) (h : Code.read p none buf = .ok c s) :
    Code.read p s.errors buf' = Code.read p none buf' := by
  rw [(c29_ok_no_error p none buf c s h).2]

end Verif.Brass
