import Verif.Brass.Utf8

/-!
# Valid UTF-8 is left alone by `String::from_utf8_lossy`
-/

namespace Verif.Brass

theorem isCont_iff : ∀ b : UInt8, isCont b = true ↔ 0x80 ≤ b.toNat ∧ b.toNat < 0xC0 := by
  intro b
  have h : ∀ n : Fin 256, isCont (UInt8.ofNat n.val) = true ↔ 0x80 ≤ n.val ∧ n.val < 0xC0 := by decide +kernel
  have := h ⟨b.toNat, b.toNat_lt⟩
  simpa using this

theorem lossy1 {b : UInt8} (h : b.toNat < 0x80) (r : List UInt8) : fromUtf8Lossy (b :: r) = b :: fromUtf8Lossy r := by
  rw [fromUtf8Lossy.eq_def]
  have h1 : b < 0x80 := by rw [UInt8.lt_iff_toNat_lt]; exact h
  simp [h1]

theorem lossy2 {b c : UInt8} (h1 : 0xC2 ≤ b.toNat) (h2 : b.toNat ≤ 0xDF) (hc : 0x80 ≤ c.toNat ∧ c.toNat < 0xC0) (r : List UInt8) :
    fromUtf8Lossy (b :: c :: r) = b :: c :: fromUtf8Lossy r := by
  rw [fromUtf8Lossy.eq_def]
  have e1 : ¬ b < 0x80 := by rw [UInt8.lt_iff_toNat_lt]; show ¬ b.toNat < 128; omega
  have e2 : 0xC2 ≤ b := by rw [UInt8.le_iff_toNat_le]; exact h1
  have e3 : b ≤ 0xDF := by rw [UInt8.le_iff_toNat_le]; exact h2
  simp [e1, e2, e3, (isCont_iff c).2 hc]

theorem lossy3 {b c d : UInt8} (h1 : 0xE0 ≤ b.toNat) (h2 : b.toNat ≤ 0xEF) (hc : 0x80 ≤ c.toNat ∧ c.toNat < 0xC0)
    (hd : 0x80 ≤ d.toNat ∧ d.toNat < 0xC0) (h3 : b.toNat = 0xE0 → 0xA0 ≤ c.toNat) (h4 : b.toNat = 0xED → c.toNat ≤ 0x9F) (r : List UInt8) :
    fromUtf8Lossy (b :: c :: d :: r) = b :: c :: d :: fromUtf8Lossy r := by
  rw [fromUtf8Lossy.eq_def]
  have e1 : ¬ b < 0x80 := by rw [UInt8.lt_iff_toNat_lt]; show ¬ b.toNat < 128; omega
  have e3 : ¬ b ≤ 0xDF := by rw [UInt8.le_iff_toNat_le]; show ¬ b.toNat ≤ 0xDF; omega
  have e4 : 0xE0 ≤ b := by rw [UInt8.le_iff_toNat_le]; exact h1
  have e5 : b ≤ 0xEF := by rw [UInt8.le_iff_toNat_le]; exact h2
  have e6 : second3 b c = true := by
    unfold second3
    simp only [beq_iff_eq, ← UInt8.toNat_inj, UInt8.le_iff_toNat_le]
    have k1 : (0xE0 : UInt8).toNat = 0xE0 := rfl
    have k2 : (0xED : UInt8).toNat = 0xED := rfl
    have k3 : (0xA0 : UInt8).toNat = 0xA0 := rfl
    have k4 : (0xBF : UInt8).toNat = 0xBF := rfl
    have k5 : (0x80 : UInt8).toNat = 0x80 := rfl
    have k6 : (0x9F : UInt8).toNat = 0x9F := rfl
    rw [k1, k2, k3, k4, k5, k6]
    split
    · next h => simp only [Bool.and_eq_true, decide_eq_true_eq]; have := h3 h; omega
    · split
      · next h => simp only [Bool.and_eq_true, decide_eq_true_eq]; have := h4 h; omega
      · simp only [Bool.and_eq_true, decide_eq_true_eq]; omega
  simp [e1, e3, e4, e5, e6, (isCont_iff d).2 hd]

theorem lossy4 {b c d e : UInt8} (h1 : 0xF0 ≤ b.toNat) (h2 : b.toNat ≤ 0xF4) (hc : 0x80 ≤ c.toNat ∧ c.toNat < 0xC0)
    (hd : 0x80 ≤ d.toNat ∧ d.toNat < 0xC0) (he : 0x80 ≤ e.toNat ∧ e.toNat < 0xC0) (h3 : b.toNat = 0xF0 → 0x90 ≤ c.toNat)
    (h4 : b.toNat = 0xF4 → c.toNat ≤ 0x8F) (r : List UInt8) :
    fromUtf8Lossy (b :: c :: d :: e :: r) = b :: c :: d :: e :: fromUtf8Lossy r := by
  rw [fromUtf8Lossy.eq_2]
  have e1 : ¬ b < 0x80 := by rw [UInt8.lt_iff_toNat_lt]; show ¬ b.toNat < 128; omega
  have e3 : ¬ b ≤ 0xDF := by rw [UInt8.le_iff_toNat_le]; show ¬ b.toNat ≤ 0xDF; omega
  have e4 : ¬ b ≤ 0xEF := by rw [UInt8.le_iff_toNat_le]; show ¬ b.toNat ≤ 0xEF; omega
  have e5 : 0xF0 ≤ b := by rw [UInt8.le_iff_toNat_le]; exact h1
  have e7 : b ≤ 0xF4 := by rw [UInt8.le_iff_toNat_le]; exact h2
  have e6 : second4 b c = true := by
    unfold second4
    simp only [beq_iff_eq, ← UInt8.toNat_inj, UInt8.le_iff_toNat_le]
    have k1 : (0xF0 : UInt8).toNat = 0xF0 := rfl
    have k2 : (0xF4 : UInt8).toNat = 0xF4 := rfl
    have k3 : (0x90 : UInt8).toNat = 0x90 := rfl
    have k4 : (0xBF : UInt8).toNat = 0xBF := rfl
    have k5 : (0x80 : UInt8).toNat = 0x80 := rfl
    have k6 : (0x8F : UInt8).toNat = 0x8F := rfl
    rw [k1, k2, k3, k4, k5, k6]
    split
    · next h => simp only [Bool.and_eq_true, decide_eq_true_eq]; have := h3 h; omega
    · split
      · next h => simp only [Bool.and_eq_true, decide_eq_true_eq]; have := h4 h; omega
      · simp only [Bool.and_eq_true, decide_eq_true_eq]; omega
  simp [e1, e3, e4, e5, e6, e7, (isCont_iff d).2 hd, (isCont_iff e).2 he]

theorem ofNat8 {n : Nat} (h : n < 256) : (UInt8.ofNat n).toNat = n := UInt8.toNat_ofNat_of_lt' h

/-- One character. -/
theorem lossy_char (c : Char) (r : List UInt8) : fromUtf8Lossy (String.utf8EncodeChar c ++ r) = String.utf8EncodeChar c ++ fromUtf8Lossy r := by
  unfold String.utf8EncodeChar
  have hv : c.val.toNat < 0xD800 ∨ (0xDFFF < c.val.toNat ∧ c.val.toNat < 0x110000) := c.valid
  generalize c.val.toNat = v at hv
  simp only
  split
  · next h => exact lossy1 (by rw [ofNat8] <;> omega) r
  · split
    · next h =>
      have k1 := ofNat8 (n := v / 64 % 32 + 192) (by omega)
      have k2 := ofNat8 (n := v % 64 + 128) (by omega)
      exact lossy2 (by omega) (by omega) (by omega) r
    · split
      · next h =>
        have k1 := ofNat8 (n := v / 4096 % 16 + 224) (by omega)
        have k2 := ofNat8 (n := v / 64 % 64 + 128) (by omega)
        have k3 := ofNat8 (n := v % 64 + 128) (by omega)
        exact lossy3 (by omega) (by omega) (by omega) (by omega) (by omega) (by omega) r
      · next h =>
        have k1 := ofNat8 (n := v / 262144 % 8 + 240) (by omega)
        have k2 := ofNat8 (n := v / 4096 % 64 + 128) (by omega)
        have k3 := ofNat8 (n := v / 64 % 64 + 128) (by omega)
        have k4 := ofNat8 (n := v % 64 + 128) (by omega)
        exact lossy4 (by omega) (by omega) (by omega) (by omega) (by omega) (by omega) (by omega) r

theorem lossy_append (cs : List Char) (r : List UInt8) :
    fromUtf8Lossy (cs.flatMap String.utf8EncodeChar ++ r) = cs.flatMap String.utf8EncodeChar ++ fromUtf8Lossy r := by
  induction cs with
  | nil => rfl
  | cons c cs ih => rw [List.flatMap_cons, List.append_assoc, lossy_char, ih, List.append_assoc]

/-- The first byte of a character is not a continuation byte. -/
theorem utf8_first (c : Char) : ∃ b r, String.utf8EncodeChar c = b :: r ∧ isCont b = false := by
  unfold String.utf8EncodeChar
  have hv : c.val.toNat < 0xD800 ∨ (0xDFFF < c.val.toNat ∧ c.val.toNat < 0x110000) := c.valid
  generalize c.val.toNat = v at hv
  simp only
  have key : ∀ n, n < 256 → (n < 0x80 ∨ 0xC0 ≤ n) → isCont (UInt8.ofNat n) = false := by
    intro n h1 h2
    rw [← Bool.not_eq_true, isCont_iff, ofNat8 h1]; omega
  split
  · exact ⟨_, _, rfl, key _ (by omega) (by omega)⟩
  · split
    · exact ⟨_, _, rfl, key _ (by omega) (by omega)⟩
    · split
      · exact ⟨_, _, rfl, key _ (by omega) (by omega)⟩
      · exact ⟨_, _, rfl, key _ (by omega) (by omega)⟩

end Verif.Brass
