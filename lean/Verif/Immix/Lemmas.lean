import Verif.Spec.Heap

/-!
# Helper lemmas about the allocator model
-/

namespace Verif.Immix

open Verif

/-! ## Rounding and size classes -/

theorem and_not_seven (x : Nat) (hx : x < 2 ^ 64) : x &&& (2 ^ 64 - 1 - 7) = x / 8 * 8 := by
  have h1 : (2 ^ 64 - 1 - 7 : Nat) = (2 ^ 61 - 1) <<< 3 := by decide
  have h2 : x / 8 * 8 = (x >>> 3) <<< 3 := by
    rw [Nat.shiftRight_eq_div_pow, Nat.shiftLeft_eq]
  rw [h1, h2]
  apply Nat.eq_of_testBit_eq
  intro i
  simp only [Nat.testBit_and, Nat.testBit_shiftLeft, Nat.testBit_shiftRight, Nat.testBit_two_pow_sub_one]
  by_cases hi : 3 ≤ i
  · have e : 3 + (i - 3) = i := by omega
    rw [e]
    by_cases hb : i - 3 < 61
    · simp [hi, hb]
    · have : x.testBit i = false := Nat.testBit_lt_two_pow (Nat.lt_of_lt_of_le hx (Nat.pow_le_pow_right (by decide) (by omega)))
      simp [this]
  · simp [hi]

theorem allocSizeOf_fits (p : Profile) (n : Nat) (h : n + 7 < 2 ^ 64) : allocSizeOf p n = .ret (Spec.roundUp n) := by
  unfold allocSizeOf usizeAdd
  rw [WORD_eq]
  have : n + (8 - 1) < 2 ^ 64 := h
  rw [if_pos this]
  simp only [Rust.bind_ret]
  rw [show (2 ^ 64 - 1 - (8 - 1) : Nat) = 2 ^ 64 - 1 - 7 from rfl, and_not_seven _ this]
  rfl

theorem allocSizeOf_overflow (p : Profile) (n : Nat) (hn : n < 2 ^ 64) (h : ¬ n + 7 < 2 ^ 64) :
    allocSizeOf p n = match p with | .dev => .panic | .release => .ret 0 := by
  unfold allocSizeOf usizeAdd
  rw [WORD_eq]
  have h' : ¬ n + (8 - 1) < 2 ^ 64 := h
  rw [if_neg h']
  cases p with
  | dev => rfl
  | release =>
    simp only [Rust.bind_ret]
    rw [show (2 ^ 64 - 1 - (8 - 1) : Nat) = 2 ^ 64 - 1 - 7 from rfl, and_not_seven _ (Nat.mod_lt _ (by decide))]
    congr 1
    omega

theorem getForSize_eq (n : Nat) : getForSize n =
    if 1 ≤ n ∧ n ≤ 128 then .ok .small
    else if 129 ≤ n ∧ n ≤ 32752 then .ok .medium
    else if 32753 ≤ n ∧ n ≤ 4294967295 then .ok .large
    else .error .badRequest := by
  unfold getForSize
  rw [SMALL_OBJECT_MIN_eq, SMALL_OBJECT_MAX_eq, MEDIUM_OBJECT_MIN_eq, MEDIUM_OBJECT_MAX_eq, LARGE_OBJECT_MIN_eq,
    LARGE_OBJECT_MAX_eq]

/-! ## Bytes in memory -/

theorem writeBytes_outside (m : Mem) (a : Nat) (bs : List UInt8) (x : Nat) (h : x < a ∨ a + bs.length ≤ x) :
    writeBytes m a bs x = m x := by
  unfold writeBytes
  split
  · rw [List.getElem?_eq_none (by omega)]; rfl
  · rfl

theorem writeBytes_inside (m : Mem) (a : Nat) (bs : List UInt8) (i : Nat) (h : i < bs.length) :
    writeBytes m a bs (a + i) = bs[i] := by
  unfold writeBytes
  rw [if_pos (by omega), Nat.add_sub_cancel_left, List.getElem?_eq_getElem h]
  rfl

theorem readBytes_length (m : Mem) (a n : Nat) : (readBytes m a n).length = n := by simp [readBytes]

theorem readBytes_congr {m m' : Mem} {a n : Nat} (h : ∀ x, a ≤ x → x < a + n → m' x = m x) :
    readBytes m' a n = readBytes m a n := by
  unfold readBytes
  apply List.map_congr_left
  intro i hi
  have := List.mem_range.mp hi
  exact h _ (by omega) (by omega)

theorem readBytes_write_same (m : Mem) (a : Nat) (bs : List UInt8) : readBytes (writeBytes m a bs) a bs.length = bs := by
  apply List.ext_getElem
  · simp [readBytes]
  · intro i h1 h2
    simp only [readBytes, List.getElem_map, List.getElem_range]
    exact writeBytes_inside m a bs i h2

theorem readBytes_write_disjoint (m : Mem) (a n b : Nat) (bs : List UInt8)
    (h : a + n ≤ b ∨ b + bs.length ≤ a) : readBytes (writeBytes m b bs) a n = readBytes m a n := by
  apply readBytes_congr
  intro x h1 h2
  apply writeBytes_outside
  omega

/-- Writing inside an object overwrites that part of its contents. -/
theorem readBytes_write_sub (m : Mem) (a n off : Nat) (bs : List UInt8) (h : off + bs.length ≤ n) :
    readBytes (writeBytes m (a + off) bs) a n = Spec.overwrite (readBytes m a n) off bs := by
  apply List.ext_getElem
  · simp [readBytes, Spec.overwrite]; omega
  · intro i h1 h2
    simp only [readBytes_length] at h1
    simp only [Spec.overwrite, readBytes, List.getElem_map, List.getElem_range]
    by_cases c1 : i < off
    · rw [writeBytes_outside _ _ _ _ (by omega)]
      rw [List.getElem_append_left (by simp; omega), List.getElem_append_left (by simp; omega)]
      simp
    · by_cases c2 : i < off + bs.length
      · have e : a + i = a + off + (i - off) := by omega
        rw [e, writeBytes_inside _ _ _ _ (by omega)]
        rw [List.getElem_append_left (by simp; omega), List.getElem_append_right (by simp; omega)]
        simp; congr 1; omega
      · rw [writeBytes_outside _ _ _ _ (by omega)]
        rw [List.getElem_append_right (by simp; omega)]
        simp; congr 2; omega

theorem leBytes_length (n v : Nat) : (leBytes n v).length = n := by
  induction n generalizing v with
  | zero => rfl
  | succ n ih => simp [leBytes, ih]

end Verif.Immix
