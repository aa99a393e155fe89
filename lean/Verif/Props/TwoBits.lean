import Verif.Brass.CrcOrder
import Verif.Props.Hash

/-!
# Which changes of a byte string the hash detects (C47)

The bits of a string are numbered in the order in which CRC-32 reads them: bit `8 * n + i` is bit `i`, from the least
significant, of byte `n` (`messageBits`, `Spec/Crc.lean`).
-/

namespace Verif.Brass

open Verif Verif.Spec Verif.Brass.Spec

/-- Hashes are equal exactly if the bits leave the same register. -/
theorem crc_eq_iff (a b : List UInt8) :
    crc a = crc b ↔ (messageBits a).foldl feedBit (bits32 (~~~ 0)) = (messageBits b).foldl feedBit (bits32 (~~~ 0)) := by
  rw [crc_fun, ← bits32_fold, ← bits32_fold]
  constructor
  · intro h
    rw [not_inj (a := a.foldl crcByte (~~~ 0)) (b := b.foldl crcByte (~~~ 0)) h]
  · intro h
    have := bits32_inj h
    show ~~~ (a.foldl crcByte (~~~ 0)) = ~~~ (b.foldl crcByte (~~~ 0))
    rw [this]

/-- **C47** Two strings that differ only in a burst of at most 32 bits, wherever it begins, have different hashes. -/
theorem c47_burst_detected (a b : List UInt8) (pre w w' post : List Bool) (ha : messageBits a = pre ++ w ++ post)
    (hb : messageBits b = pre ++ w' ++ post) (hl : w.length = w'.length) (h32 : w.length ≤ 32) (hne : w ≠ w') : crc a ≠ crc b := by
  rw [Ne, crc_eq_iff, ha, hb]
  simp only [List.foldl_append]
  intro h
  have hp : (pre.foldl feedBit (bits32 (~~~ 0))).length = 32 := feed_length (bits32_length _)
  exact hne (feed_inj_bits hp h32 hl (feed_inj_state post (feed_length hp) (feed_length hp) h))

/-- A list around two of its positions. -/
theorem split_two {l : List Bool} {i j : Nat} (hij : i < j) (hj : j < l.length) :
    ∃ p q r x y, l = p ++ x :: (q ++ y :: r) ∧ p.length = i ∧ q.length = j - i - 1 := by
  refine ⟨l.take i, (l.drop (i + 1)).take (j - i - 1), l.drop (j + 1), l[i], l[j], ?_, ?_, ?_⟩
  · have h1 : l.drop (i + 1) = (l.drop (i + 1)).take (j - i - 1) ++ l[j] :: l.drop (j + 1) := by
      have := (List.take_append_drop (j - i - 1) (l.drop (i + 1))).symm
      rw [List.drop_drop, show i + 1 + (j - i - 1) = j by omega, List.drop_eq_getElem_cons (i := j) hj] at this
      exact this
    have h2 := (List.take_append_drop i l).symm
    rw [List.drop_eq_getElem_cons (i := i) (by omega)] at h2
    rw [← h1]
    exact h2
  · rw [List.length_take]; omega
  · rw [List.length_take, List.length_drop]; omega

/-- **C47** Two strings that differ in exactly two bits have the same hash exactly if the distance of these bits is a
multiple of 2^32 - 1. -/
theorem c47_two_bits (a b : List UInt8) (i j : Nat) (hij : i < j) (hj : j < 8 * a.length) (hl : a.length = b.length)
    (hd : ∀ k, k < 8 * a.length → ((messageBits a)[k]? ≠ (messageBits b)[k]? ↔ k = i ∨ k = j)) :
    crc a = crc b ↔ (2 ^ 32 - 1) ∣ j - i := by
  have hla : (messageBits a).length = 8 * a.length := messageBits_length a
  have hlb : (messageBits b).length = 8 * a.length := by rw [messageBits_length, hl]
  obtain ⟨p, q, r, x, y, he, hp, hq⟩ := split_two hij (by rw [hla]; exact hj)
  have hb : messageBits b = p ++ (!x) :: (q ++ (!y) :: r) := by
    apply List.ext_getElem?
    intro k
    by_cases hk : k < 8 * a.length
    · have h1 := hd k hk
      have h2 : (messageBits a)[k]? = (p ++ x :: (q ++ y :: r))[k]? := by rw [he]
      have hbk : ∃ z, (messageBits b)[k]? = some z := ⟨_, List.getElem?_eq_getElem (by omega)⟩
      obtain ⟨z, hz⟩ := hbk
      have hmk : (messageBits a)[k]? = some (messageBits a)[k] := List.getElem?_eq_getElem (by omega)
      by_cases ki : k = i
      · subst ki
        have e2 : ∀ (v : Bool) (t : List Bool), (p ++ v :: t)[k]? = some v := by
          intro v t; rw [List.getElem?_append_right (by omega), hp, Nat.sub_self]; rfl
        have hne := h1.mpr (Or.inl rfl)
        rw [h2, e2, hz] at hne
        rw [e2, hz]
        revert hne; cases x <;> cases z <;> simp
      · by_cases kj : k = j
        · subst kj
          have e2 : ∀ (u v : Bool), (p ++ u :: (q ++ v :: r))[k]? = some v := by
            intro u v
            rw [List.getElem?_append_right (by omega), hp]
            obtain ⟨m, hm⟩ : ∃ m, k - i = m + 1 := ⟨k - i - 1, by omega⟩
            rw [hm, List.getElem?_cons_succ, List.getElem?_append_right (by omega), hq,
              show m - (k - i - 1) = 0 by omega]
            rfl
          have hne := h1.mpr (Or.inr rfl)
          rw [h2, e2, hz] at hne
          rw [e2, hz]
          revert hne; cases y <;> cases z <;> simp
        · have heq : (messageBits a)[k]? = (messageBits b)[k]? := by
            apply Classical.byContradiction
            intro hc
            rcases h1.mp hc with h | h
            · exact ki h
            · exact kj h
          rw [← heq, h2]
          by_cases h3 : k < i
          · rw [List.getElem?_append_left (by omega), List.getElem?_append_left (by omega)]
          · rw [List.getElem?_append_right (by omega), List.getElem?_append_right (by omega)]
            obtain ⟨m, hm⟩ : ∃ m, k - p.length = m + 1 := ⟨k - p.length - 1, by omega⟩
            rw [hm, List.getElem?_cons_succ, List.getElem?_cons_succ]
            by_cases h4 : k < j
            · rw [List.getElem?_append_left (by omega), List.getElem?_append_left (by omega)]
            · rw [List.getElem?_append_right (by omega), List.getElem?_append_right (by omega)]
              obtain ⟨m', hm'⟩ : ∃ m', m - q.length = m' + 1 := ⟨m - q.length - 1, by omega⟩
              rw [hm', List.getElem?_cons_succ, List.getElem?_cons_succ]
    · have hlen : (p ++ (!x) :: (q ++ (!y) :: r)).length = 8 * a.length := by
        rw [← hla, he]; simp
      rw [List.getElem?_eq_none (by omega), List.getElem?_eq_none (by omega)]
  rw [crc_eq_iff, he, hb, feed_two_bits p q r _ x y (bits32_length _), hq, show j - i - 1 + 1 = j - i by omega]

/-- **C47** So any two changed bits are detected in strings of less than 512 megabytes. -/
theorem c47_two_bits_detected (a b : List UInt8) (i j : Nat) (hij : i < j) (hj : j < 8 * a.length) (hl : a.length = b.length)
    (hd : ∀ k, k < 8 * a.length → ((messageBits a)[k]? ≠ (messageBits b)[k]? ↔ k = i ∨ k = j)) (hs : a.length < 2 ^ 29) :
    crc a ≠ crc b := by
  rw [Ne, c47_two_bits a b i j hij hj hl hd]
  intro h
  have := Nat.le_of_dvd (by omega) h
  omega

/-- A string and the same with bit 1 of its first and bit 7 of its last byte changed. -/
example : ∀ k, k < 24 → ((messageBits [1, 2, 3])[k]? ≠ (messageBits [3, 2, 0x83])[k]? ↔ k = 1 ∨ k = 23) := by decide +kernel

example : crc [1, 2, 3] ≠ crc [3, 2, 0x83] :=
  c47_two_bits_detected [1, 2, 3] [3, 2, 0x83] 1 23 (by omega) (by decide) rfl (by decide +kernel) (by decide)

/-- A burst across two bytes. -/
example : crc [1, 0xf0, 3, 7] ≠ crc [1, 0x0f, 0xfc, 7] :=
  c47_burst_detected [1, 0xf0, 3, 7] [1, 0x0f, 0xfc, 7] (messageBits [1]) (messageBits [0xf0, 3]) (messageBits [0x0f, 0xfc])
    (messageBits [7]) (by decide +kernel) (by decide +kernel) (by decide +kernel) (by decide +kernel) (by decide +kernel)

end Verif.Brass
