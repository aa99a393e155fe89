import Verif.Brass.CrcLemmas

/-!
# The order of the CRC-32 register

Without input the register returns to a single bit after 2^32 - 1 shifts and not before. The definitions here serve the proof; the model of the
hasher is in `Brass/Crc.lean`.
-/

namespace Verif.Brass

open Verif Verif.Spec

/-- One shift of the register, on numbers. -/
def stepN (c : Nat) : Nat := if c % 2 = 1 then (c / 2) ^^^ 0xEDB88320 else c / 2

/-- `n` shifts. -/
def iterN : Nat → Nat → Nat
  | 0, c => c
  | n + 1, c => iterN n (stepN c)

theorem xor_div_two (a b : Nat) : (a ^^^ b) / 2 = (a / 2) ^^^ (b / 2) := by
  have := Nat.shiftRight_xor_distrib (a := a) (b := b) (i := 1)
  simpa [Nat.shiftRight_succ] using this

theorem xor_mod_two (a b : Nat) : (a ^^^ b) % 2 = (a % 2 + b % 2) % 2 := by
  have h := Nat.testBit_xor a b 0
  simp only [Nat.testBit_zero] at h
  have h1 := Nat.mod_two_eq_zero_or_one (a ^^^ b)
  have h2 := Nat.mod_two_eq_zero_or_one a
  have h3 := Nat.mod_two_eq_zero_or_one b
  rcases h1 with h1 | h1 <;> rcases h2 with h2 | h2 <;> rcases h3 with h3 | h3 <;> simp [h1, h2, h3] at h ⊢

theorem stepN_xor (a b : Nat) : stepN (a ^^^ b) = stepN a ^^^ stepN b := by
  unfold stepN
  rw [xor_div_two, xor_mod_two]
  have h2 := Nat.mod_two_eq_zero_or_one a
  have h3 := Nat.mod_two_eq_zero_or_one b
  rcases h2 with h2 | h2 <;> rcases h3 with h3 | h3 <;> simp [h2, h3]
  · rw [Nat.xor_assoc]
  · rw [Nat.xor_assoc, Nat.xor_assoc, Nat.xor_comm (b / 2)]
  · rw [Nat.xor_assoc, ← Nat.xor_assoc 3988292384, Nat.xor_comm 3988292384, Nat.xor_assoc (b / 2), Nat.xor_self, Nat.xor_zero]

theorem iterN_xor (n a b : Nat) : iterN n (a ^^^ b) = iterN n a ^^^ iterN n b := by
  induction n generalizing a b with
  | zero => rfl
  | succ n ih => simp only [iterN, stepN_xor, ih]

theorem iterN_add (m n c : Nat) : iterN (m + n) c = iterN n (iterN m c) := by
  induction m generalizing c with
  | zero => simp [iterN]
  | succ m ih => rw [Nat.succ_add]; simp only [iterN, ih]

theorem iterN_zero (n : Nat) : iterN n 0 = 0 := by
  have := iterN_xor n 0 0
  simpa using this

/-! ## Fast iteration -/

/-- Apply a matrix, given by the images of the bits, to a number. -/
def appM : List Nat → Nat → Nat
  | [], _ => 0
  | m :: M, v => if v % 2 = 1 then m ^^^ appM M (v / 2) else appM M (v / 2)

/-- The matrix of `n` shifts is `M`. -/
def IsPow (n : Nat) (M : List Nat) : Prop := M = (List.range 32).map fun i => iterN n (2 ^ i)

theorem appM_spec (n k i v : Nat) (hv : v < 2 ^ k) :
    appM ((List.range' i k).map fun i => iterN n (2 ^ i)) v = iterN n (v * 2 ^ i) := by
  induction k generalizing i v with
  | zero =>
    have : v = 0 := by simpa using hv
    subst this
    simp [appM, iterN_zero]
  | succ k ih =>
    rw [List.range'_succ, List.map_cons, appM, ih (i + 1) (v / 2) (by rw [Nat.pow_succ] at hv; omega)]
    have e : v / 2 * 2 ^ (i + 1) = v / 2 * 2 * 2 ^ i := by rw [Nat.pow_succ, Nat.mul_assoc, Nat.mul_comm 2]
    split
    · rename_i h
      rw [← iterN_xor, e]
      congr 1
      -- the lowest bit
      have h1 : v = v / 2 * 2 + 1 := by omega
      have h2 : v * 2 ^ i = 2 ^ i ^^^ v / 2 * 2 * 2 ^ i := by
        apply Nat.eq_of_testBit_eq
        intro j
        rw [Nat.testBit_xor]
        by_cases hj : j < i
        · rw [Nat.testBit_mul_two_pow, Nat.testBit_mul_two_pow, Nat.testBit_two_pow]
          simp [show ¬ i ≤ j by omega, show i ≠ j by omega]
        · rw [Nat.testBit_mul_two_pow, Nat.testBit_mul_two_pow, Nat.testBit_two_pow]
          simp only [show i ≤ j by omega, decide_true, Bool.true_and]
          obtain ⟨d, rfl⟩ : ∃ d, j = i + d := ⟨j - i, by omega⟩
          rw [Nat.add_sub_cancel_left]
          cases d with
          | zero => simp [Nat.testBit_zero, h]
          | succ d =>
            rw [Nat.testBit_succ, Nat.testBit_succ, Nat.mul_div_cancel _ (by omega : 0 < 2)]
            simp
      rw [h2]
    · rename_i h
      rw [e]
      congr 2
      omega

theorem appM_pow {n : Nat} {M : List Nat} (hM : IsPow n M) {v : Nat} (hv : v < 2 ^ 32) : appM M v = iterN n v := by
  rw [hM, List.range_eq_range', appM_spec n 32 0 v hv]
  simp

theorem stepN_lt {c : Nat} (h : c < 2 ^ 32) : stepN c < 2 ^ 32 := by
  unfold stepN
  split
  · exact Nat.xor_lt_two_pow (by omega) (by omega)
  · omega

theorem iterN_lt {n c : Nat} (h : c < 2 ^ 32) : iterN n c < 2 ^ 32 := by
  induction n generalizing c with
  | zero => exact h
  | succ n ih => exact ih (stepN_lt h)

/-- Square of a matrix. -/
def sqM (M : List Nat) : List Nat := M.map (appM M)

theorem sqM_pow {n : Nat} {M : List Nat} (hM : IsPow n M) : IsPow (2 * n) (sqM M) := by
  unfold IsPow sqM
  rw [show (List.map (appM M) M) = List.map (appM M) ((List.range 32).map fun i => iterN n (2 ^ i)) by rw [← hM], List.map_map]
  apply List.map_congr_left
  intro i hi
  have hi : i < 32 := List.mem_range.1 hi
  simp only [Function.comp]
  rw [appM_pow hM (iterN_lt (Nat.pow_lt_pow_right (by omega) hi)), ← iterN_add]
  congr 1
  omega

/-- The matrix of one shift. -/
def oneM : List Nat := (List.range 32).map fun i => stepN (2 ^ i)

theorem oneM_pow : IsPow 1 oneM := rfl

/-- `n` times the shifts of `M`, by squaring. -/
def fastIter : (fuel : Nat) → (M : List Nat) → (n v : Nat) → Nat
  | 0, _, _, v => v
  | fuel + 1, M, n, v => fastIter fuel (sqM M) (n / 2) (if n % 2 = 1 then appM M v else v)

theorem fastIter_spec (fuel : Nat) {k : Nat} {M : List Nat} (hM : IsPow k M) (n : Nat) (hn : n < 2 ^ fuel) {v : Nat} (hv : v < 2 ^ 32) :
    fastIter fuel M n v = iterN (k * n) v := by
  induction fuel generalizing k M n v with
  | zero =>
    have : n = 0 := by simpa using hn
    subst this; rfl
  | succ fuel ih =>
    rw [fastIter, ih (sqM_pow hM) (n / 2) (by rw [Nat.pow_succ] at hn; omega)]
    · split
      · rename_i h
        rw [appM_pow hM hv, ← iterN_add]
        congr 1
        rw [show k * n = k * (2 * (n / 2) + 1) by congr 1; omega, Nat.mul_add, Nat.mul_comm 2 k, Nat.mul_assoc]
        omega
      · rename_i h
        congr 1
        rw [show k * n = k * (2 * (n / 2)) by congr 1; omega, Nat.mul_comm 2 k, Nat.mul_assoc]
    · split
      · rw [appM_pow hM hv]; exact iterN_lt hv
      · exact hv

/-- Shifts of the single bit. -/
theorem fast_one (n : Nat) (hn : n < 2 ^ 32) : iterN n 1 = fastIter 32 oneM n 1 := by
  rw [fastIter_spec 32 oneM_pow n hn (by decide), Nat.one_mul]

/-! ## The order -/

theorem full_period : iterN 4294967295 1 = 1 := by
  rw [fast_one _ (by decide)]; decide +kernel

theorem short_periods : ∀ n ∈ [1431655765, 858993459, 252645135, 16711935, 65535], iterN n 1 ≠ 1 := by
  intro n hn
  simp only [List.mem_cons, List.not_mem_nil, or_false] at hn
  rcases hn with rfl | rfl | rfl | rfl | rfl <;> rw [fast_one _ (by decide)] <;> decide +kernel

theorem period_mul {n : Nat} (h : iterN n 1 = 1) (k : Nat) : iterN (n * k) 1 = 1 := by
  induction k with
  | zero => rfl
  | succ k ih => rw [Nat.mul_succ, iterN_add, ih, h]

theorem period_mod {a b : Nat} (ha : iterN a 1 = 1) (hb : iterN b 1 = 1) : iterN (a % b) 1 = 1 := by
  have e := iterN_add (b * (a / b)) (a % b) 1
  rw [Nat.div_add_mod, ha, period_mul hb] at e
  exact e.symm

theorem period_gcd (a b : Nat) (ha : iterN a 1 = 1) (hb : iterN b 1 = 1) : iterN (Nat.gcd a b) 1 = 1 := by
  induction a, b using Nat.gcd.induction with
  | H0 n => rw [Nat.gcd_zero_left]; exact hb
  | H1 m n hm ih =>
    rw [Nat.gcd_rec]
    exact ih (period_mod hb ha) ha

/-- A number without small divisors is prime. -/
theorem prime_of {p r d : Nat} (h : ∀ e, e < r → 2 ≤ e → p % e ≠ 0) (hr : p < r * r) (hd : d ∣ p) (hp : 0 < p) : d = 1 ∨ d = p := by
  obtain ⟨e, rfl⟩ := hd
  have hd0 : 0 < d := Nat.pos_of_mul_pos_right hp
  have he0 : 0 < e := Nat.pos_of_mul_pos_left hp
  by_cases hdr : d < r
  · by_cases h2 : 2 ≤ d
    · exact absurd (Nat.mul_mod_right d e) (h d hdr h2)
    · left; omega
  · by_cases h2 : 2 ≤ e
    · by_cases her : e < r
      · exact absurd (Nat.mul_mod_left d e) (h e her h2)
      · have := Nat.mul_le_mul (Nat.le_of_not_lt hdr) (Nat.le_of_not_lt her)
        omega
    · right
      rw [show e = 1 by omega, Nat.mul_one]

/-- A proper divisor of 2^32 - 1 divides one of its maximal proper divisors. -/
theorem proper_divisor {g : Nat} (hg : g ∣ 4294967295) (hne : g ≠ 4294967295) :
    ∃ n ∈ [1431655765, 858993459, 252645135, 16711935, 65535], g ∣ n := by
  obtain ⟨h, hh⟩ := hg
  -- `h` has a prime factor of 2^32 - 1 as a divisor
  have key : ∀ p r n, 0 < p → (∀ e, e < r → 2 ≤ e → p % e ≠ 0) → p < r * r → p * n = 4294967295 → Nat.Coprime p h ∨ g ∣ n := by
    intro p r n hp0 hp hr hn
    rcases prime_of hp hr (Nat.gcd_dvd_left p h) hp0 with h1 | h1
    · exact .inl h1
    · right
      obtain ⟨c, hc⟩ : p ∣ h := h1 ▸ Nat.gcd_dvd_right p h
      refine ⟨c, Nat.eq_of_mul_eq_mul_left hp0 ?_⟩
      rw [hn, hh, hc, ← Nat.mul_assoc, ← Nat.mul_assoc, Nat.mul_comm g p]
  rcases key 3 2 1431655765 (by decide) (by decide) (by decide) (by decide) with h1 | h1
  rotate_left
  · exact ⟨_, by simp, h1⟩
  rcases key 5 3 858993459 (by decide) (by decide) (by decide) (by decide) with h2 | h2
  rotate_left
  · exact ⟨_, by simp, h2⟩
  rcases key 17 5 252645135 (by decide) (by decide) (by decide) (by decide) with h3 | h3
  rotate_left
  · exact ⟨_, by simp, h3⟩
  rcases key 257 17 16711935 (by decide) (by decide +kernel) (by decide) (by decide) with h4 | h4
  rotate_left
  · exact ⟨_, by simp, h4⟩
  rcases key 65537 257 65535 (by decide) (by decide +kernel) (by decide) (by decide) with h5 | h5
  rotate_left
  · exact ⟨_, by simp, h5⟩
  exfalso
  have hc : Nat.Coprime 4294967295 h := by
    have : (4294967295 : Nat) = 3 * 5 * 17 * 257 * 65537 := by decide
    rw [this]
    exact (((h1.mul_left h2).mul_left h3).mul_left h4).mul_left h5
  have : h = 1 := Nat.Coprime.eq_one_of_dvd hc.symm ⟨g, by rw [hh, Nat.mul_comm]⟩
  rw [this, Nat.mul_one] at hh
  exact hne hh.symm

/-- The single bit comes back after `n` shifts exactly if `n` is a multiple of 2^32 - 1. -/
theorem period_iff (n : Nat) : iterN n 1 = 1 ↔ 4294967295 ∣ n := by
  constructor
  · intro h
    have hg := period_gcd n 4294967295 h full_period
    by_cases e : Nat.gcd n 4294967295 = 4294967295
    · rw [← e]; exact Nat.gcd_dvd_left _ _
    · obtain ⟨m, hm, c, hc⟩ := proper_divisor (Nat.gcd_dvd_right n 4294967295) e
      exact absurd (by rw [hc]; exact period_mul hg c) (short_periods m hm)
  · rintro ⟨c, rfl⟩
    exact period_mul full_period c

/-! ## On bits -/

theorem crcBit_toNat (c : UInt32) : (crcBit c).toNat = stepN c.toNat := by
  unfold crcBit stepN
  have h1 : (c &&& 1 = 1) ↔ c.toNat % 2 = 1 := by rw [and_one_iff, Nat.testBit_zero]; simp
  by_cases h : c &&& 1 = 1
  · rw [if_pos h, if_pos (h1.1 h)]; simp [Nat.shiftRight_succ]
  · rw [if_neg h, if_neg (fun x => h (h1.2 x))]; simp [Nat.shiftRight_succ]

/-- `n` shifts of a register. -/
def iterBit : Nat → UInt32 → UInt32
  | 0, c => c
  | n + 1, c => iterBit n (crcBit c)

theorem shiftN_bits32 (n : Nat) (c : UInt32) : shiftN n (bits32 c) = bits32 (iterBit n c) := by
  induction n generalizing c with
  | zero => rfl
  | succ n ih => rw [shiftN, ← bits32_crcBit, ih, iterBit]

theorem iterBit_toNat (n : Nat) (c : UInt32) : (iterBit n c).toNat = iterN n c.toNat := by
  induction n generalizing c with
  | zero => rfl
  | succ n ih => rw [iterBit, ih, iterN, crcBit_toNat]

/-- The register with a single bit, that of the highest power. -/
def unitBits : List Bool := bits32 1

theorem shiftN_unit (n : Nat) : shiftN n unitBits = unitBits ↔ 4294967295 ∣ n := by
  rw [← period_iff, unitBits, shiftN_bits32]
  constructor
  · intro h
    have := congrArg UInt32.toNat (bits32_inj h)
    rw [iterBit_toNat] at this
    exact this
  · intro h
    congr 1
    rw [← UInt32.toNat_inj, iterBit_toNat]
    exact h

/-- Sum of two registers. -/
def addBits (a b : List Bool) : List Bool := List.zipWith (· ^^ ·) a b

theorem addBits_length {a b : List Bool} (ha : a.length = 32) (hb : b.length = 32) : (addBits a b).length = 32 := by
  simp [addBits, ha, hb]

theorem addBits_append {a b c d : List Bool} (h : a.length = b.length) : addBits (a ++ c) (b ++ d) = addBits a b ++ addBits c d :=
  List.zipWith_append h

theorem addBits_poly {a b g : List Bool} (ha : a.length = g.length) (hb : b.length = g.length) :
    addBits (addBits a g) b = addBits (addBits a b) g ∧ addBits a (addBits b g) = addBits (addBits a b) g ∧
    addBits (addBits a g) (addBits b g) = addBits a b := by
  induction g generalizing a b with
  | nil =>
    rw [List.eq_nil_of_length_eq_zero ha, List.eq_nil_of_length_eq_zero hb]
    exact ⟨rfl, rfl, rfl⟩
  | cons x g ih =>
    cases a with
    | nil => simp at ha
    | cons y a =>
      cases b with
      | nil => simp at hb
      | cons z b =>
        obtain ⟨h1, h2, h3⟩ := ih (a := a) (b := b) (by simpa using ha) (by simpa using hb)
        simp only [addBits, List.zipWith_cons_cons] at h1 h2 h3 ⊢
        rw [h1, h2, h3]
        cases x <;> cases y <;> cases z <;> simp

theorem shiftBits_addBits {a b : List Bool} (ha : a.length = 32) (hb : b.length = 32) :
    shiftBits (addBits a b) = addBits (shiftBits a) (shiftBits b) := by
  cases a with
  | nil => simp at ha
  | cons x a =>
    cases b with
    | nil => simp at hb
    | cons y b =>
      have ha' : a.length = 31 := by simpa using ha
      have hb' : b.length = 31 := by simpa using hb
      have e : addBits (a ++ [false]) (b ++ [false]) = addBits a b ++ [false] := by
        rw [addBits_append (by omega)]; rfl
      obtain ⟨h1, h2, h3⟩ := addBits_poly (a := a ++ [false]) (b := b ++ [false]) (g := crcPoly) (by simp [ha', crcPoly_length])
        (by simp [hb', crcPoly_length])
      have e0 : addBits (x :: a) (y :: b) = (x ^^ y) :: addBits a b := rfl
      rw [e0]
      cases x <;> cases y <;> simp only [shiftBits, Bool.xor_false, Bool.false_xor, Bool.xor_self, if_true, if_false, Bool.false_eq_true]
      · exact e.symm
      · rw [← e]; exact h2.symm
      · rw [← e]; exact h1.symm
      · rw [← e]; exact h3.symm

/-- Feeding the same bit keeps the difference, apart from the shift. -/
theorem feed_same {a b : List Bool} (ha : a.length = 32) (hb : b.length = 32) (x : Bool) :
    addBits (feedBit a x) (feedBit b x) = shiftBits (addBits a b) := by
  unfold feedBit
  rw [← shiftBits_addBits (by rw [addLead_length]; exact ha) (by rw [addLead_length]; exact hb)]
  cases a with
  | nil => simp at ha
  | cons y a =>
    cases b with
    | nil => simp at hb
    | cons z b =>
      congr 1
      simp only [addLead, addBits, List.zipWith_cons_cons]
      cases x <;> cases y <;> cases z <;> rfl

theorem feed_other {a b : List Bool} (ha : a.length = 32) (hb : b.length = 32) (x : Bool) :
    addBits (feedBit a x) (feedBit b (!x)) = shiftBits (addLead [true] (addBits a b)) := by
  unfold feedBit
  rw [← shiftBits_addBits (by rw [addLead_length]; exact ha) (by rw [addLead_length]; exact hb)]
  cases a with
  | nil => simp at ha
  | cons y a =>
    cases b with
    | nil => simp at hb
    | cons z b =>
      congr 1
      simp only [addLead, addBits, List.zipWith_cons_cons]
      cases x <;> cases y <;> cases z <;> rfl

theorem feedBit_length {a : List Bool} (ha : a.length = 32) (x : Bool) : (feedBit a x).length = 32 :=
  shiftBits_length (by rw [addLead_length]; exact ha)

theorem feed_length {m a : List Bool} (ha : a.length = 32) : (m.foldl feedBit a).length = 32 := by
  induction m generalizing a with
  | nil => exact ha
  | cons x m ih => exact ih (feedBit_length ha x)

theorem feed_sames {m a b : List Bool} (ha : a.length = 32) (hb : b.length = 32) :
    addBits (m.foldl feedBit a) (m.foldl feedBit b) = shiftN m.length (addBits a b) := by
  induction m generalizing a b with
  | nil => rfl
  | cons x m ih =>
    rw [List.foldl_cons, List.foldl_cons, ih (feedBit_length ha x) (feedBit_length hb x), feed_same ha hb]
    rfl

theorem addBits_self (a : List Bool) : addBits a a = List.replicate a.length false := by
  induction a with
  | nil => rfl
  | cons x a ih => simp only [addBits, List.zipWith_cons_cons] at ih ⊢; rw [ih]; simp [List.replicate_succ]

theorem addBits_eq_zero {a b : List Bool} (h : a.length = b.length) : addBits a b = List.replicate a.length false ↔ a = b := by
  constructor
  · intro e
    induction a generalizing b with
    | nil => rw [List.eq_nil_of_length_eq_zero h.symm]
    | cons x a ih =>
      cases b with
      | nil => simp at h
      | cons y b =>
        simp only [addBits, List.zipWith_cons_cons, List.length_cons, List.replicate_succ, List.cons.injEq] at e
        rw [ih (by simpa using h) e.2]
        have := e.1
        revert this
        cases x <;> cases y <;> simp
  · rintro rfl; exact addBits_self a

theorem unitBits_eq : unitBits = true :: List.replicate 31 false := by decide +kernel

theorem shiftBits_zero : shiftBits (List.replicate 32 false) = List.replicate 32 false := by decide +kernel

/-- Two messages that differ in two bits leave the same register exactly if the distance of the bits is a multiple of 2^32 - 1. -/
theorem feed_two_bits (p q r s : List Bool) (x y : Bool) (hs : s.length = 32) :
    (p ++ x :: (q ++ y :: r)).foldl feedBit s = (p ++ (!x) :: (q ++ (!y) :: r)).foldl feedBit s ↔ 4294967295 ∣ q.length + 1 := by
  simp only [List.foldl_append, List.foldl_cons]
  generalize hs1 : p.foldl feedBit s = s1
  have hl1 : s1.length = 32 := by rw [← hs1]; exact feed_length hs
  generalize ha : q.foldl feedBit (feedBit s1 x) = a
  generalize hb : q.foldl feedBit (feedBit s1 (!x)) = b
  have hla : a.length = 32 := by rw [← ha]; exact feed_length (feedBit_length hl1 x)
  have hlb : b.length = 32 := by rw [← hb]; exact feed_length (feedBit_length hl1 _)
  have hd : addBits a b = shiftN (q.length + 1) unitBits := by
    rw [← ha, ← hb, feed_sames (feedBit_length hl1 x) (feedBit_length hl1 _), feed_other hl1 hl1, addBits_self, hl1]
    rw [show addLead [true] (List.replicate 32 false) = unitBits by decide +kernel]
    rfl
  rw [← shiftN_unit, ← hd]
  have e1 : (r.foldl feedBit (feedBit a y) = r.foldl feedBit (feedBit b (!y))) ↔ feedBit a y = feedBit b (!y) :=
    ⟨fun h => feed_inj_state r (feedBit_length hla y) (feedBit_length hlb _) h, fun h => by rw [h]⟩
  rw [e1, ← addBits_eq_zero (by rw [feedBit_length hla, feedBit_length hlb]), feed_other hla hlb, feedBit_length hla]
  constructor
  · intro h
    have := shiftBits_inj (by rw [addLead_length]; exact addBits_length hla hlb) (by simp) (h.trans shiftBits_zero.symm)
    have hl := addBits_length hla hlb
    rw [unitBits_eq]
    cases hc : addBits a b with
    | nil => rw [hc] at hl; simp at hl
    | cons z c =>
      rw [hc] at this
      simp only [addLead, List.replicate_succ, List.cons.injEq] at this
      have hz : z = true := by have := this.1; revert this; cases z <;> simp
      rw [hz]
      congr 1
      exact this.2
  · intro h
    rw [h, show addLead [true] unitBits = List.replicate 32 false by decide +kernel, shiftBits_zero]

end Verif.Brass
