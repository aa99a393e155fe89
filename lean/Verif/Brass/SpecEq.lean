import Verif.Brass.Lossy
import Verif.Brass.Decoder
import Verif.Brass.CrcLemmas
import Verif.Spec.Grammar

/-!
# The tables and number formats of the specifications are those of the model
-/

namespace Verif.Brass.Spec

open Verif Verif.Brass Verif.Spec

theorem unsignedLE_eq (l : List UInt8) : unsignedLE l = leNat l := by
  induction l with
  | nil => rfl
  | cons b l ih => rw [leNat, ← ih]; rfl

theorem twos32_eq (n : Nat) : twos32 n = toSigned 32 n := rfl

theorem noType_eq : noType = ValueType.default := rfl

theorem noCode_eq : noCode = Code.new := rfl

theorem bare_eq (op : Op) : bare op = { Opcode.default with op := op } := rfl

theorem bare_nop : bare .ONop = Opcode.default := rfl

theorem opNumber_eq (o : Op) : opNumber o = o.toNat := by cases o <;> rfl

theorem kindNumber_eq (k : TypeKind) : kindNumber k = k.toNat := by cases k <;> rfl

theorem hlOps_eq {n : Nat} (h : n < 99) : hlOps[n]? = Op.ofNat? n := by
  have : ∀ n : Fin 99, hlOps[n.val]? = Op.ofNat? n.val := by decide +kernel
  exact this ⟨n, h⟩

theorem hlKinds_eq {n : Nat} (h : n < 23) : hlKinds[n]? = TypeKind.ofNat? n := by
  have : ∀ n : Fin 23, hlKinds[n.val]? = TypeKind.ofNat? n.val := by decide +kernel
  exact this ⟨n, h⟩

theorem arity_eq (o : Op) : OP_NARGS[o.toNat]? = some (hlShape o).arity := by cases o <;> rfl

theorem ofNat?_toNat {n : Nat} {o : Op} (h : Op.ofNat? n = some o) : o.toNat = n := by
  have : n < 100 ∨ 100 ≤ n := Nat.lt_or_ge n 100
  rcases this with hn | hn
  · have key : ∀ n : Fin 100, (Op.ofNat? n.val).map Op.toNat = some n.val := by decide +kernel
    have := key ⟨n, hn⟩
    simp only [h, Option.map_some, Option.some.injEq] at this
    exact this
  · unfold Op.ofNat? at h
    split at h <;> first | omega | cases h

theorem arity_of {n : Nat} {o : Op} (h : Op.ofNat? n = some o) : OP_NARGS[n]? = some (hlShape o).arity := by
  rw [← ofNat?_toNat h]; exact arity_eq o

theorem ofBits_testBit (l : List Bool) (i : Nat) : (ofBits l).testBit i = l[i]?.getD false := by
  induction l generalizing i with
  | nil => simp [ofBits]
  | cons b l ih =>
    cases i with
    | zero => cases b <;> simp [ofBits, Nat.testBit_zero] <;> omega
    | succ i =>
      rw [List.getElem?_cons_succ, ← ih i, ofBits, Nat.testBit_succ]
      congr 1
      cases b <;> simp <;> omega

theorem ofBits_lt (l : List Bool) : ofBits l < 2 ^ l.length := by
  induction l with
  | nil => simp [ofBits]
  | cons b l ih =>
    have : b.toNat ≤ 1 := by cases b <;> simp
    simp only [ofBits, List.length_cons, Nat.pow_succ]; omega

theorem crc_eq (bytes : List UInt8) : crc bytes = crcHash bytes := by
  unfold crc
  rw [← bits32_crcHash]
  apply UInt32.toNat_inj.mp
  have hl := ofBits_lt (bits32 (crcHash bytes))
  rw [bits32_length] at hl
  rw [UInt32.toNat_ofNat_of_lt' hl]
  apply Nat.eq_of_testBit_eq
  intro i
  rw [ofBits_testBit]
  unfold bits32
  by_cases h : i < 32
  · simp [h]
  · rw [List.getElem?_eq_none (by simpa using h)]
    rw [Nat.testBit_lt_two_pow]
    · rfl
    · have := (crcHash bytes).toNat_lt
      exact Nat.lt_of_lt_of_le this (Nat.pow_le_pow_right (by omega) (by omega))

theorem crc_fun : crc = crcHash := funext crc_eq

/-! ## The grammar -/

theorem G.pure_bind' {α β : Type} (a : α) (f : α → G β) : (G.pure a).bind f = f a := by
  funext c k b c'
  apply propext
  constructor
  · rintro ⟨k1, k2, x, c1, rfl, ⟨rfl, rfl, rfl⟩, h⟩; exact h
  · intro h; exact ⟨[], k, a, c, rfl, ⟨rfl, rfl, rfl⟩, h⟩

theorem lossyG_eq (b : List UInt8) : lossyG b = G.pure (fromUtf8Lossy b) := by
  funext c k a c'
  apply propext
  simp only [lossyG, G.pure, lossy_iff]
  constructor <;> rintro ⟨h1, h2, h3⟩ <;> exact ⟨h1, h3, h2⟩

theorem i32G_eq : i32G = fun c k a c' => c' = c ∧ k.length = 4 ∧ a = toSigned 32 (leNat k) := by
  funext c k a c'
  rw [i32G, unsignedLE_eq, twos32_eq]

theorem f64G_eq : f64G = fun c k a c' => c' = c ∧ k.length = 8 ∧ a = leNat k := by
  funext c k a c'
  rw [f64G, unsignedLE_eq]

theorem fieldG_eq : fieldG = (do
    let name ← ustringRefG
    let t ← typeRefG
    pure { name := name, hashedName := crcHash name, t := t }) := by
  unfold fieldG; rw [crc_fun]

theorem protoG_eq : protoG = (do
    let name ← ustringRefG
    let findex ← natG
    let pindex ← idxG
    pure { name := name, hashedName := crcHash name, findex := findex, pindex := pindex }) := by
  unfold protoG; rw [crc_fun]

theorem typeG_eq : typeG = (do
    let v ← byteG
    G.guard (v < 23)
    let k ← G.some (TypeKind.ofNat? v)
    typeBodyG { ValueType.default with kind := k }) := by
  funext c k a c'
  apply propext
  constructor
  · rintro ⟨k1, k2, v, c1, e, h1, k3, k4, u, c2, e', ⟨g1, g2, g3⟩, h2⟩
    rw [hlKinds_eq g2] at h2
    exact ⟨k1, k2, v, c1, e, h1, k3, k4, u, c2, e', ⟨g1, g2, g3⟩, h2⟩
  · rintro ⟨k1, k2, v, c1, e, h1, k3, k4, u, c2, e', ⟨g1, g2, g3⟩, h2⟩
    rw [← hlKinds_eq g2] at h2
    exact ⟨k1, k2, v, c1, e, h1, k3, k4, u, c2, e', ⟨g1, g2, g3⟩, h2⟩

theorem sliceG_eq (st : Str) (cursor n : Nat) : sliceG st cursor n = (do
    G.guard (isCharBoundary st cursor = true ∧ isCharBoundary (st.drop cursor) n = true)
    pure ((st.drop cursor).take n)) := by
  unfold sliceG
  rw [boundary_iff, boundary_iff]

theorem stringsG_eq (n : Nat) : stringsG n = (do
    let size ← i32G
    G.guard (0 ≤ size)
    let blob ← bytesG size.toNat
    poolG (fromUtf8Lossy blob) n 0) := by
  unfold stringsG
  congr 1; funext size
  congr 1; funext _
  congr 1; funext blob
  rw [lossyG_eq]
  exact G.pure_bind' _ _

theorem opcodeG_eq : opcodeG = (do
    let n ← byteG
    G.guard (n < 99)
    let op ← G.some (Op.ofNat? n)
    let i ← G.some OP_NARGS[n]?
    operandsG { Opcode.default with op := op } i) := by
  funext c k a c'
  apply propext
  constructor
  · rintro ⟨k1, k2, v, c1, e, h1, k3, k4, u, c2, e', ⟨g1, g2, g3⟩, k5, k6, op, c3, e3, h3, h4⟩
    rw [hlOps_eq g2] at h3
    refine ⟨k1, k2, v, c1, e, h1, k3, k4, u, c2, e', ⟨g1, g2, g3⟩, k5, k6, op, c3, e3, h3, [], k6, _, c3, rfl, ⟨rfl, ?_, rfl⟩, h4⟩
    exact arity_of h3.2.1
  · rintro ⟨k1, k2, v, c1, e, h1, k3, k4, u, c2, e', ⟨g1, g2, g3⟩, k5, k6, op, c3, e3, h3, k7, k8, i, c4, e4, ⟨q1, q2, q3⟩, h4⟩
    have := arity_of h3.2.1
    rw [this] at q2
    injection q2 with q2
    subst q1 q2 q3
    have e4 : k6 = k8 := e4
    subst e4
    rw [← hlOps_eq g2] at h3
    exact ⟨k1, k2, v, c1, e, h1, k3, k4, u, c2, e', ⟨g1, g2, g3⟩, k5, k6, op, c4, e3, h3, h4⟩

end Verif.Brass.Spec
