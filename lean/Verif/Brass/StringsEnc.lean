import Verif.Brass.Utf8Lemmas
import Verif.Brass.SemCode
import Verif.Spec.Module

/-!
# Encoded string tables belong to the grammar
-/

namespace Verif.Brass

open Verif Verif.Brass.Spec

theorem utf8_cons (c : Char) (s : Text) : utf8 (c :: s) = String.utf8EncodeChar c ++ utf8 s := by
  unfold utf8; rw [List.flatMap_cons]

theorem lossy_utf8 (s : Text) (r : List UInt8) : fromUtf8Lossy (utf8 s ++ r) = utf8 s ++ fromUtf8Lossy r := lossy_append s r

theorem blob_cons (s : Text) (ss : List Text) : blob (s :: ss) = utf8 s ++ 0 :: blob ss := by
  unfold blob; rw [List.flatMap_cons]; simp

theorem lossy_blob (ss : List Text) : fromUtf8Lossy (blob ss) = blob ss := by
  induction ss with
  | nil => rfl
  | cons s ss ih => rw [blob_cons, lossy_utf8, lossy1 (by decide), ih]

/-- A blob starts at a character. -/
theorem blob_first (s : Text) (ss : List Text) : ∃ b r, blob (s :: ss) = b :: r ∧ isCont b = false := by
  rw [blob_cons]
  cases s with
  | nil => exact ⟨0, _, rfl, by decide⟩
  | cons c s =>
    obtain ⟨b, r, h, h'⟩ := utf8_first c
    rw [utf8_cons, h]
    exact ⟨b, _, rfl, h'⟩

theorem boundary_at {s : Str} {i : Nat} {b : UInt8} (h : s[i]? = some b) (hb : isCont b = false) : isCharBoundary s i = true := by
  unfold isCharBoundary
  split
  · rfl
  · simp [h, hb]

/-- The index bytes of a number below 0x2000. -/
theorem small_idx {n : Int} (h : n.natAbs < 0x2000) : IdxBytes (hlIndex n) n := by
  unfold hlIndex
  simp only
  have o : ∀ m, m < 256 → (UInt8.ofNat m).toNat = m := fun m hm => ofNat8 hm
  split
  · next hn =>
    have e := IdxBytes.mediumNeg (UInt8.ofNat (n.natAbs / 256 + 0xA0)) (UInt8.ofNat (n.natAbs % 256)) (by rw [o] <;> omega) (by rw [o] <;> omega)
    have : (-(((UInt8.ofNat (n.natAbs / 256 + 0xA0)).toNat - 0xA0) * 256 + (UInt8.ofNat (n.natAbs % 256)).toNat : Nat) : Int) = n := by
      rw [o _ (by omega), o _ (by omega)]; omega
    rwa [this] at e
  · next hn =>
    split
    · next h1 =>
      have e := IdxBytes.short (UInt8.ofNat n.natAbs) (by rw [o] <;> omega)
      have : ((UInt8.ofNat n.natAbs).toNat : Int) = n := by rw [o] <;> omega
      rwa [this] at e
    · next h1 =>
      have e := IdxBytes.mediumPos (UInt8.ofNat (n.natAbs / 256 + 0x80)) (UInt8.ofNat (n.natAbs % 256)) (by rw [o] <;> omega) (by rw [o] <;> omega)
      have : ((((UInt8.ofNat (n.natAbs / 256 + 0x80)).toNat - 0x80) * 256 + (UInt8.ofNat (n.natAbs % 256)).toNat : Nat) : Int) = n := by
        rw [o _ (by omega), o _ (by omega)]; omega
      rwa [this] at e

theorem ix_natG {n : Nat} (h : n < 0x2000) (c : Code) : natG c (ix n) n c := ⟨rfl, small_idx (by simpa using h)⟩

theorem pool_enc : ∀ (ss : List Text) (pre : List UInt8) (c : Code), (∀ s ∈ ss, (utf8 s).length < 0x2000) →
    poolG (pre ++ blob ss) ss.length pre.length c (ss.flatMap fun s => ix (utf8 s).length) (ss.map utf8) c
  | [], pre, c, _ => ⟨rfl, rfl, rfl⟩
  | s :: ss, pre, c, h => by
    have ih := pool_enc ss (pre ++ utf8 s ++ [0]) c (fun x hx => h x (by simp [hx]))
    have e1 : pre ++ utf8 s ++ [0] ++ blob ss = pre ++ blob (s :: ss) := by rw [blob_cons]; simp
    rw [e1] at ih
    have hlen : (pre ++ blob (s :: ss)).length = pre.length + (utf8 s).length + 1 + (blob ss).length := by
      rw [blob_cons]; simp; omega
    show (natG >>= fun sz => sliceG (pre ++ blob (s :: ss)) pre.length sz >>= fun x => _) _ _ _ _
    rw [List.flatMap_cons]
    refine ⟨_, _, (utf8 s).length, c, rfl, ix_natG (h s (by simp)) c, [], _, utf8 s, c, rfl, ?_, ?_⟩
    · refine ⟨[], [], (), c, rfl, ⟨rfl, ⟨?_, ?_⟩, rfl⟩, rfl, ?_, rfl⟩
      · obtain ⟨b, r, hb, hb'⟩ := blob_first s ss
        exact (boundary_iff _ _).2 <| boundary_at (b := b) (by rw [hb]; simp) hb'
      · rw [List.drop_left, blob_cons]
        exact (boundary_iff _ _).2 <| boundary_at (b := 0) (by simp) (by decide)
      · rw [List.drop_left, blob_cons, List.take_left]
    · have : ¬ (pre.length + (utf8 s).length ≥ (pre ++ blob (s :: ss)).length) := by omega
      simp only [this, if_false]
      refine ⟨_, [], ss.map utf8, c, (List.append_nil _).symm, ?_, rfl, rfl, rfl⟩
      have e2 : (pre ++ utf8 s ++ [0]).length = pre.length + (utf8 s).length + 1 := by simp; omega
      rw [e2] at ih
      exact ih

theorem leNat_leBytes4 (n : Nat) (h : n < 2 ^ 32) : leNat (leBytes 4 n) = n := by
  have o : ∀ m, (UInt8.ofNat (m % 256)).toNat = m % 256 := fun m => ofNat8 (by omega)
  simp only [leBytes, leNat, o]
  omega

theorem leNat_leBytes8 (n : Nat) (h : n < 2 ^ 64) : leNat (leBytes 8 n) = n := by
  have o : ∀ m, (UInt8.ofNat (m % 256)).toNat = m % 256 := fun m => ofNat8 (by omega)
  simp only [leBytes, leNat, o]
  omega

theorem i32_enc {v : Int} (h1 : -2 ^ 31 ≤ v) (h2 : v < 2 ^ 31) : toSigned 32 (leNat (leBytesSigned 4 v)) = v := by
  unfold leBytesSigned
  rw [leNat_leBytes4 _ (by omega)]
  unfold toSigned
  split <;> omega

/-- The serialisation of a string table is read back. -/
theorem strings_enc (ss : List Text) (h : ∀ s ∈ ss, (utf8 s).length < 0x2000) (hb : (blob ss).length < 2 ^ 31) (c : Code) :
    stringsG ss.length c (hlStrings ss) (ss.map utf8) c := by
  have p := pool_enc ss [] c h
  rw [List.nil_append] at p
  unfold hlStrings
  rw [List.append_assoc, stringsG_eq, i32G_eq]
  refine ⟨_, _, ((blob ss).length : Int), c, rfl, ⟨rfl, ?_, ?_⟩, [], _, (), c, rfl, ⟨rfl, by omega, rfl⟩, _, _, blob ss, c, rfl,
    ⟨rfl, by simp, rfl⟩, ?_⟩
  · simp [leBytesSigned, leBytes]
  · exact (i32_enc (by omega) (by omega)).symm
  · show poolG (fromUtf8Lossy (blob ss)) _ _ _ _ _ _
    rw [lossy_blob]; exact p

end Verif.Brass
