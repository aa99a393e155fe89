import Verif.Spec.Text
import Verif.Brass.StringsEnc
import Verif.Brass.Refs

/-!
# Strings are cut between characters, names come from the pool
-/

namespace Verif.Brass

open Verif Verif.Brass.Spec

theorem utf8_append (a b : Text) : utf8 (a ++ b) = utf8 a ++ utf8 b := by
  unfold utf8; rw [List.flatMap_append]

theorem enc_ne (ch : Char) : String.utf8EncodeChar ch ≠ [] := by
  have := enc_form ch
  intro h
  rw [h] at this
  cases this

theorem enc_pos (ch : Char) : 0 < (String.utf8EncodeChar ch).length := List.length_pos_iff.2 (enc_ne ch)

/-- A character starts with a byte that is not a continuation byte; all the others are. -/
theorem enc_bytes (ch : Char) (i : Nat) (b : UInt8) (h : (String.utf8EncodeChar ch)[i]? = some b) :
    (0x80 ≤ b.toNat ∧ b.toNat < 0xC0) ↔ 0 < i := by
  have f := enc_form ch
  generalize String.utf8EncodeChar ch = l at f h
  cases f with
  | one b0 h1 h2 =>
    match i, h with
    | 0, h => simp at h; subst h; omega
    | i + 1, h => simp at h
  | two b0 b1 h1 h2 h3 =>
    match i, h with
    | 0, h => simp at h; subst h; omega
    | 1, h => simp at h; subst h; omega
    | i + 2, h => simp at h
  | three b0 b1 b2 h1 h2 h3 h4 =>
    match i, h with
    | 0, h => simp at h; subst h; omega
    | 1, h => simp at h; subst h; omega
    | 2, h => simp at h; subst h; omega
    | i + 3, h => simp at h
  | four b0 b1 b2 b3 h1 h2 h3 h4 h5 =>
    match i, h with
    | 0, h => simp at h; subst h; omega
    | 1, h => simp at h; subst h; omega
    | 2, h => simp at h; subst h; omega
    | 3, h => simp at h; subst h; omega
    | i + 4, h => simp at h

/-- The boundaries of a text are the positions between its characters. -/
theorem boundary_text (s : Text) (i : Nat) : Boundary (utf8 s) i ↔ ∃ a b, s = a ++ b ∧ i = (utf8 a).length := by
  constructor
  · induction s generalizing i with
    | nil =>
      rintro (h | h | ⟨b, h, _⟩)
      · exact ⟨[], [], rfl, h⟩
      · exact ⟨[], [], rfl, h⟩
      · simp [utf8] at h
    | cons ch s ih =>
      intro h
      by_cases h0 : i = 0
      · exact ⟨[], ch :: s, rfl, h0⟩
      by_cases hlt : i < (String.utf8EncodeChar ch).length
      · rcases h with h | h | ⟨b, h, hb⟩
        · exact absurd h h0
        · rw [utf8_cons, List.length_append] at h; omega
        · rw [utf8_cons, List.getElem?_append_left hlt] at h
          exact absurd ((enc_bytes ch i b h).2 (by omega)) hb
      · have : Boundary (utf8 s) (i - (String.utf8EncodeChar ch).length) := by
          rcases h with h | h | ⟨b, h, hb⟩
          · exact absurd h h0
          · rw [utf8_cons, List.length_append] at h
            exact .inr (.inl (by omega))
          · rw [utf8_cons, List.getElem?_append_right (by omega)] at h
            exact .inr (.inr ⟨b, h, hb⟩)
        obtain ⟨a, b, rfl, e⟩ := ih _ this
        refine ⟨ch :: a, b, rfl, ?_⟩
        rw [utf8_cons, List.length_append]; omega
  · rintro ⟨a, b, rfl, rfl⟩
    rw [utf8_append]
    cases b with
    | nil => exact .inr (.inl (by simp [utf8]))
    | cons ch b =>
      refine .inr (.inr ?_)
      have hp := enc_pos ch
      refine ⟨(String.utf8EncodeChar ch)[0], ?_, ?_⟩
      · rw [utf8_cons, List.getElem?_append_right (Nat.le_refl _), Nat.sub_self, List.getElem?_append_left hp, List.getElem?_eq_getElem hp]
      · rw [enc_bytes ch 0 _ (List.getElem?_eq_getElem hp)]; omega

theorem utf8_inj_prefix {a b a' b' : Text} (h : utf8 a ++ utf8 b = utf8 a' ++ utf8 b') (hl : (utf8 a).length = (utf8 a').length) : utf8 a = utf8 a' ∧ utf8 b = utf8 b' :=
  List.append_inj h hl

theorem utf8_inj {a b : Text} (h : utf8 a = utf8 b) : a = b := by
  induction a generalizing b with
  | nil =>
    cases b with
    | nil => rfl
    | cons ch b =>
      rw [utf8_cons] at h
      exact absurd (List.append_eq_nil_iff.1 h.symm).1 (enc_ne ch)
  | cons ch a ih =>
    cases b with
    | nil =>
      rw [utf8_cons] at h
      exact absurd (List.append_eq_nil_iff.1 h).1 (enc_ne ch)
    | cons ch' b =>
      rw [utf8_cons, utf8_cons] at h
      obtain ⟨h1, h2⟩ := form_prefix (enc_form ch) (enc_form ch') h
      rw [enc_inj h1, ih h2]

theorem utf8_nil_iff {a : Text} : (utf8 a).length = 0 ↔ a = [] := by
  constructor
  · intro h
    exact utf8_inj (b := []) (by rw [List.eq_nil_of_length_eq_zero h]; rfl)
  · rintro rfl; rfl

/-- The length of a text in bytes determines the prefix. -/
theorem cut_unique {a b a' b' : Text} (h : a ++ b = a' ++ b') (hl : (utf8 a).length = (utf8 a').length) : a = a' ∧ b = b' := by
  have := congrArg utf8 h
  rw [utf8_append, utf8_append] at this
  obtain ⟨h1, h2⟩ := List.append_inj this hl
  exact ⟨utf8_inj h1, utf8_inj h2⟩

/-- One-byte characters are the ASCII characters. -/
theorem enc_one (ch : Char) : (String.utf8EncodeChar ch).length = 1 ↔ ch.val.toNat < 128 := by
  have f := enc_form ch
  generalize String.utf8EncodeChar ch = l at f
  generalize ch.val.toNat = v at f
  cases f with
  | one _ _ h => exact ⟨fun _ => h, fun _ => rfl⟩
  | _ => simp only [List.length_cons, List.length_nil]; omega

/-- A slice of a text. -/
theorem slice_text {a t : Text} {n : Nat} {c : Code} {k : List UInt8} {x : Str} {c' : Code} :
    sliceG (utf8 (a ++ t)) (utf8 a).length n c k x c' ↔ k = [] ∧ c' = c ∧ ∃ s r, t = s ++ r ∧ n = (utf8 s).length ∧ x = utf8 s := by
  have hd : (utf8 (a ++ t)).drop (utf8 a).length = utf8 t := by rw [utf8_append, List.drop_left]
  unfold sliceG
  rw [hd]
  constructor
  · rintro ⟨k1, k2, _, _, rfl, ⟨rfl, ⟨_, h2⟩, rfl⟩, rfl, rfl, rfl⟩
    obtain ⟨s, r, rfl, rfl⟩ := (boundary_text _ _).1 h2
    exact ⟨rfl, rfl, s, r, rfl, rfl, by rw [utf8_append, List.take_left]⟩
  · rintro ⟨rfl, rfl, s, r, rfl, rfl, rfl⟩
    exact ⟨[], [], (), _, rfl, ⟨rfl, ⟨(boundary_text _ _).2 ⟨a, s ++ r, rfl, rfl⟩, (boundary_text _ _).2 ⟨s, r, rfl, rfl⟩⟩, rfl⟩,
      rfl, by rw [utf8_append, List.take_left], rfl⟩

theorem pool_cut : ∀ (n : Nat) (a t : Text) (c : Code) (k : List UInt8) (l : List Str) (c' : Code),
    poolG (utf8 (a ++ t)) n (utf8 a).length c k l c' ↔ c' = c ∧ ∃ ss, Cut n t ss ∧ Sizes ss k ∧ l = ss.map utf8
  | 0, a, t, c, k, l, c' => by
    constructor
    · rintro ⟨rfl, rfl, rfl⟩; exact ⟨rfl, [], .none t, .nil, rfl⟩
    · rintro ⟨rfl, ss, h1, h2, rfl⟩
      cases h1; cases h2; exact ⟨rfl, rfl, rfl⟩
  | n + 1, a, t, c, k, l, c' => by
    have hlen : (utf8 (a ++ t)).length = (utf8 a).length + (utf8 t).length := by rw [utf8_append, List.length_append]
    constructor
    · rintro ⟨k1, _, sz, _, rfl, ⟨rfl, hi⟩, _, k2, x, _, rfl, hx, h⟩
      obtain ⟨rfl, rfl, s, r, rfl, rfl, rfl⟩ := slice_text.1 hx
      split at h
      · rename_i hge
        obtain ⟨rfl, rfl, rfl⟩ := h
        have hr : r = [] := by
          rw [hlen, utf8_append, List.length_append] at hge
          exact utf8_nil_iff.1 (by omega)
        subst hr
        refine ⟨rfl, [s], ?_, ?_, rfl⟩
        · rw [List.append_nil]; exact .last n s
        · exact Sizes.cons s [] k1 [] hi .nil
      · rename_i hge
        obtain ⟨k3, _, l', _, rfl, h, rfl, rfl, rfl⟩ := h
        cases n with
        | zero =>
          obtain ⟨rfl, rfl, rfl⟩ := h
          exact ⟨rfl, [s], .enough s r, Sizes.cons s [] k1 [] hi .nil, rfl⟩
        | succ n =>
          have hrlt : 0 < (utf8 r).length := by
            rw [hlen, utf8_append, List.length_append] at hge; omega
          have hb : Boundary (utf8 (a ++ (s ++ r))) ((utf8 a).length + (utf8 s).length + 1) := by
            obtain ⟨_, _, _, _, _, _, _, _, _, _, _, ⟨_, _, _, _, _, ⟨_, ⟨hb, _⟩, _⟩, _⟩, _⟩ := h
            exact hb
          have hb' : Boundary (utf8 r) 1 := by
            rcases hb with hb | hb | ⟨b, hb, hc⟩
            · omega
            · refine .inr (.inl ?_)
              rw [hlen, utf8_append, List.length_append] at hb; omega
            · refine .inr (.inr ⟨b, ?_, hc⟩)
              rw [utf8_append, utf8_append, ← List.append_assoc, List.getElem?_append_right (by simp)] at hb
              rw [← hb]; congr 1; simp
          obtain ⟨r1, r2, rfl, h1⟩ := (boundary_text _ _).1 hb'
          obtain ⟨ch, rfl⟩ : ∃ ch, r1 = [ch] := by
            cases r1 with
            | nil => simp [utf8] at h1
            | cons ch r1 =>
              rw [utf8_cons, List.length_append] at h1
              have := enc_pos ch
              exact ⟨ch, by rw [utf8_nil_iff.1 (by omega : (utf8 r1).length = 0)]⟩
          have hch : ch.val.toNat < 128 := (enc_one ch).1 (by rw [h1]; simp [utf8])
          have e1 : a ++ (s ++ ([ch] ++ r2)) = (a ++ (s ++ [ch])) ++ r2 := by simp
          have e2 : (utf8 a).length + (utf8 s).length + 1 = (utf8 (a ++ (s ++ [ch]))).length := by
            rw [utf8_append, utf8_append, List.length_append, List.length_append, ← h1]; omega
          rw [e1, e2] at h
          obtain ⟨hc, ss, h2, h3, rfl⟩ := (pool_cut (n + 1) _ _ _ _ _ _).1 h
          subst hc
          refine ⟨rfl, s :: ss, .more n s ch r2 ss hch h2, ?_, rfl⟩
          simpa using Sizes.cons s ss k1 k3 hi h3
    · rintro ⟨rfl, ss, h1, h2, rfl⟩
      cases h1 with
      | last =>
        cases h2 with
        | cons _ _ k ks hi h2 =>
          cases h2
          refine ⟨k, [], (utf8 t).length, _, rfl, ⟨rfl, hi⟩, [], [], utf8 t, _, rfl,
            slice_text.2 ⟨rfl, rfl, t, [], by simp, rfl, rfl⟩, ?_⟩
          simp only
          rw [if_pos (by rw [hlen]; omega)]
          exact ⟨rfl, rfl, rfl⟩
      | enough s r =>
        cases h2 with
        | cons _ _ k ks hi h2 =>
          cases h2
          refine ⟨k, [], (utf8 s).length, _, rfl, ⟨rfl, hi⟩, [], [], utf8 s, _, rfl,
            slice_text.2 ⟨rfl, rfl, s, r, rfl, rfl, rfl⟩, ?_⟩
          split
          · exact ⟨rfl, rfl, rfl⟩
          · exact ⟨[], [], [], _, rfl, ⟨rfl, rfl, rfl⟩, rfl, rfl, rfl⟩
      | more n s ch r ss hch h1 =>
        cases h2 with
        | cons _ _ k ks hi h2 =>
          have hone := (enc_one ch).2 hch
          refine ⟨k, ks, (utf8 s).length, _, rfl, ⟨rfl, hi⟩, [], ks, utf8 s, _, rfl,
            slice_text.2 ⟨rfl, rfl, s, ch :: r, rfl, rfl, rfl⟩, ?_⟩
          simp only
          rw [if_neg (by rw [hlen, utf8_append, List.length_append, utf8_cons, List.length_append]; omega)]
          refine ⟨ks, [], ss.map utf8, _, by simp, ?_, rfl, rfl, rfl⟩
          have e1 : a ++ (s ++ ch :: r) = (a ++ (s ++ [ch])) ++ r := by simp
          have e2 : (utf8 a).length + (utf8 s).length + 1 = (utf8 (a ++ (s ++ [ch]))).length := by
            rw [utf8_append, utf8_append, List.length_append, List.length_append]
            have : (utf8 [ch]).length = 1 := by rw [utf8_cons, List.length_append, hone]; rfl
            omega
          rw [e1, e2]
          exact (pool_cut (n + 1) _ _ _ _ _ _).2 ⟨rfl, ss, h1, h2, rfl⟩

/-- A string table of the grammar. -/
theorem strings_cut (n : Nat) (c : Code) (k : List UInt8) (l : List Str) (c' : Code) :
    stringsG n c k l c' ↔ c' = c ∧ ∃ ks blob sizes text ss, k = ks ++ blob ++ sizes ∧ ks.length = 4 ∧ twos32 (unsignedLE ks) = blob.length ∧
      Lossy blob text ∧ Cut n text ss ∧ Sizes ss sizes ∧ l = ss.map utf8 := by
  constructor
  · rintro ⟨ks, _, sz, _, rfl, ⟨rfl, hl, rfl⟩, _, _, _, _, rfl, ⟨rfl, h0, rfl⟩, blob, _, _, _, rfl, ⟨rfl, hb, rfl⟩, _, sizes, _, _, rfl, ⟨rfl, rfl, t, ht, rfl⟩, h⟩
    have := (pool_cut n [] t _ _ _ _).1 h
    obtain ⟨rfl, ss, h1, h2, rfl⟩ := this
    exact ⟨rfl, ks, _, sizes, t, ss, by simp, hl, by rw [hb]; omega, ht, h1, h2, rfl⟩
  · rintro ⟨rfl, ks, blob, sizes, t, ss, rfl, hl, hs, ht, h1, h2, rfl⟩
    refine ⟨ks, blob ++ sizes, _, _, by simp, ⟨rfl, hl, rfl⟩, [], _, (), _, rfl, ⟨rfl, by omega, rfl⟩, blob, sizes, blob, _, rfl,
      ⟨rfl, by rw [hs]; simp, rfl⟩, [], sizes, utf8 t, _, rfl, ⟨rfl, rfl, t, ht, rfl⟩, ?_⟩
    exact (pool_cut n [] t _ _ _ _).2 ⟨rfl, ss, h1, h2, rfl⟩

/-! ## Names -/

/-- The cache holds strings of the pool `S` of which `N` were declared. -/
def Cached (N : Nat) (S : List Str) (c : Code) : Prop := c.nstrings = N ∧ c.strings = S ∧ ∀ x, some x ∈ c.ustrings → x ∈ S

/-- Decoding with a good cache keeps it good and gives values with `Q`. -/
def InS (N : Nat) (S : List Str) {α : Type} (g : G α) (Q : α → Prop) : Prop :=
  ∀ c k a c', Cached N S c → g c k a c' → Cached N S c' ∧ Q a

/-- A string of the pool, or one that is missing. -/
def Name (N : Nat) (S : List Str) (x : Str) : Prop := x ∈ S ∨ (x = [] ∧ S.length < N)

/-- The names of a type are strings, and those of fields and methods are hashed right. -/
def Named (N : Nat) (S : List Str) (t : ValueType) : Prop :=
  (∀ x ∈ namesOf t, Name N S x) ∧ (∀ f ∈ fieldsOf t, f.hashedName = crc f.name) ∧ (∀ f ∈ methodsOf t, f.hashedName = crc f.name)

namespace InS

variable {N : Nat} {S : List Str}

theorem pure {α : Type} {a : α} {Q : α → Prop} (h : Q a) : InS N S (Pure.pure a : G α) Q := by
  rintro c k b c' hc ⟨rfl, rfl, rfl⟩; exact ⟨hc, h⟩
theorem bind {α β : Type} {x : G α} {f : α → G β} {Q : α → Prop} {R : β → Prop} (hx : InS N S x Q) (hf : ∀ a, Q a → InS N S (f a) R) :
    InS N S (x >>= f) R := by
  rintro c k b c'' hc ⟨k1, k2, a, c', rfl, h1, h2⟩
  obtain ⟨h3, h4⟩ := hx _ _ _ _ hc h1
  exact hf a h4 _ _ _ _ h3 h2
theorem of {α : Type} {g : G α} (h : KeepsOn Refs g) : InS N S g (fun _ => True) := by
  rintro c k a c' hc hg
  obtain ⟨rfl, _⟩ := h _ _ _ _ hg
  exact ⟨hc, trivial⟩
theorem many {α : Type} {g : G α} {Q : α → Prop} (h : InS N S g Q) : ∀ n, InS N S (G.many g n) (fun l => ∀ a ∈ l, Q a)
  | 0 => pure (by simp)
  | n + 1 => bind h fun a ha => bind (many h n) fun l hl => pure (by
      intro x hx
      rcases List.mem_cons.1 hx with rfl | hx
      · exact ha
      · exact hl x hx)

theorem mem_insertIdx {α : Type} {l : List α} {i : Nat} {a x : α} (h : x ∈ l.insertIdx i a) : x = a ∨ x ∈ l := by
  induction l generalizing i with
  | nil =>
    cases i with
    | zero => simpa using h
    | succ i => simp at h
  | cons y l ih =>
    cases i with
    | zero => simpa using h
    | succ i =>
      simp only [List.insertIdx_succ_cons, List.mem_cons] at h
      rcases h with rfl | h
      · exact .inr (by simp)
      · rcases ih h with h | h
        · exact .inl h
        · exact .inr (by simp [h])

theorem ustringRef : InS N S ustringRefG (Name N S) := by
  rintro c k a c' ⟨hn, hs, hc⟩ ⟨_, j, _, hj, (⟨h, rfl⟩ | ⟨_, rfl, rfl⟩)⟩
  · exact ⟨⟨hn, hs, hc⟩, .inl (hc a (List.mem_of_getElem? h))⟩
  · refine ⟨⟨hn, hs, ?_⟩, ?_⟩
    · intro x hx
      rcases mem_insertIdx hx with h | h
      · exact hs ▸ List.mem_of_getElem? h.symm
      · exact hc x h
    · cases e : c.strings[j]? with
      | some x => exact .inl (hs ▸ List.mem_of_getElem? e)
      | none =>
        refine .inr ⟨rfl, ?_⟩
        rw [← hs, ← hn]
        have := List.getElem?_eq_none_iff.1 e
        omega

theorem sup : InS N S superG (fun _ => True) := by
  rintro c k a c' hc ⟨rfl, _⟩; exact ⟨hc, trivial⟩
theorem binding : InS N S bindingG (fun _ => True) := bind (of .natG) fun _ _ => bind (of .natG) fun _ _ => pure trivial
theorem field : InS N S fieldG (fun f => Name N S f.name ∧ f.hashedName = crc f.name) :=
  bind ustringRef fun _ h => bind (of .typeRefG) fun _ _ => pure ⟨h, rfl⟩
theorem proto : InS N S protoG (fun f => Name N S f.name ∧ f.hashedName = crc f.name) :=
  bind ustringRef fun _ h => bind (of .natG) fun _ _ => bind (of .idxG) fun _ _ => pure ⟨h, rfl⟩
theorem construct : InS N S constructG (fun f => Name N S f.name) :=
  bind ustringRef fun _ h => bind (of .natG) fun _ _ => bind (of (.many .typeRefG _)) fun _ _ => pure h

theorem obj (a : Option Str) (ha : a = none) (kd : TypeKind) : InS N S (objTypeG >>= fun u => Pure.pure (ValueType.mk u a none kd)) (Named N S) := by
  subst ha
  refine bind (Q := fun u => Named N S (ValueType.mk u none none kd)) ?_ fun _ h => pure h
  refine bind ustringRef fun _ h1 => bind sup fun _ _ => bind (of .natG) fun _ _ => bind (of .natG) fun _ _ =>
    bind (of .natG) fun _ _ => bind (of .natG) fun _ _ => bind (many field _) fun _ h2 => bind (many proto _) fun _ h3 =>
    bind (many binding _) fun _ _ => pure ⟨?_, fun f hf => (h2 f hf).2, fun f hf => (h3 f hf).2⟩
  intro x hx
  simp only [namesOf, fieldsOf, methodsOf, Option.toList, List.nil_append, List.mem_append, List.mem_map, List.mem_singleton] at hx
  rcases hx with (⟨f, hf, rfl⟩ | ⟨f, hf, rfl⟩) | rfl
  · exact (h2 f hf).1
  · exact (h3 f hf).1
  · exact h1

theorem virt (kd : TypeKind) : InS N S (virtualTypeG >>= fun u => Pure.pure (ValueType.mk u none none kd)) (Named N S) := by
  refine bind (Q := fun u => Named N S (ValueType.mk u none none kd)) ?_ fun _ h => pure h
  refine bind (of .natG) fun _ _ => bind (many field _) fun _ h2 => pure ⟨?_, fun f hf => (h2 f hf).2, fun f hf => by simp [methodsOf] at hf⟩
  intro x hx
  simp only [namesOf, fieldsOf, methodsOf, Option.toList, List.nil_append, List.append_nil, List.map_nil, List.mem_map] at hx
  obtain ⟨f, hf, rfl⟩ := hx
  exact (h2 f hf).1

theorem enum (kd : TypeKind) : InS N S (enumTypeG >>= fun u => Pure.pure (ValueType.mk u none none kd)) (Named N S) := by
  refine bind (Q := fun u => Named N S (ValueType.mk u none none kd)) ?_ fun _ h => pure h
  refine bind ustringRef fun _ h1 => bind (of .natG) fun _ _ => bind (of .natG) fun _ _ => bind (many construct _) fun _ h2 =>
    pure ⟨?_, fun f hf => by simp [fieldsOf] at hf, fun f hf => by simp [methodsOf] at hf⟩
  intro x hx
  simp only [namesOf, fieldsOf, methodsOf, Option.toList, List.nil_append, List.map_nil, List.mem_cons, List.mem_map] at hx
  rcases hx with rfl | ⟨f, hf, rfl⟩
  · exact h1
  · exact h2 f hf

theorem func (kd : TypeKind) : InS N S (funcTypeG >>= fun u => Pure.pure (ValueType.mk u none none kd)) (Named N S) := by
  refine bind (Q := fun u => Named N S (ValueType.mk u none none kd)) ?_ fun _ h => pure h
  exact bind (of .byteG) fun _ _ => bind (of (.many .typeRefG _)) fun _ _ => bind (of .typeRefG) fun _ _ =>
    pure ⟨fun x hx => by simp [namesOf, fieldsOf, methodsOf] at hx, fun f hf => by simp [fieldsOf] at hf, fun f hf => by simp [methodsOf] at hf⟩

theorem param (kd : TypeKind) : InS N S (typeRefG >>= fun p => Pure.pure (ValueType.mk .null none (some p) kd)) (Named N S) :=
  bind (of .typeRefG) fun _ _ =>
    pure ⟨fun x hx => by simp [namesOf, fieldsOf, methodsOf] at hx, fun f hf => by simp [fieldsOf] at hf, fun f hf => by simp [methodsOf] at hf⟩

theorem abs (kd : TypeKind) : InS N S (ustringRefG >>= fun p => Pure.pure (ValueType.mk .null (some p) none kd)) (Named N S) :=
  bind ustringRef fun _ h => pure ⟨fun x hx => by
    simp [namesOf, fieldsOf, methodsOf] at hx
    subst hx; exact h, fun f hf => by simp [fieldsOf] at hf, fun f hf => by simp [methodsOf] at hf⟩

theorem none (kd : TypeKind) : Named N S (ValueType.mk .null none none kd) :=
  ⟨fun x hx => by simp [namesOf, fieldsOf, methodsOf] at hx, fun f hf => by simp [fieldsOf] at hf, fun f hf => by simp [methodsOf] at hf⟩

theorem typ : InS N S typeG (Named N S) := by
  refine bind (of .byteG) fun _ _ => bind (of (.guard _)) fun _ _ => bind (of (.some _)) fun kd _ => ?_
  cases kd
  case HFUN => exact func _
  case HMETHOD => exact func _
  case HOBJ => exact obj _ rfl _
  case HSTRUCT => exact obj _ rfl _
  case HREF => exact param _
  case HVIRTUAL => exact virt _
  case HABSTRACT => exact abs _
  case HENUM => exact enum _
  case HNULL => exact param _
  case HPACKED => exact param _
  all_goals exact pure (none _)

/-- The loop over the types. -/
theorem types : ∀ (n a : Nat) (b c : Code) (k : List UInt8) (b' c' : Code), Cached N S b → (∀ t ∈ b.types, Named N S t) →
    G.loop typesStepG a n b c k b' c' → ∀ t ∈ b'.types, Named N S t
  | 0, a, b, c, k, b', c', _, hb, ⟨_, h2, _⟩ => by subst h2; exact hb
  | n + 1, a, b, c, k, b', c', hc, hb, ⟨ka, kb, b1, c1, hk, h1, h2⟩ => by
    obtain ⟨_, _, _, _, rfl, ⟨rfl, rfl⟩, kt, _, t, _, rfl, h, _, _, _, _, rfl, ⟨rfl, rfl, rfl⟩, _, _, _, _, rfl, ⟨rfl, _, rfl⟩, _, _, _, _, rfl, ⟨rfl, rfl⟩, rfl, rfl, rfl⟩ := h1
    obtain ⟨h3, h4⟩ := typ _ _ _ _ hc h
    obtain ⟨u, rfl⟩ := KeepsButCache.typeG _ _ _ _ h
    refine types n (a + 1) _ _ kb b' c' ?_ ?_ h2
    · exact h3
    · intro t' ht'
      rcases mem_insertIdx ht' with rfl | h
      · exact h4
      · exact hb _ h

/-- The loop over the natives. -/
theorem natives : ∀ (n a : Nat) (b c : Code) (k : List UInt8) (b' c' : Code), b.strings = S → (c.strings = [] ∨ c.strings = S) →
    (∀ x ∈ b.natives, x.lib ∈ S ∧ x.name ∈ S) → G.loop nativesStepG a n b c k b' c' → ∀ x ∈ b'.natives, x.lib ∈ S ∧ x.name ∈ S
  | 0, _, b, c, k, b', c', _, _, h, ⟨_, e, _⟩ => by subst e; exact h
  | n + 1, a, b, c, k, b', c', hb, hc, h, ⟨k1, k2, b1, c1, hk, h1, h2⟩ => by
    obtain ⟨ka, kb, x, c2, _, hx, _, _, _, _, _, ⟨_, hs⟩, _, rfl, rfl⟩ := h1
    have hx' : x.lib ∈ S ∧ x.name ∈ S := by
      obtain ⟨_, _, l, _, _, ⟨rfl, _, j, _, _, h3⟩, _, _, m, _, _, ⟨rfl, _, j', _, _, h4⟩, _, _, _, _, _, _, _, _, _, _, _, _, _, rfl, _⟩ := hx
      rcases hc with hc | hc
      · rw [hc] at h3; simp at h3
      · rw [hc] at h3 h4
        exact ⟨List.mem_of_getElem? h3, List.mem_of_getElem? h4⟩
    refine natives n (a + 1) { b with natives := b.natives ++ [x] } c1 k2 b' c' hb (Or.inr ?_) ?_ h2
    · rw [hs]; exact hb
    · intro y hy
      rcases List.mem_append.1 hy with hy | hy
      · exact h y hy
      · rw [List.mem_singleton.1 hy]; exact hx'

end InS

end Verif.Brass
