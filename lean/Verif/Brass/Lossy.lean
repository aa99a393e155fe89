import Verif.Brass.Utf8Lemmas
import Verif.Spec.Base

/-!
# `String::from_utf8_lossy` does what Unicode prescribes
-/

namespace Verif.Brass.Spec

open Verif Verif.Brass

/-- A continuation byte. -/
abbrev C (n : Nat) : Prop := 0x80 ≤ n ∧ n < 0xC0
/-- A second byte of three. -/
abbrev S3 (b c : Nat) : Prop := C c ∧ (b = 0xE0 → 0xA0 ≤ c) ∧ (b = 0xED → c ≤ 0x9F)
/-- A second byte of four. -/
abbrev S4 (b c : Nat) : Prop := C c ∧ (b = 0xF0 → 0x90 ≤ c) ∧ (b = 0xF4 → c ≤ 0x8F)

theorem second3_iff (b c : UInt8) : second3 b c = true ↔ S3 b.toNat c.toNat := by
  unfold second3 S3 C
  simp only [beq_iff_eq, ← UInt8.toNat_inj, UInt8.le_iff_toNat_le]
  have k1 : (0xE0 : UInt8).toNat = 0xE0 := rfl
  have k2 : (0xED : UInt8).toNat = 0xED := rfl
  have k3 : (0xA0 : UInt8).toNat = 0xA0 := rfl
  have k4 : (0xBF : UInt8).toNat = 0xBF := rfl
  have k5 : (0x80 : UInt8).toNat = 0x80 := rfl
  have k6 : (0x9F : UInt8).toNat = 0x9F := rfl
  rw [k1, k2, k3, k4, k5, k6]
  split
  · simp only [Bool.and_eq_true, decide_eq_true_eq]; omega
  · split <;> simp only [Bool.and_eq_true, decide_eq_true_eq] <;> omega

theorem second4_iff (b c : UInt8) : second4 b c = true ↔ S4 b.toNat c.toNat := by
  unfold second4 S4 C
  simp only [beq_iff_eq, ← UInt8.toNat_inj, UInt8.le_iff_toNat_le]
  have k1 : (0xF0 : UInt8).toNat = 0xF0 := rfl
  have k2 : (0xF4 : UInt8).toNat = 0xF4 := rfl
  have k3 : (0x90 : UInt8).toNat = 0x90 := rfl
  have k4 : (0xBF : UInt8).toNat = 0xBF := rfl
  have k5 : (0x80 : UInt8).toNat = 0x80 := rfl
  have k6 : (0x8F : UInt8).toNat = 0x8F := rfl
  rw [k1, k2, k3, k4, k5, k6]
  split
  · simp only [Bool.and_eq_true, decide_eq_true_eq]; omega
  · split <;> simp only [Bool.and_eq_true, decide_eq_true_eq] <;> omega

/-- The four forms of a character. -/
inductive Form (v : Nat) : List UInt8 → Prop where
  | one (b : UInt8) : b.toNat = v → v < 0x80 → Form v [b]
  | two (b c : UInt8) : 0xC2 ≤ b.toNat → b.toNat ≤ 0xDF → C c.toNat → v = (b.toNat - 0xC0) * 64 + (c.toNat - 0x80) → Form v [b, c]
  | three (b c d : UInt8) : 0xE0 ≤ b.toNat → b.toNat ≤ 0xEF → S3 b.toNat c.toNat → C d.toNat →
      v = (b.toNat - 0xE0) * 4096 + (c.toNat - 0x80) * 64 + (d.toNat - 0x80) → Form v [b, c, d]
  | four (b c d e : UInt8) : 0xF0 ≤ b.toNat → b.toNat ≤ 0xF4 → S4 b.toNat c.toNat → C d.toNat → C e.toNat →
      v = (b.toNat - 0xF0) * 262144 + (c.toNat - 0x80) * 4096 + (d.toNat - 0x80) * 64 + (e.toNat - 0x80) → Form v [b, c, d, e]

theorem enc_form (ch : Char) : Form ch.val.toNat (String.utf8EncodeChar ch) := by
  unfold String.utf8EncodeChar
  have hv : ch.val.toNat < 0xD800 ∨ (0xDFFF < ch.val.toNat ∧ ch.val.toNat < 0x110000) := ch.valid
  generalize ch.val.toNat = v at hv
  simp only
  split
  · exact .one _ (by rw [ofNat8] <;> omega) (by omega)
  · split
    · have k1 := ofNat8 (n := v / 64 % 32 + 192) (by omega)
      have k2 := ofNat8 (n := v % 64 + 128) (by omega)
      exact .two _ _ (by omega) (by omega) (by omega) (by omega)
    · split
      · have k1 := ofNat8 (n := v / 4096 % 16 + 224) (by omega)
        have k2 := ofNat8 (n := v / 64 % 64 + 128) (by omega)
        have k3 := ofNat8 (n := v % 64 + 128) (by omega)
        exact .three _ _ _ (by omega) (by omega) (by omega) (by omega) (by omega)
      · have k1 := ofNat8 (n := v / 262144 % 8 + 240) (by omega)
        have k2 := ofNat8 (n := v / 4096 % 64 + 128) (by omega)
        have k3 := ofNat8 (n := v / 64 % 64 + 128) (by omega)
        have k4 := ofNat8 (n := v % 64 + 128) (by omega)
        exact .four _ _ _ _ (by omega) (by omega) (by omega) (by omega) (by omega) (by omega)

theorem form_inj {v : Nat} {l l' : List UInt8} (h : Form v l) (h' : Form v l') : l = l' := by
  cases h <;> cases h' <;> simp only [List.cons.injEq, and_true, reduceCtorEq, ← UInt8.toNat_inj, and_false] <;> omega

theorem form_val {v v' : Nat} {l : List UInt8} (h : Form v l) (h' : Form v' l) : v = v' := by
  cases h <;> cases h' <;> omega

theorem form_lt {v : Nat} {l : List UInt8} (h : Form v l) : v < 0xD800 ∨ (0xDFFF < v ∧ v < 0x110000) := by
  cases h <;> omega

/-- Every byte string of one of the four forms is a character. -/
theorem form_enc {v : Nat} {l : List UInt8} (h : Form v l) : ∃ ch, String.utf8EncodeChar ch = l := by
  have hv := form_lt h
  let ch : Char := ⟨UInt32.ofNat v, by
    have : (UInt32.ofNat v).toNat = v := UInt32.toNat_ofNat_of_lt' (by show v < 4294967296; omega)
    show (UInt32.ofNat v).toNat < 0xD800 ∨ (0xDFFF < (UInt32.ofNat v).toNat ∧ (UInt32.ofNat v).toNat < 0x110000)
    rw [this]; exact hv⟩
  have hc : ch.val.toNat = v := UInt32.toNat_ofNat_of_lt' (by show v < 4294967296; omega)
  exact ⟨ch, form_inj (hc ▸ enc_form ch) h⟩

theorem enc_inj {a b : Char} (h : String.utf8EncodeChar a = String.utf8EncodeChar b) : a = b :=
  Char.ext (UInt32.toNat_inj.mp (form_val (enc_form a) (h ▸ enc_form b)))

/-- The length of a character is determined by its first byte. -/
theorem form_prefix {v v' : Nat} {l l' r r' : List UInt8} (h : Form v l) (h' : Form v' l') (e : l ++ r = l' ++ r') : l = l' ∧ r = r' := by
  cases h <;> cases h' <;> simp only [List.cons_append, List.nil_append, List.cons.injEq] at e <;>
    simp only [List.cons.injEq, and_true, reduceCtorEq, and_false, false_and] <;>
    first
    | (obtain ⟨h1, e⟩ := e; subst h1; omega)
    | simp [e]

/-! ## The specification determines its value -/

theorem Lossy.unique {l : List UInt8} {s s' : Text} (h : Lossy l s) (h' : Lossy l s') : s = s' := by
  induction h generalizing s' with
  | done =>
    generalize e : ([] : List UInt8) = l at h'
    cases h' with
    | done => rfl
    | char ch rest s _ => have := List.append_eq_nil_iff.mp e.symm; have hf := enc_form ch; rw [this.1] at hf; cases hf
    | bad k rest s hk => have := List.append_eq_nil_iff.mp e.symm; exact absurd this.1 hk
  | char ch rest s _ ih =>
    generalize e : String.utf8EncodeChar ch ++ rest = l at h'
    cases h' with
    | done => have := List.append_eq_nil_iff.mp e; have hf := enc_form ch; rw [this.1] at hf; cases hf
    | char ch' rest' s' h' =>
      obtain ⟨e1, e2⟩ := form_prefix (enc_form ch) (enc_form ch') e
      subst e2
      rw [enc_inj e1, ih h']
    | bad k rest' s' _ _ hno => exact absurd ⟨rest, e⟩ (hno ch)
  | bad k rest s hk hs hno hmax _ ih =>
    generalize e : k ++ rest = l at h'
    cases h' with
    | done => have := List.append_eq_nil_iff.mp e; exact absurd this.1 hk
    | char ch' rest' s' h' => exact absurd ⟨rest', e.symm⟩ (hno ch')
    | bad k' rest' s' hk' hs' _ hmax' h' =>
      have hl : k.length = k'.length := by
        have p1 : 0 < k.length := List.length_pos_iff.mpr hk
        have p2 : 0 < k'.length := List.length_pos_iff.mpr hk'
        rcases Nat.lt_trichotomy k.length k'.length with h | h | h
        · have := hmax k' ⟨rest', e.symm⟩ h
          rcases hs' with h1 | h1
          · exact absurd h1 this
          · omega
        · exact h
        · have := hmax' k ⟨rest, e⟩ h
          rcases hs with h1 | h1
          · exact absurd h1 this
          · omega
      obtain ⟨e1, e2⟩ := List.append_inj e hl
      subst e2
      rw [ih h']

/-! ## The model meets it -/

/-- The prefixes of characters. -/
inductive Start : List UInt8 → Prop where
  | nil : Start []
  | one (b : UInt8) : b.toNat < 0x80 ∨ (0xC2 ≤ b.toNat ∧ b.toNat ≤ 0xF4) → Start [b]
  | two (b c : UInt8) : (0xC2 ≤ b.toNat ∧ b.toNat ≤ 0xDF ∧ C c.toNat) ∨ (0xE0 ≤ b.toNat ∧ b.toNat ≤ 0xEF ∧ S3 b.toNat c.toNat) ∨
      (0xF0 ≤ b.toNat ∧ b.toNat ≤ 0xF4 ∧ S4 b.toNat c.toNat) → Start [b, c]
  | three (b c d : UInt8) : (0xE0 ≤ b.toNat ∧ b.toNat ≤ 0xEF ∧ S3 b.toNat c.toNat ∧ C d.toNat) ∨
      (0xF0 ≤ b.toNat ∧ b.toNat ≤ 0xF4 ∧ S4 b.toNat c.toNat ∧ C d.toNat) → Start [b, c, d]
  | four (b c d e : UInt8) : 0xF0 ≤ b.toNat → b.toNat ≤ 0xF4 → S4 b.toNat c.toNat → C d.toNat → C e.toNat → Start [b, c, d, e]

theorem start_of {k : List UInt8} (h : StartsChar k) : Start k := by
  obtain ⟨ch, r, e⟩ := h
  have hf := enc_form ch
  rw [← e] at hf
  generalize hl : k ++ r = l at hf
  match k, hl with
  | [], _ => exact .nil
  | [b], hl => cases hf <;> simp at hl <;> (have := hl.1; subst this; exact .one _ (by omega))
  | [b, c], hl =>
    cases hf <;> simp at hl <;> (obtain ⟨h1, h2, _⟩ := hl; subst h1; subst h2; exact .two _ _ (by omega))
  | [b, c, d], hl =>
    cases hf <;> simp at hl <;> (obtain ⟨h1, h2, h3, _⟩ := hl; subst h1; subst h2; subst h3; exact .three _ _ _ (by omega))
  | [b, c, d, e], hl =>
    cases hf <;> simp at hl
    obtain ⟨h1, h2, h3, h4, _⟩ := hl; subst h1; subst h2; subst h3; subst h4
    exact .four _ _ _ _ (by omega) (by omega) (by omega) (by omega) (by omega)
  | _ :: _ :: _ :: _ :: _ :: _, hl => cases hf <;> simp at hl

/-- A prefix of a byte string of one of the four forms starts a character. -/
theorem starts {v : Nat} {k l : List UInt8} (h : Form v l) (hp : k <+: l) : StartsChar k := by
  obtain ⟨ch, e⟩ := form_enc h
  exact ⟨ch, e ▸ hp⟩

/-- U+FFFD -/
theorem enc_replacement : String.utf8EncodeChar '\uFFFD' = replacement := by decide

/-- What the rule for bad pieces needs: there is no character, and no longer prefix of one. -/
theorem Lossy.bad' (k rest : List UInt8) (s : Text) (hk : k ≠ []) (hs : StartsChar k ∨ k.length = 1)
    (hno : ∀ v l, Form v l → ¬ l <+: k)
    (hmax : ∀ b, rest.head? = some b → ¬ Start (k ++ [b])) (h : Lossy rest s) : Lossy (k ++ rest) ('\uFFFD' :: s) := by
  have hmax' : ∀ k', k' <+: k ++ rest → k.length < k'.length → ¬ StartsChar k' := by
    intro k' hp hl hst
    obtain ⟨t, ht⟩ := hp
    have hk' : ∃ u, k' = k ++ u ∧ u <+: rest := by
      refine ⟨k'.drop k.length, ?_, ?_⟩
      · have h1 : k'.take k.length = k := by
          have := congrArg (List.take k.length) ht
          rw [List.take_append_of_le_length (by omega), List.take_left] at this
          exact this
        conv => lhs; rw [← List.take_append_drop k.length k', h1]
      · have := congrArg (List.drop k.length) ht
        rw [List.drop_append_of_le_length (by omega), List.drop_left] at this
        exact ⟨t, this⟩
    obtain ⟨u, hu, ⟨t', ht'⟩⟩ := hk'
    match u, hu with
    | [], hu => simp [hu] at hl
    | b :: u, hu =>
      refine hmax b (by rw [← ht']; rfl) (start_of ?_)
      obtain ⟨ch, hp⟩ := hst
      exact ⟨ch, List.IsPrefix.trans ⟨u, by simp [hu]⟩ hp⟩
  refine .bad k rest s hk hs ?_ hmax' h
  intro ch hp
  by_cases hl : k.length < (String.utf8EncodeChar ch).length
  · exact hmax' _ hp hl ⟨ch, List.prefix_rfl⟩
  · exact hno _ _ (enc_form ch) (List.prefix_of_prefix_length_le hp (List.prefix_append _ _) (by omega))

theorem good {v : Nat} {w rest : List UInt8} (h : Form v w) (ih : ∃ s, Lossy rest s ∧ fromUtf8Lossy rest = utf8 s) :
    ∃ s, Lossy (w ++ rest) s ∧ w ++ fromUtf8Lossy rest = utf8 s := by
  obtain ⟨ch, hc⟩ := form_enc h
  obtain ⟨s, h1, h2⟩ := ih
  refine ⟨ch :: s, hc ▸ .char ch rest s h1, ?_⟩
  rw [h2, utf8, utf8, List.flatMap_cons, hc]

theorem skip {k rest : List UInt8} (hk : k ≠ []) (hs : StartsChar k ∨ k.length = 1) (hno : ∀ v l, Form v l → ¬ l <+: k)
    (hmax : ∀ b, rest.head? = some b → ¬ Start (k ++ [b])) (ih : ∃ s, Lossy rest s ∧ fromUtf8Lossy rest = utf8 s) :
    ∃ s, Lossy (k ++ rest) s ∧ replacement ++ fromUtf8Lossy rest = utf8 s := by
  obtain ⟨s, h1, h2⟩ := ih
  refine ⟨'\uFFFD' :: s, .bad' k rest s hk hs hno hmax h1, ?_⟩
  rw [h2, utf8, utf8, List.flatMap_cons, enc_replacement]

theorem skip_end {k : List UInt8} (hk : k ≠ []) (hs : StartsChar k ∨ k.length = 1) (hno : ∀ v l, Form v l → ¬ l <+: k) :
    ∃ s, Lossy k s ∧ replacement = utf8 s := by
  have := skip (k := k) (rest := []) hk hs hno (by simp) ⟨[], .done, rfl⟩
  simpa [fromUtf8Lossy] using this

theorem not_form1 {b : UInt8} (h : 0x80 ≤ b.toNat) : ∀ v l, Form v l → ¬ l <+: [b] := by
  intro v l hf ⟨t, ht⟩
  cases hf <;> simp at ht
  obtain ⟨h1, h2⟩ := ht; subst h1; omega

theorem not_form2 {b c : UInt8} (h : 0xE0 ≤ b.toNat) : ∀ v l, Form v l → ¬ l <+: [b, c] := by
  intro v l hf ⟨t, ht⟩
  cases hf <;> simp at ht <;> (have := ht.1; subst this; omega)

theorem not_form3 {b c d : UInt8} (h : 0xF0 ≤ b.toNat) : ∀ v l, Form v l → ¬ l <+: [b, c, d] := by
  intro v l hf ⟨t, ht⟩
  cases hf <;> simp at ht <;> (have := ht.1; subst this; omega)

theorem start1 {b : UInt8} (h : 0xC2 ≤ b.toNat) (h' : b.toNat ≤ 0xF4) : StartsChar [b] := by
  have c80 : (0x80 : UInt8).toNat = 0x80 := rfl
  have cA0 : (0xA0 : UInt8).toNat = 0xA0 := rfl
  have c90 : (0x90 : UInt8).toNat = 0x90 := rfl
  by_cases h1 : b.toNat ≤ 0xDF
  · exact starts (.two b 0x80 h h1 (by omega) rfl) ⟨_, rfl⟩
  · by_cases h2 : b.toNat ≤ 0xEF
    · by_cases h3 : b.toNat = 0xE0
      · exact starts (.three b 0xA0 0x80 (by omega) h2 (by omega) (by omega) rfl) ⟨_, rfl⟩
      · exact starts (.three b 0x80 0x80 (by omega) h2 (by omega) (by omega) rfl) ⟨_, rfl⟩
    · by_cases h3 : b.toNat = 0xF0
      · exact starts (.four b 0x90 0x80 0x80 (by omega) h' (by omega) (by omega) (by omega) rfl) ⟨_, rfl⟩
      · exact starts (.four b 0x80 0x80 0x80 (by omega) h' (by omega) (by omega) (by omega) rfl) ⟨_, rfl⟩

theorem start2 {b c : UInt8} (h : (0xE0 ≤ b.toNat ∧ b.toNat ≤ 0xEF ∧ S3 b.toNat c.toNat) ∨ (0xF0 ≤ b.toNat ∧ b.toNat ≤ 0xF4 ∧ S4 b.toNat c.toNat)) :
    StartsChar [b, c] := by
  have c80 : (0x80 : UInt8).toNat = 0x80 := rfl
  rcases h with ⟨h1, h2, h3⟩ | ⟨h1, h2, h3⟩
  · exact starts (.three b c 0x80 h1 h2 h3 (by omega) rfl) ⟨_, rfl⟩
  · exact starts (.four b c 0x80 0x80 h1 h2 h3 (by omega) (by omega) rfl) ⟨_, rfl⟩

theorem start3 {b c d : UInt8} (h1 : 0xF0 ≤ b.toNat) (h2 : b.toNat ≤ 0xF4) (h3 : S4 b.toNat c.toNat) (h4 : C d.toNat) :
    StartsChar [b, c, d] := by
  have c80 : (0x80 : UInt8).toNat = 0x80 := rfl
  exact starts (.four b c d 0x80 h1 h2 h3 h4 (by omega) rfl) ⟨_, rfl⟩

/-- The model of `String::from_utf8_lossy` meets the specification. -/
theorem lossy_spec : ∀ (n : Nat) (l : List UInt8), l.length ≤ n → ∃ s, Lossy l s ∧ fromUtf8Lossy l = utf8 s
  | _, [], _ => ⟨[], .done, rfl⟩
  | 0, _ :: _, h => by simp at h
  | n + 1, b :: r, h => by
    have hr : r.length ≤ n := by simpa using h
    rw [fromUtf8Lossy.eq_def]
    simp only [UInt8.lt_iff_toNat_lt, UInt8.le_iff_toNat_le, Bool.and_eq_true, decide_eq_true_eq]
    have k1 : (0x80 : UInt8).toNat = 0x80 := rfl
    have k2 : (0xC2 : UInt8).toNat = 0xC2 := rfl
    have k3 : (0xDF : UInt8).toNat = 0xDF := rfl
    have k4 : (0xE0 : UInt8).toNat = 0xE0 := rfl
    have k5 : (0xEF : UInt8).toNat = 0xEF := rfl
    have k6 : (0xF0 : UInt8).toNat = 0xF0 := rfl
    have k7 : (0xF4 : UInt8).toNat = 0xF4 := rfl
    rw [k1, k2, k3, k4, k5, k6, k7]
    by_cases h1 : b.toNat < 0x80
    · rw [if_pos h1]
      exact good (.one b rfl h1) (lossy_spec n r hr)
    rw [if_neg h1]
    by_cases h2 : 0xC2 ≤ b.toNat ∧ b.toNat ≤ 0xDF
    · rw [if_pos h2]
      match r, hr with
      | [], _ => exact skip_end (by simp) (.inr rfl) (not_form1 (by omega))
      | c :: r1, hr =>
        have hr1 : r1.length ≤ n := by simp at hr; omega
        by_cases hc : isCont c = true
        · simp only [hc, if_true]
          exact good (.two b c h2.1 h2.2 ((isCont_iff c).1 hc) rfl) (lossy_spec n r1 hr1)
        · simp only [hc]
          refine skip (k := [b]) (by simp) (.inr rfl) (not_form1 (by omega)) ?_ (lossy_spec n (c :: r1) hr)
          rintro _ ⟨⟩ hs
          rw [isCont_iff] at hc
          cases hs; omega
    rw [if_neg h2]
    by_cases h3 : 0xE0 ≤ b.toNat ∧ b.toNat ≤ 0xEF
    · rw [if_pos h3]
      match r, hr with
      | [], _ => exact skip_end (by simp) (.inr rfl) (not_form1 (by omega))
      | c :: r1, hr =>
        have hr1 : r1.length ≤ n := by simp at hr; omega
        by_cases hc : second3 b c = true
        · simp only [hc, if_true]
          have hc' := (second3_iff b c).1 hc
          match r1, hr1 with
          | [], _ => exact skip_end (k := [b, c]) (by simp) (.inl (start2 (.inl ⟨h3.1, h3.2, hc'⟩))) (not_form2 (by omega))
          | d :: r2, hr1 =>
            have hr2 : r2.length ≤ n := by simp at hr1; omega
            by_cases hd : isCont d = true
            · simp only [hd, if_true]
              exact good (.three b c d h3.1 h3.2 hc' ((isCont_iff d).1 hd) rfl) (lossy_spec n r2 hr2)
            · simp only [hd]
              refine skip (k := [b, c]) (by simp) (.inl (start2 (.inl ⟨h3.1, h3.2, hc'⟩))) (not_form2 (by omega)) ?_ (lossy_spec n (d :: r2) hr1)
              rintro _ ⟨⟩ hs
              rw [isCont_iff] at hd
              cases hs; omega
        · simp only [hc]
          refine skip (k := [b]) (by simp) (.inr rfl) (not_form1 (by omega)) ?_ (lossy_spec n (c :: r1) hr)
          rintro _ ⟨⟩ hs
          rw [second3_iff] at hc
          cases hs; omega
    rw [if_neg h3]
    by_cases h4 : 0xF0 ≤ b.toNat ∧ b.toNat ≤ 0xF4
    · rw [if_pos h4]
      match r, hr with
      | [], _ => exact skip_end (by simp) (.inr rfl) (not_form1 (by omega))
      | c :: r1, hr =>
        have hr1 : r1.length ≤ n := by simp at hr; omega
        by_cases hc : second4 b c = true
        · simp only [hc, if_true]
          have hc' := (second4_iff b c).1 hc
          match r1, hr1 with
          | [], _ => exact skip_end (k := [b, c]) (by simp) (.inl (start2 (.inr ⟨h4.1, h4.2, hc'⟩))) (not_form2 (by omega))
          | d :: r2, hr1 =>
            have hr2 : r2.length ≤ n := by simp at hr1; omega
            by_cases hd : isCont d = true
            · simp only [hd, if_true]
              have hd' := (isCont_iff d).1 hd
              match r2, hr2 with
              | [], _ => exact skip_end (k := [b, c, d]) (by simp) (.inl (start3 h4.1 h4.2 hc' hd')) (not_form3 (by omega))
              | e :: r3, hr2 =>
                have hr3 : r3.length ≤ n := by simp at hr2; omega
                by_cases he : isCont e = true
                · simp only [he, if_true]
                  exact good (.four b c d e h4.1 h4.2 hc' hd' ((isCont_iff e).1 he) rfl) (lossy_spec n r3 hr3)
                · simp only [he]
                  refine skip (k := [b, c, d]) (by simp) (.inl (start3 h4.1 h4.2 hc' hd')) (not_form3 (by omega)) ?_ (lossy_spec n (e :: r3) hr2)
                  rintro _ ⟨⟩ hs
                  rw [isCont_iff] at he
                  cases hs; omega
            · simp only [hd]
              refine skip (k := [b, c]) (by simp) (.inl (start2 (.inr ⟨h4.1, h4.2, hc'⟩))) (not_form2 (by omega)) ?_ (lossy_spec n (d :: r2) hr1)
              rintro _ ⟨⟩ hs
              rw [isCont_iff] at hd
              cases hs; omega
        · simp only [hc]
          refine skip (k := [b]) (by simp) (.inr rfl) (not_form1 (by omega)) ?_ (lossy_spec n (c :: r1) hr)
          rintro _ ⟨⟩ hs
          rw [second4_iff] at hc
          cases hs; omega
    rw [if_neg h4]
    refine skip (k := [b]) (by simp) (.inr rfl) (not_form1 (by omega)) ?_ (lossy_spec n r hr)
    rintro x _ hs
    cases hs; omega

theorem lossy_iff (l : List UInt8) (a : List UInt8) : (∃ s, Lossy l s ∧ a = utf8 s) ↔ a = fromUtf8Lossy l := by
  obtain ⟨s, h1, h2⟩ := lossy_spec l.length l (Nat.le_refl _)
  constructor
  · rintro ⟨s', h, rfl⟩; rw [h.unique h1, h2]
  · rintro rfl; exact ⟨s, h1, h2⟩

theorem boundary_iff (s : List UInt8) (i : Nat) : Boundary s i ↔ isCharBoundary s i = true := by
  unfold Boundary isCharBoundary
  by_cases h0 : i = 0
  · simp [h0]
  · simp only [h0, if_false, false_or]
    cases h : s[i]? with
    | none => simp
    | some b =>
      have hl : i < s.length := by
        rcases Nat.lt_or_ge i s.length with h' | h'
        · exact h'
        · rw [List.getElem?_eq_none h'] at h; cases h
      have := isCont_iff b
      simp only [Option.some.injEq, exists_eq_left', Bool.not_eq_true', ← Bool.not_eq_true, this]
      omega

end Verif.Brass.Spec
