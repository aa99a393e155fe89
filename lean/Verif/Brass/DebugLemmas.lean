import Verif.Brass.DebugText
import Verif.Brass.TextLemmas
import Verif.Brass.HashLemmas

/-!
# Debug texts are one line each, and what they show can be read from them
-/

namespace Verif.Brass

open Verif Verif.Brass.Spec

/-! ## Digits -/

def hexChars : Text := t!"0123456789abcdef"

theorem digitChar_mem (n : Nat) (h : n < 16) : n.digitChar ∈ hexChars := by
  have : ∀ n : Fin 16, n.val.digitChar ∈ hexChars := by decide
  exact this ⟨n, h⟩

theorem digitChar_inj (n m : Nat) (h : n < 16) (h' : m < 16) (e : n.digitChar = m.digitChar) : n = m := by
  have : ∀ n m : Fin 16, n.val.digitChar = m.val.digitChar → n.val = m.val := by decide
  exact this ⟨n, h⟩ ⟨m, h'⟩ e

theorem digits_mem (b : Nat) (hb : 1 < b) (hb' : b ≤ 16) : ∀ (n : Nat) (ch : Char), ch ∈ Nat.toDigits b n → ch ∈ hexChars := by
  intro n
  induction n using Nat.strongRecOn with
  | ind n ih =>
    intro ch h
    by_cases hn : n < b
    · rw [Nat.toDigits_of_lt_base hn, List.mem_singleton] at h
      subst h
      exact digitChar_mem n (by omega)
    · rw [Nat.toDigits_of_base_le hb (by omega), List.mem_append, List.mem_singleton] at h
      rcases h with h | rfl
      · exact ih _ (Nat.div_lt_self (by omega) hb) ch h
      · exact digitChar_mem _ (Nat.lt_of_lt_of_le (Nat.mod_lt _ (by omega)) hb')

theorem digits_inj (b : Nat) (hb : 1 < b) (hb' : b ≤ 16) : ∀ n m : Nat, Nat.toDigits b n = Nat.toDigits b m → n = m := by
  have len : ∀ n, ¬ n < b → 1 < (Nat.toDigits b n).length := by
    intro n hn
    rw [Nat.toDigits_of_base_le hb (by omega), List.length_append]
    have := Nat.length_toDigits_pos (b := b) (n := n / b)
    simp only [List.length_singleton]
    omega
  have one : ∀ n, n < b → (Nat.toDigits b n).length = 1 := by
    intro n hn
    rw [Nat.toDigits_of_lt_base hn]; rfl
  intro n
  induction n using Nat.strongRecOn with
  | ind n ih =>
    intro m h
    by_cases hn : n < b
    · by_cases hm : m < b
      · rw [Nat.toDigits_of_lt_base hn, Nat.toDigits_of_lt_base hm] at h
        exact digitChar_inj _ _ (by omega) (by omega) (List.cons.inj h).1
      · have := congrArg List.length h
        have := one n hn
        have := len m hm
        omega
    · by_cases hm : m < b
      · have := congrArg List.length h
        have := len n hn
        have := one m hm
        omega
      · rw [Nat.toDigits_of_base_le hb (by omega), Nat.toDigits_of_base_le hb (n := m) (by omega)] at h
        obtain ⟨h1, h2⟩ := List.append_inj' h rfl
        have e1 := ih _ (Nat.div_lt_self (by omega) hb) _ h1
        have e2 := digitChar_inj _ _ (Nat.lt_of_lt_of_le (Nat.mod_lt _ (by omega)) hb') (Nat.lt_of_lt_of_le (Nat.mod_lt _ (by omega)) hb')
          (List.cons.inj h2).1
        rw [← Nat.div_add_mod n b, ← Nat.div_add_mod m b, e1, e2]

theorem decNat_inj {n m : Nat} (h : decNat n = decNat m) : n = m := digits_inj 10 (by decide) (by decide) n m h

/-! ## Words -/

/-- The characters of names and numbers. -/
def wordChar (ch : Char) : Bool := ch.isAlphanum || ch == '_' || ch == '-'

/-- A name or number. -/
def TextWord (s : Text) : Prop := s ≠ [] ∧ ∀ ch ∈ s, wordChar ch = true

instance (s : Text) : Decidable (TextWord s) := inferInstanceAs (Decidable (_ ∧ _))

theorem decNat_word (n : Nat) : TextWord (decNat n) := by
  refine ⟨Nat.toDigits_ne_nil, fun ch h => ?_⟩
  have := digits_mem 10 (by decide) (by decide) n ch h
  have key : ∀ ch ∈ hexChars, wordChar ch = true := by decide
  exact key ch this

theorem decInt_word (n : Int) : TextWord (decInt n) := by
  cases n with
  | ofNat n => exact decNat_word n
  | negSucc n =>
    refine ⟨by simp [decInt], fun ch h => ?_⟩
    simp only [decInt, List.mem_cons] at h
    rcases h with rfl | h
    · decide
    · exact (decNat_word _).2 ch h

theorem decInt_inj {n m : Int} (h : decInt n = decInt m) : n = m := by
  have key : ∀ (n m : Nat), decNat n ≠ '-' :: decNat m := by
    intro n m h
    have := digits_mem 10 (by decide) (by decide) n '-' (by show '-' ∈ decNat n; rw [h]; simp)
    exact absurd this (by decide)
  cases n <;> cases m <;> simp only [decInt] at h
  · rw [decNat_inj h]
  · exact absurd h (key _ _)
  · exact absurd h.symm (key _ _)
  · have := decNat_inj (List.cons.inj h).2
    rw [Nat.succ.inj this]

/-- What follows does not continue a word. -/
def TextEnds (x : Text) : Prop := ∀ ch, x.head? = some ch → wordChar ch = false

theorem word_unique : ∀ {a b x y : Text}, (∀ ch ∈ a, wordChar ch = true) → (∀ ch ∈ b, wordChar ch = true) → TextEnds x → TextEnds y → a ++ x = b ++ y → a = b ∧ x = y
  | [], [], _, _, _, _, _, _, h => ⟨rfl, h⟩
  | [], c :: b, x, y, _, hb, hx, _, h => by
    have h : x = c :: (b ++ y) := h
    have := hx c (by rw [h]; rfl)
    rw [hb c List.mem_cons_self] at this
    cases this
  | c :: a, [], x, y, ha, _, _, hy, h => by
    have h : c :: (a ++ x) = y := h
    have := hy c (by rw [← h]; rfl)
    rw [ha c List.mem_cons_self] at this
    cases this
  | c :: a, d :: b, x, y, ha, hb, hx, hy, h => by
    simp only [List.cons_append, List.cons.injEq] at h
    obtain ⟨h1, h2⟩ := h
    obtain ⟨h3, h4⟩ := word_unique (fun ch h => ha ch (List.mem_cons_of_mem _ h)) (fun ch h => hb ch (List.mem_cons_of_mem _ h)) hx hy h2
    exact ⟨by rw [h1, h3], h4⟩

/-! ## Strings -/

theorem upTo_unique {P : Char → Prop} {e : Char} (he : ¬ P e) : ∀ {a b x y : Text}, (∀ ch ∈ a, P ch) → (∀ ch ∈ b, P ch) → a ++ e :: x = b ++ e :: y → a = b ∧ x = y
  | [], [], _, _, _, _, h => ⟨rfl, (List.cons.inj h).2⟩
  | [], c :: b, _, _, _, hb, h => absurd (hb c List.mem_cons_self) (by rw [← (List.cons.inj h).1]; exact he)
  | c :: a, [], _, _, ha, _, h => absurd (ha c List.mem_cons_self) (by rw [(List.cons.inj h).1]; exact he)
  | c :: a, d :: b, x, y, ha, hb, h => by
    simp only [List.cons_append, List.cons.injEq] at h
    obtain ⟨h1, h2⟩ := h
    obtain ⟨h3, h4⟩ := upTo_unique he (fun ch h => ha ch (List.mem_cons_of_mem _ h)) (fun ch h => hb ch (List.mem_cons_of_mem _ h)) h2
    exact ⟨by rw [h1, h3], h4⟩

/-- The three forms of an escaped character. -/
inductive Escaped (ch : Char) : Text → Prop where
  | plain : ch ≠ '\\' → ch ≠ '"' → ch ≠ '\n' → Escaped ch [ch]
  | short (k : Char) : (k, ch) ∈ [('0', '\x00'), ('t', '\t'), ('r', '\r'), ('n', '\n'), ('\\', '\\'), ('"', '"')] → Escaped ch ['\\', k]
  | long : Escaped ch (['\\', 'u', '{'] ++ Nat.toDigits 16 ch.toNat ++ ['}'])

theorem escape_form (pr : Char → Bool) (ch : Char) : Escaped ch (escape pr ch) := by
  unfold escape
  split
  · next h => subst h; exact .short _ (by decide)
  split
  · next h => subst h; exact .short _ (by decide)
  split
  · next h => subst h; exact .short _ (by decide)
  split
  · next h => subst h; exact .short _ (by decide)
  split
  · next h => subst h; exact .short _ (by decide)
  split
  · next h => subst h; exact .short _ (by decide)
  split
  · next h1 h2 h3 _ => exact .plain h2 h3 h1
  · exact .long

theorem escaped_unique {a b : Char} {s t x y : Text} (ha : Escaped a s) (hb : Escaped b t) (h : s ++ x = t ++ y) : a = b ∧ x = y := by
  have short_u : ∀ (k c : Char), (k, c) ∈ [('0', '\x00'), ('t', '\t'), ('r', '\r'), ('n', '\n'), ('\\', '\\'), ('"', '"')] → k ≠ 'u' := by
    intro k c hk
    simp only [List.mem_cons, Prod.mk.injEq, List.not_mem_nil, or_false] at hk
    rcases hk with hk | hk | hk | hk | hk | hk <;> rw [hk.1] <;> decide
  cases ha with
  | plain h1 h2 h3 =>
    cases hb with
    | plain => exact List.cons.inj h
    | short k _ => exact absurd (List.cons.inj h).1 h1
    | long => exact absurd (List.cons.inj h).1 h1
  | short k hk =>
    cases hb with
    | plain h1 => exact absurd (List.cons.inj h).1.symm h1
    | short k' hk' =>
      simp only [List.cons_append, List.nil_append, List.cons.injEq, true_and] at h
      obtain ⟨rfl, rfl⟩ := h
      refine ⟨?_, rfl⟩
      simp only [List.mem_cons, Prod.mk.injEq, List.not_mem_nil, or_false] at hk hk'
      rcases hk with ⟨rfl, rfl⟩ | ⟨rfl, rfl⟩ | ⟨rfl, rfl⟩ | ⟨rfl, rfl⟩ | ⟨rfl, rfl⟩ | ⟨rfl, rfl⟩ <;>
        rcases hk' with ⟨h, rfl⟩ | ⟨h, rfl⟩ | ⟨h, rfl⟩ | ⟨h, rfl⟩ | ⟨h, rfl⟩ | ⟨h, rfl⟩ <;> first | rfl | (exact absurd h (by decide))
    | long =>
      simp only [List.cons_append, List.nil_append, List.append_assoc, List.cons.injEq, true_and] at h
      exact absurd h.1 (short_u _ _ hk)
  | long =>
    cases hb with
    | plain h1 => exact absurd (List.cons.inj h).1.symm h1
    | short k hk =>
      simp only [List.cons_append, List.nil_append, List.append_assoc, List.cons.injEq, true_and] at h
      exact absurd h.1.symm (short_u _ _ hk)
    | long =>
      simp only [List.cons_append, List.nil_append, List.append_assoc, List.cons.injEq, true_and] at h
      obtain ⟨h1, h2⟩ := upTo_unique (P := (· ∈ hexChars)) (e := '}') (by decide) (digits_mem 16 (by decide) (by decide) _)
        (digits_mem 16 (by decide) (by decide) _) h
      exact ⟨Char.toNat_inj.1 (digits_inj 16 (by decide) (by decide) _ _ h1), h2⟩

theorem escaped_head {ch : Char} {s x y : Text} (h : Escaped ch s) : s ++ x ≠ '"' :: y := by
  cases h with
  | plain h1 h2 h3 => exact fun h => h2 (List.cons.inj h).1
  | short k _ => exact fun h => absurd (List.cons.inj h).1 (by decide)
  | long => exact fun h => absurd (List.cons.inj h).1 (by decide)

theorem str_unique (pr : Char → Bool) : ∀ {s t x y : Text}, s.flatMap (escape pr) ++ '"' :: x = t.flatMap (escape pr) ++ '"' :: y → s = t ∧ x = y
  | [], [], _, _, h => ⟨rfl, (List.cons.inj h).2⟩
  | [], c :: t, _, _, h => by
    rw [List.flatMap_cons, List.append_assoc] at h
    exact absurd h.symm (escaped_head (escape_form pr c))
  | c :: s, [], _, _, h => by
    rw [List.flatMap_cons, List.append_assoc] at h
    exact absurd h (escaped_head (escape_form pr c))
  | c :: s, d :: t, x, y, h => by
    rw [List.flatMap_cons, List.flatMap_cons, List.append_assoc, List.append_assoc] at h
    obtain ⟨h1, h2⟩ := escaped_unique (escape_form pr c) (escape_form pr d) h
    obtain ⟨h3, h4⟩ := str_unique pr h2
    exact ⟨by rw [h1, h3], h4⟩

theorem escaped_line {ch : Char} {s : Text} (h : Escaped ch s) : '\n' ∉ s := by
  cases h with
  | plain h1 h2 h3 => simpa using Ne.symm h3
  | short k hk =>
    simp only [List.mem_cons, Prod.mk.injEq, List.not_mem_nil, or_false] at hk
    rcases hk with hk | hk | hk | hk | hk | hk <;> rw [hk.1] <;> decide
  | long =>
    intro h
    simp only [List.mem_append] at h
    rcases h with (h | h) | h
    · exact absurd h (by decide)
    · exact absurd (digits_mem 16 (by decide) (by decide) _ _ h) (by decide)
    · exact absurd h (by decide)

/-! ## Trees -/

mutual
/-- The names and numbers in a tree are words, and structures have fields. -/
def Dbg.Ok : Dbg → Prop
  | .atom s => TextWord s
  | .str _ => True
  | .tuple name value => TextWord name ∧ value.Ok
  | .struct name fields => TextWord name ∧ fields ≠ [] ∧ okFields fields
  | .list items => okItems items
/-- … in a field -/
def DbgField.Ok : DbgField → Prop
  | ⟨name, value⟩ => TextWord name ∧ value.Ok
/-- … in fields -/
def okFields : List DbgField → Prop
  | [] => True
  | f :: l => f.Ok ∧ okFields l
/-- … in items -/
def okItems : List Dbg → Prop
  | [] => True
  | v :: l => v.Ok ∧ okItems l
end

/-- What may follow a value. -/
def Stops (x : Text) : Prop := x = [] ∨ (∃ ch r, x = ch :: r ∧ ch ∈ [',', ')', ']', '\n']) ∨ ∃ r, x = ' ' :: '}' :: r

theorem Stops.ends {x : Text} (h : Stops x) : TextEnds x := by
  intro ch hc
  rcases h with rfl | ⟨c, r, rfl, h⟩ | ⟨r, rfl⟩
  · cases hc
  · cases hc
    simp only [List.mem_cons, List.not_mem_nil, or_false] at h
    rcases h with rfl | rfl | rfl | rfl <;> decide
  · cases hc; decide

theorem Stops.comma (x : Text) : Stops (',' :: x) := .inr (.inl ⟨_, _, rfl, by decide⟩)
theorem Stops.paren (x : Text) : Stops (')' :: x) := .inr (.inl ⟨_, _, rfl, by decide⟩)
theorem Stops.bracket (x : Text) : Stops (']' :: x) := .inr (.inl ⟨_, _, rfl, by decide⟩)
theorem Stops.brace (x : Text) : Stops (' ' :: '}' :: x) := .inr (.inr ⟨_, rfl⟩)
theorem Stops.not_paren {x r : Text} (h : Stops x) : x ≠ '(' :: r := by
  rintro rfl
  rcases h with h | ⟨_, _, h, h'⟩ | ⟨_, h⟩
  · cases h
  · cases h; exact absurd h' (by decide)
  · cases h
theorem Stops.not_brace {x r : Text} (h : Stops x) : x ≠ ' ' :: '{' :: r := by
  rintro rfl
  rcases h with h | ⟨_, _, h, h'⟩ | ⟨_, h⟩
  · cases h
  · cases h; exact absurd h' (by decide)
  · cases h

theorem TextEnds.of {ch : Char} {x : Text} (h : wordChar ch = false) : TextEnds (ch :: x) := by
  intro c hc; cases hc; exact h

theorem Stops.restItems (pr : Char → Bool) (l : List Dbg) (x : Text) : Stops (restItems pr l ++ ']' :: x) := by
  cases l with
  | nil => exact .bracket x
  | cons v l => exact .comma _

theorem Stops.restFields (pr : Char → Bool) (l : List DbgField) (x : Text) : Stops (restFields pr l ++ ' ' :: '}' :: x) := by
  cases l with
  | nil => exact .brace x
  | cons v l => exact .comma _

theorem word_head {s x : Text} (h : TextWord s) {ch : Char} (hc : wordChar ch = false) : ∀ r, s ++ x ≠ ch :: r := by
  intro r e
  rcases s with _ | ⟨c, s⟩
  · exact h.1 rfl
  · have := h.2 c List.mem_cons_self
    rw [(List.cons.inj e).1, hc] at this
    cases this

/-- The first character of a value tells what it is. -/
theorem Dbg.head (pr : Char → Bool) (v : Dbg) (h : v.Ok) : ∃ ch r, v.text pr = ch :: r ∧ (wordChar ch = true ∨ ch = '"' ∨ ch = '[') := by
  have key : ∀ {s x : Text}, TextWord s → ∃ ch r, s ++ x = ch :: r ∧ (wordChar ch = true ∨ ch = '"' ∨ ch = '[') := by
    intro s x hs
    rcases s with _ | ⟨c, s⟩
    · exact absurd rfl hs.1
    · exact ⟨c, s ++ x, rfl, .inl (hs.2 c List.mem_cons_self)⟩
  cases v with
  | atom s => rw [Dbg.text]; simpa using key (x := []) h
  | str s => rw [Dbg.text]; exact ⟨_, _, rfl, .inr (.inl rfl)⟩
  | tuple n v =>
    rw [Dbg.text, List.append_assoc, List.append_assoc]
    rw [Dbg.Ok] at h
    exact key h.1
  | struct n fs =>
    rw [Dbg.Ok] at h
    cases fs with
    | nil => rw [Dbg.text]; simpa using key (x := []) h.1
    | cons f fs => rw [Dbg.text, List.append_assoc, List.append_assoc, List.append_assoc]; exact key h.1
  | list l =>
    cases l with
    | nil => rw [Dbg.text]; exact ⟨_, _, rfl, .inr (.inr rfl)⟩
    | cons v l => rw [Dbg.text]; exact ⟨_, _, rfl, .inr (.inr rfl)⟩

mutual
theorem Dbg.unique (pr : Char → Bool) : ∀ (a b : Dbg) (x y : Text), a.Ok → b.Ok → Stops x → Stops y → a.text pr ++ x = b.text pr ++ y → a = b ∧ x = y
  | .atom s, b, x, y, ha, hb, hx, hy, h => by
    rw [Dbg.Ok] at ha
    cases b with
    | atom t =>
      rw [Dbg.Ok] at hb
      rw [Dbg.text, Dbg.text] at h
      obtain ⟨h1, h2⟩ := word_unique ha.2 hb.2 hx.ends hy.ends h
      exact ⟨by rw [h1], h2⟩
    | str t =>
      rw [Dbg.text, Dbg.text] at h
      exact absurd h (word_head ha (by decide) _)
    | tuple n v =>
      rw [Dbg.Ok] at hb
      rw [Dbg.text, Dbg.text] at h
      simp only [List.append_assoc, List.cons_append, List.nil_append] at h
      exact absurd (word_unique ha.2 hb.1.2 hx.ends (TextEnds.of (by decide)) h).2 hx.not_paren
    | struct n fs =>
      rw [Dbg.Ok] at hb
      rcases fs with _ | ⟨f, fs⟩
      · exact absurd rfl hb.2.1
      rw [Dbg.text, Dbg.text] at h
      simp only [List.append_assoc, List.cons_append, List.nil_append] at h
      exact absurd (word_unique ha.2 hb.1.2 hx.ends (TextEnds.of (by decide)) h).2 hx.not_brace
    | list l =>
      rw [Dbg.text] at h
      rcases l with _ | ⟨v, l⟩ <;> rw [Dbg.text] at h <;> exact absurd h (word_head ha (by decide) _)
  | .str s, b, x, y, _, hb, hx, hy, h => by
    rw [Dbg.text] at h
    simp only [List.append_assoc, List.cons_append, List.nil_append] at h
    cases b with
    | atom t => rw [Dbg.Ok] at hb; rw [Dbg.text] at h; exact absurd h.symm (word_head hb (by decide) _)
    | str t =>
      rw [Dbg.text] at h
      simp only [List.append_assoc, List.cons_append, List.nil_append] at h
      obtain ⟨h1, h2⟩ := str_unique pr (List.cons.inj h).2
      exact ⟨by rw [h1], h2⟩
    | tuple n v =>
      rw [Dbg.Ok] at hb; rw [Dbg.text, List.append_assoc, List.append_assoc, List.append_assoc] at h
      exact absurd h.symm (word_head hb.1 (by decide) _)
    | struct n fs =>
      rw [Dbg.Ok] at hb
      rcases fs with _ | ⟨f, fs⟩
      · exact absurd rfl hb.2.1
      rw [Dbg.text, List.append_assoc, List.append_assoc, List.append_assoc, List.append_assoc] at h
      exact absurd h.symm (word_head hb.1 (by decide) _)
    | list l => rcases l with _ | ⟨v, l⟩ <;> rw [Dbg.text] at h <;> exact absurd (List.cons.inj h).1 (by decide)
  | .tuple n v, b, x, y, ha, hb, hx, hy, h => by
    rw [Dbg.Ok] at ha
    rw [Dbg.text] at h
    simp only [List.append_assoc, List.cons_append, List.nil_append] at h
    cases b with
    | atom t =>
      rw [Dbg.Ok] at hb; rw [Dbg.text] at h
      exact absurd (word_unique ha.1.2 hb.2 (TextEnds.of (by decide)) hy.ends h).2.symm hy.not_paren
    | str t => rw [Dbg.text] at h; exact absurd h (word_head ha.1 (by decide) _)
    | tuple m w =>
      rw [Dbg.Ok] at hb
      rw [Dbg.text] at h
      simp only [List.append_assoc, List.cons_append, List.nil_append] at h
      obtain ⟨h1, h2⟩ := word_unique ha.1.2 hb.1.2 (TextEnds.of (by decide)) (TextEnds.of (by decide)) h
      obtain ⟨h3, h4⟩ := Dbg.unique pr v w _ _ ha.2 hb.2 (.paren _) (.paren _) (List.cons.inj h2).2
      exact ⟨by rw [h1, h3], (List.cons.inj h4).2⟩
    | struct m fs =>
      rw [Dbg.Ok] at hb
      rcases fs with _ | ⟨f, fs⟩
      · exact absurd rfl hb.2.1
      rw [Dbg.text] at h
      simp only [List.append_assoc, List.cons_append, List.nil_append] at h
      exact absurd (List.cons.inj (word_unique ha.1.2 hb.1.2 (TextEnds.of (by decide)) (TextEnds.of (by decide)) h).2).1 (by decide)
    | list l => rcases l with _ | ⟨w, l⟩ <;> rw [Dbg.text] at h <;> exact absurd h (word_head ha.1 (by decide) _)
  | .struct n [], _, _, _, ha, _, _, _, _ => by
    rw [Dbg.Ok] at ha
    exact absurd rfl ha.2.1
  | .struct n (f :: fs), b, x, y, ha, hb, hx, hy, h => by
    rw [Dbg.Ok, okFields] at ha
    rw [Dbg.text] at h
    simp only [List.append_assoc, List.cons_append, List.nil_append] at h
    cases b with
    | atom t =>
      rw [Dbg.Ok] at hb; rw [Dbg.text] at h
      exact absurd (word_unique ha.1.2 hb.2 (TextEnds.of (by decide)) hy.ends h).2.symm hy.not_brace
    | str t => rw [Dbg.text] at h; exact absurd h (word_head ha.1 (by decide) _)
    | tuple m w =>
      rw [Dbg.Ok] at hb
      rw [Dbg.text] at h
      simp only [List.append_assoc, List.cons_append, List.nil_append] at h
      exact absurd (List.cons.inj (word_unique ha.1.2 hb.1.2 (TextEnds.of (by decide)) (TextEnds.of (by decide)) h).2).1 (by decide)
    | struct m gs =>
      rcases gs with _ | ⟨g, gs⟩
      · rw [Dbg.Ok] at hb; exact absurd rfl hb.2.1
      rw [Dbg.Ok, okFields] at hb
      rw [Dbg.text] at h
      simp only [List.append_assoc, List.cons_append, List.nil_append] at h
      obtain ⟨h1, h2⟩ := word_unique ha.1.2 hb.1.2 (TextEnds.of (by decide)) (TextEnds.of (by decide)) h
      simp only [List.cons.injEq, true_and] at h2
      obtain ⟨h3, h4⟩ := DbgField.unique pr f g _ _ ha.2.2.1 hb.2.2.1 (.restFields pr fs x) (.restFields pr gs y) h2
      obtain ⟨h5, h6⟩ := restFields_unique pr fs gs x y ha.2.2.2 hb.2.2.2 h4
      exact ⟨by rw [h1, h3, h5], h6⟩
    | list l => rcases l with _ | ⟨w, l⟩ <;> rw [Dbg.text] at h <;> exact absurd h (word_head ha.1 (by decide) _)
  | .list [], b, x, y, ha, hb, hx, hy, h => by
    rw [Dbg.text] at h
    cases b with
    | atom t => rw [Dbg.Ok] at hb; rw [Dbg.text] at h; exact absurd h.symm (word_head hb (by decide) _)
    | str t => rw [Dbg.text] at h; exact absurd (List.cons.inj h).1 (by decide)
    | tuple m w =>
      rw [Dbg.Ok] at hb; rw [Dbg.text, List.append_assoc, List.append_assoc, List.append_assoc] at h
      exact absurd h.symm (word_head hb.1 (by decide) _)
    | struct m fs =>
      rw [Dbg.Ok] at hb
      rcases fs with _ | ⟨f, fs⟩
      · exact absurd rfl hb.2.1
      rw [Dbg.text, List.append_assoc, List.append_assoc, List.append_assoc, List.append_assoc] at h
      exact absurd h.symm (word_head hb.1 (by decide) _)
    | list l =>
      rcases l with _ | ⟨w, l⟩
      · rw [Dbg.text] at h
        exact ⟨rfl, List.append_cancel_left h⟩
      · rw [Dbg.Ok, okItems] at hb
        rw [Dbg.text] at h
        simp only [List.append_assoc, List.cons_append, List.nil_append] at h
        obtain ⟨ch, r, h1, h2⟩ := Dbg.head pr w hb.1
        rw [h1] at h
        have h3 := (List.cons.inj (List.cons.inj h).2).1
        subst h3
        rcases h2 with h2 | h2 | h2 <;> exact absurd h2 (by decide)
  | .list (v :: l), b, x, y, ha, hb, hx, hy, h => by
    rw [Dbg.Ok, okItems] at ha
    rw [Dbg.text] at h
    simp only [List.append_assoc, List.cons_append, List.nil_append] at h
    cases b with
    | atom t => rw [Dbg.Ok] at hb; rw [Dbg.text] at h; exact absurd h.symm (word_head hb (by decide) _)
    | str t => rw [Dbg.text] at h; exact absurd (List.cons.inj h).1 (by decide)
    | tuple m w =>
      rw [Dbg.Ok] at hb; rw [Dbg.text, List.append_assoc, List.append_assoc, List.append_assoc] at h
      exact absurd h.symm (word_head hb.1 (by decide) _)
    | struct m fs =>
      rw [Dbg.Ok] at hb
      rcases fs with _ | ⟨f, fs⟩
      · exact absurd rfl hb.2.1
      rw [Dbg.text, List.append_assoc, List.append_assoc, List.append_assoc, List.append_assoc] at h
      exact absurd h.symm (word_head hb.1 (by decide) _)
    | list l' =>
      rcases l' with _ | ⟨w, l'⟩
      · rw [Dbg.text] at h
        obtain ⟨ch, r, h1, h2⟩ := Dbg.head pr v ha.1
        rw [h1] at h
        have h3 := (List.cons.inj (List.cons.inj h).2).1
        subst h3
        rcases h2 with h2 | h2 | h2 <;> exact absurd h2 (by decide)
      · rw [Dbg.Ok, okItems] at hb
        rw [Dbg.text] at h
        simp only [List.append_assoc, List.cons_append, List.nil_append] at h
        obtain ⟨h3, h4⟩ := Dbg.unique pr v w _ _ ha.1 hb.1 (.restItems pr l x) (.restItems pr l' y) (List.cons.inj h).2
        obtain ⟨h5, h6⟩ := restItems_unique pr l l' x y ha.2 hb.2 h4
        exact ⟨by rw [h3, h5], h6⟩
theorem DbgField.unique (pr : Char → Bool) : ∀ (a b : DbgField) (x y : Text), a.Ok → b.Ok → Stops x → Stops y → a.text pr ++ x = b.text pr ++ y → a = b ∧ x = y
  | ⟨n, v⟩, ⟨m, w⟩, x, y, ha, hb, hx, hy, h => by
    rw [DbgField.Ok] at ha hb
    rw [DbgField.text, DbgField.text] at h
    simp only [List.append_assoc, List.cons_append, List.nil_append] at h
    obtain ⟨h1, h2⟩ := word_unique ha.1.2 hb.1.2 (TextEnds.of (by decide)) (TextEnds.of (by decide)) h
    simp only [List.cons.injEq, true_and] at h2
    obtain ⟨h3, h4⟩ := Dbg.unique pr v w _ _ ha.2 hb.2 hx hy h2
    exact ⟨by rw [h1, h3], h4⟩
theorem restFields_unique (pr : Char → Bool) : ∀ (a b : List DbgField) (x y : Text), okFields a → okFields b →
    restFields pr a ++ ' ' :: '}' :: x = restFields pr b ++ ' ' :: '}' :: y → a = b ∧ x = y
  | [], b, x, y, _, _, h => by
    rcases b with _ | ⟨g, gs⟩
    · simp only [restFields, List.nil_append, List.cons.injEq, true_and] at h
      exact ⟨rfl, h⟩
    · rw [restFields, restFields] at h; exact absurd (List.cons.inj h).1 (by decide)
  | f :: fs, b, x, y, ha, hb, h => by
    rcases b with _ | ⟨g, gs⟩
    · rw [restFields, restFields] at h; exact absurd (List.cons.inj h).1 (by decide)
    · rw [okFields] at ha hb
      rw [restFields, restFields] at h
      simp only [List.append_assoc, List.cons_append, List.nil_append, List.cons.injEq, true_and] at h
      obtain ⟨h3, h4⟩ := DbgField.unique pr f g _ _ ha.1 hb.1 (.restFields pr fs x) (.restFields pr gs y) h
      obtain ⟨h5, h6⟩ := restFields_unique pr fs gs x y ha.2 hb.2 h4
      exact ⟨by rw [h3, h5], h6⟩
theorem restItems_unique (pr : Char → Bool) : ∀ (a b : List Dbg) (x y : Text), okItems a → okItems b →
    restItems pr a ++ ']' :: x = restItems pr b ++ ']' :: y → a = b ∧ x = y
  | [], b, x, y, _, _, h => by
    rcases b with _ | ⟨g, gs⟩
    · simp only [restItems, List.nil_append, List.cons.injEq, true_and] at h
      exact ⟨rfl, h⟩
    · rw [restItems, restItems] at h; exact absurd (List.cons.inj h).1 (by decide)
  | f :: fs, b, x, y, ha, hb, h => by
    rcases b with _ | ⟨g, gs⟩
    · rw [restItems, restItems] at h; exact absurd (List.cons.inj h).1 (by decide)
    · rw [okItems] at ha hb
      rw [restItems, restItems] at h
      simp only [List.append_assoc, List.cons_append, List.nil_append, List.cons.injEq, true_and] at h
      obtain ⟨h3, h4⟩ := Dbg.unique pr f g _ _ ha.1 hb.1 (.restItems pr fs x) (.restItems pr gs y) h
      obtain ⟨h5, h6⟩ := restItems_unique pr fs gs x y ha.2 hb.2 h4
      exact ⟨by rw [h3, h5], h6⟩
end

theorem word_line {s : Text} (h : TextWord s) : '\n' ∉ s := fun hn => absurd (h.2 _ hn) (by decide)

mutual
/-- A debug text has no line break. -/
theorem Dbg.line (pr : Char → Bool) : ∀ a : Dbg, a.Ok → '\n' ∉ a.text pr
  | .atom s, h => by rw [Dbg.text]; rw [Dbg.Ok] at h; exact word_line h
  | .str s, _ => by
    rw [Dbg.text]
    simp only [List.mem_append, List.mem_flatMap, List.mem_singleton]
    rintro ((h | ⟨c, _, h⟩) | h)
    · exact absurd h (by decide)
    · exact escaped_line (escape_form pr c) h
    · exact absurd h (by decide)
  | .tuple n v, h => by
    rw [Dbg.Ok] at h
    rw [Dbg.text]
    have := Dbg.line pr v h.2
    have := word_line h.1
    simp only [List.mem_append, List.mem_singleton]
    rintro (((h | h) | h) | h)
    · contradiction
    · exact absurd h (by decide)
    · contradiction
    · exact absurd h (by decide)
  | .struct n [], h => by rw [Dbg.Ok] at h; exact absurd rfl h.2.1
  | .struct n (f :: fs), h => by
    rw [Dbg.Ok, okFields] at h
    rw [Dbg.text]
    have := word_line h.1
    have := DbgField.line pr f h.2.2.1
    have := restFields_line pr fs h.2.2.2
    simp only [List.mem_append]
    rintro ((((h | h) | h) | h) | h)
    · contradiction
    · exact absurd h (by decide)
    · contradiction
    · contradiction
    · exact absurd h (by decide)
  | .list [], _ => by rw [Dbg.text]; decide
  | .list (v :: l), h => by
    rw [Dbg.Ok, okItems] at h
    rw [Dbg.text]
    have := Dbg.line pr v h.1
    have := restItems_line pr l h.2
    simp only [List.mem_append]
    rintro (((h | h) | h) | h)
    · exact absurd h (by decide)
    · contradiction
    · contradiction
    · exact absurd h (by decide)
theorem DbgField.line (pr : Char → Bool) : ∀ a : DbgField, a.Ok → '\n' ∉ a.text pr
  | ⟨n, v⟩, h => by
    rw [DbgField.Ok] at h
    rw [DbgField.text]
    have := Dbg.line pr v h.2
    have := word_line h.1
    simp only [List.mem_append]
    rintro ((h | h) | h)
    · contradiction
    · exact absurd h (by decide)
    · contradiction
theorem restFields_line (pr : Char → Bool) : ∀ a : List DbgField, okFields a → '\n' ∉ restFields pr a
  | [], _ => by rw [restFields]; simp
  | f :: fs, h => by
    rw [okFields] at h
    rw [restFields]
    have := DbgField.line pr f h.1
    have := restFields_line pr fs h.2
    simp only [List.mem_append]
    rintro ((h | h) | h)
    · exact absurd h (by decide)
    · contradiction
    · contradiction
theorem restItems_line (pr : Char → Bool) : ∀ a : List Dbg, okItems a → '\n' ∉ restItems pr a
  | [], _ => by rw [restItems]; simp
  | f :: fs, h => by
    rw [okItems] at h
    rw [restItems]
    have := Dbg.line pr f h.1
    have := restItems_line pr fs h.2
    simp only [List.mem_append]
    rintro ((h | h) | h)
    · exact absurd h (by decide)
    · contradiction
    · contradiction
end

end Verif.Brass
