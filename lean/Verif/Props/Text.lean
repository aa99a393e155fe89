import Verif.Brass.TextLemmas
import Verif.Props.Lookup

/-!
# The strings of a module are texts, and its names are its strings (C89, C90)
-/

namespace Verif.Brass

open Verif Verif.Brass.Spec

/-! ## C89: string tables -/

/-- **C89** Reading a string table with `n` declared strings succeeds exactly if the bytes are the size of a blob, the blob, and the
sizes in bytes of strings that the *text* of the blob (with U+FFFD for whatever is not UTF-8) can be cut into, with a one-byte
character of any kind between two of them; it stops early when the text is used up.  The result is these strings and their
lengths. -/
theorem c89_table (n : Nat) (k rest : List UInt8) (pos : Nat) (c : Code) (strs : List Str) (lens : List Nat) :
    readStrings n ⟨k ++ rest, pos, c, none⟩ = .ok (strs, lens) ⟨rest, pos + k.length, c, none⟩ ↔
    ∃ (size blob sizes : List UInt8) (text : Text) (ss : List Text), k = size ++ blob ++ sizes ∧
      size.length = 4 ∧ twos32 (unsignedLE size) = blob.length ∧ Lossy blob text ∧ Cut n text ss ∧ Sizes ss sizes ∧
      strs = ss.map utf8 ∧ lens = strs.map List.length := by
  constructor
  · intro h
    obtain ⟨_, k', hk, _, hg⟩ := (Sem.readStrings n).sound _ _ _ trivial h rfl
    obtain ⟨k1, k2, l, c1, hk', h1, h2⟩ := hg
    obtain ⟨rfl, e, _⟩ := h2
    have hkk : k = k' := List.append_cancel_right (bs := rest) hk
    obtain ⟨_, size, blob, sizes, text, ss, rfl, h3, h4, h5, h6, h7, h8⟩ := (strings_cut n _ _ _ _).1 h1
    obtain ⟨e1, e2⟩ := Prod.mk.inj e
    exact ⟨size, blob, sizes, text, ss, by rw [hkk, hk']; simp, h3, h4, h5, h6, h7, by rw [e1, h8], by rw [e2, e1]⟩
  · rintro ⟨size, blob, sizes, text, ss, rfl, h3, h4, h5, h6, h7, rfl, rfl⟩
    refine (Sem.readStrings n).complete c _ _ c trivial ?_ rest pos
    exact ⟨_, [], ss.map utf8, c, by simp, (strings_cut n c _ _ _).2 ⟨rfl, size, blob, sizes, text, ss, rfl, h3, h4, h5, h6, h7, rfl⟩, rfl, rfl, rfl⟩

/-- A text is what is read from its own encoding, and nothing else. -/
theorem lossy_text (t : Text) : Lossy (utf8 t) t := by
  induction t with
  | nil => exact .done
  | cons ch t ih => rw [utf8_cons]; exact .char ch _ _ ih

/-- **C89** The text of a blob: there is exactly one; that of a valid encoding is the encoded text. -/
theorem c89_text (blob : List UInt8) : (∃ t, Lossy blob t ∧ ∀ t', Lossy blob t' → t' = t) ∧
    ∀ t t' : Text, Lossy (utf8 t) t' ↔ t' = t := by
  refine ⟨?_, fun t t' => ⟨fun h => h.unique (lossy_text t), fun h => h ▸ lossy_text t⟩⟩
  obtain ⟨t, ht, _⟩ := lossy_spec _ blob (Nat.le_refl _)
  exact ⟨t, ht, fun t' h => h.unique ht⟩

/-- **C89** The separators do not matter: two texts that differ in them only are cut into the same strings. -/
theorem c89_separator (n : Nat) (s t : Text) (ch ch' : Char) (h : ch.val.toNat < 128) (h' : ch'.val.toNat < 128) (ss : List Text) :
    Cut (n + 2) (s ++ ch :: t) (s :: ss) ∧ ss ≠ [] → Cut (n + 2) (s ++ ch' :: t) (s :: ss) := by
  rintro ⟨hc, hne⟩
  generalize hx : s ++ ch :: t = x at hc
  cases hc with
  | last => exact absurd rfl hne
  | more _ _ d r _ hd hc =>
    have hx := List.append_cancel_left hx
    obtain ⟨rfl, rfl⟩ := List.cons.inj hx
    exact .more n s ch' t ss h' hc

/-- Two strings are read from the blob `FF 58 62` (three are declared): the first byte is replaced by U+FFFD, which takes three bytes,
and the second is the separator. -/
example : ∃ s, readStrings 3 ⟨[3, 0, 0, 0, 0xFF, 0x58, 0x62, 3, 1] ++ [9], 0, Code.new, none⟩ = .ok ([[0xEF, 0xBF, 0xBD], [0x62]], [3, 1]) s ∧ s.buf = [9] := by
  have h : (match readStrings 3 ⟨[3, 0, 0, 0, 0xFF, 0x58, 0x62, 3, 1] ++ [9], 0, Code.new, none⟩ with
    | .ok a s => decide (a = ([[0xEF, 0xBF, 0xBD], [0x62]], [3, 1]) ∧ s.buf = [9])
    | _ => false) = true := by decide +kernel
  split at h
  · rename_i a s e
    obtain ⟨rfl, hb⟩ := of_decide_eq_true h
    exact ⟨s, e, hb⟩
  · cases h

/-- The text "aéb", cut at its second character into two strings is not: `é` takes two bytes.  It is when a one-byte character
lies between. -/
example : ¬ Cut 2 ['a', 'é', 'b'] [['a'], ['b']] ∧ Cut 2 ['a', ';', 'b'] [['a'], ['b']] := by
  constructor
  · intro h
    generalize hx : (['a', 'é', 'b'] : Text) = x at h
    cases h with
    | more n s ch t ss hch h => simp at hx; obtain ⟨rfl, _⟩ := hx; exact absurd hch (by decide)
  · exact .more 0 ['a'] ';' ['b'] [['b']] (by decide) (.last 0 ['b'])

/-- A list of texts as they are stored. -/
def AllText (l : List Str) : Prop := ∀ x ∈ l, ∃ t : Text, x = utf8 t

theorem strings_text {n : Nat} {c : Code} {k : List UInt8} {l : List Str} {c' : Code} (h : stringsG n c k l c') : AllText l := by
  obtain ⟨_, _, _, _, _, ss, _, _, _, _, _, _, rfl⟩ := (strings_cut n c k l c').1 h
  intro x hx
  obtain ⟨t, _, rfl⟩ := List.mem_map.1 hx
  exact ⟨t, rfl⟩

/-- **C89** Whatever bytes an accepted file has in its string tables, all the strings of the module and the names of its source
files are well-formed UTF-8. -/
theorem c89_accepted (p : Profile) (e : Option DecodeError) (buf : List UInt8) (c : Code) (s : St) (h : Code.read p e buf = .ok c s) :
    (∀ x ∈ c.strings, ∃ t : Text, x = utf8 t) ∧ (∀ x ∈ c.debugfiles, ∃ t : Text, x = utf8 t) := by
  obtain ⟨hd, kh, rest, rfl, hh⟩ := c44_has_header p e buf c s h
  obtain ⟨k, S, rfl, _, _⟩ := sections_of_read h hh
  by_cases hb : S.h.Bare
  · rw [S.code.2 hb]; simp [Code.new]
  have ec := S.code.1 hb
  obtain ⟨_, _, e2⟩ := S.val2
  obtain ⟨_, _, e3⟩ := S.val3
  obtain ⟨_, _, e4⟩ := S.val4
  obtain ⟨_, e5⟩ := S.val5
  obtain ⟨_, e6⟩ := S.val6
  obtain ⟨_, e7⟩ := S.val7
  obtain ⟨_, e8⟩ := S.val8
  have f : c.strings = S.c1.strings ∧ c.debugfiles = S.c3.debugfiles := by
    constructor
    · rw [congrArg Code.strings ec, congrArg Code.strings e8, congrArg Code.strings e7, congrArg Code.strings e6, congrArg Code.strings e5,
        congrArg Code.strings e4, congrArg Code.strings e3, congrArg Code.strings e2]
    · rw [congrArg Code.debugfiles ec, congrArg Code.debugfiles e8, congrArg Code.debugfiles e7, congrArg Code.debugfiles e6,
        congrArg Code.debugfiles e5, congrArg Code.debugfiles e4]
  rw [f.1, f.2]
  constructor
  · obtain ⟨_, _, _, _, _, _, _, _, _, _, _, _, _, _, _, _, _, hs, _, h', _⟩ := S.pools
    rw [h']
    exact strings_text hs
  · have h3 := S.debugFiles
    unfold debugFilesG at h3
    split at h3
    · obtain ⟨_, _, _, _, _, _, _, _, _, _, _, hs, _, _, _, _, _, _, _, h', _⟩ := h3
      rw [h']
      exact strings_text hs
    · rw [h3.2.1, congrArg Code.debugfiles e2, S.same1.2.2.2.2.2.2.2.1]; simp

/-! ## C90: names -/

namespace Sections

variable {p : Profile} {k : List UInt8} {c : Code} (S : Sections p k c)

/-- The strings that the decoder knows when it reads the natives. -/
theorem strings5 : S.d5.strings = [] ∨ S.d5.strings = S.c5.strings := by
  have l4 := loop_code (fun _ _ _ _ _ _ h => (typesStepG_value h).1) _ _ _ _ _ _ _ S.types
  have l5 := loop_code (fun _ _ _ _ _ _ h => globalsStepG_code h) _ _ _ _ _ _ _ S.globals
  obtain ⟨_, e5⟩ := S.val5
  obtain ⟨_, _, e4⟩ := S.val4
  rcases l5 with ⟨z5, _, h5⟩ | ⟨_, h5⟩
  case inr => rw [h5]; exact Or.inr rfl
  rw [h5, congrArg Code.strings e5]
  rcases l4 with ⟨z4, _, h4⟩ | ⟨_, h4⟩
  case inr => rw [h4]; exact Or.inr rfl
  rw [h4, congrArg Code.strings e4]
  have h3 := S.debugFiles
  unfold debugFilesG at h3
  split at h3
  · obtain ⟨_, _, _, _, _, _, _, _, _, _, _, _, _, _, _, _, _, ⟨_, h⟩, _, h', h''⟩ := h3
    right
    rw [h'', h, ← h']
  · rw [h3.2.2]; exact Or.inl rfl

end Sections

/-- **C90** In an accepted file every name is one of the strings: the names of objects, virtuals, enums and abstracts, of their fields,
methods and constructors, and the library and name of every native.  The names in types may also be empty if fewer strings are
present than declared.  The hash of each field and method is that of its name. -/
theorem c90_names (p : Profile) (e : Option DecodeError) (buf : List UInt8) (c : Code) (s : St) (h : Code.read p e buf = .ok c s) :
    (∀ t ∈ c.types, (∀ x ∈ namesOf t, NameIn c x) ∧ (∀ f ∈ fieldsOf t, f.hashedName = crc f.name) ∧
      (∀ f ∈ methodsOf t, f.hashedName = crc f.name)) ∧
    (∀ n ∈ c.natives, n.lib ∈ c.strings ∧ n.name ∈ c.strings) := by
  obtain ⟨hd, kh, rest, rfl, hh⟩ := c44_has_header p e buf c s h
  obtain ⟨k, S, rfl, _, _⟩ := sections_of_read h hh
  by_cases hb : S.h.Bare
  · rw [S.code.2 hb]; simp [Code.new]
  have ec := S.code.1 hb
  obtain ⟨_, _, e2⟩ := S.val2
  obtain ⟨_, _, e3⟩ := S.val3
  obtain ⟨_, _, e4⟩ := S.val4
  obtain ⟨_, e5⟩ := S.val5
  obtain ⟨_, e6⟩ := S.val6
  obtain ⟨_, e7⟩ := S.val7
  obtain ⟨_, e8⟩ := S.val8
  have s5 : S.c5.strings = S.c3.strings := by rw [congrArg Code.strings e5, congrArg Code.strings e4]
  have s8 : c.strings = S.c5.strings := by
    rw [congrArg Code.strings ec, congrArg Code.strings e8, congrArg Code.strings e7, congrArg Code.strings e6]
  have n8 : c.nstrings = S.c3.nstrings := by
    rw [congrArg Code.nstrings ec, congrArg Code.nstrings e8, congrArg Code.nstrings e7, congrArg Code.nstrings e6, congrArg Code.nstrings e5,
      congrArg Code.nstrings e4]
  have t8 : c.types = S.c4.types := by
    rw [congrArg Code.types ec, congrArg Code.types e8, congrArg Code.types e7, congrArg Code.types e6, congrArg Code.types e5]
  have na8 : c.natives = S.c6.natives := by
    rw [congrArg Code.natives ec, congrArg Code.natives e8, congrArg Code.natives e7]
  constructor
  · intro t ht
    rw [t8] at ht
    have := InS.types (N := S.c3.nstrings) (S := S.c3.strings) S.c3.ntypes 0
      { S.c3 with types := List.replicate S.c3.ntypes noType } S.d3 S.k4 S.c4 S.d4 ⟨rfl, rfl, ?_⟩ ?_ S.types t ht
    · refine ⟨fun x hx => ?_, this.2⟩
      unfold NameIn
      rw [s8, s5, n8]
      exact this.1 x hx
    · intro x hx
      simp only at hx
      rw [congrArg Code.ustrings e3, congrArg Code.ustrings e2] at hx
      exact absurd (List.eq_of_mem_replicate hx) (by simp)
    · intro t' ht'
      rw [List.eq_of_mem_replicate ht']
      exact InS.none _
  · intro n hn
    rw [na8] at hn
    rw [s8]
    exact InS.natives (S := S.c5.strings) S.c5.nnatives 0 { S.c5 with natives := [] } S.d5 S.k6 S.c6 S.d6 rfl S.strings5 (by simp) S.natives n hn

/-- An accepted file with bytes in its string table that are not UTF-8, and a string fewer than declared: the name of the object is
U+FFFD, that of its only field the missing string, that of its method and native "b". -/
example : ∃ c s, Code.read .release none
    [0x48, 0x4C, 0x42, 2, 0, 0, 0, 3, 2, 0, 1, 0, 0, 3, 0, 0, 0, 0xFF, 0x58, 0x62, 3, 1, 3, 11, 0, 0xA0, 1, 0, 1, 1, 0, 2, 0, 1, 0, 0,
     0, 1, 0, 0] = .ok c s ∧
    c.strings = [[0xEF, 0xBF, 0xBD], [0x62]] ∧ c.nstrings = 3 ∧ c.types[1]?.map namesOf = some [[], [0x62], [0xEF, 0xBF, 0xBD]] ∧
    c.natives.map (fun n => (n.lib, n.name)) = [([0xEF, 0xBF, 0xBD], [0x62])] := by
  have h : checkOk (Code.read .release none
    [0x48, 0x4C, 0x42, 2, 0, 0, 0, 3, 2, 0, 1, 0, 0, 3, 0, 0, 0, 0xFF, 0x58, 0x62, 3, 1, 3, 11, 0, 0xA0, 1, 0, 1, 1, 0, 2, 0, 1, 0, 0,
     0, 1, 0, 0])
    (fun c => decide (c.strings = [[0xEF, 0xBF, 0xBD], [0x62]] ∧ c.nstrings = 3 ∧
      c.types[1]?.map namesOf = some [[], [0x62], [0xEF, 0xBF, 0xBD]] ∧
      c.natives.map (fun n => (n.lib, n.name)) = [([0xEF, 0xBF, 0xBD], [0x62])])) = true := by decide +kernel
  obtain ⟨c, s, h1, h2⟩ := checkOk_iff h
  exact ⟨c, s, h1, of_decide_eq_true h2⟩

end Verif.Brass
