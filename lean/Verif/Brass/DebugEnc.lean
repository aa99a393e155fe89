import Verif.Brass.Enc
import Verif.Brass.SemDebug

/-!
# Encoded debug streams
-/

namespace Verif.Brass

open Verif Verif.Brass.Spec

/-- What brass does with an item. -/
def brassStep (d : Dbg) : DbgItem → Dbg
  | .file f => { d with file := (f : Int) }
  | .run _ delta => { d with line := d.line + (delta : Int) }
  | .step delta => { d with line := d.line + (delta : Int) }.emit
  | .abs line => { d with line := ((line % 256 ||| line / 8192 : Nat) : Int) }.emit

theorem or_bytes (line : Nat) : (line % 32 ||| line / 32 % 256 % 8 * 32) = line % 256 := by
  have h : line % 32 < 2 ^ 5 := by omega
  have := Nat.two_pow_add_eq_or_of_lt h (line / 32 % 256 % 8)
  rw [Nat.or_comm, show line / 32 % 256 % 8 * 32 = 2 ^ 5 * (line / 32 % 256 % 8) by omega, ← this]
  omega

theorem or_lt (line : Nat) (h : line < 0x200000) : line % 256 ||| line / 8192 < 256 := by
  have h1 : line % 256 < 2 ^ 8 := by omega
  have h2 : line / 8192 < 2 ^ 8 := by omega
  exact Nat.or_lt_two_pow h1 h2

/-- brass gets an absolute line right exactly below 256. -/
theorem or_eq_iff (line : Nat) (h : line < 0x200000) : (line % 256 ||| line / 8192) = line ↔ line < 256 := by
  constructor
  · intro e; have := or_lt line h; omega
  · intro e
    rw [show line / 8192 = 0 by omega, Nat.or_zero]; omega

theorem bindB {β : Type} {f : Nat → G β} {b : UInt8} {n : Nat} (hb : b.toNat = n) {c : Code} {k : List UInt8} {x : β} {c' : Code}
    (h : f n c k x c') : (byteG >>= f) c (b :: k) x c' :=
  ⟨[b], k, n, c, rfl, ⟨rfl, b, rfl, hb.symm⟩, h⟩

/-- An encoded item is read as an item. -/
theorem item_mem {p : Profile} {nops : Nat} {d : Dbg} {c : Code} (i : DbgItem) (hi : i.Ok)
    (hf : ∀ f, i = .file f → f < c.ndebugfiles) (hn : c.ndebugfiles < 2 ^ 31)
    (hr : ∀ count delta, i = .run count delta → d.words.length / 2 + count ≤ nops) (hl : d.line < 2 ^ 30) :
    debugItemG p nops d c i.encode (brassStep d i) c := by
  cases i with
  | file f =>
    have h1 : f < 0x8000 := hi
    have h2 := hf f rfl
    refine bindB (n := f / 256 * 2 + 1) (ofNat8 (by omega)) ?_
    rw [if_pos (by omega)]
    refine bindB (n := f % 256) (ofNat8 (by omega)) ?_
    have e : (f / 256 * 2 + 1) / 2 * 256 + f % 256 = f := by omega
    simp only [e]
    exact ⟨[], [], c, c, rfl, ⟨rfl, rfl, rfl⟩, [], [], (), c, rfl, ⟨rfl, ⟨hn, h2⟩, rfl⟩, rfl, rfl, rfl⟩
  | run count delta =>
    obtain ⟨h1, h2⟩ : count < 16 ∧ delta < 4 := hi
    have h3 := hr count delta rfl
    refine bindB (n := delta * 64 + count * 4 + 2) (ofNat8 (by omega)) ?_
    rw [if_neg (by omega), if_pos (by omega)]
    have e : (delta * 64 + count * 4 + 2) / 4 % 16 = count := by omega
    have e' : (delta * 64 + count * 4 + 2) / 64 = delta := by omega
    simp only [e, e']
    exact ⟨[], [], (), c, rfl, ⟨rfl, h3, rfl⟩, [], [], _, c, rfl, ⟨rfl, rfl, Or.inl ⟨by omega, rfl⟩⟩, rfl, rfl, rfl⟩
  | step delta =>
    have h1 : delta < 32 := hi
    refine bindB (n := delta * 8 + 4) (ofNat8 (by omega)) ?_
    rw [if_neg (by omega), if_neg (by omega), if_pos (by omega)]
    have e' : (delta * 8 + 4) / 8 = delta := by omega
    simp only [e']
    exact ⟨[], [], _, c, rfl, ⟨rfl, rfl, Or.inl ⟨by omega, rfl⟩⟩, rfl, rfl, rfl⟩
  | abs line =>
    have h1 : line < 0x200000 := hi
    refine bindB (n := line % 32 * 8) (ofNat8 (by omega)) ?_
    rw [if_neg (by omega), if_neg (by omega), if_neg (by omega)]
    refine bindB (n := line / 32 % 256) (ofNat8 (by omega)) ?_
    refine bindB (n := line / 8192) (ofNat8 (by omega)) ?_
    have e' : line % 32 * 8 / 8 = line % 32 := by omega
    simp only [e', or_bytes]
    exact ⟨rfl, rfl, rfl⟩

theorem unbindB {β : Type} {f : Nat → G β} {c : Code} {k : List UInt8} {x : β} {c' : Code} (h : (byteG >>= f) c k x c') :
    ∃ b k', k = b :: k' ∧ f b.toNat c k' x c' := by
  obtain ⟨_, k', a, c1, rfl, ⟨rfl, b, rfl, rfl⟩, h⟩ := h
  exact ⟨b, k', rfl, h⟩

/-- An item read from the start of an encoded item is that item. -/
theorem item_inv {p : Profile} {nops : Nat} {d d' : Dbg} {c c' : Code} (i : DbgItem) (hi : i.Ok) (hl : d.line < 2 ^ 30) {k k2 r : List UInt8}
    (h0 : debugItemG p nops d c k d' c') (e : k ++ k2 = i.encode ++ r) :
    k = i.encode ∧ k2 = r ∧ d' = brassStep d i ∧ c' = c ∧ (∀ f, i = .file f → f < c.ndebugfiles) := by
  unfold debugItemG at h0
  obtain ⟨b, k', rfl, h⟩ := unbindB h0
  clear h0
  cases i with
  | file f =>
    have h1 : f < 0x8000 := hi
    simp only [DbgItem.encode, List.cons_append, List.cons.injEq] at e
    obtain ⟨rfl, e⟩ := e
    rw [ofNat8 (by omega), if_pos (by omega)] at h
    obtain ⟨b2, k'', rfl, h2'⟩ := unbindB h
    clear h
    have h := h2'
    clear h2'
    simp only [List.cons_append, List.cons.injEq] at e
    obtain ⟨rfl, e⟩ := e
    rw [ofNat8 (by omega)] at h
    have e1 : (f / 256 * 2 + 1) / 2 * 256 + f % 256 = f := by omega
    simp only [e1] at h
    obtain ⟨_, _, _, _, rfl, ⟨rfl, rfl, rfl⟩, _, _, _, _, rfl, ⟨rfl, hb, rfl⟩, rfl, rfl, rfl⟩ := h
    exact ⟨rfl, by simpa using e, rfl, rfl, fun f' hf' => by cases hf'; exact hb.2⟩
  | run count delta =>
    obtain ⟨h1, h2⟩ : count < 16 ∧ delta < 4 := hi
    simp only [DbgItem.encode, List.cons_append, List.cons.injEq] at e
    obtain ⟨rfl, e⟩ := e
    rw [ofNat8 (by omega), if_neg (by omega), if_pos (by omega)] at h
    have e1 : (delta * 64 + count * 4 + 2) / 64 = delta := by omega
    simp only [e1] at h
    obtain ⟨_, _, _, _, rfl, ⟨rfl, _, rfl⟩, _, _, _, _, rfl, ⟨rfl, rfl, hb⟩, rfl, rfl, rfl⟩ := h
    rcases hb with ⟨_, rfl⟩ | ⟨hb, _⟩
    · exact ⟨rfl, by simpa using e, rfl, rfl, fun f' hf' => by cases hf'⟩
    · omega
  | step delta =>
    have h1 : delta < 32 := hi
    simp only [DbgItem.encode, List.cons_append, List.cons.injEq] at e
    obtain ⟨rfl, e⟩ := e
    rw [ofNat8 (by omega), if_neg (by omega), if_neg (by omega), if_pos (by omega)] at h
    have e1 : (delta * 8 + 4) / 8 = delta := by omega
    simp only [e1] at h
    obtain ⟨_, _, _, _, rfl, ⟨rfl, rfl, hb⟩, rfl, rfl, rfl⟩ := h
    rcases hb with ⟨_, rfl⟩ | ⟨hb, _⟩
    · exact ⟨rfl, by simpa using e, rfl, rfl, fun f' hf' => by cases hf'⟩
    · omega
  | abs line =>
    have h1 : line < 0x200000 := hi
    simp only [DbgItem.encode, List.cons_append, List.cons.injEq] at e
    obtain ⟨rfl, e⟩ := e
    rw [ofNat8 (by omega), if_neg (by omega), if_neg (by omega), if_neg (by omega)] at h
    obtain ⟨b2, k'', rfl, h2'⟩ := unbindB h
    clear h
    have h := h2'
    clear h2'
    simp only [List.cons_append, List.cons.injEq] at e
    obtain ⟨rfl, e⟩ := e
    obtain ⟨b3, k3, rfl, h3'⟩ := unbindB h
    clear h
    have h := h3'
    clear h3'
    simp only [List.cons_append, List.cons.injEq] at e
    obtain ⟨rfl, e⟩ := e
    rw [ofNat8 (by omega), ofNat8 (by omega)] at h
    have e1 : line % 32 * 8 / 8 = line % 32 := by omega
    simp only [e1, or_bytes] at h
    obtain ⟨rfl, rfl, rfl⟩ := h
    exact ⟨rfl, by simpa using e, rfl, rfl, fun f' hf' => by cases hf'⟩

/-- Two words per instruction. -/
def wordsOf (l : List (Int × Int)) : List Int := l.flatMap fun w => [w.1, w.2]

theorem wordsOf_length (l : List (Int × Int)) : (wordsOf l).length = 2 * l.length := by
  unfold wordsOf; induction l with
  | nil => rfl
  | cons a l ih => rw [List.flatMap_cons, List.length_append, ih]; simp; omega

theorem wordsOf_append (l l' : List (Int × Int)) : wordsOf (l ++ l') = wordsOf l ++ wordsOf l' := by
  unfold wordsOf; exact List.flatMap_append

/-- A stream that ends with an instruction has one. -/
theorem meaning_pos : ∀ (items : List DbgItem) (f l : Int), items ≠ [] → (∀ i, items.getLast? = some i → i.emits = true) →
    1 ≤ (dbgMeaning f l items).length
  | [], _, _, h, _ => absurd rfl h
  | [i], f, l, _, h => by
    have := h i rfl
    cases i with
    | file g => simp [DbgItem.emits] at this
    | run count delta => simp [DbgItem.emits] at this; simp [dbgMeaning]; omega
    | step delta => simp [dbgMeaning]
    | abs line => simp [dbgMeaning]
  | i :: j :: r, f, l, _, h => by
    have key : ∀ f l, 1 ≤ (dbgMeaning f l (j :: r)).length := fun f l =>
      meaning_pos (j :: r) f l (by simp) (fun i hi => h i (by rw [List.getLast?_cons_cons]; exact hi))
    cases i with
    | file g => exact key _ _
    | run count delta => simp only [dbgMeaning, List.length_append]; have := key f (l + delta); omega
    | step delta => rw [dbgMeaning]; simp
    | abs line => rw [dbgMeaning]; simp

/-- Supported streams are read as HashLink reads them. -/
theorem stream_mem {p : Profile} {nops : Nat} {c : Code} (hn : c.ndebugfiles < 2 ^ 31) : ∀ (items : List DbgItem) (d : Dbg),
    (∀ i ∈ items, i.Ok) → (∀ i ∈ items, ∀ f, i = .file f → f < c.ndebugfiles) → (∀ i ∈ items, i.Supported) →
    (∀ i, items.getLast? = some i → i.emits = true) → d.words.length / 2 + (dbgMeaning d.file d.line items).length = nops →
    d.words.length % 2 = 0 → items.length < 2 ^ 24 → d.line + 31 * items.length < 2 ^ 30 →
    ∃ d', DebugG p nops d c (items.flatMap DbgItem.encode) d' c ∧ d'.words = d.words ++ wordsOf (dbgMeaning d.file d.line items)
  | [], d, _, _, _, _, h, _, _, _ => ⟨d, .done _ _ (by simp [dbgMeaning] at h; omega), by simp [dbgMeaning, wordsOf]⟩
  | i :: r, d, h1, h2, h3, h4, h5, h6, h7, h8 => by
    have hpos := meaning_pos (i :: r) d.file d.line (by simp) h4
    have hlt : d.words.length / 2 < nops := by omega
    have hit := h1 i (by simp)
    have hsu := h3 i (by simp)
    simp only [List.length_cons] at h7 h8
    have hmem := item_mem (p := p) (nops := nops) (d := d) (c := c) i hit (h2 i (by simp)) hn
      (fun count delta e => by subst e; have : count = 0 := hsu; omega) (by omega)
    have ih := stream_mem (p := p) (nops := nops) hn r (brassStep d i) (fun j hj => h1 j (by simp [hj])) (fun j hj => h2 j (by simp [hj]))
      (fun j hj => h3 j (by simp [hj])) (fun j hj => by
        apply h4 j
        cases r with
        | nil => simp at hj
        | cons a r => rw [List.getLast?_cons_cons]; exact hj)
    have emitlen : ∀ d : Dbg, d.emit.words.length = d.words.length + 2 := fun d => by simp [Dbg.emit]
    have goal : ∀ w, (dbgMeaning d.file d.line (i :: r)) = w ++ dbgMeaning (brassStep d i).file (brassStep d i).line r →
        (brassStep d i).words = d.words ++ wordsOf w →
        (brassStep d i).line + 31 * r.length < 2 ^ 30 →
        ∃ d', DebugG p nops d c ((i :: r).flatMap DbgItem.encode) d' c ∧ d'.words = d.words ++ wordsOf (dbgMeaning d.file d.line (i :: r)) := by
      intro w e1 e2 e3
      have hlen : (brassStep d i).words.length = d.words.length + 2 * w.length := by rw [e2, List.length_append, wordsOf_length]
      obtain ⟨d', hd, hw⟩ := ih (by rw [e1, List.length_append] at h5; omega) (by omega) (by omega) e3
      refine ⟨d', ?_, ?_⟩
      · rw [List.flatMap_cons]
        exact .item _ _ _ _ _ _ _ _ hlt hmem hd
      · rw [hw, e2, e1, wordsOf_append, List.append_assoc]
    cases i with
    | file f => exact goal [] rfl (by simp [brassStep, wordsOf]) (by show d.line + _ < _; omega)
    | run count delta =>
      have hc : count = 0 := hsu
      obtain ⟨_, hd⟩ : count < 16 ∧ delta < 4 := hit
      subst hc
      exact goal [] (by simp [dbgMeaning, brassStep]) (by simp [brassStep, wordsOf]) (by show d.line + (delta : Int) + _ < _; omega)
    | step delta =>
      have hd : delta < 32 := hit
      exact goal [(d.file, d.line + delta)] (by simp [dbgMeaning, brassStep, Dbg.emit]) (by simp [brassStep, wordsOf, Dbg.emit])
        (by show d.line + (delta : Int) + _ < _; omega)
    | abs line =>
      have hd : line < 0x200000 := hit
      have hs : line < 256 := hsu
      have e : (line % 256 ||| line / 8192) = line := (or_eq_iff line hd).2 hs
      have ebs : brassStep d (.abs line) = { d with line := (line : Int) }.emit := by simp only [brassStep, e]
      rw [ebs] at goal
      exact goal [(d.file, (line : Int))] (by simp [dbgMeaning, Dbg.emit]) (by simp [wordsOf, Dbg.emit])
        (by show (line : Int) + _ < _; omega)

/-- The number of instructions brass sees in a stream. -/
def brassCount : List DbgItem → Nat
  | [] => 0
  | .file _ :: r => brassCount r
  | .run _ _ :: r => brassCount r
  | .step _ :: r => brassCount r + 1
  | .abs _ :: r => brassCount r + 1

/-- The number of instructions in runs. -/
def runCount : List DbgItem → Nat
  | [] => 0
  | .run count _ :: r => count + runCount r
  | _ :: r => runCount r

theorem meaning_count : ∀ (items : List DbgItem) (f l : Int), (dbgMeaning f l items).length = brassCount items + runCount items
  | [], _, _ => rfl
  | .file g :: r, f, l => by simp only [dbgMeaning, brassCount, runCount]; exact meaning_count r _ _
  | .run count delta :: r, f, l => by simp only [dbgMeaning, brassCount, runCount, List.length_append, List.length_replicate, meaning_count r]; omega
  | .step delta :: r, f, l => by simp only [dbgMeaning, brassCount, runCount, List.length_cons, meaning_count r]; omega
  | .abs line :: r, f, l => by simp only [dbgMeaning, brassCount, runCount, List.length_cons, meaning_count r]; omega

theorem encode_ne (i : DbgItem) : i.encode ≠ [] := by cases i <;> simp [DbgItem.encode]

/-- What brass makes of a whole stream. -/
theorem stream_inv {p : Profile} {nops : Nat} : ∀ (items : List DbgItem) (d d' : Dbg) (c c' : Code),
    (∀ i ∈ items, i.Ok) → items.length < 2 ^ 24 → d.line + 31 * items.length < 2 ^ 30 →
    DebugG p nops d c (items.flatMap DbgItem.encode) d' c' → d' = items.foldl brassStep d ∧ nops ≤ d'.words.length / 2
  | [], d, d', c, c', _, _, _, h => by
    generalize hk : ([] : List DbgItem).flatMap DbgItem.encode = k at h
    cases h with
    | done _ _ h => exact ⟨rfl, h⟩
    | item _ d1 _ _ c1 _ k1 k2 hlt hi hr =>
      exfalso
      simp at hk
      unfold debugItemG at hi
      obtain ⟨b, k', rfl, _⟩ := unbindB hi
      simp at hk
  | i :: r, d, d', c, c', h1, h2, h3, h => by
    simp only [List.length_cons] at h2 h3
    generalize hk : (i :: r).flatMap DbgItem.encode = k at h
    cases h with
    | done _ _ h =>
      exfalso
      rw [List.flatMap_cons] at hk
      exact encode_ne i (List.append_eq_nil_iff.1 hk).1
    | item _ d1 _ _ c1 _ k1 k2 hlt hi hr =>
      rw [List.flatMap_cons] at hk
      obtain ⟨rfl, rfl, rfl, rfl, _⟩ := item_inv i (h1 i (by simp)) (by omega) hi hk.symm
      refine stream_inv r _ d' _ c' (fun j hj => h1 j (by simp [hj])) (by omega) ?_ hr
      have hok := h1 i (by simp)
      cases i with
      | file f => show d.line + _ < _; omega
      | run count delta =>
        obtain ⟨_, hd⟩ : count < 16 ∧ delta < 4 := hok
        show d.line + (delta : Int) + _ < _; omega
      | step delta =>
        have hd : delta < 32 := hok
        show d.line + (delta : Int) + _ < _; omega
      | abs line =>
        have := or_lt line hok
        show ((line % 256 ||| line / 8192 : Nat) : Int) + _ < _; omega

theorem foldl_words : ∀ (items : List DbgItem) (d : Dbg), (items.foldl brassStep d).words.length = d.words.length + 2 * brassCount items
  | [], d => rfl
  | i :: r, d => by
    rw [List.foldl_cons, foldl_words r]
    cases i <;> simp [brassStep, brassCount, Dbg.emit] <;> omega

theorem foldl_prefix : ∀ (items : List DbgItem) (d : Dbg), ∃ w, (items.foldl brassStep d).words = d.words ++ w
  | [], d => ⟨[], by simp⟩
  | i :: r, d => by
    obtain ⟨w, h⟩ := foldl_prefix r (brassStep d i)
    rw [List.foldl_cons, h]
    cases i
    case file f => exact ⟨w, rfl⟩
    case run count delta => exact ⟨w, rfl⟩
    case step delta => exact ⟨[d.file, d.line + delta] ++ w, by simp [brassStep, Dbg.emit]⟩
    case abs line => exact ⟨[d.file, ((line % 256 ||| line / 8192 : Nat) : Int)] ++ w, by simp [brassStep, Dbg.emit]⟩

/-- If brass gets all the words right, the stream is supported. -/
theorem words_right : ∀ (items : List DbgItem) (d : Dbg), (∀ i ∈ items, i.Ok) → runCount items = 0 →
    (items.foldl brassStep d).words = d.words ++ wordsOf (dbgMeaning d.file d.line items) → ∀ i ∈ items, i.Supported
  | [], _, _, _, _ => by simp
  | i :: r, d, h1, h2, h3 => by
    have hok := h1 i (by simp)
    have h1' : ∀ j ∈ r, j.Ok := fun j hj => h1 j (by simp [hj])
    rw [List.foldl_cons] at h3
    intro j hj
    cases i with
    | file f =>
      rcases List.mem_cons.1 hj with rfl | hj
      · trivial
      · exact words_right r (brassStep d (.file f)) h1' h2 h3 j hj
    | run count delta =>
      simp only [runCount] at h2
      have h0 : count = 0 := by omega
      subst h0
      rcases List.mem_cons.1 hj with rfl | hj
      · rfl
      · refine words_right r (brassStep d (.run 0 delta)) h1' (by omega) ?_ j hj
        rw [h3]; simp [dbgMeaning, brassStep]
    | step delta =>
      rcases List.mem_cons.1 hj with rfl | hj
      · trivial
      · refine words_right r (brassStep d (.step delta)) h1' h2 ?_ j hj
        rw [h3]; simp [dbgMeaning, brassStep, Dbg.emit, wordsOf]
    | abs line =>
      have hl : line < 0x200000 := hok
      obtain ⟨w, hw⟩ := foldl_prefix r (brassStep d (.abs line))
      have hw' := hw
      rw [h3] at hw
      have e : ((line % 256 ||| line / 8192 : Nat) : Int) = (line : Int) := by
        simp [brassStep, Dbg.emit, dbgMeaning, wordsOf] at hw
        exact hw.1.symm
      have e' : (line % 256 ||| line / 8192) = line := by exact_mod_cast e
      rcases List.mem_cons.1 hj with rfl | hj
      · exact (or_eq_iff line hl).1 e'
      · refine words_right r (brassStep d (.abs line)) h1' h2 ?_ j hj
        rw [h3]; simp [dbgMeaning, brassStep, Dbg.emit, wordsOf, e']

end Verif.Brass
