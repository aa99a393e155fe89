import Verif.Props.Decode
import Verif.Brass.FileFacts

/-!
# Properties of accepted files (C28, C31, C32, C34, C37, C44, C45)
-/

namespace Verif.Brass

open Verif Verif.Brass.Spec

/-! ## The header is determined by the bytes -/

/-- No index is a strict prefix of another one, and its value is determined. -/
theorem idx_unique {k k' r r' : List UInt8} {i i' : Int} (h : IdxBytes k i) (h' : IdxBytes k' i') (e : k ++ r = k' ++ r') :
    k = k' ∧ i = i' ∧ r = r' := by
  have e1 := Sem.readIndex.complete Code.new k i Code.new trivial ⟨rfl, h⟩ r 0
  have e2 := Sem.readIndex.complete Code.new k' i' Code.new trivial ⟨rfl, h'⟩ r' 0
  rw [← e, e1] at e2
  injection e2 with e2 e3
  injection e3 with e3 e4
  subst e3
  exact ⟨List.append_cancel_right e, e2, rfl⟩

theorem idxSeq_unique {l l' : List Nat} {k k' : List UInt8} (h : IdxSeq l k) (h' : IdxSeq l' k') (hl : l.length = l'.length)
    {r r' : List UInt8} (e : k ++ r = k' ++ r') : l = l' ∧ k = k' ∧ r = r' := by
  induction h generalizing l' k' with
  | nil =>
    cases h' with
    | nil => exact ⟨rfl, rfl, e⟩
    | cons => simp at hl
  | cons n ns k1 k2 h1 _ ih =>
    cases h' with
    | nil => simp at hl
    | cons n' ns' k1' k2' h1' h2' =>
      rw [List.append_assoc, List.append_assoc] at e
      obtain ⟨rfl, e1, e2⟩ := idx_unique h1 h1' e
      obtain ⟨rfl, rfl, rfl⟩ := ih h2' (by simpa using hl) e2
      have : n = n' := by omega
      subst this
      exact ⟨rfl, rfl, rfl⟩

theorem toNat_ofNat_inj {a b : Nat} (ha : a ≤ 5) (hb : b ≤ 5) (h : UInt8.ofNat a = UInt8.ofNat b) : a = b := by
  have := congrArg UInt8.toNat h
  rwa [ofNat_toNat (by omega), ofNat_toNat (by omega)] at this

/-- A file starts with at most one header. -/
theorem header_unique {h h' : Header} {k k' r r' : List UInt8} (hk : HeaderBytes h k) (hk' : HeaderBytes h' k')
    (e : k ++ r = k' ++ r') : h = h' ∧ k = k' ∧ r = r' := by
  obtain ⟨v1, v2, v3, v4, t, rfl, hs⟩ := hk
  obtain ⟨v1', v2', v3', v4', t', rfl, hs'⟩ := hk'
  simp only [List.cons_append, List.cons.injEq, true_and] at e
  obtain ⟨ev, e⟩ := e
  have ev := toNat_ofNat_inj v2 v2' ev
  have hl : h.words.length = h'.words.length := by
    unfold Header.words
    rw [ev]
    split <;> split <;> simp
  obtain ⟨ew, rfl, rfl⟩ := idxSeq_unique hs hs' hl e
  refine ⟨?_, by rw [ev], rfl⟩
  obtain ⟨w1, w2, w3, w4, w5, w6, w7, w8, w9, w10, w11, w12⟩ := h
  obtain ⟨x1, x2, x3, x4, x5, x6, x7, x8, x9, x10, x11, x12⟩ := h'
  simp only at ev
  subst ev
  unfold Header.words at ew
  simp only at ew v3 v4 v3' v4'
  simp only [Header.mk.injEq, true_and]
  by_cases h5 : 5 ≤ w1
  · have h4 : 4 ≤ w1 := by omega
    simp [h5, h4] at ew
    simp [ew]
  · have := v3 (by omega)
    have := v3' (by omega)
    by_cases h4 : 4 ≤ w1
    · simp [h5, h4] at ew
      simp [ew]; omega
    · have := v4 (by omega)
      have := v4' (by omega)
      simp [h5, h4] at ew
      simp [ew]; omega

/-- **C44** An accepted file starts with a header. -/
theorem c44_has_header (p : Profile) (e : Option DecodeError) (buf : List UInt8) (c : Code) (s : St)
    (h : Code.read p e buf = .ok c s) : ∃ hd kh rest, buf = kh ++ rest ∧ HeaderBytes hd kh := by
  obtain ⟨_, k, rest, rfl, h1, _⟩ := (c38_accepts_exactly_the_grammar p e buf c s).1 h
  obtain ⟨_, ⟨S⟩⟩ := sections h1
  exact ⟨S.h, S.kh, _, (congrArg (· ++ rest) S.hk).trans (List.append_assoc ..), S.header⟩

/-- The sections of an accepted file with a given header. -/
theorem sections_of_read {p : Profile} {e : Option DecodeError} {hd : Header} {kh rest : List UInt8} {c : Code} {s : St}
    (h : Code.read p e (kh ++ rest) = .ok c s) (hh : HeaderBytes hd kh) :
    ∃ k, ∃ S : Sections p k c, S.h = hd ∧ S.kh = kh ∧ k ++ s.buf = kh ++ rest := by
  obtain ⟨_, k, r, hb, h1, hs⟩ := (c38_accepts_exactly_the_grammar p e _ c s).1 h
  obtain ⟨_, ⟨S⟩⟩ := sections h1
  have hb' := hb.trans ((congrArg (· ++ r) S.hk).trans (List.append_assoc ..))
  obtain ⟨h1, h2, _⟩ := header_unique S.header hh hb'.symm
  refine ⟨k, S, h1, h2, ?_⟩
  rw [hb, hs]

/-- **C44** On an accepted file with header `hd` the result reports the header: version, entry point, debug flag and all
counts.  The exception is a bare file (no debug flag, no types, globals, natives, functions, constants): then the result
is the empty `Code::new()`, whatever version, entry point and pools the file has. -/
theorem c44_header_reported (p : Profile) (e : Option DecodeError) (hd : Header) (kh rest : List UInt8) (c : Code) (s : St)
    (h : Code.read p e (kh ++ rest) = .ok c s) (hh : HeaderBytes hd kh) :
    (¬ hd.Bare → c.version = hd.version ∧ c.entrypoint = hd.entrypoint ∧ c.hasdebug = hd.flags % 2 ∧ c.nints = hd.nints ∧
      c.nfloats = hd.nfloats ∧ c.nstrings = hd.nstrings ∧ c.nbytes = hd.nbytes ∧ c.ntypes = hd.ntypes ∧ c.nglobals = hd.nglobals ∧
      c.nnatives = hd.nnatives ∧ c.nfunctions = hd.nfunctions ∧ c.nconstants = hd.nconstants) ∧
    (hd.Bare → c = noCode) := by
  obtain ⟨k, S, rfl, _, _⟩ := sections_of_read h hh
  refine ⟨fun hb => ?_, S.code.2⟩
  have e := S.code.1 hb
  obtain ⟨a1, a2, a3, a4, a5, a6, a7, a8, a9, a10, a11, a12, a13⟩ := S.same8
  rw [← e] at *
  exact ⟨a1, a11, a12, a2, a3, a4, a5, a6, a7, a8, a9, a10⟩

/-- Evaluate a check on the result of a concrete read. -/
def checkOk (o : Out Code) (f : Code → Bool) : Bool :=
  match o with
  | .ok c _ => f c
  | _ => false

theorem checkOk_iff {o : Out Code} {f : Code → Bool} (h : checkOk o f = true) : ∃ c s, o = .ok c s ∧ f c = true := by
  unfold checkOk at h
  split at h
  · exact ⟨_, _, rfl, h⟩
  · cases h

/-- Does a concrete run panic? -/
def checkPanic {α : Type} (o : Out α) : Bool :=
  match o with
  | .panic => true
  | _ => false

theorem checkPanic_iff {α : Type} {o : Out α} (h : checkPanic o = true) : o = .panic := by
  unfold checkPanic at h
  split at h
  · rfl
  · cases h

/-- **C44** (the defect, concrete) A version 4 file with entry point 9 and the integer constant 7 is accepted, but the
result says version 0, entry point 0 and no integers. -/
theorem c44_bare_file : ∃ c s, Code.read .release none
    [0x48, 0x4C, 0x42, 4, 0, 1, 0, 0, 0, 0, 0, 0, 0, 9, 7, 0, 0, 0, 0, 0, 0, 0] = .ok c s ∧
      c.version = 0 ∧ c.entrypoint = 0 ∧ c.nints = 0 ∧ c.ints = [] := by
  have h : checkOk (Code.read .release none
    [0x48, 0x4C, 0x42, 4, 0, 1, 0, 0, 0, 0, 0, 0, 0, 9, 7, 0, 0, 0, 0, 0, 0, 0])
    (fun c => decide (c.version = 0 ∧ c.entrypoint = 0 ∧ c.nints = 0 ∧ c.ints = [])) = true := by decide +kernel
  obtain ⟨c, s, h1, h2⟩ := checkOk_iff h
  exact ⟨c, s, h1, of_decide_eq_true h2⟩

/-- **C45** On every accepted file `debugfiles_lens` is empty, so it does not hold the lengths of the debug files. -/
theorem c45_debugfiles_lens_empty (p : Profile) (e : Option DecodeError) (buf : List UInt8) (c : Code) (s : St)
    (h : Code.read p e buf = .ok c s) : c.debugfilesLens = [] := by
  obtain ⟨hd, kh, rest, rfl, hh⟩ := c44_has_header p e buf c s h
  obtain ⟨k, S, rfl, _, _⟩ := sections_of_read h hh
  by_cases hb : S.h.Bare
  · rw [S.code.2 hb]; rfl
  · have e := S.code.1 hb
    have := S.same8.debugfilesLens
    rwa [← e] at this

/-! ## Pools -/

theorem leBytesSigned_toSigned {k : List UInt8} (h : k.length = 4) : leBytesSigned 4 (toSigned 32 (leNat k)) = k := by
  have hlt := leNat_lt k
  rw [h] at hlt
  have e : ((toSigned 32 (leNat k)) % ((2 ^ (8 * 4) : Nat) : Int)).toNat = leNat k := by
    unfold toSigned
    simp only [Nat.reduceSub, Nat.reducePow, Nat.reduceMul, Int.reducePow] at hlt ⊢
    split <;> omega
  unfold leBytesSigned
  rw [e, ← h]
  exact leBytes_leNat k

theorem toSigned_range {k : List UInt8} (h : k.length = 4) : -2 ^ 31 ≤ toSigned 32 (leNat k) ∧ toSigned 32 (leNat k) < 2 ^ 31 := by
  have hlt := leNat_lt k
  rw [h] at hlt
  unfold toSigned
  simp only [Nat.reduceSub, Nat.reducePow, Int.reducePow] at hlt ⊢
  split <;> omega

theorem ints_bytes : ∀ (n : Nat) {c k l c'}, G.many i32G n c k l c' →
    k = l.flatMap (leBytesSigned 4) ∧ ∀ i ∈ l, -2 ^ 31 ≤ i ∧ i < 2 ^ 31
  | 0, _, _, _, _, ⟨rfl, rfl, _⟩ => by simp
  | n + 1, _, _, _, _, ⟨_, _, _, _, rfl, ⟨rfl, h4, rfl⟩, _, _, l, _, rfl, h, rfl, rfl, rfl⟩ => by
    obtain ⟨h1, h2⟩ := ints_bytes n h
    refine ⟨by rw [List.flatMap_cons, twos32_eq, unsignedLE_eq, leBytesSigned_toSigned h4, ← h1, List.append_nil], ?_⟩
    intro i hi
    rcases List.mem_cons.1 hi with rfl | hi
    · rw [twos32_eq, unsignedLE_eq]; exact toSigned_range h4
    · exact h2 i hi

theorem floats_bytes : ∀ (n : Nat) {c k l c'}, G.many f64G n c k l c' →
    k = l.flatMap (leBytes 8) ∧ ∀ i ∈ l, i < 2 ^ 64
  | 0, _, _, _, _, ⟨rfl, rfl, _⟩ => by simp
  | n + 1, _, _, _, _, ⟨k1, _, _, _, rfl, ⟨rfl, h4, rfl⟩, _, _, l, _, rfl, h, rfl, rfl, rfl⟩ => by
    obtain ⟨h1, h2⟩ := floats_bytes n h
    have e := leBytes_leNat k1
    rw [h4] at e
    refine ⟨by rw [List.flatMap_cons, unsignedLE_eq, e, ← h1, List.append_nil], ?_⟩
    intro i hi
    rcases List.mem_cons.1 hi with rfl | hi
    · have := leNat_lt k1; rw [h4, ← unsignedLE_eq] at this; exact this
    · exact h2 i hi

/-- The pools of an accepted file. -/
theorem pools_of {d c : Code} {k : List UInt8} {a c'} (h : poolsG d c k a c') :
    ∃ ks, k = a.ints.flatMap (leBytesSigned 4) ++ (a.floats.flatMap (leBytes 8) ++ ks) ∧ stringsG d.nstrings c ks a.strings c' ∧
      a.ints.length = d.nints ∧ a.floats.length = d.nfloats ∧ (∀ i ∈ a.ints, -2 ^ 31 ≤ i ∧ i < 2 ^ 31) ∧ (∀ f ∈ a.floats, f < 2 ^ 64) ∧
      a.stringsLens = a.strings.map List.length := by
  obtain ⟨k1, _, ints, _, rfl, h1, k2, _, floats, _, rfl, h2, k3, _, strings, _, rfl, h3, rfl, rfl, rfl⟩ := h
  obtain ⟨rfl, _⟩ := KeepsOn.many (f := fun _ => ()) KeepsOn.i32G _ _ _ _ _ h1
  obtain ⟨rfl, _⟩ := KeepsOn.many (f := fun _ => ()) KeepsOn.f64G _ _ _ _ _ h2
  obtain ⟨e1, r1⟩ := ints_bytes _ h1
  obtain ⟨e2, r2⟩ := floats_bytes _ h2
  exact ⟨k3, by simp only [List.append_nil]; rw [← e1, ← e2], h3, many_length _ h1, many_length _ h2, r1, r2, rfl⟩

/-- What later sections keep of the pools. -/
theorem Sections.pools_kept {p : Profile} {k : List UInt8} {c : Code} (S : Sections p k c) :
    S.c8.ints = S.c1.ints ∧ S.c8.floats = S.c1.floats ∧ S.c8.strings = S.c1.strings ∧ S.c8.stringsLens = S.c1.stringsLens := by
  obtain ⟨_, _, e2⟩ := S.val2
  obtain ⟨_, _, e3⟩ := S.val3
  obtain ⟨_, _, e4⟩ := S.val4
  obtain ⟨_, e5⟩ := S.val5
  obtain ⟨_, e6⟩ := S.val6
  obtain ⟨_, e7⟩ := S.val7
  obtain ⟨_, e8⟩ := S.val8
  refine ⟨?_, ?_, ?_, ?_⟩
  · rw [congrArg Code.ints e8, congrArg Code.ints e7, congrArg Code.ints e6, congrArg Code.ints e5, congrArg Code.ints e4, congrArg Code.ints e3, congrArg Code.ints e2]
  · rw [congrArg Code.floats e8, congrArg Code.floats e7, congrArg Code.floats e6, congrArg Code.floats e5, congrArg Code.floats e4, congrArg Code.floats e3, congrArg Code.floats e2]
  · rw [congrArg Code.strings e8, congrArg Code.strings e7, congrArg Code.strings e6, congrArg Code.strings e5, congrArg Code.strings e4, congrArg Code.strings e3, congrArg Code.strings e2]
  · rw [congrArg Code.stringsLens e8, congrArg Code.stringsLens e7, congrArg Code.stringsLens e6, congrArg Code.stringsLens e5, congrArg Code.stringsLens e4, congrArg Code.stringsLens e3, congrArg Code.stringsLens e2]

/-- **C32** On an accepted file (other than a bare one) the header is followed by exactly the little-endian `i32` words of
`ints`, then the little-endian 64-bit words of `floats`; there are `nints` and `nfloats` of them. -/
theorem c32_pools (p : Profile) (e : Option DecodeError) (hd : Header) (kh rest : List UInt8) (c : Code) (s : St)
    (h : Code.read p e (kh ++ rest) = .ok c s) (hh : HeaderBytes hd kh) (hb : ¬ hd.Bare) :
    c.ints.length = hd.nints ∧ c.floats.length = hd.nfloats ∧ (∀ i ∈ c.ints, -2 ^ 31 ≤ i ∧ i < 2 ^ 31) ∧ (∀ f ∈ c.floats, f < 2 ^ 64) ∧
    ∃ rest', rest = c.ints.flatMap (leBytesSigned 4) ++ c.floats.flatMap (leBytes 8) ++ rest' := by
  obtain ⟨k, S, rfl, rfl, hk⟩ := sections_of_read h hh
  have ec := S.code.1 hb
  obtain ⟨ei, ef, _, _⟩ := S.pools_kept
  obtain ⟨ks, e1, _, l1, l2, r1, r2, _⟩ := pools_of S.pools
  have ei : c.ints = S.c1.ints := (congrArg Code.ints ec).trans ei
  have ef : c.floats = S.c1.floats := (congrArg Code.floats ec).trans ef
  rw [ei, ef]
  refine ⟨l1, l2, r1, r2, ?_⟩
  have hk2 := hk.symm.trans (congrArg (· ++ s.buf) S.hk)
  simp only [List.append_assoc] at hk2
  have hk3 := List.append_cancel_left hk2
  rw [e1] at hk3
  exact ⟨ks ++ (S.k2 ++ (S.k3 ++ (S.k4 ++ (S.k5 ++ (S.k6 ++ (S.k7 ++ (S.k8 ++ s.buf))))))), by rw [hk3]; simp only [List.append_assoc]⟩

theorem poolG_length (st : Str) : ∀ (n cu : Nat) {c k l c'}, poolG st n cu c k l c' → l.length ≤ n
  | 0, _, _, _, _, _, ⟨_, rfl, _⟩ => by simp
  | n + 1, cu, c, k, l, c', ⟨_, _, sz, _, _, _, _, _, s, _, _, _, h⟩ => by
    split at h
    · obtain ⟨_, rfl, _⟩ := h; simp
    · obtain ⟨_, _, l', _, _, h, _, rfl, _⟩ := h
      have := poolG_length st n _ h
      simp; omega

theorem stringsG_length {n : Nat} {c k l c'} (h : stringsG n c k l c') : l.length ≤ n := by
  rw [stringsG_eq] at h
  obtain ⟨_, _, _, _, _, _, _, _, _, _, _, _, _, _, _, _, _, _, h⟩ := h
  exact poolG_length _ _ _ h

/-- **C34** (what holds) On an accepted file there are at most `nstrings` strings, and `strings_lens` are their lengths. -/
theorem c34_at_most_nstrings (p : Profile) (e : Option DecodeError) (buf : List UInt8) (c : Code) (s : St)
    (h : Code.read p e buf = .ok c s) : c.strings.length ≤ c.nstrings ∧ c.stringsLens = c.strings.map List.length := by
  obtain ⟨hd, kh, rest, rfl, hh⟩ := c44_has_header p e buf c s h
  obtain ⟨k, S, rfl, _, _⟩ := sections_of_read h hh
  by_cases hb : S.h.Bare
  · rw [S.code.2 hb]; exact ⟨Nat.le_refl _, rfl⟩
  · have ec := S.code.1 hb
    obtain ⟨_, _, es, el⟩ := S.pools_kept
    obtain ⟨ks, _, h3, _, _, _, _, e4⟩ := pools_of S.pools
    have es := (congrArg Code.strings ec).trans es
    have el := (congrArg Code.stringsLens ec).trans el
    have en := (congrArg Code.nstrings ec).trans S.same8.nstrings
    rw [es, el, en, e4]
    exact ⟨stringsG_length h3, rfl⟩

/-- **C34** (the defect, concrete) An accepted file that declares two strings and has one; and a file that differs only in
referring to the missing string makes `Code::read` panic.  The strings start after `version 2, flags 0, 0 ints, 0 floats,
2 strings, 1 type, 0 globals, 1 native`; the native's names are the last bytes. -/
theorem c34_missing_strings :
    (∃ c s, Code.read .release none
      [0x48, 0x4C, 0x42, 2, 0, 0, 0, 2, 1, 0, 1, 0, 0, 1, 0, 0, 0, 0x61, 1, 0, 0, 0, 0, 0] = .ok c s ∧
      c.nstrings = 2 ∧ c.strings = [[0x61]]) ∧
    Code.read .release none
      [0x48, 0x4C, 0x42, 2, 0, 0, 0, 2, 1, 0, 1, 0, 0, 1, 0, 0, 0, 0x61, 1, 0, 1, 0, 0, 0] = .panic := by
  constructor
  · have h : checkOk (Code.read .release none
      [0x48, 0x4C, 0x42, 2, 0, 0, 0, 2, 1, 0, 1, 0, 0, 1, 0, 0, 0, 0x61, 1, 0, 0, 0, 0, 0])
      (fun c => decide (c.nstrings = 2 ∧ c.strings = [[0x61]])) = true := by decide +kernel
    obtain ⟨c, s, h1, h2⟩ := checkOk_iff h
    exact ⟨c, s, h1, of_decide_eq_true h2⟩
  · exact checkPanic_iff (o := Code.read .release none
      [0x48, 0x4C, 0x42, 2, 0, 0, 0, 2, 1, 0, 1, 0, 0, 1, 0, 0, 0, 0x61, 1, 0, 1, 0, 0, 0]) (by decide +kernel)

/-! ## Truncated pools -/

theorem words_idx1 {n : Nat} {l : List Nat} {k : List UInt8} (h : IdxSeq (n :: l) k) :
    ∃ k1 k2, k = k1 ++ k2 ∧ IdxBytes k1 (n : Int) ∧ IdxSeq l k2 := by
  cases h with
  | cons _ _ k k' h1 h2 => exact ⟨k, k', rfl, h1, h2⟩

theorem words_opt {b : Prop} [Decidable b] {n : Nat} {l : List Nat} {k : List UInt8} (h : IdxSeq ((if b then [n] else []) ++ l) k)
    (hz : ¬ b → n = 0) (c : Code) : ∃ k1 k2, k = k1 ++ k2 ∧ natIfG b c k1 n c ∧ IdxSeq l k2 := by
  unfold natIfG
  by_cases hb : b
  · rw [if_pos hb] at h
    obtain ⟨k1, k2, rfl, h1, h2⟩ := words_idx1 h
    exact ⟨k1, k2, rfl, by rw [if_pos hb]; exact ⟨rfl, h1⟩, h2⟩
  · rw [if_neg hb] at h
    exact ⟨[], k, rfl, by rw [if_neg hb, hz hb]; exact ⟨rfl, rfl, rfl⟩, h⟩

theorem header_counts {h : Header} {k' : List UInt8} (hw : IdxSeq h.words k') (v3 : h.version < 5 → h.nbytes = 0)
    (v4 : h.version < 4 → h.nconstants = 0) (c : Code) : countsG h.version c k' h.code c := by
  unfold Header.words at hw
  simp only [List.append_assoc, List.cons_append, List.nil_append] at hw
  obtain ⟨k1, _, rfl, h1, hw⟩ := words_idx1 hw
  obtain ⟨k2, _, rfl, h2, hw⟩ := words_idx1 hw
  obtain ⟨k3, _, rfl, h3, hw⟩ := words_idx1 hw
  obtain ⟨k4, _, rfl, h4, hw⟩ := words_idx1 hw
  obtain ⟨k5, _, rfl, h5, hw⟩ := words_opt hw (fun h => v3 (by omega)) c
  obtain ⟨k6, _, rfl, h6, hw⟩ := words_idx1 hw
  obtain ⟨k7, _, rfl, h7, hw⟩ := words_idx1 hw
  obtain ⟨k8, _, rfl, h8, hw⟩ := words_idx1 hw
  obtain ⟨k9, _, rfl, h9, hw⟩ := words_idx1 hw
  obtain ⟨k10, _, rfl, h10, hw⟩ := words_opt hw (fun h => v4 (by omega)) c
  obtain ⟨k11, k12, rfl, h11, hw⟩ := words_idx1 hw
  cases hw
  exact ⟨k1, _, _, c, rfl, ⟨rfl, h1⟩, k2, _, _, c, rfl, ⟨rfl, h2⟩, k3, _, _, c, rfl, ⟨rfl, h3⟩, k4, _, _, c, rfl, ⟨rfl, h4⟩,
    k5, _, _, c, rfl, h5, k6, _, _, c, rfl, ⟨rfl, h6⟩, k7, _, _, c, rfl, ⟨rfl, h7⟩, k8, _, _, c, rfl, ⟨rfl, h8⟩,
    k9, _, _, c, rfl, ⟨rfl, h9⟩, k10, _, _, c, rfl, h10, k11, [], _, c, by simp, ⟨rfl, h11⟩, rfl, rfl, rfl⟩

/-- A run of `Code::read` past a header. -/
theorem read_header {p : Profile} {hd : Header} {kh : List UInt8} (hh : HeaderBytes hd kh) (body : List UInt8) :
    Code.read p none (kh ++ body) =
      (do let c ← readPools hd.code
          let c ← readBytesSection c
          let c ← readDebugFiles c
          let c ← readTypes c
          let c ← readGlobals c
          let c ← readNatives c
          let c ← readFunctions p c
          let _ ← readConstants c
          M.getCode : M Code) ⟨body, kh.length, Code.new, none⟩ := by
  obtain ⟨v1, v2, v3, v4, k', rfl, hw⟩ := hh
  have hv : (UInt8.ofNat hd.version).toNat = hd.version := ofNat_toNat (by omega)
  unfold Code.read readM
  simp only [List.cons_append]
  rw [M.bind_ok (readMagic_ok _ _ _)]
  have h2 : readVersion ⟨UInt8.ofNat hd.version :: (k' ++ body), 3, Code.new, none⟩ = .ok hd.version ⟨k' ++ body, 4, Code.new, none⟩ := by
    unfold readVersion
    rw [M.bind_ok (byte_eq _ _ 3 _ _), if_neg (by omega), hv]
    rfl
  rw [M.bind_ok h2]
  have h3 := (Sem.checked (Sem.readCounts hd.version)).complete Code.new k' hd.code Code.new trivial (header_counts hw v3 v4 _) body 4
  rw [M.bind_ok h3]
  have e : 4 + k'.length = (0x48 :: 0x4C :: 0x42 :: UInt8.ofNat hd.version :: k' : List UInt8).length := by simp; omega
  rw [e]

theorem checked_err {α : Type} {x : M α} {s s' : St} {a : α} {e : DecodeError} (h : x s = .ok a s') (he : s'.errors = some e) :
    checked x s = .err e s' := by
  unfold checked
  rw [M.bind_ok h]
  refine M.bind_err ?_
  unfold M.checkError
  rw [he]

/-- **C28** A file with a good header that ends inside the int pool is rejected with `NoMoreData`, at the position of the
first incomplete word. -/
theorem c28_short_ints (p : Profile) (hd : Header) (kh body : List UInt8) (hh : HeaderBytes hd kh) (hl : body.length < 4 * hd.nints) :
    ∃ s, Code.read p none (kh ++ body) = .err { kind := .noMoreData, position := kh.length + 4 * (body.length / 4) } s := by
  obtain ⟨v', s', h1, h2⟩ := pool_short FixedRead.i32 hd.nints [] ⟨body, kh.length, Code.new, none⟩ rfl hl
  refine ⟨s', ?_⟩
  rw [read_header hh]
  refine M.bind_err ?_
  exact M.bind_err (checked_err h1 h2)

/-- **C28** The same for the float pool. -/
theorem c28_short_floats (p : Profile) (hd : Header) (kh body : List UInt8) (hh : HeaderBytes hd kh) (h0 : 4 * hd.nints ≤ body.length)
    (hl : body.length < 4 * hd.nints + 8 * hd.nfloats) :
    ∃ s, Code.read p none (kh ++ body) =
      .err { kind := .noMoreData, position := kh.length + 4 * hd.nints + 8 * ((body.length - 4 * hd.nints) / 8) } s := by
  obtain ⟨v, e1, _⟩ := pool_enough FixedRead.i32 hd.nints [] ⟨body, kh.length, Code.new, none⟩ h0
  have e2 : checked (readPool decodeI32 hd.nints) ⟨body, kh.length, Code.new, none⟩ =
      .ok v ⟨body.drop (4 * hd.nints), kh.length + 4 * hd.nints, Code.new, none⟩ := by
    unfold checked
    have e1 : readPool decodeI32 hd.nints ⟨body, kh.length, Code.new, none⟩ = _ := e1
    rw [M.bind_ok e1]
    rfl
  obtain ⟨v', s', h1, h2⟩ := pool_short FixedRead.f64 hd.nfloats [] ⟨body.drop (4 * hd.nints), kh.length + 4 * hd.nints, Code.new, none⟩ rfl
    (by simp only [List.length_drop]; omega)
  refine ⟨s', ?_⟩
  rw [read_header hh]
  refine M.bind_err ?_
  unfold readPools
  have e3 : hd.code.nints = hd.nints := rfl
  have e4 : hd.code.nfloats = hd.nfloats := rfl
  rw [e3, e4, M.bind_ok e2]
  refine M.bind_err (checked_err h1 ?_)
  rw [h2]
  simp only [List.length_drop]

/-- The hypotheses are met: a version 4 header with two ints and one float. -/
example : HeaderBytes ⟨4, 0, 2, 1, 0, 0, 0, 0, 0, 0, 0, 9⟩ [0x48, 0x4C, 0x42, 4, 0, 2, 1, 0, 0, 0, 0, 0, 0, 9] := by
  refine ⟨by decide, by decide, by decide, by decide, [0, 2, 1, 0, 0, 0, 0, 0, 0, 9], rfl, ?_⟩
  have z : IdxBytes [0] ((0 : Nat) : Int) := .short 0 (by decide)
  exact .cons 0 _ [0] _ z <| .cons 2 _ [2] _ (.short 2 (by decide)) <| .cons 1 _ [1] _ (.short 1 (by decide)) <|
    .cons 0 _ [0] _ z <| .cons 0 _ [0] _ z <| .cons 0 _ [0] _ z <| .cons 0 _ [0] _ z <| .cons 0 _ [0] _ z <|
    .cons 0 _ [0] _ z <| .cons 9 _ [9] _ (.short 9 (by decide)) .nil

/-- **C31** No strict truncation of the consumed part of an accepted file is accepted. -/
theorem c31_no_truncation_accepted (p : Profile) (e : Option DecodeError) (buf k' k'' : List UInt8) (c : Code) (s : St)
    (h : Code.read p e buf = .ok c s) (hb : buf = k' ++ k'' ++ s.buf) (ne : k'' ≠ []) (c' : Code) (s' : St) :
    Code.read p e k' ≠ .ok c' s' := by
  intro h'
  rcases c27_truncation p e buf k' k'' c s h hb ne with h1 | ⟨_, _, _, h1⟩ <;> rw [h1] at h' <;> cases h'

/-! ## Table lengths -/

/-- **C37** On an accepted file there are `nnatives` natives, `nfunctions` functions and `nconstants` constants; but `types`
and `globals` hold *twice* the declared number: the entries followed by as many copies of the default type, because the
vectors are filled before the entries are inserted. -/
theorem c37_table_lengths (p : Profile) (e : Option DecodeError) (buf : List UInt8) (c : Code) (s : St)
    (h : Code.read p e buf = .ok c s) :
    c.natives.length = c.nnatives ∧ c.functions.length = c.nfunctions ∧ c.constants.length = c.nconstants ∧
    (∃ T, T.length = c.ntypes ∧ c.types = T ++ List.replicate c.ntypes noType) ∧
    (∃ T, T.length = c.nglobals ∧ c.globals = T ++ List.replicate c.nglobals noType) := by
  obtain ⟨hd, kh, rest, rfl, hh⟩ := c44_has_header p e buf c s h
  obtain ⟨k, S, rfl, _, _⟩ := sections_of_read h hh
  by_cases hb : S.h.Bare
  · rw [S.code.2 hb]; exact ⟨rfl, rfl, rfl, ⟨[], rfl, rfl⟩, ⟨[], rfl, rfl⟩⟩
  have ec := S.code.1 hb
  have s8 := S.same8
  rw [← ec] at s8
  rw [s8.nnatives, s8.nfunctions, s8.nconstants, s8.ntypes, s8.nglobals]
  obtain ⟨_, e5⟩ := S.val5
  obtain ⟨_, e6⟩ := S.val6
  obtain ⟨_, e7⟩ := S.val7
  obtain ⟨_, e8⟩ := S.val8
  have k8 : S.c8.constants.length = S.h.nconstants := by
    have := loop_inv (fun i (b : Code) => b.constants.length = i) (by
      rintro i b c k b' c' hi ⟨_, _, _, _, rfl, _, _, _, _, _, rfl, ⟨_, hg, _⟩, _, _, _, _, rfl, _, rfl, rfl, rfl⟩
      simp [List.length_insertIdx, hi]) _ _ _ _ _ _ _ (by rw [S.same7.2]; rfl) S.constants
    rw [this, S.same7.1.nconstants, Nat.zero_add]
  have k7 : S.c7.functions.length = S.h.nfunctions := by
    have := loop_inv (fun i (b : Code) => b.functions.length = i) (by
      rintro i b c k b' c' hi h
      rw [(Sem.functionsStep_length h).1, hi]) _ _ _ _ _ _ _ (by rw [S.same6.2.1]; rfl) S.functions
    rw [this, S.same6.1.nfunctions, Nat.zero_add]
  have k6 : S.c6.natives.length = S.h.nnatives := by
    have := loop_inv (fun i (b : Code) => b.natives.length = i) (by
      rintro i b c k b' c' hi ⟨_, _, _, _, rfl, _, _, _, _, _, rfl, _, rfl, rfl, rfl⟩
      simp [hi]) _ _ _ _ _ _ _ (by rfl) S.natives
    rw [this, S.same5.1.nnatives, Nat.zero_add]
  have k5 : ∃ T, T.length = S.h.nglobals ∧ S.c5.globals = T ++ List.replicate S.h.nglobals noType := by
    have := loop_inv (fun i (b : Code) => ∃ T, T.length = i ∧ b.globals = T ++ List.replicate S.c4.nglobals noType) (by
      rintro i b c k b' c' ⟨T, rfl, hT⟩ ⟨_, _, _, _, rfl, _, _, _, t, _, rfl, _, _, _, _, _, rfl, _, _, _, _, _, rfl, _, rfl, rfl, rfl⟩
      refine ⟨T ++ [t], by simp, ?_⟩
      simp only [hT, insertIdx_append_length]) _ _ _ _ _ _ _ ⟨[], rfl, rfl⟩ S.globals
    rwa [S.same4.1.nglobals, Nat.zero_add] at this
  have k4 : ∃ T, T.length = S.h.ntypes ∧ S.c4.types = T ++ List.replicate S.h.ntypes noType := by
    have := loop_inv (fun i (b : Code) => ∃ T, T.length = i ∧ b.types = T ++ List.replicate S.c3.ntypes noType) (by
      rintro i b c k b' c' ⟨T, rfl, hT⟩ ⟨_, _, _, _, rfl, ⟨rfl, rfl⟩, _, _, t, _, rfl, h, _, _, _, _, rfl, ⟨rfl, rfl, rfl⟩, _, _, _, _, rfl, ⟨rfl, _, rfl⟩, _, _, _, _, rfl, ⟨rfl, rfl⟩, rfl, rfl, rfl⟩
      obtain ⟨u, rfl⟩ := KeepsButCache.typeG _ _ _ _ h
      refine ⟨T ++ [t], by simp, ?_⟩
      simp only [hT, insertIdx_append_length]) _ _ _ _ _ _ _ ⟨[], rfl, rfl⟩ S.types
    rwa [S.same3.1.ntypes, Nat.zero_add] at this
  refine ⟨?_, ?_, ?_, ?_, ?_⟩
  · rw [congrArg Code.natives ec, congrArg Code.natives e8, congrArg Code.natives e7]; exact k6
  · rw [congrArg Code.functions ec, congrArg Code.functions e8]; exact k7
  · rw [congrArg Code.constants ec]; exact k8
  · rw [congrArg Code.types ec, congrArg Code.types e8, congrArg Code.types e7, congrArg Code.types e6, congrArg Code.types e5]; exact k4
  · rw [congrArg Code.globals ec, congrArg Code.globals e8, congrArg Code.globals e7, congrArg Code.globals e6]; exact k5

end Verif.Brass
