import Verif.Brass.Back
import Verif.Props.Answered
import Verif.Props.File

/-!
# A module that is read correctly is readable
-/

namespace Verif.Brass

open Verif Verif.Brass.Spec

namespace Back

theorem native {n : RNative} (h : n.lib < 2 ^ 29 ∧ n.name < 2 ^ 29 ∧ n.type < 2 ^ 29 ∧ n.findex < 2 ^ 29) :
    Back nativeG n.encode (fun v => v.findex = n.findex) (n.findex < 0x2000) := by
  rintro c k a c' r r' ⟨k1, _, b, c1, rfl, h1, k2, _, l, c2, rfl, h2, k3, _, l3, c3, rfl, h3, k4, _, l4, c4, rfl, h4, rfl, rfl, rfl⟩ e p
  simp only [RNative.encode, List.append_assoc, List.append_nil] at e ⊢
  obtain ⟨rfl, e, _⟩ := stringRef h.1 _ _ _ _ _ _ h1 e trivial
  obtain ⟨rfl, e, _⟩ := stringRef h.2.1 _ _ _ _ _ _ h2 e trivial
  obtain ⟨rfl, e, _⟩ := typeRef h.2.2.1 _ _ _ _ _ _ h3 e trivial
  obtain ⟨rfl, rfl, q⟩ := nat h.2.2.2 _ _ _ _ _ _ h4 e p
  exact ⟨rfl, rfl, q⟩

theorem constant {n : RConstant} (h : n.global < 2 ^ 29 ∧ n.fields.length < 2 ^ 29 ∧ ∀ f ∈ n.fields, f < 2 ^ 29) :
    Back constantG n.encode (fun v => v = n.decoded) (n.global < 0x2000 ∧ n.fields.length < 0x2000 ∧ ∀ f ∈ n.fields, f < 0x2000) := by
  rintro c k a c' r r' ⟨k1, _, b, c1, rfl, h1, k2, _, l, c2, rfl, h2, k3, _, l3, c3, rfl, h3, rfl, rfl, rfl⟩ e p
  simp only [RConstant.encode, RConstant.decoded, Constant.mk.injEq, List.append_assoc, List.append_nil] at e p ⊢
  obtain ⟨p1, p2, p3⟩ := p
  obtain ⟨rfl, e, q1⟩ := nat h.1 _ _ _ _ _ _ h1 e p1
  obtain ⟨rfl, e, q2⟩ := nat h.2.1 _ _ _ _ _ _ h2 e p2
  subst p2
  obtain ⟨rfl, rfl, q3⟩ := nats n.fields h.2.2 _ _ _ _ _ _ h3 e p3
  exact ⟨rfl, rfl, q1, q2, q3⟩

end Back

theorem idxSeq_back : ∀ (ns ws : List Nat) {k r r' : List UInt8}, IdxSeq ns k → ns.length = ws.length → (∀ w ∈ ws, w < 2 ^ 29) →
    k ++ r = ws.flatMap ix ++ r' → k = ws.flatMap ix ∧ r = r' ∧ ∀ (i : Nat) n w, ns[i]? = some n → ws[i]? = some w → (n = w ↔ w < 0x2000)
  | [], [], k, r, r', h, _, _, e => by
    cases h
    exact ⟨rfl, e, by simp⟩
  | [], _ :: _, _, _, _, _, hl, _, _ => by simp at hl
  | _ :: _, [], _, _, _, _, hl, _, _ => by simp at hl
  | n :: ns, w :: ws, k, r, r', h, hl, hw, e => by
    cases h with
    | cons _ _ k1 k2 h1 h2 =>
      simp only [List.flatMap_cons, List.append_assoc] at e ⊢
      obtain ⟨rfl, e, q⟩ := nat_back (hw w (by simp)) h1 e
      obtain ⟨rfl, rfl, q'⟩ := idxSeq_back ns ws h2 (by simpa using hl) (fun x hx => hw x (by simp [hx])) e
      refine ⟨rfl, rfl, ?_⟩
      intro i x y hx hy
      cases i with
      | zero => simp at hx hy; subst hx hy; exact q
      | succ i => exact q' i x y (by simpa using hx) (by simpa using hy)

/-- The header of a module. -/
def headerOf (m : RModule) : Header where
  version := m.version
  flags := if m.hasDebug then 1 else 0
  nints := m.ints.length
  nfloats := m.floats.length
  nstrings := m.strings.length
  nbytes := m.bytesPos.length
  ntypes := m.types.length
  nglobals := m.globals.length
  nnatives := m.natives.length
  nfunctions := m.functions.length
  nconstants := m.constants.length
  entrypoint := m.entrypoint

theorem counts_words (m : RModule) : m.counts = (headerOf m).words.flatMap ix := by
  unfold RModule.counts Header.words
  simp only [headerOf]
  by_cases h5 : 5 ≤ m.version <;> by_cases h4 : 4 ≤ m.version <;> simp [h5, h4]

theorem leBytesSigned_length (n : Nat) (v : Int) : (leBytesSigned n v).length = n := leBytes_length _ _

theorem flatMap_leS (l : List Int) : (l.flatMap (leBytesSigned 4)).length = 4 * l.length := by
  induction l with
  | nil => rfl
  | cons a l ih => simp [leBytesSigned_length, ih]; omega

/-- If a module that can be written is read as what it is, then its version is supported, its numbers are small, and it is not bare. -/
theorem readable_of_right {m : RModule} (hw : m.Writable) {p : Profile} {rest : List UInt8} {u : List (Option Str)} {s : St}
    (h : Code.read p none (m.encode ++ rest) = .ok { m.decoded with ustrings := u } s) : m.Readable ∧ m.NotBare := by
  obtain ⟨_, k, r, hb, h1, hs⟩ := (c38_accepts_exactly_the_grammar p none _ _ s).1 h
  obtain ⟨_, ⟨S⟩⟩ := sections h1
  clear h h1 hs
  have e := hb.trans ((congrArg (· ++ r) S.hk).trans (List.append_assoc ..))
  clear hb
  replace e := e.symm
  obtain ⟨v1, v2, vb, vc, kc, ek, hseq⟩ := S.header
  simp only [ek, RModule.encode, List.append_assoc, List.cons_append, List.nil_append, List.cons.injEq, true_and] at e
  obtain ⟨ev, e⟩ := e
  have hver : S.h.version = m.version % 256 := by
    have := congrArg UInt8.toNat ev
    rw [UInt8.toNat_ofNat', UInt8.toNat_ofNat'] at this
    omega
  -- not bare
  have nb : ¬ S.h.Bare := by
    intro hbare
    have := congrArg Code.version (S.code.2 hbare)
    have : m.version = 0 := this
    omega
  have ec := S.code.1 nb
  have sh := S.same8
  rw [← ec] at sh
  obtain ⟨a1, a2, a3, a4, a5, a6, a7, a8, a9, a10, a11, a12, _⟩ := sh
  replace a1 : m.version = S.h.version := a1
  replace a2 : m.ints.length = S.h.nints := a2
  replace a3 : m.floats.length = S.h.nfloats := a3
  replace a4 : m.strings.length = S.h.nstrings := a4
  replace a5 : m.bytesPos.length = S.h.nbytes := a5
  replace a6 : m.types.length = S.h.ntypes := a6
  replace a7 : m.globals.length = S.h.nglobals := a7
  replace a8 : m.natives.length = S.h.nnatives := a8
  replace a9 : m.functions.length = S.h.nfunctions := a9
  replace a10 : m.constants.length = S.h.nconstants := a10
  replace a11 : m.entrypoint = S.h.entrypoint := a11
  replace a12 : (if m.hasDebug then 1 else 0) = S.h.flags % 2 := a12
  have notBare : m.NotBare := by
    refine Classical.byContradiction fun hn => nb ?_
    simp only [RModule.NotBare, not_or, Decidable.not_not, Bool.not_eq_true] at hn
    obtain ⟨n1, n2, n3, n4, n5, n6⟩ := hn
    simp only [n1, n2, n3, n4, n5, n6, List.length_nil] at a6 a7 a8 a9 a10 a12
    refine ⟨?_, a6.symm, a7.symm, a8.symm, a9.symm, a10.symm⟩
    simp at a12; omega
  refine ⟨?_, notBare⟩
  -- the header
  rw [counts_words] at e
  have hw' : ∀ w ∈ (headerOf m).words, w < 2 ^ 29 := by
    have := hw.entrypoint; have := hw.nints; have := hw.nfloats; have := hw.nstrings; have := hw.nbytes
    have := hw.ntypes; have := hw.nglobals; have := hw.nnatives; have := hw.nfunctions; have := hw.nconstants
    have hf : (if m.hasDebug = true then 1 else 0) < 2 := by split <;> omega
    intro w hx
    unfold Header.words at hx
    simp only [headerOf] at hx
    by_cases h5 : 5 ≤ m.version <;> by_cases h4 : 4 ≤ m.version <;> simp only [h5, h4, if_true, if_false, List.mem_append, List.mem_cons, List.not_mem_nil, or_false] at hx <;>
      omega
  have hlen : S.h.words.length = (headerOf m).words.length := by
    unfold Header.words
    rw [show (headerOf m).version = S.h.version from a1]
    by_cases h5 : 5 ≤ S.h.version <;> by_cases h4 : 4 ≤ S.h.version <;> simp [h5, h4]
  obtain ⟨rfl, e, q⟩ := idxSeq_back S.h.words _ hseq hlen hw' e
  have hsmall : m.ints.length < 0x2000 ∧ m.floats.length < 0x2000 ∧ m.strings.length < 0x2000 ∧ m.bytesPos.length < 0x2000 ∧ m.types.length < 0x2000 ∧
      m.globals.length < 0x2000 ∧ m.natives.length < 0x2000 ∧ m.functions.length < 0x2000 ∧ m.constants.length < 0x2000 ∧ m.entrypoint < 0x2000 := by
    unfold Header.words at q
    simp only [headerOf, ← a1, ← a2, ← a3, ← a4, ← a5, ← a6, ← a7, ← a8, ← a9, ← a10, ← a11] at q
    have b5 : ¬ 5 ≤ m.version → m.bytesPos.length = 0 := fun h => by rw [a5]; exact vb (by omega)
    have b4 : ¬ 4 ≤ m.version → m.constants.length = 0 := fun h => by rw [a10]; exact vc (by omega)
    have q1 := q 1; have q2 := q 2; have q3 := q 3; have q4 := q 4; have q5 := q 5; have q6 := q 6; have q7 := q 7; have q8 := q 8
    have q9 := q 9; have q10 := q 10
    by_cases h5 : 5 ≤ m.version <;> by_cases h4 : 4 ≤ m.version
    · simp [h5, h4] at q1 q2 q3 q4 q5 q6 q7 q8 q9 q10; omega
    · omega
    · have := b5 h5
      simp [h5, h4] at q1 q2 q3 q4 q5 q6 q7 q8 q9; omega
    · have := b5 h5
      have := b4 h4
      simp [h5, h4] at q1 q2 q3 q4 q5 q6 q7 q8; omega
  clear q hw' hlen
  obtain ⟨s2, s3, s4, s5, s6, s7, s8, s9, s10, s11⟩ := hsmall
  obtain ⟨_, _, e2⟩ := S.val2
  obtain ⟨_, _, e3⟩ := S.val3
  obtain ⟨_, _, e4⟩ := S.val4
  obtain ⟨_, e5⟩ := S.val5
  obtain ⟨_, e6⟩ := S.val6
  obtain ⟨_, e7⟩ := S.val7
  obtain ⟨_, e8⟩ := S.val8
  have iInts : m.ints = S.c1.ints := (congrArg Code.ints ec).trans ((show S.c8.ints = S.c7.ints from by rw [e8]).trans ((show S.c7.ints = S.c6.ints from by rw [e7]).trans ((show S.c6.ints = S.c5.ints from by rw [e6]).trans ((show S.c5.ints = S.c4.ints from by rw [e5]).trans ((show S.c4.ints = S.c3.ints from by rw [e4]).trans ((show S.c3.ints = S.c2.ints from by rw [e3]).trans (show S.c2.ints = S.c1.ints from by rw [e2])))))))
  have iFloats : m.floats = S.c1.floats := (congrArg Code.floats ec).trans ((show S.c8.floats = S.c7.floats from by rw [e8]).trans ((show S.c7.floats = S.c6.floats from by rw [e7]).trans ((show S.c6.floats = S.c5.floats from by rw [e6]).trans ((show S.c5.floats = S.c4.floats from by rw [e5]).trans ((show S.c4.floats = S.c3.floats from by rw [e4]).trans ((show S.c3.floats = S.c2.floats from by rw [e3]).trans (show S.c2.floats = S.c1.floats from by rw [e2])))))))
  have iStrings : m.strings.map utf8 = S.c1.strings := (congrArg Code.strings ec).trans ((show S.c8.strings = S.c7.strings from by rw [e8]).trans ((show S.c7.strings = S.c6.strings from by rw [e7]).trans ((show S.c6.strings = S.c5.strings from by rw [e6]).trans ((show S.c5.strings = S.c4.strings from by rw [e5]).trans ((show S.c4.strings = S.c3.strings from by rw [e4]).trans ((show S.c3.strings = S.c2.strings from by rw [e3]).trans (show S.c2.strings = S.c1.strings from by rw [e2])))))))
  have iBytes : m.bytes = S.c2.bytes := (congrArg Code.bytes ec).trans ((show S.c8.bytes = S.c7.bytes from by rw [e8]).trans ((show S.c7.bytes = S.c6.bytes from by rw [e7]).trans ((show S.c6.bytes = S.c5.bytes from by rw [e6]).trans ((show S.c5.bytes = S.c4.bytes from by rw [e5]).trans ((show S.c4.bytes = S.c3.bytes from by rw [e4]).trans (show S.c3.bytes = S.c2.bytes from by rw [e3]))))))
  have iPos : m.bytesPos = S.c2.bytesPos := (congrArg Code.bytesPos ec).trans ((show S.c8.bytesPos = S.c7.bytesPos from by rw [e8]).trans ((show S.c7.bytesPos = S.c6.bytesPos from by rw [e7]).trans ((show S.c6.bytesPos = S.c5.bytesPos from by rw [e6]).trans ((show S.c5.bytesPos = S.c4.bytesPos from by rw [e5]).trans ((show S.c4.bytesPos = S.c3.bytesPos from by rw [e4]).trans (show S.c3.bytesPos = S.c2.bytesPos from by rw [e3]))))))
  have iNfiles : m.debugFiles.length = S.c3.ndebugfiles := (congrArg Code.ndebugfiles ec).trans ((show S.c8.ndebugfiles = S.c7.ndebugfiles from by rw [e8]).trans ((show S.c7.ndebugfiles = S.c6.ndebugfiles from by rw [e7]).trans ((show S.c6.ndebugfiles = S.c5.ndebugfiles from by rw [e6]).trans ((show S.c5.ndebugfiles = S.c4.ndebugfiles from by rw [e5]).trans (show S.c4.ndebugfiles = S.c3.ndebugfiles from by rw [e4])))))
  have iFiles : m.debugFiles.map utf8 = S.c3.debugfiles := (congrArg Code.debugfiles ec).trans ((show S.c8.debugfiles = S.c7.debugfiles from by rw [e8]).trans ((show S.c7.debugfiles = S.c6.debugfiles from by rw [e7]).trans ((show S.c6.debugfiles = S.c5.debugfiles from by rw [e6]).trans ((show S.c5.debugfiles = S.c4.debugfiles from by rw [e5]).trans (show S.c4.debugfiles = S.c3.debugfiles from by rw [e4])))))
  have iTypes : m.typeTable ++ List.replicate m.types.length noType = S.c4.types := (congrArg Code.types ec).trans ((show S.c8.types = S.c7.types from by rw [e8]).trans ((show S.c7.types = S.c6.types from by rw [e7]).trans ((show S.c6.types = S.c5.types from by rw [e6]).trans (show S.c5.types = S.c4.types from by rw [e5]))))
  have iNatives : m.natives.map (RNative.decoded m) = S.c6.natives := (congrArg Code.natives ec).trans ((show S.c8.natives = S.c7.natives from by rw [e8]).trans (show S.c7.natives = S.c6.natives from by rw [e7]))
  have iFunctions : m.functions.map (RFunction.decoded m) = S.c7.functions := (congrArg Code.functions ec).trans (show S.c8.functions = S.c7.functions from by rw [e8])
  have iConstants : m.constants.map RConstant.decoded = S.c8.constants := congrArg Code.constants ec
  have e6n : S.c6.ndebugfiles = S.c3.ndebugfiles := (show S.c6.ndebugfiles = S.c5.ndebugfiles from by rw [e6]).trans ((show S.c5.ndebugfiles = S.c4.ndebugfiles from by rw [e5]).trans (show S.c4.ndebugfiles = S.c3.ndebugfiles from by rw [e4]))
  clear e2 e3 e4 e5 e6 e7 e8
  -- pools
  obtain ⟨ks, ek1, hstr, _, _, rInts, rFloats, _⟩ := pools_of S.pools
  rw [ek1, ← iInts, ← iFloats] at e
  simp only [List.append_assoc] at e
  replace e := List.append_cancel_left (List.append_cancel_left e)
  rw [← iInts] at rInts
  rw [← iFloats] at rFloats
  rw [show S.h.code.nstrings = m.strings.length from a4.symm, ← iStrings] at hstr
  obtain ⟨rfl, e, qStrings⟩ := Back.strings m.strings hw.strings.1 hw.strings.2 _ _ _ _ _ _ hstr e rfl
  -- bytes
  have hB : (m.version < 5 → m.bytes = [] ∧ m.bytesPos = []) ∧ m.bytes.length < 2 ^ 31 ∧ (∀ v ∈ m.bytesPos, v < 0x2000) ∧
      S.k3 ++ (S.k4 ++ (S.k5 ++ (S.k6 ++ (S.k7 ++ (S.k8 ++ r))))) = (if m.hasDebug then ix m.debugFiles.length ++ hlStrings m.debugFiles else []) ++
        (m.types.flatMap RType.encode ++ (m.globals.flatMap ix ++ (m.natives.flatMap RNative.encode ++
          (m.functions.flatMap (RFunction.encode m) ++ ((if 4 ≤ m.version then m.constants.flatMap RConstant.encode else []) ++ rest))))) := by
    have hg := S.bytes
    unfold bytesSectionG at hg
    rw [S.same1.1.version, ← a1] at hg
    split at hg
    · next h5 =>
      obtain ⟨k1, _, size, _, ek, ⟨rfl, l1, hsz⟩, _, _, _, _, rfl, ⟨rfl, h0, rfl⟩, k2, _, bs, _, rfl, ⟨rfl, l2, rfl⟩, k3, _, ps, _, rfl, h3, rfl, hc, _⟩ := hg
      rw [hc] at iBytes iPos
      simp only at iBytes iPos
      rw [ek, if_pos h5] at e
      simp only [List.append_assoc, List.nil_append, List.append_nil] at e
      obtain ⟨ek1, e⟩ := List.append_inj e (by rw [l1, leBytesSigned_length])
      rw [← iBytes] at e l2
      replace e := List.append_cancel_left e
      rw [S.same1.1.nbytes, ← a5] at h3
      obtain ⟨rfl, e, q3⟩ := Back.nats m.bytesPos hw.bytesPos _ _ _ _ _ _ h3 e iPos.symm
      refine ⟨by omega, ?_, q3, e⟩
      have := toSigned_range l1
      rw [twos32_eq, unsignedLE_eq] at hsz
      omega
    · next h5 =>
      obtain ⟨ek, hc, _⟩ := hg
      rw [hc] at iBytes iPos
      rw [ek, if_neg h5] at e
      obtain ⟨_, _, _, _, ep⟩ := poolsG_value S.pools
      have z1 : m.bytes = [] := iBytes.trans (show S.c1.bytes = [] from by rw [ep]; rfl)
      have z2 : m.bytesPos = [] := iPos.trans (show S.c1.bytesPos = [] from by rw [ep]; rfl)
      refine ⟨fun _ => ⟨z1, z2⟩, by rw [z1]; decide, by rw [z2]; simp, e⟩
  clear e
  obtain ⟨qb, qbl, qbp, e⟩ := hB
  -- debug files
  have hD : (m.hasDebug = false → m.debugFiles = []) ∧ m.debugFiles.length < 0x2000 ∧ (∀ s ∈ m.debugFiles, (utf8 s).length < 0x2000) ∧
      S.k4 ++ (S.k5 ++ (S.k6 ++ (S.k7 ++ (S.k8 ++ r)))) = 
        (m.types.flatMap RType.encode ++ (m.globals.flatMap ix ++ (m.natives.flatMap RNative.encode ++
          (m.functions.flatMap (RFunction.encode m) ++ ((if 4 ≤ m.version then m.constants.flatMap RConstant.encode else []) ++ rest))))) := by
    have hg := S.debugFiles
    unfold debugFilesG at hg
    rw [S.same2.1.hasdebug, ← a12] at hg
    by_cases hd : m.hasDebug = true
    · rw [if_pos hd] at e
      rw [if_pos (by rw [if_pos hd]; decide)] at hg
      obtain ⟨k1, _, n, _, ek, h1, k2, _, files, _, rfl, h2, _, _, _, _, rfl, ⟨rfl, _⟩, rfl, hc, _⟩ := hg
      rw [hc] at iNfiles iFiles
      simp only at iNfiles iFiles
      rw [ek] at e
      simp only [List.append_assoc, List.nil_append, List.append_nil] at e
      obtain ⟨rfl, e, q1⟩ := Back.nat hw.ndebugFiles _ _ _ _ _ _ h1 e iNfiles.symm
      rw [← iNfiles, ← iFiles] at h2
      obtain ⟨rfl, e, q2⟩ := Back.strings m.debugFiles hw.debugFiles.1 hw.debugFiles.2 _ _ _ _ _ _ h2 e rfl
      exact ⟨by simp [hd], q1, q2, e⟩
    · rw [if_neg hd] at e
      rw [if_neg (by rw [if_neg hd]; decide)] at hg
      obtain ⟨ek, hc, _⟩ := hg
      rw [hc] at iNfiles
      rw [ek] at e
      obtain ⟨_, _, ep⟩ := S.val2
      have z := iNfiles.trans ((show S.c2.ndebugfiles = S.c1.ndebugfiles from by rw [ep]).trans S.same1.2.2.2.2.2.2.1)
      have z := List.length_eq_zero_iff.1 z
      refine ⟨fun _ => z, by rw [z]; decide, by rw [z]; simp, e⟩
  clear e
  obtain ⟨qd, qdl, qds, e⟩ := hD
  -- types
  obtain ⟨vs, h1, h2, h3⟩ := types_phs S.c3.ntypes rfl S.types
  rw [S.same3.1.ntypes, ← a6] at h2 h3
  have hvs : vs = m.typeTable := by
    have : m.typeTable.length = m.types.length := (decodeTypes_length _ _ []).trans (by simp)
    exact (List.append_inj_left (iTypes.trans h2) (by rw [this, h3])).symm
  obtain ⟨ek4, e, qTypes⟩ := Phs.back (enc := RType.encode) (P := fun t v => ∃ strs prev, v = t.decoded strs prev) (Q := RType.Small) m.types vs _ _ _
    (fun t ht k v r r' ⟨d, d', hg⟩ => by
      obtain ⟨w1, w2, w3⟩ := hw.types t ht
      have := hw.nstrings; have := hw.ntypes
      exact Back.typ w1 (fun j hj => by have := w3 j hj; omega) (fun j hj => by have := w2 j hj; omega) _ _ _ _ _ _ hg) h1 h3
    (fun i t v ht hv => by
      rw [hvs] at hv
      have := decodeTypes_get m.strings m.types [] i t ht
      rw [show decodeTypes m.strings [] m.types = m.typeTable from rfl, List.length_nil, Nat.zero_add, hv] at this
      exact ⟨_, _, Option.some.inj this⟩) e
  clear h1 h2
  -- globals
  obtain ⟨gs, h1, h3⟩ := globals_phs S.c4.nglobals rfl S.globals
  rw [S.same4.1.nglobals, ← a7] at h3
  obtain ⟨ek5, e, _⟩ := Phs.back (enc := ix) (P := fun _ _ => True) (Q := fun _ => True) m.globals gs _ _ _
    (fun t ht k v r r' ⟨d, d', hg⟩ => by
      have := hw.globals t ht
      have := hw.ntypes
      exact Back.typeRef (by omega) _ _ _ _ _ _ hg) h1 h3 (fun _ _ _ _ _ => trivial) e
  clear h1
  -- natives
  have h1 := natives_phs rfl S.natives
  rw [← iNatives] at h1
  obtain ⟨ek6, e, qNat⟩ := Phs.back (enc := RNative.encode) (P := fun n v => v.findex = n.findex) (Q := fun n => n.findex < 0x2000) m.natives _ _ _ _
    (fun n hn k v r r' ⟨d, d', hg⟩ => by
      obtain ⟨w1, w2, w3, w4⟩ := hw.natives n hn
      have := hw.nstrings; have := hw.ntypes
      exact Back.native ⟨by omega, by omega, by omega, w4⟩ _ _ _ _ _ _ hg) h1 (by simp) (fun i x v hx hv => by
      rw [List.getElem?_map, hx] at hv
      obtain rfl := Option.some.inj hv
      rfl) e
  clear h1
  -- functions
  have h1 := functions_phs S.c6 S.same6.2.1 S.functions
  rw [← iFunctions] at h1
  obtain ⟨ek7, e, qFun⟩ := Phs.back (enc := RFunction.encode m) (P := fun f v => v = f.decoded m) (Q := RFunction.Good m) m.functions _ _ _ _
    (fun f hf k v r r' ⟨b, d, ⟨fs, hb⟩, hg⟩ he hv => by
      refine Back.function hw.ntypes hw.ndebugFiles (hw.functions f hf) (p := p) (b := b) (c := b) ?_ ?_ ?_ hg he hv
      · rw [hb]; exact S.same6.1.hasdebug.trans a12.symm
      · rw [hb]; exact S.same6.1.version.trans a1.symm
      · rw [hb]; exact e6n.trans iNfiles.symm) h1 (by simp) (fun i x v hx hv => by
      rw [List.getElem?_map, hx] at hv
      exact (Option.some.inj hv).symm) e
  clear h1
  -- constants
  have h1 := constants_phs S.same7.2 S.constants
  rw [← iConstants] at h1
  have b4 : m.version < 4 → m.constants = [] := fun h => List.length_eq_zero_iff.1 (by rw [a10]; exact vc (by omega))
  have e4 : (if 4 ≤ m.version then m.constants.flatMap RConstant.encode else []) = m.constants.flatMap RConstant.encode := by
    by_cases h4 : 4 ≤ m.version
    · rw [if_pos h4]
    · rw [if_neg h4, b4 (by omega)]; rfl
  rw [e4] at e
  obtain ⟨ek8, e, qCon⟩ := Phs.back (enc := RConstant.encode) (P := fun n v => v = n.decoded) (Q := fun n => n.global < 0x2000 ∧ n.fields.length < 0x2000 ∧ ∀ f ∈ n.fields, f < 0x2000)
    m.constants _ _ _ _ (fun n hn k v r r' ⟨d, d', hg⟩ => Back.constant (hw.constants n hn) _ _ _ _ _ _ hg) h1 (by simp) (fun i x v hx hv => by
      rw [List.getElem?_map, hx] at hv
      exact (Option.some.inj hv).symm) e
  exact { version := by omega, bytes := qb, noConstants := b4, noDebug := qd, entrypoint := s11, nints := s2, ints := rInts, nfloats := s3,
          floats := rFloats, nstrings := s4, strings := qStrings, nbytes := ⟨qbl, s5⟩, bytesPos := qbp, ndebugFiles := qdl, debugFiles := qds,
          ntypes := s6, types := fun t ht => ⟨qTypes t ht, (hw.types t ht).2⟩, nglobals := s7, globals := hw.globals, nnatives := s8,
          natives := fun n hn => ⟨(hw.natives n hn).1, (hw.natives n hn).2.1, (hw.natives n hn).2.2.1, qNat n hn⟩, nfunctions := s9,
          functions := qFun, nconstants := s10, constants := qCon }

end Verif.Brass
