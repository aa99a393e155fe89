import Verif.Brass.SemFile
import Verif.Spec.Header
import Verif.Spec.Encode

/-!
# What the grammar says about the parts of a file
-/

namespace Verif.Brass

open Verif Verif.Brass.Spec

/-- The module with the fields of a header. -/
def Spec.Header.code (h : Header) : Code := { Code.new with
    version := h.version, nints := h.nints, nfloats := h.nfloats, nstrings := h.nstrings, nbytes := h.nbytes, ntypes := h.ntypes,
    nglobals := h.nglobals, nnatives := h.nnatives, nfunctions := h.nfunctions, nconstants := h.nconstants,
    entrypoint := h.entrypoint, hasdebug := h.flags % 2 }

theorem Spec.IdxSeq.append {l l' : List Nat} {k k' : List UInt8} (h : IdxSeq l k) (h' : IdxSeq l' k') : IdxSeq (l ++ l') (k ++ k') := by
  induction h with
  | nil => exact h'
  | cons n ns k1 k2 h1 _ ih => rw [List.append_assoc]; exact .cons _ _ _ _ h1 ih

theorem Spec.IdxSeq.one {n : Nat} {k : List UInt8} (h : IdxBytes k (n : Int)) : IdxSeq [n] k := by
  have := IdxSeq.cons n [] k [] h .nil
  rwa [List.append_nil] at this

theorem natIfG_seq {b : Prop} [Decidable b] {c k a c'} (h : natIfG b c k a c') :
    c' = c ∧ IdxSeq (if b then [a] else []) k ∧ (¬ b → a = 0) := by
  unfold natIfG at h
  split at h
  · next hb => exact ⟨h.1, by rw [if_pos hb]; exact .one h.2, fun n => absurd hb n⟩
  · next hb => obtain ⟨rfl, rfl, rfl⟩ := h; exact ⟨rfl, by rw [if_neg hb]; exact .nil, fun _ => rfl⟩

/-- The header of a file of the grammar. -/
theorem header_of {v : Nat} {k0 k1 k2 : List UInt8} {c c1 c2 c3 : Code} {a : Code} (h0 : magicG c k0 () c1) (h1 : versionG c1 k1 v c2)
    (h2 : countsG v c2 k2 a c3) : c3 = c ∧ ∃ h : Header, HeaderBytes h (k0 ++ (k1 ++ k2)) ∧ a = h.code ∧ h.version = v := by
  obtain ⟨rfl, rfl⟩ := h0
  obtain ⟨_, _, v', _, rfl, ⟨rfl, b, rfl, rfl⟩, _, _, _, _, rfl, ⟨rfl, hv, rfl⟩, rfl, rfl, rfl⟩ := h1
  obtain ⟨k1, _, flags, _, rfl, ⟨rfl, i1⟩, k2, _, nints, _, rfl, ⟨rfl, i2⟩, k3, _, nfloats, _, rfl, ⟨rfl, i3⟩,
    k4, _, nstrings, _, rfl, ⟨rfl, i4⟩, k5, _, nbytes, _, rfl, i5, k6, _, ntypes, _, rfl, ⟨rfl, i6⟩, k7, _, nglobals, _, rfl, ⟨rfl, i7⟩,
    k8, _, nnatives, _, rfl, ⟨rfl, i8⟩, k9, _, nfunctions, _, rfl, ⟨rfl, i9⟩, k10, _, nconstants, _, rfl, i10,
    k11, _, entry, _, rfl, ⟨rfl, i11⟩, rfl, rfl, rfl⟩ := h2
  obtain ⟨rfl, j5, z5⟩ := natIfG_seq i5
  obtain ⟨rfl, j10, z10⟩ := natIfG_seq i10
  refine ⟨rfl, ⟨b.toNat, flags, nints, nfloats, nstrings, nbytes, ntypes, nglobals, nnatives, nfunctions, nconstants, entry⟩,
    ⟨hv.1, hv.2, fun h => z5 (by simp only at h; omega), fun h => z10 (by simp only at h; omega),
      k1 ++ (k2 ++ (k3 ++ (k4 ++ (k5 ++ (k6 ++ (k7 ++ (k8 ++ (k9 ++ (k10 ++ k11))))))))), ?_, ?_⟩, rfl, rfl⟩
  · simp
  · have := IdxSeq.one i1 |>.append (IdxSeq.one i2 |>.append (IdxSeq.one i3 |>.append (IdxSeq.one i4 |>.append (j5 |>.append
      (IdxSeq.one i6 |>.append (IdxSeq.one i7 |>.append (IdxSeq.one i8 |>.append (IdxSeq.one i9 |>.append (j10 |>.append (IdxSeq.one i11))))))))))
    simpa [Header.words] using this

/-- A loop whose rounds end with `decoder.code = c.clone()`. -/
theorem loop_code {g : Nat → Code → G Code} (hg : ∀ i b c k b' c', g i b c k b' c' → c' = b') :
    ∀ (n a : Nat) b c k b' c', G.loop g a n b c k b' c' → (n = 0 ∧ b' = b ∧ c' = c) ∨ (0 < n ∧ c' = b')
  | 0, _, _, _, _, _, _, ⟨_, h1, h2⟩ => .inl ⟨rfl, h1, h2⟩
  | n + 1, a, b, c, k, b', c', ⟨_, _, b1, c1, _, h1, h2⟩ => by
    rcases loop_code hg n (a + 1) _ _ _ _ _ h2 with ⟨_, rfl, rfl⟩ | ⟨_, rfl⟩
    · exact .inr ⟨by omega, hg _ _ _ _ _ _ h1⟩
    · exact .inr ⟨by omega, rfl⟩

theorem many_length {α : Type} {g : G α} : ∀ (n : Nat) {c k l c'}, G.many g n c k l c' → l.length = n
  | 0, _, _, _, _, ⟨_, rfl, _⟩ => rfl
  | n + 1, _, _, _, _, ⟨_, _, _, _, _, _, _, _, _, _, _, h, _, rfl, _⟩ => by simp [many_length n h]

theorem globalsStepG_code {i d c k a c'} (h : globalsStepG i d c k a c') : c' = a := by
  obtain ⟨_, _, _, _, rfl, ⟨rfl, rfl⟩, _, _, _, _, rfl, h, _, _, _, _, rfl, ⟨rfl, _, rfl⟩, _, _, _, _, rfl, ⟨rfl, rfl⟩, rfl, rfl, rfl⟩ := h
  rfl
theorem nativesStepG_code {i d c k a c'} (h : nativesStepG i d c k a c') : c' = a := by
  obtain ⟨_, _, _, _, rfl, _, _, _, _, _, rfl, ⟨rfl, rfl⟩, rfl, rfl, rfl⟩ := h
  rfl
theorem functionsStepG_code {p i d c k a c'} (h : functionsStepG p i d c k a c') : c' = a := by
  obtain ⟨_, _, _, _, rfl, _, _, _, _, _, rfl, _, _, _, _, _, rfl, ⟨rfl, rfl⟩, rfl, rfl, rfl⟩ := h
  rfl
theorem constantsStepG_code {i d c k a c'} (h : constantsStepG i d c k a c') : c' = a := by
  obtain ⟨_, _, _, _, rfl, _, _, _, _, _, rfl, _, _, _, _, _, rfl, ⟨rfl, rfl⟩, rfl, rfl, rfl⟩ := h
  rfl

theorem functionsG_value {p d c k a c'} (h : functionsG p d c k a c') : ∃ fs, a = { d with functions := fs } := by
  refine loop_inv (fun _ b => ∃ fs, b = { d with functions := fs }) ?_ _ _ _ _ _ _ _ ⟨_, rfl⟩ h
  rintro i b c k b' c' ⟨gs, rfl⟩ ⟨_, _, _, _, rfl, _, _, _, _, _, rfl, _, _, _, _, _, rfl, _, rfl, rfl, rfl⟩
  exact ⟨_, rfl⟩

theorem constantsG_value {d c k a c'} (h : constantsG d c k a c') : ∃ fs, a = { d with constants := fs } := by
  refine loop_inv (fun _ b => ∃ fs, b = { d with constants := fs }) ?_ _ _ _ _ _ _ _ ⟨_, rfl⟩ h
  rintro i b c k b' c' ⟨gs, rfl⟩ ⟨_, _, _, _, rfl, _, _, _, _, _, rfl, _, _, _, _, _, rfl, _, rfl, rfl, rfl⟩
  exact ⟨_, rfl⟩

/-- The sections of a file of the grammar, each with the decoded module before and after it. -/
structure Sections (p : Profile) (k : List UInt8) (c : Code) where
  h : Header
  kh : List UInt8
  k1 : List UInt8
  k2 : List UInt8
  k3 : List UInt8
  k4 : List UInt8
  k5 : List UInt8
  k6 : List UInt8
  k7 : List UInt8
  k8 : List UInt8
  c1 : Code
  c2 : Code
  c3 : Code
  c4 : Code
  c5 : Code
  c6 : Code
  c7 : Code
  c8 : Code
  /-- the module stored in the decoder after the debug files, types, globals, natives, functions -/
  d3 : Code
  d4 : Code
  d5 : Code
  d6 : Code
  d7 : Code
  hk : k = kh ++ (k1 ++ (k2 ++ (k3 ++ (k4 ++ (k5 ++ (k6 ++ (k7 ++ k8)))))))
  header : HeaderBytes h kh
  pools : poolsG h.code Code.new k1 c1 Code.new
  bytes : bytesSectionG c1 Code.new k2 c2 Code.new
  debugFiles : debugFilesG c2 Code.new k3 c3 d3
  types : typesG c3 d3 k4 c4 d4
  globals : globalsG c4 d4 k5 c5 d5
  natives : nativesG c5 d5 k6 c6 d6
  functions : functionsG p c6 d6 k7 c7 d7
  constants : constantsG c7 d7 k8 c8 c

theorem sections {p k c c'} (h : fileG p Code.new k c c') : c' = c ∧ Nonempty (Sections p k c) := by
  obtain ⟨_, _, _, _, rfl, h1, _, _, v, _, rfl, h2, _, _, a, _, rfl, h3, k1, _, c1, _, rfl, h4, k2, _, c2, _, rfl, h5, k3, _, c3, d3, rfl, h6,
    k4, _, c4, d4, rfl, h7, k5, _, c5, d5, rfl, h8, k6, _, c6, d6, rfl, h9, k7, _, c7, d7, rfl, h10, k8, _, c8, _, rfl, h11, rfl, rfl, rfl⟩ := h
  obtain ⟨rfl, hd, hh, rfl, hv⟩ := header_of h1 h2 h3
  obtain ⟨rfl, _⟩ := KeepsOn.poolsG (f := fun _ => ()) _ _ _ _ _ h4
  obtain ⟨rfl, _⟩ := KeepsOn.bytesSectionG (f := fun _ => ()) _ _ _ _ _ h5
  exact ⟨rfl, ⟨⟨hd, _, k1, k2, k3, k4, k5, k6, k7, k8, c1, c2, c3, c4, c5, c6, c7, c8, d3, d4, d5, d6, d7, by simp, hh, h4, h5, h6, h7, h8, h9, h10, h11⟩⟩⟩

theorem no_types {c : Code} (h : c.types = []) (z : c.ntypes = 0) : { c with types := List.replicate c.ntypes ValueType.default } = c := by
  cases c; simp only at h z; subst h z; rfl
theorem no_globals {c : Code} (h : c.globals = []) (z : c.nglobals = 0) : { c with globals := List.replicate c.nglobals ValueType.default } = c := by
  cases c; simp only at h z; subst h z; rfl

theorem no_natives {c : Code} (h : c.natives = []) : { c with natives := [] } = c := by
  cases c; simp only at h; subst h; rfl

/-- The fields that the sections never change. -/
structure SameHeader (h : Header) (c : Code) : Prop where
  version : c.version = h.version
  nints : c.nints = h.nints
  nfloats : c.nfloats = h.nfloats
  nstrings : c.nstrings = h.nstrings
  nbytes : c.nbytes = h.nbytes
  ntypes : c.ntypes = h.ntypes
  nglobals : c.nglobals = h.nglobals
  nnatives : c.nnatives = h.nnatives
  nfunctions : c.nfunctions = h.nfunctions
  nconstants : c.nconstants = h.nconstants
  entrypoint : c.entrypoint = h.entrypoint
  hasdebug : c.hasdebug = h.flags % 2
  debugfilesLens : c.debugfilesLens = []

namespace Sections

variable {p : Profile} {k : List UInt8} {c : Code} (S : Sections p k c)

theorem same1 : SameHeader S.h S.c1 ∧ S.c1.types = [] ∧ S.c1.globals = [] ∧ S.c1.natives = [] ∧ S.c1.functions = [] ∧ S.c1.constants = [] ∧
    S.c1.ndebugfiles = 0 ∧ S.c1.debugfiles = [] ∧ S.c1.ustrings = [] := by
  obtain ⟨_, _, _, _, e⟩ := poolsG_value S.pools
  rw [e]
  exact ⟨⟨rfl, rfl, rfl, rfl, rfl, rfl, rfl, rfl, rfl, rfl, rfl, rfl, rfl⟩, rfl, rfl, rfl, rfl, rfl, rfl, rfl, rfl⟩

theorem val2 : ∃ b bp, S.c2 = { S.c1 with ustrings := List.replicate S.c1.nstrings none, bytes := b, bytesPos := bp } :=
  bytesSectionG_value S.bytes
theorem val3 : ∃ n files, S.c3 = { S.c2 with ndebugfiles := n, debugfiles := files } := debugFilesG_value S.debugFiles
theorem val4 : ∃ u ts, S.c4 = { S.c3 with ustrings := u, types := ts } := typesG_value S.types
theorem val5 : ∃ gs, S.c5 = { S.c4 with globals := gs } := globalsG_value S.globals
theorem val6 : ∃ ns, S.c6 = { S.c5 with natives := ns } := nativesG_value S.natives
theorem val7 : ∃ fs, S.c7 = { S.c6 with functions := fs } := functionsG_value S.functions
theorem val8 : ∃ cs, S.c8 = { S.c7 with constants := cs } := constantsG_value S.constants

theorem same2 : SameHeader S.h S.c2 ∧ S.c2.types = [] ∧ S.c2.globals = [] ∧ S.c2.natives = [] ∧ S.c2.functions = [] ∧ S.c2.constants = [] := by
  obtain ⟨⟨a1, a2, a3, a4, a5, a6, a7, a8, a9, a10, a11, a12, a13⟩, b1, b2, b3, b4, b5, _⟩ := S.same1
  obtain ⟨_, _, e⟩ := S.val2
  rw [e]
  exact ⟨⟨a1, a2, a3, a4, a5, a6, a7, a8, a9, a10, a11, a12, a13⟩, b1, b2, b3, b4, b5⟩
theorem same3 : SameHeader S.h S.c3 ∧ S.c3.types = [] ∧ S.c3.globals = [] ∧ S.c3.natives = [] ∧ S.c3.functions = [] ∧ S.c3.constants = [] := by
  obtain ⟨⟨a1, a2, a3, a4, a5, a6, a7, a8, a9, a10, a11, a12, a13⟩, b1, b2, b3, b4, b5⟩ := S.same2
  obtain ⟨_, _, e⟩ := S.val3
  rw [e]
  exact ⟨⟨a1, a2, a3, a4, a5, a6, a7, a8, a9, a10, a11, a12, a13⟩, b1, b2, b3, b4, b5⟩
theorem same4 : SameHeader S.h S.c4 ∧ S.c4.globals = [] ∧ S.c4.natives = [] ∧ S.c4.functions = [] ∧ S.c4.constants = [] := by
  obtain ⟨⟨a1, a2, a3, a4, a5, a6, a7, a8, a9, a10, a11, a12, a13⟩, b1, b2, b3, b4, b5⟩ := S.same3
  obtain ⟨_, _, e⟩ := S.val4
  rw [e]
  exact ⟨⟨a1, a2, a3, a4, a5, a6, a7, a8, a9, a10, a11, a12, a13⟩, b2, b3, b4, b5⟩
theorem same5 : SameHeader S.h S.c5 ∧ S.c5.natives = [] ∧ S.c5.functions = [] ∧ S.c5.constants = [] := by
  obtain ⟨⟨a1, a2, a3, a4, a5, a6, a7, a8, a9, a10, a11, a12, a13⟩, b2, b3, b4, b5⟩ := S.same4
  obtain ⟨_, e⟩ := S.val5
  rw [e]
  exact ⟨⟨a1, a2, a3, a4, a5, a6, a7, a8, a9, a10, a11, a12, a13⟩, b3, b4, b5⟩
theorem same6 : SameHeader S.h S.c6 ∧ S.c6.functions = [] ∧ S.c6.constants = [] := by
  obtain ⟨⟨a1, a2, a3, a4, a5, a6, a7, a8, a9, a10, a11, a12, a13⟩, b3, b4, b5⟩ := S.same5
  obtain ⟨_, e⟩ := S.val6
  rw [e]
  exact ⟨⟨a1, a2, a3, a4, a5, a6, a7, a8, a9, a10, a11, a12, a13⟩, b4, b5⟩
theorem same7 : SameHeader S.h S.c7 ∧ S.c7.constants = [] := by
  obtain ⟨⟨a1, a2, a3, a4, a5, a6, a7, a8, a9, a10, a11, a12, a13⟩, b4, b5⟩ := S.same6
  obtain ⟨_, e⟩ := S.val7
  rw [e]
  exact ⟨⟨a1, a2, a3, a4, a5, a6, a7, a8, a9, a10, a11, a12, a13⟩, b5⟩
theorem same8 : SameHeader S.h S.c8 := by
  obtain ⟨⟨a1, a2, a3, a4, a5, a6, a7, a8, a9, a10, a11, a12, a13⟩, b5⟩ := S.same7
  obtain ⟨_, e⟩ := S.val8
  rw [e]
  exact ⟨a1, a2, a3, a4, a5, a6, a7, a8, a9, a10, a11, a12, a13⟩

/-- `Code::read` returns `decoder.code`, which is only set by the debug files and by the loops over types, globals,
natives, functions and constants. -/
theorem code : (¬ S.h.Bare → c = S.c8) ∧ (S.h.Bare → c = Code.new) := by
  have e3 : (S.c2.hasdebug ≠ 0 ∧ S.d3 = S.c3) ∨ (S.c2.hasdebug = 0 ∧ S.d3 = Code.new) := by
    have h3 := S.debugFiles
    unfold debugFilesG at h3
    split at h3
    · next hd =>
      obtain ⟨_, _, _, _, _, _, _, _, _, _, _, _, _, _, _, _, _, ⟨_, h⟩, _, h', h''⟩ := h3
      exact .inl ⟨hd, by rw [h'', h, h']⟩
    · next hd => exact .inr ⟨Decidable.not_not.1 hd, h3.2.2⟩
  have l4 := loop_code (fun _ _ _ _ _ _ h => (typesStepG_value h).1) _ _ _ _ _ _ _ S.types
  have l5 := loop_code (fun _ _ _ _ _ _ h => globalsStepG_code h) _ _ _ _ _ _ _ S.globals
  have l6 := loop_code (fun _ _ _ _ _ _ h => nativesStepG_code h) _ _ _ _ _ _ _ S.natives
  have l7 := loop_code (fun _ _ _ _ _ _ h => functionsStepG_code h) _ _ _ _ _ _ _ S.functions
  have l8 := loop_code (fun _ _ _ _ _ _ h => constantsStepG_code h) _ _ _ _ _ _ _ S.constants
  rw [S.same2.1.hasdebug] at e3
  have l4' : (S.h.ntypes = 0 ∧ S.c4 = S.c3 ∧ S.d4 = S.d3) ∨ (0 < S.h.ntypes ∧ S.d4 = S.c4) := by
    have t := S.same3.2.1
    rw [← S.same3.1.ntypes]
    rcases l4 with ⟨z, h, h'⟩ | h
    · refine .inl ⟨z, ?_, h'⟩
      rw [h]
      exact no_types t z
    · exact .inr h
  have l5' : (S.h.nglobals = 0 ∧ S.c5 = S.c4 ∧ S.d5 = S.d4) ∨ (0 < S.h.nglobals ∧ S.d5 = S.c5) := by
    have t := S.same4.2.1
    rw [← S.same4.1.nglobals]
    rcases l5 with ⟨z, h, h'⟩ | h
    · refine .inl ⟨z, ?_, h'⟩
      rw [h]
      exact no_globals t z
    · exact .inr h
  have l6' : (S.h.nnatives = 0 ∧ S.c6 = S.c5 ∧ S.d6 = S.d5) ∨ (0 < S.h.nnatives ∧ S.d6 = S.c6) := by
    have t := S.same5.2.1
    rw [← S.same5.1.nnatives]
    rcases l6 with ⟨z, h, h'⟩ | h
    · refine .inl ⟨z, ?_, h'⟩
      rw [h]
      exact no_natives t
    · exact .inr h
  clear l4 l5 l6
  rw [S.same6.1.nfunctions] at l7
  rw [S.same7.1.nconstants] at l8
  have z4 : S.h.ntypes = 0 → S.c4 = S.c3 := by
    intro z
    rcases l4' with ⟨_, h, _⟩ | ⟨h, _⟩
    · exact h
    · omega
  have z5 : S.h.nglobals = 0 → S.c5 = S.c4 := by
    intro z
    rcases l5' with ⟨_, h, _⟩ | ⟨h, _⟩
    · exact h
    · omega
  have z6 : S.h.nnatives = 0 → S.c6 = S.c5 := by
    intro z
    rcases l6' with ⟨_, h, _⟩ | ⟨h, _⟩
    · exact h
    · omega
  have z7 : S.h.nfunctions = 0 → S.c7 = S.c6 := by
    intro z
    rcases l7 with ⟨_, h, _⟩ | ⟨h, _⟩
    · exact h
    · omega
  have z8 : S.h.nconstants = 0 → S.c8 = S.c7 := by
    intro z
    rcases l8 with ⟨_, h, _⟩ | ⟨h, _⟩
    · exact h
    · omega
  unfold Header.Bare
  constructor
  · intro nb
    rcases l8 with ⟨n8, _, e8⟩ | ⟨_, e8⟩
    case inr => exact e8
    rw [z8 n8]
    rcases l7 with ⟨n7, _, e7⟩ | ⟨_, e7⟩
    case inr => exact e8.trans (by rw [e7])
    rw [z7 n7]
    rcases l6' with ⟨n6, _, e6⟩ | ⟨_, e6⟩
    case inr => exact e8.trans (by rw [e7, e6])
    rw [z6 n6]
    rcases l5' with ⟨n5, _, e5⟩ | ⟨_, e5⟩
    case inr => exact e8.trans (by rw [e7, e6, e5])
    rw [z5 n5]
    rcases l4' with ⟨n4, _, e4⟩ | ⟨_, e4⟩
    case inr => exact e8.trans (by rw [e7, e6, e5, e4])
    rw [z4 n4]
    rcases e3 with ⟨_, e3⟩ | ⟨h, _⟩
    · exact e8.trans (by rw [e7, e6, e5, e4, e3])
    · exact absurd ⟨h, n4, n5, n6, n7, n8⟩ nb
  · rintro ⟨n3, n4, n5, n6, n7, n8⟩
    have e8 : c = S.d7 := by rcases l8 with h | h; exact h.2.2; omega
    have e7 : S.d7 = S.d6 := by rcases l7 with h | h; exact h.2.2; omega
    have e6 : S.d6 = S.d5 := by rcases l6' with h | h; exact h.2.2; omega
    have e5 : S.d5 = S.d4 := by rcases l5' with h | h; exact h.2.2; omega
    have e4 : S.d4 = S.d3 := by rcases l4' with h | h; exact h.2.2; omega
    have e3 : S.d3 = Code.new := by rcases e3 with h | h; omega; exact h.2
    exact e8.trans (by rw [e7, e6, e5, e4, e3])

end Sections

end Verif.Brass
